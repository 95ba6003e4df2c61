import Verif.Lemmas.PlanarRidge
import Verif.Props.WignerSeitz
import Mathlib.Data.Fintype.BigOperators

/-!
# C97: symmetry points of Wigner-Seitz cells
-/

set_option autoImplicit false

namespace Lattpy

open Matrix LatticeBasis

variable {d : ℕ}

/-- The point is one of the corners, edge centres or face centres. -/
def SymPoints.Lists (S : SymPoints d) (x : Vec d ℝ) : Prop :=
  x ∈ S.corners ∨ (∃ l, S.edgeCenters = some l ∧ x ∈ l) ∨ ∃ l, S.faceCenters = some l ∧ x ∈ l

/-- Two of the points are nearest to `x`. -/
def OnBoundary (ps : List (Vec d ℝ)) (x : Vec d ℝ) : Prop :=
  ∃ p ∈ ps, ∃ r ∈ ps, p ≠ r ∧ distance x p = distance x r ∧ ∀ s ∈ ps, distance x p ≤ distance x s

/-- The origin and another point are nearest to `x`. -/
def OnOriginBoundary (ps : List (Vec d ℝ)) (x : Vec d ℝ) : Prop :=
  (∀ s ∈ ps, distance x 0 ≤ distance x s) ∧ ∃ r ∈ ps, r ≠ 0 ∧ distance x r = distance x 0

theorem vertex_boundary (hd : 1 ≤ d) {ps : List (Vec d ℝ)} {v : Vec d ℝ}
    (h : IsVoronoiVertex ps v) : OnBoundary ps v := by
  obtain ⟨ρ, h1, h2⟩ := h
  have hc : (Pi.single ⟨0, hd⟩ 1 : Vec d ℝ) ≠ 0 := by
    intro h
    have := congrFun h ⟨0, hd⟩
    simp at this
  obtain ⟨p, hp, ep, -⟩ := h2 _ 0 hc
  obtain ⟨r, hr, er, hne⟩ := h2 _ ((Pi.single ⟨0, hd⟩ 1 : Vec d ℝ) ⬝ᵥ p) hc
  refine ⟨p, hp, r, hr, ?_, by rw [ep, er], fun s hs => by rw [ep]; exact h1 s hs⟩
  rintro rfl
  exact hne rfl

theorem vertex_origin (hd : 1 ≤ d) {ps : List (Vec d ℝ)} {m : ℝ} (h0 : 0 ∈ ps)
    (hps : ∀ p ∈ ps, p ≠ 0 → p ⬝ᵥ p = m) {v : Vec d ℝ}
    (h : IsVoronoiVertex ps v) : OnOriginBoundary ps v := by
  obtain ⟨p, hp, r, hr, hne, he, hle⟩ := vertex_boundary hd h
  obtain ⟨ρ, h1, h2⟩ := h
  have hc : (Pi.single ⟨0, hd⟩ 1 : Vec d ℝ) ≠ 0 := by
    intro h
    have := congrFun h ⟨0, hd⟩
    simp at this
  have hρ : distance v p = ρ := by
    obtain ⟨p', hp', e', -⟩ := h2 _ 0 hc
    exact le_antisymm (e' ▸ hle p' hp') (h1 p hp)
  have hmin : distance v 0 = ρ := by
    by_contra hne0
    have hlt : ρ < distance v 0 := lt_of_le_of_ne (h1 0 h0) (Ne.symm hne0)
    have key : ∀ s ∈ ps, distance v s = ρ → v ⬝ᵥ s = (v ⬝ᵥ v + m - ρ ^ 2) / 2 := by
      intro s hs es
      have hs0 : s ≠ 0 := by rintro rfl; exact hne0 es
      have := distance_sq v s
      rw [es, hps s hs hs0] at this
      linarith
    by_cases hv : v = 0
    · have h3 := h1 0 h0
      have h4 : distance v 0 = 0 := by
        have := distance_sq v 0
        rw [hv] at this ⊢
        simpa using this
      have h5 := distance_nonneg v p
      rw [hρ] at h5
      linarith
    · obtain ⟨s, hs, es, hns⟩ := h2 v _ hv
      exact hns (key s hs es)
  refine ⟨fun s hs => hmin ▸ h1 s hs, ?_⟩
  by_cases hp0 : p = 0
  · exact ⟨r, hr, fun h => hne (by rw [hp0, h]), by rw [← he, hρ, hmin]⟩
  · exact ⟨p, hp, hp0, by rw [hρ, hmin]⟩

/-- The points listed by `symmetry_points` are vertices or lie on a ridge between two cells. -/
theorem lists_cases {q : Qhull d} (R : QhullRidges q) {ps : List (Vec d ℝ)} {w : WSCell d ℝ}
    {S : SymPoints d} (hd : d ≠ 1) (h : WSCell.make q ps = .ok w)
    (hS : w.symmetryPoints (R.edges ps) = .ok S) {x : Vec d ℝ} (hx : S.Lists x) :
    x ∈ w.vertices ∨ ∃ p r, FullRidge ps p r ∧ FiniteRidge (ridge ps p r) ∧ x ∈ ridge ps p r := by
  have hedge : ∀ l ∈ R.edges ps, ∃ p r L, FullRidge ps p r ∧ FiniteRidge (ridge ps p r) ∧
      w.simplexVertices l = .ok L ∧ ∀ v ∈ L, v ∈ ridge ps p r := by
    intro l hl
    unfold QhullRidges.edges at hl
    rw [if_neg hd] at hl
    obtain ⟨e, he, rfl⟩ := List.mem_map.1 hl
    obtain ⟨h1, h2, L, h3, -, h4⟩ := edge_vertices R hd h he
    exact ⟨_, _, L, h1, h2, h3, fun v hv => ((h4 v).1 hv).2⟩
  unfold WSCell.symmetryPoints at hS
  rw [if_neg hd] at hS
  split_ifs at hS with h2 h3
  · split at hS
    · cases hS
    · rename_i cs hcs
      cases hS
      rcases hx with hx | ⟨l, hl, hx⟩ | ⟨l, hl, hx⟩
      · exact .inl hx
      · cases hl
        obtain ⟨e, he, hec⟩ := forall₂_mem (mapM_forall₂ hcs) hx
        obtain ⟨p, r, L, f1, f2, f3, f4⟩ := hedge e he
        refine .inr ⟨p, r, f1, f2, ?_⟩
        unfold WSCell.edgeCenter2 at hec
        rw [f3] at hec
        split at hec
        · cases hec
        · rename_i p1 p2 hp
          cases hp
          cases hec
          exact ridge_midpoint (f4 _ (by simp)) (f4 _ (by simp))
        · cases hec
      · cases hl
  · split at hS
    · cases hS
    · rename_i cs hcs
      cases hS
      have hface : ∀ c ∈ cs, ∃ p r, FullRidge ps p r ∧ FiniteRidge (ridge ps p r) ∧
          c.1 ∈ ridge ps p r ∧ ∀ y ∈ c.2, y ∈ ridge ps p r := by
        intro c hc
        obtain ⟨e, he, hec⟩ := forall₂_mem (mapM_forall₂ hcs) hc
        obtain ⟨p, r, L, f1, f2, f3, f4⟩ := hedge e he
        refine ⟨p, r, f1, f2, ?_⟩
        unfold WSCell.faceCenter3 at hec
        rw [f3] at hec
        dsimp only at hec
        split at hec
        · cases hec
        · rename_i ch hch
          cases hec
          have hne : L ≠ [] := by
            rintro rfl
            simp [chain] at hch
          refine ⟨ridge_mean hne f4, fun y hy => ?_⟩
          obtain ⟨pr, hpr, rfl⟩ := List.mem_map.1 hy
          have := (chain_cycle hch).2.1 pr hpr
          exact ridge_midpoint (f4 _ this.1) (f4 _ this.2)
      rcases hx with hx | ⟨l, hl, hx⟩ | ⟨l, hl, hx⟩
      · exact .inl hx
      · cases hl
        obtain ⟨c, hc, hxc⟩ := List.mem_flatMap.1 hx
        obtain ⟨p, r, f1, f2, -, f4⟩ := hface c hc
        exact .inr ⟨p, r, f1, f2, f4 x hxc⟩
      · cases hl
        obtain ⟨c, hc, rfl⟩ := List.mem_map.1 hx
        obtain ⟨p, r, f1, f2, f3, -⟩ := hface c hc
        exact .inr ⟨p, r, f1, f2, f3⟩

theorem make_vertex {q : Qhull d} {ps : List (Vec d ℝ)} {w : WSCell d ℝ} (hd : d ≠ 1)
    (h : WSCell.make q ps = .ok w) {v : Vec d ℝ} : v ∈ w.vertices ↔ IsVoronoiVertex ps v := by
  have hv := make_vertices hd h
  by_cases hs : Spans ps
  · obtain ⟨vs, h1, h2⟩ := q.full ps hs
    rw [hv] at h1
    cases h1
    exact h2 v
  · rw [q.flat ps hs] at hv
    cases hv

/-- C97 in two and three dimensions, for any points: every corner, edge centre and face centre
returned by `symmetry_points` lies on the boundary between the cells of two points: these two are at
the same distance, and no point is closer. -/
theorem C97_boundary {q : Qhull d} (R : QhullRidges q) {ps : List (Vec d ℝ)} {w : WSCell d ℝ}
    {S : SymPoints d} (hd : 2 ≤ d) (h : WSCell.make q ps = .ok w)
    (hS : w.symmetryPoints (R.edges ps) = .ok S) :
    ∀ x, S.Lists x → OnBoundary ps x := by
  intro x hx
  rcases lists_cases R (by omega) h hS hx with hv | ⟨p, r, h1, -, h3⟩
  · exact vertex_boundary (by omega) ((make_vertex (by omega) h).1 hv)
  · exact ⟨p, h1.1, r, h1.2.1, h1.2.2.1, h3.1, h3.2⟩

/-- C97 for points at the same distance from the origin (in one, two and three dimensions): the
symmetry points lie on the boundary of the cell of the origin. -/
theorem C97_origin {q : Qhull d} (R : QhullRidges q) {ps : List (Vec d ℝ)} {w : WSCell d ℝ}
    {S : SymPoints d} {m : ℝ} (hd : 1 ≤ d) (h0 : 0 ∈ ps) (hps : ∀ p ∈ ps, p ≠ 0 → p ⬝ᵥ p = m)
    (h : WSCell.make q ps = .ok w) (hS : w.symmetryPoints (R.edges ps) = .ok S) :
    S.origin = 0 ∧ ∀ x, S.Lists x → OnOriginBoundary ps x := by
  constructor
  · unfold WSCell.symmetryPoints at hS
    split_ifs at hS
    · cases hS; rfl
    · split at hS
      · cases hS
      · cases hS; rfl
    · split at hS
      · cases hS
      · cases hS; rfl
  intro x hx
  by_cases h1 : d = 1
  · subst h1
    unfold WSCell.make at h
    rw [if_pos rfl] at h
    cases h
    unfold WSCell.symmetryPoints at hS
    rw [if_pos rfl] at hS
    cases hS
    rcases hx with hx | ⟨l, hl, -⟩ | ⟨l, hl, -⟩
    · simp only [voronoiVertices1, List.mem_filter, List.mem_map, decide_eq_true_eq] at hx
      obtain ⟨⟨p, hp, rfl⟩, hne⟩ := hx
      have hp0 : p ≠ 0 := by
        rintro rfl
        exact hne (by funext k; simp)
      have hpp := hps p hp hp0
      have hcl : ∀ r : Vec 1 ℝ, (fun k => p k / 2) ⬝ᵥ r = p 0 * r 0 / 2 := by
        intro r
        simp [dotProduct]
        ring
      have hdot : ∀ r : Vec 1 ℝ, r ⬝ᵥ r = r 0 * r 0 := by
        intro r
        simp [dotProduct]
      rw [hdot] at hpp
      refine ⟨fun s hs => ?_, p, hp, hp0, ?_⟩
      · rw [closer_iff, hcl]
        by_cases hs0 : s = 0
        · rw [hs0]; simp
        · have hss := hps s hs hs0
          rw [hss]
          rw [hdot] at hss
          nlinarith [sq_nonneg (p 0 - s 0)]
      · apply le_antisymm
        · rw [distance_le_iff, hcl, hdot]
          simp
          linarith
        · rw [closer_iff, hcl, hdot]
          linarith
    · cases hl
    · cases hl
  · rcases lists_cases R h1 h hS hx with hv | ⟨p, r, f1, f2, f3⟩
    · exact vertex_origin hd h0 hps ((make_vertex h1 h).1 hv)
    · rcases finite_ridge_origin h0 hps f1.1 f1.2.1 (f1.nonempty (by omega)) f2 with rfl | rfl
      · exact ⟨f3.2, r, f1.2.1, f1.2.2.1.symm, f3.1.symm⟩
      · exact ⟨fun s hs => by rw [← f3.1]; exact f3.2 s hs, p, f1.1, f1.2.2.1, f3.1⟩

/-- C97 in four and more dimensions: `NotImplementedError`. -/
theorem C97_dim (hd : 4 ≤ d) (w : WSCell d ℝ) (edges : List (List ℕ)) :
    w.symmetryPoints edges = .error .notImplemented := by
  unfold WSCell.symmetryPoints
  rw [if_neg (by omega), if_neg (by omega), if_neg (by omega)]

/-- C97 in the plane, for all points that do not lie on a line: `symmetry_points` does not raise, and
the edge centres are the midpoints of the edges.  An edge is the set of all points between two cells
(`ridge`), if this is a bounded set with more than one point; it is the segment between the corners
`u` and `v`. -/
theorem C97_planar {q : Qhull 2} (R : QhullRidges q) {ps : List (Vec 2 ℝ)} (hs : Spans ps) :
    ∃ w S l, WSCell.make q ps = .ok w ∧ w.symmetryPoints (R.edges ps) = .ok S ∧
      S.edgeCenters = some l ∧ S.faceCenters = none ∧
      ∀ x, x ∈ l ↔ ∃ p r u v, FullRidge ps p r ∧ FiniteRidge (ridge ps p r) ∧ u ≠ v ∧
        u ∈ S.corners ∧ v ∈ S.corners ∧ ridge ps p r = segment ℝ u v ∧
        x = fun k => (u k + v k) / 2 := by
  obtain ⟨vs, hvs, -⟩ := q.full ps hs
  have hmake : WSCell.make q ps = .ok ⟨ps, vs⟩ := by
    unfold WSCell.make
    rw [if_neg (by norm_num), hvs]
  set w : WSCell 2 ℝ := ⟨ps, vs⟩ with hw
  have hvert : ∀ v, v ∈ w.vertices ↔ IsVoronoiVertex ps v := fun v => make_vertex (by norm_num) hmake
  let E := (R.ridges ps).filter fun e => e.2.all fun i => decide (0 ≤ i)
  have hedge : ∀ e ∈ E, ∃ y, w.edgeCenter2 (e.2.map Int.toNat) = .ok y ∧ ∃ u v, u ≠ v ∧
      u ∈ w.vertices ∧ v ∈ w.vertices ∧ ridge ps e.1.1 e.1.2 = segment ℝ u v ∧
      y = fun k => (u k + v k) / 2 := by
    intro e he
    obtain ⟨h1, h2, L, h3, h4, h5⟩ := edge_vertices R (by norm_num) hmake he
    obtain ⟨u, v, huv, hseg, hx⟩ := planar_ridge h1 h2
    have hL : ∀ x, x ∈ L ↔ x ∈ [u, v] := by
      intro x
      rw [h5, hvert, hx]
      simp
    have hperm : L.Perm [u, v] :=
      (List.perm_ext_iff_of_nodup h4 (by simpa using huv)).2 hL
    have hu := (h5 u).1 ((hL u).2 (by simp))
    have hv := (h5 v).1 ((hL v).2 (by simp))
    obtain ⟨x, y, rfl⟩ := List.length_eq_two.1 (hperm.length_eq.trans rfl)
    refine ⟨WSCell.midpoint x y, ?_, u, v, huv, hu.1, hv.1, hseg, ?_⟩
    · unfold WSCell.edgeCenter2
      rw [h3]
    · funext k
      have := (hperm.map (· k)).sum_eq
      simp at this
      unfold WSCell.midpoint
      linarith
  choose! f hf using hedge
  have hm : (R.edges ps).mapM w.edgeCenter2 = .ok (E.map f) := by
    unfold QhullRidges.edges
    rw [if_neg (by norm_num)]
    exact mapM_map_ok _ _ _ _ fun e he => (hf e he).1
  refine ⟨w, ⟨0, w.vertices, some (E.map f), none⟩, E.map f, hmake, ?_, rfl, rfl, fun x => ?_⟩
  · unfold WSCell.symmetryPoints
    rw [if_neg (by norm_num), if_pos rfl, hm]
  · rw [List.mem_map]
    constructor
    · rintro ⟨e, he, rfl⟩
      obtain ⟨h1, h2, -⟩ := edge_vertices R (by norm_num) hmake he
      obtain ⟨-, u, v, g1, g2, g3, g4, g5⟩ := hf e he
      exact ⟨_, _, u, v, h1, h2, g1, g2, g3, g4, g5⟩
    · rintro ⟨p, r, u, v, h1, h2, g1, g2, g3, g4, rfl⟩
      have S := R.spec ps w.vertices (make_vertices (by norm_num) hmake)
      obtain ⟨e, he, hee⟩ := S.complete _ _ h1
      have hre : ridge ps e.1.1 e.1.2 = ridge ps p r := by
        rcases hee with hee | hee <;> rw [hee]
        exact ridge_swap
      have heE : e ∈ E := by
        refine List.mem_filter.2 ⟨he, ?_⟩
        rw [List.all_eq_true]
        intro i hi
        have hr := (S.range e he i hi).1
        have hne : i ≠ -1 := by
          rintro rfl
          exact (S.unbounded e he).1 hi (by rw [hre]; exact h2)
        simp only [decide_eq_true_eq]
        omega
      refine ⟨e, heE, ?_⟩
      obtain ⟨-, u', v', k1, k2, k3, k4, k5⟩ := hf e heE
      obtain ⟨u₀, v₀, -, -, hx⟩ := planar_ridge h1 h2
      have hends : ∀ y, y ∈ w.vertices → y ∈ ridge ps p r → y = u₀ ∨ y = v₀ :=
        fun y hy hyr => (hx y).1 ⟨(hvert y).1 hy, hyr⟩
      have a1 := hends u g2 (by rw [g4]; exact left_mem_segment ℝ u v)
      have a2 := hends v g3 (by rw [g4]; exact right_mem_segment ℝ u v)
      have a3 := hends u' k2 (by rw [← hre, k4]; exact left_mem_segment ℝ u' v')
      have a4 := hends v' k3 (by rw [← hre, k4]; exact right_mem_segment ℝ u' v')
      rw [k5]
      funext k
      have : u' k + v' k = u k + v k := by
        rcases a1 with rfl | rfl <;> rcases a2 with rfl | rfl <;> rcases a3 with rfl | rfl <;>
          rcases a4 with rfl | rfl <;> first
          | exact absurd rfl g1
          | exact absurd rfl k1
          | rfl
          | exact add_comm _ _
      rw [this]

/-- Three points that do not lie on a line. -/
example : Spans ([![0, 0], ![1, 0], ![0, 2]] : List (Vec 2 ℝ)) := by
  intro c t hc
  by_contra hno
  push Not at hno
  have h0 := hno ![0, 0] (by simp)
  have h1 := hno ![1, 0] (by simp)
  have h2 := hno ![0, 2] (by simp)
  rw [dot_two] at h0 h1 h2
  simp only [cons_val_zero, cons_val_one, mul_zero, add_zero, mul_one, zero_add] at h0 h1 h2
  apply hc
  funext k
  fin_cases k
  · exact h1.trans h0.symm
  · change c 1 = 0
    linarith

/-! ## hypercubic lattices -/

section cubic
variable {a : ℝ} {ps : List (Vec d ℝ)}

/-- The points of the cell of a hypercubic lattice. -/
def CubicPoints (a : ℝ) (ps : List (Vec d ℝ)) : Prop :=
  0 ∈ ps ∧ ∀ p, p ≠ 0 → (p ∈ ps ↔ ∃ k, ∃ s : ℝ, |s| = |a| ∧ p = Pi.single k s)

theorem single_ne {s : ℝ} (hs : s ≠ 0) (k : Fin d) : (Pi.single k s : Vec d ℝ) ≠ 0 := by
  intro h
  have := congrFun h k
  simp only [Pi.single_eq_same, Pi.zero_apply] at this
  exact hs this

theorem CubicPoints.single_mem (h : CubicPoints a ps) (ha : 0 < |a|) {s : ℝ} (hs : |s| = |a|)
    (k : Fin d) : (Pi.single k s : Vec d ℝ) ∈ ps :=
  (h.2 _ (single_ne (abs_pos.1 (hs ▸ ha)) k)).2 ⟨k, s, hs, rfl⟩

theorem CubicPoints.ridge_iff (h : CubicPoints a ps) (ha : 0 < |a|) {s : ℝ} (hs : |s| = |a|)
    (k : Fin d) (x : Vec d ℝ) :
    x ∈ ridge ps 0 (Pi.single k s) ↔ x k = s / 2 ∧ ∀ j, |x j| ≤ |a| / 2 := by
  have hs0 : s ≠ 0 := abs_pos.1 (hs ▸ ha)
  have hcl : ∀ j (t : ℝ), distance x 0 ≤ distance x (Pi.single j t) ↔ 2 * (x j * t) ≤ t * t := by
    intro j t
    rw [closer_iff, dotProduct_single, dotProduct_single, Pi.single_eq_same]
  have hall : (∀ p ∈ ps, distance x 0 ≤ distance x p) ↔ ∀ j, |x j| ≤ |a| / 2 := by
    constructor
    · intro hall j
      have h1 := (hcl j _).1 (hall _ (h.single_mem ha (s := a) rfl j))
      have h2 := (hcl j _).1 (hall _ (h.single_mem ha (s := -a) (abs_neg a) j))
      have h3 : |x j * a| ≤ a * a / 2 := abs_le.2 ⟨by linarith, by linarith⟩
      rw [abs_mul] at h3
      have h4 : |a| * |a| = a * a := abs_mul_abs_self a
      by_contra hlt
      push Not at hlt
      nlinarith
    · intro hj p hp
      by_cases hp0 : p = 0
      · rw [hp0]
      · obtain ⟨k', t, ht, rfl⟩ := (h.2 p hp0).1 hp
        rw [hcl]
        have h1 : x k' * t ≤ |x k'| * |t| := by rw [← abs_mul]; exact le_abs_self _
        have h2 := hj k'
        have h3 : |t| * |t| = t * t := abs_mul_abs_self t
        rw [← ht] at h2
        have h4 := abs_nonneg t
        nlinarith
  unfold ridge
  rw [Set.mem_ofPred_eq, hall]
  refine and_congr_left fun _ => ?_
  have e1 := distance_sq x 0
  have e2 := distance_sq x (Pi.single k s)
  rw [dotProduct_single, dotProduct_single, Pi.single_eq_same] at e2
  simp only [dotProduct_zero, mul_zero, sub_zero, add_zero] at e1
  constructor
  · intro he
    rw [he, e2] at e1
    have h1 : s * (x k - s / 2) = 0 := by linear_combination -e1 / 2
    linarith [(mul_eq_zero.1 h1).resolve_left hs0]
  · intro hk
    rw [← sq_eq_sq₀ (distance_nonneg _ _) (distance_nonneg _ _), e1, e2, hk]
    ring

theorem CubicPoints.full (h : CubicPoints a ps) (ha : 0 < |a|) {s : ℝ} (hs : |s| = |a|)
    (k : Fin d) : FullRidge ps 0 (Pi.single k s) ∧ FiniteRidge (ridge ps 0 (Pi.single k s)) := by
  have hs0 : s ≠ 0 := abs_pos.1 (hs ▸ ha)
  have hhalf : |s / 2| = |a| / 2 := by rw [abs_div, hs]; norm_num
  refine ⟨⟨h.1, h.single_mem ha hs k, (single_ne hs0 k).symm, fun c t hc => ?_⟩,
    |a| / 2, fun x hx j => ((h.ridge_iff ha hs k x).1 hx).2 j⟩
  have hbase : (Pi.single k (s / 2) : Vec d ℝ) ∈ ridge ps 0 (Pi.single k s) := by
    rw [h.ridge_iff ha hs]
    refine ⟨by simp, fun j => ?_⟩
    by_cases hj : j = k
    · subst hj; rw [Pi.single_eq_same, hhalf]
    · rw [Pi.single_eq_of_ne hj, abs_zero]; positivity
  refine ⟨-(c k / s), ?_⟩
  funext j
  by_cases hj : j = k
  · subst hj
    simp only [zero_sub, Pi.smul_apply, Pi.neg_apply, Pi.single_eq_same, smul_eq_mul]
    field_simp
  · simp only [zero_sub, Pi.smul_apply, Pi.neg_apply, Pi.single_eq_of_ne hj, smul_eq_mul, neg_zero,
      mul_zero]
    have h2 : (Pi.single k (s / 2) + Pi.single j (|a| / 2) : Vec d ℝ) ∈
        ridge ps 0 (Pi.single k s) := by
      rw [h.ridge_iff ha hs]
      refine ⟨by simp [Pi.single_eq_of_ne (Ne.symm hj)], fun i => ?_⟩
      rw [Pi.add_apply]
      by_cases hi : i = j
      · subst hi
        rw [Pi.single_eq_same, Pi.single_eq_of_ne hj, zero_add, abs_of_pos (by positivity)]
      · rw [Pi.single_eq_of_ne hi, add_zero]
        exact ((h.ridge_iff ha hs k _).1 hbase).2 i
    have e1 := hc _ hbase
    have e2 := hc _ h2
    rw [dotProduct_add, e1, dotProduct_single] at e2
    have : c j * (|a| / 2) = 0 := by linarith
    exact (mul_eq_zero.1 this).resolve_right (by positivity)

/-- The finite ridges of a hypercubic lattice, named by the neighbour of the origin. -/
theorem CubicPoints.ridges (h : CubicPoints a ps) (ha : 0 < |a|) (hd : 2 ≤ d) {q : Qhull d}
    (R : QhullRidges q) {w : WSCell d ℝ} (hw : WSCell.make q ps = .ok w) :
    let E := (R.ridges ps).filter fun e => e.2.all fun i => decide (0 ≤ i)
    (E.map fun e => e.1.1 + e.1.2).Nodup ∧
    (∀ p, p ∈ E.map (fun e => e.1.1 + e.1.2) ↔ ∃ k, ∃ s : ℝ, |s| = |a| ∧ p = Pi.single k s) ∧
    ∀ e ∈ E, ridge ps e.1.1 e.1.2 = ridge ps 0 (e.1.1 + e.1.2) := by
  intro E
  have S := R.spec ps w.vertices (make_vertices (by omega) hw)
  have hm : ∀ p ∈ ps, p ≠ 0 → p ⬝ᵥ p = a * a := by
    intro p hp hp0
    obtain ⟨k, s, hs, rfl⟩ := (h.2 p hp0).1 hp
    rw [dotProduct_single, Pi.single_eq_same, ← abs_mul_abs_self, hs, abs_mul_abs_self]
  have hE : ∀ e ∈ E, (e.1.1 = 0 ∨ e.1.2 = 0) ∧ FullRidge ps e.1.1 e.1.2 ∧ e ∈ R.ridges ps := by
    intro e he
    obtain ⟨h1, h2, -⟩ := edge_vertices R (by omega) hw he
    exact ⟨finite_ridge_origin h.1 hm h1.1 h1.2.1 (h1.nonempty hd) h2, h1, (List.mem_filter.1 he).1⟩
  refine ⟨?_, ?_, ?_⟩
  · have hp : E.Pairwise fun e e' => e.1 ≠ e'.1 ∧ e.1 ≠ e'.1.swap := S.once.sublist List.filter_sublist
    rw [List.Nodup, List.pairwise_map]
    refine hp.imp_of_mem ?_
    intro e e' he he' hne heq
    have h1 := (hE e he).1
    have h2 := (hE e' he').1
    rcases h1 with h1 | h1 <;> rcases h2 with h2 | h2 <;> rw [h1, h2] at heq <;>
      simp only [zero_add, add_zero] at heq
    · exact hne.1 (Prod.ext (h1.trans h2.symm) heq)
    · exact hne.2 (Prod.ext (h1.trans h2.symm) heq)
    · exact hne.2 (Prod.ext heq (h1.trans h2.symm))
    · exact hne.1 (Prod.ext heq (h1.trans h2.symm))
  · intro p
    constructor
    · intro hp
      obtain ⟨e, he, rfl⟩ := List.mem_map.1 hp
      obtain ⟨h1, h2, -⟩ := hE e he
      rcases h1 with h1 | h1
      · have := (h.2 e.1.2 (fun h0 => h2.2.2.1 (h1.trans h0.symm))).1 h2.2.1
        simpa [h1] using this
      · have := (h.2 e.1.1 (fun h0 => h2.2.2.1 (h0.trans h1.symm))).1 h2.1
        simpa [h1] using this
    · rintro ⟨k, s, hs, rfl⟩
      obtain ⟨h1, h2⟩ := h.full ha hs k
      obtain ⟨e, he, hee⟩ := S.complete _ _ h1
      refine List.mem_map.2 ⟨e, List.mem_filter.2 ⟨he, ?_⟩, by rcases hee with hee | hee <;> simp [hee]⟩
      rw [List.all_eq_true]
      intro i hi
      have hr := (S.range e he i hi).1
      have hfin : FiniteRidge (ridge ps e.1.1 e.1.2) := by
        rcases hee with hee | hee <;> rw [hee]
        · exact h2
        · rw [ridge_swap]; exact h2
      have hne : i ≠ -1 := by
        rintro rfl
        exact (S.unbounded e he).1 hi hfin
      simp only [decide_eq_true_eq]
      omega
  · intro e he
    rcases (hE e he).1 with h1 | h1
    · rw [h1, zero_add]
    · rw [h1, add_zero, ridge_swap]

/-- The vertices of one face of the cube: their number and their mean. -/
theorem CubicPoints.face (h : CubicPoints a ps) (ha : 0 < |a|) {s : ℝ} (hs : |s| = |a|)
    (k : Fin d) {L : List (Vec d ℝ)} (hnd : L.Nodup)
    (hL : ∀ v, v ∈ L ↔ (∀ j, |v j| = |a| / 2) ∧ v ∈ ridge ps 0 (Pi.single k s)) :
    L.length = 2 ^ (d - 1) ∧ WSCell.mean L = Pi.single k (s / 2) := by
  classical
  have hL' : ∀ v, v ∈ L ↔ v k = s / 2 ∧ ∀ j, |v j| = |a| / 2 := by
    intro v
    rw [hL, h.ridge_iff ha hs]
    exact ⟨fun h => ⟨h.2.1, h.1⟩, fun h => ⟨h.2, h.1, fun j => (h.2 j).le⟩⟩
  have hhalf : |s / 2| = |a| / 2 := by rw [abs_div, hs]; norm_num
  have hlen : L.length = 2 ^ (d - 1) := by
    have hset : L.toFinset = Fintype.piFinset fun j : Fin d =>
        if j = k then ({s / 2} : Finset ℝ) else {|a| / 2, -(|a| / 2)} := by
      ext v
      rw [List.mem_toFinset, hL', Fintype.mem_piFinset]
      constructor
      · rintro ⟨h1, h2⟩ j
        by_cases hj : j = k
        · subst hj; simp [h1]
        · rw [if_neg hj, Finset.mem_insert, Finset.mem_singleton]
          exact (abs_eq (by positivity)).1 (h2 j)
      · intro hall
        have hk := hall k
        rw [if_pos rfl, Finset.mem_singleton] at hk
        refine ⟨hk, fun j => ?_⟩
        by_cases hj : j = k
        · subst hj; rw [hk, hhalf]
        · have := hall j
          rw [if_neg hj, Finset.mem_insert, Finset.mem_singleton] at this
          exact (abs_eq (by positivity)).2 this
    rw [← List.toFinset_card_of_nodup hnd, hset, Fintype.card_piFinset]
    have hcard : ∀ j : Fin d, (if j = k then ({s / 2} : Finset ℝ) else {|a| / 2, -(|a| / 2)}).card =
        if j = k then 1 else 2 := by
      intro j
      split
      · simp
      · rw [Finset.card_pair]
        intro h
        linarith
    rw [Finset.prod_congr rfl fun j _ => hcard j, Finset.prod_ite]
    simp [Finset.filter_ne', Finset.card_erase_of_mem]
  refine ⟨hlen, ?_⟩
  have hperm : (L.map fun v => (Pi.single k s : Vec d ℝ) - v).Perm L := by
    refine (List.perm_ext_iff_of_nodup (hnd.map sub_right_injective) hnd).2 fun v => ?_
    rw [List.mem_map]
    have hrefl : ∀ v : Vec d ℝ, v ∈ L → (Pi.single k s : Vec d ℝ) - v ∈ L := by
      intro v hv
      rw [hL'] at hv ⊢
      constructor
      · rw [Pi.sub_apply, Pi.single_eq_same, hv.1]; ring
      · intro j
        by_cases hj : j = k
        · subst hj
          rw [Pi.sub_apply, Pi.single_eq_same, hv.1, show s - s / 2 = s / 2 by ring, hhalf]
        · rw [Pi.sub_apply, Pi.single_eq_of_ne hj, zero_sub, abs_neg, hv.2 j]
    constructor
    · rintro ⟨u, hu, rfl⟩
      exact hrefl u hu
    · intro hv
      exact ⟨_, hrefl v hv, by simp⟩
  have hpos : (0 : ℝ) < L.length := by
    rw [hlen]
    positivity
  funext j
  have hsum : ∀ l : List (Vec d ℝ), ((l.map fun v => (Pi.single k s : Vec d ℝ) - v).map (· j)).sum =
      l.length * (Pi.single k s : Vec d ℝ) j - (l.map (· j)).sum := by
    intro l
    induction l with
    | nil => simp
    | cons v l ih =>
      simp only [List.map_cons, List.sum_cons, ih, Pi.sub_apply, List.length_cons]
      push_cast
      ring
  have h1 := hsum L
  rw [(hperm.map (· j)).sum_eq] at h1
  unfold WSCell.mean
  rw [div_eq_iff hpos.ne']
  have h2 : (Pi.single k (s / 2) : Vec d ℝ) j = (Pi.single k s : Vec d ℝ) j / 2 := by
    by_cases hj : j = k
    · subst hj; simp
    · simp [Pi.single_eq_of_ne hj]
  rw [h2]
  linarith

end cubic

/-- The cell of a hypercubic lattice with a lattice constant of at least `1e-7`. -/
theorem cubic_cell (hd : 2 ≤ d) (q : Qhull d) (a : ℝ) (ha : 1 / 10 ^ 7 ≤ |a|) :
    ∃ b w, hypercubic d a = .ok b ∧ b.wignerSeitzCell q = .ok w ∧ CubicPoints a w.points ∧
      WSCell.make q w.points = .ok w ∧ ∀ v, v ∈ w.vertices ↔ ∀ k, |v k| = |a| / 2 := by
  have hpos : 0 < |a| := lt_of_lt_of_le (by norm_num) ha
  obtain ⟨b, hb⟩ := (init_eq_ok_iff (a • (1 : Matrix (Fin d) (Fin d) ℝ))).2 (by
    rw [det_smul, det_one, mul_one]; exact pow_ne_zero _ (abs_pos.1 hpos))
  obtain ⟨w, hw, -, h0, hmake, hspan, hmem⟩ := wsCell_equal (by omega) hb q hpos.le (cubic_row a)
    (cubic_min a)
  have hps : ∀ p, p ≠ 0 → (p ∈ w.points ↔ ∃ k, ∃ s : ℝ, |s| = |a| ∧ p = Pi.single k s) :=
    fun p hp => (hmem p hp).trans (cubic_points ha hp)
  exact ⟨b, w, hb, hw, ⟨h0, hps⟩, hmake, fun v => by
    rw [make_vertex (by omega) hmake, cubic_vertex hpos h0 hps]⟩

/-- The centres of the faces `±a/2 e_k`, each once. -/
def IsFaceCenters (a : ℝ) (l : List (Vec d ℝ)) : Prop :=
  l.Nodup ∧ ∀ x, x ∈ l ↔ ∃ k, ∃ s : ℝ, |s| = |a| / 2 ∧ x = Pi.single k s

theorem isFaceCenters_of {a : ℝ} {l : List (Vec d ℝ)} {g : Vec d ℝ → Vec d ℝ} (hnd : l.Nodup)
    (hl : ∀ p, p ∈ l ↔ ∃ k, ∃ s : ℝ, |s| = |a| ∧ p = Pi.single k s)
    (hg : ∀ k (s : ℝ), g (Pi.single k s) = Pi.single k (s / 2)) : IsFaceCenters a (l.map g) := by
  constructor
  · refine List.Nodup.map_on ?_ hnd
    intro x hx y hy hxy
    obtain ⟨k, s, -, rfl⟩ := (hl x).1 hx
    obtain ⟨j, t, -, rfl⟩ := (hl y).1 hy
    rw [hg, hg] at hxy
    funext i
    have h1 := congrFun hxy i
    simp only [Pi.single_apply] at h1 ⊢
    split_ifs at h1 ⊢ <;> linarith
  · intro x
    rw [List.mem_map]
    constructor
    · rintro ⟨p, hp, rfl⟩
      obtain ⟨k, s, hs, rfl⟩ := (hl p).1 hp
      exact ⟨k, s / 2, by rw [abs_div, hs]; norm_num, hg k s⟩
    · rintro ⟨k, s, hs, rfl⟩
      exact ⟨Pi.single k (2 * s), (hl _).2 ⟨k, 2 * s, by rw [abs_mul, hs, abs_two]; ring, rfl⟩, by
        rw [hg]; congr 1; ring⟩

theorem IsFaceCenters.length {a : ℝ} {l : List (Vec 3 ℝ)} (h : IsFaceCenters a l) (ha : 0 < |a|) :
    l.length = 6 := by
  classical
  have hset : l.toFinset = (Finset.univ : Finset (Fin 3 × Bool)).image fun p =>
      (Pi.single p.1 (if p.2 then |a| / 2 else -(|a| / 2)) : Vec 3 ℝ) := by
    ext x
    rw [List.mem_toFinset, h.2, Finset.mem_image]
    constructor
    · rintro ⟨k, s, hs, rfl⟩
      rcases (abs_eq (by positivity)).1 hs with rfl | rfl
      · exact ⟨(k, true), Finset.mem_univ _, rfl⟩
      · exact ⟨(k, false), Finset.mem_univ _, rfl⟩
    · rintro ⟨⟨k, b⟩, -, rfl⟩
      refine ⟨k, _, ?_, rfl⟩
      rw [abs_eq (by positivity)]
      cases b <;> simp
  rw [← List.toFinset_card_of_nodup h.1, hset, Finset.card_image_of_injective]
  · rfl
  · rintro ⟨k, b⟩ ⟨k', b'⟩ he
    have hk := congrFun he k
    simp only [Pi.single_apply, if_true] at hk
    by_cases hkk : k = k'
    · subst hkk
      rw [if_pos rfl] at hk
      cases b <;> cases b' <;> simp at hk ⊢ <;> linarith
    · rw [if_neg hkk] at hk
      exfalso
      have ha0 := abs_pos.1 ha
      cases b <;> simp at hk <;> exact ha0 hk

/-- The edges of the cell of a hypercubic lattice, their vertices and centres. -/
theorem cubic_edges {a : ℝ} (ha : 0 < |a|) (hd : 2 ≤ d) {q : Qhull d} (R : QhullRidges q)
    {w : WSCell d ℝ} (h : CubicPoints a w.points) (hw : WSCell.make q w.points = .ok w)
    (hv : ∀ v, v ∈ w.vertices ↔ ∀ k, |v k| = |a| / 2) :
    ∃ (E : List ((Vec d ℝ × Vec d ℝ) × List ℤ)) (c : (Vec d ℝ × Vec d ℝ) × List ℤ → Vec d ℝ),
      R.edges w.points = E.map (fun e => e.2.map Int.toNat) ∧ IsFaceCenters a (E.map c) ∧
      ∀ e ∈ E, ∃ L, w.simplexVertices (e.2.map Int.toNat) = .ok L ∧ L.Nodup ∧
        L.length = 2 ^ (d - 1) ∧ WSCell.mean L = c e ∧ ∀ v ∈ L, ∀ k, |v k| = |a| / 2 := by
  obtain ⟨h1, h2, h3⟩ := h.ridges ha hd R hw
  refine ⟨_, fun e => (fun x k => x k / 2) (e.1.1 + e.1.2), by
    unfold QhullRidges.edges; rw [if_neg (by omega)], ?_, ?_⟩
  · have hmm := isFaceCenters_of (g := fun (x : Vec d ℝ) k => x k / 2) h1 h2 fun k s => ?_
    · rw [List.map_map] at hmm
      exact hmm
    funext j
    simp only [Pi.single_apply]
    split_ifs <;> simp
  · intro e he
    obtain ⟨-, -, L, f1, f2, f3⟩ := edge_vertices R (by omega) hw he
    obtain ⟨k, s, hs, hes⟩ := (h2 _).1 (List.mem_map_of_mem he)
    have hf := h.face ha hs k f2 (fun v => by rw [f3, hv, h3 e he, hes])
    refine ⟨L, f1, f2, hf.1, ?_, fun v hvL => (hv v).1 ((f3 v).1 hvL).1⟩
    rw [hf.2]
    dsimp only
    rw [hes]
    funext j
    simp only [Pi.single_apply]
    split_ifs <;> simp

/-- C97 for the square lattice with a lattice constant of at least `1e-7`: the corners are
`(±a/2, ±a/2)` and the edge centres are `(±a/2, 0)` and `(0, ±a/2)`, each once. -/
theorem C97_square_partial (q : Qhull 2) (R : QhullRidges q) (a : ℝ) (ha : 1 / 10 ^ 7 ≤ |a|) :
    ∃ b w S l, hypercubic 2 a = .ok b ∧ b.wignerSeitzCell q = .ok w ∧
      w.symmetryPoints (R.edges w.points) = .ok S ∧
      (∀ v, v ∈ S.corners ↔ ∀ k, |v k| = |a| / 2) ∧
      S.edgeCenters = some l ∧ IsFaceCenters a l ∧ S.faceCenters = none := by
  have hpos : 0 < |a| := lt_of_lt_of_le (by norm_num) ha
  obtain ⟨b, w, hb, hw, hc, hmake, hv⟩ := cubic_cell (le_refl 2) q a ha
  obtain ⟨E, c, h1, h2, h3⟩ := cubic_edges hpos (le_refl 2) R hc hmake hv
  have hm : (R.edges w.points).mapM w.edgeCenter2 = .ok (E.map c) := by
    rw [h1]
    apply mapM_map_ok
    intro e he
    obtain ⟨L, f1, -, f3, f4, -⟩ := h3 e he
    obtain ⟨x, y, rfl⟩ := List.length_eq_two.1 f3
    unfold WSCell.edgeCenter2
    rw [f1]
    dsimp only
    rw [midpoint_eq_mean, f4]
  refine ⟨b, w, ⟨0, w.vertices, some (E.map c), none⟩, _, hb, hw, ?_, hv, rfl, h2, rfl⟩
  unfold WSCell.symmetryPoints
  rw [if_neg (by norm_num), if_pos rfl, hm]

/-- C97 for the simple cubic lattice with a lattice constant of at least `1e-7`: the corners are
`(±a/2, ±a/2, ±a/2)`, and the face centres are `±a/2 e_k`, each once; the list of edge centres has
four entries for each of the six faces. -/
theorem C97_cube_partial (q : Qhull 3) (R : QhullRidges q) (a : ℝ) (ha : 1 / 10 ^ 7 ≤ |a|) :
    ∃ b w S l m, hypercubic 3 a = .ok b ∧ b.wignerSeitzCell q = .ok w ∧
      w.symmetryPoints (R.edges w.points) = .ok S ∧
      (∀ v, v ∈ S.corners ↔ ∀ k, |v k| = |a| / 2) ∧
      S.faceCenters = some l ∧ IsFaceCenters a l ∧ S.edgeCenters = some m ∧ m.length = 24 ∧
      ∀ x ∈ m, (∀ k, x k = 0 ∨ |x k| = |a| / 2) ∧ ∃ k, x k = 0 := by
  have hpos : 0 < |a| := lt_of_lt_of_le (by norm_num) ha
  obtain ⟨b, w, hb, hw, hc, hmake, hv⟩ := cubic_cell (by norm_num) q a ha
  obtain ⟨E, c, h1, h2, h3⟩ := cubic_edges hpos (by norm_num) R hc hmake hv
  have hface : ∀ e ∈ E, ∃ y, w.faceCenter3 (e.2.map Int.toNat) = .ok y ∧ y.1 = c e ∧
      y.2.length = 4 ∧ ∀ x ∈ y.2, (∀ k, x k = 0 ∨ |x k| = |a| / 2) ∧ ∃ k, x k = 0 := by
    intro e he
    obtain ⟨L, f1, f2, f3, f4, f5⟩ := h3 e he
    have hne : L ≠ [] := by
      rintro rfl
      simp at f3
    obtain ⟨ch, hch⟩ : ∃ ch, chain L true = .ok ch := by
      obtain ⟨x, t, rfl⟩ := List.exists_cons_of_ne_nil hne
      unfold chain
      simp only [if_true, List.head?_cons, List.getLast?_cons]
      exact ⟨_, rfl⟩
    obtain ⟨g1, g2, g3⟩ := chain_cycle hch
    refine ⟨(WSCell.mean L, ch.map fun p => WSCell.midpoint p.1 p.2), ?_, f4, ?_, ?_⟩
    · unfold WSCell.faceCenter3
      rw [f1]
      dsimp only
      rw [hch]
    · rw [List.length_map, g1, f3]
      norm_num
    · intro x hx
      obtain ⟨p, hp, rfl⟩ := List.mem_map.1 hx
      have hcoord : ∀ k, WSCell.midpoint p.1 p.2 k = 0 ∨
          (|WSCell.midpoint p.1 p.2 k| = |a| / 2 ∧ p.1 k = p.2 k) := by
        intro k
        have e1 := f5 _ (g2 p hp).1 k
        have e2 := f5 _ (g2 p hp).2 k
        unfold WSCell.midpoint
        rcases abs_eq_abs.1 (e1.trans e2.symm) with h | h
        · right
          rw [h, sub_self, zero_div, add_zero]
          exact ⟨e2, rfl⟩
        · left
          rw [h]
          ring
      refine ⟨fun k => (hcoord k).imp id And.left, ?_⟩
      by_contra hno
      push Not at hno
      refine g3 (by rw [f3]; norm_num) f2 p hp ?_
      funext k
      exact ((hcoord k).resolve_left (hno k)).2
  choose! f hf using hface
  have hm : (R.edges w.points).mapM w.faceCenter3 = .ok (E.map f) := by
    rw [h1]
    exact mapM_map_ok _ _ _ _ fun e he => (hf e he).1
  have hl : (E.map f).map (·.1) = E.map c := by
    rw [List.map_map]
    exact List.map_congr_left fun e he => (hf e he).2.1
  have hE : E.length = 6 := by
    rw [← List.length_map c]
    exact h2.length (by positivity)
  refine ⟨b, w, ⟨0, w.vertices, some ((E.map f).flatMap (·.2)), some ((E.map f).map (·.1))⟩, _, _, hb,
    hw, ?_, hv, rfl, by rw [hl]; exact h2, rfl, ?_, ?_⟩
  · unfold WSCell.symmetryPoints
    rw [if_neg (by norm_num), if_neg (by norm_num), if_pos rfl, hm]
  · have hlen : (E.map f).map (fun y => y.2.length) = E.map fun _ => 4 := by
      rw [List.map_map]
      exact List.map_congr_left fun e he => (hf e he).2.2.1
    rw [List.length_flatMap, hlen]
    simp [hE]
  · intro x hx
    obtain ⟨y, hy, hxy⟩ := List.mem_flatMap.1 hx
    obtain ⟨e, he, rfl⟩ := List.mem_map.1 hy
    exact (hf e he).2.2.2 x hxy

/-- C97 fails for the simple cubic lattice: the list of edge centres has repetitions (every edge of
the cell belongs to two faces). -/
theorem C97_edges_fails (q : Qhull 3) (R : QhullRidges q) :
    ∃ b w S m, hypercubic 3 1 = .ok b ∧ b.wignerSeitzCell q = .ok w ∧
      w.symmetryPoints (R.edges w.points) = .ok S ∧ S.edgeCenters = some m ∧ ¬ m.Nodup := by
  classical
  obtain ⟨b, w, S, l, m, h1, h2, h3, -, -, -, h4, h5, h6⟩ := C97_cube_partial q R 1 (by norm_num)
  refine ⟨b, w, S, m, h1, h2, h3, h4, fun hnd => ?_⟩
  let A : Finset (Vec 3 ℝ) := Fintype.piFinset fun _ => {0, 1 / 2, -(1 / 2)}
  let B : Finset (Vec 3 ℝ) := Fintype.piFinset fun _ => {1 / 2, -(1 / 2)}
  have hsub : m.toFinset ⊆ A \ B := by
    intro x hx
    obtain ⟨g1, k, g2⟩ := h6 x (List.mem_toFinset.1 hx)
    rw [Finset.mem_sdiff, Fintype.mem_piFinset, Fintype.mem_piFinset]
    constructor
    · intro j
      rcases g1 j with h | h
      · simp [h]
      · rw [abs_one, abs_eq (by norm_num)] at h
        simp only [Finset.mem_insert, Finset.mem_singleton]
        exact .inr h
    · intro hall
      have := hall k
      rw [g2] at this
      norm_num at this
  have hBA : B ⊆ A := Fintype.piFinset_subset _ _ fun _ => by simp
  have hA : A.card = 27 := by
    rw [Fintype.card_piFinset]
    have : ({0, 1 / 2, -(1 / 2)} : Finset ℝ).card = 3 :=
      Finset.card_eq_three.2 ⟨0, 1 / 2, -(1 / 2), by norm_num, by norm_num, by norm_num, rfl⟩
    simp only [this]
    simp
  have hB : B.card = 8 := by
    rw [Fintype.card_piFinset]
    have : ({1 / 2, -(1 / 2)} : Finset ℝ).card = 2 := Finset.card_pair (by norm_num)
    simp only [this]
    simp
  have hcard := Finset.card_le_card hsub
  rw [Finset.card_sdiff_of_subset hBA, hA, hB, List.toFinset_card_of_nodup hnd, h5] at hcard
  omega

/-- The cell of the square lattice with the exact Qhull. -/
example : ∃ b w S, hypercubic 2 (-3) = .ok b ∧ b.wignerSeitzCell (Qhull.exact 2) = .ok w ∧
    w.symmetryPoints ((QhullRidges.exact (Qhull.exact 2)).edges w.points) = .ok S ∧
    S.Lists ![0, 3 / 2] := by
  obtain ⟨b, w, S, l, h1, h2, h3, -, h4, h5, -⟩ := C97_square_partial (Qhull.exact 2)
    (QhullRidges.exact _) (-3) (by norm_num)
  refine ⟨b, w, S, h1, h2, h3, .inr (.inl ⟨l, h4, (h5.2 _).2 ⟨1, 3 / 2, by norm_num, ?_⟩⟩)⟩
  funext k
  fin_cases k <;> simp

end Lattpy
