import Verif.Model.ShapePlot
import Verif.Props.Shape
import Verif.Lemmas.Chain

/-!
# C112: plotting a shape draws its boundary
-/

set_option autoImplicit false

namespace Lattpy

open Matrix

namespace AShape

/-- A boundary point of the region described by `contains`: it is contained, but not with a negative
tolerance. -/
def OnBoundary {d : ℕ} (s : AShape d ℝ) (p : Vec d ℝ) : Prop :=
  s.contains p 0 = .ok true ∧ ∀ tol < 0, s.contains p tol = .ok false

/-- The point lies between two points. -/
def Between {d : ℕ} (a b p : Vec d ℝ) : Prop :=
  ∃ u : ℝ, 0 ≤ u ∧ u ≤ 1 ∧ ∀ k, p k = (1 - u) * a k + u * b k

/-- The vertex of a box with the basis `b` at the far end of the axes with `t k = true`. -/
noncomputable def vertex {d : ℕ} (size pos : Vec d ℝ) (basis : Option (Matrix (Fin d) (Fin d) ℝ))
    (t : Fin d → Bool) : Vec d ℝ := fun k => match basis with
  | none => pos k + if t k then size k else 0
  | some b => ∑ j, (pos j + if t j then size j else 0) * b j k

/-- `box` in a basis of linearly independent vectors, or without basis. -/
def BasisOk {d : ℕ} (basis : Option (Matrix (Fin d) (Fin d) ℝ)) : Prop :=
  ∀ b, basis = some b → b.det ≠ 0

theorem boxList_choice {d : ℕ} (size : Vec d ℝ) :
    (boxList fun k => [0, size k]) =
      (boxList fun _ : Fin d => [false, true]).map fun t k => if t k then size k else 0 := by
  induction d with
  | zero =>
    simp only [boxList, List.map_singleton]
    congr 1
    funext k
    exact k.elim0
  | succ d ih =>
    simp only [boxList, List.flatMap_cons, List.flatMap_nil, List.append_nil, List.map_append,
      List.map_map, ih fun k => size k.succ]
    congr 1 <;>
    · apply List.map_congr_left
      intro t _
      funext k
      refine Fin.cases ?_ (fun k => ?_) k <;> simp

theorem corners_eq {d : ℕ} (size pos : Vec d ℝ) (basis : Option (Matrix (Fin d) (Fin d) ℝ)) :
    corners size pos basis =
      (boxList fun _ : Fin d => [false, true]).map (vertex size pos basis) := by
  unfold corners
  rw [boxList_choice]
  cases basis with
  | none =>
    dsimp only
    rw [List.map_map]
    rfl
  | some b =>
    dsimp only
    rw [List.map_map, List.map_map]
    rfl

theorem takeCorners_map {d : ℕ} {α : Type*} (l : List α) (f : α → Vec d ℝ) (idx : List (List ℕ))
    (res : List (List α)) (h : (idx.map fun r => r.map fun i => l[i]?) = res.map fun r => r.map some) :
    takeCorners (l.map f) idx = .ok (res.map fun r => r.map f) := by
  have row : ∀ (r : List ℕ) (s : List α), (r.map fun i => l[i]?) = s.map some →
      r.mapM (cornerAt (l.map f)) = .ok (s.map f) := by
    intro r
    induction r with
    | nil =>
      intro s hs
      cases s with
      | nil => rfl
      | cons => simp at hs
    | cons i r ih =>
      intro s hs
      cases s with
      | nil => simp at hs
      | cons x s =>
        simp only [List.map_cons, List.cons.injEq] at hs
        rw [List.mapM_cons, ih s hs.2, cornerAt, List.getElem?_map, hs.1]
        rfl
  unfold takeCorners
  induction idx generalizing res with
  | nil =>
    cases res with
    | nil => rfl
    | cons => simp at h
  | cons r idx ih =>
    cases res with
    | nil => simp at h
    | cons s res =>
      simp only [List.map_cons, List.cons.injEq] at h
      rw [List.mapM_cons, ih res h.2, row r s h.1]
      rfl

/-- What is drawn, by the far axes of the vertices. -/
theorem plotBox_eq {d : ℕ} (size pos : Vec d ℝ) (basis : Option (Matrix (Fin d) (Fin d) ℝ))
    {es fs : List (List ℕ)} {lines areas : List (List (Fin d → Bool))}
    (he : boxEdges d = some es) (hf : boxSurfaces d = some fs)
    (hl : (es.map fun r => r.map fun i => (boxList fun _ : Fin d => [false, true])[i]?) =
      lines.map fun r => r.map some)
    (ha : (fs.map fun r => r.map fun i => (boxList fun _ : Fin d => [false, true])[i]?) =
      areas.map fun r => r.map some) :
    plotBox size pos basis = .ok ⟨lines.map fun r => r.map (vertex size pos basis), [],
      areas.map fun r => r.map (vertex size pos basis), []⟩ := by
  unfold plotBox
  rw [he, hf, corners_eq]
  dsimp only
  rw [takeCorners_map _ _ _ _ hl, takeCorners_map _ _ _ _ ha]

/-- The point with the coordinates `q` in the basis. -/
def place {d : ℕ} (basis : Option (Matrix (Fin d) (Fin d) ℝ)) (q : Vec d ℝ) : Vec d ℝ :=
  match basis with
  | none => q
  | some b => q ᵥ* b

theorem vertex_eq {d : ℕ} (size pos : Vec d ℝ) (basis : Option (Matrix (Fin d) (Fin d) ℝ))
    (t : Fin d → Bool) : vertex size pos basis t =
      place basis fun k => pos k + if t k then size k else 0 := by
  cases basis <;> rfl

theorem place_surj {d : ℕ} {basis : Option (Matrix (Fin d) (Fin d) ℝ)} (hb : BasisOk basis)
    (p : Vec d ℝ) : ∃ q, p = place basis q := by
  cases basis with
  | none => exact ⟨p, rfl⟩
  | some b =>
    refine ⟨p ᵥ* (b.det⁻¹ • b.adjugate), ?_⟩
    change p = (p ᵥ* (b.det⁻¹ • b.adjugate)) ᵥ* b
    rw [vecMul_vecMul, (inv_cancel b (hb b rfl)).1, vecMul_one]

theorem place_comb {d : ℕ} (basis : Option (Matrix (Fin d) (Fin d) ℝ)) (a b : Vec d ℝ) (u : ℝ)
    (k : Fin d) : place basis (fun k => (1 - u) * a k + u * b k) k =
      (1 - u) * place basis a k + u * place basis b k := by
  cases basis with
  | none => rfl
  | some m =>
    simp only [place, Matrix.vecMul, dotProduct, Finset.mul_sum, ← Finset.sum_add_distrib]
    refine Finset.sum_congr rfl fun j _ => ?_
    ring

/-- `contains` in the coordinates of the box. -/
theorem contains_place {d : ℕ} (size pos q : Vec d ℝ) {basis : Option (Matrix (Fin d) (Fin d) ℝ)}
    (hb : BasisOk basis) (tol : ℝ) :
    (box size pos basis).contains (place basis q) tol =
      .ok (decide (∀ k, pos k - tol ≤ q k ∧ q k ≤ pos k + size k + tol)) := by
  cases basis with
  | none => rfl
  | some b =>
    have hdet := hb b rfl
    have e : place (some b) q ᵥ* (b.det⁻¹ • b.adjugate) = q := by
      change (q ᵥ* b) ᵥ* _ = q
      rw [Matrix.vecMul_vecMul, (inv_cancel b hdet).2, Matrix.vecMul_one]
    simp only [contains, if_neg hdet]
    congr 1
    rw [decide_eq_decide, e]

/-- The boundary in the coordinates of the box. -/
theorem onBoundary_place {d : ℕ} (hd : 0 < d) {size pos q : Vec d ℝ}
    {basis : Option (Matrix (Fin d) (Fin d) ℝ)} (hb : BasisOk basis) :
    OnBoundary (box size pos basis) (place basis q) ↔
      (∀ k, pos k ≤ q k ∧ q k ≤ pos k + size k) ∧ ∃ k, q k = pos k ∨ q k = pos k + size k := by
  unfold OnBoundary
  simp only [contains_place size pos q hb, Except.ok.injEq, decide_eq_true_eq, decide_eq_false_iff_not,
    sub_zero, add_zero]
  refine and_congr_right fun hin => ?_
  constructor
  · intro h
    by_contra hc
    push Not at hc
    have : Nonempty (Fin d) := ⟨⟨0, hd⟩⟩
    obtain ⟨k, -, hk⟩ := Finset.exists_min_image Finset.univ
      (fun k => min (q k - pos k) (pos k + size k - q k)) Finset.univ_nonempty
    have hpos : 0 < min (q k - pos k) (pos k + size k - q k) := by
      refine lt_min ?_ ?_
      · have := (hin k).1.lt_of_ne (hc k).1.symm
        linarith
      · have := (hin k).2.lt_of_ne (hc k).2
        linarith
    refine h (-min (q k - pos k) (pos k + size k - q k)) (by linarith) fun j => ?_
    have hj := hk j (Finset.mem_univ j)
    have h1 := hj.trans (min_le_left _ _)
    have h2 := hj.trans (min_le_right _ _)
    constructor <;> linarith
  · rintro ⟨k, hk⟩ tol htol hall
    have := hall k
    rcases hk with hk | hk
    · linarith [this.1]
    · linarith [this.2]

/-- Points on an edge are on the boundary. -/
theorem edge_onBoundary {d : ℕ} {size pos : Vec d ℝ} {basis : Option (Matrix (Fin d) (Fin d) ℝ)}
    (hs : ∀ k, 0 ≤ size k) (hb : BasisOk basis) {t t' : Fin d → Bool} {j : Fin d} (hj : t j = t' j)
    {p : Vec d ℝ} (h : Between (vertex size pos basis t) (vertex size pos basis t') p) :
    OnBoundary (box size pos basis) p := by
  obtain ⟨u, h0, h1, h⟩ := h
  rw [vertex_eq, vertex_eq] at h
  have hp : p = place basis fun k => (1 - u) * (pos k + if t k then size k else 0) +
      u * (pos k + if t' k then size k else 0) := by
    funext k
    rw [h, place_comb]
  rw [hp, onBoundary_place (Fin.pos j) hb]
  constructor
  · intro k
    have := hs k
    have a1 := mul_nonneg (sub_nonneg.2 h1) this
    have a2 := mul_nonneg h0 this
    cases t k <;> cases t' k <;> constructor <;> simp <;> nlinarith
  · refine ⟨j, ?_⟩
    rw [← hj]
    cases t j
    · left
      simp
      ring
    · right
      simp
      ring

/-- A point with a coordinate at the end of its axis, in the plane. -/
theorem boundary2_edge {size pos : Vec 2 ℝ} {basis : Option (Matrix (Fin 2) (Fin 2) ℝ)}
    (hs : ∀ k, 0 ≤ size k) (hb : BasisOk basis) {p : Vec 2 ℝ}
    (h : OnBoundary (box size pos basis) p) :
    ∃ (t : Fin 2 → Bool) (j : Fin 2), t j = false ∧
      Between (vertex size pos basis t) (vertex size pos basis (Function.update t j true)) p := by
  obtain ⟨q, rfl⟩ := place_surj hb p
  rw [onBoundary_place two_pos hb] at h
  obtain ⟨hin, k, hk⟩ := h
  -- the other axis
  obtain ⟨j, hjk, hcov⟩ : ∃ j : Fin 2, j ≠ k ∧ ∀ i, i = j ∨ i = k := by
    revert k
    intro k _
    fin_cases k
    · exact ⟨1, by decide, by decide⟩
    · exact ⟨0, by decide, by decide⟩
  obtain ⟨b, hkb⟩ : ∃ b : Bool, q k = pos k + if b then size k else 0 := by
    rcases hk with hk | hk
    · exact ⟨false, by simp [hk]⟩
    · exact ⟨true, by simp [hk]⟩
  obtain ⟨u, h0, h1, hu⟩ : ∃ u : ℝ, 0 ≤ u ∧ u ≤ 1 ∧ q j = pos j + u * size j := by
    rcases (hs j).eq_or_lt with h0 | h0
    · refine ⟨0, le_rfl, zero_le_one, ?_⟩
      have := hin j
      rw [← h0] at this
      linarith [this.1, this.2]
    · refine ⟨(q j - pos j) / size j, div_nonneg (by linarith [(hin j).1]) h0.le,
        (div_le_one h0).2 (by linarith [(hin j).2]), ?_⟩
      rw [div_mul_cancel₀ _ h0.ne']
      ring
  refine ⟨fun i => if i = j then false else b, j, by simp, u, h0, h1, fun i => ?_⟩
  rw [vertex_eq, vertex_eq, ← place_comb]
  congr 1
  funext m
  rcases hcov m with rfl | rfl
  · simp
    rw [hu]
    ring
  · rw [Function.update_of_ne hjk.symm]
    simp only [if_neg hjk.symm]
    rw [hkb]
    ring

/-! ## The property -/

/-- C112 for `Shape` in the plane, with or without a basis (linearly independent vectors) and sizes
that are not negative: four lines are drawn, and they cover exactly the boundary of the region described
by `contains`; the filled polygon runs along the four vertices. -/
theorem C112_box (size pos : Vec 2 ℝ) (basis : Option (Matrix (Fin 2) (Fin 2) ℝ))
    (hs : ∀ k, 0 ≤ size k) (hb : BasisOk basis) :
    ∃ P, (box size pos basis).plot2 = some (.ok P) ∧ P.circles = [] ∧ P.discs = [] ∧
      P.lines.length = 4 ∧ (∀ l ∈ P.lines, l.length = 2) ∧
      (∀ p, OnBoundary (box size pos basis) p ↔ ∃ a b, [a, b] ∈ P.lines ∧ Between a b p) ∧
      P.areas = [[vertex size pos basis ![false, false], vertex size pos basis ![false, true],
        vertex size pos basis ![true, true], vertex size pos basis ![true, false],
        vertex size pos basis ![false, false]]] := by
  set ls : List (List (Fin 2 → Bool)) := [[![false, false], ![false, true]],
    [![false, false], ![true, false]], [![true, false], ![true, true]],
    [![true, true], ![false, true]]] with hls
  refine ⟨_, congrArg some (plotBox_eq size pos basis (lines := ls) (areas := [[![false, false],
    ![false, true], ![true, true], ![true, false], ![false, false]]]) rfl rfl (by decide) (by decide)),
    rfl, rfl, rfl, by simp [hls], ?_, rfl⟩
  intro p
  constructor
  · intro h
    obtain ⟨t, j, hj, hB⟩ := boundary2_edge hs hb h
    have key : ∀ (t : Fin 2 → Bool) (j : Fin 2), t j = false →
        [t, Function.update t j true] ∈ ls ∨ [Function.update t j true, t] ∈ ls := by
      rw [hls]
      decide
    rcases key t j hj with h1 | h1
    · exact ⟨_, _, List.mem_map.2 ⟨_, h1, rfl⟩, hB⟩
    · refine ⟨_, _, List.mem_map.2 ⟨_, h1, rfl⟩, ?_⟩
      obtain ⟨u, h0, h1, h⟩ := hB
      exact ⟨1 - u, by linarith, by linarith, fun k => by rw [h]; ring⟩
  · rintro ⟨a, b, hab, hB⟩
    obtain ⟨l, hl, he⟩ := List.mem_map.1 hab
    have key : ∀ l ∈ ls, ∃ t t' : Fin 2 → Bool, l = [t, t'] ∧ ∃ j, t j = t' j := by
      rw [hls]
      decide
    obtain ⟨t, t', rfl, j, hj⟩ := key l hl
    simp only [List.map_cons, List.map_nil, List.cons.injEq, and_true] at he
    rw [← he.1, ← he.2] at hB
    exact edge_onBoundary hs hb hj hB

/-- C112 for `Shape` in three dimensions: twelve lines are drawn, the edges of the box (pairs of
vertices that differ in one axis), each of them exactly once, and their points are boundary points; the
six filled polygons are the faces of the box, one for each end of each axis, each running along the
edges of its face. -/
theorem C112_box_space (size pos : Vec 3 ℝ) (basis : Option (Matrix (Fin 3) (Fin 3) ℝ))
    (hs : ∀ k, 0 ≤ size k) (hb : BasisOk basis) :
    ∃ P, plotBox size pos basis = .ok P ∧ P.circles = [] ∧ P.discs = [] ∧
      P.lines.length = 12 ∧
      (∀ l ∈ P.lines, ∃ (t : Fin 3 → Bool) (k : Fin 3),
        l = [vertex size pos basis t, vertex size pos basis (Function.update t k (!t k))]) ∧
      (∀ (t : Fin 3 → Bool) (k : Fin 3),
        [vertex size pos basis t, vertex size pos basis (Function.update t k (!t k))] ∈ P.lines ∨
        [vertex size pos basis (Function.update t k (!t k)), vertex size pos basis t] ∈ P.lines) ∧
      (∀ a b p, [a, b] ∈ P.lines → Between a b p → OnBoundary (box size pos basis) p) ∧
      P.areas.length = 6 ∧
      (∀ (k : Fin 3) (far : Bool), ∃ t0 t1 t2 t3 : Fin 3 → Bool,
        [t0, t1, t2, t3].map (vertex size pos basis) ∈ P.areas ∧ [t0, t1, t2, t3].Nodup ∧
        (∀ t ∈ [t0, t1, t2, t3], t k = far) ∧
        ∃ i j, t1 = Function.update t0 i (!t0 i) ∧ t2 = Function.update t1 j (!t1 j) ∧
          t3 = Function.update t2 i (!t2 i) ∧ t0 = Function.update t3 j (!t3 j)) := by
  set ls : List (List (Fin 3 → Bool)) := [[![false, false, false], ![false, true, false]],
    [![false, true, false], ![false, true, true]], [![false, true, true], ![false, false, true]],
    [![false, false, true], ![false, false, false]], [![true, false, false], ![true, true, false]],
    [![true, true, false], ![true, true, true]], [![true, true, true], ![true, false, true]],
    [![true, false, true], ![true, false, false]], [![false, false, false], ![true, false, false]],
    [![false, true, false], ![true, true, false]], [![false, true, true], ![true, true, true]],
    [![false, false, true], ![true, false, true]]] with hls
  set fs : List (List (Fin 3 → Bool)) := [
    [![false, false, false], ![false, true, false], ![false, true, true], ![false, false, true]],
    [![true, false, false], ![true, true, false], ![true, true, true], ![true, false, true]],
    [![false, false, false], ![true, false, false], ![true, true, false], ![false, true, false]],
    [![false, true, false], ![true, true, false], ![true, true, true], ![false, true, true]],
    [![false, true, true], ![true, true, true], ![true, false, true], ![false, false, true]],
    [![false, false, true], ![true, false, true], ![true, false, false], ![false, false, false]]]
    with hfs
  have key : ∀ l ∈ ls, ∃ (t : Fin 3 → Bool) (k : Fin 3), l = [t, Function.update t k (!t k)] := by
    rw [hls]
    decide
  refine ⟨_, plotBox_eq size pos basis (lines := ls) (areas := fs) rfl rfl (by decide) (by decide),
    rfl, rfl, by simp [hls], ?_, ?_, ?_, by simp [hfs], ?_⟩
  · intro l hl
    obtain ⟨r, hr, rfl⟩ := List.mem_map.1 hl
    obtain ⟨t, k, rfl⟩ := key r hr
    exact ⟨t, k, rfl⟩
  · intro t k
    have key : ∀ (t : Fin 3 → Bool) (k : Fin 3), [t, Function.update t k (!t k)] ∈ ls ∨
        [Function.update t k (!t k), t] ∈ ls := by
      rw [hls]
      decide
    rcases key t k with h | h
    · exact Or.inl (List.mem_map.2 ⟨_, h, rfl⟩)
    · exact Or.inr (List.mem_map.2 ⟨_, h, rfl⟩)
  · intro a b p hab hB
    obtain ⟨r, hr, he⟩ := List.mem_map.1 hab
    obtain ⟨t, k, rfl⟩ := key r hr
    simp only [List.map_cons, List.map_nil, List.cons.injEq, and_true] at he
    rw [← he.1, ← he.2] at hB
    obtain ⟨j, hj⟩ : ∃ j, j ≠ k := exists_ne k
    exact edge_onBoundary hs hb (j := j) (by rw [Function.update_of_ne hj]) hB
  · intro k far
    have key : ∃ r ∈ fs, (∀ t ∈ r, t k = far) := by
      revert k far
      rw [hfs]
      decide
    obtain ⟨r, hr, hk⟩ := key
    have shape : ∀ r ∈ fs, ∃ t0 t1 t2 t3 : Fin 3 → Bool, r = [t0, t1, t2, t3] ∧ r.Nodup ∧
        ∃ i j, t1 = Function.update t0 i (!t0 i) ∧ t2 = Function.update t1 j (!t1 j) ∧
          t3 = Function.update t2 i (!t2 i) ∧ t0 = Function.update t3 j (!t3 j) := by
      rw [hfs]
      intro r hr
      simp only [List.mem_cons, List.not_mem_nil, or_false] at hr
      rcases hr with rfl | rfl | rfl | rfl | rfl | rfl
      · exact ⟨_, _, _, _, rfl, by decide, 1, 2, by decide, by decide, by decide, by decide⟩
      · exact ⟨_, _, _, _, rfl, by decide, 1, 2, by decide, by decide, by decide, by decide⟩
      · exact ⟨_, _, _, _, rfl, by decide, 0, 1, by decide, by decide, by decide, by decide⟩
      · exact ⟨_, _, _, _, rfl, by decide, 0, 2, by decide, by decide, by decide, by decide⟩
      · exact ⟨_, _, _, _, rfl, by decide, 0, 1, by decide, by decide, by decide, by decide⟩
      · exact ⟨_, _, _, _, rfl, by decide, 0, 2, by decide, by decide, by decide, by decide⟩
    obtain ⟨t0, t1, t2, t3, rfl, hnd, hc⟩ := shape r hr
    exact ⟨t0, t1, t2, t3, List.mem_map.2 ⟨_, hr, rfl⟩, hnd, hk, hc⟩

/-- C112 for `Circle`: one circle is drawn, and its points are exactly the boundary points; the filled
disc is the same. -/
theorem C112_circle (pos : Vec 2 ℝ) (radius : ℝ) :
    ∃ P c r, (circle pos radius).plot2 = some (.ok P) ∧ P.lines = [] ∧ P.areas = [] ∧
      P.circles = [(c, r)] ∧ P.discs = [(c, r)] ∧
      ∀ p, OnBoundary (circle pos radius) p ↔ distance p c = r := by
  refine ⟨_, _, _, rfl, rfl, rfl, rfl, rfl, fun p => ?_⟩
  have e : norm2 (p - pos) = distance p pos := rfl
  unfold OnBoundary contains
  simp only [e, Except.ok.injEq, decide_eq_true_eq, decide_eq_false_iff_not, not_le, add_zero]
  constructor
  · rintro ⟨h1, h2⟩
    by_contra hne
    have := h2 (distance p pos - radius) (by linarith [lt_of_le_of_ne h1 hne])
    linarith
  · intro h
    exact ⟨h.le, fun tol ht => by linarith⟩

theorem ringPoints_dist {radius : ℝ} (hr : 0 ≤ radius) {p : Vec 2 ℝ} (hp : p ∈ ringPoints radius) :
    norm2 p = radius := by
  obtain ⟨k, -, rfl⟩ := List.mem_map.1 hp
  simp only [norm2, hasSqrt_real, Fin.sum_univ_two, Matrix.cons_val_zero, Matrix.cons_val_one]
  rw [show radius * Real.cos (k * (2 * Real.pi) / 99) * (radius * Real.cos (k * (2 * Real.pi) / 99)) +
    radius * Real.sin (k * (2 * Real.pi) / 99) * (radius * Real.sin (k * (2 * Real.pi) / 99)) =
    radius ^ 2 * (Real.sin (k * (2 * Real.pi) / 99) ^ 2 + Real.cos (k * (2 * Real.pi) / 99) ^ 2) by ring,
    Real.sin_sq_add_cos_sq, mul_one, Real.sqrt_sq hr]

/-- C112 for `Donut`, around the origin only: two closed lines are drawn; the points of the first one
have the inner, those of the second one the outer radius as distance from the centre, all are boundary
points; the filled area runs along the first line and then along the second. -/
theorem C112_donut_partial (outer inner : ℝ) (h0 : 0 ≤ inner) (h1 : inner ≤ outer) :
    ∃ P l1 l2, (donut 0 outer inner).plot2 = some (.ok P) ∧ P.lines = [l1, l2] ∧
      P.areas = [l1 ++ l2] ∧ P.circles = [] ∧ P.discs = [] ∧
      (∀ p ∈ l1, distance p 0 = inner) ∧ (∀ p ∈ l2, distance p 0 = outer) ∧
      (∀ p ∈ l1 ++ l2, OnBoundary (donut 0 outer inner) p) ∧
      l1.length = 100 ∧ l2.length = 100 ∧ l1.head? = l1.getLast? ∧ l2.head? = l2.getLast? := by
  have e : ∀ p : Vec 2 ℝ, distance p 0 = norm2 p := by
    intro p
    simp [distance, norm2]
  have hin : ∀ p ∈ ringPoints inner, norm2 p = inner := fun p hp => ringPoints_dist h0 hp
  have hout : ∀ p ∈ (ringPoints outer).reverse, norm2 p = outer := fun p hp =>
    ringPoints_dist (h0.trans h1) (List.mem_reverse.1 hp)
  have hclosed : ∀ r, (ringPoints r).head? = (ringPoints r).getLast? := by
    intro r
    unfold ringPoints
    rw [show List.range 100 = List.range 99 ++ [99] from rfl, List.map_append, List.map_singleton,
      List.getLast?_concat, show List.range 99 = 0 :: (List.range 98).map (· + 1) from by decide]
    simp
  have hb : ∀ p : Vec 2 ℝ, (norm2 p = inner ∨ norm2 p = outer) → OnBoundary (donut 0 outer inner) p := by
    intro p hp
    unfold OnBoundary contains
    simp only [sub_zero, add_zero, Except.ok.injEq, Bool.and_eq_true, decide_eq_true_eq,
      Bool.and_eq_false_iff, decide_eq_false_iff_not, not_le]
    rcases hp with hp | hp
    · rw [hp]
      exact ⟨⟨le_rfl, h1⟩, fun tol ht => Or.inl (by linarith)⟩
    · rw [hp]
      exact ⟨⟨h1, le_rfl⟩, fun tol ht => Or.inr (by linarith)⟩
  refine ⟨_, ringPoints inner, (ringPoints outer).reverse, rfl, rfl, ?_, rfl, rfl, ?_, ?_, ?_, ?_, ?_,
    hclosed inner, ?_⟩
  · simp [plotDonut]
  · exact fun p hp => (e p).trans (hin p hp)
  · exact fun p hp => (e p).trans (hout p hp)
  · intro p hp
    rcases List.mem_append.1 hp with hp | hp
    · exact hb p (Or.inl (hin p hp))
    · exact hb p (Or.inr (hout p hp))
  · simp [ringPoints]
  · simp [ringPoints]
  · rw [List.head?_reverse, List.getLast?_reverse]
    exact (hclosed outer).symm

/-- C112 fails for every `Donut` away from the origin: `plot` ignores the position (shape.py 247-248).
The donut around (10, 0) with the radii 2 and 1 is drawn around the origin; no drawn point is in the
shape or within its limits. -/
theorem C112_donut_fails :
    ∃ P, (donut ![10, 0] 2 1).plot2 = some (.ok P) ∧ P.lines ≠ [] ∧
      ∀ l ∈ P.lines, l ≠ [] ∧ ∀ p ∈ l, (donut ![10, 0] 2 1).contains p 0 = .ok false ∧
        ∃ lims, (donut ![10, 0] (2 : ℝ) 1).limits = .ok lims ∧ p 0 < (lims 0).1 := by
  refine ⟨_, rfl, by simp [plotDonut], ?_⟩
  intro l hl
  have hl' : l = ringPoints 1 ∨ l = (ringPoints 2).reverse := by simpa [plotDonut] using hl
  have hne : ∀ r, ringPoints r ≠ [] := by
    intro r
    simp [ringPoints]
  refine ⟨by rcases hl' with rfl | rfl <;> simp [hne], ?_⟩
  intro p hp
  have hn : norm2 p ≤ 2 := by
    rcases hl' with rfl | rfl
    · rw [ringPoints_dist (by norm_num) hp]
      norm_num
    · rw [ringPoints_dist (by norm_num) (List.mem_reverse.1 hp)]
  have h0 := (abs_le.1 ((norm2_ge p 0).trans hn)).2
  have hfar : 8 ≤ norm2 (p - ![10, 0]) := by
    have h1 := norm2_ge (p - ![10, 0]) 0
    have h2 := neg_abs_le ((p - ![10, 0] : Vec 2 ℝ) 0)
    simp only [Pi.sub_apply, Matrix.cons_val_zero] at h1 h2
    linarith
  refine ⟨?_, _, rfl, ?_⟩
  · unfold contains
    simp only [Except.ok.injEq, Bool.and_eq_false_iff, decide_eq_false_iff_not, not_le]
    right
    linarith
  · simp only [Matrix.cons_val_zero]
    linarith

/-- C112 fails in one dimension: there are no edges to draw (`_build` returns `None`, shape.py 95), and
`plot` raises `ValueError` for every interval. -/
theorem C112_line_fails (size pos : Vec 1 ℝ) (basis : Option (Matrix (Fin 1) (Fin 1) ℝ)) :
    plotBox size pos basis = .error .value := rfl

/-- A rectangle, a parallelogram, a box in space and a donut as above. -/
example : (∀ k, 0 ≤ (![3, 2] : Vec 2 ℝ) k) ∧ BasisOk (none : Option (Matrix (Fin 2) (Fin 2) ℝ)) ∧
    BasisOk (some (!![1, 0; 1, 2] : Matrix (Fin 2) (Fin 2) ℝ)) ∧
    (∀ k, 0 ≤ (![3, 2, 1] : Vec 3 ℝ) k) ∧ BasisOk (none : Option (Matrix (Fin 3) (Fin 3) ℝ)) ∧
    (0 : ℝ) ≤ 1 ∧ (1 : ℝ) ≤ 2 := by
  refine ⟨?_, nofun, ?_, ?_, nofun, by norm_num, by norm_num⟩
  · intro k
    fin_cases k <;> norm_num
  · intro b hb
    cases hb
    simp [Matrix.det_fin_two]
  · intro k
    fin_cases k <;> norm_num

end AShape

end Lattpy
