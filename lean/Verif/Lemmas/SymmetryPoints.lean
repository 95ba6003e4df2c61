import Verif.Model.SymmetryPoints
import Verif.Lemmas.WignerSeitz
import Verif.Lemmas.Data
import Verif.Lemmas.Utils
import Mathlib.Algebra.Order.BigOperators.Group.List

/-! Helper lemmas about ridges and symmetry points. -/

set_option autoImplicit false

namespace Lattpy

open Matrix

variable {d : ℕ}

theorem mapM_forall₂ {α β : Type*} {f : α → Except PyErr β} {l : List α} {r : List β}
    (h : l.mapM f = .ok r) : List.Forall₂ (fun x y => f x = .ok y) l r := by
  induction l generalizing r with
  | nil => cases h; exact List.Forall₂.nil
  | cons a l ih =>
    rw [List.mapM_cons] at h
    cases ha : f a with
    | error e => rw [ha] at h; cases h
    | ok y =>
      rw [ha] at h
      cases hl : l.mapM f with
      | error e => rw [hl] at h; cases h
      | ok ys =>
        rw [hl] at h
        cases h
        exact List.Forall₂.cons ha (ih hl)

theorem forall₂_mem {α β : Type*} {R : α → β → Prop} {l : List α} {r : List β}
    (h : List.Forall₂ R l r) {y : β} (hy : y ∈ r) : ∃ x ∈ l, R x y := by
  induction h with
  | nil => simp at hy
  | cons hab _ ih =>
    rcases List.mem_cons.1 hy with rfl | hy
    · exact ⟨_, by simp, hab⟩
    · obtain ⟨x, hx, hr⟩ := ih hy
      exact ⟨x, by simp [hx], hr⟩

theorem chain_cycle {α : Type*} {vs : List α} {l : List (α × α)} (h : chain vs true = .ok l) :
    l.length = vs.length ∧ (∀ p ∈ l, p.1 ∈ vs ∧ p.2 ∈ vs) ∧
      (2 ≤ vs.length → vs.Nodup → ∀ p ∈ l, p.1 ≠ p.2) := by
  unfold chain at h
  simp only [if_true] at h
  split at h
  · rename_i x f hx hf
    cases h
    have hne : vs ≠ [] := by rintro rfl; simp at hf
    obtain ⟨f', t, rfl⟩ := List.exists_cons_of_ne_nil hne
    obtain rfl : f' = f := by simpa using hf
    rw [chain_pairs_eq]
    refine ⟨?_, ?_, ?_⟩
    · simp
    · intro p hp
      rcases List.mem_append.1 hp with hp | hp
      · have := List.of_mem_zip hp
        exact ⟨this.1, List.mem_of_mem_tail this.2⟩
      · rw [List.mem_singleton.1 hp]
        exact ⟨List.mem_of_getLast? hx, by simp⟩
    · intro h2 hnd p hp
      rcases List.mem_append.1 hp with hp | hp
      · obtain ⟨i, hi, he⟩ := List.mem_iff_getElem.1 hp
        rw [List.getElem_zip] at he
        rw [← he]
        simp only [List.tail_cons]
        intro heq
        simp only [List.length_zip, List.tail_cons, List.length_cons] at hi
        have := (hnd.getElem_inj_iff (i := i) (j := i + 1) (hi := by simp; omega)
          (hj := by simp; omega)).1 (by rw [List.getElem_cons_succ]; exact heq)
        omega
      · rw [List.mem_singleton.1 hp]
        intro heq
        simp only at heq
        subst heq
        cases t with
        | nil => simp at h2
        | cons y t =>
          have hmem : x ∈ y :: t := by
            rw [List.getLast?_cons_cons] at hx
            exact List.mem_of_getLast? hx
          exact (List.nodup_cons.1 hnd).1 hmem
  · cases h

/-! ## ridges -/

theorem mean_dot {vs : List (Vec d ℝ)} (c : Vec d ℝ) :
    WSCell.mean vs ⬝ᵥ c = (vs.map (· ⬝ᵥ c)).sum / vs.length := by
  have key : ∀ vs : List (Vec d ℝ), (∑ k, (vs.map (· k)).sum * c k) = (vs.map (· ⬝ᵥ c)).sum := by
    intro vs
    induction vs with
    | nil => simp
    | cons v vs ih =>
      simp only [List.map_cons, List.sum_cons, add_mul, Finset.sum_add_distrib, ih]
      rfl
  rw [← key]
  simp only [dotProduct, WSCell.mean, Finset.sum_div]
  exact Finset.sum_congr rfl fun k _ => by ring

theorem mean_le {vs : List (Vec d ℝ)} (hne : vs ≠ []) (c : Vec d ℝ) (t : ℝ)
    (h : ∀ v ∈ vs, t ≤ v ⬝ᵥ c) : t ≤ WSCell.mean vs ⬝ᵥ c := by
  have hpos : (0 : ℝ) < vs.length := by
    exact_mod_cast List.length_pos_iff.2 hne
  rw [mean_dot, le_div_iff₀ hpos]
  have := List.card_nsmul_le_sum (vs.map (· ⬝ᵥ c)) t (by
    intro x hx
    obtain ⟨v, hv, rfl⟩ := List.mem_map.1 hx
    exact h v hv)
  rw [List.length_map, nsmul_eq_mul] at this
  linarith

theorem mean_closer {vs : List (Vec d ℝ)} (hne : vs ≠ []) (p s : Vec d ℝ)
    (h : ∀ v ∈ vs, distance v p ≤ distance v s) :
    distance (WSCell.mean vs) p ≤ distance (WSCell.mean vs) s := by
  rw [distance_le_iff]
  have := mean_le hne (p - s) ((p ⬝ᵥ p - s ⬝ᵥ s) / 2) (by
    intro v hv
    have := (distance_le_iff v p s).1 (h v hv)
    rw [dotProduct_sub]
    linarith)
  rw [dotProduct_sub] at this
  linarith

theorem ridge_mean {ps vs : List (Vec d ℝ)} {p r : Vec d ℝ} (hne : vs ≠ [])
    (h : ∀ v ∈ vs, v ∈ ridge ps p r) : WSCell.mean vs ∈ ridge ps p r :=
  ⟨le_antisymm (mean_closer hne p r fun v hv => (h v hv).1.le)
    (mean_closer hne r p fun v hv => (h v hv).1.ge),
    fun s hs => mean_closer hne p s fun v hv => (h v hv).2 s hs⟩

theorem midpoint_eq_mean (p r : Vec d ℝ) : WSCell.midpoint p r = WSCell.mean [p, r] := by
  funext k
  simp [WSCell.midpoint, WSCell.mean]
  ring

theorem ridge_midpoint {ps : List (Vec d ℝ)} {p r v v' : Vec d ℝ} (h : v ∈ ridge ps p r)
    (h' : v' ∈ ridge ps p r) : WSCell.midpoint v v' ∈ ridge ps p r := by
  rw [midpoint_eq_mean]
  refine ridge_mean (by simp) fun x hx => ?_
  simp only [List.mem_cons, List.not_mem_nil, or_false] at hx
  rcases hx with rfl | rfl <;> assumption

/-- A ridge is not empty in two and more dimensions. -/
theorem FullRidge.nonempty {ps : List (Vec d ℝ)} {p r : Vec d ℝ} (h : FullRidge ps p r)
    (hd : 2 ≤ d) : ∃ x, x ∈ ridge ps p r := by
  by_contra hno
  push Not at hno
  obtain ⟨h1, h2, h3, h4⟩ := h
  have key : ∀ c : Vec d ℝ, ∃ s : ℝ, c = s • (p - r) := fun c => h4 c 0 fun x hx => absurd hx (hno x)
  obtain ⟨s, hs⟩ := key (Pi.single ⟨0, by omega⟩ 1)
  obtain ⟨t, ht⟩ := key (Pi.single ⟨1, by omega⟩ 1)
  have s0 := congrFun hs ⟨0, by omega⟩
  have t0 := congrFun ht ⟨0, by omega⟩
  have t1 := congrFun ht ⟨1, by omega⟩
  simp only [Pi.single_eq_same, Pi.smul_apply, smul_eq_mul, Pi.sub_apply] at s0 t1
  rw [Pi.single_eq_of_ne (by simp)] at t0
  simp only [Pi.smul_apply, smul_eq_mul, Pi.sub_apply] at t0
  rcases mul_eq_zero.1 t0.symm with h | h
  · rw [h, zero_mul] at t1; exact one_ne_zero t1
  · rw [h, mul_zero] at s0; exact one_ne_zero s0

theorem ridge_swap {ps : List (Vec d ℝ)} {p r : Vec d ℝ} : ridge ps p r = ridge ps r p := by
  ext x
  constructor <;> rintro ⟨h1, h2⟩ <;> exact ⟨h1.symm, fun s hs => h1 ▸ h2 s hs⟩

/-- Around the origin at equal distance: a finite ridge separates the cell of the origin. -/
theorem finite_ridge_origin {ps : List (Vec d ℝ)} {m : ℝ} (h0 : 0 ∈ ps)
    (hps : ∀ p ∈ ps, p ≠ 0 → p ⬝ᵥ p = m) {p r : Vec d ℝ} (hp : p ∈ ps) (hr : r ∈ ps)
    (hne : ∃ x, x ∈ ridge ps p r) (hfin : FiniteRidge (ridge ps p r)) : p = 0 ∨ r = 0 := by
  by_contra hno
  push Not at hno
  obtain ⟨hp0, hr0⟩ := hno
  obtain ⟨x, hx1, hx2⟩ := hne
  obtain ⟨M, hM⟩ := hfin
  have hm : 0 < m := by
    rw [← hps p hp hp0]
    exact lt_of_le_of_ne (by rw [← norm2_sq]; positivity) fun h => hp0 ((dot_self_eq_zero p).1 h.symm)
  have hpp := hps p hp hp0
  have hrr := hps r hr hr0
  have hx0 := hx2 0 h0
  rw [distance_le_iff] at hx0
  simp only [dotProduct_zero, mul_zero, sub_zero] at hx0
  have hxr : x ⬝ᵥ p = x ⬝ᵥ r := by
    have a := (distance_le_iff x p r).1 hx1.le
    have b := (distance_le_iff x r p).1 hx1.ge
    linarith
  have hin : ∀ t : ℝ, 1 ≤ t → t • x ∈ ridge ps p r := by
    intro t ht
    constructor
    · apply le_antisymm <;>
      · rw [distance_le_iff]
        simp only [smul_dotProduct, smul_eq_mul, hxr, hpp, hrr]
        exact le_refl _
    · intro s hs
      rw [distance_le_iff]
      simp only [smul_dotProduct, smul_eq_mul]
      by_cases hs0 : s = 0
      · rw [hs0]
        simp only [dotProduct_zero, mul_zero, sub_zero]
        nlinarith
      · have := (distance_le_iff x p s).1 (hx2 s hs)
        rw [hpp, hps s hs hs0] at this ⊢
        nlinarith
  have hxne : x ≠ 0 := by
    rintro rfl
    rw [zero_dotProduct] at hx0
    linarith
  obtain ⟨k, hk⟩ := Function.ne_iff.1 hxne
  have hk' : 0 < |x k| := abs_pos.2 hk
  have := hM _ (hin (1 + |M| / |x k|) (by
    have : 0 ≤ |M| / |x k| := by positivity
    linarith)) k
  rw [Pi.smul_apply, smul_eq_mul, abs_mul, abs_of_pos (by positivity), add_mul,
    div_mul_cancel₀ _ hk'.ne'] at this
  linarith [le_abs_self M]

/-! ## edges -/

theorem make_vertices {q : Qhull d} {ps : List (Vec d ℝ)} {w : WSCell d ℝ} (hd : d ≠ 1)
    (h : WSCell.make q ps = .ok w) : q.voronoi ps = .ok w.vertices := by
  unfold WSCell.make at h
  rw [if_neg hd] at h
  split at h
  · cases h
  · rename_i vs hvs
    cases h
    exact hvs

/-- The vertices of an edge. -/
theorem edge_vertices {q : Qhull d} (R : QhullRidges q) {ps : List (Vec d ℝ)} {w : WSCell d ℝ}
    (hd : d ≠ 1) (h : WSCell.make q ps = .ok w) {e : (Vec d ℝ × Vec d ℝ) × List ℤ}
    (he : e ∈ (R.ridges ps).filter fun e => e.2.all fun i => decide (0 ≤ i)) :
    FullRidge ps e.1.1 e.1.2 ∧ FiniteRidge (ridge ps e.1.1 e.1.2) ∧
    ∃ L, w.simplexVertices (e.2.map Int.toNat) = .ok L ∧ L.Nodup ∧
      ∀ v, v ∈ L ↔ v ∈ w.vertices ∧ v ∈ ridge ps e.1.1 e.1.2 := by
  have S := R.spec ps w.vertices (make_vertices hd h)
  obtain ⟨hmem, hpos⟩ := List.mem_filter.1 he
  have hpos' : ∀ i ∈ e.2, 0 ≤ i := by
    intro i hi
    have := List.all_eq_true.1 hpos i hi
    simpa using this
  refine ⟨S.full e hmem, ?_, ?_⟩
  · by_contra hno
    have := hpos' _ ((S.unbounded e hmem).2 hno)
    norm_num at this
  · have hok : ∀ i ∈ e.2.map Int.toNat,
        w.vertex i = .ok (w.vertices[i]?.getD 0) := by
      intro i hi
      obtain ⟨j, hj, rfl⟩ := List.mem_map.1 hi
      have h1 := (S.range e hmem j hj).2
      have h2 : j.toNat < w.vertices.length := by
        have := hpos' j hj
        omega
      unfold WSCell.vertex
      rw [List.getElem?_eq_getElem h2]
      rfl
    have hget : ∀ i ∈ e.2.map Int.toNat, (i : ℤ) ∈ e.2 ∧
        w.vertices[i]? = some (w.vertices[i]?.getD 0) := by
      intro i hi
      obtain ⟨j, hj, rfl⟩ := List.mem_map.1 hi
      refine ⟨by rw [Int.toNat_of_nonneg (hpos' j hj)]; exact hj, ?_⟩
      have h1 := (S.range e hmem j hj).2
      have h2 : j.toNat < w.vertices.length := by
        have := hpos' j hj
        omega
      rw [List.getElem?_eq_getElem h2]
      rfl
    refine ⟨_, mapM_ok _ _ _ hok, ?_, ?_⟩
    · refine List.Nodup.map_on ?_ ?_
      · intro i hi j hj hij
        refine (S.distinct e hmem).2 i j (hget i hi).1 (hget j hj).1 ?_
        rw [(hget i hi).2, (hget j hj).2, hij]
      · refine List.Nodup.map_on ?_ (S.distinct e hmem).1
        intro i hi j hj hij
        have := hpos' i hi
        have := hpos' j hj
        omega
    · intro v
      rw [← S.vertices e hmem, List.mem_map]
      constructor
      · rintro ⟨i, hi, rfl⟩
        exact ⟨i, (hget i hi).1, (hget i hi).2⟩
      · rintro ⟨i, hi, hv⟩
        exact ⟨i, List.mem_map.2 ⟨i, hi, by simp⟩, by rw [hv]; rfl⟩

theorem mapM_map_ok {α β γ : Type*} (f : β → Except PyErr γ) (h : α → β) (g : α → γ) (l : List α)
    (hf : ∀ x ∈ l, f (h x) = .ok (g x)) : (l.map h).mapM f = .ok (l.map g) := by
  induction l with
  | nil => rfl
  | cons a l ih =>
    rw [List.map_cons, List.mapM_cons, hf a (by simp), ih fun x hx => hf x (by simp [hx])]
    rfl

theorem FullRidge.swap {ps : List (Vec d ℝ)} {p r : Vec d ℝ} (h : FullRidge ps p r) :
    FullRidge ps r p := by
  obtain ⟨h1, h2, h3, h4⟩ := h
  refine ⟨h2, h1, h3.symm, fun c t hc => ?_⟩
  obtain ⟨s, hs⟩ := h4 c t (by rw [ridge_swap]; exact hc)
  exact ⟨-s, by rw [hs]; module⟩

open Classical in
/-- The numbers of the vertices of a ridge, and `-1` if it is unbounded. -/
noncomputable def exactSimplex (ps vs : List (Vec d ℝ)) (p : Vec d ℝ × Vec d ℝ) : List ℤ :=
  ((vs.dedup.filter fun v => decide (v ∈ ridge ps p.1 p.2)).map fun v => (vs.idxOf v : ℤ)) ++
    if FiniteRidge (ridge ps p.1 p.2) then [] else [-1]

open Classical in
/-- All ridges of the points. -/
noncomputable def exactRidges (ps vs : List (Vec d ℝ)) : List ((Vec d ℝ × Vec d ℝ) × List ℤ) :=
  ((ps.dedup.product ps.dedup).filter fun p =>
    decide (ps.idxOf p.1 < ps.idxOf p.2 ∧ FullRidge ps p.1 p.2)).map fun p =>
      (p, exactSimplex ps vs p)

theorem exactRidges_spec (ps vs : List (Vec d ℝ)) : RidgeSpec ps vs (exactRidges ps vs) := by
  classical
  have hmem : ∀ e ∈ exactRidges ps vs, FullRidge ps e.1.1 e.1.2 ∧
      ps.idxOf e.1.1 < ps.idxOf e.1.2 ∧ e.2 = exactSimplex ps vs e.1 := by
    intro e he
    obtain ⟨p, hp, rfl⟩ := List.mem_map.1 he
    have := of_decide_eq_true (List.mem_filter.1 hp).2
    exact ⟨this.2, this.1, rfl⟩
  have hin : ∀ p (i : ℕ), (i : ℤ) ∈ exactSimplex ps vs p ↔
      ∃ v, v ∈ vs ∧ v ∈ ridge ps p.1 p.2 ∧ vs.idxOf v = i := by
    intro p i
    unfold exactSimplex
    rw [List.mem_append, List.mem_map]
    have hno : (i : ℤ) ∉ (if FiniteRidge (ridge ps p.1 p.2) then ([] : List ℤ) else [-1]) := by
      split
      · simp
      · simp only [List.mem_singleton]
        omega
    constructor
    · rintro (⟨v, hv, he⟩ | h)
      · have := List.mem_filter.1 hv
        exact ⟨v, List.mem_dedup.1 this.1, of_decide_eq_true this.2, by exact_mod_cast he⟩
      · exact absurd h hno
    · rintro ⟨v, h1, h2, h3⟩
      exact .inl ⟨v, List.mem_filter.2 ⟨List.mem_dedup.2 h1, decide_eq_true h2⟩, by rw [h3]⟩
  have hget : ∀ v ∈ vs, vs[vs.idxOf v]? = some v := by
    intro v hv
    rw [List.getElem?_eq_getElem (List.idxOf_lt_length_of_mem hv), List.getElem_idxOf]
  refine ⟨fun e he => (hmem e he).1, ?_, ?_, ?_, ?_, ?_, ?_⟩
  · intro e he i hi
    rw [(hmem e he).2.2, exactSimplex, List.mem_append] at hi
    rcases hi with hi | hi
    · obtain ⟨v, hv, rfl⟩ := List.mem_map.1 hi
      have := List.idxOf_lt_length_of_mem (List.mem_dedup.1 (List.mem_filter.1 hv).1)
      omega
    · split at hi
      · simp at hi
      · rw [List.mem_singleton.1 hi]
        omega
  · intro e he
    rw [(hmem e he).2.2, exactSimplex, List.mem_append]
    constructor
    · rintro (h | h) hf
      · obtain ⟨v, -, hv⟩ := List.mem_map.1 h
        omega
      · rw [if_pos hf] at h
        simp at h
    · intro h
      rw [if_neg h]
      simp
  · intro e he v
    rw [(hmem e he).2.2]
    constructor
    · rintro ⟨i, hi, hv⟩
      obtain ⟨u, h1, h2, rfl⟩ := (hin _ _).1 hi
      rw [hget u h1] at hv
      cases hv
      exact ⟨h1, h2⟩
    · rintro ⟨h1, h2⟩
      exact ⟨vs.idxOf v, (hin _ _).2 ⟨v, h1, h2, rfl⟩, hget v h1⟩
  · intro e he
    rw [(hmem e he).2.2]
    constructor
    · unfold exactSimplex
      rw [List.nodup_append]
      refine ⟨?_, by split <;> simp, ?_⟩
      · refine List.Nodup.map_on ?_ ((List.nodup_dedup vs).filter _)
        intro v hv u hu hvu
        have h1 := hget v (List.mem_dedup.1 (List.mem_filter.1 hv).1)
        have h2 := hget u (List.mem_dedup.1 (List.mem_filter.1 hu).1)
        rw [show vs.idxOf v = vs.idxOf u by exact_mod_cast hvu, h2] at h1
        exact (Option.some.inj h1).symm
      · intro i hi j hj
        obtain ⟨v, -, rfl⟩ := List.mem_map.1 hi
        split at hj
        · simp at hj
        · rw [List.mem_singleton.1 hj]
          omega
    · intro i j hi hj hij
      obtain ⟨v, h1, -, rfl⟩ := (hin _ _).1 hi
      obtain ⟨u, h2, -, rfl⟩ := (hin _ _).1 hj
      rw [hget v h1, hget u h2] at hij
      rw [Option.some.inj hij]
  · intro p r h
    have key : ∀ p r, FullRidge ps p r → ps.idxOf p < ps.idxOf r →
        ((p, r), exactSimplex ps vs (p, r)) ∈ exactRidges ps vs := by
      intro p r h hlt
      refine List.mem_map.2 ⟨(p, r), List.mem_filter.2 ⟨?_, decide_eq_true ⟨hlt, h⟩⟩, rfl⟩
      exact List.mem_product.2 ⟨List.mem_dedup.2 h.1, List.mem_dedup.2 h.2.1⟩
    rcases lt_trichotomy (ps.idxOf p) (ps.idxOf r) with hlt | heq | hlt
    · exact ⟨_, key p r h hlt, .inl rfl⟩
    · exact absurd ((List.idxOf_inj h.1).1 heq) h.2.2.1
    · exact ⟨_, key r p h.swap hlt, .inr rfl⟩
  · have hnd : (exactRidges ps vs).Nodup := by
      refine List.Nodup.map ?_ (((List.nodup_dedup ps).product (List.nodup_dedup ps)).filter _)
      intro p p' h
      exact congrArg Prod.fst h
    refine List.Pairwise.imp_of_mem ?_ hnd
    intro e e' he he' hne
    refine ⟨fun h => hne ?_, fun h => ?_⟩
    · refine Prod.ext h ?_
      rw [(hmem e he).2.2, (hmem e' he').2.2, h]
    · have h1 := (hmem e he).2.1
      have h2 := (hmem e' he').2.1
      rw [h] at h1
      simp only [Prod.fst_swap, Prod.snd_swap] at h1
      omega

/-- The contract of the ridges can be met. -/
noncomputable def QhullRidges.exact (q : Qhull d) : QhullRidges q where
  ridges ps := match q.voronoi ps with
    | .error _ => []
    | .ok vs => exactRidges ps vs
  spec ps vs h := by
    rw [h]
    exact exactRidges_spec ps vs

end Lattpy
