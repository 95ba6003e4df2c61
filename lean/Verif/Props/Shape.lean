import Verif.Model.Shape
import Verif.Lemmas.Np
import Verif.Lemmas.Distance
import Verif.Lemmas.Spatial
import Mathlib.Analysis.Convex.Combination
import Mathlib.LinearAlgebra.Matrix.NonsingularInverse

/-!
# Properties C27, C28: shapes
-/

set_option autoImplicit false

namespace Lattpy

open Matrix

namespace AShape

/-- Contract of Qhull: the facet inequalities of a convex hull describe the convex hull of
the points. -/
def HullOk {d : ℕ} : AShape d ℝ → Prop
  | hull points equations => points ≠ [] ∧
      ∀ x, (∀ e ∈ equations, x ⬝ᵥ e.1 + e.2 ≤ 0) ↔ x ∈ convexHull ℝ {p | p ∈ points}
  | _ => True

theorem minMax_spec {d : ℕ} (rows : List (Vec d ℝ)) (h : rows ≠ []) :
    ∃ l, minMax rows = .ok l ∧ ∀ k,
      IsLeast {t | ∃ v ∈ rows, t = v k} (l k).1 ∧ IsGreatest {t | ∃ v ∈ rows, t = v k} (l k).2 := by
  unfold minMax
  match rows, h with
  | v :: vs, _ =>
    refine ⟨_, rfl, fun k => ?_⟩
    have hset : {t | ∃ x ∈ v :: vs, t = x k} = {t | t = v k ∨ t ∈ vs.map fun x => x k} := by
      ext t; simp [eq_comm]
    rw [hset]
    exact ⟨foldl_min_isLeast _ _, foldl_max_isGreatest _ _⟩

theorem mem_corners_none {d : ℕ} (size pos c : Vec d ℝ) :
    c ∈ corners size pos none ↔ ∀ k, c k = pos k ∨ c k = pos k + size k := by
  simp only [corners, List.mem_map, mem_boxList]
  constructor
  · rintro ⟨a, ha, rfl⟩ k
    have := ha k
    simp at this
    rcases this with h | h <;> simp [h]
  · intro h
    refine ⟨c - pos, fun k => ?_, by simp⟩
    rcases h k with h | h <;> simp [h]

theorem corners_ne {d : ℕ} (size pos : Vec d ℝ) (basis : Option (Matrix (Fin d) (Fin d) ℝ)) :
    corners size pos basis ≠ [] := by
  have : corners size pos none ≠ [] := by
    intro h
    have := (mem_corners_none size pos pos).2 fun k => Or.inl rfl
    rw [h] at this
    simp at this
  cases basis with
  | none => exact this
  | some b =>
    simp only [corners] at this ⊢
    simpa using this

/-- A linear function on a box is bounded by its values at the corners. -/
theorem corner_bounds {d : ℕ} (size pos q w : Vec d ℝ) (hq : ∀ k, pos k ≤ q k ∧ q k ≤ pos k + size k) :
    (∃ c ∈ corners size pos none, c ⬝ᵥ w ≤ q ⬝ᵥ w) ∧ (∃ c ∈ corners size pos none, q ⬝ᵥ w ≤ c ⬝ᵥ w) := by
  constructor
  · refine ⟨fun k => if 0 ≤ w k then pos k else pos k + size k, ?_, ?_⟩
    · rw [mem_corners_none]; intro k; split_ifs <;> simp
    · refine Finset.sum_le_sum fun k _ => ?_
      dsimp only
      split_ifs with h
      · exact mul_le_mul_of_nonneg_right (hq k).1 h
      · exact mul_le_mul_of_nonpos_right (hq k).2 (not_le.1 h).le
  · refine ⟨fun k => if 0 ≤ w k then pos k + size k else pos k, ?_, ?_⟩
    · rw [mem_corners_none]; intro k; split_ifs <;> simp
    · refine Finset.sum_le_sum fun k _ => ?_
      dsimp only
      split_ifs with h
      · exact mul_le_mul_of_nonneg_right (hq k).2 h
      · exact mul_le_mul_of_nonpos_right (hq k).1 (not_le.1 h).le

theorem inv_cancel {d : ℕ} (b : Matrix (Fin d) (Fin d) ℝ) (h : b.det ≠ 0) :
    (b.det⁻¹ • b.adjugate) * b = 1 ∧ b * (b.det⁻¹ • b.adjugate) = 1 := by
  constructor
  · rw [smul_mul, adjugate_mul, smul_smul, inv_mul_cancel₀ h, one_smul]
  · rw [Matrix.mul_smul, mul_adjugate, smul_smul, inv_mul_cancel₀ h, one_smul]

theorem norm2_ge {d : ℕ} (x : Vec d ℝ) (k : Fin d) : |x k| ≤ norm2 x := by
  rw [norm2, hasSqrt_real]
  apply Real.le_sqrt_of_sq_le
  rw [sq_abs, sq]
  exact Finset.single_le_sum (f := fun i => x i * x i) (fun i _ => mul_self_nonneg _)
    (Finset.mem_univ k)

end AShape

open AShape

/-! ## C27 limits -/

/-- C27: every point a shape accepts with tolerance 0 lies within the limits on every axis
(in particular the limits exist). -/
theorem C27_contains_within_limits {d : ℕ} (s : AShape d ℝ) (hs : HullOk s) (p : Vec d ℝ)
    (h : s.contains p 0 = .ok true) :
    ∃ l, s.limits = .ok l ∧ ∀ k, (l k).1 ≤ p k ∧ p k ≤ (l k).2 := by
  cases s with
  | box size pos basis =>
    obtain ⟨l, hl, hm⟩ := minMax_spec (corners size pos basis) (corners_ne _ _ _)
    refine ⟨l, hl, fun k => ?_⟩
    cases basis with
    | none =>
      simp only [contains, sub_zero, add_zero, Except.ok.injEq, decide_eq_true_eq] at h
      have := corner_bounds size pos p (Pi.single k 1) h
      simp only [dotProduct_single, mul_one] at this
      obtain ⟨⟨c1, hc1, h1⟩, ⟨c2, hc2, h2⟩⟩ := this
      exact ⟨((hm k).1.2 ⟨c1, hc1, rfl⟩).trans h1, h2.trans ((hm k).2.2 ⟨c2, hc2, rfl⟩)⟩
    | some b =>
      simp only [contains, sub_zero, add_zero] at h
      split_ifs at h with hdet
      simp only [Except.ok.injEq, decide_eq_true_eq] at h
      set q := p ᵥ* (b.det⁻¹ • b.adjugate) with hq
      have hp : p = q ᵥ* b := by
        rw [hq, vecMul_vecMul, (inv_cancel b hdet).1, vecMul_one]
      have hcol : ∀ c : Vec d ℝ, (c ᵥ* b) k = c ⬝ᵥ (fun i => b i k) := fun c => rfl
      obtain ⟨⟨c1, hc1, h1⟩, ⟨c2, hc2, h2⟩⟩ := corner_bounds size pos q (fun i => b i k) h
      have hmem : ∀ c ∈ corners size pos none, c ᵥ* b ∈ corners size pos (some b) := by
        intro c hc
        exact List.mem_map.2 ⟨c, hc, rfl⟩
      rw [hp, hcol]
      exact ⟨((hm k).1.2 ⟨_, hmem c1 hc1, rfl⟩).trans h1,
        h2.trans ((hm k).2.2 ⟨_, hmem c2 hc2, rfl⟩)⟩
  | circle pos radius =>
    refine ⟨_, rfl, fun k => ?_⟩
    simp only [contains, add_zero, Except.ok.injEq, decide_eq_true_eq] at h
    have := abs_le.1 ((norm2_ge (p - pos) k).trans h)
    simp only [Pi.sub_apply] at this
    constructor <;> dsimp only <;> linarith [this.1, this.2]
  | donut pos outer inner =>
    refine ⟨_, rfl, fun k => ?_⟩
    simp only [contains, add_zero, Except.ok.injEq, Bool.and_eq_true, decide_eq_true_eq] at h
    have := abs_le.1 ((norm2_ge (p - pos) k).trans h.2)
    simp only [Pi.sub_apply] at this
    constructor <;> dsimp only <;> linarith [this.1, this.2]
  | hull points equations =>
    obtain ⟨hne, hx⟩ := hs
    obtain ⟨l, hl, hm⟩ := minMax_spec points hne
    refine ⟨l, hl, fun k => ?_⟩
    simp only [contains, Except.ok.injEq, List.all_eq_true, decide_eq_true_eq] at h
    have hp := (hx p).1 fun e he => h e he
    have hconv : Convex ℝ {x : Vec d ℝ | (l k).1 ≤ x k ∧ x k ≤ (l k).2} := by
      have h1 : {x : Vec d ℝ | (l k).1 ≤ x k ∧ x k ≤ (l k).2} =
          (LinearMap.proj (R := ℝ) (φ := fun _ : Fin d => ℝ) k) ⁻¹' Set.Icc (l k).1 (l k).2 := rfl
      rw [h1]
      exact (convex_Icc _ _).linear_preimage _
    have hsub : {p | p ∈ points} ⊆ {x : Vec d ℝ | (l k).1 ≤ x k ∧ x k ≤ (l k).2} := by
      intro v hv
      exact ⟨(hm k).1.2 ⟨v, hv, rfl⟩, (hm k).2.2 ⟨v, hv, rfl⟩⟩
    exact convexHull_min hsub hconv hp

/-- The hypotheses are met by a triangle with its three facet inequalities. -/
example : (AShape.box ![2, 1] ![0, 0] (some !![1, 0; 1, 1]) : AShape 2 ℝ).contains ![3 / 2, 1 / 2] 0
    = .ok true := by
  simp [contains, det_fin_two, adjugate_fin_two, Fin.forall_fin_two, Matrix.vecMul, dotProduct,
    Fin.sum_univ_two]
  norm_num

example : HullOk (AShape.hull [![0], ![1]] [(![-1], 0), (![1], -1)] : AShape 1 ℝ) := by
  refine ⟨by simp, fun x => ?_⟩
  have hset : {p : Vec 1 ℝ | p ∈ [![(0 : ℝ)], ![1]]} = {![0], ![1]} := by ext; simp
  rw [hset, convexHull_pair, segment_eq_image_lineMap]
  simp only [List.mem_cons, List.not_mem_nil, or_false, forall_eq_or_imp, forall_eq, dotProduct,
    Fin.sum_univ_one, Set.mem_image, Set.mem_Icc]
  constructor
  · rintro ⟨h1, h2⟩
    refine ⟨x 0, ⟨by simpa using h1, by simpa using h2⟩, ?_⟩
    ext i; fin_cases i; simp [AffineMap.lineMap_apply]
  · rintro ⟨t, ⟨h1, h2⟩, rfl⟩
    simp [AffineMap.lineMap_apply, h1, h2]

/-! ## C28 contains -/

/-- C28 for boxes without basis: exactly the points of the box grown by the tolerance. -/
theorem C28_box {d : ℕ} (size pos p : Vec d ℝ) (tol : ℝ) :
    ∃ r, (AShape.box size pos none).contains p tol = .ok r ∧
      (r = true ↔ ∀ k, pos k - tol ≤ p k ∧ p k ≤ pos k + size k + tol) :=
  ⟨_, rfl, by simp⟩

/-- C28 for boxes with a basis: `contains` fails exactly for linearly dependent vectors;
otherwise a point is accepted iff it is a combination `∑ c_i a_i` of the basis vectors with
coefficients in the box grown by the tolerance. -/
theorem C28_basis_box {d : ℕ} (size pos p : Vec d ℝ) (a : Matrix (Fin d) (Fin d) ℝ) (tol : ℝ) :
    (a.det = 0 → (AShape.box size pos (some a)).contains p tol = .error .linalg) ∧
    (a.det ≠ 0 → ∃ r, (AShape.box size pos (some a)).contains p tol = .ok r ∧
      (r = true ↔ ∃ c : Vec d ℝ, (∀ k, p k = ∑ i, c i * a i k) ∧
        ∀ k, pos k - tol ≤ c k ∧ c k ≤ pos k + size k + tol)) := by
  constructor
  · intro h; simp [contains, h]
  · intro h
    refine ⟨_, by simp only [contains, h, if_false]; rfl, ?_⟩
    rw [decide_eq_true_eq]
    constructor
    · intro hb
      refine ⟨_, fun k => ?_, hb⟩
      have : p = (p ᵥ* (a.det⁻¹ • a.adjugate)) ᵥ* a := by
        rw [vecMul_vecMul, (inv_cancel a h).1, vecMul_one]
      exact congrFun this k
    · rintro ⟨c, h1, h2⟩
      have h3 : p = c ᵥ* a := funext h1
      have : p ᵥ* (a.det⁻¹ • a.adjugate) = c := by
        rw [h3, vecMul_vecMul, (inv_cancel a h).2, vecMul_one]
      rw [this]
      exact h2

/-- C28 for circles and donuts (`dist` is Mathlib's Euclidean distance): the closed ball, and
the closed annulus, grown by the tolerance; a donut is part of its outer circle. -/
theorem C28_circle_donut {d : ℕ} (pos p : Vec d ℝ) (radius inner tol : ℝ) :
    let r := dist (WithLp.toLp 2 p) (WithLp.toLp 2 pos)
    (∃ b, (AShape.circle pos radius).contains p tol = .ok b ∧ (b = true ↔ r ≤ radius + tol)) ∧
    (∃ b, (AShape.donut pos radius inner).contains p tol = .ok b ∧
      (b = true ↔ inner - tol ≤ r ∧ r ≤ radius + tol)) ∧
    ((AShape.donut pos radius inner).contains p tol = .ok true →
      (AShape.circle pos radius).contains p tol = .ok true) := by
  intro r
  have hr : norm2 (p - pos) = r := by
    show distance p pos = _
    rw [distance_eq_dist]
  refine ⟨⟨_, rfl, by simp [hr]⟩, ⟨_, rfl, by simp [hr]⟩, ?_⟩
  intro h
  simp only [contains, Except.ok.injEq, Bool.and_eq_true, decide_eq_true_eq] at h ⊢
  exact h.2

/-- C28: a larger tolerance never excludes a point. -/
theorem C28_tolerance_monotone {d : ℕ} (s : AShape d ℝ) (p : Vec d ℝ) (tol tol' : ℝ)
    (h : tol ≤ tol') (hc : s.contains p tol = .ok true) : s.contains p tol' = .ok true := by
  cases s with
  | box size pos basis =>
    cases basis with
    | none =>
      simp only [contains, Except.ok.injEq, decide_eq_true_eq] at hc ⊢
      intro k
      have := hc k
      constructor <;> linarith [this.1, this.2]
    | some b =>
      simp only [contains] at hc ⊢
      split_ifs at hc ⊢ with hdet
      simp only [Except.ok.injEq, decide_eq_true_eq] at hc ⊢
      intro k
      have := hc k
      constructor <;> linarith [this.1, this.2]
  | circle pos radius =>
    simp only [contains, Except.ok.injEq, decide_eq_true_eq] at hc ⊢
    linarith
  | donut pos outer inner =>
    simp only [contains, Except.ok.injEq, Bool.and_eq_true, decide_eq_true_eq] at hc ⊢
    constructor <;> linarith [hc.1, hc.2]
  | hull points equations =>
    simp only [contains, Except.ok.injEq, List.all_eq_true, decide_eq_true_eq] at hc ⊢
    intro e he
    exact (hc e he).trans h

example : (AShape.donut ![0, 0] 5 2 : AShape 2 ℝ).contains ![3, 0] 0 = .ok true := by
  have : norm2 (![3, 0] - ![0, 0] : Vec 2 ℝ) = 3 := by
    simp [norm2, hasSqrt_real, Fin.sum_univ_two]
  simp only [contains, this]
  norm_num

end Lattpy
