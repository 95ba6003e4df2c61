import Verif.Model.Basis
import Verif.Lemmas.Distance
import Mathlib.LinearAlgebra.Matrix.NonsingularInverse
import Mathlib.Tactic.FinCases

/-! Helper lemmas for `basis.py`. -/

set_option autoImplicit false
set_option linter.unusedSectionVars false

namespace Lattpy

open Matrix

namespace LatticeBasis

section
variable {K : Type*} [Field K] [LinearOrder K] {d : ℕ}

theorem init_ok {rows : Matrix (Fin d) (Fin d) K} {b : LatticeBasis d K} (h : init rows = .ok b) :
    b.V = rowsᵀ ∧ b.V.det ≠ 0 ∧ b.V * b.Vinv = 1 ∧ b.Vinv * b.V = 1 := by
  unfold init at h
  dsimp only at h
  split_ifs at h with hd
  simp only [Except.ok.injEq] at h
  subst h
  have hd' : rowsᵀ.det ≠ 0 := hd
  refine ⟨rfl, hd, ?_, ?_⟩
  · simp only [mul_smul_comm, Matrix.mul_adjugate]
    rw [smul_smul, inv_mul_cancel₀ hd', one_smul]
  · simp only [smul_mul_assoc, Matrix.adjugate_mul]
    rw [smul_smul, inv_mul_cancel₀ hd', one_smul]

theorem init_vectors {rows : Matrix (Fin d) (Fin d) K} {b : LatticeBasis d K}
    (h : init rows = .ok b) : b.vectors = rows := by
  rw [vectors, (init_ok h).1, transpose_transpose]

theorem init_eq_ok_iff (rows : Matrix (Fin d) (Fin d) K) :
    (∃ b, init rows = .ok b) ↔ rows.det ≠ 0 := by
  unfold init
  simp only [det_transpose]
  split_ifs with h <;> simp [h]

theorem init_error_iff (rows : Matrix (Fin d) (Fin d) K) :
    init rows = .error .linalg ↔ rows.det = 0 := by
  unfold init
  simp only [det_transpose]
  split_ifs with h <;> simp [h]

theorem transform_itransform {rows : Matrix (Fin d) (Fin d) K} {b : LatticeBasis d K}
    (h : init rows = .ok b) (x : Vec d K) : b.transform (b.itransform x) = x := by
  simp [transform, itransform, mulVec_mulVec, (init_ok h).2.2.1]

theorem itransform_transform {rows : Matrix (Fin d) (Fin d) K} {b : LatticeBasis d K}
    (h : init rows = .ok b) (x : Vec d K) : b.itransform (b.transform x) = x := by
  simp [transform, itransform, mulVec_mulVec, (init_ok h).2.2.2]

theorem translate_eq (b : LatticeBasis d K) (n : Fin d → ℤ) (r : Vec d K) :
    b.translate n r = fun k => r k + ∑ i, (n i : K) * b.vectors i k := by
  funext k
  simp only [translate, vectors, Pi.add_apply, mulVec, dotProduct, transpose_apply]
  congr 1
  exact Finset.sum_congr rfl fun i _ => mul_comm _ _

theorem translate_zero_eq (b : LatticeBasis d K) (n : Fin d → ℤ) :
    b.translate n 0 = b.transform fun i => (n i : K) := by
  simp [translate, transform]

theorem itransform_add (b : LatticeBasis d K) (x y : Vec d K) :
    b.itransform (x + y) = b.itransform x + b.itransform y := by
  simp [itransform, mulVec_add]

theorem itransform_translate {rows : Matrix (Fin d) (Fin d) K} {b : LatticeBasis d K}
    (h : init rows = .ok b) (n : Fin d → ℤ) (r : Vec d K) :
    b.itransform (b.translate n r) = b.itransform r + fun i => (n i : K) := by
  unfold translate
  rw [itransform_add]
  congr 1
  exact itransform_transform h _

end

/-! ### cell indices -/

theorem tails_length : ∀ s : List ℤ, (tails s).length = s.length
  | [] => rfl
  | _ :: s => by simp [tails, tails_length s]

theorem superindex_cons (i : ℤ) (is : List ℤ) (a : ℤ) (s : List ℤ) :
    getCellSuperindex (i :: is) (a :: s) = i * s.prod + getCellSuperindex is s := by
  simp [getCellSuperindex, tails]

theorem getCellIndex_singleton (x a : ℤ) : getCellIndex x [a] = [x] := rfl

theorem getCellIndex_cons (x a b : ℤ) (s : List ℤ) :
    getCellIndex x (a :: b :: s) =
      x.fdiv (b :: s).prod :: getCellIndex (x.fmod (b :: s).prod) (b :: s) := by
  simp [getCellIndex, tails, cellIndexLoop]

theorem prod_pos' {s : List ℤ} (h : ∀ a ∈ s, 0 < a) : 0 < s.prod := List.prod_pos h

theorem fdiv_emod {x p : ℤ} (hp : 0 < p) : x.fdiv p = x / p ∧ x.fmod p = x % p :=
  ⟨Int.fdiv_eq_ediv_of_nonneg _ hp.le, Int.fmod_eq_emod_of_nonneg _ hp.le⟩

/-- The cell index is inside the box. -/
def InBox (index shape : List ℤ) : Prop := List.Forall₂ (fun i a => 0 ≤ i ∧ i < a) index shape

theorem superindex_bounds {index shape : List ℤ} (h : InBox index shape) :
    0 ≤ getCellSuperindex index shape ∧ getCellSuperindex index shape < shape.prod := by
  induction h with
  | nil => simp [getCellSuperindex, tails]
  | @cons i a is s h1 h2 ih =>
    rw [superindex_cons, List.prod_cons]
    have hp : 0 < s.prod := lt_of_le_of_lt ih.1 ih.2
    constructor
    · have := mul_nonneg h1.1 hp.le
      linarith [ih.1]
    · have : (i + 1) * s.prod ≤ a * s.prod := mul_le_mul_of_nonneg_right (by linarith [h1.2]) hp.le
      nlinarith [ih.2]

theorem cellIndex_superindex : ∀ {index shape : List ℤ}, shape ≠ [] → InBox index shape →
    getCellIndex (getCellSuperindex index shape) shape = index
  | _, [], h, _ => absurd rfl h
  | _, [a], _, h => by
      cases h with
      | cons h1 h2 => cases h2; simp [getCellSuperindex, tails, getCellIndex_singleton]
  | _, a :: b :: s, _, h => by
      cases h with
      | @cons i _ is _ h1 h2 =>
        have hb := superindex_bounds h2
        have hp : 0 < (b :: s).prod := lt_of_le_of_lt hb.1 hb.2
        rw [getCellIndex_cons, superindex_cons, (fdiv_emod hp).1, (fdiv_emod hp).2]
        have e1 : (i * (b :: s).prod + getCellSuperindex is (b :: s)) / (b :: s).prod = i := by
          rw [add_comm, Int.add_mul_ediv_right _ _ hp.ne', Int.ediv_eq_zero_of_lt hb.1 hb.2]; simp
        have e2 : (i * (b :: s).prod + getCellSuperindex is (b :: s)) % (b :: s).prod =
            getCellSuperindex is (b :: s) := by
          rw [add_comm, Int.add_mul_emod_self_right, Int.emod_eq_of_lt hb.1 hb.2]
        rw [e1, e2, cellIndex_superindex (by simp) h2]

theorem superindex_cellIndex : ∀ {shape : List ℤ}, shape ≠ [] → (∀ a ∈ shape, 0 < a) → ∀ x : ℤ,
    getCellSuperindex (getCellIndex x shape) shape = x ∧
    (getCellIndex x shape).length = shape.length ∧
    (0 ≤ x → x < shape.prod → InBox (getCellIndex x shape) shape)
  | [], h, _, _ => absurd rfl h
  | [a], _, _, x => by
      refine ⟨by simp [getCellSuperindex, tails, getCellIndex_singleton], rfl, ?_⟩
      intro h0 h1
      exact List.Forall₂.cons ⟨h0, by simpa using h1⟩ List.Forall₂.nil
  | a :: b :: s, _, hpos, x => by
      have hp : 0 < (b :: s).prod := prod_pos' fun c hc => hpos c (List.mem_cons_of_mem _ hc)
      obtain ⟨h1, h2, h3⟩ := superindex_cellIndex (shape := b :: s) (by simp)
        (fun c hc => hpos c (List.mem_cons_of_mem _ hc)) (x.fmod (b :: s).prod)
      rw [getCellIndex_cons]
      refine ⟨?_, congrArg (· + 1) h2, ?_⟩
      · rw [superindex_cons, h1, (fdiv_emod hp).1, (fdiv_emod hp).2]
        have := Int.mul_ediv_add_emod x (b :: s).prod
        rw [mul_comm] at this
        exact this
      · intro h0 hx
        refine List.Forall₂.cons ?_ (h3 ?_ ?_)
        · rw [(fdiv_emod hp).1]
          refine ⟨Int.ediv_nonneg h0 hp.le, Int.ediv_lt_of_lt_mul hp ?_⟩
          rwa [List.prod_cons (a := a)] at hx
        · rw [(fdiv_emod hp).2]; exact Int.emod_nonneg _ hp.ne'
        · rw [(fdiv_emod hp).2]; exact Int.emod_lt_of_pos _ hp

theorem superindex_lex {index index' shape : List ℤ} (h : InBox index shape)
    (h' : InBox index' shape) (hlt : index < index') :
    getCellSuperindex index shape < getCellSuperindex index' shape := by
  induction h generalizing index' with
  | nil => cases h'; exact absurd hlt (lt_irrefl _)
  | @cons i a is s h1 h2 ih =>
    cases h' with
    | @cons i' _ is' _ g1 g2 =>
      rw [superindex_cons, superindex_cons]
      have b1 := superindex_bounds h2
      have b2 := superindex_bounds g2
      have hp : 0 < s.prod := lt_of_le_of_lt b1.1 b1.2
      rcases List.cons_lt_cons_iff.1 hlt with h | ⟨rfl, h⟩
      · have : (i + 1) * s.prod ≤ i' * s.prod := mul_le_mul_of_nonneg_right (by omega) hp.le
        nlinarith
      · have := ih g2 h
        linarith

/-! ### neighbour cells -/

section
variable {d : ℕ}

theorem mem_factors (d distidx : ℕ) (n : Fin d → ℤ) :
    n ∈ factors d distidx ↔ ∀ k, |n k| ≤ (distidx : ℤ) + 1 := by
  simp only [factors, mem_boxList, List.mem_map, List.mem_range, abs_le]
  apply forall_congr'
  intro k
  constructor
  · rintro ⟨i, h1, h2⟩; omega
  · intro h
    exact ⟨(n k + (distidx + 1)).toNat, by omega, by omega⟩

theorem factors_nodup (d distidx : ℕ) : (factors d distidx).Nodup := by
  apply nodup_boxList
  intro k
  refine List.nodup_range.map ?_
  intro a b h
  simp at h
  exact h

/-- The selection step of `get_neighbor_cells`. -/
theorem neighborSel_mem (b : LatticeBasis d ℝ) (distidx : ℕ) (includeOrigin : Bool)
    (cmp : ℝ → ℝ → Bool) (maxdist : ℝ) (n : Fin d → ℤ) (hn : n ≠ 0) :
    (n ∈ (if includeOrigin && !(((factors d distidx).filter fun n =>
          cmp (norm2 (b.translate n 0)) maxdist).any fun n => decide (n = 0)) then
        0 :: (factors d distidx).filter fun n => cmp (norm2 (b.translate n 0)) maxdist
      else if !includeOrigin && (((factors d distidx).filter fun n =>
          cmp (norm2 (b.translate n 0)) maxdist).any fun n => decide (n = 0)) then
        ((factors d distidx).filter fun n => cmp (norm2 (b.translate n 0)) maxdist).filter
          fun n => decide (n ≠ 0)
      else (factors d distidx).filter fun n => cmp (norm2 (b.translate n 0)) maxdist)) ↔
    n ∈ factors d distidx ∧ cmp (norm2 (b.translate n 0)) maxdist = true := by
  split_ifs <;> simp [hn]

theorem neighborCells_spec (b : LatticeBasis d ℝ) (distidx : ℕ)
    (includeOrigin : Bool) (cmp : ℝ → ℝ → Bool) (r : List (Fin d → ℤ))
    (h : b.getNeighborCells distidx includeOrigin cmp = .ok r) :
    ∃ maxdist,
      (npUnique ((factors d distidx).map fun n => norm2 (b.translate n 0)))[
        distidx + (npUnique b.norms).length]? = some maxdist ∧
      r.Nodup ∧ (0 ∈ r ↔ includeOrigin = true) ∧
      ∀ n, n ≠ 0 → (n ∈ r ↔ (∀ k, |n k| ≤ (distidx : ℤ) + 1) ∧
        cmp (norm2 (b.translate n 0)) maxdist = true) := by
  unfold getNeighborCells at h
  dsimp only at h
  split at h
  · cases h
  · rename_i maxdist hm
    simp only [Except.ok.injEq] at h
    refine ⟨maxdist, hm, ?_, ?_, ?_⟩
    · rw [← h]
      have hnd : ((factors d distidx).filter fun n =>
        cmp (norm2 (b.translate n 0)) maxdist).Nodup := (factors_nodup _ _).filter _
      split_ifs with h1 h2
      · refine List.nodup_cons.2 ⟨?_, hnd⟩
        simp only [Bool.and_eq_true, Bool.not_eq_true', List.any_eq_false,
          decide_eq_true_eq] at h1
        intro h0
        exact h1.2 0 h0 rfl
      · exact hnd.filter _
      · exact hnd
    · rw [← h]
      split_ifs with h1 h2
      · simp at h1; simp [h1.1]
      · simp at h2; simp [h2.1]
      · cases includeOrigin with
        | true =>
          simp at h1
          obtain ⟨x, hx, rfl⟩ : ∃ x : Fin d → ℤ, (x ∈ factors d distidx ∧
            cmp (norm2 (b.translate x 0)) maxdist = true) ∧ x = 0 := by simpa using h1
          simp [hx.1, hx.2]
        | false =>
          simp only [Bool.not_false, Bool.true_and, Bool.not_eq_true, List.any_eq_false,
            decide_eq_true_eq] at h2
          simp only [Bool.false_eq_true, iff_false]
          exact fun h0 => h2 0 h0 rfl
    · intro n hn
      rw [← h, neighborSel_mem b distidx includeOrigin cmp maxdist n hn, mem_factors]

theorem norm2_translate_neg (b : LatticeBasis d ℝ) (n : Fin d → ℤ) :
    norm2 (b.translate (-n) 0) = norm2 (b.translate n 0) := by
  have : b.translate (-n) 0 = -b.translate n 0 := by
    rw [translate_eq, translate_eq]
    funext k
    simp
  rw [this]
  simp [norm2]

theorem norm2_translate_eq_zero {rows : Matrix (Fin d) (Fin d) ℝ} {b : LatticeBasis d ℝ}
    (h : init rows = .ok b) (n : Fin d → ℤ) : norm2 (b.translate n 0) = 0 ↔ n = 0 := by
  constructor
  · intro h0
    rw [norm2_eq_norm, norm_eq_zero] at h0
    have h1 : b.translate n 0 = 0 := (WithLp.toLp_injective 2) h0
    have h2 := itransform_translate h n 0
    rw [h1] at h2
    funext i
    have h3 := congrFun h2 i
    simp only [itransform, mulVec_zero, Pi.zero_apply, Pi.add_apply, zero_add] at h3
    exact_mod_cast h3.symm
  · rintro rfl
    have : (fun i => (((0 : Fin d → ℤ) i : ℤ) : ℝ)) = 0 := by funext i; simp
    rw [translate, this]
    simp [norm2, hasSqrt_real]

theorem second_level {L : List ℝ} (hsort : L.Pairwise (· < ·)) (hnn : ∀ x ∈ L, 0 ≤ x)
    (h0 : (0 : ℝ) ∈ L) {y : ℝ} (hy : y ∈ L) (hy0 : y ≠ 0) :
    ∃ m, L[1]? = some m ∧ m ≠ 0 ∧ m ∈ L ∧ ∀ x ∈ L, x ≠ 0 → m ≤ x := by
  match L, hsort, hnn, h0, hy with
  | [a], _, _, h0, hy =>
    simp at h0 hy
    exact absurd (hy.trans h0.symm) hy0
  | a :: m :: l, hsort, hnn, h0, hy =>
    rw [List.pairwise_cons, List.pairwise_cons] at hsort
    have ha : a = 0 := by
      rcases List.mem_cons.1 h0 with h | h
      · exact h.symm
      · have h1 := hsort.1 0 h
        have h2 := hnn a (by simp)
        exact absurd h1 (not_lt.2 h2)
    subst ha
    have hm : (0 : ℝ) < m := hsort.1 m (by simp)
    refine ⟨m, rfl, hm.ne', by simp, ?_⟩
    intro x hx hx0
    rcases List.mem_cons.1 hx with h | h
    · exact absurd h hx0
    · rcases List.mem_cons.1 h with h | h
      · exact h.ge
      · exact (hsort.2.1 x h).le

end

end LatticeBasis

end Lattpy
