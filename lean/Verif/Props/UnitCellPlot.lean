import Verif.Model.Plot
import Mathlib.Data.Real.Basic
import Mathlib.LinearAlgebra.Matrix.Determinant.Basic
import Mathlib.Data.Fintype.BigOperators
import Mathlib.Tactic.FinCases
import Mathlib.Tactic.Linarith
import Mathlib.Tactic.IntervalCases
import Mathlib.Algebra.BigOperators.Fin

/-!
# C101: the edges of the unit cell
-/

set_option autoImplicit false

namespace Lattpy

variable {d : ℕ}

/-- The edges of the cell spanned by the vectors: they begin at the sum of some vectors and run along
one of the others. -/
def IsEdge (A : Matrix (Fin d) (Fin d) ℝ) (e : Vec d ℝ × Vec d ℝ) : Prop :=
  ∃ (k : Fin d) (S : Finset (Fin d)), k ∉ S ∧ e.1 = (fun m => ∑ i ∈ S, A i m) ∧ e.2 = A k

theorem mem_permutations2 {n : ℕ} (p : Fin n × Fin n) : p ∈ permutations2 n ↔ p.2 ≠ p.1 := by
  unfold permutations2
  simp only [List.mem_flatMap, List.mem_finRange, true_and, List.mem_map, List.mem_filter,
    decide_eq_true_eq]
  constructor
  · rintro ⟨i, j, h, rfl⟩
    exact h
  · intro h
    exact ⟨p.1, p.2, h, rfl⟩

theorem mem_permutations3 {n : ℕ} (p : Fin n × Fin n × Fin n) :
    p ∈ permutations3 n ↔ p.2.1 ≠ p.1 ∧ p.2.2 ≠ p.1 ∧ p.2.2 ≠ p.2.1 := by
  unfold permutations3
  simp only [List.mem_flatMap, List.mem_finRange, true_and, List.mem_map, List.mem_filter,
    decide_eq_true_eq, Bool.and_eq_true]
  constructor
  · rintro ⟨q, hq, k, h, rfl⟩
    exact ⟨(mem_permutations2 q).1 hq, h⟩
  · rintro ⟨h1, h2, h3⟩
    exact ⟨(p.1, p.2.1), (mem_permutations2 _).2 h1, p.2.2, ⟨h2, h3⟩, rfl⟩

/-- C101: without outlines `draw_unit_cell` draws the basis vectors as arrows from the origin; with
outlines the arrows and lines together are exactly the edges of the cell. -/
theorem C101_edges (hd : d ≤ 3) (A : Matrix (Fin d) (Fin d) ℝ) :
    (∀ outlines, (drawUnitCell A outlines).1 = (List.finRange d).map fun i => (0, A i)) ∧
    (drawUnitCell A false).2 = [] ∧
    ∀ e, e ∈ (drawUnitCell A true).1 ++ (drawUnitCell A true).2 ↔ IsEdge A e := by
  refine ⟨fun outlines => ?_, by simp [drawUnitCell], fun e => ?_⟩
  · unfold drawUnitCell
    dsimp only
    split_ifs <;> rfl
  have harrow : e ∈ (List.finRange d).map (fun i => ((0 : Vec d ℝ), A i)) ↔
      ∃ k, e.1 = 0 ∧ e.2 = A k := by
    simp only [List.mem_map, List.mem_finRange, true_and]
    exact exists_congr fun k => ⟨fun h => by rw [← h]; exact ⟨rfl, rfl⟩, fun h =>
      Prod.ext h.1.symm h.2.symm⟩
  have hside : e ∈ (permutations2 d).map (fun p => (A p.2, A p.1)) ↔
      ∃ k j, j ≠ k ∧ e.1 = A j ∧ e.2 = A k := by
    simp only [List.mem_map, mem_permutations2]
    constructor
    · rintro ⟨p, hp, rfl⟩
      exact ⟨p.1, p.2, hp, rfl, rfl⟩
    · rintro ⟨k, j, h, h1, h2⟩
      exact ⟨(k, j), h, Prod.ext h1.symm h2.symm⟩
  have htop : e ∈ (permutations3 d).map (fun p =>
        ((fun k => A p.2.1 k + A p.2.2 k : Vec d ℝ), (A p.1 : Vec d ℝ))) ↔
      ∃ k i j, i ≠ k ∧ j ≠ k ∧ j ≠ i ∧ e.1 = (fun m => A i m + A j m) ∧ e.2 = A k := by
    simp only [List.mem_map, mem_permutations3]
    constructor
    · rintro ⟨p, ⟨h1, h2, h3⟩, rfl⟩
      exact ⟨p.1, p.2.1, p.2.2, h1, h2, h3, rfl, rfl⟩
    · rintro ⟨k, i, j, h1, h2, h3, h4, h5⟩
      exact ⟨(k, i, j), ⟨h1, h2, h3⟩, Prod.ext h4.symm h5.symm⟩
  have hspec : IsEdge A e ↔ (∃ k, e.1 = 0 ∧ e.2 = A k) ∨ (∃ k j, j ≠ k ∧ e.1 = A j ∧ e.2 = A k) ∨
      ∃ k i j, i ≠ k ∧ j ≠ k ∧ j ≠ i ∧ e.1 = (fun m => A i m + A j m) ∧ e.2 = A k := by
    constructor
    · rintro ⟨k, S, hk, h1, h2⟩
      have hc : S.card ≤ 2 := by
        have : S.card < Fintype.card (Fin d) :=
          Finset.card_lt_univ_of_notMem hk
        rw [Fintype.card_fin] at this
        omega
      interval_cases hS : S.card
      · left
        rw [Finset.card_eq_zero] at hS
        subst hS
        exact ⟨k, by rw [h1]; funext m; simp, h2⟩
      · right
        left
        obtain ⟨j, rfl⟩ := Finset.card_eq_one.1 hS
        exact ⟨k, j, fun h => hk (by simp [h]), by rw [h1]; funext m; simp, h2⟩
      · right
        right
        obtain ⟨i, j, hij, rfl⟩ := Finset.card_eq_two.1 hS
        refine ⟨k, i, j, fun h => hk (by simp [h]), fun h => hk (by simp [h]), Ne.symm hij, ?_, h2⟩
        rw [h1]
        funext m
        rw [Finset.sum_pair hij]
    · rintro (⟨k, h1, h2⟩ | ⟨k, j, hj, h1, h2⟩ | ⟨k, i, j, hi, hj, hij, h1, h2⟩)
      · exact ⟨k, ∅, by simp, by rw [h1]; funext m; simp, h2⟩
      · exact ⟨k, {j}, by simpa using hj.symm, by rw [h1]; funext m; simp, h2⟩
      · exact ⟨k, {i, j}, by simp [hi.symm, hj.symm], by
          rw [h1]; funext m; rw [Finset.sum_pair hij.symm], h2⟩
  have htwo : (∃ k j : Fin d, j ≠ k) → 1 < d := by
    rintro ⟨k, j, h⟩
    have := k.isLt
    have := j.isLt
    by_contra hn
    exact h (Fin.ext (by omega))
  have hthree : (∃ k i j : Fin d, i ≠ k ∧ j ≠ k ∧ j ≠ i) → d = 3 := by
    rintro ⟨k, i, j, h1, h2, h3⟩
    have := k.isLt
    have := j.isLt
    have := i.isLt
    by_contra hn
    rw [Ne, Fin.ext_iff] at h1 h2 h3
    omega
  rw [hspec, ← harrow, ← hside, ← htop, List.mem_append]
  unfold drawUnitCell
  dsimp only
  by_cases h1 : 1 < d
  · rw [if_pos ⟨rfl, h1⟩]
    by_cases h3 : d = 3
    · rw [if_pos h3, List.mem_append]
    · rw [if_neg h3]
      refine or_congr_right ⟨Or.inl, ?_⟩
      rintro (h | h)
      · exact h
      · obtain ⟨k, i, j, e1, e2, e3, -⟩ := htop.1 h
        exact absurd (hthree ⟨k, i, j, e1, e2, e3⟩) h3
  · rw [if_neg fun h => h1 h.2]
    refine or_congr_right ⟨fun h => absurd h List.not_mem_nil, ?_⟩
    rintro (h | h)
    · obtain ⟨k, j, e1, -⟩ := hside.1 h
      exact absurd (htwo ⟨k, j, e1⟩) h1
    · obtain ⟨k, i, -, e1, -⟩ := htop.1 h
      exact absurd (htwo ⟨k, i, e1⟩) h1

/-- The square: the edge opposite to the first basis vector. -/
example : IsEdge (1 : Matrix (Fin 2) (Fin 2) ℝ) (![0, 1], ![1, 0]) := by
  refine ⟨0, {1}, by decide, ?_, ?_⟩
  · funext m
    fin_cases m <;> simp [Matrix.one_apply]
  · funext m
    fin_cases m <;> simp [Matrix.one_apply]

/-- C101: in the plane the four edges of a cell with independent vectors are drawn once each. -/
theorem C101_once (A : Matrix (Fin 2) (Fin 2) ℝ) (hA : A.det ≠ 0) :
    ((drawUnitCell A true).1 ++ (drawUnitCell A true).2).length = 4 ∧
    ((drawUnitCell A true).1 ++ (drawUnitCell A true).2).Nodup := by
  have h : (drawUnitCell A true).1 ++ (drawUnitCell A true).2 =
      [(0, A 0), (0, A 1), (A 1, A 0), (A 0, A 1)] := rfl
  have h0 : (0 : Vec 2 ℝ) ≠ A 0 := by
    intro e
    apply hA
    rw [Matrix.det_fin_two, ← e]
    simp
  have h1 : (0 : Vec 2 ℝ) ≠ A 1 := by
    intro e
    apply hA
    rw [Matrix.det_fin_two, ← e]
    simp
  have h2 : A 0 ≠ A 1 := by
    intro e
    apply hA
    rw [Matrix.det_fin_two, e]
    ring
  rw [h]
  refine ⟨rfl, ?_⟩
  simp [h0, h1, h2, Prod.ext_iff, h2.symm]

/-- The square. -/
example : (1 : Matrix (Fin 2) (Fin 2) ℝ).det ≠ 0 := by simp

/-- C101: in space the arrows and lines are fifteen, although the cell has twelve edges: the three
edges that meet at the far corner are drawn twice each. -/
theorem C101_twice (A : Matrix (Fin 3) (Fin 3) ℝ) :
    ((drawUnitCell A true).1 ++ (drawUnitCell A true).2).length = 15 ∧
    ∀ i j k : Fin 3, i ≠ k → j ≠ k → j ≠ i → ∃ a b : ℕ, a < b ∧
      ((drawUnitCell A true).1 ++ (drawUnitCell A true).2)[a]? =
        some (fun m => A i m + A j m, A k) ∧
      ((drawUnitCell A true).1 ++ (drawUnitCell A true).2)[b]? =
        some (fun m => A i m + A j m, A k) := by
  have h : (drawUnitCell A true).1 ++ (drawUnitCell A true).2 =
      [(0, A 0), (0, A 1), (0, A 2), (A 1, A 0), (A 2, A 0), (A 0, A 1), (A 2, A 1), (A 0, A 2),
        (A 1, A 2), (fun m => A 1 m + A 2 m, A 0), (fun m => A 2 m + A 1 m, A 0),
        (fun m => A 0 m + A 2 m, A 1), (fun m => A 2 m + A 0 m, A 1),
        (fun m => A 0 m + A 1 m, A 2), (fun m => A 1 m + A 0 m, A 2)] := rfl
  rw [h]
  refine ⟨rfl, fun i j k h1 h2 h3 => ⟨9 + 2 * k.val, 10 + 2 * k.val, by omega, ?_, ?_⟩⟩
  all_goals
    fin_cases i <;> fin_cases j <;> fin_cases k <;> first
      | exact absurd rfl h1
      | exact absurd rfl h2
      | exact absurd rfl h3
      | rfl
      | exact congrArg some (Prod.ext (funext fun m => add_comm _ _) rfl)

end Lattpy
