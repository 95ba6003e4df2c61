import Verif.Np
import Mathlib.Tactic.Linarith
import Mathlib.Tactic.Ring
import Mathlib.Tactic.FieldSimp
import Mathlib.Tactic.NormNum
import Mathlib.Tactic.Positivity

/-! Helper lemmas about the NumPy primitives. -/

set_option autoImplicit false

namespace Lattpy

/-! ## npUnique -/
section
variable {α : Type*} [LinearOrder α]

theorem mem_npUnique {l : List α} {x : α} : x ∈ npUnique l ↔ x ∈ l := by
  simp [npUnique]

theorem npUnique_nodup (l : List α) : (npUnique l).Nodup := by
  unfold npUnique
  exact ((List.perm_insertionSort _ _).nodup_iff).2 (List.nodup_dedup l)

theorem npUnique_pairwise_le (l : List α) : (npUnique l).Pairwise (· ≤ ·) := by
  unfold npUnique
  exact List.pairwise_insertionSort _ _

theorem npUnique_pairwise_lt (l : List α) : (npUnique l).Pairwise (· < ·) := by
  have h1 := npUnique_pairwise_le l
  have h2 := npUnique_nodup l
  exact (h1.and h2).imp fun h => lt_of_le_of_ne h.1 h.2

theorem eq_of_pairwise_lt {l₁ l₂ : List α} (h1 : l₁.Pairwise (· < ·))
    (h2 : l₂.Pairwise (· < ·)) (h : ∀ x, x ∈ l₁ ↔ x ∈ l₂) : l₁ = l₂ := by
  have p : l₁.Perm l₂ := by
    rw [List.perm_ext_iff_of_nodup (h1.imp fun h => ne_of_lt h) (h2.imp fun h => ne_of_lt h)]
    exact h
  exact p.eq_of_pairwise (fun a b _ _ hab hba => absurd (hab.trans hba) (lt_irrefl _)) h1 h2

/-- `npUnique l` is determined by being strictly ascending with the elements of `l`. -/
theorem npUnique_eq {l l' : List α} (h1 : l'.Pairwise (· < ·))
    (h : ∀ x, x ∈ l' ↔ x ∈ l) : npUnique l = l' :=
  eq_of_pairwise_lt (npUnique_pairwise_lt l) h1 fun x => by rw [mem_npUnique, h]

end

/-! ## stable sort -/
section
variable {α κ : Type*} [LinearOrder κ]

theorem stableSortBy_perm (key : α → κ) (l : List α) : (stableSortBy key l).Perm l :=
  List.perm_insertionSort _ _

theorem stableSortBy_pairwise (key : α → κ) (l : List α) :
    (stableSortBy key l).Pairwise (fun a b => key a ≤ key b) := by
  unfold stableSortBy
  have : Std.Total (fun a b : α => key a ≤ key b) := ⟨fun a b => le_total _ _⟩
  have : IsTrans α (fun a b : α => key a ≤ key b) := ⟨fun _ _ _ h1 h2 => le_trans h1 h2⟩
  exact List.pairwise_insertionSort _ _

theorem stableSortBy_of_pairwise (key : α → κ) (l : List α)
    (h : l.Pairwise (fun a b => key a ≤ key b)) : stableSortBy key l = l := by
  unfold stableSortBy
  exact h.insertionSort_eq

end

/-! ## boxList -/
section
variable {α : Type*}

theorem mem_boxList : {d : ℕ} → (r : Fin d → List α) → (v : Fin d → α) →
    (v ∈ boxList r ↔ ∀ k, v k ∈ r k)
  | 0, r, v => by
      simp only [boxList, List.mem_singleton]
      constructor
      · intro _ k; exact k.elim0
      · intro _; funext k; exact k.elim0
  | d + 1, r, v => by
      simp only [boxList, List.mem_flatMap, List.mem_map]
      constructor
      · rintro ⟨x, hx, w, hw, rfl⟩ k
        refine Fin.cases ?_ ?_ k
        · simpa using hx
        · intro j
          simpa using (mem_boxList _ w).1 hw j
      · intro h
        refine ⟨v 0, h 0, Fin.tail v, (mem_boxList _ _).2 fun k => h k.succ, ?_⟩
        exact Fin.cons_self_tail v

theorem nodup_boxList : {d : ℕ} → (r : Fin d → List α) → (∀ k, (r k).Nodup) →
    (boxList r).Nodup
  | 0, r, _ => by simp [boxList]
  | d + 1, r, h => by
      simp only [boxList]
      rw [List.nodup_flatMap]
      constructor
      · intro x _
        refine (nodup_boxList _ fun k => h k.succ).map ?_
        intro v w hvw
        have := congrArg Fin.tail hvw
        simpa using this
      · refine (h 0).imp ?_
        intro a b hab
        simp only [Function.onFun]
        rw [List.disjoint_left]
        intro v hv hv'
        obtain ⟨w, _, rfl⟩ := List.mem_map.1 hv
        obtain ⟨w', _, hw'⟩ := List.mem_map.1 hv'
        have := congrFun hw' 0
        simp at this
        exact hab this.symm

theorem length_boxList : {d : ℕ} → (r : Fin d → List α) →
    (boxList r).length = ∏ k, (r k).length
  | 0, r => by simp [boxList]
  | d + 1, r => by
      simp only [boxList, List.length_flatMap, List.length_map, Fin.prod_univ_succ]
      rw [length_boxList]
      simp [List.sum_replicate]

end

/-! ## searchsorted -/
section
variable {α : Type*} [LinearOrder α]

theorem searchsorted_eq_of_getElem? {a : List α} (h : a.Pairwise (· < ·)) {v : α} {i : ℕ}
    (hi : a[i]? = some v) : searchsorted a v = i := by
  induction a generalizing i with
  | nil => simp at hi
  | cons x xs ih =>
    rw [List.pairwise_cons] at h
    cases i with
    | zero =>
      simp at hi; subst hi
      simp [searchsorted]
    | succ i =>
      simp at hi
      have hx : x < v := h.1 v (List.mem_of_getElem? hi)
      have := ih h.2 hi
      simp [searchsorted, hx] at this ⊢
      exact this

end

/-! ## whereIdx -/

theorem mem_whereIdx {α : Type*} {p : α → Bool} {l : List α} {i : ℕ} :
    i ∈ whereIdx p l ↔ ∃ a, l[i]? = some a ∧ p a = true := by
  simp only [whereIdx, List.mem_filter, List.mem_range]
  constructor
  · rintro ⟨hi, h⟩
    refine ⟨l[i], by simp [hi], ?_⟩
    simpa [hi] using h
  · rintro ⟨a, ha, hp⟩
    have : i < l.length := by
      by_contra hc
      simp [List.getElem?_eq_none (not_lt.1 hc)] at ha
    refine ⟨this, ?_⟩
    rw [ha]
    exact hp

theorem whereIdx_pairwise {α : Type*} (p : α → Bool) (l : List α) :
    (whereIdx p l).Pairwise (· < ·) :=
  List.Pairwise.filter _ List.pairwise_lt_range

/-! ## rounding -/
section
variable {K : Type*} [Field K] [LinearOrder K] [IsStrictOrderedRing K] [FloorRing K]

theorem abs_rint_sub_le (x : K) : |(rint x : K) - x| ≤ 1 / 2 := by
  have h1 := Int.floor_le x
  have h2 := Int.lt_floor_add_one x
  unfold rint
  dsimp only
  split_ifs with a b c
  · rw [abs_le]; constructor <;> linarith
  · push_cast; rw [abs_le]; constructor <;> linarith
  · rw [abs_le]; constructor <;> linarith
  · push_cast; rw [abs_le]; constructor <;> linarith

theorem rint_intCast (z : ℤ) : rint (z : K) = z := by
  unfold rint
  simp

theorem abs_npRound_sub_le (n : ℕ) (x : K) : |npRound n x - x| ≤ 1 / 2 / 10 ^ n := by
  have h : (0 : K) < 10 ^ n := by positivity
  have h1 := abs_rint_sub_le (x * 10 ^ n)
  have h2 : npRound n x - x = ((rint (x * 10 ^ n) : K) - x * 10 ^ n) / 10 ^ n := by
    unfold npRound; field_simp
  rw [h2, abs_div, abs_of_pos h]
  exact div_le_div_of_nonneg_right h1 h.le

theorem rint_mono {x y : K} (h : x ≤ y) : rint x ≤ rint y := by
  have hx1 := Int.floor_le x
  have hx2 := Int.lt_floor_add_one x
  have hy1 := Int.floor_le y
  have hy2 := Int.lt_floor_add_one y
  have hf : ⌊x⌋ ≤ ⌊y⌋ := Int.floor_le_floor h
  rcases hf.lt_or_eq with hlt | heq
  · have hux : rint x ≤ ⌊x⌋ + 1 := by unfold rint; dsimp only; split_ifs <;> omega
    have hly : ⌊y⌋ ≤ rint y := by unfold rint; dsimp only; split_ifs <;> omega
    omega
  · unfold rint
    dsimp only
    rw [heq]
    rw [heq] at hx1 hx2
    split_ifs <;> first | omega | (exfalso; linarith)

theorem npRound_mono {n : ℕ} {x y : K} (h : x ≤ y) : npRound n x ≤ npRound n y := by
  have hp : (0 : K) < 10 ^ n := by positivity
  unfold npRound
  apply div_le_div_of_nonneg_right _ hp.le
  exact_mod_cast rint_mono (mul_le_mul_of_nonneg_right h hp.le)

theorem npRound_zero (n : ℕ) : npRound n (0 : K) = 0 := by
  unfold npRound
  have := rint_intCast (K := K) 0
  simp at this
  simp [this]

theorem npRound_of_int (n : ℕ) (z : ℤ) : npRound n ((z : K) / 10 ^ n) = (z : K) / 10 ^ n := by
  have hp : (0 : K) < 10 ^ n := by positivity
  unfold npRound
  rw [div_mul_cancel₀ _ hp.ne', rint_intCast]

end

end Lattpy
