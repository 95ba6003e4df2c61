import Verif.Spec.Utils
import Verif.Lemmas.Np
import Mathlib.Tactic.Positivity
import Mathlib.Tactic.IntervalCases

/-! Helper lemmas for `utils.py`. -/

set_option autoImplicit false

namespace Lattpy

theorem foldl_max_ge (l : List ℤ) (a : ℤ) : a ≤ l.foldl max a ∧ ∀ x ∈ l, x ≤ l.foldl max a := by
  induction l generalizing a with
  | nil => simp
  | cons y ys ih =>
    obtain ⟨h1, h2⟩ := ih (max a y)
    simp only [List.foldl_cons]
    refine ⟨le_trans (le_max_left _ _) h1, ?_⟩
    intro x hx
    rcases List.mem_cons.1 hx with rfl | hx
    · exact le_trans (le_max_right _ _) h1
    · exact h2 x hx

theorem foldl_max_mem (l : List ℤ) (a : ℤ) : l.foldl max a = a ∨ l.foldl max a ∈ l := by
  induction l generalizing a with
  | nil => simp
  | cons y ys ih =>
    simp only [List.foldl_cons]
    rcases ih (max a y) with h | h
    · rcases max_choice a y with h' | h' <;> rw [h'] at h ⊢
      · left; exact h
      · right; rw [h]; simp
    · right; exact List.mem_cons_of_mem _ h

theorem foldl_min_le (l : List ℤ) (a : ℤ) : l.foldl min a ≤ a ∧ ∀ x ∈ l, l.foldl min a ≤ x := by
  induction l generalizing a with
  | nil => simp
  | cons y ys ih =>
    obtain ⟨h1, h2⟩ := ih (min a y)
    simp only [List.foldl_cons]
    refine ⟨le_trans h1 (min_le_left _ _), ?_⟩
    intro x hx
    rcases List.mem_cons.1 hx with rfl | hx
    · exact le_trans h1 (min_le_right _ _)
    · exact h2 x hx

theorem foldl_min_mem (l : List ℤ) (a : ℤ) : l.foldl min a = a ∨ l.foldl min a ∈ l := by
  induction l generalizing a with
  | nil => simp
  | cons y ys ih =>
    simp only [List.foldl_cons]
    rcases ih (min a y) with h | h
    · rcases min_choice a y with h' | h' <;> rw [h'] at h ⊢
      · left; exact h
      · right; rw [h]; simp
    · right; exact List.mem_cons_of_mem _ h

theorem le_imax {l : List ℤ} {x : ℤ} (h : x ∈ l) : x ≤ imax l := by
  cases l with
  | nil => simp at h
  | cons y ys =>
    simp only [imax, List.tail_cons, List.headD_cons]
    rcases List.mem_cons.1 h with rfl | h
    · exact (foldl_max_ge _ _).1
    · exact (foldl_max_ge _ _).2 x h

theorem imax_mem {l : List ℤ} (h : l ≠ []) : imax l ∈ l := by
  cases l with
  | nil => simp at h
  | cons y ys =>
    simp only [imax, List.tail_cons, List.headD_cons]
    rcases foldl_max_mem ys y with h | h
    · rw [h]; simp
    · exact List.mem_cons_of_mem _ h

theorem imin_le {l : List ℤ} {x : ℤ} (h : x ∈ l) : imin l ≤ x := by
  cases l with
  | nil => simp at h
  | cons y ys =>
    simp only [imin, List.tail_cons, List.headD_cons]
    rcases List.mem_cons.1 h with rfl | h
    · exact (foldl_min_le _ _).1
    · exact (foldl_min_le _ _).2 x h

theorem imin_mem {l : List ℤ} (h : l ≠ []) : imin l ∈ l := by
  cases l with
  | nil => simp at h
  | cons y ys =>
    simp only [imin, List.tail_cons, List.headD_cons]
    rcases foldl_min_mem ys y with h | h
    · rw [h]; simp
    · exact List.mem_cons_of_mem _ h

theorem minScalarType_spec {a : ℤ} {t : IntType} (h : minScalarType a = some t) :
    t ∈ numpyIntTypes ∧ t.signed = decide (a < 0) ∧ t.holds a ∧
      ∀ t' ∈ numpyIntTypes, t'.signed = t.signed → t'.holds a → t.bits ≤ t'.bits := by
  by_cases ha : a < 0 <;>
  simp [minScalarType, List.find?, ha, IntType.holds, IntType.lo, IntType.hi] at h <;>
  repeat' (split at h)
  all_goals simp_all [numpyIntTypes, IntType.holds, IntType.lo, IntType.hi]
  all_goals subst h
  all_goals simp
  all_goals omega

theorem minScalarType_isSome {a : ℤ} (h : -2 ^ 63 ≤ a) (h' : a < 2 ^ 64) :
    ∃ t, minScalarType a = some t := by
  by_cases ha : a < 0 <;>
  simp [minScalarType, List.find?, ha, IntType.holds, IntType.lo, IntType.hi] <;>
  repeat' split
  all_goals simp_all
  all_goals omega

/-! ## lookup table -/
section
variable {α : Type*} [LinearOrder α]

/-- Loop invariant of `create_lookup_table`. -/
theorem lookup_foldl (array : List α) (bits : ℕ) :
    ∀ (values : List α) (off : ℕ) (idx : List ℕ), values.Nodup → idx.length = array.length →
    let res := (values.zipIdx off).foldl (fun idx p =>
      List.zipWith (fun x k => if x = p.1 then p.2 % 2 ^ bits else k) array idx) idx
    res.length = array.length ∧
    ∀ (i : ℕ) (x : α), array[i]? = some x →
      (∀ j, values[j]? = some x → res[i]? = some ((off + j) % 2 ^ bits)) ∧
      (x ∉ values → res[i]? = idx[i]?)
  | [], off, idx, _, hl => by simp [hl]
  | v :: vs, off, idx, hnd, hl => by
      rw [List.nodup_cons] at hnd
      simp only [List.zipIdx_cons, List.foldl_cons]
      set idx' := List.zipWith (fun x k => if x = v then off % 2 ^ bits else k) array idx
        with hidx'
      have hl' : idx'.length = array.length := by simp [hidx', hl]
      obtain ⟨r1, r2⟩ := lookup_foldl array bits vs (off + 1) idx' hnd.2 hl'
      refine ⟨r1, ?_⟩
      intro i x hx
      obtain ⟨s1, s2⟩ := r2 i x hx
      have hi : i < array.length := by
        by_contra hc
        simp [List.getElem?_eq_none (not_lt.1 hc)] at hx
      have hi' : i < idx.length := by omega
      have hxi : array[i] = x := by simpa [hi] using hx
      have hget : idx'[i]? = some (if x = v then off % 2 ^ bits else idx[i]) := by
        simp [hidx', hi, hi', hxi]
      constructor
      · intro j hj
        cases j with
        | zero =>
          simp at hj; subst hj
          rw [s2 hnd.1, hget]; simp
        | succ j =>
          simp at hj
          rw [s1 j hj]; congr 2; omega
      · intro hxv
        simp only [List.mem_cons, not_or] at hxv
        rw [s2 hxv.2, hget]
        simp [hxv.1, hi']

theorem lookup_getElem? (array : List α) (bits : ℕ) (i : ℕ) (x : α)
    (hx : array[i]? = some x) :
    ∃ j, (npUnique array)[j]? = some x ∧
      (createLookupTable array bits).2[i]? = some (j % 2 ^ bits) := by
  have hmem : x ∈ npUnique array := mem_npUnique.2 (List.mem_of_getElem? hx)
  obtain ⟨j, hj⟩ := List.mem_iff_getElem?.1 hmem
  refine ⟨j, hj, ?_⟩
  have := (lookup_foldl array bits (npUnique array) 0 (array.map fun _ => 0)
    (npUnique_nodup _) (by simp)).2 i x hx
  have h1 := this.1 j hj
  simpa [createLookupTable] using h1

theorem lookup_length (array : List α) (bits : ℕ) :
    (createLookupTable array bits).2.length = array.length := by
  have := (lookup_foldl array bits (npUnique array) 0 (array.map fun _ => 0)
    (npUnique_nodup _) (by simp)).1
  simpa [createLookupTable] using this

theorem lookup_values (array : List α) (bits : ℕ) :
    (createLookupTable array bits).1 = npUnique array := rfl

end

/-! ## chain and frmt_num -/

theorem chain_pairs_eq {α : Type*} (items : List α) :
    chainPairs items = items.zip items.tail := by
  unfold chainPairs
  have h : ∀ (l : List α), (List.range (l.length - 1)).map (fun i =>
      l[i]?.bind fun x => l[i + 1]?.map fun y => (x, y)) = (l.zip l.tail).map some := by
    intro l
    apply List.ext_getElem?
    intro i
    by_cases hi : i + 1 < l.length
    · simp [hi, show i < l.length by omega, show i < l.length - 1 by omega]
    · rw [List.getElem?_eq_none (by simp; omega), List.getElem?_eq_none (by simp; omega)]
  have h2 := congrArg (List.filterMap id) (h items)
  rw [List.filterMap_map, List.filterMap_map] at h2
  convert h2 using 1
  · rfl
  · exact List.filterMap_some.symm

theorem map_fst_zip_cons {α β : Type*} : ∀ (xs : List α) (ys : List β) , xs.length = ys.length + 1 →
    (xs.zip ys).map Prod.fst = xs.dropLast
  | [], _, h => by simp at h
  | [x], ys, h => by
      have : ys = [] := List.length_eq_zero_iff.1 (by simpa using h.symm)
      simp [this]
  | x :: x' :: xs, [], h => by simp at h
  | x :: x' :: xs, y :: ys, h => by
      have := map_fst_zip_cons (x' :: xs) ys (by simpa using h)
      simp [this]

theorem frmtNum_spec {K : Type*} [Field K] [LinearOrder K] [IsStrictOrderedRing K] (div : K)
    (hdiv : 0 < div) : ∀ (ps : List String) (num : K),
    ∃ p, (ps ++ ["Y"])[p]? = some (frmtNum num div ps).2 ∧
      (frmtNum num div ps).1 * div ^ p = num ∧
      (p < ps.length → |(frmtNum num div ps).1| < div) ∧
      (0 < p → 1 ≤ |(frmtNum num div ps).1|)
  | [], num => ⟨0, by simp [frmtNum]⟩
  | q :: qs, num => by
    by_cases h : |num| < div
    · exact ⟨0, by simp [frmtNum, h]⟩
    · obtain ⟨p, h1, h2, h3, h4⟩ := frmtNum_spec div hdiv qs (num / div)
      refine ⟨p + 1, ?_, ?_, ?_, ?_⟩
      · simpa [frmtNum, h] using h1
      · simp only [frmtNum, h, if_false]
        rw [pow_succ, ← mul_assoc, h2, div_mul_cancel₀ _ hdiv.ne']
      · intro hp
        simp only [frmtNum, h, if_false]
        exact h3 (by simpa using hp)
      · intro _
        simp only [frmtNum, h, if_false]
        rcases Nat.eq_zero_or_pos p with rfl | hp
        · simp only [pow_zero, mul_one] at h2
          rw [h2, abs_div, abs_of_pos hdiv, le_div_iff₀ hdiv]
          simpa using h
        · exact h4 hp

end Lattpy
