import Verif.Spec.Spatial
import Verif.Lemmas.Np
import Verif.Lemmas.Utils

/-! Helper lemmas for `spatial.py` (ordered-field part). -/

set_option autoImplicit false

namespace Lattpy

/-! ## interweave -/
section
variable {α : Type*}

theorem slots_eq {n m i : ℕ} (hi : i < n) : slots (n * m) i n = m := by
  unfold slots
  have hn : 0 < n := by omega
  cases m with
  | zero => simp; omega
  | succ m =>
    have h1 : n * (m + 1) = n * m + n := by ring
    rw [h1]
    have h2 : n * m + n - i + n - 1 = (n - i + n - 1 - n) + n * (m + 1) := by
      rw [h1]; omega
    rw [h2, Nat.add_mul_div_left _ _ hn, Nat.div_eq_of_lt (by omega)]
    omega

theorem strided_iff {n i k : ℕ} (hi : i < n) :
    (i ≤ k ∧ (k - i) % n = 0) ↔ k % n = i := by
  constructor
  · rintro ⟨h1, h2⟩
    obtain ⟨q, hq⟩ := Nat.dvd_of_mod_eq_zero h2
    have : k = i + n * q := by omega
    rw [this, Nat.add_mul_mod_self_left, Nat.mod_eq_of_lt hi]
  · intro h
    have h1 := Nat.mod_add_div k n
    refine ⟨by omega, ?_⟩
    have : k - i = n * (k / n) := by omega
    rw [this, Nat.mul_mod_right]

theorem strided_div {n i k : ℕ} (hi : i < n) (h : k % n = i) : (k - i) / n = k / n := by
  have h1 := Nat.mod_add_div k n
  have : k - i = n * (k / n) := by omega
  rw [this, Nat.mul_div_cancel_left _ (by omega)]

theorem setStrided_spec {n m i : ℕ} (hi : i < n) (arr : List α) (ha : arr.length = m)
    (res : List (Option α)) (hr : res.length = n * m) :
    ∃ r, setStrided i n arr res = .ok r ∧ r.length = n * m ∧
      ∀ k, k < n * m → r[k]? = some (if k % n = i then arr[k / n]? else (res[k]?).join) := by
  refine ⟨_, by rw [setStrided, if_pos]; left; rw [hr, slots_eq hi, ha], by simp [hr], ?_⟩
  intro k hk
  have hk' : k / n < m := Nat.div_lt_of_lt_mul hk
  rw [List.getElem?_map, List.getElem?_range (by omega)]
  simp only [Option.map_some, strided_iff hi]
  congr 1
  by_cases h : k % n = i
  · simp only [h, if_true, strided_div hi h]
    by_cases h1 : arr.length = 1
    · have : k / n = 0 := Nat.lt_one_iff.1 (by rw [← h1, ha]; exact hk')
      simp [h1, this]
    · simp [h1]
  · simp [h]

theorem interweaveLoop_spec {n m : ℕ} : ∀ (arrays : List (List α)) (i : ℕ)
    (res : List (Option α)), i + arrays.length = n → (∀ a ∈ arrays, a.length = m) →
    res.length = n * m →
    ∃ r, interweaveLoop n i arrays res = .ok r ∧ r.length = n * m ∧
      ∀ k, k < n * m → r[k]? = some (if i ≤ k % n then
        (arrays[k % n - i]?).bind (fun a => a[k / n]?) else (res[k]?).join)
  | [], i, res, hi, _, hr => by
      refine ⟨res, rfl, hr, ?_⟩
      intro k hk
      have hn : 0 < n := by
        rcases Nat.eq_zero_or_pos n with h | h
        · simp [h] at hk
        · exact h
      have := Nat.mod_lt k hn
      simp at hi
      rw [if_neg (by omega), List.getElem?_eq_getElem (by omega)]
      rfl
  | a :: arrays, i, res, hi, ha, hr => by
      have hin : i < n := by simp at hi; omega
      obtain ⟨r1, h1, h2, h3⟩ := setStrided_spec hin a (ha a (by simp)) res hr
      obtain ⟨r2, g1, g2, g3⟩ := interweaveLoop_spec arrays (i + 1) r1
        (by simp at hi; omega) (fun b hb => ha b (by simp [hb])) h2
      refine ⟨r2, by simp [interweaveLoop, h1, g1], g2, ?_⟩
      intro k hk
      rw [g3 k hk, h3 k hk]
      congr 1
      rcases lt_trichotomy (k % n) i with h | h | h
      · rw [if_neg (show ¬ i + 1 ≤ k % n by omega), if_neg (show ¬ k % n = i by omega),
          if_neg (show ¬ i ≤ k % n by omega)]
        rfl
      · rw [if_neg (by omega), if_pos (by omega)]
        simp [h]
      · rw [if_pos (by omega), if_pos (by omega)]
        have : k % n - i = (k % n - (i + 1)) + 1 := by omega
        rw [this, List.getElem?_cons_succ]

end

/-! ## vindices -/

theorem wrapSigned_of_lt {w : ℕ} (hw : 0 < w) {x : ℤ} (h0 : 0 ≤ x) (h1 : x < 2 ^ (w - 1)) :
    wrapSigned w x = x := by
  unfold wrapSigned
  have h2 : ((2 ^ w : ℕ) : ℤ) = 2 * 2 ^ (w - 1) := by
    obtain ⟨v, rfl⟩ : ∃ v, w = v + 1 := ⟨w - 1, by omega⟩
    push_cast
    simp [pow_succ]; ring
  rw [Int.bmod_def, h2, Int.emod_eq_of_lt h0 (by omega), if_pos]
  omega

theorem boxList_lex : {d : ℕ} → (r : Fin d → List ℤ) → (∀ k, (r k).Pairwise (· < ·)) →
    (boxList r).Pairwise LexLt
  | 0, r, _ => by simp [boxList]
  | d + 1, r, h => by
      simp only [boxList]
      rw [List.pairwise_flatMap]
      constructor
      · intro x _
        rw [List.pairwise_map]
        refine (boxList_lex _ fun k => h k.succ).imp ?_
        rintro a b ⟨i, h1, h2⟩
        refine ⟨i.succ, ?_, by simpa using h2⟩
        intro j
        refine Fin.cases ?_ ?_ j
        · intro _; simp
        · intro j hj
          simpa using h1 j (by simpa using hj)
      · refine (h 0).imp ?_
        intro x y hxy a ha b hb
        obtain ⟨a', -, rfl⟩ := List.mem_map.1 ha
        obtain ⟨b', -, rfl⟩ := List.mem_map.1 hb
        exact ⟨0, fun j hj => absurd hj (Fin.not_lt_zero j), by simpa using hxy⟩

/-- The rows of `vindices` before sorting, when the index type is wide enough. -/
theorem grid_eq {d : ℕ} (limits : Fin d → ℤ × ℤ) (wrap : ℤ → ℤ)
    (hw : ∀ k, ∀ i : ℤ, 0 ≤ i → i < (limits k).2 - (limits k).1 → wrap i = i) :
    (boxList fun k => (List.range ((limits k).2 - (limits k).1).toNat).map
      fun i : ℕ => wrap (i : ℤ)) =
    boxList fun k => (List.range ((limits k).2 - (limits k).1).toNat).map fun i : ℕ => (i : ℤ) := by
  congr 1
  funext k
  apply List.map_congr_left
  intro i hi
  simp only [List.mem_range] at hi
  exact hw k i (by omega) (by omega)

theorem shifted_lex {d : ℕ} (limits : Fin d → ℤ × ℤ) :
    ((boxList fun k => (List.range ((limits k).2 - (limits k).1).toNat).map
      fun i : ℕ => (i : ℤ)).map fun v k => v k + (limits k).1).Pairwise LexLt := by
  rw [List.pairwise_map]
  refine (boxList_lex _ ?_).imp ?_
  · intro k
    rw [List.pairwise_map]
    exact List.pairwise_lt_range.imp fun h => by exact_mod_cast h
  · rintro a b ⟨i, h1, h2⟩
    exact ⟨i, fun j hj => by simp [h1 j hj], by simpa using h2⟩

theorem mem_shifted {d : ℕ} (limits : Fin d → ℤ × ℤ) (v : Fin d → ℤ) :
    (v ∈ (boxList fun k => (List.range ((limits k).2 - (limits k).1).toNat).map
      fun i : ℕ => (i : ℤ)).map fun v k => v k + (limits k).1) ↔
    ∀ k, (limits k).1 ≤ v k ∧ v k < (limits k).2 := by
  simp only [List.mem_map, mem_boxList, List.mem_range]
  constructor
  · rintro ⟨a, ha, rfl⟩ k
    obtain ⟨i, h1, h2⟩ := ha k
    dsimp only
    omega
  · intro h
    refine ⟨fun k => v k - (limits k).1, ?_, by funext k; simp⟩
    intro k
    have := h k
    exact ⟨(v k - (limits k).1).toNat, by omega, by dsimp only; omega⟩

theorem LexLt.ne {d : ℕ} {a b : Fin d → ℤ} (h : LexLt a b) : a ≠ b := by
  rintro rfl
  obtain ⟨i, -, h⟩ := h
  exact lt_irrefl _ h

/-- All facts about `vindices` for a sufficiently wide index type. -/
theorem vindices_spec {d : ℕ} (limits : Fin d → ℤ × ℤ) (hle : ∀ k, (limits k).1 ≤ (limits k).2)
    (sortAxis : Option (Fin d)) (bits : Option ℕ)
    (hw : ∀ k, ∀ i : ℤ, 0 ≤ i → i < (limits k).2 - (limits k).1 →
      indexWrap limits bits i = i) :
    ∃ r, vindices limits sortAxis bits = .ok r ∧
      (∀ v, v ∈ r ↔ ∀ k, (limits k).1 ≤ v k ∧ v k < (limits k).2) ∧ r.Nodup ∧
      (match sortAxis with
        | none => r.Pairwise LexLt
        | some ax => r.Pairwise (fun a b => a ax ≤ b ax) ∧
            ((∀ k, ax ≤ k) → r.Pairwise LexLt)) := by
  set base := (boxList fun k => (List.range ((limits k).2 - (limits k).1).toNat).map
      fun i : ℕ => (i : ℤ)).map fun v k => v k + (limits k).1 with hbase
  have hlex : base.Pairwise LexLt := shifted_lex limits
  have hnd : base.Nodup := hlex.imp LexLt.ne
  have hany : (List.finRange d).any (fun k => decide ((limits k).2 - (limits k).1 < 0)) = false := by
    simp only [List.any_eq_false, decide_eq_true_eq, not_lt]
    intro k _
    have := hle k
    omega
  have hv : vindices limits sortAxis bits = .ok (match sortAxis with
      | none => base
      | some ax => stableSortBy (fun v => v ax) base) := by
    rw [vindices]
    simp only [hany]
    rw [grid_eq limits _ hw]
    cases sortAxis <;> rfl
  refine ⟨_, hv, ?_, ?_, ?_⟩
  · intro v
    cases sortAxis with
    | none => exact mem_shifted limits v
    | some ax =>
      dsimp only
      rw [(stableSortBy_perm _ _).mem_iff]
      exact mem_shifted limits v
  · cases sortAxis with
    | none => exact hnd
    | some ax => exact (stableSortBy_perm _ _).nodup_iff.2 hnd
  · cases sortAxis with
    | none => exact hlex
    | some ax =>
      refine ⟨stableSortBy_pairwise _ _, ?_⟩
      intro hax
      show (stableSortBy (fun v => v ax) base).Pairwise LexLt
      rw [stableSortBy_of_pairwise]
      · exact hlex
      · refine hlex.imp ?_
        rintro a b ⟨i, h1, h2⟩
        rcases (hax i).lt_or_eq with h | h
        · exact (h1 ax h).le
        · rw [h]; exact h2.le

/-! ## extrema -/
section
variable {K : Type*} [LinearOrder K]

theorem foldl_max_isGreatest (l : List K) (a : K) :
    IsGreatest {x | x = a ∨ x ∈ l} (l.foldl max a) := by
  induction l generalizing a with
  | nil => exact ⟨Or.inl rfl, by rintro x (rfl | h); exact le_rfl; simp at h⟩
  | cons y ys ih =>
    obtain ⟨h1, h2⟩ := ih (max a y)
    constructor
    · rcases h1 with h | h
      · rcases max_choice a y with h' | h'
        · left; rw [List.foldl_cons, h, h']
        · right; rw [List.foldl_cons, h, h']; simp
      · right; exact List.mem_cons_of_mem _ h
    · rintro x (rfl | hx)
      · exact (le_max_left _ _).trans (h2 (Or.inl rfl))
      · rcases List.mem_cons.1 hx with rfl | hx
        · exact (le_max_right _ _).trans (h2 (Or.inl rfl))
        · exact h2 (Or.inr hx)

theorem foldl_min_isLeast (l : List K) (a : K) :
    IsLeast {x | x = a ∨ x ∈ l} (l.foldl min a) := by
  induction l generalizing a with
  | nil => exact ⟨Or.inl rfl, by rintro x (rfl | h); exact le_rfl; simp at h⟩
  | cons y ys ih =>
    obtain ⟨h1, h2⟩ := ih (min a y)
    constructor
    · rcases h1 with h | h
      · rcases min_choice a y with h' | h'
        · left; rw [List.foldl_cons, h, h']
        · right; rw [List.foldl_cons, h, h']; simp
      · right; exact List.mem_cons_of_mem _ h
    · rintro x (rfl | hx)
      · exact (h2 (Or.inl rfl)).trans (min_le_left _ _)
      · rcases List.mem_cons.1 hx with rfl | hx
        · exact (h2 (Or.inl rfl)).trans (min_le_right _ _)
        · exact h2 (Or.inr hx)

theorem vmax_isGreatest {n : ℕ} (x : Fin (n + 1) → K) :
    IsGreatest (Set.range x) (vmax x) := by
  have h := foldl_max_isGreatest (List.ofFn x) (x 0)
  have : {y | y = x 0 ∨ y ∈ List.ofFn x} = Set.range x := by
    ext y; simp only [Set.mem_ofPred_eq, List.mem_ofFn, Set.mem_range]
    constructor
    · rintro (rfl | h)
      · exact ⟨0, rfl⟩
      · exact h
    · exact Or.inr
  rw [this] at h
  exact h

theorem vmin_isLeast {n : ℕ} (x : Fin (n + 1) → K) :
    IsLeast (Set.range x) (vmin x) := by
  have h := foldl_min_isLeast (List.ofFn x) (x 0)
  have : {y | y = x 0 ∨ y ∈ List.ofFn x} = Set.range x := by
    ext y; simp only [Set.mem_ofPred_eq, List.mem_ofFn, Set.mem_range]
    constructor
    · rintro (rfl | h)
      · exact ⟨0, rfl⟩
      · exact h
    · exact Or.inr
  rw [this] at h
  exact h

end

end Lattpy
