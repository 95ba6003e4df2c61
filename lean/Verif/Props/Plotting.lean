import Verif.Model.Plotting
import Mathlib.Tactic.Linarith

/-! # Property C76 (`plotting.py`) -/

set_option autoImplicit false

namespace Lattpy

variable {C : Type*}

/-- Entry `(i, j)` of a table. -/
def cellAt (t : List (List C)) (i j : ℕ) : Option C := t[i]?.bind fun r => r[j]?

/-- `t` has `n` rows and `n` columns. -/
def IsSquare (n : ℕ) (t : List (List C)) : Prop := t.length = n ∧ ∀ r ∈ t, r.length = n

/-- The entry `(a1, a2, c)` of a colour list names the pair of atoms `i`, `j` (in either order;
negative numbers count from the end). -/
def Names (n : ℕ) (e : ℤ × ℤ × C) (i j : ℕ) : Prop :=
  (e.1 % n = i ∧ e.2.1 % n = j) ∨ (e.1 % n = j ∧ e.2.1 % n = i)

/-- Both numbers of the entry are valid list indices. -/
def InRange (n : ℕ) (e : ℤ × ℤ × C) : Prop :=
  (-(n : ℤ) ≤ e.1 ∧ e.1 < n) ∧ (-(n : ℤ) ≤ e.2.1 ∧ e.2.1 < n)

theorem colorIdx_eq_some {n : ℕ} {a : ℤ} (h : -(n : ℤ) ≤ a ∧ a < n) :
    ∃ i : ℕ, pyIdx n a = some i ∧ i < n ∧ a % n = i := by
  unfold pyIdx
  by_cases h0 : 0 ≤ a
  · rw [if_pos ⟨h0, h.2⟩]
    refine ⟨_, rfl, by omega, ?_⟩
    rw [Int.emod_eq_of_lt h0 h.2, Int.toNat_of_nonneg h0]
  · rw [if_neg (by omega), if_pos ⟨h.1, by omega⟩]
    refine ⟨_, rfl, by omega, ?_⟩
    rw [← Int.add_emod_right, add_comm, Int.emod_eq_of_lt (by omega) (by omega),
      Int.toNat_of_nonneg (by omega)]

theorem colorIdx_eq_none {n : ℕ} {a : ℤ} (h : ¬ (-(n : ℤ) ≤ a ∧ a < n)) : pyIdx n a = none := by
  unfold pyIdx
  rw [if_neg (by omega), if_neg (by omega)]

theorem isSquare_setCell {n : ℕ} {t : List (List C)} (h : IsSquare n t) (i j : ℕ) (c : C) :
    IsSquare n (setCell t i j c) := by
  refine ⟨by simp [setCell, h.1], fun r hr => ?_⟩
  unfold setCell at hr
  obtain ⟨k, hk, rfl⟩ := List.getElem_of_mem hr
  rw [List.getElem_modify]
  split_ifs
  · rw [List.length_set]
    exact h.2 _ (List.getElem_mem _)
  · exact h.2 _ (List.getElem_mem _)

theorem cellAt_setCell {n : ℕ} {t : List (List C)} (h : IsSquare n t) {i j : ℕ} (hi : i < n)
    (hj : j < n) (c : C) (a b : ℕ) :
    cellAt (setCell t i j c) a b = if a = i ∧ b = j then some c else cellAt t a b := by
  unfold cellAt setCell
  rw [List.getElem?_modify]
  by_cases ha : i = a
  · subst ha
    have hit : i < t.length := by rw [h.1]; exact hi
    have hl : (t[i]).length = n := h.2 _ (List.getElem_mem _)
    rw [List.getElem?_eq_getElem hit]
    simp only [if_true, Option.map_eq_map, Option.map_some, Option.bind_some, List.getElem?_set, true_and]
    by_cases hb : j = b
    · subst hb
      rw [if_pos rfl, if_pos rfl, if_pos (by rw [hl]; exact hj)]
    · rw [if_neg hb, if_neg (fun h => hb h.symm)]
  · rw [if_neg (fun h => ha h.1.symm)]
    simp [ha]

/-- C76: for valid atom numbers the table is square, symmetric, and an entry is the colour of the
last element of the list that names the pair (in either order), or the default if there is none. -/
theorem C76_colors (n : ℕ) (default : C) (l : List (ℤ × ℤ × C)) (hl : ∀ e ∈ l, InRange n e) :
    ∃ t, connectionColorArray n default (some l) = .ok t ∧ IsSquare n t ∧
      (∀ i j, i < n → j < n → cellAt t i j = cellAt t j i) ∧
      (∀ i j, i < n → j < n → (∀ e ∈ l, ¬ Names n e i j) → cellAt t i j = some default) ∧
      (∀ i j l1 e l2, i < n → j < n → l = l1 ++ e :: l2 → Names n e i j →
        (∀ e' ∈ l2, ¬ Names n e' i j) → cellAt t i j = some e.2.2) := by
  have key : ∀ (l : List (ℤ × ℤ × C)) (t : List (List C)), (∀ e ∈ l, InRange n e) → IsSquare n t →
      (∀ i j, i < n → j < n → cellAt t i j = cellAt t j i) →
      ∃ t', colorLoop n t l = .ok t' ∧ IsSquare n t' ∧
        (∀ i j, i < n → j < n → cellAt t' i j = cellAt t' j i) ∧
        (∀ i j, i < n → j < n → (∀ e ∈ l, ¬ Names n e i j) → cellAt t' i j = cellAt t i j) ∧
        (∀ i j l1 e l2, i < n → j < n → l = l1 ++ e :: l2 → Names n e i j →
          (∀ e' ∈ l2, ¬ Names n e' i j) → cellAt t' i j = some e.2.2) := by
    intro l
    induction l with
    | nil =>
      intro t _ hs hsym
      exact ⟨t, rfl, hs, hsym, fun i j _ _ _ => rfl, fun i j l1 e l2 _ _ h => by simp at h⟩
    | cons e l ih =>
      intro t hr hs hsym
      obtain ⟨a, ha, han, hae⟩ := colorIdx_eq_some (hr e (by simp)).1
      obtain ⟨b, hb, hbn, hbe⟩ := colorIdx_eq_some (hr e (by simp)).2
      have hs1 := isSquare_setCell hs a b e.2.2
      have hs2 := isSquare_setCell hs1 b a e.2.2
      have hc : ∀ i j, cellAt (setCell (setCell t a b e.2.2) b a e.2.2) i j =
          if (i = a ∧ j = b) ∨ (i = b ∧ j = a) then some e.2.2 else cellAt t i j := by
        intro i j
        rw [cellAt_setCell hs1 hbn han, cellAt_setCell hs han hbn]
        by_cases h1 : i = b ∧ j = a
        · rw [if_pos h1, if_pos (Or.inr h1)]
        · rw [if_neg h1]
          by_cases h2 : i = a ∧ j = b
          · rw [if_pos h2, if_pos (Or.inl h2)]
          · rw [if_neg h2, if_neg (by tauto)]
      have hnames : ∀ i j, Names n e i j ↔ (i = a ∧ j = b) ∨ (i = b ∧ j = a) := by
        intro i j
        unfold Names
        rw [hae, hbe]
        omega
      obtain ⟨t', h1, h2, h3, h4, h5⟩ := ih _ (fun e' he' => hr e' (by simp [he'])) hs2 (by
        intro i j hi hj
        rw [hc, hc, hsym i j hi hj]
        by_cases h : (i = a ∧ j = b) ∨ (i = b ∧ j = a)
        · rw [if_pos h, if_pos (by tauto)]
        · rw [if_neg h, if_neg (by tauto)])
      refine ⟨t', ?_, h2, h3, ?_, ?_⟩
      · unfold colorLoop
        rw [ha, hb]
        exact h1
      · intro i j hi hj hno
        rw [h4 i j hi hj (fun e' he' => hno e' (by simp [he'])), hc,
          if_neg (fun h => hno e (by simp) ((hnames i j).2 h))]
      · intro i j l1 e' l2 hi hj hsplit hn hno
        cases l1 with
        | nil =>
          simp only [List.nil_append, List.cons.injEq] at hsplit
          obtain ⟨rfl, rfl⟩ := hsplit
          rw [h4 i j hi hj hno, hc, if_pos ((hnames i j).1 hn)]
        | cons x l1 =>
          simp only [List.cons_append, List.cons.injEq] at hsplit
          exact h5 i j l1 e' l2 hi hj hsplit.2 hn hno
  have h0 : ∀ i j, i < n → j < n →
      cellAt (List.replicate n (List.replicate n default)) i j = some default := by
    intro i j hi hj
    unfold cellAt
    rw [List.getElem?_replicate_of_lt hi]
    simp [hj]
  obtain ⟨t, h1, h2, h3, h4, h5⟩ := key l (List.replicate n (List.replicate n default)) hl
    ⟨by simp, fun r hr => by rw [List.eq_of_mem_replicate hr]; simp⟩
    (fun i j hi hj => by rw [h0 i j hi hj, h0 j i hj hi])
  exact ⟨t, h1, h2, h3, fun i j hi hj h => by rw [h4 i j hi hj h, h0 i j hi hj], h5⟩

/-- C76: without a colour list the table is filled with the default. -/
theorem C76_default (n : ℕ) (default : C) :
    ∃ t, connectionColorArray n default none = .ok t ∧ IsSquare n t ∧
      ∀ i j, i < n → j < n → cellAt t i j = some default := by
  refine ⟨_, rfl, ⟨by simp, fun r hr => by rw [List.eq_of_mem_replicate hr]; simp⟩, ?_⟩
  intro i j hi hj
  unfold cellAt
  rw [List.getElem?_replicate_of_lt hi]
  simp [hj]

/-- C76: an atom number out of range raises `IndexError`. -/
theorem C76_error (n : ℕ) (default : C) (l : List (ℤ × ℤ × C)) (e : ℤ × ℤ × C) (he : e ∈ l)
    (hbad : ¬ InRange n e) : connectionColorArray n default (some l) = .error .index := by
  have key : ∀ (l : List (ℤ × ℤ × C)) (t : List (List C)), e ∈ l →
      colorLoop n t l = .error .index := by
    intro l
    induction l with
    | nil => intro t h; simp at h
    | cons x l ih =>
      intro t h
      unfold colorLoop
      rw [List.mem_cons] at h
      by_cases hx : InRange n x
      · have hel : e ∈ l := by
          rcases h with rfl | h
          · exact absurd hx hbad
          · exact h
        obtain ⟨a, ha, -, -⟩ := colorIdx_eq_some hx.1
        obtain ⟨b, hb, -, -⟩ := colorIdx_eq_some hx.2
        rw [ha, hb]
        exact ih _ hel
      · unfold InRange at hx
        by_cases h1 : -(n : ℤ) ≤ x.1 ∧ x.1 < n
        · rw [colorIdx_eq_none (fun h2 => hx ⟨h1, h2⟩)]
          cases pyIdx n x.1 <;> rfl
        · rw [colorIdx_eq_none h1]
  exact key l _ he

example : connectionColorArray 2 "k" (some [(0, 1, "r"), (-1, 0, "b"), (0, 0, "g")]) =
    .ok [["g", "b"], ["b", "k"]] := by decide

example : InRange 2 ((-1, 0, "b") : ℤ × ℤ × String) := by simp [InRange]

end Lattpy
