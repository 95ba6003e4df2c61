import Verif.Model.Text
import Init.Data.Nat.ToString
import Std.Data.String.ToNat

/-!
# Reading the lines of `dumps()` back
-/

set_option autoImplicit false

namespace Lattpy

theorem cut_eq {c : Char} : ∀ {a b x y : List Char}, c ∉ a → c ∉ b → a ++ c :: x = b ++ c :: y →
    a = b ∧ x = y
  | [], [], x, y, _, _, h => by simpa using h
  | [], e :: b, x, y, _, hb, h => by
    simp only [List.nil_append, List.cons_append, List.cons.injEq] at h
    exact absurd h.1 (by rintro rfl; simp at hb)
  | e :: a, [], x, y, ha, _, h => by
    simp only [List.nil_append, List.cons_append, List.cons.injEq] at h
    exact absurd h.1 (by rintro rfl; simp at ha)
  | e :: a, f :: b, x, y, ha, hb, h => by
    simp only [List.cons_append, List.cons.injEq] at h
    simp only [List.mem_cons, not_or] at ha hb
    obtain ⟨h1, h2⟩ := cut_eq ha.2 hb.2 h.2
    exact ⟨by rw [h.1, h1], h2⟩

theorem no_cut {c : Char} {a b x : List Char} (ha : c ∉ a) (h : a = b ++ c :: x) : False := by
  apply ha
  rw [h]
  simp

/-- A list of texts can be read back from the texts joined by a separator, if the first sign of the
separator occurs in none of the texts. -/
theorem join_inj {c : Char} {sep : List Char} : ∀ {xs ys : List (List Char)},
    (∀ x ∈ xs, x ≠ [] ∧ c ∉ x) → (∀ y ∈ ys, y ≠ [] ∧ c ∉ y) →
    (c :: sep).intercalate xs = (c :: sep).intercalate ys → xs = ys
  | [], [], _, _, _ => rfl
  | [], [y], _, hy, h => by
    have : y = [] := by simpa [List.intercalate] using h.symm
    exact absurd this (hy y (by simp)).1
  | [], y :: y' :: ys, _, hy, h => by
    rw [List.intercalate_cons_cons] at h
    simp [List.intercalate] at h
  | [x], [], hx, _, h => by
    have : x = [] := by simpa [List.intercalate] using h
    exact absurd this (hx x (by simp)).1
  | x :: x' :: xs, [], hx, _, h => by
    rw [List.intercalate_cons_cons] at h
    simp [List.intercalate] at h
  | [x], [y], _, _, h => by simpa [List.intercalate] using h
  | [x], y :: y' :: ys, hx, hy, h => by
    rw [List.intercalate_cons_cons] at h
    exact (no_cut (hx x (by simp)).2 (by simpa [List.intercalate] using h)).elim
  | x :: x' :: xs, [y], hx, hy, h => by
    rw [List.intercalate_cons_cons] at h
    exact (no_cut (hy y (by simp)).2 (by simpa [List.intercalate] using h.symm)).elim
  | x :: x' :: xs, y :: y' :: ys, hx, hy, h => by
    rw [List.intercalate_cons_cons, List.intercalate_cons_cons] at h
    simp only [List.append_assoc, List.cons_append] at h
    obtain ⟨h1, h2⟩ := cut_eq (hx x (by simp)).2 (hy y (by simp)).2 h
    have h3 := List.append_cancel_left h2
    rw [h1, join_inj (fun z hz => hx z (List.mem_cons_of_mem _ hz))
      (fun z hz => hy z (List.mem_cons_of_mem _ hz)) h3]

theorem map_toList_inj {xs ys : List String} (h : xs.map String.toList = ys.map String.toList) :
    xs = ys :=
  (List.map_injective_iff.2 fun _ _ h => String.toList_inj.1 h) h

theorem string_join_inj {c : Char} {sep : List Char} {s : String} (hs : s.toList = c :: sep)
    {xs ys : List String} (hx : ∀ x ∈ xs, x ≠ "" ∧ c ∉ x.toList)
    (hy : ∀ y ∈ ys, y ≠ "" ∧ c ∉ y.toList) (h : s.intercalate xs = s.intercalate ys) : xs = ys := by
  apply map_toList_inj
  have h' := congrArg String.toList h
  rw [String.toList_intercalate, String.toList_intercalate, hs] at h'
  refine join_inj ?_ ?_ h'
  · intro x hx'
    obtain ⟨z, hz, rfl⟩ := List.mem_map.1 hx'
    exact ⟨by simpa using (hx z hz).1, (hx z hz).2⟩
  · intro x hx'
    obtain ⟨z, hz, rfl⟩ := List.mem_map.1 hx'
    exact ⟨by simpa using (hy z hz).1, (hy z hz).2⟩

theorem dumpLine_inj {key : String} {xs ys : List String}
    (hx : ∀ x ∈ xs, x ≠ "" ∧ ';' ∉ x.toList) (hy : ∀ y ∈ ys, y ≠ "" ∧ ';' ∉ y.toList)
    (h : Lattice.dumpLine key xs = Lattice.dumpLine key ys) : xs = ys := by
  unfold Lattice.dumpLine at h
  have h' := congrArg String.toList h
  rw [String.toList_append, String.toList_append (t := "; ".intercalate ys)] at h'
  refine string_join_inj (s := "; ") (c := ';') (sep := [' ']) rfl hx hy ?_
  exact String.toList_inj.1 (List.append_cancel_left h')

theorem dumpLine_plain {key : String} (hk : '\n' ∉ key.toList) {xs : List String}
    (hx : ∀ x ∈ xs, '\n' ∉ x.toList) :
    Lattice.dumpLine key xs ≠ "" ∧ '\n' ∉ (Lattice.dumpLine key xs).toList := by
  have hj : ∀ xs : List (List Char), (∀ x ∈ xs, '\n' ∉ x) → '\n' ∉ [';', ' '].intercalate xs := by
    intro xs
    induction xs with
    | nil => simp [List.intercalate]
    | cons x xs ih =>
      intro h
      cases xs with
      | nil => simpa [List.intercalate] using h
      | cons y ys =>
        rw [List.intercalate_cons_cons]
        simp only [List.mem_append, not_or]
        exact ⟨⟨h x (by simp), by decide⟩, ih fun z hz => h z (List.mem_cons_of_mem _ hz)⟩
  constructor
  · intro h
    have := congrArg String.toList h
    simp [Lattice.dumpLine] at this
  · unfold Lattice.dumpLine
    simp only [String.toList_append, String.toList_ofList, List.mem_append, not_or]
    refine ⟨⟨⟨hk, by decide⟩, by simp⟩, ?_⟩
    rw [String.toList_intercalate]
    refine hj _ fun x hx' => ?_
    obtain ⟨z, hz, rfl⟩ := List.mem_map.1 hx'
    exact hx z hz

theorem repr_digits (n : ℕ) {c : Char} (hc : c.isDigit = false) : c ∉ (Nat.repr n).toList := by
  intro h
  rw [Nat.toList_repr] at h
  rw [Nat.isDigit_of_mem_toDigits (by norm_num) (by norm_num) h] at hc
  cases hc

/-- The number at the end of the text of an atom. -/
theorem reprAtom_index {str : PyVal → String} {s s' : Session} {a b : Atom}
    (ha : s.attrParam a "index" = none) (hb : s'.attrParam b "index" = none)
    (h : s.reprAtom str a = s'.reprAtom str b) : a.index = b.index := by
  unfold Session.reprAtom Session.indexText at h
  rw [ha, hb] at h
  dsimp only at h
  have h' := congrArg (fun t : String => t.toList.reverse) h
  simp only [String.toList_append, List.reverse_append] at h'
  have e1 : (")" : String).toList.reverse = [')'] := rfl
  have e2 : (", " : String).toList.reverse = [' ', ','] := rfl
  rw [e1, e2] at h'
  simp only [List.cons_append, List.nil_append, List.cons.injEq, true_and] at h'
  have h1 := (cut_eq (by simpa using repr_digits a.index (c := ' ') rfl)
    (by simpa using repr_digits b.index (c := ' ') rfl) h').1
  exact Nat.repr_injective (String.toList_inj.1 (List.reverse_injective h1))

end Lattpy
