import Verif.Props.DataEdit
import Verif.Model.Lattice

/-!
# Adding links to a table with free slots
-/

set_option autoImplicit false
set_option linter.unusedSectionVars false

namespace Lattpy

open LatticeData

variable {d : ℕ} {K : Type*}

section
variable [LinearOrder K]

theorem open_links {D : LatticeData d K} {N w : ℕ} (h : D.Open N w) {i : ℕ} (hi : i < N) :
    ∃ a b, D.entries[i]? = some (a ++ b) ∧ a.length + b.length = w ∧
      (∀ e ∈ a, e.level < D.invalidDistidx) ∧ (∀ e ∈ b, e.level = D.invalidDistidx) ∧
      (∀ e ∈ a ++ b, e.per = false) ∧
      D.linksOf i = a.map fun e => (e.nbr, D.distvals[e.level]?) := by
  have hi' : i < D.entries.length := by rw [h.length]; exact hi
  obtain ⟨h1, ⟨a, b, h2, h3, h4⟩, h5⟩ := h.rows _ (List.getElem_mem hi')
  have hr : D.entries[i]? = some (a ++ b) := by rw [List.getElem?_eq_getElem hi', h2]
  refine ⟨a, b, hr, by rw [h2, List.length_append] at h1; exact h1, h3, h4, by rw [← h2]; exact h5,
    ?_⟩
  rw [linksOf_of_row h.cols hr, List.filter_append,
    List.filter_eq_self.2 (fun e he => by simpa using h3 e he),
    List.filter_eq_nil_iff.2 (fun e he => by simp [h4 e he]), List.append_nil]

theorem storedAbove_spec {vals : List (WithTop K)} {x : WithTop K} :
    (storedAbove vals x = ⊤ ∨ storedAbove vals x ∈ vals ∧ x ≤ storedAbove vals x) ∧
      ∀ y ∈ vals, x ≤ y → storedAbove vals x ≤ y := by
  unfold storedAbove
  induction vals with
  | nil => simp
  | cons z vals ih =>
    obtain ⟨h1, h2⟩ := ih
    rw [List.filter_cons]
    by_cases hz : x ≤ z
    · rw [if_pos (by simpa using hz), List.foldr_cons]
      set m := (vals.filter fun y => decide (x ≤ y)).foldr min ⊤ with hm
      constructor
      · rcases min_choice z m with h | h
        · rw [h]; right; exact ⟨by simp, hz⟩
        · rw [h]
          rcases h1 with h1 | h1
          · exact Or.inl h1
          · exact Or.inr ⟨by simp [h1.1], h1.2⟩
      · intro y hy hxy
        rcases List.mem_cons.1 hy with rfl | hy
        · exact min_le_left _ _
        · exact le_trans (min_le_right _ _) (h2 y hy hxy)
    · rw [if_neg (by simpa using hz)]
      constructor
      · rcases h1 with h1 | h1
        · exact Or.inl h1
        · exact Or.inr ⟨by simp [h1.1], h1.2⟩
      · intro y hy hxy
        rcases List.mem_cons.1 hy with rfl | hy
        · exact absurd hxy hz
        · exact h2 y hy hxy

theorem storedAbove_of_mem {vals : List (WithTop K)} {x : WithTop K} (hx : x ∈ vals) :
    storedAbove vals x = x := by
  obtain ⟨h1, h2⟩ := storedAbove_spec (vals := vals) (x := x)
  refine le_antisymm (h2 x hx le_rfl) ?_
  rcases h1 with h1 | h1
  · rw [h1]; exact le_top
  · exact h1.2

theorem storedAbove_congr {vals vals' : List (WithTop K)}
    (h : ∀ y, y ≠ ⊤ → (y ∈ vals ↔ y ∈ vals')) (x : WithTop K) :
    storedAbove vals x = storedAbove vals' x := by
  obtain ⟨a1, a2⟩ := storedAbove_spec (vals := vals) (x := x)
  obtain ⟨b1, b2⟩ := storedAbove_spec (vals := vals') (x := x)
  apply le_antisymm
  · by_cases ht : storedAbove vals' x = ⊤
    · rw [ht]; exact le_top
    · rcases b1 with b1 | b1
      · exact absurd b1 ht
      · exact a2 _ ((h _ ht).2 b1.1) b1.2
  · by_cases ht : storedAbove vals x = ⊤
    · rw [ht]; exact le_top
    · rcases a1 with a1 | a1
      · exact absurd a1 ht
      · exact b2 _ ((h _ ht).1 a1.1) a1.2

/-- `searchsorted` finds the next larger stored distance. -/
theorem storedAbove_searchsorted {vals : List (WithTop K)} (hs : vals.Pairwise (· < ·)) {inv : ℕ}
    (ht : vals[inv]? = some ⊤) (x : WithTop K) :
    searchsorted vals x ≤ inv ∧ vals[searchsorted vals x]? = some (storedAbove vals x) ∧
      (searchsorted vals x < inv ↔ storedAbove vals x ≠ ⊤) := by
  obtain ⟨t1, t2⟩ := List.getElem?_eq_some_iff.1 ht
  have hlt : ∀ m (hm : m < vals.length), m < searchsorted vals x → vals[m] < x := by
    intro m hm h
    have h' : m < (vals.takeWhile fun y => decide (y < x)).length := h
    have h1 := List.all_eq_true.1 List.all_takeWhile _ (List.getElem_mem h')
    have h2 : (vals.takeWhile fun y => decide (y < x))[m] = vals[m] :=
      (List.takeWhile_prefix _).getElem h'
    rw [h2] at h1
    exact of_decide_eq_true h1
  have hle : searchsorted vals x ≤ inv := by
    by_contra hc
    have := hlt inv t1 (not_le.1 hc)
    rw [t2] at this
    exact not_top_lt this
  have hk : searchsorted vals x < vals.length := lt_of_le_of_lt hle t1
  have hge : x ≤ vals[searchsorted vals x] := by
    by_contra hc
    have h1 := List.takeWhile_append_dropWhile (p := fun y => decide (y < x)) (l := vals)
    have h2 : (vals.dropWhile fun y => decide (y < x)).head? = some vals[searchsorted vals x] := by
      have h3 : ∀ k, k = (vals.takeWhile fun y => decide (y < x)).length → vals[k]? =
          (vals.dropWhile fun y => decide (y < x))[0]? := by
        intro k hk
        conv_lhs => rw [← h1]
        rw [List.getElem?_append_right (by omega), hk, Nat.sub_self]
      rw [List.head?_eq_getElem?, ← h3 _ rfl]
      exact List.getElem?_eq_getElem hk
    have h4 := List.head?_dropWhile_not (fun y => decide (y < x)) vals
    rw [h2] at h4
    simp at h4
    exact hc h4
  have heq : storedAbove vals x = vals[searchsorted vals x] := by
    obtain ⟨a1, a2⟩ := storedAbove_spec (vals := vals) (x := x)
    refine le_antisymm (a2 _ (List.getElem_mem hk) hge) ?_
    rcases a1 with a1 | a1
    · rw [a1]; exact le_top
    · obtain ⟨m, hm, hme⟩ := List.mem_iff_getElem.1 a1.1
      have hmk : searchsorted vals x ≤ m := by
        by_contra hc
        have := hlt m hm (not_le.1 hc)
        rw [hme] at this
        exact absurd this (not_lt.2 a1.2)
      rw [← hme]
      rcases Nat.lt_or_eq_of_le hmk with h | h
      · exact le_of_lt (List.pairwise_iff_getElem.1 hs _ _ hk hm h)
      · simp [h]
  refine ⟨hle, by rw [heq, List.getElem?_eq_getElem hk], ?_⟩
  rw [heq]
  constructor
  · intro h hc
    have := List.pairwise_iff_getElem.1 hs _ _ hk t1 h
    rw [hc, t2] at this
    exact lt_irrefl _ this
  · intro h
    refine lt_of_le_of_ne hle fun hc => h ?_
    have : vals[searchsorted vals x]? = some ⊤ := by rw [hc]; exact ht
    rw [List.getElem?_eq_getElem hk] at this
    exact Option.some.inj this

/-- A new link is appended to the links of the site at the next larger stored distance; it is
dropped if there is none or if the row is full. -/
theorem addNeighbor_open {D : LatticeData d K} {N w : ℕ} (h : D.Open N w) {i j : ℕ} (hi : i < N)
    (dist : WithTop K) :
    ∃ E, D.addNeighbor i j dist = .ok E ∧ E.indices = D.indices ∧ E.positions = D.positions ∧
      E.distvals = D.distvals ∧ E.invalidDistidx = D.invalidDistidx ∧
      E.invalidIdx = D.invalidIdx ∧ E.Open N w ∧
      (∀ m, m ≠ i → E.linksOf m = D.linksOf m) ∧
      E.linksOf i = D.linksOf i ++ (if (D.linksOf i).length < w then
        (storedLink D.distvals j dist).toList else []) := by
  obtain ⟨a, b, hr, hw, ha, hb, hper, hl⟩ := open_links h hi
  obtain ⟨hkle, hkd, hkt⟩ := storedAbove_searchsorted h.sorted h.top dist
  obtain ⟨k, hk⟩ : ∃ k, searchsorted D.distvals dist = k := ⟨_, rfl⟩
  rw [hk] at hkle hkd hkt
  cases b with
  | nil =>
    have hlen : (D.linksOf i).length = w := by rw [hl, List.length_map]; simpa using hw
    refine ⟨D, ?_, rfl, rfl, rfl, rfl, rfl, h, fun m _ => rfl, ?_⟩
    · have hlv : D.distances[i]? = some ((a ++ []).map Entry.level) := by
        rw [h.cols.level]; simp [hr]
      unfold addNeighbor
      rw [hlv]
      have h1 : (((a ++ []).map Entry.level).filter fun y =>
          decide (y ≠ D.invalidDistidx)) = (a ++ []).map Entry.level := by
        rw [List.filter_eq_self]
        intro y hy
        obtain ⟨e, he, rfl⟩ := List.mem_map.1 hy
        have := ha e (by simpa using he)
        simp; omega
      dsimp only
      rw [h1, if_neg (by omega)]
    · rw [hlen, if_neg (lt_irrefl _), List.append_nil]
  | cons x b =>
    obtain ⟨E, hE, hEi, hEp, hEd, hEv, hEx, ce⟩ := addNeighbor_cols h.cols (j := j) hk hr ha hb
    have hlen : (D.linksOf i).length < w := by
      rw [hl, List.length_map]; rw [List.length_cons] at hw; omega
    have hrE : (modifyRow D.entries i fun _ => a ++ { x with nbr := j, level := k } :: b)[i]? =
        some (a ++ { x with nbr := j, level := k } :: b) := by
      rw [modifyRow_getElem?_self, hr]; rfl
    refine ⟨E, hE, hEi, hEp, hEd, hEv, hEx, ⟨ce.entries_eq ▸ ce, ?_, ?_, ?_, ?_⟩, ?_, ?_⟩
    · rw [ce.entries_eq, modifyRow_length, h.length]
    · intro r hrm
      rw [ce.entries_eq] at hrm
      obtain ⟨m, hm⟩ := List.mem_iff_getElem?.1 hrm
      by_cases hmi : m = i
      · subst hmi
        rw [hrE] at hm
        obtain rfl := Option.some.inj hm
        have hper' : ∀ e ∈ a ++ { x with nbr := j, level := k } :: b, e.per = false := by
          intro e he
          rcases List.mem_append.1 he with h1 | h1
          · exact hper e (by simp [h1])
          · rcases List.mem_cons.1 h1 with rfl | h1
            · exact hper x (by simp)
            · exact hper e (by simp [h1])
        refine ⟨by simpa using hw, ?_, hper'⟩
        rcases Nat.lt_or_eq_of_le hkle with hk' | hk'
        · refine ⟨a ++ [{ x with nbr := j, level := k }], b, by simp, ?_, ?_⟩
          · intro e he
            rw [hEv]
            rcases List.mem_append.1 he with h1 | h1
            · exact ha e h1
            · rw [List.mem_singleton] at h1; rw [h1]; exact hk'
          · intro e he
            rw [hEv]
            exact hb e (by simp [he])
        · refine ⟨a, { x with nbr := j, level := k } :: b, rfl, ?_, ?_⟩
          · rw [hEv]; exact ha
          · intro e he
            rw [hEv]
            rcases List.mem_cons.1 he with rfl | he
            · exact hk'
            · exact hb e (by simp [he])
      · rw [modifyRow_getElem?_ne _ _ hmi] at hm
        obtain ⟨g1, ⟨a', b', g2, g3, g4⟩, g5⟩ := h.rows r (List.mem_of_getElem? hm)
        exact ⟨g1, ⟨a', b', g2, by rw [hEv]; exact g3, by rw [hEv]; exact g4⟩, g5⟩
    · rw [hEd]; exact h.sorted
    · rw [hEd, hEv]; exact h.top
    · intro m hm
      unfold linksOf
      rw [ce.entries_eq, List.getD_eq_getElem?_getD, List.getD_eq_getElem?_getD,
        modifyRow_getElem?_ne _ _ hm, hEd, hEv]
    · rw [if_pos hlen, hl, linksOf_of_row ce hrE, hEd, hEv, List.filter_append, List.filter_cons,
        List.filter_eq_self.2 (fun e he => by simpa using ha e he),
        List.filter_eq_nil_iff.2 (fun e he => by simp [hb e (by simp [he])])]
      unfold storedLink
      dsimp only
      rcases Nat.lt_or_eq_of_le hkle with hk' | hk'
      · rw [if_pos (by simpa using hk'), if_neg (hkt.1 hk')]
        simp [hkd]
      · rw [if_neg (by simp [hk']), if_pos (by
          by_contra hc
          have := hkt.2 hc
          omega)]
        simp

/-- Successive calls of `add_neighbors` for the directed links `(i, j, dist)`. -/
def addLinks : LatticeData d K → List (ℕ × ℕ × WithTop K) → Except PyErr (LatticeData d K)
  | D, [] => .ok D
  | D, q :: qs => match D.addNeighbor q.1 q.2.1 q.2.2 with
    | .error e => .error e
    | .ok E => addLinks E qs

/-- The links of `i` among `l`, as they are stored. -/
def linksFrom (vals : List (WithTop K)) (l : List (ℕ × ℕ × WithTop K)) (i : ℕ) :
    List (ℕ × Option (WithTop K)) :=
  (l.filter fun q => decide (q.1 = i)).filterMap fun q => storedLink vals q.2.1 q.2.2

/-- The first links of every site are stored, as many as there are free slots. -/
theorem addLinks_open : ∀ (l : List (ℕ × ℕ × WithTop K)) {D : LatticeData d K} {N w : ℕ},
    D.Open N w → (∀ q ∈ l, q.1 < N) →
    ∃ E, addLinks D l = .ok E ∧ E.indices = D.indices ∧ E.positions = D.positions ∧
      E.distvals = D.distvals ∧ E.invalidIdx = D.invalidIdx ∧ E.Open N w ∧
      ∀ i, E.linksOf i = D.linksOf i ++ (linksFrom D.distvals l i).take (w - (D.linksOf i).length)
  | [], D, N, w, h, _ => ⟨D, rfl, rfl, rfl, rfl, rfl, h, fun i => by simp [linksFrom]⟩
  | q :: l, D, N, w, h, hq => by
    obtain ⟨E, e1, e2, e3, e4, -, e5, e6, e7, e8⟩ := addNeighbor_open h (j := q.2.1)
      (hq q (by simp)) q.2.2
    obtain ⟨F, f1, f2, f3, f4, f7, f5, f6⟩ := addLinks_open l e6 (by
      intro r hr
      exact hq r (by simp [hr]))
    refine ⟨F, ?_, f2.trans e2, f3.trans e3, f4.trans e4, f7.trans e5, f5, ?_⟩
    · simp only [addLinks, e1, f1]
    · intro i
      rw [f6 i, e4]
      by_cases hi : q.1 = i
      · subst hi
        rw [e8]
        have hfrom : linksFrom D.distvals (q :: l) q.1 =
            (storedLink D.distvals q.2.1 q.2.2).toList ++ linksFrom D.distvals l q.1 := by
          unfold linksFrom
          rw [List.filter_cons_of_pos (by simp), List.filterMap_cons]
          cases storedLink D.distvals q.2.1 q.2.2 <;> rfl
        rw [hfrom]
        split
        · rename_i hlt
          cases storedLink D.distvals q.2.1 q.2.2 with
          | none => simp
          | some y =>
            have : w - (D.linksOf q.1).length = w - ((D.linksOf q.1).length + 1) + 1 := by omega
            rw [this]
            simp
        · rename_i hlt
          have : w - (D.linksOf q.1).length = 0 := by omega
          simp [this]
      · have hfrom : linksFrom D.distvals (q :: l) i = linksFrom D.distvals l i := by
          simp [linksFrom, hi]
        rw [e7 i (Ne.symm hi), hfrom]

/-- The loop of `_append` as a list of directed links. -/
theorem addPairs_eq (offset : ℕ) : ∀ (ps : List ((ℕ × ℕ) × K)) (D : LatticeData d K),
    Lattice.addPairs offset D ps = addLinks D (ps.flatMap fun p =>
      [(p.1.1, p.1.2 + offset, (p.2 : WithTop K)), (p.1.2 + offset, p.1.1, (p.2 : WithTop K))])
  | [], D => rfl
  | p :: ps, D => by
    simp only [Lattice.addPairs, List.flatMap_cons, List.cons_append, List.nil_append, addLinks]
    cases D.addNeighbor p.1.1 (p.1.2 + offset) (p.2 : WithTop K) with
    | error e => rfl
    | ok E =>
      dsimp only
      cases E.addNeighbor (p.1.2 + offset) p.1.1 (p.2 : WithTop K) with
      | error e => rfl
      | ok F => exact addPairs_eq offset ps F

end

end Lattpy
