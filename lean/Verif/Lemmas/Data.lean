import Verif.Lemmas.Utils
import Verif.Lemmas.Env
import Verif.Spec.Data

/-! Helper lemmas for `data.py`. -/

set_option autoImplicit false
set_option linter.unusedSectionVars false

namespace Lattpy

/-! ## lists -/

theorem gather_map {α β : Type*} (f : α → β) (l : List α) (perm : List ℕ) :
    gather (l.map f) perm = (gather l perm).map f := by
  simp [gather, List.map_filterMap]

theorem gather_eq_map {α : Type*} (l : List α) (dflt : α) (perm : List ℕ)
    (h : ∀ i ∈ perm, i < l.length) : gather l perm = perm.map fun i => l.getD i dflt := by
  induction perm with
  | nil => rfl
  | cons a p ih =>
    have ha := h a (by simp)
    have := ih fun i hi => h i (by simp [hi])
    unfold gather at this ⊢
    rw [List.filterMap_cons, List.getElem?_eq_getElem ha]
    simp only [this, List.map_cons]
    simp [ha]

theorem gather_length {α : Type*} (l : List α) (perm : List ℕ)
    (h : ∀ i ∈ perm, i < l.length) : (gather l perm).length = perm.length := by
  induction perm with
  | nil => rfl
  | cons a p ih =>
    have ha := h a (by simp)
    have := ih fun i hi => h i (by simp [hi])
    unfold gather at this ⊢
    rw [List.filterMap_cons, List.getElem?_eq_getElem ha]
    simp [this]

theorem gather_getElem? {α : Type*} (l : List α) (perm : List ℕ)
    (h : ∀ i ∈ perm, i < l.length) (k : ℕ) :
    (gather l perm)[k]? = perm[k]?.bind fun i => l[i]? := by
  induction perm generalizing k with
  | nil => rfl
  | cons a p ih =>
    have ha := h a (by simp)
    have := ih fun i hi => h i (by simp [hi])
    unfold gather at this ⊢
    rw [List.filterMap_cons, List.getElem?_eq_getElem ha]
    cases k with
    | zero => simp [ha]
    | succ k => simpa using this k

theorem gather_range {α : Type*} (l : List α) : gather l (List.range l.length) = l := by
  apply List.ext_getElem?
  intro k
  rw [gather_getElem? _ _ (by simp)]
  by_cases hk : k < l.length
  · simp [hk]
  · simp [hk]

theorem gather_perm {α : Type*} (l : List α) (perm : List ℕ)
    (h : perm.Perm (List.range l.length)) : (gather l perm).Perm l := by
  have := h.filterMap fun i => l[i]?
  have h2 := gather_range l
  unfold gather at h2 ⊢
  rwa [h2] at this

theorem maskRow_map {α β : Type*} (l : List α) (f : α → β) (p : α → Bool) :
    maskRow (l.map f) (l.map p) = (l.filter p).map f := by
  induction l with
  | nil => rfl
  | cons a l ih =>
    unfold maskRow at ih ⊢
    cases h : p a <;> simp [h] at ih ⊢ <;> exact ih

theorem splitLike_map {α β : Type*} (f : α → β) : ∀ rows : List (List α),
    splitLike rows (rows.flatten.map f) = rows.map fun r => r.map f
  | [] => rfl
  | r :: rs => by
    simp only [List.flatten_cons, List.map_append, splitLike, List.map_cons]
    rw [List.take_left' (by simp), List.drop_left' (by simp), splitLike_map f rs]

theorem lookup_eq_map {α : Type*} [LinearOrder α] (array : List α) (bits : ℕ) :
    (createLookupTable array bits).2 =
      array.map fun x => searchsorted (npUnique array) x % 2 ^ bits := by
  apply List.ext_getElem?
  intro i
  rw [List.getElem?_map]
  by_cases hi : i < array.length
  · obtain ⟨j, hj, hr⟩ := lookup_getElem? array bits i array[i] (by simp)
    rw [hr, List.getElem?_eq_getElem hi,
      Option.map_some, searchsorted_eq_of_getElem? (npUnique_pairwise_lt _) hj]
  · have h2 := lookup_length array bits
    rw [List.getElem?_eq_none (by omega), List.getElem?_eq_none (by omega)]
    rfl

/-! ## the entry table -/

section
variable {d : ℕ}

theorem zipRow_spec : ∀ (w : ℕ) (ns xs : List ℕ) (bs : List Bool) (vs : List (Fin d → ℤ))
    (as : List (List ℕ)), ns.length = w → xs.length = w → bs.length = w → vs.length = w →
    as.length = w →
    (zipRow ns xs bs vs as).map Entry.nbr = ns ∧ (zipRow ns xs bs vs as).map Entry.level = xs ∧
    (zipRow ns xs bs vs as).map Entry.per = bs ∧ (zipRow ns xs bs vs as).map Entry.nvec = vs ∧
    (zipRow ns xs bs vs as).map Entry.axes = as
  | 0, ns, xs, bs, vs, as, h1, h2, h3, h4, h5 => by
    rw [List.length_eq_zero_iff] at h1 h2 h3 h4 h5
    subst h1 h2 h3 h4 h5
    simp [zipRow]
  | w + 1, n :: ns, x :: xs, b :: bs, v :: vs, a :: as, h1, h2, h3, h4, h5 => by
    simp only [List.length_cons, Nat.add_right_cancel_iff] at h1 h2 h3 h4 h5
    obtain ⟨r1, r2, r3, r4, r5⟩ := zipRow_spec w ns xs bs vs as h1 h2 h3 h4 h5
    simp [zipRow, r1, r2, r3, r4, r5]

theorem zipTable_spec (w : ℕ) : ∀ (N : ℕ) (ns xs : List (List ℕ)) (bs : List (List Bool))
    (vs : List (List (Fin d → ℤ))) (as : List (List (List ℕ))),
    (ns.length = N ∧ ∀ r ∈ ns, r.length = w) → (xs.length = N ∧ ∀ r ∈ xs, r.length = w) →
    (bs.length = N ∧ ∀ r ∈ bs, r.length = w) → (vs.length = N ∧ ∀ r ∈ vs, r.length = w) →
    (as.length = N ∧ ∀ r ∈ as, r.length = w) →
    (zipTable ns xs bs vs as).map (List.map Entry.nbr) = ns ∧
    (zipTable ns xs bs vs as).map (List.map Entry.level) = xs ∧
    (zipTable ns xs bs vs as).map (List.map Entry.per) = bs ∧
    (zipTable ns xs bs vs as).map (List.map Entry.nvec) = vs ∧
    (zipTable ns xs bs vs as).map (List.map Entry.axes) = as
  | 0, ns, xs, bs, vs, as, h1, h2, h3, h4, h5 => by
    have e1 := List.length_eq_zero_iff.1 h1.1
    have e2 := List.length_eq_zero_iff.1 h2.1
    have e3 := List.length_eq_zero_iff.1 h3.1
    have e4 := List.length_eq_zero_iff.1 h4.1
    have e5 := List.length_eq_zero_iff.1 h5.1
    subst e1 e2 e3 e4 e5
    simp [zipTable]
  | N + 1, n :: ns, x :: xs, b :: bs, v :: vs, a :: as, h1, h2, h3, h4, h5 => by
    simp only [List.length_cons, Nat.add_right_cancel_iff, List.mem_cons, forall_eq_or_imp]
      at h1 h2 h3 h4 h5
    obtain ⟨r1, r2, r3, r4, r5⟩ := zipTable_spec w N ns xs bs vs as ⟨h1.1, h1.2.2⟩ ⟨h2.1, h2.2.2⟩
      ⟨h3.1, h3.2.2⟩ ⟨h4.1, h4.2.2⟩ ⟨h5.1, h5.2.2⟩
    obtain ⟨s1, s2, s3, s4, s5⟩ := zipRow_spec w n x b v a h1.2.1 h2.2.1 h3.2.1 h4.2.1 h5.2.1
    simp [zipTable, r1, r2, r3, r4, r5, s1, s2, s3, s4, s5]
  | _ + 1, [], _, _, _, _, h1, _, _, _, _ => by simp at h1
  | _ + 1, _ :: _, [], _, _, _, _, h2, _, _, _ => by simp at h2
  | _ + 1, _ :: _, _ :: _, [], _, _, _, _, h3, _, _ => by simp at h3
  | _ + 1, _ :: _, _ :: _, _ :: _, [], _, _, _, _, h4, _ => by simp at h4
  | _ + 1, _ :: _, _ :: _, _ :: _, _ :: _, [], _, _, _, _, h5 => by simp at h5

theorem zipRow_map : ∀ r : List (Entry d),
    zipRow (r.map Entry.nbr) (r.map Entry.level) (r.map Entry.per) (r.map Entry.nvec)
      (r.map Entry.axes) = r
  | [] => rfl
  | e :: r => by simp [zipRow, zipRow_map r]

theorem zipTable_map : ∀ t : List (List (Entry d)),
    zipTable (t.map (List.map Entry.nbr)) (t.map (List.map Entry.level))
      (t.map (List.map Entry.per)) (t.map (List.map Entry.nvec)) (t.map (List.map Entry.axes)) = t
  | [] => rfl
  | r :: t => by simp [zipTable, zipTable_map t, zipRow_map]

end

namespace LatticeData
variable {d : ℕ} {K : Type*}

/-- The five tables are the columns of the entry table. -/
structure Cols (D : LatticeData d K) (t : List (List (Entry d))) : Prop where
  nbr : D.neighbors = t.map (List.map Entry.nbr)
  level : D.distances = t.map (List.map Entry.level)
  per : D.pmask = t.map (List.map Entry.per)
  nvec : D.pnvecs = t.map (List.map Entry.nvec)
  axes : D.paxes = t.map (List.map Entry.axes)

theorem Cols.entries_eq {D : LatticeData d K} {t : List (List (Entry d))} (h : D.Cols t) :
    D.entries = t := by
  unfold entries
  rw [h.nbr, h.level, h.per, h.nvec, h.axes, zipTable_map]

theorem Rect.cols {D : LatticeData d K} {w : ℕ} (h : D.Rect w) : D.Cols D.entries := by
  obtain ⟨h1, h2, h3, h4, h5⟩ := zipTable_spec w D.numSites D.neighbors D.distances D.pmask
    D.pnvecs D.paxes h.neighbors h.distances h.pmask h.pnvecs h.paxes
  exact ⟨h1.symm, h2.symm, h3.symm, h4.symm, h5.symm⟩

theorem Rect.entries_length {D : LatticeData d K} {w : ℕ} (h : D.Rect w) :
    D.entries.length = D.numSites := by
  have := congrArg List.length h.cols.nbr
  rw [List.length_map, h.neighbors.1] at this
  exact this.symm

theorem Rect.row_length {D : LatticeData d K} {w : ℕ} (h : D.Rect w) :
    ∀ r ∈ D.entries, r.length = w := by
  intro r hr
  have := h.neighbors.2 (r.map Entry.nbr) (by
    rw [h.cols.nbr]; exact List.mem_map_of_mem hr)
  simpa using this

/-- The selection by level. -/
def levelSel (inv : ℕ) : Option ℕ → ℕ → Bool
  | none, x => decide (x < inv)
  | some l, x => decide (x = l)

@[simp] theorem levelSel_none (inv x : ℕ) : levelSel inv none x = decide (x < inv) := rfl
@[simp] theorem levelSel_some (inv l x : ℕ) : levelSel inv (some l) x = decide (x = l) := rfl

/-- The selection made by the arguments of `get_neighbors`. -/
def sel (D : LatticeData d K) (site : ℕ) (distidx : Option ℕ) (periodic : Option Bool)
    (unique : Bool) (e : Entry d) : Bool :=
  levelSel D.invalidDistidx distidx e.level &&
  (!unique || decide (site < e.nbr)) &&
  (match periodic with
    | none => true
    | some b => e.per == b)

theorem zipWith_map_and {α : Type*} (r : List α) (p q : α → Bool) :
    List.zipWith (· && ·) (r.map p) (r.map q) = r.map fun e => p e && q e := by
  rw [List.zipWith_map, List.zipWith_self]

theorem Cols.getNeighbors {D : LatticeData d K} {t : List (List (Entry d))} (h : D.Cols t)
    (i : ℕ) (r : List (Entry d)) (hr : t[i]? = some r) (distidx : Option ℕ)
    (periodic : Option Bool) (unique : Bool) :
    D.getNeighbors i distidx periodic unique =
      .ok ((r.filter (D.sel i distidx periodic unique)).map Entry.nbr) := by
  have h1 : D.neighbors[i]? = some (r.map Entry.nbr) := by rw [h.nbr]; simp [hr]
  have h2 : D.distances[i]? = some (r.map Entry.level) := by rw [h.level]; simp [hr]
  have h3 : D.pmask[i]? = some (r.map Entry.per) := by rw [h.per]; simp [hr]
  have hm : D.neighborMask i distidx periodic unique =
      .ok (r.map (D.sel i distidx periodic unique)) := by
    unfold neighborMask
    rw [h1, h2, h3]
    rcases distidx with _ | x <;> rcases periodic with _ | b <;> cases unique <;>
      (try cases b) <;>
      simp [sel, Function.comp_def, List.zipWith_map, List.zipWith_self]
  unfold LatticeData.getNeighbors
  rw [hm, h1]
  simp only
  rw [maskRow_map]

theorem Rect.getElem?_entries {D : LatticeData d K} {w : ℕ} (h : D.Rect w) {i : ℕ}
    (hi : i < D.numSites) : ∃ r, D.entries[i]? = some r ∧ r ∈ D.entries := by
  have : i < D.entries.length := by rw [h.entries_length]; exact hi
  exact ⟨D.entries[i], by simp [this], List.getElem_mem _⟩

theorem Rect.getNeighbors {D : LatticeData d K} {w : ℕ} (h : D.Rect w) {i : ℕ}
    (hi : i < D.numSites) : ∃ r, D.entries[i]? = some r ∧ r ∈ D.entries ∧
      ∀ distidx periodic unique, D.getNeighbors i distidx periodic unique =
        .ok ((r.filter (D.sel i distidx periodic unique)).map Entry.nbr) := by
  obtain ⟨r, hr, hm⟩ := h.getElem?_entries hi
  exact ⟨r, hr, hm, h.cols.getNeighbors i r hr⟩

theorem Rect.getNeighbors_error {D : LatticeData d K} {w : ℕ} (h : D.Rect w) {i : ℕ}
    (hi : D.numSites ≤ i) (distidx : Option ℕ) (periodic : Option Bool) (unique : Bool) :
    D.getNeighbors i distidx periodic unique = .error .index := by
  have : D.neighbors[i]? = none := by
    rw [List.getElem?_eq_none]; rw [h.neighbors.1]; exact hi
  unfold LatticeData.getNeighbors neighborMask
  rw [this]
  rcases D.distances[i]? with _ | x <;> simp

end LatticeData

/-! ## set -/

section
variable {d : ℕ} {K : Type*}

theorem foldl_max_nat (l : List ℕ) (a m : ℕ) (hm : m = a ∨ m ∈ l) (ha : a ≤ m)
    (hl : ∀ x ∈ l, x ≤ m) : l.foldl max a = m := by
  induction l generalizing a with
  | nil => rcases hm with h | h
           · exact h.symm
           · simp at h
  | cons b l ih =>
    have hb := hl b (by simp)
    apply ih
    · rcases hm with rfl | hm
      · left; simp; omega
      · rcases List.mem_cons.1 hm with rfl | hm
        · left; simp; omega
        · right; exact hm
    · exact max_le ha hb
    · exact fun x hx => hl x (by simp [hx])

/-- What `set` stores, when at most 256 different distances occur. -/
theorem set_ok [LinearOrder K] (indices : List (Fin (d + 1) → ℤ)) (positions : List (Vec d K))
    (neighbors : List (List ℕ)) (distances : List (List (WithTop K))) (M : WithTop K)
    (hM : M ∈ distances.flatten) (hmax : ∀ x ∈ distances.flatten, x ≤ M)
    (h256 : distances.flatten.dedup.length ≤ 256) :
    LatticeData.set indices positions neighbors distances = .ok {
      indices := indices, positions := positions, neighbors := neighbors
      distances := distances.map fun r => r.map (searchsorted (npUnique distances.flatten))
      distvals := npUnique distances.flatten
      paxes := neighbors.map fun r => r.map fun _ => List.replicate d 0
      pnvecs := neighbors.map fun r => r.map fun _ => 0
      pmask := neighbors.map fun r => r.map fun _ => false
      invalidIdx := indices.length
      invalidDistidx := searchsorted (npUnique distances.flatten) M
      dmap := none } := by
  have hlt : ∀ x ∈ distances.flatten, ∃ j, (npUnique distances.flatten)[j]? = some x ∧
      searchsorted (npUnique distances.flatten) x = j ∧ j < 256 := by
    intro x hx
    obtain ⟨j, hj⟩ := List.mem_iff_getElem?.1 (mem_npUnique.2 hx)
    refine ⟨j, hj, searchsorted_eq_of_getElem? (npUnique_pairwise_lt _) hj, ?_⟩
    have h1 := (List.getElem?_eq_some_iff.1 hj).1
    have h2 : (npUnique distances.flatten).length = distances.flatten.dedup.length := by
      simp [npUnique]
    omega
  have hidx : (createLookupTable distances.flatten 8).2 =
      distances.flatten.map (searchsorted (npUnique distances.flatten)) := by
    rw [lookup_eq_map]
    apply List.map_congr_left
    intro x hx
    obtain ⟨j, _, h2, h3⟩ := hlt x hx
    rw [h2]; exact Nat.mod_eq_of_lt h3
  have hmono : ∀ x ∈ distances.flatten, searchsorted (npUnique distances.flatten) x ≤
      searchsorted (npUnique distances.flatten) M := by
    intro x hx
    obtain ⟨j, hj, h2, _⟩ := hlt x hx
    obtain ⟨k, hk, h4, _⟩ := hlt M hM
    rw [h2, h4]
    by_contra hc
    have := List.pairwise_iff_getElem.1 (npUnique_pairwise_lt distances.flatten) k j
      (List.getElem?_eq_some_iff.1 hk).1 (List.getElem?_eq_some_iff.1 hj).1 (by omega)
    rw [(List.getElem?_eq_some_iff.1 hk).2, (List.getElem?_eq_some_iff.1 hj).2] at this
    exact absurd (hmax x hx) (not_le.2 this)
  unfold LatticeData.set
  simp only [hidx, splitLike_map, lookup_values]
  cases hfl : distances.flatten.map (searchsorted (npUnique distances.flatten)) with
  | nil =>
    rw [List.map_eq_nil_iff] at hfl
    rw [hfl] at hM; simp at hM
  | cons x xs =>
    simp only
    have hmem : searchsorted (npUnique distances.flatten) M ∈ x :: xs := by
      rw [← hfl]; exact List.mem_map_of_mem hM
    have hall : ∀ y ∈ x :: xs, y ≤ searchsorted (npUnique distances.flatten) M := by
      intro y hy
      rw [← hfl] at hy
      obtain ⟨z, hz, rfl⟩ := List.mem_map.1 hy
      exact hmono z hz
    rw [foldl_max_nat xs x (searchsorted (npUnique distances.flatten) M)
      (by simpa using hmem) (hall x (by simp)) (fun y hy => hall y (by simp [hy]))]


theorem searchsorted_lt_iff {α : Type*} [LinearOrder α] {l : List α} {x y : α} (hx : x ∈ l)
    (hy : y ∈ l) :
    searchsorted (npUnique l) x < searchsorted (npUnique l) y ↔ x < y := by
  obtain ⟨j, hj⟩ := List.mem_iff_getElem?.1 (mem_npUnique.2 hx)
  obtain ⟨k, hk⟩ := List.mem_iff_getElem?.1 (mem_npUnique.2 hy)
  have hp := npUnique_pairwise_lt l
  rw [searchsorted_eq_of_getElem? hp hj, searchsorted_eq_of_getElem? hp hk]
  obtain ⟨j1, j2⟩ := List.getElem?_eq_some_iff.1 hj
  obtain ⟨k1, k2⟩ := List.getElem?_eq_some_iff.1 hk
  constructor
  · intro h
    have := List.pairwise_iff_getElem.1 hp j k j1 k1 h
    rwa [j2, k2] at this
  · intro h
    by_contra hc
    rcases lt_or_eq_of_le (not_lt.1 hc) with hc | hc
    · have := List.pairwise_iff_getElem.1 hp k j k1 j1 hc
      rw [j2, k2] at this
      exact lt_asymm h this
    · subst hc
      rw [← j2, ← k2] at h
      exact lt_irrefl _ h

theorem npUnique_searchsorted {α : Type*} [LinearOrder α] {l : List α} {x : α} (hx : x ∈ l) :
    (npUnique l)[searchsorted (npUnique l) x]? = some x := by
  obtain ⟨j, hj⟩ := List.mem_iff_getElem?.1 (mem_npUnique.2 hx)
  rw [searchsorted_eq_of_getElem? (npUnique_pairwise_lt l) hj, hj]

end

/-! ## rows as images of a list -/

theorem filter_or_perm {α : Type*} (l : List α) (p q : α → Bool)
    (h : ∀ e ∈ l, ¬ (p e = true ∧ q e = true)) :
    (l.filter p ++ l.filter q).Perm (l.filter fun e => p e || q e) := by
  induction l with
  | nil => simp
  | cons a l ih =>
    have ih := ih fun e he => h e (by simp [he])
    have ha := h a (by simp)
    cases hp : p a <;> cases hq : q a <;> simp [hp, hq] at ha ⊢
    · exact ih
    · exact List.perm_middle.trans (ih.cons a)
    · exact ih

theorem flatMap_filter_perm {α β : Type*} [DecidableEq β] (r : List α) (f : α → β) (q : α → Bool)
    (L : List β) (hL : L.Nodup) :
    (L.flatMap fun x => r.filter fun e => decide (f e = x) && q e).Perm
      (r.filter fun e => decide (f e ∈ L) && q e) := by
  induction L with
  | nil => simp
  | cons x L ih =>
    rw [List.nodup_cons] at hL
    rw [List.flatMap_cons]
    refine ((ih hL.2).append_left _).trans ((filter_or_perm _ _ _ ?_).trans ?_)
    · intro e _ h
      simp only [Bool.and_eq_true, decide_eq_true_eq] at h
      exact hL.1 (h.1.1 ▸ h.2.1)
    · apply List.Perm.of_eq
      apply List.filter_congr
      intro e _
      cases q e <;> simp [List.mem_cons]

theorem mapM_ok {α β : Type*} (f : α → Except PyErr β) (g : α → β) (l : List α)
    (h : ∀ x ∈ l, f x = .ok (g x)) : l.mapM f = .ok (l.map g) := by
  induction l with
  | nil => rfl
  | cons a l ih =>
    rw [List.mapM_cons, h a (by simp), ih fun x hx => h x (by simp [hx])]
    rfl

namespace LatticeData
variable {d : ℕ} {K : Type*}

/-- `get_neighbors` without `periodic` does not look at the flags. -/
theorem getNeighbors_of_row {α : Type*} {D : LatticeData d K} {i : ℕ} (z : List α) (f g : α → ℕ)
    (hn : D.neighbors[i]? = some (z.map f)) (hd : D.distances[i]? = some (z.map g))
    (hp : i < D.pmask.length) (distidx : Option ℕ) (unique : Bool) :
    D.getNeighbors i distidx none unique = .ok ((z.filter fun e =>
      levelSel D.invalidDistidx distidx (g e) && (!unique || decide (i < f e))).map f) := by
  unfold LatticeData.getNeighbors neighborMask
  rw [hn, hd, List.getElem?_eq_getElem hp]
  rcases distidx with _ | x <;> cases unique <;>
    simp [List.zipWith_map, List.zipWith_self] <;> rw [← maskRow_map] <;> rfl

theorem getNeighbors_of_row_per {α : Type*} {D : LatticeData d K} {i : ℕ} (z : List α)
    (f g : α → ℕ) (p : α → Bool)
    (hn : D.neighbors[i]? = some (z.map f)) (hd : D.distances[i]? = some (z.map g))
    (hp : D.pmask[i]? = some (z.map p)) (distidx : Option ℕ) (b unique : Bool) :
    D.getNeighbors i distidx (some b) unique = .ok ((z.filter fun e =>
      levelSel D.invalidDistidx distidx (g e) && (!unique || decide (i < f e)) && (p e == b)).map f) := by
  unfold LatticeData.getNeighbors neighborMask
  rw [hn, hd, hp]
  rcases distidx with _ | x <;> cases unique <;> cases b <;>
    simp [List.zipWith_map, List.zipWith_self] <;> rw [← maskRow_map]

end LatticeData

/-! ## renumbering -/

theorem decr_passed (S : List ℕ) : ∀ (c m : ℕ), S.Pairwise (· < ·) →
    (∀ s ∈ S, m + c ≤ s) →
    (S.zipIdx c).foldl (fun (m : ℕ) (p : ℕ × ℕ) => if (p.1 : ℤ) - (p.2 : ℤ) < (m : ℤ) then m - 1 else m) m = m := by
  induction S with
  | nil => intros; rfl
  | cons s S ih =>
    intro c m hp hs
    rw [List.pairwise_cons] at hp
    have h0 := hs s (by simp)
    rw [List.zipIdx_cons, List.foldl_cons, if_neg (by simp; omega)]
    exact ih (c + 1) m hp.2 fun t ht => by have := hp.1 t ht; omega

theorem decr_main (n : ℕ) (S : List ℕ) : ∀ (c m : ℕ), S.Pairwise (· < ·) → (∀ s ∈ S, c ≤ s) →
    n ∉ S → m + c = n →
    (S.zipIdx c).foldl (fun (m : ℕ) (p : ℕ × ℕ) => if (p.1 : ℤ) - (p.2 : ℤ) < (m : ℤ) then m - 1 else m) m =
      m - (S.filter fun s => decide (s < n)).length := by
  induction S with
  | nil => intros; simp
  | cons s S ih =>
    intro c m hp hs hn hm
    rw [List.pairwise_cons] at hp
    have h0 := hs s (by simp)
    simp only [List.mem_cons, not_or] at hn
    rw [List.zipIdx_cons, List.foldl_cons]
    by_cases hlt : s < n
    · rw [if_pos (by simp only; omega), ih (c + 1) (m - 1) hp.2
        (fun t ht => by have := hp.1 t ht; omega) hn.2 (by omega)]
      simp only [List.filter_cons, hlt, decide_true, if_true, List.length_cons]
      omega
    · rw [if_neg (by simp only; omega), decr_passed S (c + 1) m hp.2
        (fun t ht => by have := hp.1 t ht; omega)]
      have : (s :: S).filter (fun s => decide (s < n)) = [] := by
        rw [List.filter_eq_nil_iff]
        intro t ht
        rcases List.mem_cons.1 ht with rfl | ht
        · simpa using hlt
        · have := hp.1 t ht; simp; omega
      rw [this]; simp

theorem newIndex_add (sites : List ℕ) (hnd : sites.Nodup) (n : ℕ) :
    newIndex sites n + (sites.filter fun s => decide (s < n)).length = n := by
  have h1 : ((List.range n).filter fun s => decide (s ∈ sites)).length =
      (sites.filter fun s => decide (s < n)).length := by
    apply List.Perm.length_eq
    rw [List.perm_ext_iff_of_nodup (List.nodup_range.filter _) (hnd.filter _)]
    intro a
    simp [and_comm]
  rw [← h1]
  have h2 := List.length_eq_length_filter_add (l := List.range n) fun s => decide (s ∈ sites)
  rw [List.length_range] at h2
  have h3 : ((List.range n).filter fun s => decide (s ∉ sites)) =
      (List.range n).filter fun s => !decide (s ∈ sites) := by
    apply List.filter_congr; intro s _; simp
  unfold newIndex
  rw [h3]; omega

theorem decrement_eq (sites : List ℕ) (hnd : sites.Nodup) (n : ℕ) (hn : n ∉ sites) :
    LatticeData.decrement sites n = newIndex sites n := by
  have hperm : (sites.insertionSort (· ≤ ·)).Perm sites := List.perm_insertionSort _ _
  have hs : (sites.insertionSort (· ≤ ·)).Pairwise (· < ·) := by
    have h1 : (sites.insertionSort (· ≤ ·)).Pairwise (· ≤ ·) := List.pairwise_insertionSort _ _
    have h2 : (sites.insertionSort (· ≤ ·)).Nodup := hperm.nodup_iff.2 hnd
    exact (h1.and h2).imp fun h => lt_of_le_of_ne h.1 h.2
  unfold LatticeData.decrement
  rw [decr_main n _ 0 n hs (by simp) (by rwa [hperm.mem_iff]) (by simp)]
  have := newIndex_add sites hnd n
  have h2 := (hperm.filter fun s => decide (s < n)).length_eq
  omega

theorem newIndex_le (sites : List ℕ) (n : ℕ) : newIndex sites n ≤ n := by
  have := List.length_filter_le (fun s => decide (s ∉ sites)) (List.range n)
  simpa [newIndex] using this

theorem newIndex_lt (sites : List ℕ) {a b : ℕ} (hab : a < b) (ha : a ∉ sites) :
    newIndex sites a < newIndex sites b := by
  obtain ⟨m, rfl⟩ : ∃ m, b = a + (m + 1) := ⟨b - a - 1, by omega⟩
  unfold newIndex
  rw [List.range_add, List.range_succ_eq_map]
  simp [ha]

/-- The sites that stay. -/
def keptSites (sites : List ℕ) (N : ℕ) : List ℕ :=
  (List.range N).filter fun i => decide (i ∉ sites)

theorem kept_getElem? (sites : List ℕ) {N i : ℕ} (hi : i < N) (hs : i ∉ sites) :
    (keptSites sites N)[newIndex sites i]? = some i := by
  obtain ⟨m, rfl⟩ : ∃ m, N = i + (m + 1) := ⟨N - i - 1, by omega⟩
  unfold keptSites newIndex
  rw [List.range_add, List.range_succ_eq_map]
  simp only [List.map_cons, List.filter_append, Nat.add_zero]
  rw [List.getElem?_append_right (le_refl _)]
  simp [hs]

theorem newIndex_kept (sites : List ℕ) {N k : ℕ} (hk : k < newIndex sites N) :
    ∃ i < N, i ∉ sites ∧ newIndex sites i = k := by
  have hk' : k < (keptSites sites N).length := hk
  set i := (keptSites sites N)[k] with hi
  have hmem : i ∈ keptSites sites N := List.getElem_mem _
  have h2 : i < N ∧ i ∉ sites := by simpa [keptSites] using hmem
  refine ⟨i, h2.1, h2.2, ?_⟩
  have h3 := kept_getElem? sites h2.1 h2.2
  obtain ⟨h4, h5⟩ := List.getElem?_eq_some_iff.1 h3
  have hnd : (keptSites sites N).Nodup := List.nodup_range.filter _
  exact (List.Nodup.getElem_inj_iff hnd).1 (h5.trans hi)

end Lattpy
