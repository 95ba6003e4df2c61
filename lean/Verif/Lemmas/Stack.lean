import Verif.Model.Structure
import Verif.Lemmas.Data
import Verif.Lemmas.Basis
import Verif.Lemmas.KDTree
import Verif.Lemmas.Distance

/-! Index stacking, neighbour dictionaries and neighbour cells used by `LatticeStructure`. -/

set_option autoImplicit false
set_option linter.unusedSectionVars false

namespace Lattpy

/-! ## Python indexing -/

theorem pyIdx_eq_some {n : ℕ} {i : ℤ} {k : ℕ} :
    pyIdx n i = some k ↔ k < n ∧ (i = k ∨ i = (k : ℤ) - n) := by
  unfold pyIdx
  split_ifs with h1 h2
  · rw [Option.some.injEq]; omega
  · rw [Option.some.injEq]; omega
  · constructor
    · intro h; cases h
    · intro h; omega

theorem pyIdx_eq_none {n : ℕ} {i : ℤ} : pyIdx n i = none ↔ i < -n ∨ (n : ℤ) ≤ i := by
  unfold pyIdx
  split_ifs with h1 h2
  · constructor
    · intro h; cases h
    · intro h; omega
  · constructor
    · intro h; cases h
    · intro h; omega
  · constructor
    · intro _; omega
    · intro _; rfl

theorem pyGet_eq {α : Type*} (l : List α) (i : ℤ) : pyGet l i = (pyIdx l.length i).bind (l[·]?) := by
  unfold pyGet
  cases h : pyIdx l.length i with
  | none =>
    rw [pyIdx_eq_none] at h
    split_ifs with h1 h2
    · rw [List.getElem?_eq_none (by omega)]; rfl
    · omega
    · rfl
  | some k =>
    rw [pyIdx_eq_some] at h
    simp only [Option.bind_some]
    split_ifs with h1 h2
    · congr 1; omega
    · congr 1; omega
    · omega

theorem pyGet_eq_some {α : Type*} {l : List α} {i : ℤ} {x : α} :
    pyGet l i = some x ↔ ∃ k : ℕ, (i = k ∨ i = (k : ℤ) - l.length) ∧ l[k]? = some x := by
  rw [pyGet_eq, Option.bind_eq_some_iff]
  constructor
  · rintro ⟨k, h1, h2⟩
    exact ⟨k, (pyIdx_eq_some.1 h1).2, h2⟩
  · rintro ⟨k, h1, h2⟩
    exact ⟨k, pyIdx_eq_some.2 ⟨(List.getElem?_eq_some_iff.1 h2).1, h1⟩, h2⟩

theorem pyGet_eq_none {α : Type*} {l : List α} {i : ℤ} :
    pyGet l i = none ↔ i < -l.length ∨ (l.length : ℤ) ≤ i := by
  rw [pyGet_eq, Option.bind_eq_none_iff]
  constructor
  · intro h
    rw [← pyIdx_eq_none]
    cases h1 : pyIdx l.length i with
    | none => rfl
    | some k =>
      have h2 := h k h1
      have h3 := (pyIdx_eq_some.1 h1).1
      rw [List.getElem?_eq_getElem h3] at h2
      cases h2
  · intro h k hk
    rw [pyIdx_eq_none.2 h] at hk
    cases hk

/-! ## stacking -/

theorem filterMap_eq_map' {α β : Type*} (f : α → Option β) (g : α → β) (l : List α)
    (h : ∀ x ∈ l, f x = some (g x)) : l.filterMap f = l.map g := by
  induction l with
  | nil => rfl
  | cons a l ih =>
    rw [List.filterMap_cons, h a (by simp), List.map_cons, ih fun x hx => h x (by simp [hx])]

theorem getElem?_flatMap_const {α β : Type*} {M : ℕ} (hM : 0 < M) (f : α → List β) :
    ∀ (l : List α), (∀ a ∈ l, (f a).length = M) → ∀ i : ℕ,
      (l.flatMap f)[i]? = (l[i / M]?).bind fun a => (f a)[i % M]?
  | [], _, i => by simp
  | a :: l, h, i => by
    have ha : (f a).length = M := h a (by simp)
    rw [List.flatMap_cons]
    by_cases hi : i < M
    · rw [List.getElem?_append_left (by omega), Nat.div_eq_of_lt hi, Nat.mod_eq_of_lt hi]
      simp
    · rw [List.getElem?_append_right (by omega), ha,
        getElem?_flatMap_const hM f l (fun b hb => h b (by simp [hb]))]
      have h1 : i = (i - M) + M := by omega
      have h2 : i / M = (i - M) / M + 1 := by
        conv_lhs => rw [h1]
        rw [Nat.add_div_right _ hM]
      have h3 : i % M = (i - M) % M := by
        conv_lhs => rw [h1]
        rw [Nat.add_mod_right]
      rw [h2, h3, List.getElem?_cons_succ]

theorem length_flatMap_const {α β : Type*} {M : ℕ} (f : α → List β) (l : List α)
    (h : ∀ a ∈ l, (f a).length = M) : (l.flatMap f).length = l.length * M := by
  rw [List.length_flatMap, List.map_congr_left (g := fun _ => M) (fun a ha => h a ha)]
  simp

/-- The stacked index array lists the atoms of the first cell, then of the second, ... -/
theorem stackIndices_eq {d : ℕ} (B : ℕ) (nvecs : List (Fin d → ℤ)) :
    stackIndices B nvecs =
      .ok (nvecs.flatMap fun n => (List.range B).map fun b : ℕ => Idx.mk n (b : ℤ)) := by
  unfold stackIndices
  set N := nvecs.length with hN
  set arrays := (List.range B).map fun i : ℕ => nvecs.map fun n => Idx.mk n (i : ℤ) with harr
  have inner : ∀ (k : Fin (d + 1)) (n : ℕ), n ∈ List.range N →
      (arrays.filterMap fun a => a[n]?.map fun r => r k).length = B := by
    intro k n hn
    rw [List.mem_range] at hn
    rw [harr, List.filterMap_map, filterMap_eq_map' _ (fun b : ℕ => Idx.mk (nvecs[n]'hn) (b : ℤ) k)]
    · simp
    · intro b _
      have : nvecs[n]? = some (nvecs[n]'hn) := List.getElem?_eq_getElem hn
      simp [this]
  have outer : ∀ k ∈ List.finRange (d + 1), ((List.range N).flatMap fun n =>
      arrays.filterMap fun a => a[n]?.map fun r => r k).length = N * B := by
    intro k _
    rw [length_flatMap_const _ _ (fun n hn => inner k n hn), List.length_range]
  have hlen : (ravelF N arrays).length = (d + 1) * (N * B) := by
    unfold ravelF
    rw [length_flatMap_const _ _ outer, List.length_finRange]
  have hdiv : (ravelF N arrays).length / (d + 1) = N * B := by
    rw [hlen, Nat.mul_div_cancel_left _ (Nat.succ_pos d)]
  unfold reshapeT
  rw [dif_pos (by rw [hdiv, hlen])]
  congr 1
  have hR : ∀ n ∈ nvecs, ((List.range B).map fun b : ℕ => Idx.mk n (b : ℤ)).length = B := by
    intro n _; simp
  apply List.ext_getElem?
  intro m
  by_cases hm : m < N * B
  · have hB : 0 < B := Nat.pos_of_ne_zero (by rintro rfl; simp at hm)
    have hNB : 0 < N * B := by omega
    have hdm : m / B < N := (Nat.div_lt_iff_lt_mul hB).2 hm
    have hmm : m % B < B := Nat.mod_lt _ hB
    rw [List.getElem?_map, List.getElem?_eq_getElem (by rw [List.length_finRange, hdiv]; exact hm)]
    rw [getElem?_flatMap_const hB _ _ hR, List.getElem?_eq_getElem (by omega)]
    simp only [Option.map_some, Option.bind_some, List.getElem_finRange]
    rw [List.getElem?_map, List.getElem?_range hmm, Option.map_some]
    congr 1
    funext k
    apply Option.some_injective
    rw [← List.getElem?_eq_getElem]
    simp only [Fin.val_cast]
    unfold ravelF
    rw [getElem?_flatMap_const hNB _ _ outer]
    have e1 : (k.val * ((ravelF N arrays).length / (d + 1)) + m) / (N * B) = k.val := by
      rw [hdiv, Nat.mul_comm, Nat.mul_add_div hNB, Nat.div_eq_of_lt hm, Nat.add_zero]
    have e2 : (k.val * ((ravelF N arrays).length / (d + 1)) + m) % (N * B) = m := by
      rw [hdiv, Nat.mul_comm, Nat.mul_add_mod, Nat.mod_eq_of_lt hm]
    unfold ravelF at e1 e2
    rw [e1, e2, List.getElem?_eq_getElem (by rw [List.length_finRange]; exact k.isLt)]
    simp only [Option.bind_some, List.getElem_finRange]
    rw [getElem?_flatMap_const hB _ _ (fun n hn => inner _ n hn), List.getElem?_range hdm]
    simp only [Option.bind_some]
    rw [harr, List.filterMap_map,
      filterMap_eq_map' _ (fun b : ℕ => Idx.mk (nvecs[m / B]'hdm) (b : ℤ) k)]
    · rw [List.getElem?_map, List.getElem?_range hmm]
      rfl
    · intro b _
      have : (nvecs[m / B]?) = some (nvecs[m / B]'hdm) := List.getElem?_eq_getElem hdm
      simp [this]
  · rw [List.getElem?_eq_none (by rw [List.length_map, List.length_finRange, hdiv]; omega),
      List.getElem?_eq_none (by rw [length_flatMap_const _ _ hR, ← hN]; omega)]

namespace Idx
variable {d : ℕ}

@[simp] theorem cell_mk (n : Fin d → ℤ) (a : ℤ) : (Idx.mk n a).cell = n := by
  funext k; simp [Idx.mk, Idx.cell]

@[simp] theorem alpha_mk (n : Fin d → ℤ) (a : ℤ) : (Idx.mk n a).alpha = a := by
  simp [Idx.mk, Idx.alpha]

theorem mk_cell_alpha (idx : Idx d) : Idx.mk idx.cell idx.alpha = idx := by
  funext k
  refine Fin.lastCases ?_ (fun j => ?_) k
  · simp [Idx.mk, Idx.alpha]
  · simp [Idx.mk, Idx.cell]

theorem ext_iff {i j : Idx d} : i = j ↔ i.cell = j.cell ∧ i.alpha = j.alpha := by
  constructor
  · rintro rfl; exact ⟨rfl, rfl⟩
  · rintro ⟨h1, h2⟩
    rw [← mk_cell_alpha i, ← mk_cell_alpha j, h1, h2]

theorem mk_inj {n n' : Fin d → ℤ} {a a' : ℤ} : Idx.mk n a = Idx.mk n' a' ↔ n = n' ∧ a = a' := by
  rw [ext_iff]; simp

end Idx

/-- The stacked index list. -/
def siteList {d : ℕ} (B : ℕ) (nvecs : List (Fin d → ℤ)) : List (Idx d) :=
  nvecs.flatMap fun n => (List.range B).map fun b : ℕ => Idx.mk n (b : ℤ)

theorem mem_siteList {d : ℕ} {B : ℕ} {nvecs : List (Fin d → ℤ)} {idx : Idx d} :
    idx ∈ siteList B nvecs ↔ idx.cell ∈ nvecs ∧ ∃ b : ℕ, b < B ∧ idx.alpha = b := by
  unfold siteList
  simp only [List.mem_flatMap, List.mem_map, List.mem_range]
  constructor
  · rintro ⟨n, hn, b, hb, rfl⟩
    exact ⟨by simpa using hn, b, hb, by simp⟩
  · rintro ⟨h1, b, hb, h2⟩
    exact ⟨_, h1, b, hb, by rw [← h2, Idx.mk_cell_alpha]⟩

theorem siteList_nodup {d : ℕ} {B : ℕ} {nvecs : List (Fin d → ℤ)} (h : nvecs.Nodup) :
    (siteList B nvecs).Nodup := by
  unfold siteList
  rw [List.nodup_flatMap]
  constructor
  · intro n _
    refine List.nodup_range.map ?_
    intro a b hab
    have := (Idx.mk_inj.1 hab).2
    exact_mod_cast this
  · refine h.imp ?_
    intro n n' hne
    rw [Function.onFun, List.disjoint_left]
    rintro idx h1 h2
    obtain ⟨b, -, rfl⟩ := List.mem_map.1 h1
    obtain ⟨b', -, h⟩ := List.mem_map.1 h2
    exact hne (Idx.mk_inj.1 h).1.symm

theorem siteList_length {d : ℕ} (B : ℕ) (nvecs : List (Fin d → ℤ)) :
    (siteList B nvecs).length = nvecs.length * B := by
  unfold siteList
  exact length_flatMap_const _ _ (by intro n _; simp)

/-! ## dictionaries -/

namespace NDict
variable {d : ℕ} {K : Type*} [LinearOrder K]

/-- All `(distance, index)` entries. -/
def pairs (D : NDict d K) : List (K × Idx d) := D.flatMap fun p => p.2.map fun x => (p.1, x)

/-- Distinct keys, no empty entry. -/
def WF (D : NDict d K) : Prop := D.keys.Nodup ∧ ∀ p ∈ D, p.2 ≠ []

theorem pairs_extend (D : NDict d K) (k : K) (xs : List (Idx d)) :
    (extend D k xs).pairs.Perm (D.pairs ++ xs.map fun x => (k, x)) := by
  induction D with
  | nil => simp [extend, pairs]
  | cons p D ih =>
    obtain ⟨k', ys⟩ := p
    unfold extend
    split_ifs with h
    · subst h
      simp only [pairs, List.flatMap_cons, List.map_append, List.append_assoc]
      refine List.Perm.append_left _ ?_
      exact List.perm_append_comm
    · have h1 : (pairs ((k', ys) :: extend D k xs)) =
          ys.map (fun x => (k', x)) ++ (extend D k xs).pairs := by simp [pairs]
      have h2 : (pairs ((k', ys) :: D)) = ys.map (fun x => (k', x)) ++ pairs D := by simp [pairs]
      rw [h1, h2, List.append_assoc]
      exact List.Perm.append_left _ ih

theorem keys_extend (D : NDict d K) (k : K) (xs : List (Idx d)) :
    (extend D k xs).keys = if k ∈ D.keys then D.keys else D.keys ++ [k] := by
  induction D with
  | nil => simp [extend, keys]
  | cons p D ih =>
    obtain ⟨k', ys⟩ := p
    unfold extend
    by_cases h : k' = k
    · rw [if_pos h, if_pos (by simp [keys, h])]
      rfl
    · rw [if_neg h]
      have h1 : keys ((k', ys) :: extend D k xs) = k' :: (extend D k xs).keys := rfl
      have h2 : keys ((k', ys) :: D) = k' :: keys D := rfl
      rw [h1, h2, ih]
      have h3 : k ∈ k' :: keys D ↔ k ∈ keys D := by
        simp [Ne.symm h]
      by_cases h4 : k ∈ keys D
      · rw [if_pos h4, if_pos (h3.2 h4)]
      · rw [if_neg h4, if_neg (fun h5 => h4 (h3.1 h5))]
        rfl

theorem WF.nil : WF ([] : NDict d K) := ⟨List.nodup_nil, by simp⟩

theorem WF.extend {D : NDict d K} (h : D.WF) (k : K) {xs : List (Idx d)} (hx : xs ≠ []) :
    (D.extend k xs).WF := by
  constructor
  · rw [keys_extend]
    split_ifs with hk
    · exact h.1
    · rw [List.nodup_append]
      exact ⟨h.1, by simp, by
        intro a ha b hb
        rw [List.mem_singleton] at hb
        rintro rfl
        exact hk (hb ▸ ha)⟩
  · have h2 := h.2
    clear h
    induction D with
    | nil =>
      intro p hp
      simp only [NDict.extend, List.mem_singleton] at hp
      subst hp; exact hx
    | cons q D ih =>
      obtain ⟨k', ys⟩ := q
      unfold NDict.extend
      intro p hp
      split_ifs at hp with hk
      · rcases List.mem_cons.1 hp with rfl | hp
        · simp [hx]
        · exact h2 p (by simp [hp])
      · rcases List.mem_cons.1 hp with rfl | hp
        · exact h2 _ (by simp)
        · exact ih (fun q hq => h2 q (by simp [hq])) p hp

/-- Successive `setdefault(k, []).extend(xs)`. -/
def extendAll (D : NDict d K) (l : List (K × List (Idx d))) : NDict d K :=
  l.foldl (fun D q => NDict.extend D q.1 q.2) D

theorem pairs_extendAll (D : NDict d K) (l : List (K × List (Idx d))) :
    (extendAll D l).pairs.Perm (D.pairs ++ pairs l) := by
  induction l generalizing D with
  | nil => simp [extendAll, pairs]
  | cons q l ih =>
    have h1 : extendAll D (q :: l) = extendAll (NDict.extend D q.1 q.2) l := rfl
    have h2 : pairs (q :: l) = q.2.map (fun x => (q.1, x)) ++ pairs l := by simp [pairs]
    rw [h1, h2, ← List.append_assoc]
    exact (ih _).trans ((pairs_extend D q.1 q.2).append_right _)

theorem WF.extendAll {D : NDict d K} (h : D.WF) {l : List (K × List (Idx d))}
    (hl : ∀ q ∈ l, q.2 ≠ []) : (extendAll D l).WF := by
  induction l generalizing D with
  | nil => exact h
  | cons q l ih =>
    exact ih (h.extend q.1 (hl q (by simp))) (fun p hp => hl p (by simp [hp]))

theorem mem_keys_extendAll (D : NDict d K) (l : List (K × List (Idx d))) (k : K) :
    k ∈ (extendAll D l).keys ↔ k ∈ D.keys ∨ k ∈ l.map Prod.fst := by
  induction l generalizing D with
  | nil => simp [extendAll]
  | cons q l ih =>
    have h1 : extendAll D (q :: l) = extendAll (NDict.extend D q.1 q.2) l := rfl
    rw [h1, ih, keys_extend]
    split_ifs with h
    · simp only [List.map_cons, List.mem_cons]
      constructor
      · rintro (h | h)
        · exact Or.inl h
        · exact Or.inr (Or.inr h)
      · rintro (h' | rfl | h')
        · exact Or.inl h'
        · exact Or.inl h
        · exact Or.inr h'
    · simp only [List.mem_append, List.map_cons, List.mem_cons]
      tauto

/-- Keys met in ascending order stay in ascending order. -/
theorem keys_extendAll_sorted (D : NDict d K) (l : List (K × List (Idx d)))
    (hD : D.keys.Pairwise (· < ·)) (hl : (l.map Prod.fst).Pairwise (· ≤ ·))
    (hDl : ∀ k ∈ D.keys, ∀ q ∈ l, k ≤ q.1) : (extendAll D l).keys.Pairwise (· < ·) := by
  induction l generalizing D with
  | nil => exact hD
  | cons q l ih =>
    have h1 : extendAll D (q :: l) = extendAll (NDict.extend D q.1 q.2) l := rfl
    rw [List.map_cons, List.pairwise_cons] at hl
    rw [h1]
    refine ih _ ?_ hl.2 ?_
    · rw [keys_extend]
      split_ifs with h
      · exact hD
      · rw [List.pairwise_append]
        refine ⟨hD, by simp, ?_⟩
        intro a ha b hb
        rw [List.mem_singleton] at hb
        subst hb
        refine lt_of_le_of_ne (hDl a ha q (by simp)) ?_
        rintro rfl
        exact h ha
    · intro k hk p hp
      have hq : q.1 ≤ p.1 := hl.1 _ (List.mem_map.2 ⟨p, hp, rfl⟩)
      rw [keys_extend] at hk
      split_ifs at hk with h
      · exact hDl k hk p (by simp [hp])
      · rcases List.mem_append.1 hk with hk | hk
        · exact hDl k hk p (by simp [hp])
        · rw [List.mem_singleton] at hk
          exact hk ▸ hq

theorem mem_pairs {D : NDict d K} {k : K} {x : Idx d} :
    (k, x) ∈ D.pairs ↔ ∃ xs, (k, xs) ∈ D ∧ x ∈ xs := by
  unfold pairs
  simp only [List.mem_flatMap, List.mem_map, Prod.mk.injEq]
  constructor
  · rintro ⟨⟨k', xs⟩, h, y, hy, rfl, rfl⟩
    exact ⟨xs, h, hy⟩
  · rintro ⟨xs, h, hx⟩
    exact ⟨(k, xs), h, x, hx, rfl, rfl⟩

theorem mem_keys_iff {D : NDict d K} (h : D.WF) {k : K} :
    k ∈ D.keys ↔ ∃ x, (k, x) ∈ D.pairs := by
  constructor
  · intro hk
    obtain ⟨⟨k', xs⟩, hp, rfl⟩ := List.mem_map.1 hk
    obtain ⟨x, hx⟩ := List.exists_mem_of_ne_nil _ (h.2 _ hp)
    exact ⟨x, mem_pairs.2 ⟨xs, hp, hx⟩⟩
  · rintro ⟨x, hx⟩
    obtain ⟨xs, hp, -⟩ := mem_pairs.1 hx
    exact List.mem_map.2 ⟨_, hp, rfl⟩

theorem count_eq (D : NDict d K) : D.count = D.pairs.length := by
  simp [count, pairs, List.length_flatMap]

theorem get?_eq_some {D : NDict d K} (h : D.keys.Nodup) {k : K} {xs : List (Idx d)} :
    D.get? k = some xs ↔ (k, xs) ∈ D := by
  unfold get?
  induction D with
  | nil => simp
  | cons p D ih =>
    obtain ⟨k', ys⟩ := p
    have hk : k' ∉ keys D ∧ (keys D).Nodup := List.nodup_cons.1 h
    rw [List.lookup_cons]
    by_cases hkk : k = k'
    · subst hkk
      simp only [beq_self_eq_true, Option.some.injEq, List.mem_cons, Prod.mk.injEq, true_and]
      constructor
      · rintro rfl; exact Or.inl rfl
      · rintro (h | h)
        · exact h.symm
        · exact absurd (List.mem_map.2 ⟨_, h, rfl⟩) hk.1
    · have : (k == k') = false := by simpa using hkk
      rw [this]
      simp only [List.mem_cons, Prod.mk.injEq, hkk, false_and, false_or]
      exact ih hk.2

end NDict

/-! ## neighbour cells exist -/

namespace LatticeBasis
variable {d : ℕ}

theorem mem_norms (b : LatticeBasis d ℝ) {x : ℝ} :
    x ∈ b.norms ↔ ∃ i, x = norm2 (b.vectors i) := by
  unfold norms
  simp [eq_comm]

theorem translate_single (b : LatticeBasis d ℝ) (i : Fin d) (c : ℤ) :
    b.translate (Pi.single i c) 0 = fun k => (c : ℝ) * b.vectors i k := by
  rw [translate_eq]
  funext k
  rw [Finset.sum_eq_single i]
  · simp
  · intro j _ hj
    simp [Pi.single_eq_of_ne hj]
  · simp

theorem norm2_smul {d : ℕ} (c : ℝ) (v : Vec d ℝ) : norm2 (fun k => c * v k) = |c| * norm2 v := by
  rw [norm2_eq_norm, norm2_eq_norm, ← Real.norm_eq_abs, ← norm_smul]
  rfl

theorem norm2_pos {rows : Matrix (Fin d) (Fin d) ℝ} {b : LatticeBasis d ℝ}
    (h : init rows = .ok b) (i : Fin d) : 0 < norm2 (b.vectors i) := by
  have h0 : norm2 (b.translate (Pi.single i 1) 0) = norm2 (b.vectors i) := by
    rw [translate_single, norm2_smul]; simp
  have h1 : norm2 (b.translate (Pi.single i 1) 0) ≠ 0 := by
    rw [Ne, norm2_translate_eq_zero h]
    intro h2
    have := congrFun h2 i
    simp at this
  have h2 : 0 ≤ norm2 (b.vectors i) := by rw [norm2_eq_norm]; exact norm_nonneg _
  exact lt_of_le_of_ne h2 (h0 ▸ h1).symm

/-- A regular basis of positive dimension always has enough distance levels in the search window
of `get_neighbor_cells`. -/
theorem getNeighborCells_ok {rows : Matrix (Fin d) (Fin d) ℝ} {b : LatticeBasis d ℝ}
    (h : init rows = .ok b) (hd : 0 < d) (distidx : ℕ) (incl : Bool) (cmp : ℝ → ℝ → Bool) :
    ∃ r, b.getNeighborCells distidx incl cmp = .ok r := by
  -- the longest basis vector
  obtain ⟨i0, hi0⟩ : ∃ i0, ∀ i, norm2 (b.vectors i) ≤ norm2 (b.vectors i0) := by
    have : Nonempty (Fin d) := ⟨⟨0, hd⟩⟩
    exact Finite.exists_max _
  set L := norm2 (b.vectors i0) with hL
  have hLpos : 0 < L := norm2_pos h i0
  set U := npUnique b.norms with hU
  set P := npUnique ((factors d distidx).map fun n => norm2 (b.translate n 0)) with hP
  have hLU : L ∈ U := mem_npUnique.2 (b.mem_norms.2 ⟨i0, rfl⟩)
  have hUle : ∀ x ∈ U, 0 < x ∧ x ≤ L := by
    intro x hx
    obtain ⟨i, rfl⟩ := b.mem_norms.1 (mem_npUnique.1 hx)
    exact ⟨norm2_pos h i, hi0 i⟩
  have hmem : ∀ (i : Fin d) (c : ℕ), c ≤ distidx + 1 → (c : ℝ) * norm2 (b.vectors i) ∈ P := by
    intro i c hc
    refine mem_npUnique.2 (List.mem_map.2 ⟨Pi.single i (c : ℤ), ?_, ?_⟩)
    · rw [mem_factors]
      intro k
      by_cases hk : k = i
      · subst hk
        simp only [Pi.single_eq_same, Nat.abs_cast]
        exact_mod_cast hc
      · rw [Pi.single_eq_of_ne hk]
        simp; omega
    · rw [translate_single, norm2_smul]; simp
  set W : List ℝ := ((List.range (distidx + 2)).map fun c : ℕ => (c : ℝ) * L) ++ U.erase L with hW
  have hUnd : U.Nodup := npUnique_nodup _
  have hWnd : W.Nodup := by
    rw [hW, List.nodup_append]
    refine ⟨?_, hUnd.erase L, ?_⟩
    · refine List.nodup_range.map ?_
      intro a c hac
      have := mul_right_cancel₀ hLpos.ne' hac
      exact_mod_cast this
    · intro x hx y hy
      obtain ⟨c, -, rfl⟩ := List.mem_map.1 hx
      rw [hUnd.mem_erase_iff] at hy
      rintro rfl
      have h1 := hUle _ hy.2
      rcases Nat.lt_or_ge c 2 with hc | hc
      · interval_cases c
        · simp at h1
        · simp at hy
      · have : (2 : ℝ) ≤ c := by exact_mod_cast hc
        nlinarith [h1.2]
  have hWP : W ⊆ P := by
    intro x hx
    rw [hW, List.mem_append] at hx
    rcases hx with hx | hx
    · obtain ⟨c, hc, rfl⟩ := List.mem_map.1 hx
      rw [List.mem_range] at hc
      exact hmem i0 c (by omega)
    · have h1 := (hUnd.mem_erase_iff.1 hx).2
      obtain ⟨i, rfl⟩ := b.mem_norms.1 (mem_npUnique.1 h1)
      have := hmem i 1 (by omega)
      simpa using this
  have hlen : W.length ≤ P.length := (List.subperm_of_subset hWnd hWP).length_le
  have hWlen : W.length = distidx + 2 + (U.length - 1) := by
    rw [hW, List.length_append, List.length_map, List.length_range, List.length_erase_of_mem hLU]
  have hUpos : 0 < U.length := List.length_pos_of_mem hLU
  unfold getNeighborCells
  dsimp only
  rw [List.getElem?_eq_getElem (show distidx + (npUnique b.norms).length < P.length by
    rw [← hU]; omega)]
  exact ⟨_, rfl⟩

end LatticeBasis

end Lattpy
