import Verif.Lemmas.Levels
import Verif.Props.Spatial
import Verif.Props.Shape

/-! Generation of the sites of a finite lattice. -/

set_option autoImplicit false
set_option linter.unusedSectionVars false

namespace Lattpy

open Structure

variable {d : ℕ}

/-! ## lists -/

theorem mapM_inv {α β : Type*} (f : α → Except PyErr β) : ∀ (l : List α) (m : List β),
    l.mapM f = .ok m → m.length = l.length ∧ ∀ (i : ℕ) (x : α), l[i]? = some x →
      ∃ y, m[i]? = some y ∧ f x = .ok y
  | [], m, h => by
      simp only [List.mapM_nil] at h
      cases h
      simp
  | a :: l, m, h => by
      rw [List.mapM_cons] at h
      cases hf : f a with
      | error e => rw [hf] at h; cases h
      | ok b =>
        cases hm : l.mapM f with
        | error e => rw [hf, hm] at h; cases h
        | ok m' =>
          rw [hf, hm] at h
          cases h
          obtain ⟨h1, h2⟩ := mapM_inv f l m' hm
          refine ⟨by simp [h1], ?_⟩
          intro i x hx
          cases i with
          | zero =>
            simp only [List.getElem?_cons_zero, Option.some.injEq] at hx
            subst hx
            exact ⟨b, rfl, hf⟩
          | succ i => exact h2 i x (by simpa using hx)

/-- A boolean list computed from the entries is a mask by a predicate. -/
theorem mapM_bool {α : Type*} (f : α → Except PyErr Bool) (l : List α) (m : List Bool)
    (h : l.mapM f = .ok m) :
    m = l.map fun x => match f x with | .ok b => b | .error _ => false := by
  obtain ⟨h1, h2⟩ := mapM_inv f l m h
  refine List.ext_getElem? fun i => ?_
  rw [List.getElem?_map]
  cases hx : l[i]? with
  | none =>
    rw [List.getElem?_eq_none_iff] at hx
    rw [List.getElem?_eq_none (by omega)]; rfl
  | some x =>
    obtain ⟨y, h3, h4⟩ := h2 i x hx
    rw [h3, Option.map_some, h4]

/-! ## the table of all sites of some cells -/

namespace Structure

/-- Position of the site with the given index. -/
noncomputable def sitePos (S : Structure d ℝ) (idx : Idx d) : Vec d ℝ :=
  S.basis.translate idx.cell (S.posOf idx.alpha.toNat)

theorem woven_eq {S : Structure d ℝ} (hS : S.positions.length = S.numBase) (h0 : 0 < S.numBase)
    (nvecs : List (Fin d → ℤ)) :
    interweave (S.positions.map fun p => nvecs.map fun n => S.basis.translate n p) =
      .ok ((siteList S.numBase nvecs).map fun idx => some (S.sitePos idx)) := by
  obtain ⟨r, hr, hlen, -, hget⟩ := C11_interweave
    (S.positions.map fun p => nvecs.map fun n => S.basis.translate n p) (by
      intro h
      rw [List.map_eq_nil_iff] at h
      rw [h] at hS
      simp at hS
      omega) nvecs.length (by
      intro a ha
      obtain ⟨p, -, rfl⟩ := List.mem_map.1 ha
      simp)
  rw [hr]
  congr 1
  rw [List.length_map, hS] at hlen
  refine List.ext_getElem? fun k => ?_
  rw [List.getElem?_map]
  by_cases hk : k < S.numBase * nvecs.length
  · have hmod : k % S.numBase < S.numBase := Nat.mod_lt _ h0
    have hdiv : k / S.numBase < nvecs.length := Nat.div_lt_of_lt_mul hk
    have h1 := hget (k % S.numBase) (by rw [List.length_map, hS]; exact hmod) (k / S.numBase) hdiv
    have hk' : k / S.numBase * (S.positions.map fun p => nvecs.map fun n =>
        S.basis.translate n p).length + k % S.numBase = k := by
      rw [List.length_map, hS]; exact Nat.div_add_mod' k S.numBase
    rw [hk'] at h1
    rw [h1]
    unfold siteList
    rw [getElem?_flatMap_const h0 _ _ (by intro n _; simp), List.getElem?_eq_getElem hdiv]
    simp only [Option.bind_some, List.getElem?_map, List.getElem?_range hmod, Option.map_some,
      List.getElem_map, List.getElem?_eq_getElem hdiv]
    unfold sitePos
    simp only [Idx.cell_mk, Idx.alpha_mk, Int.toNat_natCast]
    rw [posOf_eq (List.getElem?_eq_getElem (by rw [hS]; exact hmod))]
  · rw [List.getElem?_eq_none (by omega), List.getElem?_eq_none (by
      rw [siteList_length]; rw [mul_comm]; omega)]
    rfl

/-! ## check_points -/

/-- The points accepted by `check_points`. -/
noncomputable def accepts (S : Structure d ℝ) (shape : ShapeArg d ℝ) (relative : Bool)
    (pos : Option (Vec d ℝ)) (tol : ℝ) (p : Vec d ℝ) : Bool :=
  match shape with
  | .shape s => match s.contains p tol with | .ok b => b | .error _ => false
  | .size dims _ => match (toVec dims : Option (Vec d ℝ)) with
    | none => false
    | some size =>
      decide (∀ k, pos.getD 0 k - tol ≤ p k ∧
        p k ≤ pos.getD 0 k - tol + (if relative then size + S.relativeMargin else size) k + tol)

theorem checkPoints_ok {S : Structure d ℝ} {points : List (Vec d ℝ)} {shape : ShapeArg d ℝ}
    {relative : Bool} {pos : Option (Vec d ℝ)} {tol : ℝ} {mask : List Bool}
    (h : S.checkPoints points shape relative pos tol = .ok mask) :
    mask = points.map (S.accepts shape relative pos tol) := by
  unfold checkPoints at h
  cases shape with
  | shape s => exact mapM_bool _ _ _ h
  | size dims isInt =>
    dsimp only at h
    cases hv : (toVec dims : Option (Vec d ℝ)) with
    | none => rw [hv] at h; cases h
    | some size =>
      rw [hv] at h
      dsimp only at h
      split at h
      · cases h
      · simp only [Except.ok.injEq] at h
        rw [← h]
        unfold accepts
        simp only [hv]

/-! ## build_indices -/

/-- The error raised by `check_points`, if any. -/
noncomputable def checkError (S : Structure d ℝ) (points : List (Vec d ℝ)) (shape : ShapeArg d ℝ)
    (relative : Bool) (pos : Option (Vec d ℝ)) (check : Bool) : Option PyErr :=
  if check then
    match S.checkPoints points shape relative pos (1 / 1000) with
    | .error e => some e
    | .ok _ => none
  else none

/-- `build_indices`: the sites of the translation vectors, filtered by the region and the
callback. -/
theorem buildIndices_eq {S : Structure d ℝ} (hS : S.positions.length = S.numBase)
    (h0 : 0 < S.numBase) (shape : ShapeArg d ℝ) (primitive : Bool) (pos : Option (Vec d ℝ))
    (check : Bool) (callback : Option (List (Idx d) → List (Vec d ℝ) → List Bool))
    (bits : Option ℕ) :
    S.buildIndices shape primitive pos check callback bits =
      match S.buildTranslationVectors shape primitive pos false bits 0 with
      | .error e => .error e
      | .ok nvecs =>
        let L := (siteList S.numBase nvecs).filter fun idx =>
          !check || S.accepts shape primitive pos (1 / 1000) (S.sitePos idx)
        match S.checkError ((siteList S.numBase nvecs).map S.sitePos) shape primitive pos check with
        | some e => .error e
        | none => match callback with
          | none => .ok (L, L.map S.sitePos)
          | some f => applyMask L (L.map S.sitePos) (f L (L.map S.sitePos)) := by
  unfold buildIndices
  cases hn : S.buildTranslationVectors shape primitive pos false bits 0 with
  | error e => rfl
  | ok nvecs =>
    dsimp only
    rw [stackIndices_eq, woven_eq hS h0]
    dsimp only
    have hfm : ((siteList S.numBase nvecs).map fun idx => some (S.sitePos idx)).filterMap id =
        (siteList S.numBase nvecs).map S.sitePos := by
      rw [List.filterMap_map]
      exact filterMap_eq_map' _ _ _ fun a _ => rfl
    rw [hfm]
    cases check with
    | false =>
      have hL : ((siteList S.numBase nvecs).filter fun idx =>
          !false || S.accepts shape primitive pos (1 / 1000) (S.sitePos idx)) =
          siteList S.numBase nvecs := by simp
      rw [hL]
      cases callback with
      | none => rfl
      | some f => rfl
    | true =>
      unfold checkError
      simp only [if_true]
      cases hc : S.checkPoints ((siteList S.numBase nvecs).map S.sitePos) shape primitive pos
          (1 / 1000) with
      | error e => rfl
      | ok mask =>
        have hmask := checkPoints_ok hc
        rw [List.map_map] at hmask
        have hL : ((siteList S.numBase nvecs).filter fun idx =>
            !true || S.accepts shape primitive pos (1 / 1000) (S.sitePos idx)) =
            (siteList S.numBase nvecs).filter
              (S.accepts shape primitive pos (1 / 1000) ∘ S.sitePos) := by
          congr 1
        have hap : applyMask (siteList S.numBase nvecs)
            ((siteList S.numBase nvecs).map S.sitePos) mask =
            .ok ((siteList S.numBase nvecs).filter
              (S.accepts shape primitive pos (1 / 1000) ∘ S.sitePos),
              ((siteList S.numBase nvecs).filter
              (S.accepts shape primitive pos (1 / 1000) ∘ S.sitePos)).map S.sitePos) := by
          unfold applyMask
          rw [if_pos (by rw [hmask]; simp), hmask, maskRow_map]
          congr 2
          have := maskRow_map (siteList S.numBase nvecs) id
            (S.accepts shape primitive pos (1 / 1000) ∘ S.sitePos)
          simpa using this
        have hap' : applyMask (nvecs.flatMap fun n => (List.range S.numBase).map
            fun b : ℕ => Idx.mk n (b : ℤ)) ((siteList S.numBase nvecs).map S.sitePos) mask = _ := hap
        dsimp only
        rw [hap', hL]
        cases callback with
        | none => rfl
        | some f => rfl

theorem buildIndices_ok {S : Structure d ℝ} (hS : S.positions.length = S.numBase)
    (h0 : 0 < S.numBase) {shape : ShapeArg d ℝ} {primitive : Bool} {pos : Option (Vec d ℝ)}
    {check : Bool} {callback : Option (List (Idx d) → List (Vec d ℝ) → List Bool)}
    {bits : Option ℕ} {r : List (Idx d) × List (Vec d ℝ)}
    (h : S.buildIndices shape primitive pos check callback bits = .ok r) :
    ∃ nvecs L, S.buildTranslationVectors shape primitive pos false bits 0 = .ok nvecs ∧
      L = (siteList S.numBase nvecs).filter (fun idx =>
        !check || S.accepts shape primitive pos (1 / 1000) (S.sitePos idx)) ∧
      S.checkError ((siteList S.numBase nvecs).map S.sitePos) shape primitive pos check = none ∧
      (match callback with
        | none => r = (L, L.map S.sitePos)
        | some f => applyMask L (L.map S.sitePos) (f L (L.map S.sitePos)) = .ok r) := by
  rw [buildIndices_eq hS h0] at h
  cases hn : S.buildTranslationVectors shape primitive pos false bits 0 with
  | error e => rw [hn] at h; cases h
  | ok nvecs =>
    rw [hn] at h
    dsimp only at h
    cases hc : S.checkError ((siteList S.numBase nvecs).map S.sitePos) shape primitive pos check with
    | some e => rw [hc] at h; cases h
    | none =>
      rw [hc] at h
      dsimp only at h
      refine ⟨nvecs, _, rfl, rfl, hc, ?_⟩
      cases callback with
      | none => simpa using h.symm
      | some f => exact h

theorem buildIndices_none {S : Structure d ℝ} (hS : S.positions.length = S.numBase)
    (h0 : 0 < S.numBase) {shape : ShapeArg d ℝ} {primitive : Bool} {pos : Option (Vec d ℝ)}
    {check : Bool} {bits : Option ℕ} {nvecs : List (Fin d → ℤ)}
    (hnv : S.buildTranslationVectors shape primitive pos false bits 0 = .ok nvecs)
    (hce : ∀ points, S.checkError points shape primitive pos check = none) :
    S.buildIndices shape primitive pos check none bits =
      .ok ((siteList S.numBase nvecs).filter (fun idx =>
          !check || S.accepts shape primitive pos (1 / 1000) (S.sitePos idx)),
        ((siteList S.numBase nvecs).filter (fun idx =>
          !check || S.accepts shape primitive pos (1 / 1000) (S.sitePos idx))).map S.sitePos) := by
  rw [buildIndices_eq hS h0, hnv]
  dsimp only
  rw [hce]

/-! ## translation vectors -/

theorem wrapSigned_inj {w : ℕ} {i j : ℤ} {n : ℤ} (hn : n ≤ 2 ^ w) (hi : 0 ≤ i ∧ i < n)
    (hj : 0 ≤ j ∧ j < n) (h : wrapSigned w i = wrapSigned w j) : i = j := by
  unfold wrapSigned at h
  have h1 : i % ((2 ^ w : ℕ) : ℤ) = j % ((2 ^ w : ℕ) : ℤ) := by
    rw [← Int.bmod_emod (x := i), ← Int.bmod_emod (x := j), h]
  have h2 : ((2 ^ w : ℕ) : ℤ) = 2 ^ w := by push_cast; rfl
  rw [h2, Int.emod_eq_of_lt hi.1 (by omega), Int.emod_eq_of_lt hj.1 (by omega)] at h1
  exact h1

/-- The type chosen by `min_dtype(_, signed=True)` holds all values with both signs. -/
theorem minDtype_signed {a : List ℤ} {t : IntType} (h : minDtype a true = some t) :
    0 < t.bits ∧ 8 ≤ t.bits ∧ ∀ x ∈ a, |x| + 1 ≤ 2 ^ (t.bits - 1) := by
  have h1 : minScalarType (-(imax (a.map fun x => |x|)) - 1) = some t := by
    simpa [minDtype] using h
  obtain ⟨hm, -, hold, -⟩ := minScalarType_spec h1
  have hbits : 8 ≤ t.bits := by
    simp only [numpyIntTypes, List.mem_cons, List.not_mem_nil, or_false] at hm
    rcases hm with rfl | rfl | rfl | rfl | rfl | rfl | rfl | rfl <;> simp
  refine ⟨by omega, hbits, ?_⟩
  intro x hx
  have hle : |x| ≤ imax (a.map fun x => |x|) := by
    exact le_imax (List.mem_map_of_mem hx)
  have h0 := abs_nonneg x
  simp only [IntType.holds, IntType.lo] at hold
  split at hold
  · have := hold.1
    omega
  · have := hold.1
    omega

theorem vindices_nodup_default (limits : Fin d → ℤ × ℤ) (sortAxis : Option (Fin d))
    {r : List (Fin d → ℤ)} (h : vindices limits sortAxis none = .ok r) : r.Nodup := by
  unfold vindices at h
  dsimp only at h
  split at h
  · cases h
  rename_i hneg
  simp only [Except.ok.injEq] at h
  have hinj : ∀ k, ∀ i ∈ List.range ((limits k).2 - (limits k).1).toNat,
      ∀ j ∈ List.range ((limits k).2 - (limits k).1).toNat,
      indexWrap limits none (i : ℤ) = indexWrap limits none (j : ℤ) → i = j := by
    intro k i hi j hj hij
    rw [List.mem_range] at hi hj
    unfold indexWrap at hij
    dsimp only at hij
    cases ht : minDtype ((List.finRange d).flatMap fun k => [(limits k).1, (limits k).2]) true with
    | none =>
      rw [ht] at hij
      simpa using hij
    | some t =>
      rw [ht] at hij
      dsimp only at hij
      obtain ⟨hb, -, hm⟩ := minDtype_signed ht
      have h1 := hm (limits k).1 (List.mem_flatMap.2 ⟨k, List.mem_finRange k, by simp⟩)
      have h2 := hm (limits k).2 (List.mem_flatMap.2 ⟨k, List.mem_finRange k, by simp⟩)
      have h3 : (2 : ℤ) ^ t.bits = 2 * 2 ^ (t.bits - 1) := by
        obtain ⟨v, hv⟩ : ∃ v, t.bits = v + 1 := ⟨t.bits - 1, by omega⟩
        rw [hv]; simp [pow_succ]; ring
      have h4 := neg_abs_le (limits k).1
      have h5 := le_abs_self (limits k).2
      have := wrapSigned_inj (n := (limits k).2 - (limits k).1) (by rw [h3]; omega)
        (i := (i : ℤ)) (j := (j : ℤ)) ⟨by omega, by omega⟩ ⟨by omega, by omega⟩ hij
      exact_mod_cast this
  have hnd : ((boxList fun k => (List.range ((limits k).2 - (limits k).1).toNat).map
      fun i : ℕ => indexWrap limits none (i : ℤ)).map fun v k => v k + (limits k).1).Nodup := by
    refine List.Nodup.map ?_ (nodup_boxList _ ?_)
    · intro v v' hvv
      funext k
      have := congrFun hvv k
      simpa using this
    · intro k
      exact List.Nodup.map_on (fun i hi j hj => hinj k i hi j hj) List.nodup_range
  rw [← h]
  cases sortAxis with
  | none => exact hnd
  | some ax => exact (stableSortBy_perm _ _).nodup_iff.2 hnd

theorem npTrunc_intCast (z : ℤ) : npTrunc (z : ℝ) = z := by
  unfold npTrunc
  split_ifs <;> simp

/-- The searched index limits of `build_translation_vectors` (without oversampling). -/
noncomputable def searchLimits (S : Structure d ℝ) (start size : Vec d ℝ) : Fin d → ℤ × ℤ := fun k =>
  ((S.indexRange start (fun k => start k + size k) k).1 - 1,
    (S.indexRange start (fun k => start k + size k) k).2 + 1)

theorem buildTranslationVectors_eq (S : Structure d ℝ) (hd : 0 < d) (shape : ShapeArg d ℝ)
    (primitive : Bool) (pos : Option (Vec d ℝ)) (bits : Option ℕ) :
    S.buildTranslationVectors shape primitive pos false bits 0 =
      match S.buildRegion shape primitive pos with
      | .error e => .error e
      | .ok (start, size) => vindices (S.searchLimits start size) (some ⟨0, hd⟩) bits := by
  unfold buildTranslationVectors
  cases S.buildRegion shape primitive pos with
  | error e => rfl
  | ok rs =>
    obtain ⟨start, size⟩ := rs
    dsimp only
    have hl : (fun k => (npTrunc ((((S.indexRange start (fun k => start k + size k)) k).1 : ℝ) -
        (0 * size k + 1)), npTrunc ((((S.indexRange start (fun k => start k + size k)) k).2 : ℝ) +
        (0 * size k + 1)))) = S.searchLimits start size := by
      funext k
      unfold searchLimits
      have e1 : ∀ z : ℤ, (z : ℝ) - (0 * size k + 1) = ((z - 1 : ℤ) : ℝ) := by
        intro z; push_cast; ring
      have e2 : ∀ z : ℤ, (z : ℝ) + (0 * size k + 1) = ((z + 1 : ℤ) : ℝ) := by
        intro z; push_cast; ring
      rw [e1, e2, npTrunc_intCast, npTrunc_intCast]
    rw [hl, dif_pos hd]
    cases vindices (S.searchLimits start size) (some ⟨0, hd⟩) bits with
    | error e => rfl
    | ok r => rfl

theorem indexRange_fold (S : Structure d ℝ) (stop : Vec d ℝ) (k : Fin d) :
    ∀ (axs : List (List (Fin d))) (m : ℤ × ℤ),
    let r := axs.foldl (fun m axes =>
      let i := (S.basis.itranslate (zeroAxes stop axes)).1 k
      (min i m.1, max i m.2)) m
    r.1 ≤ m.1 ∧ m.2 ≤ r.2 ∧
    (∀ ax ∈ axs, r.1 ≤ ⌊S.basis.itransform (zeroAxes stop ax) k⌋ ∧
      ⌊S.basis.itransform (zeroAxes stop ax) k⌋ ≤ r.2) ∧
    (r.1 = m.1 ∨ ∃ ax ∈ axs, r.1 = ⌊S.basis.itransform (zeroAxes stop ax) k⌋) ∧
    (r.2 = m.2 ∨ ∃ ax ∈ axs, r.2 = ⌊S.basis.itransform (zeroAxes stop ax) k⌋)
  | [], m => by simp
  | ax :: axs, m => by
      intro r
      obtain ⟨h1, h2, h3, h4, h5⟩ := indexRange_fold S stop k axs
        (min ((S.basis.itranslate (zeroAxes stop ax)).1 k) m.1,
          max ((S.basis.itranslate (zeroAxes stop ax)).1 k) m.2)
      have hr : r = axs.foldl (fun m axes =>
        let i := (S.basis.itranslate (zeroAxes stop axes)).1 k
        (min i m.1, max i m.2)) (min ((S.basis.itranslate (zeroAxes stop ax)).1 k) m.1,
          max ((S.basis.itranslate (zeroAxes stop ax)).1 k) m.2) := rfl
      rw [← hr] at h1 h2 h3 h4 h5
      have hfl : (S.basis.itranslate (zeroAxes stop ax)).1 k =
          ⌊S.basis.itransform (zeroAxes stop ax) k⌋ := rfl
      dsimp only at h1 h2 h4 h5
      rw [hfl] at h1 h2 h4 h5
      refine ⟨h1.trans (min_le_right _ _), (le_max_right _ _).trans h2, ?_, ?_, ?_⟩
      · intro b hb
        rcases List.mem_cons.1 hb with rfl | hb
        · exact ⟨h1.trans (min_le_left _ _), (le_max_left _ _).trans h2⟩
        · exact h3 b hb
      · rcases h4 with h4 | ⟨b, hb, h4⟩
        · rcases min_choice ⌊S.basis.itransform (zeroAxes stop ax) k⌋ m.1 with h | h
          · exact Or.inr ⟨ax, by simp, by rw [h4, h]⟩
          · exact Or.inl (by rw [h4, h])
        · exact Or.inr ⟨b, List.mem_cons_of_mem _ hb, h4⟩
      · rcases h5 with h5 | ⟨b, hb, h5⟩
        · rcases max_choice ⌊S.basis.itransform (zeroAxes stop ax) k⌋ m.2 with h | h
          · exact Or.inr ⟨ax, by simp, by rw [h5, h]⟩
          · exact Or.inl (by rw [h5, h])
        · exact Or.inr ⟨b, List.mem_cons_of_mem _ hb, h5⟩

theorem mem_properAxes (P : Fin d → Bool) (h1 : ∃ j, P j = true) (h2 : ∃ j, P j = false) :
    (List.finRange d).filter P ∈ properAxes d := by
  obtain ⟨j1, h1⟩ := h1
  obtain ⟨j2, h2⟩ := h2
  have hpos : 0 < ((List.finRange d).filter P).length :=
    List.length_pos_of_mem (List.mem_filter.2 ⟨List.mem_finRange j1, h1⟩)
  have hlt : ((List.finRange d).filter P).length < d := by
    have h3 : ((List.finRange d).filter P).length ≤ (List.finRange d).length :=
      List.length_filter_le _ _
    rcases lt_or_eq_of_le h3 with h | h
    · simpa using h
    · exfalso
      have := List.length_filter_eq_length_iff.1 h j2 (List.mem_finRange j2)
      rw [h2] at this
      cases this
  unfold properAxes
  refine List.mem_flatMap.2 ⟨((List.finRange d).filter P).length - 1, List.mem_range.2 (by omega), ?_⟩
  rw [List.mem_sublistsLen]
  exact ⟨List.filter_sublist, by omega⟩

theorem zeroAxes_filter (stop : Vec d ℝ) (P : Fin d → Bool) :
    zeroAxes stop ((List.finRange d).filter P) = fun k => if P k then 0 else stop k := by
  funext k
  unfold zeroAxes
  simp

theorem indexRange_bounds (S : Structure d ℝ) (start stop : Vec d ℝ) (k : Fin d) :
    (S.indexRange start stop k).1 ≤ ⌊S.basis.itransform start k⌋ ∧
    ⌊S.basis.itransform stop k⌋ ≤ (S.indexRange start stop k).2 ∧
    (∀ P : Fin d → Bool, (∃ j, P j = true) → (∃ j, P j = false) →
      (S.indexRange start stop k).1 ≤
        ⌊S.basis.itransform (fun j => if P j then 0 else stop j) k⌋ ∧
      ⌊S.basis.itransform (fun j => if P j then 0 else stop j) k⌋ ≤
        (S.indexRange start stop k).2) := by
  obtain ⟨h1, h2, h3, -, -⟩ := indexRange_fold S stop k (properAxes d)
    ((S.basis.itranslate start).1 k, (S.basis.itranslate stop).1 k)
  refine ⟨h1, h2, fun P hP hP' => ?_⟩
  have := h3 _ (mem_properAxes P hP hP')
  rwa [zeroAxes_filter] at this

theorem indexRange_attained (S : Structure d ℝ) (start stop : Vec d ℝ) (k : Fin d) :
    (∃ q, (q = start ∨ ∀ j, q j = 0 ∨ q j = stop j) ∧
      (S.indexRange start stop k).1 = ⌊S.basis.itransform q k⌋) ∧
    (∃ q, (∀ j, q j = 0 ∨ q j = stop j) ∧
      (S.indexRange start stop k).2 = ⌊S.basis.itransform q k⌋) := by
  obtain ⟨-, -, -, h4, h5⟩ := indexRange_fold S stop k (properAxes d)
    ((S.basis.itranslate start).1 k, (S.basis.itranslate stop).1 k)
  have hz : ∀ ax : List (Fin d), ∀ j, zeroAxes stop ax j = 0 ∨ zeroAxes stop ax j = stop j := by
    intro ax j
    unfold zeroAxes
    split_ifs <;> simp
  constructor
  · rcases h4 with h4 | ⟨ax, -, h4⟩
    · exact ⟨start, Or.inl rfl, h4⟩
    · exact ⟨_, Or.inr (hz ax), h4⟩
  · rcases h5 with h5 | ⟨ax, -, h5⟩
    · exact ⟨stop, fun j => Or.inr rfl, h5⟩
    · exact ⟨_, hz ax, h5⟩

theorem itransform_apply (b : LatticeBasis d ℝ) (x : Vec d ℝ) (k : Fin d) :
    b.itransform x k = ∑ j, b.Vinv k j * x j := rfl

/-- The searched window contains the cell of every site in the box, if the `k`-th lattice
coordinate grows in all directions, or the box is in the first orthant and the coordinate does not
decrease in some direction. -/
theorem window_covers {S : Structure d ℝ} {start size p c : Vec d ℝ} {n : ℤ} {k : Fin d}
    (hp : ∀ j, start j ≤ p j ∧ p j ≤ start j + size j)
    (hk : (∀ j, 0 ≤ S.basis.Vinv k j) ∨
      ((∀ j, 0 ≤ start j) ∧ ∃ j, 0 ≤ S.basis.Vinv k j))
    (hc : 0 ≤ c k ∧ c k < 2) (hn : S.basis.itransform p k = c k + n) :
    (S.searchLimits start size k).1 ≤ n ∧ n < (S.searchLimits start size k).2 := by
  set stop : Vec d ℝ := fun k => start k + size k with hstop
  obtain ⟨h1, h2, h3⟩ := indexRange_bounds S start stop k
  have hlow : ∃ q, S.basis.itransform q k ≤ S.basis.itransform p k ∧
      (S.indexRange start stop k).1 ≤ ⌊S.basis.itransform q k⌋ := by
    by_cases hall : ∀ j, 0 ≤ S.basis.Vinv k j
    · refine ⟨start, ?_, h1⟩
      rw [itransform_apply, itransform_apply]
      exact Finset.sum_le_sum fun j _ => mul_le_mul_of_nonneg_left (hp j).1 (hall j)
    · rcases hk with hk | ⟨hs, j0, hj0⟩
      · exact absurd hk hall
      · push Not at hall
        obtain ⟨j1, hj1⟩ := hall
        refine ⟨_, ?_, (h3 (fun j => decide (0 ≤ S.basis.Vinv k j)) ⟨j0, by simpa using hj0⟩
          ⟨j1, by simpa using hj1⟩).1⟩
        rw [itransform_apply, itransform_apply]
        refine Finset.sum_le_sum fun j _ => ?_
        by_cases hj : 0 ≤ S.basis.Vinv k j
        · simp only [hj, decide_true, if_true, mul_zero]
          exact mul_nonneg hj ((hs j).trans (hp j).1)
        · simp only [hj, decide_false, Bool.false_eq_true, if_false]
          exact mul_le_mul_of_nonpos_left (hp j).2 (not_le.1 hj).le
  have hup : ∃ q, S.basis.itransform p k ≤ S.basis.itransform q k ∧
      ⌊S.basis.itransform q k⌋ ≤ (S.indexRange start stop k).2 := by
    by_cases hall : ∀ j, 0 ≤ S.basis.Vinv k j
    · refine ⟨stop, ?_, h2⟩
      rw [itransform_apply, itransform_apply]
      exact Finset.sum_le_sum fun j _ => mul_le_mul_of_nonneg_left (hp j).2 (hall j)
    · rcases hk with hk | ⟨hs, j0, hj0⟩
      · exact absurd hk hall
      · push Not at hall
        obtain ⟨j1, hj1⟩ := hall
        refine ⟨_, ?_, (h3 (fun j => decide (S.basis.Vinv k j < 0)) ⟨j1, by simpa using hj1⟩
          ⟨j0, by simpa using hj0⟩).2⟩
        rw [itransform_apply, itransform_apply]
        refine Finset.sum_le_sum fun j _ => ?_
        by_cases hj : S.basis.Vinv k j < 0
        · simp only [hj, decide_true, if_true, mul_zero]
          exact mul_nonpos_of_nonpos_of_nonneg hj.le ((hs j).trans (hp j).1)
        · simp only [hj, decide_false, Bool.false_eq_true, if_false]
          exact mul_le_mul_of_nonneg_left (hp j).2 (not_lt.1 hj)
  obtain ⟨q1, hq1, hq1'⟩ := hlow
  obtain ⟨q2, hq2, hq2'⟩ := hup
  unfold searchLimits
  rw [hn] at hq1 hq2
  constructor
  · have h4 : ((S.indexRange start stop k).1 : ℝ) ≤ S.basis.itransform q1 k := Int.le_floor.1 hq1'
    have h5 : (((S.indexRange start stop k).1 : ℤ) : ℝ) < ((n + 2 : ℤ) : ℝ) := by
      push_cast; linarith
    have h6 : (S.indexRange start stop k).1 < n + 2 := by exact_mod_cast h5
    change (S.indexRange start stop k).1 - 1 ≤ n
    omega
  · have h4 : n ≤ ⌊S.basis.itransform q2 k⌋ := by
      rw [Int.le_floor]; linarith
    change n < (S.indexRange start stop k).2 + 1
    omega

/-- The searched window is as large as the lattice coordinates of the box enlarged to the origin. -/
theorem window_bounds {S : Structure d ℝ} {start size : Vec d ℝ} (hle : ∀ j, start j ≤ start j + size j)
    {m M : ℤ} (hB : ∀ x : Vec d ℝ, (∀ i, min 0 (start i) ≤ x i ∧ x i ≤ max 0 (start i + size i)) →
      ∀ k, (m : ℝ) ≤ S.basis.itransform x k ∧ S.basis.itransform x k ≤ M) (k : Fin d) :
    m - 1 ≤ (S.searchLimits start size k).1 ∧ (S.searchLimits start size k).2 ≤ M + 1 := by
  obtain ⟨⟨q1, hq1, h1⟩, q2, hq2, h2⟩ := indexRange_attained S start (fun k => start k + size k) k
  have key : ∀ q : Vec d ℝ, (∀ j, q j = 0 ∨ q j = start j + size j) →
      ∀ i, min 0 (start i) ≤ q i ∧ q i ≤ max 0 (start i + size i) := by
    intro q hq i
    rcases hq i with h | h <;> rw [h]
    · exact ⟨min_le_left _ _, le_max_left _ _⟩
    · exact ⟨(min_le_right _ _).trans (hle i), le_max_right _ _⟩
  have hq1' : ∀ i, min 0 (start i) ≤ q1 i ∧ q1 i ≤ max 0 (start i + size i) := by
    rcases hq1 with rfl | hq1
    · exact fun i => ⟨min_le_right _ _, (hle i).trans (le_max_right _ _)⟩
    · exact key q1 hq1
  have h3 := (hB q1 hq1' k).1
  have h4 := (hB q2 (key q2 hq2) k).2
  unfold searchLimits
  dsimp only
  rw [h1, h2]
  constructor
  · have := Int.le_floor.2 h3
    omega
  · have : ⌊S.basis.itransform q2 k⌋ ≤ M := by
      have h5 : ((⌊S.basis.itransform q2 k⌋ : ℤ) : ℝ) ≤ M := (Int.floor_le _).trans h4
      exact_mod_cast h5
    omega

theorem indexWrap_of_lt (limits : Fin d → ℤ × ℤ) {bits : Option ℕ} {k : Fin d}
    (hw : match bits with
      | some w => 0 < w ∧ (limits k).2 - (limits k).1 ≤ 2 ^ (w - 1)
      | none => (limits k).2 - (limits k).1 ≤ 2 ^ 7 ∨ -1 ≤ (limits k).1)
    {i : ℤ} (h0 : 0 ≤ i) (hi : i < (limits k).2 - (limits k).1) : indexWrap limits bits i = i := by
  unfold indexWrap
  cases bits with
  | some w =>
    dsimp only at hw ⊢
    exact wrapSigned_of_lt hw.1 h0 (by omega)
  | none =>
    dsimp only at hw ⊢
    cases ht : minDtype ((List.finRange d).flatMap fun k => [(limits k).1, (limits k).2]) true with
    | none => rfl
    | some t =>
      dsimp only
      obtain ⟨hb, hb8, hm⟩ := minDtype_signed ht
      refine wrapSigned_of_lt hb h0 ?_
      rcases hw with hw | hw
      · have : (2 : ℤ) ^ 7 ≤ 2 ^ (t.bits - 1) := pow_le_pow_right₀ (by norm_num) (by omega)
        omega
      · have h1 := hm (limits k).2 (List.mem_flatMap.2 ⟨k, List.mem_finRange k, by simp⟩)
        have h2 := le_abs_self (limits k).2
        omega

/-- A box given by its size. -/
theorem buildIndices_size (hd : 0 < d) {S : Structure d ℝ} (hS : S.positions.length = S.numBase)
    (h0 : 0 < S.numBase) (size : Vec d ℝ) (isInt : Bool) (pos : Option (Vec d ℝ)) (bits : Option ℕ)
    {nv : List (Fin d → ℤ)}
    (hnv : vindices (S.searchLimits (pos.getD 0) size) (some ⟨0, hd⟩) bits = .ok nv) :
    ∃ r, S.buildIndices (.size (List.ofFn size) isInt) false pos true none bits = .ok r ∧
      ∀ idx, idx ∈ r.1 ↔ idx.cell ∈ nv ∧ (∃ b : ℕ, b < S.numBase ∧ idx.alpha = b) ∧
        ∀ k, pos.getD 0 k - 1 / 1000 ≤ S.sitePos idx k ∧
          S.sitePos idx k ≤ pos.getD 0 k + size k := by
  refine ⟨_, buildIndices_none hS h0 (nvecs := nv) ?_ ?_, ?_⟩
  · rw [buildTranslationVectors_eq _ hd]
    unfold buildRegion
    dsimp only
    rw [toVec_ofFn]
    simpa using hnv
  · intro points
    unfold checkError checkPoints
    rw [if_pos rfl]
    dsimp only
    rw [toVec_ofFn]
    rfl
  · intro idx
    dsimp only
    rw [List.mem_filter, mem_siteList, and_assoc]
    refine and_congr_right fun _ => and_congr_right fun _ => ?_
    unfold accepts
    dsimp only
    rw [toVec_ofFn]
    simp only [Bool.not_true, Bool.false_or, Bool.false_eq_true, if_false, decide_eq_true_eq]
    refine forall_congr' fun k => ?_
    have : pos.getD 0 k - 1 / 1000 + size k + 1 / 1000 = pos.getD 0 k + size k := by ring
    rw [this]

end Structure

end Lattpy
