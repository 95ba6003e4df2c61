import Verif.Lemmas.Spatial

/-! Normal form of the result of `KDTree.query`. -/

set_option autoImplicit false

namespace Lattpy

section
variable {α : Type*}

theorem filter_zip_true : ∀ (m j : ℕ) (r : List α),
    ((r.zip (List.replicate m true ++ List.replicate j false)).filter fun p => p.2).map
      (fun p => p.1) = r.take m
  | 0, j, r => by
      simp only [List.replicate_zero, List.nil_append, List.take_zero, List.map_eq_nil_iff,
        List.filter_eq_nil_iff]
      intro p hp
      have := List.of_mem_zip hp
      rw [List.mem_replicate] at this
      simp [this.2.2]
  | m + 1, j, [] => by simp
  | m + 1, j, a :: r => by
      simp [List.replicate_succ, filter_zip_true m j r]

theorem take_append_replicate (l : List α) (m w : ℕ) (a : α) (h1 : l.length ≤ m) (h2 : m ≤ w) :
    (l ++ List.replicate (w - l.length) a).take m = l ++ List.replicate (m - l.length) a := by
  rw [List.take_append, List.take_of_length_le h1, List.take_replicate]
  congr 2
  omega

theorem zipWith_eq_zip {β : Type*} (f : α → β → α × β) (l : List α) (l' : List β)
    (h : ∀ p ∈ l.zip l', f p.1 p.2 = (p.1, p.2)) : List.zipWith f l l' = l.zip l' := by
  have h1 : List.zipWith f l l' = (l.zip l').map (fun p => f p.1 p.2) := by
    simp [List.zip, List.map_zipWith]
  rw [h1]
  conv_rhs => rw [← List.map_id (l.zip l')]
  exact List.map_congr_left fun p hp => by rw [h p hp]; rfl

end

section
variable {K : Type*} [Field K] [LinearOrder K] [FloorRing K] [HasSqrt K]

omit [Field K] [FloorRing K] [HasSqrt K] in
theorem anyFinite_eq {ι : Type*} (w m : ℕ) (rows : List ι) (fin : ι → List K)
    (hm : ∀ i ∈ rows, (fin i).length ≤ m) (hw : m ≤ w)
    (hmax : m = 0 ∨ ∃ i ∈ rows, (fin i).length = m) :
    anyFiniteCols w (rows.map fun i => (fin i).map (fun x : K => (x : WithTop K)) ++
      List.replicate (w - (fin i).length) ⊤) =
    List.replicate m true ++ List.replicate (w - m) false := by
  apply List.ext_getElem?
  intro c
  simp only [anyFiniteCols, List.getElem?_map]
  by_cases hc : c < w
  · rw [List.getElem?_range hc, Option.map_some]
    by_cases hcm : c < m
    · rw [List.getElem?_append_left (by simpa using hcm), List.getElem?_replicate, if_pos hcm]
      congr 1
      obtain ⟨i, hi, hl⟩ : ∃ i ∈ rows, (fin i).length = m := by
        rcases hmax with h | h
        · omega
        · exact h
      rw [List.any_eq_true]
      refine ⟨_, List.mem_map.2 ⟨i, hi, rfl⟩, ?_⟩
      rw [List.getElem?_append_left (by simpa [hl] using hcm)]
      simp [hl, hcm]
    · rw [List.getElem?_append_right (by simpa using hcm), List.getElem?_replicate, if_pos
        (by simp; omega)]
      congr 1
      rw [List.any_eq_false]
      intro r hr
      obtain ⟨i, hi, rfl⟩ := List.mem_map.1 hr
      have := hm i hi
      rw [List.getElem?_append_right (by simp; omega), List.getElem?_replicate]
      simp
      split_ifs <;> simp
  · rw [List.getElem?_eq_none (by simpa using hc), List.getElem?_eq_none (by simp; omega)]
    rfl

/-- The maximal length of the rows. -/
theorem exists_max_length {ι : Type*} (rows : List ι) (f : ι → ℕ) :
    ∃ m, (∀ i ∈ rows, f i ≤ m) ∧ (m = 0 ∨ ∃ i ∈ rows, f i = m) := by
  induction rows with
  | nil => exact ⟨0, by simp, Or.inl rfl⟩
  | cons a rows ih =>
    obtain ⟨m, h1, h2⟩ := ih
    rcases le_total (f a) m with h | h
    · refine ⟨m, ?_, ?_⟩
      · intro i hi
        rcases List.mem_cons.1 hi with rfl | hi
        · exact h
        · exact h1 i hi
      · rcases h2 with h2 | ⟨i, hi, h2⟩
        · exact Or.inl h2
        · exact Or.inr ⟨i, by simp [hi], h2⟩
    · refine ⟨f a, ?_, Or.inr ⟨a, by simp, rfl⟩⟩
      intro i hi
      rcases List.mem_cons.1 hi with rfl | hi
      · exact le_rfl
      · exact (h1 i hi).trans h

/-- Rounding option of the query. -/
def rnd (decimals : Option ℕ) (x : K) : K :=
  match decimals with
  | none => x
  | some n => npRound n x

/-- The selection contract of `IsKNN`, without the layout of the result. -/
structure IsSel (n : ℕ) (dist : ℕ → K) (k : ℕ) (bound : WithTop K) (sel : List ℕ) : Prop where
  nodup : sel.Nodup
  length_le : sel.length ≤ k
  range : ∀ i ∈ sel, i < n ∧ (dist i : WithTop K) ≤ bound
  sorted : (sel.map dist).Pairwise (· ≤ ·)
  complete : ∀ i < n, (dist i : WithTop K) < bound → i ∉ sel →
      sel.length = k ∧ ∀ j ∈ sel, dist j ≤ dist i

/-- Normal form of `KDTree.query`: there is a selection `sel q` for every query point (the
library result), and the returned rows list the selection (without its first member when
`drop`) followed by padding. -/
theorem kdQuery_normal {d : ℕ} (env : Env K) (points : List (Vec d K)) (k : ℕ) (hk : 1 ≤ k)
    (maxDist : WithTop K) (x : List (Vec d K)) (decimals : Option ℕ)
    (includeZero compact : Bool) :
    ∃ (sel : Vec d K → List ℕ) (drop : Bool) (w : ℕ),
      (∀ q, IsSel points.length (pointDist points q) k maxDist (sel q)) ∧
      (drop = true ↔ includeZero = false ∧
        ∀ q ∈ x, ∃ j, (sel q).head? = some j ∧ pointDist points q j = 0) ∧
      (∀ q ∈ x, ((sel q).drop drop.toNat).length ≤ w) ∧ w ≤ k - drop.toNat ∧
      (compact = true → w = 0 ∨ ∃ q ∈ x, ((sel q).drop drop.toNat).length = w) ∧
      (compact = false → w = k - drop.toNat) ∧
      (kdQuery env points k maxDist x decimals includeZero compact).neighbors =
        x.map (fun q => (sel q).drop drop.toNat ++
          List.replicate (w - ((sel q).drop drop.toNat).length) points.length) ∧
      (kdQuery env points k maxDist x decimals includeZero compact).dists =
        x.map (fun q => ((sel q).drop drop.toNat).map
            (fun j => ((rnd decimals (pointDist points q j) : K) : WithTop K)) ++
          List.replicate (w - ((sel q).drop drop.toNat).length) ⊤) := by
  choose sel hsel using fun q => env.knn_spec points.length (pointDist points q) k maxDist
  have hS : ∀ q, IsSel points.length (pointDist points q) k maxDist (sel q) := fun q =>
    ⟨(hsel q).1, (hsel q).2.1, (hsel q).2.2.1, (hsel q).2.2.2.1, (hsel q).2.2.2.2.1⟩
  have hraw := fun q => (hsel q).2.2.2.2.2
  -- the drop decision
  set drop : Bool := !includeZero && x.all (fun q =>
    (((sel q).map (fun i => ((pointDist points q i : K) : WithTop K)) ++
      List.replicate (k - (sel q).length) ⊤).head? == some (0 : WithTop K))) with hdrop
  have hdrop' : drop = true ↔ includeZero = false ∧
        ∀ q ∈ x, ∃ j, (sel q).head? = some j ∧ pointDist points q j = 0 := by
    rw [hdrop, Bool.and_eq_true, List.all_eq_true]
    apply and_congr
    · simp
    · apply forall_congr'; intro q
      apply imp_congr_right; intro _
      cases h : sel q with
      | nil =>
        simp only [List.map_nil, List.nil_append, List.length_nil, List.head?_nil, beq_iff_eq]
        obtain ⟨k', rfl⟩ : ∃ k', k = k' + 1 := ⟨k - 1, by omega⟩
        simp [List.replicate_succ]
      | cons a l => simp
  set rest : Vec d K → List ℕ := fun q => (sel q).drop drop.toNat with hrest
  have hlen : ∀ q, (rest q).length ≤ k - drop.toNat := by
    intro q
    have := (hS q).length_le
    simp only [hrest, List.length_drop]
    omega
  -- layout after dropping
  have hD : ∀ q ∈ x, (((sel q).map (fun i : ℕ => ((pointDist points q i : K) : WithTop K)) ++
      List.replicate (k - (sel q).length) (⊤ : WithTop K)).drop drop.toNat) =
      (rest q).map (fun i : ℕ => ((pointDist points q i : K) : WithTop K)) ++
        List.replicate (k - drop.toNat - (rest q).length) ⊤ := by
    intro q hq
    have hl : drop.toNat ≤ (sel q).length := by
      cases hd : drop with
      | false => simp
      | true =>
        obtain ⟨j, hj, -⟩ := (hdrop'.1 hd).2 q hq
        cases h : sel q with
        | nil => simp [h] at hj
        | cons a l => simp
    rw [List.drop_append_of_le_length (by simpa using hl), ← List.map_drop]
    congr 2
    simp only [hrest, List.length_drop]
    omega
  have hN : ∀ q ∈ x, ((sel q ++
      List.replicate (k - (sel q).length) points.length).drop drop.toNat) =
      rest q ++ List.replicate (k - drop.toNat - (rest q).length) points.length := by
    intro q hq
    have hl : drop.toNat ≤ (sel q).length := by
      cases hd : drop with
      | false => simp
      | true =>
        obtain ⟨j, hj, -⟩ := (hdrop'.1 hd).2 q hq
        cases h : sel q with
        | nil => simp [h] at hj
        | cons a l => simp
    rw [List.drop_append_of_le_length (by simpa using hl)]
    congr 2
    simp only [hrest, List.length_drop]
    omega
  -- width
  obtain ⟨m, hm1, hm2⟩ := exists_max_length x fun q => (rest q).length
  have hmk : m ≤ k - drop.toNat := by
    rcases hm2 with h | ⟨q, -, h⟩
    · omega
    · rw [← h]; exact hlen q
  set w := if compact then m else k - drop.toNat with hw
  have hwk : w ≤ k - drop.toNat := by rw [hw]; split_ifs <;> omega
  have hmw : m ≤ w := by rw [hw]; split_ifs <;> omega
  -- the pipeline
  set NB : List (List ℕ) := x.map fun q =>
    rest q ++ List.replicate (k - drop.toNat - (rest q).length) points.length with hNB
  set DB : List (List (WithTop K)) := x.map fun q =>
    (rest q).map (fun i : ℕ => ((pointDist points q i : K) : WithTop K)) ++
        List.replicate (k - drop.toNat - (rest q).length) (⊤ : WithTop K) with hDB
  have hmask : anyFiniteCols (k - drop.toNat) DB =
      List.replicate m true ++ List.replicate (k - drop.toNat - m) false := by
    have := anyFinite_eq (k - drop.toNat) m x (fun q => (rest q).map (pointDist points q))
      (fun q hq => by simpa using hm1 q hq) hmk
      (by simpa using hm2)
    rw [← this, hDB]
    congr 1
    apply List.map_congr_left
    intro q _
    simp
  have hNB2 : maskCols (anyFiniteCols (k - drop.toNat) DB) NB = x.map fun q =>
      rest q ++ List.replicate (m - (rest q).length) points.length := by
    rw [hmask, maskCols, hNB, List.map_map]
    apply List.map_congr_left
    intro q hq
    simp only [Function.comp_apply]
    rw [filter_zip_true, take_append_replicate _ _ _ _ (hm1 q hq) hmk]
  have hDB2 : maskCols (anyFiniteCols (k - drop.toNat) DB) DB = x.map fun q =>
      (rest q).map (fun i : ℕ => ((pointDist points q i : K) : WithTop K)) ++
        List.replicate (m - (rest q).length) (⊤ : WithTop K) := by
    rw [hmask, maskCols]
    conv_lhs => rw [hDB]
    rw [List.map_map]
    apply List.map_congr_left
    intro q hq
    simp only [Function.comp_apply]
    rw [filter_zip_true]
    have := take_append_replicate ((rest q).map
      (fun i : ℕ => ((pointDist points q i : K) : WithTop K))) m (k - drop.toNat) ⊤
      (by simpa using hm1 q hq) hmk
    simpa using this
  have e1 : (x.map fun q => env.knn points.length (pointDist points q) k maxDist).map
      (fun r => r.map Prod.fst) = x.map fun q =>
        (sel q).map (fun i : ℕ => ((pointDist points q i : K) : WithTop K)) ++
          List.replicate (k - (sel q).length) (⊤ : WithTop K) := by
    rw [List.map_map]
    apply List.map_congr_left
    intro q _
    simp only [Function.comp_apply, hraw q, List.map_append, List.map_map, List.map_replicate]
    rfl
  have e2 : (x.map fun q => env.knn points.length (pointDist points q) k maxDist).map
      (fun r => r.map Prod.snd) = x.map fun q =>
        sel q ++ List.replicate (k - (sel q).length) points.length := by
    rw [List.map_map]
    apply List.map_congr_left
    intro q _
    simp only [Function.comp_apply, hraw q, List.map_append, List.map_map, List.map_replicate]
    congr 1
    simp [Function.comp_def]
  have e3 : (!includeZero && (x.map fun q =>
        (sel q).map (fun i : ℕ => ((pointDist points q i : K) : WithTop K)) ++
          List.replicate (k - (sel q).length) (⊤ : WithTop K)).all
            (fun r => r.head? == some (0 : WithTop K))) = drop := by
    rw [hdrop, List.all_map]
    rfl
  have e4 : (if drop = true then (x.map fun q =>
        (sel q).map (fun i : ℕ => ((pointDist points q i : K) : WithTop K)) ++
          List.replicate (k - (sel q).length) (⊤ : WithTop K)).map (List.drop 1) else
        x.map fun q => (sel q).map (fun i : ℕ => ((pointDist points q i : K) : WithTop K)) ++
          List.replicate (k - (sel q).length) (⊤ : WithTop K)) = DB := by
    rw [hDB, ← List.map_congr_left hD]
    cases drop <;> simp
  have e5 : (if drop = true then (x.map fun q =>
        sel q ++ List.replicate (k - (sel q).length) points.length).map (List.drop 1) else
        x.map fun q => sel q ++ List.replicate (k - (sel q).length) points.length) = NB := by
    rw [hNB, ← List.map_congr_left hN]
    cases drop <;> simp
  have e6 : (if drop = true then k - 1 else k) = k - drop.toNat := by cases drop <;> simp
  have e7 : List.zipWith (fun (nr : List ℕ) (dr : List (WithTop K)) =>
      List.zipWith (fun (n : ℕ) (e : WithTop K) =>
        if maxDist < ⊤ ∧ maxDist < e then (points.length, (⊤ : WithTop K)) else (n, e)) nr dr)
      NB DB = x.map fun q => (rest q ++ List.replicate (k - drop.toNat - (rest q).length)
        points.length).zip ((rest q).map (fun i : ℕ => ((pointDist points q i : K) : WithTop K)) ++
        List.replicate (k - drop.toNat - (rest q).length) (⊤ : WithTop K)) := by
    rw [hNB, hDB, List.zipWith_map, List.zipWith_self]
    apply List.map_congr_left
    intro q _
    rw [List.zipWith_append (by simp), List.zip_append (by simp)]
    congr 1
    · apply zipWith_eq_zip
      intro p hp
      obtain ⟨-, h2⟩ := List.of_mem_zip hp
      obtain ⟨i, hi, hi2⟩ := List.mem_map.1 h2
      have := ((hS q).range i (List.mem_of_mem_drop hi)).2
      rw [if_neg]
      rintro ⟨-, h4⟩
      rw [← hi2] at h4
      exact absurd this (not_le.2 h4)
    · apply zipWith_eq_zip
      intro p hp
      obtain ⟨h1, h2⟩ := List.of_mem_zip hp
      rw [List.mem_replicate] at h1 h2
      rw [h1.2, h2.2]
      split_ifs <;> rfl
  have e8 : (x.map fun q => (rest q ++ List.replicate (k - drop.toNat - (rest q).length)
        points.length).zip ((rest q).map (fun i : ℕ => ((pointDist points q i : K) : WithTop K)) ++
        List.replicate (k - drop.toNat - (rest q).length) (⊤ : WithTop K))).map
        (fun r => r.map Prod.fst) = NB := by
    rw [hNB, List.map_map]
    apply List.map_congr_left
    intro q _
    simp only [Function.comp_apply]
    rw [List.map_fst_zip (by simp)]
  have e9 : (x.map fun q => (rest q ++ List.replicate (k - drop.toNat - (rest q).length)
        points.length).zip ((rest q).map (fun i : ℕ => ((pointDist points q i : K) : WithTop K)) ++
        List.replicate (k - drop.toNat - (rest q).length) (⊤ : WithTop K))).map
        (fun r => r.map Prod.snd) = DB := by
    rw [hDB, List.map_map]
    apply List.map_congr_left
    intro q _
    simp only [Function.comp_apply]
    rw [List.map_snd_zip (by simp)]
  refine ⟨sel, drop, w, hS, hdrop', fun q hq => (hm1 q hq).trans hmw, hwk, ?_, ?_, ?_, ?_⟩
  · intro hc
    simp only [hw, hc, if_true]
    exact hm2
  · intro hc
    simp [hw, hc]
  · simp only [kdQuery, e1, e2, e3, e4, e5, e6, e7, e8, e9]
    cases compact with
    | true => simpa [hw, hrest] using hNB2
    | false => simp [hw, hNB, hrest]
  · simp only [kdQuery, e1, e2, e3, e4, e5, e6, e7, e8, e9]
    have : (if compact = true then maskCols (anyFiniteCols (k - drop.toNat) DB) DB else DB) =
        x.map fun q => (rest q).map (fun i : ℕ => ((pointDist points q i : K) : WithTop K)) ++
          List.replicate (w - (rest q).length) (⊤ : WithTop K) := by
      cases compact with
      | true => simpa [hw] using hDB2
      | false => simp [hw, hDB]
    rw [this]
    cases decimals with
    | none => rfl
    | some n =>
      dsimp only
      rw [List.map_map]
      apply List.map_congr_left
      intro q _
      simp [rnd, npRoundTop, Function.comp_def, hrest]

end

end Lattpy
