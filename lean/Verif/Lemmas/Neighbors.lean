import Verif.Lemmas.Levels
import Verif.Lemmas.KDTree
import Verif.Lemmas.Data
import Verif.Props.Spatial

/-! The neighbour tables computed for a finite set of sites. -/

set_option autoImplicit false
set_option linter.unusedSectionVars false

namespace Lattpy

variable {d : ℕ}

/-- Masking a row keeps the members satisfying `p` if only others are masked out. -/
theorem filter_masked {α : Type*} (p : α → Bool) : ∀ (s : List α) (M : List Bool),
    s.length = M.length →
    (∀ (c : ℕ) (e : α), s[c]? = some e → M[c]? = some false → p e = false) →
    (((s.zip M).filter fun q => q.2).map fun q => q.1).filter p = s.filter p
  | [], [], _, _ => rfl
  | a :: s, true :: M, hl, h => by
      have ih := filter_masked p s M (by simpa using hl) fun c e h1 h2 =>
        h (c + 1) e (by simpa using h1) (by simpa using h2)
      simp only [List.zip_cons_cons, List.filter_cons, if_true, List.map_cons, ih]
  | a :: s, false :: M, hl, h => by
      have ih := filter_masked p s M (by simpa using hl) fun c e h1 h2 =>
        h (c + 1) e (by simpa using h1) (by simpa using h2)
      have h0 : p a = false := h 0 a rfl rfl
      simp [List.zip_cons_cons, h0, ih]

theorem masked_sublist {α : Type*} : ∀ (s : List α) (M : List Bool),
    (((s.zip M).filter fun q => q.2).map fun q => q.1).Sublist s
  | [], _ => by simp
  | a :: s, [] => by simp
  | a :: s, true :: M => by
      simpa using masked_sublist s M
  | a :: s, false :: M => by
      simpa using (masked_sublist s M).trans (List.sublist_cons_self a s)

theorem masked_length {α : Type*} : ∀ (s : List α) (M : List Bool), s.length = M.length →
    (((s.zip M).filter fun q => q.2).map fun q => q.1).length = (M.filter fun b => b).length
  | [], [], _ => rfl
  | a :: s, true :: M, h => by
      have := masked_length s M (by simpa using h)
      simpa using this
  | a :: s, false :: M, h => by
      have := masked_length s M (by simpa using h)
      simpa using this

/-- An entry of a table with a finite distance. -/
noncomputable abbrev isLink (p : ℕ × WithTop ℝ) : Bool := decide (p.2 ≠ ⊤)

theorem filterRow_length (dm : List (List (List ℝ))) (indices : List (Idx d)) (a : ℤ)
    (row : List (ℕ × WithTop ℝ)) :
    (Structure.filterRow dm indices a row).length = row.length := by
  simp [Structure.filterRow]

theorem getElem?_gather_sorted (env : Env ℝ) (row : List (ℕ × WithTop ℝ)) :
    (gather row (env.argsort (row.map Prod.snd))).Perm row ∧
      ((gather row (env.argsort (row.map Prod.snd))).map Prod.snd).Pairwise (· ≤ ·) := by
  obtain ⟨h1, h2⟩ := env.argsort_spec (row.map Prod.snd)
  refine ⟨gather_perm _ _ (by simpa using h1), ?_⟩
  rw [← gather_map]
  exact h2

/-- The effect of `_filter_neighbors` on the rows of a table. -/
theorem filterNeighbors_rows (env : Env ℝ) (dm : List (List (List ℝ))) (indices : List (Idx d))
    (table : List (List (ℕ × WithTop ℝ))) (w : ℕ) (hl : table.length = indices.length)
    (hw : ∀ row ∈ table, row.length = w) :
    (Structure.filterNeighbors env dm indices table indices).length = table.length ∧
    ∃ w', ∀ (i : ℕ) (row : List (ℕ × WithTop ℝ)) (x : Idx d), table[i]? = some row →
      indices[i]? = some x →
      ∃ row', (Structure.filterNeighbors env dm indices table indices)[i]? = some row' ∧
        row'.length = w' ∧ (row'.map Prod.snd).Pairwise (· ≤ ·) ∧
        (row'.filter isLink).Perm
          ((Structure.filterRow dm indices x.alpha row).filter isLink) ∧
        ∀ e ∈ row', e ∈ Structure.filterRow dm indices x.alpha row ∨
          e = (indices.length, ⊤) := by
  set F := List.zipWith (fun row (x : Idx d) => Structure.filterRow dm indices x.alpha row) table
    indices with hF
  set sorted := F.map fun row => gather row (env.argsort (row.map Prod.snd)) with hsorted
  have hFl : F.length = table.length := by simp [hF, hl]
  have hsl : sorted.length = table.length := by simp [hsorted, hFl]
  have hrow : ∀ (i : ℕ) (row : List (ℕ × WithTop ℝ)) (x : Idx d), table[i]? = some row →
      indices[i]? = some x → sorted[i]? = some
        (gather (Structure.filterRow dm indices x.alpha row)
          (env.argsort ((Structure.filterRow dm indices x.alpha row).map Prod.snd))) := by
    intro i row x h1 h2
    simp [hsorted, hF, List.getElem?_zipWith, h1, h2]
  have hslen : ∀ s ∈ sorted, s.length = w := by
    intro s hs
    obtain ⟨f, hf, rfl⟩ := List.mem_map.1 hs
    rw [(getElem?_gather_sorted env f).1.length_eq]
    obtain ⟨i, hi, rfl⟩ := List.mem_iff_getElem.1 hf
    simp only [hF, List.getElem_zipWith, filterRow_length]
    exact hw _ (List.getElem_mem _)
  by_cases hall : (sorted.all fun row => row.all fun p => decide (p.2 ≠ ⊤)) = true
  · have hout : Structure.filterNeighbors env dm indices table indices =
        sorted.map fun row => row ++ [(indices.length, ⊤)] := by
      unfold Structure.filterNeighbors
      rw [if_pos hall]
    rw [hout]
    refine ⟨by simp [hsl], w + 1, ?_⟩
    intro i row x h1 h2
    have h3 := hrow i row x h1 h2
    obtain ⟨g1, g2⟩ := getElem?_gather_sorted env (Structure.filterRow dm indices x.alpha row)
    refine ⟨_, by rw [List.getElem?_map, h3]; rfl, ?_, ?_, ?_, ?_⟩
    · rw [List.length_append, hslen _ (List.mem_of_getElem? h3)]; rfl
    · rw [List.map_append, List.pairwise_append]
      exact ⟨g2, by simp, by simp⟩
    · rw [List.filter_append]
      simpa using g1.filter isLink
    · intro e he
      rcases List.mem_append.1 he with he | he
      · exact Or.inl (g1.mem_iff.1 he)
      · exact Or.inr (by simpa using he)
  · have hout : Structure.filterNeighbors env dm indices table indices =
        maskCols (anyFiniteCols (Structure.tableWidth sorted)
          (sorted.map fun r => r.map Prod.snd)) sorted := by
      unfold Structure.filterNeighbors
      rw [if_neg hall]
    set w0 := Structure.tableWidth sorted with hw0
    set M := anyFiniteCols w0 (sorted.map fun r => r.map Prod.snd) with hM
    rw [hout]
    refine ⟨by simp [maskCols, hsl], (M.filter fun b => b).length, ?_⟩
    intro i row x h1 h2
    have h3 := hrow i row x h1 h2
    obtain ⟨g1, g2⟩ := getElem?_gather_sorted env (Structure.filterRow dm indices x.alpha row)
    have hmem := List.mem_of_getElem? h3
    have hw0w : w0 = w := by
      rw [hw0]
      cases hs : sorted with
      | nil => rw [hs] at hmem; simp at hmem
      | cons a r => exact hslen a (by simp [hs])
    have hlen : (gather (Structure.filterRow dm indices x.alpha row)
          (env.argsort ((Structure.filterRow dm indices x.alpha row).map Prod.snd))).length =
          M.length := by
      rw [hslen _ hmem, hM, ← hw0w]; simp [anyFiniteCols]
    refine ⟨_, by rw [maskCols, List.getElem?_map, h3]; rfl, ?_, ?_, ?_, ?_⟩
    · exact masked_length _ _ hlen
    · exact g2.sublist ((masked_sublist _ _).map _)
    · rw [filter_masked isLink _ _ hlen]
      · exact g1.filter isLink
      · intro c e he hm
        by_contra hc
        rw [hM, anyFiniteCols, List.getElem?_map] at hm
        obtain ⟨c', hc1, hc2⟩ := Option.map_eq_some_iff.1 hm
        have hc' : c' = c := by
          obtain ⟨_, h⟩ := List.getElem?_eq_some_iff.1 hc1
          simpa using h.symm
        subst hc'
        rw [List.any_eq_false] at hc2
        refine hc2 _ (List.mem_map.2 ⟨_, hmem, rfl⟩) ?_
        rw [List.getElem?_map, he]
        simpa [isLink] using hc
    · intro e he
      exact Or.inl (g1.mem_iff.1 ((masked_sublist _ _).subset he))

theorem foldl_max_real (l : List ℝ) (a : ℝ) :
    (l.foldl max a = a ∨ l.foldl max a ∈ l) ∧ a ≤ l.foldl max a ∧ ∀ x ∈ l, x ≤ l.foldl max a := by
  induction l generalizing a with
  | nil => simp
  | cons b l ih =>
    obtain ⟨h1, h2, h3⟩ := ih (max a b)
    simp only [List.foldl_cons]
    refine ⟨?_, (le_max_left a b).trans h2, ?_⟩
    · rcases h1 with h1 | h1
      · rw [h1]
        rcases max_choice a b with h | h
        · exact Or.inl h
        · exact Or.inr (by simp [h])
      · exact Or.inr (by simp [h1])
    · intro x hx
      rcases List.mem_cons.1 hx with rfl | hx
      · exact (le_max_right a x).trans h2
      · exact h3 x hx

theorem foldl_min_real (l : List ℝ) (a : ℝ) :
    (l.foldl min a = a ∨ l.foldl min a ∈ l) ∧ l.foldl min a ≤ a ∧ ∀ x ∈ l, l.foldl min a ≤ x := by
  induction l generalizing a with
  | nil => simp
  | cons b l ih =>
    obtain ⟨h1, h2, h3⟩ := ih (min a b)
    simp only [List.foldl_cons]
    refine ⟨?_, h2.trans (min_le_left a b), ?_⟩
    · rcases h1 with h1 | h1
      · rw [h1]
        rcases min_choice a b with h | h
        · exact Or.inl h
        · exact Or.inr (by simp [h])
      · exact Or.inr (by simp [h1])
    · intro x hx
      rcases List.mem_cons.1 hx with rfl | hx
      · exact h2.trans (min_le_right a x)
      · exact h3 x hx

namespace Structure

/-- `x` is one of the distances at which atoms `a` and `b` are connected. -/
def Configured (A : Analysis d ℝ) (a b : ℤ) (x : ℝ) : Prop :=
  0 ≤ a ∧ 0 ≤ b ∧ ∃ row l, A.distMatrix[a.toNat]? = some row ∧ row[b.toNat]? = some l ∧ x ∈ l

/-- `y` is one of the distances found by the neighbour search of `analyze`. -/
def RawDistance (A : Analysis d ℝ) (y : ℝ) : Prop := ∃ row ∈ A.rawDistances, ∃ l ∈ row, y ∈ l

theorem IsAnalysis.mem_raw {S : Structure d ℝ} {cells m c A} (hA : IsAnalysis S cells m c A)
    {y : ℝ} : RawDistance A y ↔ ∃ a < S.numBase, ∃ b < S.numBase,
      y ∈ (S.levels cells a b).take m := by
  unfold RawDistance
  rw [hA.rawDistances]
  constructor
  · rintro ⟨row, h1, l, h2, h3⟩
    obtain ⟨a, ha, rfl⟩ := List.mem_map.1 h1
    obtain ⟨b, hb, rfl⟩ := List.mem_map.1 h2
    exact ⟨a, List.mem_range.1 ha, b, List.mem_range.1 hb, h3⟩
  · rintro ⟨a, ha, b, hb, h⟩
    exact ⟨_, List.mem_map.2 ⟨a, List.mem_range.2 ha, rfl⟩, _,
      List.mem_map.2 ⟨b, List.mem_range.2 hb, rfl⟩, h⟩

theorem IsAnalysis.raw_pos {S : Structure d ℝ} {cells m c A} (hA : IsAnalysis S cells m c A)
    {y : ℝ} (h : RawDistance A y) : 0 < y := by
  obtain ⟨a, _, b, _, h⟩ := hA.mem_raw.1 h
  exact (mem_levels.1 (List.mem_of_mem_take h)).1

theorem IsAnalysis.configured {S : Structure d ℝ} {cells m c A} (hA : IsAnalysis S cells m c A)
    {a b : ℤ} {x : ℝ} : Configured A a b x ↔ 0 ≤ a ∧ 0 ≤ b ∧ a.toNat < S.numBase ∧
      b.toNat < S.numBase ∧ x ∈ (S.levels cells a.toNat b.toNat).take (c.entry a.toNat b.toNat) := by
  unfold Configured
  rw [hA.distMatrix]
  constructor
  · rintro ⟨h0, h0', row, l, h1, h2, h3⟩
    rw [List.getElem?_map] at h1
    obtain ⟨a', ha, rfl⟩ := Option.map_eq_some_iff.1 h1
    rw [List.getElem?_map] at h2
    obtain ⟨b', hb, rfl⟩ := Option.map_eq_some_iff.1 h2
    obtain ⟨ha1, ha2⟩ := List.getElem?_eq_some_iff.1 ha
    obtain ⟨hb1, hb2⟩ := List.getElem?_eq_some_iff.1 hb
    simp only [List.length_range, List.getElem_range] at ha1 ha2 hb1 hb2
    subst ha2 hb2
    exact ⟨h0, h0', ha1, hb1, h3⟩
  · rintro ⟨h0, h0', ha, hb, h⟩
    exact ⟨h0, h0', _, _, by rw [List.getElem?_map, List.getElem?_range ha]; rfl,
      by rw [List.getElem?_map, List.getElem?_range hb]; rfl, h⟩

theorem IsAnalysis.configured_symm {S : Structure d ℝ} {cells m c A}
    (hA : IsAnalysis S cells m c A) (hc : ∀ i j, c.entry i j = c.entry j i)
    (hl : ∀ a b, S.levels cells a b = S.levels cells b a) {a b : ℤ} {x : ℝ} :
    Configured A a b x ↔ Configured A b a x := by
  rw [hA.configured, hA.configured, hc, hl]
  tauto

/-- Every configured distance occurs in `_distances`. -/
theorem IsAnalysis.mem_distances {S : Structure d ℝ} {cells m c A} (hA : IsAnalysis S cells m c A)
    {a b : ℤ} {x : ℝ} (h : Configured A a b x) : x ∈ A.distances.flatten := by
  obtain ⟨-, -, ha, hb, h⟩ := hA.configured.1 h
  obtain ⟨hx, n, hn, hxn⟩ := mem_levels.1 (List.mem_of_mem_take h)
  have hal : a.toNat < A.base.length := by rw [hA.base_length]; exact ha
  obtain ⟨hwf, -, hD⟩ := hA.base a.toNat _ (List.getElem?_eq_getElem hal)
  have hp := (hD x (Idx.mk n (b.toNat : ℤ))).2 ⟨b.toNat, hb, n, hn, rfl, hxn, h⟩
  have hk : x ∈ NDict.keys A.base[a.toNat] := by
    rw [NDict.mem_pairs] at hp
    obtain ⟨xs, hxs, _⟩ := hp
    exact List.mem_map.2 ⟨_, hxs, rfl⟩
  rw [List.mem_flatten, hA.distances]
  refine ⟨_, List.mem_map.2 ⟨_, List.getElem_mem hal, rfl⟩, ?_⟩
  unfold padDists
  exact List.mem_append_left _ ((List.mem_insertionSort _).2 hk)

theorem IsAnalysis.distances_nonneg {S : Structure d ℝ} {cells m c A}
    (hA : IsAnalysis S cells m c A) {x : ℝ} (h : x ∈ A.distances.flatten) :
    x = 0 ∨ ∃ a b, Configured A a b x := by
  rw [List.mem_flatten, hA.distances] at h
  obtain ⟨l, hl, hx⟩ := h
  obtain ⟨D, hD, rfl⟩ := List.mem_map.1 hl
  unfold padDists at hx
  rcases List.mem_append.1 hx with hx | hx
  · right
    rw [List.mem_insertionSort] at hx
    obtain ⟨a, ha, rfl⟩ := List.mem_iff_getElem.1 hD
    obtain ⟨hwf, -, hDp⟩ := hA.base a _ (List.getElem?_eq_getElem ha)
    obtain ⟨⟨y, ys⟩, hy, rfl⟩ := List.mem_map.1 hx
    have hne : ys ≠ [] := hwf.2 _ hy
    obtain ⟨z, hz⟩ := List.exists_mem_of_ne_nil ys hne
    have hp : (y, z) ∈ NDict.pairs A.base[a] := NDict.mem_pairs.2 ⟨ys, hy, hz⟩
    obtain ⟨b, hb, n, hn, -, -, h⟩ := (hDp y z).1 hp
    refine ⟨(a : ℤ), (b : ℤ), hA.configured.2 ⟨by simp, by simp, ?_, by simpa using hb, by
      simpa using h⟩⟩
    rw [← hA.base_length]
    simpa using ha
  · left
    exact (List.mem_replicate.1 hx).2

/-- The query parameters of a consistent analysis. -/
theorem IsAnalysis.queryParams {S : Structure d ℝ} {cells m c A} (hA : IsAnalysis S cells m c A)
    {k : ℕ} {maxDist : ℝ} (h : queryParams A = .ok (k, maxDist)) :
    k = (A.rawNum.map List.sum).sum + 1 ∧ 2 ≤ k ∧ 0 < maxDist ∧
    ∃ M y, maxDist = M + 1 / 10 * y ∧ RawDistance A y ∧ (∀ z, RawDistance A z → y ≤ z) ∧
      (M = 0 ∨ ∃ a b, Configured A a b M) ∧ ∀ a b x, Configured A a b x → x ≤ M := by
  have hraw : ∀ z, z ∈ A.rawDistances.flatten.flatten ↔ RawDistance A z := by
    intro z
    unfold RawDistance
    simp only [List.mem_flatten]
    constructor
    · rintro ⟨l, ⟨row, h1, h2⟩, h3⟩; exact ⟨row, h1, l, h2, h3⟩
    · rintro ⟨row, h1, l, h2, h3⟩; exact ⟨l, ⟨row, h1, h2⟩, h3⟩
  unfold Structure.queryParams at h
  cases hd1 : A.distances.flatten with
  | nil => simp [hd1] at h
  | cons x xs =>
  cases hr1 : A.rawDistances.flatten.flatten with
  | nil => simp [hd1, hr1] at h
  | cons y ys =>
  simp only [hd1, hr1] at h
  split_ifs at h with hlen
  cases h
  obtain ⟨m1, m2, m3⟩ := foldl_max_real xs x
  obtain ⟨n1, n2, n3⟩ := foldl_min_real ys y
  have hM : xs.foldl max x ∈ A.distances.flatten := by
    rw [hd1]
    rcases m1 with h | h
    · rw [h]; simp
    · simp [h]
  have hy : RawDistance A (ys.foldl min y) := by
    rw [← hraw, hr1]
    rcases n1 with h | h
    · rw [h]; simp
    · simp [h]
  have hypos := hA.raw_pos hy
  have hMnn : 0 ≤ xs.foldl max x := by
    rcases hA.distances_nonneg hM with h | ⟨a, b, h⟩
    · rw [h]
    · exact (mem_levels.1 (List.mem_of_mem_take (hA.configured.1 h).2.2.2.2)).1.le
  refine ⟨rfl, ?_, by positivity, _, _, rfl, hy, ?_, hA.distances_nonneg hM, ?_⟩
  · obtain ⟨a, ha, b, hb, hl⟩ := hA.mem_raw.1 hy
    obtain ⟨-, n, hn, hxn⟩ := mem_levels.1 (List.mem_of_mem_take hl)
    have h1 : 0 < (cells.filter fun n => decide (S.siteDist a b n ∈
        (S.levels cells a b).take m)).length := by
      rw [List.length_pos_iff_exists_mem]
      exact ⟨n, List.mem_filter.2 ⟨hn, by rw [← hxn]; simpa using hl⟩⟩
    have h2 : (cells.filter fun n => decide (S.siteDist a b n ∈
        (S.levels cells a b).take m)).length ≤ (A.rawNum.map List.sum).sum := by
      rw [hA.rawNum, List.map_map]
      refine le_trans ?_ (List.single_le_sum (by simp) _
        (List.mem_map.2 ⟨a, List.mem_range.2 ha, rfl⟩))
      exact List.single_le_sum (by simp) _ (List.mem_map.2 ⟨b, List.mem_range.2 hb, rfl⟩)
    omega
  · intro z hz
    rw [← hraw, hr1] at hz
    rcases List.mem_cons.1 hz with rfl | hz
    · exact n2
    · exact n3 z hz
  · intro a b z hz
    have := hA.mem_distances hz
    rw [hd1] at this
    rcases List.mem_cons.1 this with rfl | h
    · exact m2
    · exact m3 z h

/-- The query parameters exist if the neighbour search found all requested distances. -/
theorem IsAnalysis.queryParams_ok {S : Structure d ℝ} {cells m c A} (hA : IsAnalysis S cells m c A)
    (hm : 0 < m) (hn : 0 < S.numBase)
    (hl : ∀ a < S.numBase, ∀ b < S.numBase, m ≤ (S.levels cells a b).length)
    {a b : ℤ} {x : ℝ} (hx : Configured A a b x) :
    ∃ k maxDist, Structure.queryParams A = .ok (k, maxDist) := by
  have hlen : ∀ l ∈ A.rawDistances.flatten.map List.length, l = m := by
    intro l h
    obtain ⟨L, hL, rfl⟩ := List.mem_map.1 h
    obtain ⟨row, hrow, hL⟩ := List.mem_flatten.1 hL
    rw [hA.rawDistances] at hrow
    obtain ⟨a, ha, rfl⟩ := List.mem_map.1 hrow
    obtain ⟨b, hb, rfl⟩ := List.mem_map.1 hL
    rw [List.length_take]
    exact min_eq_left (hl a (List.mem_range.1 ha) b (List.mem_range.1 hb))
  have hraw : ∃ y, y ∈ A.rawDistances.flatten.flatten := by
    have h0 := hl 0 hn 0 hn
    have h1 : 0 < ((S.levels cells 0 0).take m).length := by rw [List.length_take]; omega
    obtain ⟨y, hy⟩ := List.length_pos_iff_exists_mem.1 h1
    obtain ⟨row, hr, l, hl', h⟩ := hA.mem_raw.2 ⟨0, hn, 0, hn, hy⟩
    exact ⟨y, List.mem_flatten.2 ⟨l, List.mem_flatten.2 ⟨row, hr, hl'⟩, h⟩⟩
  have hd1 := hA.mem_distances hx
  obtain ⟨y, hy⟩ := hraw
  unfold Structure.queryParams
  cases e1 : A.distances.flatten with
  | nil => rw [e1] at hd1; simp at hd1
  | cons u us =>
  cases e2 : A.rawDistances.flatten.flatten with
  | nil => rw [e2] at hy; simp at hy
  | cons v vs =>
  refine ⟨_, _, if_pos ?_⟩
  rw [List.all_eq_true]
  intro l h
  rw [decide_eq_true_eq]
  generalize A.rawDistances.flatten.map List.length = Z at h hlen
  cases Z with
  | nil => simp at h
  | cons z zs => rw [hlen l h, List.head?_cons, hlen z (by simp)]

theorem connectedAt_iff {S : Structure d ℝ} {cells m c A} (hA : IsAnalysis S cells m c A)
    {a b : ℤ} (ha : 0 ≤ a ∧ a < S.numBase) (hb : 0 ≤ b ∧ b < S.numBase) (x : ℝ) :
    connectedAt A.distMatrix a b (x : WithTop ℝ) = true ↔ Configured A a b x := by
  have ha' : a.toNat < S.numBase := by omega
  have hb' : b.toNat < S.numBase := by omega
  have hlen : A.distMatrix.length = S.numBase := by rw [hA.distMatrix]; simp
  rw [hA.configured]
  unfold connectedAt
  rw [if_pos ⟨ha.1, hb.1⟩, hA.distMatrix, List.getElem?_map, List.getElem?_range ha']
  simp only [Option.map_some]
  rw [if_neg (by simp; omega), List.getElem?_map, List.getElem?_range hb']
  simp only [Option.map_some, List.any_eq_true, decide_eq_true_eq, WithTop.coe_inj]
  constructor
  · rintro ⟨y, hy, rfl⟩; exact ⟨ha.1, hb.1, ha', hb', hy⟩
  · rintro ⟨-, -, -, -, h⟩; exact ⟨x, h, rfl⟩

theorem filterRow_links (dm : List (List (List ℝ))) (indices : List (Idx d)) (a : ℤ)
    (sel : List ℕ) (dist : ℕ → ℝ) (m : ℕ) :
    ((filterRow dm indices a ((sel ++ List.replicate m indices.length).zip
      (sel.map (fun j => ((dist j : ℝ) : WithTop ℝ)) ++ List.replicate m ⊤))).filter isLink =
      (sel.filter fun j => connectedAt dm a (alphaOf indices j) (dist j)).map
        fun j => (j, ((dist j : ℝ) : WithTop ℝ))) ∧
    ∀ e ∈ filterRow dm indices a ((sel ++ List.replicate m indices.length).zip
      (sel.map (fun j => ((dist j : ℝ) : WithTop ℝ)) ++ List.replicate m ⊤)),
      e.2 = ⊤ → e.1 = indices.length := by
  have hz : (sel ++ List.replicate m indices.length).zip
      (sel.map (fun j => ((dist j : ℝ) : WithTop ℝ)) ++ List.replicate m ⊤) =
      sel.map (fun j => (j, ((dist j : ℝ) : WithTop ℝ))) ++
        List.replicate m (indices.length, ⊤) := by
    rw [List.zip_append (by simp)]
    congr 1
    · induction sel with
      | nil => rfl
      | cons a l ih => simpa using ih
    · simp [List.zip_replicate']
  rw [hz]
  have hpad : filterRow dm indices a (List.replicate m (indices.length, ⊤)) =
      List.replicate m (indices.length, ⊤) := by
    unfold filterRow
    rw [List.map_replicate]
    simp [alphaOf, connectedAt]
  have happ : ∀ l l' : List (ℕ × WithTop ℝ), filterRow dm indices a (l ++ l') =
      filterRow dm indices a l ++ filterRow dm indices a l' := by
    intro l l'; simp [filterRow]
  rw [happ, hpad]
  constructor
  · rw [List.filter_append]
    have h1 : (List.replicate m (indices.length, (⊤ : WithTop ℝ))).filter isLink = [] := by
      rw [List.filter_eq_nil_iff]
      intro e he
      rw [List.eq_of_mem_replicate he]
      simp
    rw [h1, List.append_nil]
    clear hz
    induction sel with
    | nil => rfl
    | cons j l ih =>
      unfold filterRow at ih ⊢
      rw [List.map_cons, List.map_cons, List.filter_cons, ih, List.filter_cons]
      dsimp only
      by_cases hc : connectedAt dm a (alphaOf indices j) (dist j) = true
      · simp [hc]
      · simp [hc]
  · intro e he htop
    rcases List.mem_append.1 he with he | he
    · unfold filterRow at he
      obtain ⟨p, hp, rfl⟩ := List.mem_map.1 he
      obtain ⟨j, hj, rfl⟩ := List.mem_map.1 hp
      dsimp only at htop ⊢
      split_ifs at htop ⊢ with h
      · exact absurd htop (by simp)
      · rfl
    · rw [List.eq_of_mem_replicate he]

/-- The rows of the table of `compute_neighbors`: `sel` is the selection of the tree query. -/
theorem computeNeighbors_rows (env : Env ℝ) {S : Structure d ℝ} {cells m c A}
    (hA : IsAnalysis S cells m c A) (hSA : S.analysis = some A) {k : ℕ} {maxDist : ℝ}
    (hq : Structure.queryParams A = .ok (k, maxDist)) (indices : List (Idx d))
    (positions : List (Vec d ℝ)) (hlen : indices.length = positions.length)
    (hnd : positions.Nodup) :
    ∃ table : List (List (ℕ × WithTop ℝ)), computeNeighbors env S indices positions = .ok table ∧
      table.length = positions.length ∧ ∃ width, ∀ (i : ℕ) (p : Vec d ℝ) (x : Idx d),
        positions[i]? = some p → indices[i]? = some x → ∃ (row : List (ℕ × WithTop ℝ)) (sel : List ℕ),
          table[i]? = some row ∧ row.length = width ∧ (row.map Prod.snd).Pairwise (· ≤ ·) ∧
          (∀ e ∈ row, e.2 = ⊤ → e.1 = positions.length) ∧
          (row.filter isLink).Perm ((sel.filter fun j => connectedAt A.distMatrix x.alpha
            (alphaOf indices j) (distance (positions.getD j 0) p (some 6) : ℝ)).map
              fun j => (j, ((distance (positions.getD j 0) p (some 6) : ℝ) : WithTop ℝ))) ∧
          sel.Nodup ∧
          (∀ j ∈ sel, j ≠ i ∧ j < positions.length ∧ distance (positions.getD j 0) p ≤ maxDist) ∧
          sel.length + 1 ≤ k ∧
          (∀ j < positions.length, j ≠ i → distance (positions.getD j 0) p < maxDist → j ∉ sel →
            sel.length + 1 = k ∧ ∀ a ∈ sel,
              distance (positions.getD a 0) p ≤ distance (positions.getD j 0) p) ∧
          (∀ j < positions.length, j ≠ i → distance (positions.getD j 0) p < maxDist →
            ((List.range positions.length).filter fun a => decide
              (distance (positions.getD a 0) p ≤ distance (positions.getD j 0) p)).length ≤ k →
            j ∈ sel) := by
  obtain ⟨-, hk, hpos, -⟩ := hA.queryParams hq
  obtain ⟨q', hq', width, hrows⟩ := C17_query_neighbors env positions hnd k hk (maxDist : WithTop ℝ)
    (by exact_mod_cast hpos) (some distDecimals) true
  unfold kdTreeQuery at hq'
  rw [if_neg (by omega)] at hq'
  cases hq'
  set q := kdQuery env positions k (maxDist : WithTop ℝ) positions (some distDecimals) false true
    with hqdef
  set T := List.zipWith List.zip q.neighbors q.dists with hT
  have hql : q.neighbors.length = positions.length ∧ q.dists.length = positions.length := by
    obtain ⟨sel, drop, w, -, -, -, -, -, -, hN, hD⟩ :=
      kdQuery_normal env positions k (by omega) (maxDist : WithTop ℝ) positions
        (some distDecimals) false true
    rw [hqdef, hN, hD]
    simp
  have hTl : T.length = indices.length := by
    rw [hT, List.length_zipWith, hql.1, hql.2, hlen]; simp
  have hTrow : ∀ row ∈ T, row.length = width := by
    intro row hrow
    obtain ⟨i, hi, rfl⟩ := List.mem_iff_getElem.1 hrow
    have hi' : i < positions.length := by rw [← hlen, ← hTl]; exact hi
    obtain ⟨sel, h1, h2, h3, -⟩ := hrows i hi'
    have e1 := (List.getElem?_eq_some_iff.1 h1).2
    have e2 := (List.getElem?_eq_some_iff.1 h2).2
    simp only [hT, List.getElem_zipWith]
    rw [e1, e2]
    simp
    omega
  obtain ⟨hFl, w', hF⟩ := filterNeighbors_rows env A.distMatrix indices T width hTl hTrow
  refine ⟨filterNeighbors env A.distMatrix indices T indices, ?_, by rw [hFl, hTl, hlen], w', ?_⟩
  · unfold computeNeighbors
    simp only [hSA, hq]
    rfl
  intro i p x hp hx
  obtain ⟨hi, hpi⟩ := List.getElem?_eq_some_iff.1 hp
  obtain ⟨sel, h1, h2, h3, h4, h5, h6, h7, h8, h9⟩ := hrows i hi
  have hTi : T[i]? = some ((sel ++ List.replicate (width - sel.length) indices.length).zip
      (sel.map (fun j => ((distance (positions.getD j 0) p (some 6) : ℝ) : WithTop ℝ)) ++
        List.replicate (width - sel.length) ⊤)) := by
    rw [hT, List.getElem?_zipWith, h1, h2, hlen]
    simp only [hpi]
    rfl
  obtain ⟨row', g1, g2, g3, g4, g5⟩ := hF i _ x hTi hx
  obtain ⟨f1, f2⟩ := filterRow_links A.distMatrix indices x.alpha sel
    (fun j => distance (positions.getD j 0) p (some 6)) (width - sel.length)
  rw [f1] at g4
  rw [hpi] at h6 h8 h9
  refine ⟨row', sel, g1, g2, g3, ?_, g4, h4, ?_, h7, ?_, ?_⟩
  · intro e he htop
    rcases g5 e he with h | h
    · rw [← hlen]; exact f2 e h htop
    · rw [h, hlen]
  · intro j hj
    obtain ⟨a1, a2, a3⟩ := h6 j hj
    exact ⟨a1, a2, by exact_mod_cast a3⟩
  · intro j hj hji hlt
    exact h8 j hj hji (by exact_mod_cast hlt)
  · intro j hj hji hlt
    exact h9 j hj hji (by exact_mod_cast hlt)

end Structure

end Lattpy
