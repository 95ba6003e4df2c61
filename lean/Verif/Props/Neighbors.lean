import Verif.Lemmas.Neighbors
import Verif.Props.Build
import Verif.Props.Complete

/-!
# The neighbours of the sites of a finite lattice (C44, C45)
-/

set_option autoImplicit false
set_option linter.unusedSectionVars false

namespace Lattpy

open Structure World

variable {d : ℕ}

/-! ## spec -/

/-- The table lists site `j` as a neighbour of site `i` at distance `x`. -/
def Linked (table : List (List (ℕ × WithTop ℝ))) (i j : ℕ) (x : ℝ) : Prop :=
  ∃ row, table[i]? = some row ∧ (j, (x : WithTop ℝ)) ∈ row

/-- The number of points which are not farther from `p` than `q`. -/
noncomputable def closer (points : List (Vec d ℝ)) (p q : Vec d ℝ) : ℕ :=
  (points.filter fun r => decide (distance r p ≤ distance q p)).length

/-! ## lemmas -/

theorem filter_range_getD (points : List (Vec d ℝ)) (P : Vec d ℝ → Bool) :
    ((List.range points.length).filter fun a => P (points.getD a 0)).length =
      (points.filter P).length := by
  have h : points = (List.range points.length).map fun a => points.getD a 0 := by
    apply List.ext_getElem?
    intro i
    by_cases hi : i < points.length
    · simp [hi]
    · simp [hi]
  conv_rhs => rw [h, List.filter_map, List.length_map]
  rfl

theorem configured_comm (hd : 0 < d) {env : Env ℝ} {w : World d ℝ} (h : Reachable env w)
    {A : Analysis d ℝ} (hA : w.struct.analysis = some A) {a b : ℤ} {x : ℝ} :
    Configured A a b x ↔ Configured A b a x := by
  obtain ⟨cells, m, c, hcells, -, hsym, -, -, hI⟩ := (h.good hd).analysis A hA
  exact hI.configured_symm hsym (levels_comm _ fun n hn => cells_neg hcells hn)

theorem computeNeighbors_params {env : Env ℝ} {S : Structure d ℝ} {A : Analysis d ℝ}
    (hA : S.analysis = some A) {indices : List (Idx d)} {positions : List (Vec d ℝ)}
    {table : List (List (ℕ × WithTop ℝ))}
    (hok : computeNeighbors env S indices positions = .ok table) :
    ∃ k maxDist, queryParams A = .ok (k, maxDist) := by
  unfold computeNeighbors at hok
  cases hq : queryParams A with
  | error e => simp [hA, hq] at hok
  | ok v => exact ⟨v.1, v.2, rfl⟩

/-- Membership of links in a row in terms of the selection of the query. -/
theorem mem_links {row : List (ℕ × WithTop ℝ)} {sel : List ℕ} {P : ℕ → Bool} {dist : ℕ → ℝ}
    (h : (row.filter isLink).Perm ((sel.filter P).map fun j => (j, ((dist j : ℝ) : WithTop ℝ))))
    (j : ℕ) (x : ℝ) :
    (j, (x : WithTop ℝ)) ∈ row ↔ j ∈ sel ∧ P j = true ∧ x = dist j := by
  have h1 : (j, (x : WithTop ℝ)) ∈ row ↔ (j, (x : WithTop ℝ)) ∈ row.filter isLink := by
    rw [List.mem_filter]
    simp
  rw [h1, h.mem_iff, List.mem_map]
  constructor
  · rintro ⟨j', hj', e⟩
    rw [Prod.mk.injEq, WithTop.coe_inj] at e
    obtain ⟨rfl, rfl⟩ := e
    obtain ⟨a, b⟩ := List.mem_filter.1 hj'
    exact ⟨a, b, rfl⟩
  · rintro ⟨a, b, rfl⟩
    exact ⟨j, List.mem_filter.2 ⟨a, b⟩, rfl⟩

/-! ## C44 -/

/-- Soundness of `compute_neighbors` for arbitrary sites at different positions: the table has one
row per site, and site `j` is listed as neighbour of site `i` at distance `x` only if `j ≠ i`, `x`
is the rounded distance of the two sites and one of the configured distances of their atoms.
Completeness: all such sites `j` are listed, provided the number of sites which are not farther from
site `i` (including `i` and `j` themselves) does not exceed the number of neighbours requested from
the tree query (one more than the total number of raw neighbours of the unit cell), and all raw
distances of the unit cell are at least `5e-6`. -/
theorem C44_neighbors_partial (hd : 0 < d) {env : Env ℝ} {w : World d ℝ} (h : Reachable env w)
    {A : Analysis d ℝ} (hA : w.struct.analysis = some A) (indices : List (Idx d))
    (positions : List (Vec d ℝ)) (hlen : indices.length = positions.length)
    (hnd : positions.Nodup)
    (halpha : ∀ x ∈ indices, 0 ≤ x.alpha ∧ x.alpha < w.struct.numBase)
    {table : List (List (ℕ × WithTop ℝ))}
    (hok : computeNeighbors env w.struct indices positions = .ok table) :
    table.length = positions.length ∧
    (∀ (i j : ℕ) (x : ℝ), Linked table i j x → ∃ (p q : Vec d ℝ) (a b : Idx d),
      positions[i]? = some p ∧ positions[j]? = some q ∧ indices[i]? = some a ∧
      indices[j]? = some b ∧ i ≠ j ∧ x = distance q p (some 6) ∧
      Configured A a.alpha b.alpha x) ∧
    ((∀ y, RawDistance A y → 5 / 10 ^ 6 < y) →
      ∀ (i j : ℕ) (p q : Vec d ℝ) (a b : Idx d), positions[i]? = some p →
        positions[j]? = some q → indices[i]? = some a → indices[j]? = some b → i ≠ j →
        Configured A a.alpha b.alpha (distance q p (some 6)) →
        closer positions p q ≤ (A.rawNum.map List.sum).sum + 1 →
        Linked table i j (distance q p (some 6))) := by
  obtain ⟨cells, m, c, hcells, -, hsym, -, -, hI⟩ := (h.good hd).analysis A hA
  obtain ⟨k, maxDist, hq⟩ := computeNeighbors_params hA hok
  obtain ⟨t, ht, htl, width, hrows⟩ := computeNeighbors_rows env hI hA hq indices positions hlen hnd
  rw [hok] at ht
  cases ht
  obtain ⟨hk, -, -, M, y, hM, hy, -, -, hmax⟩ := hI.queryParams hq
  have hal : ∀ (j : ℕ) (b : Idx d), indices[j]? = some b → alphaOf indices j = b.alpha := by
    intro j b hb; simp [alphaOf, hb]
  refine ⟨htl, ?_, ?_⟩
  · rintro i j x ⟨row, hrow, hmem⟩
    have hi : i < positions.length := by
      rw [← htl]; exact (List.getElem?_eq_some_iff.1 hrow).1
    have hp : positions[i]? = some positions[i] := List.getElem?_eq_getElem hi
    have ha : indices[i]? = some indices[i] := List.getElem?_eq_getElem (by omega)
    obtain ⟨row', sel, r1, -, -, -, r5, -, r7, -⟩ := hrows i _ _ hp ha
    rw [hrow] at r1
    cases r1
    obtain ⟨h1, h2, h3⟩ := (mem_links r5 j x).1 hmem
    obtain ⟨hji, hj, -⟩ := r7 j h1
    have hb : indices[j]? = some indices[j] := List.getElem?_eq_getElem (by omega)
    rw [hal j _ hb, connectedAt_iff hI (halpha _ (List.getElem_mem _))
      (halpha _ (List.getElem_mem _))] at h2
    have hg : positions.getD j 0 = positions[j] := by simp [hj]
    rw [hg] at h2 h3
    exact ⟨_, _, _, _, hp, List.getElem?_eq_getElem hj, ha, hb, hji.symm, h3, by
      rw [h3]; exact h2⟩
  · intro hres i j p q a b hp hq' ha hb hij hconf hcount
    obtain ⟨row, sel, r1, -, -, -, r5, -, -, -, -, r10⟩ := hrows i p a hp ha
    have hj : j < positions.length := (List.getElem?_eq_some_iff.1 hq').1
    have hg : positions.getD j 0 = q := by
      rw [List.getD_eq_getElem?_getD, hq']; rfl
    refine ⟨row, r1, (mem_links r5 j _).2 ⟨?_, ?_, by rw [hg]⟩⟩
    · refine r10 j hj hij.symm ?_ ?_
      · rw [hg, hM]
        have h1 := hmax _ _ _ hconf
        have h2 := hres y hy
        rw [distance_some] at h1
        have h3 := abs_le.1 (abs_npRound_sub_le 6 (distance q p))
        have h4 : (1 : ℝ) / 2 / 10 ^ 6 = 5 / 10 ^ 6 / 10 := by norm_num
        linarith [h3.1]
      · rw [hg, hk]
        refine le_trans (le_of_eq ?_) hcount
        exact filter_range_getD positions fun r => decide (distance r p ≤ distance q p)
    · rw [hal j b hb, hg, connectedAt_iff hI (halpha _ (List.mem_of_getElem? ha))
        (halpha _ (List.mem_of_getElem? hb))]
      exact hconf

theorem isShell_of_le {S : Structure d ℝ} {a b k : ℕ} {x y : ℝ} (hx : IsShell S a b k x)
    (hy : IsLevel S a b y) (hle : y ≤ x) : IsShell S a b k y := by
  have hsub : {z | IsLevel S a b z ∧ z < y} ⊆ {z | IsLevel S a b z ∧ z < x} :=
    fun _ hz => ⟨hz.1, hz.2.trans_le hle⟩
  exact ⟨hy, lt_of_le_of_lt (Set.encard_le_encard hsub) hx.2⟩

/-- Distances between sites of a lattice with one atom. -/
theorem one_atom_dist {S : Structure d ℝ} {p0 : Vec d ℝ} (hp0 : S.positions = [p0])
    {a b : Idx d} {p q : Vec d ℝ} (hp : IsSitePos S a p) (hq : IsSitePos S b q) :
    a.alpha = 0 ∧ b.alpha = 0 ∧ distance q p = latNorm S.basis (b.cell - a.cell) := by
  have key : ∀ (a : Idx d) (p : Vec d ℝ), IsSitePos S a p → a.alpha = 0 ∧
      p = fun k => p0 k + ∑ i, (a.cell i : ℝ) * S.basis.vectors i k := by
    rintro a p ⟨n, r, h1, h2, h3⟩
    rw [hp0] at h2
    obtain ⟨hn, hr⟩ := List.getElem?_eq_some_iff.1 h2
    have hn0 : n = 0 := by simpa using hn
    subst hn0
    simp only [List.getElem_cons_zero] at hr
    subst hr
    exact ⟨by rw [h1]; rfl, h3⟩
  obtain ⟨ha, hpa⟩ := key a p hp
  obtain ⟨hb, hqb⟩ := key b q hq
  refine ⟨ha, hb, ?_⟩
  unfold latNorm
  rw [distance_eq_dist, dist_eq_norm, norm2_eq_norm, hpa, hqb]
  congr 1
  ext k
  simp only [PiLp.sub_apply, Pi.sub_apply, Int.cast_sub, sub_mul, Finset.sum_sub_distrib]
  ring

/-- C44 for lattices with one atom: if the unit-cell analysis is complete (the conclusion of
`C34_one_atom_partial` and `C34_hypercubic_partial`) and no two lattice sites are closer than `1e-5`,
then the table of `compute_neighbors` for any finite set of lattice sites lists exactly the pairs
whose rounded distance is one of the `K` smallest distances of the infinite lattice. -/
theorem C44_one_atom_partial (hd : 0 < d) {env : Env ℝ} {w : World d ℝ} (h : Reachable env w)
    {A : Analysis d ℝ} (hA : w.struct.analysis = some A) {p0 : Vec d ℝ}
    (hp0 : w.struct.positions = [p0]) {K : ℕ}
    (hcompl : ∀ (x : ℝ) (n : Fin d → ℤ), Listed A 0 x (Idx.mk n ((0 : ℕ) : ℤ)) ↔
      x = npRound 6 (latNorm w.struct.basis n) ∧ IsShell w.struct 0 0 K x)
    (hsep : ∀ n : Fin d → ℤ, n ≠ 0 → 1 / 10 ^ 5 ≤ latNorm w.struct.basis n)
    (indices : List (Idx d)) (positions : List (Vec d ℝ))
    (hlen : indices.length = positions.length) (hind : indices.Nodup)
    (hsites : ∀ (i : ℕ) (a : Idx d) (p : Vec d ℝ), indices[i]? = some a →
      positions[i]? = some p → IsSitePos w.struct a p)
    {table : List (List (ℕ × WithTop ℝ))}
    (hok : computeNeighbors env w.struct indices positions = .ok table) :
    table.length = positions.length ∧
    ∀ (i j : ℕ) (x : ℝ), Linked table i j x ↔ i ≠ j ∧ ∃ (p q : Vec d ℝ),
      positions[i]? = some p ∧ positions[j]? = some q ∧ x = distance q p (some 6) ∧
      IsShell w.struct 0 0 K x := by
  obtain ⟨cells, m, c, hcells, hcs, hsym, hcm, hn0, hI⟩ := (h.good hd).analysis A hA
  have hnum : w.struct.numBase = 1 := by rw [← (h.good hd).positions_length, hp0]; rfl
  have hpos0 : w.struct.positions[0]? = some p0 := by rw [hp0]; rfl
  have hsd : ∀ n, w.struct.siteDist 0 0 n = npRound 6 (latNorm w.struct.basis n) := by
    intro n
    rw [siteDist_eq hpos0 hpos0, distance_some]
    congr 1
    unfold latNorm
    rw [distance_eq_dist, dist_eq_norm, norm2_eq_norm]
    congr 1
    ext k
    simp
  have hidx : ∀ {i : ℕ} {p : Vec d ℝ}, positions[i]? = some p → ∃ a, indices[i]? = some a := by
    intro i p hp
    have := (List.getElem?_eq_some_iff.1 hp).1
    exact ⟨_, List.getElem?_eq_getElem (by omega)⟩
  -- the cells of two different sites are different
  have hcell : ∀ {i j : ℕ} {a b : Idx d} {p q : Vec d ℝ}, indices[i]? = some a →
      indices[j]? = some b → positions[i]? = some p → positions[j]? = some q → i ≠ j →
      b.cell - a.cell ≠ 0 := by
    intro i j a b p q ha hb hp hq hij he
    obtain ⟨h1, h2, -⟩ := one_atom_dist hp0 (hsites _ _ _ ha hp) (hsites _ _ _ hb hq)
    have : a = b := by
      rw [← Idx.mk_cell_alpha a, ← Idx.mk_cell_alpha b, h1, h2, sub_eq_zero.1 he]
    rw [this] at ha
    obtain ⟨hi, ha'⟩ := List.getElem?_eq_some_iff.1 ha
    obtain ⟨hj, hb'⟩ := List.getElem?_eq_some_iff.1 hb
    exact hij ((hind.getElem_inj_iff).1 (ha'.trans hb'.symm))
  have hround : ∀ n : Fin d → ℤ, n ≠ 0 → 1 / 10 ^ 5 ≤ npRound 6 (latNorm w.struct.basis n) := by
    intro n hn
    have h1 := npRound_mono (n := 6) (hsep n hn)
    have h2 := npRound_of_int (K := ℝ) 6 10
    norm_num at h1 h2 ⊢
    rw [h2] at h1
    exact h1
  have hnd : positions.Nodup := by
    rw [List.nodup_iff_getElem?_ne_getElem?]
    intro i j hij hj he
    have hp : positions[i]? = some positions[i] := List.getElem?_eq_getElem (by omega)
    have hq : positions[j]? = some positions[j] := List.getElem?_eq_getElem hj
    obtain ⟨a, ha⟩ := hidx hp
    obtain ⟨b, hb⟩ := hidx hq
    have h1 := hcell ha hb hp hq hij.ne
    obtain ⟨-, -, h2⟩ := one_atom_dist hp0 (hsites _ _ _ ha hp) (hsites _ _ _ hb hq)
    rw [hp, hq, Option.some_inj] at he
    rw [he, distance_self] at h2
    have := hsep _ h1
    rw [← h2] at this
    norm_num at this
  have halpha : ∀ x ∈ indices, 0 ≤ x.alpha ∧ x.alpha < w.struct.numBase := by
    intro x hx
    obtain ⟨i, hi, rfl⟩ := List.mem_iff_getElem.1 hx
    have hp : positions[i]? = some (positions[i]'(by omega)) := List.getElem?_eq_getElem _
    have hs := hsites i _ _ (List.getElem?_eq_getElem hi) hp
    obtain ⟨h1, -⟩ := one_atom_dist hp0 hs hs
    rw [h1, hnum]
    norm_num
  have hres : ∀ y, RawDistance A y → 5 / 10 ^ 6 < y := by
    intro y hy
    obtain ⟨a, ha, b, hb, hyl⟩ := hI.mem_raw.1 hy
    have ha0 : a = 0 := by omega
    have hb0 : b = 0 := by omega
    subst ha0 hb0
    obtain ⟨hy0, n, -, hyn⟩ := mem_levels.1 (List.mem_of_mem_take hyl)
    rw [hsd] at hyn
    have hn : n ≠ 0 := by
      rintro rfl
      have : latNorm w.struct.basis 0 = 0 := by
        rw [← latNorm_eq]
        rw [LatticeBasis.translate_eq]
        simp [norm2, hasSqrt_real]
      rw [this, npRound_zero] at hyn
      linarith
    have := hround n hn
    rw [← hyn] at this
    refine lt_of_lt_of_le ?_ this
    norm_num
  -- configured distances are the distances of the first shells
  have hconf : ∀ x n, x = npRound 6 (latNorm w.struct.basis n) →
      (Configured A 0 0 x ↔ IsShell w.struct 0 0 K x) := by
    intro x n hx
    rw [hI.configured]
    constructor
    · rintro ⟨-, -, -, -, hxl⟩
      obtain ⟨-, n', hn', hxn⟩ := mem_levels.1 (List.mem_of_mem_take hxl)
      exact ((hcompl x n').1 ((listed_iff hI _ _ _).2 ⟨hn0, 0, hn0, n', hn', rfl, hxn, hxl⟩)).2
    · intro hsh
      obtain ⟨-, b, hb, n', -, e, -, hl⟩ := (listed_iff hI _ _ _).1 ((hcompl x n).2 ⟨hx, hsh⟩)
      have hb0 : b = 0 := by omega
      subst hb0
      exact ⟨le_rfl, le_rfl, hn0, hn0, hl⟩
  obtain ⟨htl, hs, hc⟩ := C44_neighbors_partial hd h hA indices positions hlen hnd halpha hok
  refine ⟨htl, fun i j x => ⟨?_, ?_⟩⟩
  · intro hl
    obtain ⟨p, q, a, b, hp, hq, ha, hb, hne, hx, hcf⟩ := hs i j x hl
    obtain ⟨h1, h2, h3⟩ := one_atom_dist hp0 (hsites _ _ _ ha hp) (hsites _ _ _ hb hq)
    refine ⟨hne, p, q, hp, hq, hx, ?_⟩
    rw [h1, h2, hconf x _ (by rw [hx, distance_some, h3])] at hcf
    exact hcf
  · rintro ⟨hne, p, q, hp, hq, hx, hsh⟩
    obtain ⟨a, ha⟩ := hidx hp
    obtain ⟨b, hb⟩ := hidx hq
    obtain ⟨h1, h2, h3⟩ := one_atom_dist hp0 (hsites _ _ _ ha hp) (hsites _ _ _ hb hq)
    rw [hx]
    refine hc hres i j p q a b hp hq ha hb hne ?_ ?_
    · rw [h1, h2, hconf _ (b.cell - a.cell) (by rw [distance_some, h3]), ← hx]
      exact hsh
    -- the sites which are not farther than `q` are raw neighbours
    · have hsum : (A.rawNum.map List.sum).sum = (cells.filter fun n =>
          decide (w.struct.siteDist 0 0 n ∈ (w.struct.levels cells 0 0).take m)).length := by
        rw [hI.rawNum, hnum]
        simp
      have hKm : c.entry 0 0 ≤ m := by
        have hsz : c.size = 1 := by rw [hcs, hnum]
        have : c.entries = [c.entry 0 0] := by simp [ConnMatrix.entries, hsz]
        unfold ConnMatrix.max? at hcm
        rw [this] at hcm
        simp at hcm
        omega
      set Z := (List.range positions.length).filter fun l => decide
        (distance (positions.getD l 0) p ≤ distance q p) with hZ
      have hZl : closer positions p q = Z.length :=
        (filter_range_getD positions fun r => decide (distance r p ≤ distance q p)).symm
      have hnd2 : (((Z.filter fun l => decide (l ≠ i)).map fun l =>
          (indices.getD l 0).cell - a.cell)).Nodup := by
        refine List.Nodup.map_on ?_ ((List.nodup_range.filter _).filter _)
        intro l hl l' hl' he
        by_contra hll
        have hl1 := List.mem_range.1 (List.mem_filter.1 (List.mem_filter.1 hl).1).1
        have hl1' := List.mem_range.1 (List.mem_filter.1 (List.mem_filter.1 hl').1).1
        have g1 : indices[l]? = some (indices.getD l 0) := by
          rw [List.getD_eq_getElem?_getD, List.getElem?_eq_getElem (by omega)]; rfl
        have g2 : indices[l']? = some (indices.getD l' 0) := by
          rw [List.getD_eq_getElem?_getD, List.getElem?_eq_getElem (by omega)]; rfl
        refine hcell g1 g2 (List.getElem?_eq_getElem hl1) (List.getElem?_eq_getElem hl1') hll ?_
        have := congrArg (· + a.cell) he
        simp only [sub_add_cancel] at this
        rw [this, sub_self]
      have hsub : ((Z.filter fun l => decide (l ≠ i)).map fun l =>
          (indices.getD l 0).cell - a.cell) ⊆ cells.filter fun n =>
          decide (w.struct.siteDist 0 0 n ∈ (w.struct.levels cells 0 0).take m) := by
        intro n hn
        obtain ⟨l, hl, rfl⟩ := List.mem_map.1 hn
        obtain ⟨hl1, hl2⟩ := List.mem_filter.1 hl
        obtain ⟨hl3, hl4⟩ := List.mem_filter.1 hl1
        have hl5 := List.mem_range.1 hl3
        simp only [decide_eq_true_eq] at hl2 hl4
        have g1 : indices[l]? = some (indices.getD l 0) := by
          rw [List.getD_eq_getElem?_getD, List.getElem?_eq_getElem (by omega)]; rfl
        have g2 : positions[l]? = some (positions.getD l 0) := by
          rw [List.getD_eq_getElem?_getD, List.getElem?_eq_getElem hl5]; rfl
        have hcl := hcell ha g1 hp g2 (Ne.symm hl2)
        obtain ⟨-, -, h4⟩ := one_atom_dist hp0 (hsites _ _ _ ha hp) (hsites _ _ _ g1 g2)
        have hrd := hround _ hcl
        have hlev : IsLevel w.struct 0 0
            (npRound 6 (latNorm w.struct.basis ((indices.getD l 0).cell - a.cell))) :=
          (isLevel_iff (h.good hd) hn0 hn0 _).2
            ⟨lt_of_lt_of_le (by norm_num) hrd, _, (hsd _).symm⟩
        have hsh' := isShell_of_le hsh hlev (by
          rw [hx, distance_some, ← h4]
          exact npRound_mono hl4)
        obtain ⟨-, b', hb', n', hn', e, e2, hlv⟩ := (listed_iff hI _ _ _).1
          ((hcompl _ _).2 ⟨rfl, hsh'⟩)
        rw [Idx.mk_inj] at e
        have hb0 : b' = 0 := by omega
        subst hb0
        rw [List.mem_filter, decide_eq_true_eq, hsd]
        refine ⟨by rw [e.1]; exact hn', ?_⟩
        exact (List.take_subset_take_left _ hKm) hlv
      have h5 := (hnd2.subperm hsub).length_le
      rw [List.length_map] at h5
      have h6 : Z.length ≤ (Z.filter fun l => decide (l ≠ i)).length + 1 := by
        have hZnd : Z.Nodup := List.nodup_range.filter _
        have : Z ⊆ i :: Z.filter fun l => decide (l ≠ i) := by
          intro l hl
          by_cases hli : l = i
          · simp [hli]
          · simp [hl, hli]
        simpa using (hZnd.subperm this).length_le
      rw [hZl, hsum]
      omega

/-- C44 holds for the hypercubic lattice with lattice constant 1 in every dimension: the table
exists and lists exactly the pairs of sites whose rounded distance is one of the configured number
of smallest distances of the infinite lattice. -/
theorem C44_hypercubic_partial (hd : 0 < d) {env : Env ℝ} {w : World d ℝ} (h : Reachable env w)
    {p0 : Vec d ℝ} (hp0 : w.struct.positions = [p0]) {c : ConnMatrix} (hc : w.struct.conn = some c)
    (hbas : w.struct.basis.vectors = 1) (hk : d * (2 * c.entry 0 0 + 1) ^ 2 ≤ 10 ^ 10)
    {S' : Structure d ℝ} (han : w.struct.analyze env = (S', .ok ()))
    (indices : List (Idx d)) (positions : List (Vec d ℝ))
    (hlen : indices.length = positions.length) (hind : indices.Nodup)
    (hsites : ∀ (i : ℕ) (a : Idx d) (p : Vec d ℝ), indices[i]? = some a →
      positions[i]? = some p → IsSitePos w.struct a p) :
    ∃ table, computeNeighbors env S' indices positions = .ok table ∧
      table.length = positions.length ∧
      ∀ (i j : ℕ) (x : ℝ), Linked table i j x ↔ i ≠ j ∧ ∃ (p q : Vec d ℝ),
        positions[i]? = some p ∧ positions[j]? = some q ∧ x = distance q p (some 6) ∧
        IsShell w.struct 0 0 (c.entry 0 0) x := by
  obtain ⟨A, hA, hcompl⟩ := C34_hypercubic_partial hd h hp0 hc hbas hk han
  obtain ⟨-, hfp, hfn, hfb, -⟩ := analyze_frame hd env (h.good hd)
  have hw' : Reachable env (w.call env .analyze).1 := h.call .analyze
  have hws : (w.call env .analyze).1.struct = S' := by
    change (w.struct.analyze env).1 = S'
    rw [han]
  rw [han] at hfp hfn hfb
  dsimp only at hfp hfn hfb
  have hnorm : ∀ n : Fin d → ℤ, latNorm S'.basis n = Real.sqrt (∑ i, (n i : ℝ) ^ 2) := by
    intro n
    unfold latNorm norm2
    rw [hasSqrt_real, hfb, hbas]
    congr 1
    refine Finset.sum_congr rfl fun k _ => ?_
    simp [Matrix.one_apply, sq]
  have hone : ∀ n : Fin d → ℤ, n ≠ 0 → 1 ≤ latNorm S'.basis n := by
    intro n hn
    rw [hnorm, Real.one_le_sqrt]
    obtain ⟨k, hnk⟩ := Function.ne_iff.1 hn
    have hnk : n k ≠ 0 := by simpa using hnk
    have h1 : (n k : ℝ) ^ 2 ≤ ∑ i, (n i : ℝ) ^ 2 :=
      Finset.single_le_sum (f := fun i => (n i : ℝ) ^ 2) (fun j _ => sq_nonneg _)
        (Finset.mem_univ k)
    have h2 : (1 : ℤ) ≤ (n k) ^ 2 := by
      have : 0 < (n k) ^ 2 := by positivity
      omega
    have h3 : (1 : ℝ) ≤ (n k : ℝ) ^ 2 := by exact_mod_cast h2
    linarith
  have hlevel : IsLevel S' = IsLevel w.struct := by
    funext a b x
    unfold IsLevel
    rw [hfp, hfb]
  have hshell : IsShell S' = IsShell w.struct := by
    funext a b k x
    unfold IsShell
    rw [hlevel]
  have hsp : ∀ a p, IsSitePos S' a p ↔ IsSitePos w.struct a p := by
    intro a p
    unfold IsSitePos
    rw [hfp, hfb]
  have hG' := hw'.good hd
  rw [hws] at hG'
  obtain ⟨cells, m, c', hcells, hcs', -, hcm, hn0, hI⟩ := hG'.analysis A hA
  have hnum : S'.numBase = 1 := by rw [← hG'.positions_length, hfp, hp0]; rfl
  have hpos0 : w.struct.positions[0]? = some p0 := by rw [hp0]; rfl
  -- the nearest neighbours are configured
  have hc1 : 0 < c.entry 0 0 := by
    rcases analyze_cases hd env (h.good hd) with ⟨he, -⟩ | ⟨c2, -, -, he⟩ |
      ⟨c2, cells2, m2, A2, hc2, hz, -⟩
    · rw [han] at he; simp at he
    · rw [han] at he; simp at he
    · rw [hc] at hc2
      cases hc2
      by_contra h0
      have : c.allZero = true := by
        rw [ConnMatrix.allZero_iff]
        intro i hi j hj
        have hsz := ((h.good hd).conn_size c hc).1
        rw [← hfn, hnum] at hsz
        have hi0 : i = 0 := by omega
        have hj0 : j = 0 := by omega
        subst hi0 hj0
        omega
      rw [hz] at this
      cases this
  have hr1 : npRound 6 (1 : ℝ) = 1 := by
    have := npRound_of_int (K := ℝ) 6 1000000
    norm_num at this
    exact this
  have hsd : ∀ n : Fin d → ℤ, (distance (fun k => p0 k + ∑ i, (n i : ℝ) * S'.basis.vectors i k)
      p0 (some 6)) = npRound 6 (latNorm S'.basis n) := by
    intro n
    rw [distance_some]
    congr 1
    unfold latNorm
    rw [distance_eq_dist, dist_eq_norm, norm2_eq_norm]
    congr 1
    ext k
    simp
  have he1 : latNorm S'.basis (Pi.single ⟨0, hd⟩ 1) = 1 := by
    rw [hnorm]
    rw [Finset.sum_eq_single ⟨0, hd⟩ (by intro j _ hj; simp [hj]) (by simp)]
    simp
  have hsh1 : IsShell w.struct 0 0 (c.entry 0 0) 1 := by
    refine ⟨⟨one_pos, p0, p0, Pi.single ⟨0, hd⟩ 1, hpos0, hpos0, ?_⟩, ?_⟩
    · rw [← hfb, hsd, he1, hr1]
    · have : {y | IsLevel w.struct 0 0 y ∧ y < 1} = ∅ := by
        ext y
        simp only [Set.mem_empty_iff_false, iff_false]
        rintro ⟨⟨hy0, ra, rb, n, h1, h2, hy⟩, hlt⟩
        rw [hpos0] at h1 h2
        cases h1
        cases h2
        rw [← hfb, hsd] at hy
        by_cases hn : n = 0
        · subst hn
          rw [hnorm] at hy
          simp [npRound_zero] at hy
          linarith
        · have := npRound_mono (n := 6) (hone n hn)
          rw [hr1, ← hy] at this
          linarith
      rw [this]
      simpa using hc1
  have hlist := (hcompl 1 (Pi.single ⟨0, hd⟩ 1)).2 ⟨by rw [← hnorm, he1, hr1], hsh1⟩
  obtain ⟨-, b, hb, n', hn', -, -, hlv⟩ := (listed_iff hI _ _ _).1 hlist
  have hb0 : b = 0 := by omega
  subst hb0
  have hconf : Configured A 0 0 1 := hI.configured.2 ⟨le_rfl, le_rfl, hn0, hn0, hlv⟩
  obtain ⟨k, md, hq⟩ : ∃ k md, queryParams A = .ok (k, md) := by
    have hd1 := hI.mem_distances hconf
    have hraw : ∃ y, y ∈ A.rawDistances.flatten.flatten := by
      have hsz : c'.size = 1 := by rw [hcs', hnum]
      have hent : c'.entries = [c'.entry 0 0] := by simp [ConnMatrix.entries, hsz]
      have hKm : c'.entry 0 0 ≤ m := by
        unfold ConnMatrix.max? at hcm
        rw [hent] at hcm
        simp at hcm
        omega
      obtain ⟨row, hr, l, hl', h⟩ := hI.mem_raw.2 ⟨0, hn0, 0, hn0,
        (List.take_subset_take_left _ hKm) hlv⟩
      exact ⟨1, List.mem_flatten.2 ⟨l, List.mem_flatten.2 ⟨row, hr, hl'⟩, h⟩⟩
    obtain ⟨y, hy⟩ := hraw
    have hlens : A.rawDistances.flatten.map List.length =
        [((S'.levels cells 0 0).take m).length] := by
      rw [hI.rawDistances, hnum]
      simp
    unfold Structure.queryParams
    cases e1 : A.distances.flatten with
    | nil => rw [e1] at hd1; simp at hd1
    | cons u us =>
    cases e2 : A.rawDistances.flatten.flatten with
    | nil => rw [e2] at hy; simp at hy
    | cons v vs =>
    exact ⟨_, _, if_pos (by rw [hlens]; simp)⟩
  obtain ⟨table, hok⟩ : ∃ table, computeNeighbors env S' indices positions = .ok table := by
    unfold computeNeighbors
    simp only [hA, hq]
    exact ⟨_, rfl⟩
  refine ⟨table, hok, ?_⟩
  have := C44_one_atom_partial hd hw' (by rw [hws]; exact hA) (p0 := p0) (by rw [hws, hfp, hp0])
    (K := c.entry 0 0) (by
      intro x n
      rw [hws, hcompl, hnorm, hshell]) (by
      intro n hn
      rw [hws]
      exact le_trans (by norm_num) (hone n hn)) indices positions hlen hind (by
      intro i a p h1 h2
      rw [hws, hsp]
      exact hsites i a p h1 h2) (by rw [hws]; exact hok)
  rw [hws, hshell] at this
  exact this

/-- Three sites of the cubic lattice with 5 neighbour distances. -/
example (env : Env ℝ) : ∃ (w : World 3 ℝ) (c : ConnMatrix) (S' : Structure 3 ℝ)
    (indices : List (Idx 3)) (positions : List (Vec 3 ℝ)), Reachable env w ∧
    w.struct.positions = [0] ∧ w.struct.conn = some c ∧ w.struct.basis.vectors = 1 ∧
    3 * (2 * c.entry 0 0 + 1) ^ 2 ≤ 10 ^ 10 ∧ w.struct.analyze env = (S', .ok ()) ∧
    positions.length = 3 ∧ indices.length = positions.length ∧ indices.Nodup ∧
    ∀ (i : ℕ) (a : Idx 3) (p : Vec 3 ℝ), indices[i]? = some a → positions[i]? = some p →
      IsSitePos w.struct a p := by
  obtain ⟨b, hb⟩ := (LatticeBasis.init_eq_ok_iff (1 : Matrix (Fin 3) (Fin 3) ℝ)).2 (by simp)
  obtain ⟨w, A, cells, c, hr, hbas, hp, hn, hat, hc, hcs, hce, -⟩ :=
    exists_structure (by norm_num) env hb [0] (by simp) (by simp) (nb := 5) (by norm_num)
  have he := hce 0 0 (by simp) (by simp)
  obtain ⟨S', hS'⟩ := analyze_again (by norm_num) hr hc (i := 0) (j := 0) (by rw [hcs]; simp)
    (by rw [hcs]; simp) (by rw [he]; norm_num)
  have hv := LatticeBasis.init_vectors hb
  have key : ∀ n : Fin 3 → ℤ, IsSitePos w.struct (Idx.mk n 0) fun k => (n k : ℝ) := by
    intro n
    refine ⟨0, 0, by simp, by rw [hp]; rfl, ?_⟩
    funext k
    simp [hbas, hv, Matrix.one_apply]
  refine ⟨w, c, S', [![0, 0, 0], ![1, 0, 0], ![2, 3, 0]].map fun n => Idx.mk n 0,
    [![0, 0, 0], ![1, 0, 0], ![2, 3, 0]].map fun (n : Fin 3 → ℤ) k => (n k : ℝ), hr, hp, hc,
    by rw [hbas, hv], by rw [he]; norm_num, hS', rfl, rfl, by decide, ?_⟩
  intro i a p h1 h2
  rw [List.getElem?_map] at h1 h2
  obtain ⟨n, hn1, rfl⟩ := Option.map_eq_some_iff.1 h1
  obtain ⟨n', hn2, rfl⟩ := Option.map_eq_some_iff.1 h2
  rw [hn1] at hn2
  cases hn2
  exact key n

/-! ## C45 -/

/-- Every row of the table lists its finite entries first, in the order of the distances and
without repetition and without the site itself; the other entries are padding with the invalid index
`n` (the number of sites); all rows have the same length. -/
theorem C45_rows (hd : 0 < d) {env : Env ℝ} {w : World d ℝ} (h : Reachable env w)
    {A : Analysis d ℝ} (hA : w.struct.analysis = some A) (indices : List (Idx d))
    (positions : List (Vec d ℝ)) (hlen : indices.length = positions.length)
    (hnd : positions.Nodup) {table : List (List (ℕ × WithTop ℝ))}
    (hok : computeNeighbors env w.struct indices positions = .ok table) :
    ∃ width, ∀ (i : ℕ) (row : List (ℕ × WithTop ℝ)), table[i]? = some row →
      row.length = width ∧ (row.map Prod.snd).Pairwise (· ≤ ·) ∧
      (∀ e ∈ row, e.2 = ⊤ → e.1 = positions.length) ∧
      (∀ e ∈ row, e.2 ≠ ⊤ → e.1 ≠ i ∧ e.1 < positions.length) ∧
      ((row.filter fun e => decide (e.2 ≠ ⊤)).map Prod.fst).Nodup := by
  obtain ⟨cells, m, c, hcells, -, hsym, -, -, hI⟩ := (h.good hd).analysis A hA
  obtain ⟨k, maxDist, hq⟩ := computeNeighbors_params hA hok
  obtain ⟨t, ht, htl, width, hrows⟩ := computeNeighbors_rows env hI hA hq indices positions hlen hnd
  rw [hok] at ht
  cases ht
  refine ⟨width, ?_⟩
  intro i row hrow
  have hi : i < positions.length := by
    rw [← htl]; exact (List.getElem?_eq_some_iff.1 hrow).1
  obtain ⟨row', sel, r1, r2, r3, r4, r5, r6, r7, -⟩ := hrows i _ _ (List.getElem?_eq_getElem hi)
    (List.getElem?_eq_getElem (by omega))
  rw [hrow] at r1
  cases r1
  refine ⟨r2, r3, r4, ?_, ?_⟩
  · intro e he hne
    obtain ⟨x, hx⟩ := WithTop.ne_top_iff_exists.1 hne
    obtain ⟨e1, e2⟩ := e
    dsimp only at hx hne
    subst hx
    obtain ⟨h1, -⟩ := (mem_links r5 e1 x).1 he
    exact ⟨(r7 _ h1).1, (r7 _ h1).2.1⟩
  · have := (r5.map Prod.fst).nodup_iff.2 (by
      rw [List.map_map]
      have e : (Prod.fst ∘ fun j : ℕ => (j, ((distance (positions.getD j 0) positions[i] (some 6)
        : ℝ) : WithTop ℝ))) = id := rfl
      rw [e, List.map_id]
      exact r6.filter _)
    exact this

/-- Symmetry: if `j` is a neighbour of `i` at distance `x`, then `i` is a neighbour of `j` at
distance `x`, provided the tree query for site `j` is not truncated before site `i`. -/
theorem C45_symmetric_partial (hd : 0 < d) {env : Env ℝ} {w : World d ℝ} (h : Reachable env w)
    {A : Analysis d ℝ} (hA : w.struct.analysis = some A) (indices : List (Idx d))
    (positions : List (Vec d ℝ)) (hlen : indices.length = positions.length)
    (hnd : positions.Nodup)
    (halpha : ∀ x ∈ indices, 0 ≤ x.alpha ∧ x.alpha < w.struct.numBase)
    {table : List (List (ℕ × WithTop ℝ))}
    (hok : computeNeighbors env w.struct indices positions = .ok table)
    (hres : ∀ y, RawDistance A y → 5 / 10 ^ 6 < y) (i j : ℕ) (p q : Vec d ℝ)
    (hp : positions[i]? = some p) (hq : positions[j]? = some q)
    (hcount : closer positions q p ≤ (A.rawNum.map List.sum).sum + 1) (x : ℝ)
    (hl : Linked table i j x) : Linked table j i x := by
  obtain ⟨-, hs, hc⟩ := C44_neighbors_partial hd h hA indices positions hlen hnd halpha hok
  obtain ⟨p', q', a, b, h1, h2, h3, h4, hne, hx, hconf⟩ := hs i j x hl
  rw [hp] at h1
  rw [hq] at h2
  cases h1
  cases h2
  rw [hx, distance_comm]
  refine hc hres j i q p b a hq hp h4 h3 hne.symm ?_ hcount
  rw [configured_comm hd h hA, distance_comm, ← hx]
  exact hconf

/-- The neighbour relation is symmetric for all finite sets of sites of the hypercubic lattice. -/
theorem C45_hypercubic_partial (hd : 0 < d) {env : Env ℝ} {w : World d ℝ} (h : Reachable env w)
    {p0 : Vec d ℝ} (hp0 : w.struct.positions = [p0]) {c : ConnMatrix} (hc : w.struct.conn = some c)
    (hbas : w.struct.basis.vectors = 1) (hk : d * (2 * c.entry 0 0 + 1) ^ 2 ≤ 10 ^ 10)
    {S' : Structure d ℝ} (han : w.struct.analyze env = (S', .ok ()))
    (indices : List (Idx d)) (positions : List (Vec d ℝ))
    (hlen : indices.length = positions.length) (hind : indices.Nodup)
    (hsites : ∀ (i : ℕ) (a : Idx d) (p : Vec d ℝ), indices[i]? = some a →
      positions[i]? = some p → IsSitePos w.struct a p) :
    ∃ table, computeNeighbors env S' indices positions = .ok table ∧
      ∀ (i j : ℕ) (x : ℝ), Linked table i j x → Linked table j i x := by
  obtain ⟨table, hok, -, hl⟩ := C44_hypercubic_partial hd h hp0 hc hbas hk han indices positions hlen
    hind hsites
  refine ⟨table, hok, ?_⟩
  intro i j x hij
  obtain ⟨hne, p, q, hp, hq, hx, hs⟩ := (hl i j x).1 hij
  exact (hl j i x).2 ⟨hne.symm, q, p, hq, hp, by rw [hx, distance_comm], hs⟩

/-! ## counterexample -/

theorem rect_dist' (p q : Vec 2 ℝ) (n : Fin 2 → ℤ) :
    distance (fun k => q k + ∑ i, (n i : ℝ) * rectRows i k) p =
      Real.sqrt ((q 0 + n 0 - p 0) ^ 2 + (q 1 + 10 * n 1 - p 1) ^ 2) := by
  unfold distance
  rw [hasSqrt_real]
  refine congrArg Real.sqrt ?_
  simp [Fin.sum_univ_two, rectRows]
  ring

theorem npRound_natCast (n : ℕ) : npRound 6 (n : ℝ) = n := by
  have h1 := npRound_of_int (K := ℝ) 6 (n * 10 ^ 6)
  have h2 : (((n * 10 ^ 6 : ℤ) : ℝ)) / 10 ^ 6 = n := by
    push_cast
    rw [mul_div_assoc]
    norm_num
  rwa [h2] at h1

/-- Nine sites of atom A in a row and one site of atom B. -/
noncomputable def truncPositions : List (Vec 2 ℝ) :=
  (List.range 9).map (fun i : ℕ => ![(i : ℝ) - 4, 0]) ++ [![0, 5]]

/-- Indices of the sites `truncPositions`. -/
def truncIndices : List (Idx 2) :=
  (List.range 9).map (fun i : ℕ => Idx.mk ![(i : ℤ) - 4, 0] 0) ++ [Idx.mk ![0, 0] 1]

theorem trunc_getElem {i : ℕ} {p : Vec 2 ℝ} {a : Idx 2} (hp : truncPositions[i]? = some p)
    (ha : truncIndices[i]? = some a) :
    (i < 9 ∧ p = ![(i : ℝ) - 4, 0] ∧ a = Idx.mk ![(i : ℤ) - 4, 0] 0) ∨
    (i = 9 ∧ p = ![0, 5] ∧ a = Idx.mk ![0, 0] 1) := by
  have hi : i < truncPositions.length := (List.getElem?_eq_some_iff.1 hp).1
  have hl : truncPositions.length = 10 := by simp [truncPositions]
  rw [hl] at hi
  unfold truncPositions at hp
  unfold truncIndices at ha
  rcases Nat.lt_or_ge i 9 with h | h
  · left
    rw [List.getElem?_append_left (by simpa using h)] at hp ha
    rw [List.getElem?_map, List.getElem?_range h, Option.map_some, Option.some_inj] at hp ha
    exact ⟨h, hp.symm, ha.symm⟩
  · right
    have h9 : i = 9 := by omega
    subst h9
    rw [List.getElem?_append_right (by simp)] at hp ha
    simp only [List.length_map, List.length_range, Nat.sub_self, List.getElem?_cons_zero,
      Option.some_inj] at hp ha
    exact ⟨rfl, hp.symm, ha.symm⟩

/-- The smallest distance of a pair of atoms and the number of sites at this distance. -/
theorem first_level {S : Structure d ℝ} {cells : List (Fin d → ℤ)} (hcnd : cells.Nodup)
    (a b v : ℕ) (n0 : Fin d → ℤ) (F : List (Fin d → ℤ)) (hn0 : n0 ∈ cells) (hv1 : 1 ≤ v)
    (hvn : S.siteDist a b n0 = v)
    (hF : ∀ n, S.siteDist a b n ≤ v → n ∈ F ∨ S.siteDist a b n = 0)
    (hF2 : ∀ n ∈ F, (v : ℝ) ≤ S.siteDist a b n) :
    (∀ x, x ∈ (S.levels cells a b).take 1 ↔ x = v) ∧
    (cells.filter fun n => decide (S.siteDist a b n ∈ (S.levels cells a b).take 1)).length ≤
      F.length := by
  have hv0 : (0 : ℝ) < v := by exact_mod_cast hv1
  have hvl : (v : ℝ) ∈ S.levels cells a b := mem_levels.2 ⟨hv0, n0, hn0, hvn.symm⟩
  have hx : ∀ x, x ∈ (S.levels cells a b).take 1 ↔ x = v := by
    intro x
    have hsort : (S.levels cells a b).Pairwise (· < ·) := npUnique_pairwise_lt _
    rw [mem_take_sorted hsort]
    constructor
    · rintro ⟨h1, h2⟩
      have h3 : x ≤ v := by
        by_contra hlt
        push Not at hlt
        have : (v : ℝ) ∈ (S.levels cells a b).filter fun y => decide (y < x) :=
          List.mem_filter.2 ⟨hvl, by simpa using hlt⟩
        have := List.length_pos_of_mem this
        omega
      obtain ⟨hx0, n, hn, hxn⟩ := mem_levels.1 h1
      rcases hF n (by rw [← hxn]; exact h3) with h4 | h4
      · exact le_antisymm h3 (by rw [hxn]; exact hF2 n h4)
      · rw [h4] at hxn; linarith
    · rintro rfl
      refine ⟨hvl, ?_⟩
      rw [List.filter_eq_nil_iff.2]
      · simp
      · intro y hy
        obtain ⟨hy0, n, hn, rfl⟩ := mem_levels.1 hy
        rw [decide_eq_true_eq, not_lt]
        by_contra hlt
        push Not at hlt
        rcases hF n hlt.le with h4 | h4
        · linarith [hF2 n h4]
        · linarith
  refine ⟨hx, ?_⟩
  have hnd : (cells.filter fun n => decide (S.siteDist a b n ∈
      (S.levels cells a b).take 1)).Nodup := hcnd.filter _
  refine (hnd.subperm ?_).length_le
  intro n hn
  obtain ⟨h1, h2⟩ := List.mem_filter.1 hn
  rw [decide_eq_true_eq, hx] at h2
  rcases hF n h2.le with h3 | h3
  · exact h3
  · rw [h2] at h3; linarith

theorem rect_siteDist {S : Structure 2 ℝ} (hv : S.basis.vectors = rectRows) (a b : ℕ)
    (p q : Vec 2 ℝ) (ha : S.positions[a]? = some p) (hb : S.positions[b]? = some q)
    (n : Fin 2 → ℤ) : S.siteDist a b n =
      npRound 6 (Real.sqrt ((q 0 + n 0 - p 0) ^ 2 + (q 1 + 10 * n 1 - p 1) ^ 2)) := by
  rw [siteDist_eq ha hb, distance_some, hv, rect_dist']

theorem round_sqrt_sq (v : ℕ) : npRound 6 (Real.sqrt ((v : ℝ) ^ 2)) = v := by
  rw [Real.sqrt_sq (by positivity), npRound_natCast]

theorem lt_round_sqrt (v : ℕ) (N : ℝ) (hv5 : v ≤ 5) (hN : (v : ℝ) ^ 2 + 1 ≤ N) :
    (v : ℝ) < npRound 6 (Real.sqrt N) := by
  rw [← round_sqrt_sq v]
  apply npRound_lt
  rw [Real.sqrt_sq (by positivity)]
  apply Real.lt_sqrt_of_sq_lt
  have : (v : ℝ) ≤ 5 := by exact_mod_cast hv5
  have h0 : (0 : ℝ) ≤ v := by positivity
  norm_num
  nlinarith

theorem rect_same {S : Structure 2 ℝ} (hv : S.basis.vectors = rectRows)
    {cells : List (Fin 2 → ℤ)} (hcnd : cells.Nodup) (hcell1 : (![1, 0] : Fin 2 → ℤ) ∈ cells)
    (a : ℕ) (p : Vec 2 ℝ) (ha : S.positions[a]? = some p) :
    (∀ x, x ∈ (S.levels cells a a).take 1 ↔ x = (1 : ℕ)) ∧
    (cells.filter fun n => decide (S.siteDist a a n ∈ (S.levels cells a a).take 1)).length ≤ 2 := by
  have hda : ∀ n, S.siteDist a a n =
      npRound 6 (Real.sqrt ((n 0 : ℝ) ^ 2 + (10 * n 1) ^ 2)) := by
    intro n; rw [rect_siteDist hv a a p p ha ha]; ring_nf
  refine first_level hcnd a a 1 ![1, 0] [![1, 0], ![-1, 0]] hcell1 le_rfl ?_ ?_ ?_
  · rw [hda, ← round_sqrt_sq 1]; norm_num
  · intro n hle
    rw [hda] at hle
    have h1 : (n 0) ^ 2 + (10 * n 1) ^ 2 ≤ 1 := by
      by_contra hlt
      push Not at hlt
      have h2 : (1 : ℤ) ^ 2 + 1 ≤ (n 0) ^ 2 + (10 * n 1) ^ 2 := by omega
      have h3 : ((1 : ℕ) : ℝ) ^ 2 + 1 ≤ (n 0 : ℝ) ^ 2 + (10 * n 1) ^ 2 := by exact_mod_cast h2
      exact absurd hle (not_le.2 (lt_round_sqrt 1 _ (by norm_num) h3))
    have h4 : n 1 = 0 := by nlinarith [sq_nonneg (n 0), sq_nonneg (n 1)]
    have h5 : n 0 ≤ 1 := by nlinarith [sq_nonneg (n 1)]
    have h6 : -1 ≤ n 0 := by nlinarith [sq_nonneg (n 1)]
    have h7 : n 0 = 0 ∨ n 0 = 1 ∨ n 0 = -1 := by omega
    have hext : ∀ z : ℤ, n 0 = z → n = ![z, 0] := by
      intro z hz; ext k; fin_cases k <;> simp [hz, h4]
    rcases h7 with h7 | h7 | h7
    · right; rw [hda, h7, h4]; simp [npRound_zero]
    · left; rw [hext 1 h7]; simp
    · left; rw [hext (-1) h7]; simp
  · intro n hn
    simp only [List.mem_cons, List.not_mem_nil, or_false] at hn
    rw [hda, ← round_sqrt_sq 1]
    rcases hn with rfl | rfl <;> norm_num

theorem rect_diff {S : Structure 2 ℝ} (hv : S.basis.vectors = rectRows)
    {cells : List (Fin 2 → ℤ)} (hcnd : cells.Nodup) (hcell0 : (0 : Fin 2 → ℤ) ∈ cells)
    (a b : ℕ) (p q : Vec 2 ℝ) (s : ℤ) (hs : s = 1 ∨ s = -1)
    (ha : S.positions[a]? = some p) (hb : S.positions[b]? = some q)
    (h0 : q 0 - p 0 = 0) (h1 : q 1 - p 1 = 5 * s) :
    (∀ x, x ∈ (S.levels cells a b).take 1 ↔ x = (5 : ℕ)) ∧
    (cells.filter fun n => decide (S.siteDist a b n ∈ (S.levels cells a b).take 1)).length ≤ 2 := by
  have hda : ∀ n, S.siteDist a b n =
      npRound 6 (Real.sqrt ((n 0 : ℝ) ^ 2 + (5 * s + 10 * n 1) ^ 2)) := by
    intro n
    rw [rect_siteDist hv a b p q ha hb]
    congr 2
    rw [show q 0 + n 0 - p 0 = n 0 by linarith,
      show q 1 + 10 * n 1 - p 1 = 5 * s + 10 * n 1 by linarith]
  have hss : s ^ 2 = 1 := by rcases hs with rfl | rfl <;> norm_num
  have hssr : (s : ℝ) ^ 2 = 1 := by exact_mod_cast hss
  refine first_level hcnd a b 5 0 [0, ![0, -s]] hcell0 (by norm_num) ?_ ?_ ?_
  · rw [hda, ← round_sqrt_sq 5]
    congr 2
    simp
    nlinarith
  · intro n hle
    left
    rw [hda] at hle
    have h2 : (n 0) ^ 2 + (5 * s + 10 * n 1) ^ 2 ≤ 25 := by
      by_contra hlt
      push Not at hlt
      have h2 : (5 : ℤ) ^ 2 + 1 ≤ (n 0) ^ 2 + (5 * s + 10 * n 1) ^ 2 := by omega
      have h3 : ((5 : ℕ) : ℝ) ^ 2 + 1 ≤ (n 0 : ℝ) ^ 2 + (5 * s + 10 * n 1) ^ 2 := by
        exact_mod_cast h2
      exact absurd hle (not_le.2 (lt_round_sqrt 5 _ (by norm_num) h3))
    have h3 : n 1 = 0 ∨ n 1 = -s := by
      rcases hs with rfl | rfl
      · have a1 : n 1 ≤ 0 := by nlinarith [sq_nonneg (n 0)]
        have a2 : -1 ≤ n 1 := by nlinarith [sq_nonneg (n 0)]
        omega
      · have a1 : n 1 ≤ 1 := by nlinarith [sq_nonneg (n 0)]
        have a2 : 0 ≤ n 1 := by nlinarith [sq_nonneg (n 0)]
        omega
    have h4 : n 0 = 0 := by
      rcases h3 with h3 | h3
      · rw [h3] at h2; nlinarith [sq_nonneg (n 0)]
      · rw [h3] at h2; nlinarith [sq_nonneg (n 0)]
    rcases h3 with h3 | h3
    · have : n = 0 := by ext k; fin_cases k <;> simpa
      simp [this]
    · have : n = ![0, -s] := by ext k; fin_cases k <;> simpa
      simp [this]
  · intro n hn
    simp only [List.mem_cons, List.not_mem_nil, or_false] at hn
    rw [hda, ← round_sqrt_sq 5]
    refine npRound_mono (Real.sqrt_le_sqrt ?_)
    rcases hn with rfl | rfl
    · simp; nlinarith
    · simp; nlinarith

theorem rect_cells {b : LatticeBasis 2 ℝ} (hv : b.vectors = rectRows)
    {cells : List (Fin 2 → ℤ)}
    (hcells : b.getNeighborCells (2 * 1) true (fun x y => decide (x ≤ y)) = .ok cells) :
    cells.Nodup ∧ (0 : Fin 2 → ℤ) ∈ cells ∧ (![1, 0] : Fin 2 → ℤ) ∈ cells := by
  obtain ⟨M, hM, hcnd, hz0, hmem⟩ := LatticeBasis.neighborCells_spec _ _ _ _ _ hcells
  have hnorm := rect_norm hv
  have hnn : ∀ n : Fin 2 → ℤ, n ≠ 0 → 1 ≤ norm2 (b.translate n 0) := by
    intro n hn
    rw [hnorm, Real.one_le_sqrt]
    have h1 : (1 : ℤ) ≤ (n 0) ^ 2 + (10 * n 1) ^ 2 := by
      by_contra hlt
      have h2 : n 0 = 0 := by nlinarith [sq_nonneg (n 0), sq_nonneg (10 * n 1)]
      have h3 : n 1 = 0 := by nlinarith [sq_nonneg (n 0), sq_nonneg (n 1)]
      exact hn (by ext k; fin_cases k <;> simpa)
    exact_mod_cast h1
  have hM1 : 1 ≤ M := by
    rw [rect_norms hv] at hM
    have hsort := npUnique_pairwise_lt
      ((LatticeBasis.factors 2 (2 * 1)).map fun n => norm2 (b.translate n 0))
    obtain ⟨hlt, hMe⟩ := List.getElem?_eq_some_iff.1 hM
    have hMm := List.mem_of_getElem? hM
    rw [mem_npUnique] at hMm
    obtain ⟨n, -, hnM⟩ := List.mem_map.1 hMm
    by_cases hn0 : n = 0
    · exfalso
      have h0 := (List.pairwise_iff_getElem.1 hsort) 0 _ (by omega) hlt (by simp)
      rw [hMe, ← hnM, hn0] at h0
      have h1 := List.getElem_mem (l := npUnique
        ((LatticeBasis.factors 2 (2 * 1)).map fun n => norm2 (b.translate n 0))) (n := 0) (by omega)
      rw [mem_npUnique] at h1
      obtain ⟨n', -, hn'⟩ := List.mem_map.1 h1
      rw [← hn', hnorm, hnorm] at h0
      simp at h0
      exact absurd h0 (not_lt.2 (Real.sqrt_nonneg _))
    · rw [← hnM]; exact hnn n hn0
  have hcell0 : (0 : Fin 2 → ℤ) ∈ cells := hz0.2 rfl
  have hcell1 : (![1, 0] : Fin 2 → ℤ) ∈ cells := by
    rw [hmem _ (by intro h; have := congrFun h 0; simp at this)]
    refine ⟨by decide, ?_⟩
    rw [decide_eq_true_eq, hnorm]
    refine le_trans (le_of_eq ?_) hM1
    norm_num
  exact ⟨hcnd, hcell0, hcell1⟩

theorem trunc_witness (env : Env ℝ) :
    ∃ (w : World 2 ℝ) (A : Analysis 2 ℝ) (table : List (List (ℕ × WithTop ℝ))), Reachable env w ∧
      w.struct.basis.vectors = rectRows ∧ w.struct.positions = [![0, 0], ![0, 5]] ∧
      w.struct.analysis = some A ∧
      computeNeighbors env w.struct truncIndices truncPositions = .ok table ∧
      Configured A 0 1 5 ∧ Linked table 9 4 5 ∧ ∀ x, ¬ Linked table 4 9 x := by
  obtain ⟨b, hb⟩ := (LatticeBasis.init_eq_ok_iff rectRows).2 (by
    rw [rectRows, Matrix.det_fin_two_of]; norm_num)
  have hv := LatticeBasis.init_vectors hb
  obtain ⟨w, A, cells, c, hr, hbas, hp, hn, -, hc, hcs, hce, hA, hI, hcells⟩ :=
    exists_structure (by norm_num) env hb [![0, 0], ![0, 5]] (by
      simp only [List.nodup_cons, List.mem_singleton, List.not_mem_nil, not_false_eq_true,
        List.nodup_nil, and_true]
      intro h
      have := congrFun h 1
      norm_num at this) (by simp) Nat.one_pos
  have hnum : w.struct.numBase = 2 := by rw [hn]; rfl
  have hra : w.struct.positions[0]? = some ![0, 0] := by rw [hp]; rfl
  have hrb : w.struct.positions[1]? = some ![0, 5] := by rw [hp]; rfl
  obtain ⟨hcnd, hcell0, hcell1⟩ := rect_cells hv hcells
  have hv' : w.struct.basis.vectors = rectRows := by rw [hbas, hv]
  obtain ⟨l00, n00⟩ := rect_same hv' hcnd hcell1 0 _ hra
  obtain ⟨l11, n11⟩ := rect_same hv' hcnd hcell1 1 _ hrb
  obtain ⟨l01, n01⟩ := rect_diff hv' hcnd hcell0 0 1 _ _ 1 (Or.inl rfl) hra hrb (by simp) (by simp)
  obtain ⟨l10, n10⟩ := rect_diff hv' hcnd hcell0 1 0 _ _ (-1) (Or.inr rfl) hrb hra (by simp) (by simp)
  have hconf : Configured A 0 1 5 := by
    refine hI.configured.2 ⟨le_rfl, by norm_num, by rw [hnum]; simp, by rw [hnum]; simp, ?_⟩
    have : c.entry (0 : ℤ).toNat (1 : ℤ).toNat = 1 := hce 0 1 (by simp) (by simp)
    rw [this]
    exact (l01 5).2 (by norm_num)
  have hlev : ∀ a < w.struct.numBase, ∀ b < w.struct.numBase,
      ∃ x, x ∈ (w.struct.levels cells a b).take 1 ∧ ∀ y ∈ (w.struct.levels cells a b).take 1,
        (1 : ℝ) ≤ y := by
    intro a ha b hb
    rw [hnum] at ha hb
    have ha' : a = 0 ∨ a = 1 := by omega
    have hb' : b = 0 ∨ b = 1 := by omega
    rcases ha' with rfl | rfl <;> rcases hb' with rfl | rfl
    · exact ⟨_, (l00 _).2 rfl, fun y hy => by rw [(l00 y).1 hy]; norm_num⟩
    · exact ⟨_, (l01 _).2 rfl, fun y hy => by rw [(l01 y).1 hy]; norm_num⟩
    · exact ⟨_, (l10 _).2 rfl, fun y hy => by rw [(l10 y).1 hy]; norm_num⟩
    · exact ⟨_, (l11 _).2 rfl, fun y hy => by rw [(l11 y).1 hy]; norm_num⟩
  obtain ⟨k, md, hq⟩ := hI.queryParams_ok Nat.one_pos (by rw [hnum]; norm_num) (by
    intro a ha b hb
    obtain ⟨x, hx, -⟩ := hlev a ha b hb
    exact List.length_pos_of_mem (List.mem_of_mem_take hx)) hconf
  obtain ⟨hk, hk2, -, M', y', hmd, hy', -, -, hmax⟩ := hI.queryParams hq
  have hraw : ∀ y, RawDistance A y → (1 : ℝ) ≤ y := by
    intro y hy
    obtain ⟨a, ha, b, hb, h⟩ := hI.mem_raw.1 hy
    obtain ⟨-, -, h'⟩ := hlev a ha b hb
    exact h' y h
  have hk9 : k ≤ 9 := by
    rw [hk, hI.rawNum, hnum]
    simp only [List.range_succ, List.range_zero, List.nil_append, List.map_append, List.map_cons,
      List.map_nil, List.sum_append, List.sum_cons, List.sum_nil]
    omega
  have hmd5 : 5 < md := by
    have h1 := hmax _ _ _ hconf
    have h2 := hraw y' hy'
    rw [hmd]; linarith
  -- the sites
  have hlen : truncIndices.length = truncPositions.length := by
    simp [truncIndices, truncPositions]
  have hl10 : truncPositions.length = 10 := by simp [truncPositions]
  have hget : ∀ i, i < 10 → truncPositions[i]? = some (truncPositions.getD i 0) := by
    intro i hi
    rw [List.getD_eq_getElem?_getD, List.getElem?_eq_getElem (by omega)]
    rfl
  have hgetA : ∀ i, i < 9 → truncPositions.getD i 0 = ![(i : ℝ) - 4, 0] := by
    intro i hi
    have ha : truncIndices[i]? = some truncIndices[i] :=
      List.getElem?_eq_getElem (by rw [hlen, hl10]; omega)
    rcases trunc_getElem (hget i (by omega)) ha with ⟨-, h, -⟩ | ⟨h, -⟩
    · exact h
    · omega
  have hgetB : truncPositions.getD 9 0 = ![0, 5] := by
    have ha : truncIndices[9]? = some truncIndices[9] :=
      List.getElem?_eq_getElem (by rw [hlen, hl10]; omega)
    rcases trunc_getElem (hget 9 (by omega)) ha with ⟨h, -⟩ | ⟨-, h, -⟩
    · omega
    · exact h
  have hnd : truncPositions.Nodup := by
    rw [List.nodup_iff_getElem?_ne_getElem?]
    intro i j hij hj he
    rw [hl10] at hj
    rw [hget i (by omega), hget j hj, Option.some_inj, hgetA i (by omega)] at he
    rcases Nat.lt_or_ge j 9 with h | h
    · rw [hgetA j h] at he
      have := congrFun he 0
      simp at this
      omega
    · have hj9 : j = 9 := by omega
      rw [hj9, hgetB] at he
      have := congrFun he 1
      simp at this
  have halpha : ∀ x ∈ truncIndices, 0 ≤ x.alpha ∧ x.alpha < w.struct.numBase := by
    rw [hnum]
    unfold truncIndices
    decide
  obtain ⟨table, hok, htl, width, hrows⟩ := computeNeighbors_rows env hI hA hq truncIndices
    truncPositions hlen hnd
  have hi4 : truncIndices[4]? = some (Idx.mk ![0, 0] 0) := by decide
  have hi9 : truncIndices[9]? = some (Idx.mk ![0, 0] 1) := by decide
  have hp4 : truncPositions[4]? = some ![0, 0] := by
    rw [hget 4 (by norm_num), hgetA 4 (by norm_num)]; norm_num
  have hp9 : truncPositions[9]? = some ![0, 5] := by rw [hget 9 (by norm_num), hgetB]
  have hdist : ∀ p q : Vec 2 ℝ, distance p q = Real.sqrt ((p 0 - q 0) ^ 2 + (p 1 - q 1) ^ 2) := by
    intro p q
    unfold distance
    rw [hasSqrt_real]
    refine congrArg Real.sqrt ?_
    simp only [Fin.sum_univ_two]
    ring
  have hdAB : distance (![0, 0] : Vec 2 ℝ) ![0, 5] = 5 := by
    rw [hdist, show (((![0, 0] : Vec 2 ℝ) 0 - (![0, 5] : Vec 2 ℝ) 0) ^ 2 +
      ((![0, 0] : Vec 2 ℝ) 1 - (![0, 5] : Vec 2 ℝ) 1) ^ 2) = (5 : ℝ) ^ 2 by norm_num]
    exact Real.sqrt_sq (by norm_num)
  have hdBA : distance (![0, 5] : Vec 2 ℝ) ![0, 0] = 5 := by rw [distance_comm]; exact hdAB
  refine ⟨w, A, table, hr, by rw [hbas, hv], hp, hA, hok, hconf, ?_, ?_⟩
  · -- B lists A
    have hround : distance (![0, 0] : Vec 2 ℝ) ![0, 5] (some 6) = 5 := by
      rw [distance_some, hdAB]
      exact_mod_cast npRound_natCast 5
    obtain ⟨-, -, hcomp⟩ := C44_neighbors_partial (by norm_num) hr hA truncIndices truncPositions
      hlen hnd halpha hok
    have := hcomp (fun y hy => lt_of_lt_of_le (by norm_num) (hraw y hy)) 9 4 _ _ _ _ hp9 hp4 hi9 hi4
      (by norm_num) (by
        rw [hround, configured_comm (by norm_num) hr hA]
        exact hconf) (by
        rw [← hk]
        refine le_trans ?_ hk2
        unfold closer
        rw [← filter_range_getD]
        have hsub : ((List.range truncPositions.length).filter fun a => decide (distance
            (truncPositions.getD a 0) ![0, 5] ≤ distance (![0, 0] : Vec 2 ℝ) ![0, 5])) ⊆ [4, 9] := by
          intro a ha
          obtain ⟨h1, h2⟩ := List.mem_filter.1 ha
          rw [List.mem_range, hl10] at h1
          rw [decide_eq_true_eq, hdAB] at h2
          rcases Nat.lt_or_ge a 9 with h | h
          · rw [hgetA a h, hdist, Real.sqrt_le_left (by norm_num)] at h2
            simp at h2
            have h3 : ((a : ℝ) - 4) ^ 2 ≤ 0 := by nlinarith
            have h4 : (a : ℝ) - 4 = 0 := by nlinarith [sq_nonneg ((a : ℝ) - 4)]
            have h5 : (a : ℝ) = (4 : ℕ) := by push_cast; linarith
            have h6 : a = 4 := by exact_mod_cast h5
            simp [h6]
          · have : a = 9 := by omega
            simp [this]
        exact ((List.nodup_range.filter _).subperm hsub).length_le)
    rwa [hround] at this
  · -- A does not list B
    rintro x ⟨row, hrow, hmemx⟩
    obtain ⟨row', sel, r1, -, -, -, r5, r6, r7, r8, r9, -⟩ := hrows 4 _ _ hp4 hi4
    rw [hrow] at r1
    cases r1
    obtain ⟨h9, -⟩ := (mem_links r5 9 x).1 hmemx
    have hall : ∀ a, a < 9 → a ≠ 4 → a ∈ sel := by
      intro a ha ha4
      by_contra hc
      have hda : distance (truncPositions.getD a 0) ![0, 0] < 5 := by
        rw [hgetA a ha, hdist, Real.sqrt_lt' (by norm_num)]
        have h1 : (a : ℝ) ≤ 8 := by exact_mod_cast (by omega : a ≤ 8)
        have h2 : (0 : ℝ) ≤ a := by positivity
        simp
        nlinarith
      obtain ⟨-, h⟩ := r9 a (by omega) ha4 (hda.trans hmd5) hc
      have := h 9 h9
      rw [hgetB, hdBA] at this
      linarith
    have hsub : [0, 1, 2, 3, 5, 6, 7, 8, 9] ⊆ sel := by
      intro a ha
      simp only [List.mem_cons, List.not_mem_nil, or_false] at ha
      by_cases h : a = 9
      · rw [h]; exact h9
      · exact hall a (by omega) (by omega)
    have := ((by decide : [0, 1, 2, 3, 5, 6, 7, 8, 9].Nodup).subperm hsub).length_le
    simp only [List.length_cons, List.length_nil] at this
    omega

/-- The hypotheses of `C44_neighbors_partial`, `C45_rows` and `C45_symmetric_partial` hold for the
lattice of `trunc_witness` with sites `truncPositions`. -/
example (env : Env ℝ) : ∃ (w : World 2 ℝ) (A : Analysis 2 ℝ)
    (table : List (List (ℕ × WithTop ℝ))), Reachable env w ∧ w.struct.analysis = some A ∧
    computeNeighbors env w.struct truncIndices truncPositions = .ok table ∧ Linked table 9 4 5 := by
  obtain ⟨w, A, table, hr, hv, hp, hA, hok, hconf, hyes, hno⟩ := trunc_witness env
  exact ⟨w, A, table, hr, hA, hok, hyes⟩

/-- Rectangular lattice with lattice constants 1 and 10, atom A at (0,0), atom B at (0,5), all
connected to their nearest neighbours, so A and B are neighbours at distance 5.  Of the nine A-sites
at (-4,0) to (4,0) and the B-site at (0,5), the A-site at the origin and the B-site have this
distance, but the table does not list B as neighbour of A: the tree query is limited to 8 neighbours,
and there are 8 A-sites closer to the origin. -/
theorem C44_truncated_fails (env : Env ℝ) :
    ∃ (w : World 2 ℝ) (A : Analysis 2 ℝ) (table : List (List (ℕ × WithTop ℝ))), Reachable env w ∧
      w.struct.basis.vectors = rectRows ∧ w.struct.positions = [![0, 0], ![0, 5]] ∧
      w.struct.analysis = some A ∧
      computeNeighbors env w.struct truncIndices truncPositions = .ok table ∧
      (∀ (i : ℕ) (p : Vec 2 ℝ) (a : Idx 2), truncPositions[i]? = some p → truncIndices[i]? = some a →
        IsSitePos w.struct a p) ∧
      truncIndices[4]? = some (Idx.mk ![0, 0] 0) ∧ truncPositions[4]? = some ![0, 0] ∧
      truncIndices[9]? = some (Idx.mk ![0, 0] 1) ∧ truncPositions[9]? = some ![0, 5] ∧
      distance (![0, 5] : Vec 2 ℝ) ![0, 0] (some 6) = 5 ∧
      Configured A 0 1 5 ∧ ∀ x, ¬ Linked table 4 9 x := by
  obtain ⟨w, A, table, hr, hv, hp, hA, hok, hconf, -, hno⟩ := trunc_witness env
  refine ⟨w, A, table, hr, hv, hp, hA, hok, ?_, by decide, ?_, by decide, ?_, ?_, hconf, hno⟩
  · intro i p a h1 h2
    rcases trunc_getElem h1 h2 with ⟨-, rfl, rfl⟩ | ⟨-, rfl, rfl⟩
    · refine ⟨0, ![0, 0], by simp, by rw [hp]; rfl, ?_⟩
      ext k
      fin_cases k <;> simp [hv, rectRows, Fin.sum_univ_two]
    · refine ⟨1, ![0, 5], by simp, by rw [hp]; rfl, ?_⟩
      ext k
      fin_cases k <;> simp [hv, rectRows, Fin.sum_univ_two]
  · simp [truncPositions, List.range_succ]
  · simp [truncPositions, List.range_succ]
  · have : distance (![0, 5] : Vec 2 ℝ) ![0, 0] = 5 := by
      unfold distance
      rw [hasSqrt_real]
      simp [Fin.sum_univ_two]
    rw [distance_some, this]
    exact_mod_cast npRound_natCast 5

/-- The lattice of `C44_truncated_fails`: the B-site lists the A-site at the origin as neighbour at
distance 5, but the A-site does not list the B-site: the neighbour relation is not symmetric. -/
theorem C45_asymmetric_fails (env : Env ℝ) :
    ∃ (w : World 2 ℝ) (table : List (List (ℕ × WithTop ℝ))), Reachable env w ∧
      w.struct.basis.vectors = rectRows ∧ w.struct.positions = [![0, 0], ![0, 5]] ∧
      computeNeighbors env w.struct truncIndices truncPositions = .ok table ∧
      Linked table 9 4 5 ∧ ∀ x, ¬ Linked table 4 9 x := by
  obtain ⟨w, A, table, hr, hv, hp, hA, hok, hconf, hyes, hno⟩ := trunc_witness env
  exact ⟨w, table, hr, hv, hp, hok, hyes, hno⟩

end Lattpy
