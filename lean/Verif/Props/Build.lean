import Verif.Lemmas.Build
import Verif.Props.StructureQuery

/-!
# Properties of the construction of finite lattices (C40, C41, C42, C43)
-/

set_option autoImplicit false
set_option linter.unusedSectionVars false

namespace Lattpy

open Structure World

variable {d : ℕ}

/-! ## spec -/

/-- `c` are the coordinates of `x` in the basis of the lattice. -/
def IsFrac (b : LatticeBasis d ℝ) (x c : Vec d ℝ) : Prop := ∀ i, x i = ∑ k, c k * b.vectors k i

/-- The region described by the `shape` and `pos` arguments. -/
def InRegion (shape : ShapeArg d ℝ) (pos : Option (Vec d ℝ)) (p : Vec d ℝ) : Prop :=
  match shape with
  | .shape s => s.contains p 0 = .ok true
  | .size dims _ => ∃ size : Vec d ℝ, dims = List.ofFn size ∧
      ∀ k, pos.getD 0 k ≤ p k ∧ p k ≤ pos.getD 0 k + size k

/-- `lo` and `hi` are the lower and upper limits of the region. -/
def RegionBox (shape : ShapeArg d ℝ) (pos : Option (Vec d ℝ)) (lo hi : Vec d ℝ) : Prop :=
  match shape with
  | .shape s => s.HullOk ∧ ∃ l, s.limits = .ok l ∧ ∀ k, l k = (lo k, hi k)
  | .size dims _ => lo = pos.getD 0 ∧ dims = List.ofFn (hi - lo)

/-- Integers in `[m, M]`, enlarged by one on both sides, can be enumerated in the index type: a
signed type of the given width, or the default type chosen from the limits. -/
def WideEnough (bits : Option ℕ) (m M : ℤ) : Prop :=
  match bits with
  | some w => 0 < w ∧ M - m + 2 ≤ 2 ^ (w - 1)
  | none => M - m + 2 ≤ 2 ^ 7 ∨ 0 ≤ m

/-! ## lemmas -/

theorem isFrac_iff {rows : Matrix (Fin d) (Fin d) ℝ} {b : LatticeBasis d ℝ}
    (hb : LatticeBasis.init rows = .ok b) (x c : Vec d ℝ) : IsFrac b x c ↔ b.itransform x = c := by
  have h1 : IsFrac b x c ↔ x = b.transform c := by
    unfold IsFrac LatticeBasis.transform LatticeBasis.vectors
    rw [funext_iff]
    refine forall_congr' fun i => ?_
    simp only [Matrix.mulVec, dotProduct, Matrix.transpose_apply]
    rw [Finset.sum_congr rfl fun k _ => mul_comm (c k) _]
  rw [h1]
  constructor
  · rintro rfl; exact LatticeBasis.itransform_transform hb c
  · rintro rfl; exact (LatticeBasis.transform_itransform hb x).symm

theorem isSitePos_iff {S : Structure d ℝ} (hS : S.positions.length = S.numBase) (idx : Idx d)
    (p : Vec d ℝ) :
    IsSitePos S idx p ↔ (∃ b : ℕ, b < S.numBase ∧ idx.alpha = b) ∧ p = S.sitePos idx := by
  unfold IsSitePos sitePos
  constructor
  · rintro ⟨b, r, hb, hr, rfl⟩
    refine ⟨⟨b, ?_, hb⟩, ?_⟩
    · rw [← hS]; exact (List.getElem?_eq_some_iff.1 hr).1
    · rw [hb, Int.toNat_natCast, posOf_eq hr, LatticeBasis.translate_eq]
  · rintro ⟨⟨b, hlt, hb⟩, rfl⟩
    have hr : S.positions[b]? = some (S.positions[b]'(by omega)) := List.getElem?_eq_getElem _
    refine ⟨b, _, hb, hr, ?_⟩
    rw [hb, Int.toNat_natCast, posOf_eq hr, LatticeBasis.translate_eq]

theorem numBase_pos {S : Structure d ℝ} (hS : S.positions.length = S.numBase)
    {shape : ShapeArg d ℝ} {primitive : Bool} {pos : Option (Vec d ℝ)}
    {check : Bool} {callback : Option (List (Idx d) → List (Vec d ℝ) → List Bool)}
    {bits : Option ℕ} {r : List (Idx d) × List (Vec d ℝ)}
    (h : S.buildIndices shape primitive pos check callback bits = .ok r) : 0 < S.numBase := by
  by_contra h0
  have hp : S.positions = [] := List.length_eq_zero_iff.1 (by omega)
  unfold buildIndices at h
  rw [hp] at h
  cases hn : S.buildTranslationVectors shape primitive pos false bits 0 with
  | error e => rw [hn] at h; cases h
  | ok nvecs =>
    rw [hn] at h
    dsimp only [List.map_nil] at h
    cases hs : stackIndices S.numBase nvecs with
    | error e => rw [hs] at h; cases h
    | ok idx => rw [hs] at h; cases h

theorem region_limits {S : Structure d ℝ} {shape : ShapeArg d ℝ} {pos : Option (Vec d ℝ)}
    {lo hi : Vec d ℝ} (h : RegionBox shape pos lo hi) :
    S.buildRegion shape false pos = .ok (lo, hi - lo) ∧
      ∀ p, InRegion shape pos p → ∀ k, lo k ≤ p k ∧ p k ≤ hi k := by
  cases shape with
  | shape s =>
    obtain ⟨hh, l, hl, hlk⟩ := h
    constructor
    · unfold buildRegion
      dsimp only
      rw [hl]
      simp only [Bool.false_eq_true, if_false, Except.ok.injEq, Prod.mk.injEq]
      exact ⟨by funext k; rw [hlk], by funext k; rw [hlk]; rfl⟩
    · intro p hp k
      obtain ⟨l', hl', hk⟩ := C27_contains_within_limits s hh p hp
      rw [hl] at hl'
      cases hl'
      have := hk k
      rwa [hlk] at this
  | size dims isInt =>
    obtain ⟨rfl, hd⟩ := h
    constructor
    · unfold buildRegion
      dsimp only
      rw [hd, toVec_ofFn]
      simp
    · rintro p ⟨size, hs, hp⟩ k
      rw [hd] at hs
      have := List.ofFn_injective hs
      have h1 := hp k
      rw [← this] at h1
      simpa using h1

/-- Sites in the region are accepted by `check_points`. -/
theorem accepts_of_inRegion {S : Structure d ℝ} {shape : ShapeArg d ℝ} {pos : Option (Vec d ℝ)}
    {p : Vec d ℝ} (h : InRegion shape pos p) : S.accepts shape false pos (1 / 1000) p = true := by
  cases shape with
  | shape s =>
    unfold accepts
    have := C28_tolerance_monotone s p 0 (1 / 1000) (by norm_num) h
    dsimp only
    rw [this]
  | size dims isInt =>
    obtain ⟨size, rfl, hp⟩ := h
    unfold accepts
    dsimp only
    rw [toVec_ofFn]
    simp only [Bool.false_eq_true, if_false, decide_eq_true_eq]
    intro k
    have := hp k
    constructor
    · linarith [this.1]
    · linarith [this.2]

/-! ## C40: completeness -/

/-- C40 for atoms with lattice coordinates in `[0, 2)` and an index type that is wide enough, if for
every lattice coordinate either the coordinate grows along all Cartesian directions, or the region
is in the first orthant and the coordinate does not decrease in some direction of the orthant
(all coordinates decreasing in all directions is possible only for bases like `-e_x`).
The integers `m` and `M` bound the lattice coordinates of the region enlarged to the origin. -/
theorem C40_region_partial (hd : 0 < d) {env : Env ℝ} {w : World d ℝ} (h : Reachable env w)
    {shape : ShapeArg d ℝ} {pos : Option (Vec d ℝ)} {lo hi : Vec d ℝ}
    (hbox : RegionBox shape pos lo hi) {bits : Option ℕ} {r : List (Idx d) × List (Vec d ℝ)}
    (hr : w.struct.buildIndices shape false pos true none bits = .ok r)
    (hatoms : ∀ p ∈ w.struct.positions, ∃ c, IsFrac w.struct.basis p c ∧ ∀ k, 0 ≤ c k ∧ c k < 2)
    (hdir : ∀ k, (∀ x c : Vec d ℝ, IsFrac w.struct.basis x c → (∀ i, 0 ≤ x i) → 0 ≤ c k) ∨
      ((∀ i, 0 ≤ lo i) ∧ ∃ x c : Vec d ℝ, IsFrac w.struct.basis x c ∧ (∀ i, 0 ≤ x i) ∧ x ≠ 0 ∧
        0 ≤ c k))
    {m M : ℤ} (hB : ∀ x c : Vec d ℝ, IsFrac w.struct.basis x c →
      (∀ i, min 0 (lo i) ≤ x i ∧ x i ≤ max 0 (hi i)) → ∀ k, (m : ℝ) ≤ c k ∧ c k ≤ M)
    (hw : WideEnough bits m M) {idx : Idx d} {p : Vec d ℝ} (hp : IsSitePos w.struct idx p)
    (hin : InRegion shape pos p) :
    ∃ i : ℕ, r.1[i]? = some idx ∧ r.2[i]? = some p := by
  have hG := h.good hd
  obtain ⟨rows, hb⟩ := hG.basis
  have h0 := numBase_pos hG.positions_length hr
  obtain ⟨nvecs, L, hnv, hL, -, hrr⟩ := buildIndices_ok hG.positions_length h0 hr
  obtain ⟨hreg, hlim⟩ := region_limits (S := w.struct) hbox
  have hpl := hlim p hin
  rw [buildTranslationVectors_eq _ hd, hreg] at hnv
  dsimp only at hnv
  have hsum : ∀ j, lo j + (hi - lo) j = hi j := by intro j; simp
  have hcov : ∀ k, (w.struct.searchLimits lo (hi - lo) k).1 ≤ idx.cell k ∧
      idx.cell k < (w.struct.searchLimits lo (hi - lo) k).2 := by
    intro k
    obtain ⟨b, ra, hb1, hb2, rfl⟩ := hp
    obtain ⟨c, hc, hck⟩ := hatoms ra (List.mem_of_getElem? hb2)
    have hit := LatticeBasis.itransform_translate hb idx.cell ra
    rw [(isFrac_iff hb _ _).1 hc, LatticeBasis.translate_eq] at hit
    refine window_covers (c := c) (fun j => ⟨(hpl j).1, by rw [hsum]; exact (hpl j).2⟩) ?_ (hck k)
      (congrFun hit k)
    have hW : ∀ j, w.struct.basis.itransform (Pi.single j 1) k = w.struct.basis.Vinv k j := by
      intro j
      rw [itransform_apply, Finset.sum_eq_single j (by intro i _ hi; simp [hi]) (by simp)]
      simp
    rcases hdir k with hk | ⟨hs, x, cx, hx, hx0, hxne, hxk⟩
    · left
      intro j
      rw [← hW]
      refine hk (Pi.single j 1) _ ((isFrac_iff hb _ _).2 rfl) ?_
      intro i
      by_cases hij : i = j
      · subst hij; simp
      · simp [hij]
    · right
      refine ⟨hs, ?_⟩
      by_contra hneg
      push Not at hneg
      rw [← (isFrac_iff hb _ _).1 hx, itransform_apply] at hxk
      obtain ⟨i, hi'⟩ : ∃ i, x i ≠ 0 := by
        by_contra hall
        push Not at hall
        exact hxne (funext hall)
      have : ∑ j, w.struct.basis.Vinv k j * x j < 0 := by
        refine Finset.sum_neg' (fun j _ => mul_nonpos_of_nonpos_of_nonneg (hneg j).le (hx0 j))
          ⟨i, Finset.mem_univ i, ?_⟩
        exact mul_neg_of_neg_of_pos (hneg i) (lt_of_le_of_ne (hx0 i) (Ne.symm hi'))
      linarith
  have hbnd : ∀ k, m - 1 ≤ (w.struct.searchLimits lo (hi - lo) k).1 ∧
      (w.struct.searchLimits lo (hi - lo) k).2 ≤ M + 1 := by
    refine window_bounds ?_ ?_
    · intro j; rw [hsum]; exact (hpl j).1.trans (hpl j).2
    · intro x hx k
      exact hB x _ ((isFrac_iff hb _ _).2 rfl) (fun i => by have := hx i; rwa [hsum] at this) k
  obtain ⟨nv, hnv', hmem, -, -⟩ := vindices_spec (w.struct.searchLimits lo (hi - lo))
    (fun k => by have := hcov k; omega) (some ⟨0, hd⟩) bits (by
      intro k i hi0 hi1
      refine indexWrap_of_lt (k := k) _ ?_ hi0 hi1
      have hk := hbnd k
      unfold WideEnough at hw
      cases bits with
      | some w' => exact ⟨hw.1, by have := hw.2; omega⟩
      | none =>
        rcases hw with hw | hw
        · left; omega
        · right; omega)
  rw [hnv'] at hnv
  cases hnv
  obtain ⟨hα, hpp⟩ := (isSitePos_iff hG.positions_length idx p).1 hp
  have hidx : idx ∈ L := by
    rw [hL]
    refine List.mem_filter.2 ⟨mem_siteList.2 ⟨(hmem _).2 hcov, hα⟩, ?_⟩
    rw [← hpp, accepts_of_inRegion hin]
    simp
  obtain ⟨i, hi⟩ := List.mem_iff_getElem?.1 hidx
  dsimp only at hrr
  refine ⟨i, by rw [hrr]; exact hi, ?_⟩
  rw [hrr]
  simp [List.getElem?_map, hi, hpp]

/-- Rows of a sheared basis. -/
def shearRows : Matrix (Fin 2) (Fin 2) ℝ := !![1, 0; 1, 1]

theorem shear_frac {b : LatticeBasis 2 ℝ} (hb : LatticeBasis.init shearRows = .ok b) (x : Vec 2 ℝ) :
    b.itransform x = ![x 0 - x 1, x 1] := by
  refine (isFrac_iff hb _ _).1 fun i => ?_
  rw [LatticeBasis.init_vectors hb]
  fin_cases i <;> simp [shearRows, Fin.sum_univ_two]

/-- C40 fails for sheared bases away from the origin: with the basis vectors (1,0) and (1,1) the box
[-10,10]² does not get the site (20,-10) at its corner (10,-10), since only corners with coordinates
set to 0 (instead of the lower limits) are considered for the search window. -/
theorem C40_shear_fails (env : Env ℝ) :
    ∃ (w : World 2 ℝ) (shape : ShapeArg 2 ℝ) (r : List (Idx 2) × List (Vec 2 ℝ)),
      Reachable env w ∧ w.struct.basis.vectors = !![1, 0; 1, 1] ∧ w.struct.positions = [0] ∧
      shape = .size (List.ofFn ![20, 20]) false ∧
      w.struct.buildIndices shape false (some ![-10, -10]) true none none = .ok r ∧
      IsSitePos w.struct (Idx.mk ![20, -10] 0) ![10, -10] ∧
      InRegion shape (some ![-10, -10]) ![10, -10] ∧ Idx.mk ![20, -10] 0 ∉ r.1 := by
  obtain ⟨b, hb⟩ := (LatticeBasis.init_eq_ok_iff shearRows).2 (by
    rw [shearRows, Matrix.det_fin_two_of]; norm_num)
  obtain ⟨w, A, cells, c, hr, hbas, hp, hn, -⟩ :=
    exists_structure (by norm_num) env hb [0] (by simp) (by simp) Nat.one_pos
  have hG := hr.good (by norm_num)
  have hn1 : w.struct.numBase = 1 := by rw [hn]; rfl
  have hfr := shear_frac hb
  rw [← hbas] at hfr
  -- the window
  have hup : (w.struct.searchLimits (![-10, -10]) ![20, 20] 0).2 ≤ 11 := by
    obtain ⟨-, q, hq, h⟩ := indexRange_attained w.struct ![-10, -10]
      (fun k => (![-10, -10] : Vec 2 ℝ) k + (![20, 20] : Vec 2 ℝ) k) 0
    unfold searchLimits
    dsimp only
    rw [h, hfr]
    have h0 : q 0 ≤ 10 := by rcases hq 0 with h | h <;> rw [h] <;> norm_num
    have h1 : 0 ≤ q 1 := by
      rcases hq 1 with h | h
      · rw [h]
      · rw [h]; norm_num
    have : ⌊(![q 0 - q 1, q 1] : Vec 2 ℝ) 0⌋ < 11 := by
      rw [Int.floor_lt]
      simp only [Matrix.cons_val_zero]
      push_cast
      linarith
    omega
  have hbnd : ∀ k, (-21 : ℤ) - 1 ≤ (w.struct.searchLimits (![-10, -10]) ![20, 20] k).1 ∧
      (w.struct.searchLimits (![-10, -10]) ![20, 20] k).2 ≤ 21 + 1 := by
    refine window_bounds (by intro j; fin_cases j <;> norm_num) ?_
    intro x hx k
    rw [hfr]
    have h0 := hx 0
    have h1 := hx 1
    norm_num at h0 h1
    fin_cases k
    · simp only [Fin.zero_eta, Matrix.cons_val_zero]
      push_cast
      constructor <;> linarith [h0.1, h0.2, h1.1, h1.2]
    · simp only [Fin.mk_one, Matrix.cons_val_one, Matrix.cons_val_fin_one]
      push_cast
      constructor <;> linarith [h1.1, h1.2]
  have hle : ∀ k, (w.struct.searchLimits (![-10, -10]) ![20, 20] k).1 ≤
      (w.struct.searchLimits (![-10, -10]) ![20, 20] k).2 := by
    intro k
    obtain ⟨h1, h2, -⟩ := indexRange_bounds w.struct ![-10, -10]
      (fun k => (![-10, -10] : Vec 2 ℝ) k + (![20, 20] : Vec 2 ℝ) k) k
    unfold searchLimits
    dsimp only
    have h3 : ⌊w.struct.basis.itransform ![-10, -10] k⌋ ≤ ⌊w.struct.basis.itransform
        (fun k => (![-10, -10] : Vec 2 ℝ) k + (![20, 20] : Vec 2 ℝ) k) k⌋ := by
      refine Int.floor_le_floor ?_
      rw [hfr, hfr]
      fin_cases k <;> norm_num
    omega
  obtain ⟨nv, hnv, hmem, -, -⟩ := vindices_spec (w.struct.searchLimits (![-10, -10]) ![20, 20]) hle
    (some ⟨0, by norm_num⟩) none (by
      intro k i hi0 hi1
      refine indexWrap_of_lt (k := k) _ ?_ hi0 hi1
      have := hbnd k
      left; norm_num; omega)
  obtain ⟨r, h1, h2⟩ := buildIndices_size (by norm_num) hG.positions_length (by omega) ![20, 20] false
    (some ![-10, -10]) none hnv
  refine ⟨w, _, r, hr, ?_, hp, rfl, h1, ?_, ⟨_, rfl, ?_⟩, ?_⟩
  · rw [hbas, LatticeBasis.init_vectors hb]; rfl
  · refine ⟨0, 0, rfl, by rw [hp]; rfl, ?_⟩
    rw [hbas, LatticeBasis.init_vectors hb]
    funext k
    fin_cases k
    · simp [shearRows, Fin.sum_univ_two]; norm_num
    · simp [shearRows, Fin.sum_univ_two]
  · intro k
    fin_cases k <;> norm_num
  · rw [h2]
    rintro ⟨h3, -⟩
    have := ((hmem _).1 h3 0).2
    simp at this
    omega

theorem chain_itransform (a : ℝ) (x : Vec 1 ℝ) (k : Fin 1) :
    (chainBasis a).itransform x k = a⁻¹ * x 0 := by
  rw [itransform_apply]
  simp [chainBasis, chainRows]

/-- The search window of a chain. -/
theorem chain_searchLimits {S : Structure 1 ℝ} {a : ℝ} (hb : S.basis = chainBasis a)
    (start size : Vec 1 ℝ) (k : Fin 1) :
    S.searchLimits start size k = (⌊a⁻¹ * start 0⌋ - 1, ⌊a⁻¹ * (start 0 + size 0)⌋ + 1) := by
  unfold searchLimits
  have : S.indexRange start (fun k => start k + size k) k =
      (⌊S.basis.itransform start k⌋, ⌊S.basis.itransform (fun k => start k + size k) k⌋) := rfl
  rw [this, hb, chain_itransform, chain_itransform]

/-- C40 fails for atoms with negative coordinates: the chain with lattice constant 1 and the atom at
-1/2 has a site at 3/2 (cell 2), which is missing in the built chain of length 3/2. -/
theorem C40_shifted_atom_fails (env : Env ℝ) :
    ∃ (w : World 1 ℝ) (shape : ShapeArg 1 ℝ) (r : List (Idx 1) × List (Vec 1 ℝ)),
      Reachable env w ∧ w.struct.basis.vectors 0 0 = 1 ∧ w.struct.positions = [fun _ => -1 / 2] ∧
      shape = .size (List.ofFn fun _ : Fin 1 => (3 / 2 : ℝ)) false ∧
      w.struct.buildIndices shape false none true none none = .ok r ∧
      IsSitePos w.struct (Idx.mk (fun _ => 2) 0) (fun _ => 3 / 2) ∧
      InRegion shape none (fun _ => 3 / 2) ∧ Idx.mk (fun _ => 2) 0 ∉ r.1 := by
  obtain ⟨w, A, cells, c, hr, hb, hp, hn, -⟩ := exists_chain env (a := 1) one_pos (-1 / 2) Nat.one_pos
  have hG := hr.good Nat.one_pos
  have hlim : ∀ k, w.struct.searchLimits 0 (fun _ => 3 / 2) k = (-1, 2) := by
    intro k
    rw [chain_searchLimits hb]
    have e1 : ⌊(1 : ℝ)⁻¹ * (0 : Vec 1 ℝ) 0⌋ = 0 := by simp
    have e2 : ⌊(1 : ℝ)⁻¹ * ((0 : Vec 1 ℝ) 0 + 3 / 2)⌋ = 1 := by
      rw [Int.floor_eq_iff]; norm_num
    rw [e1, e2]; rfl
  obtain ⟨nv, hnv, hmem, -, -⟩ := vindices_spec (w.struct.searchLimits 0 fun _ => 3 / 2)
    (by intro k; rw [hlim]; norm_num) (some ⟨0, Nat.one_pos⟩) none (by
      intro k i hi0 hi1
      refine indexWrap_of_lt (k := k) _ ?_ hi0 hi1
      rw [hlim]
      left; norm_num)
  obtain ⟨r, h1, h2⟩ := buildIndices_size Nat.one_pos hG.positions_length (by omega)
    (fun _ => 3 / 2) false none none hnv
  refine ⟨w, _, r, hr, by rw [hb, chain_vectors], hp, rfl, h1, ?_, ⟨_, rfl, ?_⟩, ?_⟩
  · refine ⟨0, _, rfl, by rw [hp]; rfl, ?_⟩
    funext k
    simp [hb, chain_vectors]
    norm_num
  · intro k; simp; norm_num
  · rw [h2]
    rintro ⟨h3, -⟩
    have := (hmem _).1 h3 0
    rw [hlim] at this
    simp at this

/-- C40 fails for large boxes around the origin: the index limits (-101, 101) of the chain with
lattice constant 1 in the box [-100,100] fit into `int8`, but the numbers of the 202 cells do not:
the site at 50 is missing. -/
theorem C40_index_type_fails (env : Env ℝ) :
    ∃ (w : World 1 ℝ) (shape : ShapeArg 1 ℝ) (r : List (Idx 1) × List (Vec 1 ℝ)),
      Reachable env w ∧ w.struct.basis.vectors 0 0 = 1 ∧ w.struct.positions = [fun _ => 0] ∧
      shape = .size (List.ofFn fun _ : Fin 1 => (200 : ℝ)) false ∧
      w.struct.buildIndices shape false (some fun _ => -100) true none none = .ok r ∧
      IsSitePos w.struct (Idx.mk (fun _ => 50) 0) (fun _ => 50) ∧
      InRegion shape (some fun _ => -100) (fun _ => 50) ∧ Idx.mk (fun _ => 50) 0 ∉ r.1 := by
  obtain ⟨w, A, cells, c, hr, hb, hp, hn, -⟩ := exists_chain env (a := 1) one_pos 0 Nat.one_pos
  have hG := hr.good Nat.one_pos
  have hlim : w.struct.searchLimits (fun _ => -100) (fun _ => 200) = fun _ => (-101, 101) := by
    funext k
    rw [chain_searchLimits hb]
    have e1 : ⌊(1 : ℝ)⁻¹ * (-100)⌋ = -100 := by
      rw [Int.floor_eq_iff]; norm_num
    have e2 : ⌊(1 : ℝ)⁻¹ * (-100 + 200)⌋ = 100 := by
      rw [Int.floor_eq_iff]; norm_num
    rw [e1, e2]; rfl
  have hnv : ∃ nv, vindices (w.struct.searchLimits (fun _ => -100) fun _ => 200)
      (some ⟨0, Nat.one_pos⟩) none = .ok nv ∧ (fun _ => 50) ∉ nv := by
    rw [hlim]
    refine ⟨_, rfl, ?_⟩
    rw [(stableSortBy_perm _ _).mem_iff]
    intro hmem
    obtain ⟨v, hv, hv'⟩ := List.mem_map.1 hmem
    have h1 := (mem_boxList _ _).1 hv 0
    obtain ⟨i, -, hi⟩ := List.mem_map.1 h1
    have h2 := congrFun hv' 0
    dsimp only at h2
    have hwrap : indexWrap (fun _ : Fin 1 => ((-101 : ℤ), (101 : ℤ))) none (i : ℤ) =
        wrapSigned 8 i := rfl
    rw [hwrap] at hi
    have h3 : wrapSigned 8 (i : ℤ) < 128 := by
      unfold wrapSigned
      have := Int.bmod_lt (x := (i : ℤ)) (m := 2 ^ 8) (by norm_num)
      norm_num at this ⊢
      omega
    omega
  obtain ⟨nv, hnv, hnot⟩ := hnv
  obtain ⟨r, h1, h2⟩ := buildIndices_size Nat.one_pos hG.positions_length (by omega)
    (fun _ => 200) false (some fun _ => -100) none hnv
  refine ⟨w, _, r, hr, by rw [hb, chain_vectors], hp, rfl, h1, ?_, ⟨_, rfl, ?_⟩, ?_⟩
  · refine ⟨0, _, rfl, by rw [hp]; rfl, ?_⟩
    funext k
    simp [hb, chain_vectors]
  · intro k; norm_num
  · rw [h2]
    rintro ⟨h3, -⟩
    rw [Idx.cell_mk] at h3
    exact hnot h3

/-- C40 fails for chains with a negative basis vector: the limits of the search window are in the
wrong order, and the build raises `ValueError` for every length of at least 3. -/
theorem C40_negative_fails (env : Env ℝ) (L : ℝ) (hL : 3 ≤ L) :
    ∃ w : World 1 ℝ, Reachable env w ∧ w.struct.basis.vectors 0 0 = -1 ∧ w.struct.positions = [0] ∧
      w.struct.buildIndices (.size (List.ofFn fun _ : Fin 1 => L) false) false none true none none =
        .error .value := by
  obtain ⟨b, hb⟩ := (LatticeBasis.init_eq_ok_iff (Matrix.of fun _ _ : Fin 1 => (-1 : ℝ))).2 (by simp)
  obtain ⟨w, A, cells, c, hr, hbas, hp, hn, -⟩ :=
    exists_structure Nat.one_pos env hb [0] (by simp) (by simp) Nat.one_pos
  have hG := hr.good Nat.one_pos
  have hv := LatticeBasis.init_vectors hb
  have hfr : ∀ x, b.itransform x = fun _ => - x 0 := by
    intro x
    refine (isFrac_iff hb _ _).1 fun i => ?_
    rw [hv]
    have : i = 0 := Subsingleton.elim _ _
    subst this
    simp
  refine ⟨w, hr, by rw [hbas, hv]; rfl, hp, ?_⟩
  rw [buildIndices_eq hG.positions_length (by rw [hn]; simp), buildTranslationVectors_eq _ Nat.one_pos]
  have hreg : w.struct.buildRegion (.size (List.ofFn fun _ : Fin 1 => L) false) false none =
      .ok (0, fun _ => L) := by
    unfold buildRegion
    dsimp only
    rw [toVec_ofFn]
    rfl
  rw [hreg]
  dsimp only
  have hvi : vindices (w.struct.searchLimits 0 fun _ => L) (some ⟨0, Nat.one_pos⟩) none =
      .error .value := by
    unfold vindices
    dsimp only
    rw [if_pos]
    rw [List.any_eq_true]
    refine ⟨0, by simp, ?_⟩
    rw [decide_eq_true_eq]
    have e : w.struct.searchLimits 0 (fun _ => L) 0 = (⌊w.struct.basis.itransform 0 0⌋ - 1,
        ⌊w.struct.basis.itransform (fun k => (0 : Vec 1 ℝ) k + L) 0⌋ + 1) := rfl
    rw [e, hbas, hfr, hfr]
    have h1 : ⌊-(0 : Vec 1 ℝ) 0⌋ = 0 := by simp
    have h2 : ⌊-((0 : Vec 1 ℝ) 0 + L)⌋ ≤ -3 := by
      have : ((⌊-((0 : Vec 1 ℝ) 0 + L)⌋ : ℤ) : ℝ) ≤ ((-3 : ℤ) : ℝ) := by
        refine (Int.floor_le _).trans ?_
        simp; linarith
      exact_mod_cast this
    dsimp only
    rw [h1]
    omega
  rw [hvi]

/-- Non-vacuity of `C40_region_partial`: the lattice with basis vectors (1,1) and (1,-1), atoms at
(0,0) and (1,0), in the box [0,20]². -/
example (env : Env ℝ) : ∃ (w : World 2 ℝ) (r : List (Idx 2) × List (Vec 2 ℝ)), Reachable env w ∧
    w.struct.basis.vectors = !![1, 1; 1, -1] ∧ w.struct.positions = [![0, 0], ![1, 0]] ∧
    w.struct.buildIndices (.size (List.ofFn ![20, 20]) false) false none true none none = .ok r ∧
    ∀ (idx : Idx 2) (p : Vec 2 ℝ), IsSitePos w.struct idx p → (∀ k, 0 ≤ p k ∧ p k ≤ 20) →
      ∃ i : ℕ, r.1[i]? = some idx ∧ r.2[i]? = some p := by
  obtain ⟨b, hb⟩ := (LatticeBasis.init_eq_ok_iff (!![1, 1; 1, -1] : Matrix (Fin 2) (Fin 2) ℝ)).2 (by
    rw [Matrix.det_fin_two_of]; norm_num)
  obtain ⟨w, A, cells, c, hr, hbas, hp, hn, -⟩ :=
    exists_structure (by norm_num) env hb [![0, 0], ![1, 0]] (by
      simp only [List.nodup_cons, List.mem_singleton, List.not_mem_nil, not_false_eq_true,
        List.nodup_nil, and_true]
      intro h
      have := congrFun h 0
      norm_num at this) (by simp) Nat.one_pos
  have hG := hr.good (by norm_num)
  have hv := LatticeBasis.init_vectors hb
  have hfr : ∀ x : Vec 2 ℝ, IsFrac w.struct.basis x ![(x 0 + x 1) / 2, (x 0 - x 1) / 2] := by
    intro x i
    rw [hbas, hv]
    fin_cases i <;> simp [Fin.sum_univ_two] <;> ring
  have huniq : ∀ x c : Vec 2 ℝ, IsFrac w.struct.basis x c →
      c = ![(x 0 + x 1) / 2, (x 0 - x 1) / 2] := by
    intro x c hc
    rw [hbas] at hc
    have h1 := hfr x
    rw [hbas] at h1
    rw [← (isFrac_iff hb _ _).1 hc, (isFrac_iff hb _ _).1 h1]
  have hB : ∀ x c : Vec 2 ℝ, IsFrac w.struct.basis x c →
      (∀ i, min 0 ((0 : Vec 2 ℝ) i) ≤ x i ∧ x i ≤ max 0 ((![20, 20] : Vec 2 ℝ) i)) →
      ∀ k, ((-10 : ℤ) : ℝ) ≤ c k ∧ c k ≤ (20 : ℤ) := by
    intro x c hc hx k
    rw [huniq x c hc]
    have h0 := hx 0
    have h1 := hx 1
    norm_num at h0 h1
    push_cast
    fin_cases k
    · simp only [Fin.zero_eta, Matrix.cons_val_zero]
      constructor <;> linarith
    · simp only [Fin.mk_one, Matrix.cons_val_one, Matrix.cons_val_fin_one]
      constructor <;> linarith
  have hle : ∀ k, (w.struct.searchLimits 0 ![20, 20] k).1 ≤ (w.struct.searchLimits 0 ![20, 20] k).2 := by
    intro k
    obtain ⟨h1, h2, -⟩ := indexRange_bounds w.struct 0
      (fun k => (0 : Vec 2 ℝ) k + (![20, 20] : Vec 2 ℝ) k) k
    unfold searchLimits
    dsimp only
    have h3 : ⌊w.struct.basis.itransform 0 k⌋ ≤ ⌊w.struct.basis.itransform
        (fun k => (0 : Vec 2 ℝ) k + (![20, 20] : Vec 2 ℝ) k) k⌋ := by
      refine Int.floor_le_floor ?_
      have hit : ∀ x : Vec 2 ℝ, b.itransform x = ![(x 0 + x 1) / 2, (x 0 - x 1) / 2] := by
        intro x
        have := hfr x
        rw [hbas] at this
        exact (isFrac_iff hb _ _).1 this
      rw [hbas, hit, hit]
      fin_cases k <;> norm_num
    omega
  have hbnd : ∀ k, (-10 : ℤ) - 1 ≤ (w.struct.searchLimits 0 ![20, 20] k).1 ∧
      (w.struct.searchLimits 0 ![20, 20] k).2 ≤ 20 + 1 := by
    refine window_bounds (by intro j; fin_cases j <;> norm_num) ?_
    intro x hx k
    exact hB x _ (hbas ▸ (isFrac_iff hb _ _).2 rfl) (by simpa using hx) k
  obtain ⟨nv, hnv, -, -, -⟩ := vindices_spec (w.struct.searchLimits 0 ![20, 20]) hle
    (some ⟨0, by norm_num⟩) none (by
      intro k i hi0 hi1
      refine indexWrap_of_lt (k := k) _ ?_ hi0 hi1
      have := hbnd k
      left; norm_num; omega)
  obtain ⟨r, h1, -⟩ := buildIndices_size (by norm_num) hG.positions_length (by rw [hn]; simp)
    ![20, 20] false none none hnv
  refine ⟨w, r, hr, by rw [hbas, hv], hp, h1, ?_⟩
  intro idx p hidx hpk
  have hbox : RegionBox (.size (List.ofFn ![20, 20]) false) none (0 : Vec 2 ℝ) ![20, 20] :=
    ⟨rfl, by simp⟩
  refine C40_region_partial (by norm_num) hr hbox h1 ?_ ?_ hB
    (Or.inl (by norm_num)) hidx ⟨_, rfl, ?_⟩
  · intro q hq
    refine ⟨_, hfr q, ?_⟩
    rw [hp] at hq
    simp only [List.mem_cons, List.not_mem_nil, or_false] at hq
    intro k
    rcases hq with rfl | rfl <;> fin_cases k <;> norm_num
  · intro k
    right
    refine ⟨by intro i; simp, ![1, 0], _, hfr _, ?_, ?_, ?_⟩
    · intro i; fin_cases i <;> norm_num
    · intro h; have := congrFun h 0; norm_num at this
    · fin_cases k <;> norm_num
  · intro k
    have := hpk k
    fin_cases k <;> simpa using this

/-! ## C41: soundness -/

/-- C41: row `k` of the positions is the position of row `k` of the indices, and (with the default
index type) no site occurs twice. -/
theorem C41_sites (hd : 0 < d) {env : Env ℝ} {w : World d ℝ} (h : Reachable env w)
    {shape : ShapeArg d ℝ} {primitive : Bool} {pos : Option (Vec d ℝ)} {check : Bool}
    {bits : Option ℕ} {r : List (Idx d) × List (Vec d ℝ)}
    (hr : w.struct.buildIndices shape primitive pos check none bits = .ok r) :
    List.Forall₂ (IsSitePos w.struct) r.1 r.2 ∧ (bits = none → r.1.Nodup) := by
  have hG := h.good hd
  have h0 := numBase_pos hG.positions_length hr
  obtain ⟨nvecs, L, hnv, hL, -, hrr⟩ := buildIndices_ok hG.positions_length h0 hr
  dsimp only at hrr
  subst hrr
  constructor
  · rw [List.forall₂_map_right_iff, List.forall₂_same]
    intro idx hidx
    rw [hL] at hidx
    exact (isSitePos_iff hG.positions_length _ _).2
      ⟨(mem_siteList.1 (List.mem_filter.1 hidx).1).2, rfl⟩
  · rintro rfl
    rw [buildTranslationVectors_eq _ hd] at hnv
    cases hreg : w.struct.buildRegion shape primitive pos with
    | error e => rw [hreg] at hnv; cases hnv
    | ok rs =>
      rw [hreg] at hnv
      have := vindices_nodup_default _ _ hnv
      dsimp only
      rw [hL]
      exact (siteList_nodup this).filter _

/-- C41: every returned site is in the region, up to the tolerance: `contains` with tolerance
`1e-3` for shapes, the box with tolerance `1e-3` at the lower end for sizes. -/
theorem C41_region (hd : 0 < d) {env : Env ℝ} {w : World d ℝ} (h : Reachable env w)
    {shape : ShapeArg d ℝ} {primitive : Bool} {pos : Option (Vec d ℝ)}
    {bits : Option ℕ} {r : List (Idx d) × List (Vec d ℝ)}
    (hr : w.struct.buildIndices shape primitive pos true none bits = .ok r) {p : Vec d ℝ}
    (hp : p ∈ r.2) :
    (∀ s, shape = .shape s → s.contains p (1 / 1000) = .ok true) ∧
    (∀ dims isInt, shape = .size dims isInt → primitive = false →
      ∃ size : Vec d ℝ, dims = List.ofFn size ∧
        ∀ k, pos.getD 0 k - 1 / 1000 ≤ p k ∧ p k ≤ pos.getD 0 k + size k) := by
  have hG := h.good hd
  have h0 := numBase_pos hG.positions_length hr
  obtain ⟨nvecs, L, hnv, hL, hce, hrr⟩ := buildIndices_ok hG.positions_length h0 hr
  dsimp only at hrr
  subst hrr
  obtain ⟨idx, hidx, rfl⟩ := List.mem_map.1 hp
  rw [hL] at hidx
  obtain ⟨hmem, hacc⟩ := List.mem_filter.1 hidx
  simp only [Bool.not_true, Bool.false_or] at hacc
  constructor
  · rintro s rfl
    unfold accepts at hacc
    dsimp only at hacc
    cases hc : s.contains (w.struct.sitePos idx) (1 / 1000) with
    | error e => rw [hc] at hacc; cases hacc
    | ok b => rw [hc] at hacc; dsimp only at hacc; rw [hacc]
  · rintro dims isInt rfl rfl
    unfold accepts at hacc
    dsimp only at hacc
    cases hv : (toVec dims : Option (Vec d ℝ)) with
    | none => rw [hv] at hacc; cases hacc
    | some size =>
      rw [hv] at hacc
      simp only [Bool.false_eq_true, if_false, decide_eq_true_eq] at hacc
      refine ⟨size, ?_, ?_⟩
      · unfold toVec at hv
        split at hv
        · rename_i hlen
          simp only [Option.some.injEq] at hv
          subst hv
          refine List.ext_getElem (by simp [hlen]) ?_
          intro i h1 h2
          simp
        · cases hv
      · intro k
        have := hacc k
        refine ⟨this.1, ?_⟩
        linarith [this.2]

/-- C41: a callback keeps exactly the sites it accepts, in the same order; it raises `IndexError`
iff it returns a mask of the wrong length. -/
theorem C41_callback (hd : 0 < d) {env : Env ℝ} {w : World d ℝ} (h : Reachable env w)
    {shape : ShapeArg d ℝ} {primitive : Bool} {pos : Option (Vec d ℝ)} {check : Bool}
    {bits : Option ℕ} (f : List (Idx d) → List (Vec d ℝ) → List Bool) :
    (∀ e, w.struct.buildIndices shape primitive pos check none bits = .error e →
      w.struct.buildIndices shape primitive pos check (some f) bits = .error e) ∧
    (∀ r, w.struct.buildIndices shape primitive pos check none bits = .ok r →
      ((f r.1 r.2).length ≠ r.1.length →
        w.struct.buildIndices shape primitive pos check (some f) bits = .error .index) ∧
      (∀ g : Idx d → Vec d ℝ → Bool, f r.1 r.2 = List.zipWith g r.1 r.2 →
        ∃ r', w.struct.buildIndices shape primitive pos check (some f) bits = .ok r' ∧
          r'.1.length = r'.2.length ∧
          r'.1.zip r'.2 = (r.1.zip r.2).filter fun q => g q.1 q.2)) := by
  have hG := h.good hd
  by_cases h0 : 0 < w.struct.numBase
  · rw [buildIndices_eq hG.positions_length h0, buildIndices_eq hG.positions_length h0]
    cases hnv : w.struct.buildTranslationVectors shape primitive pos false bits 0 with
    | error e => exact ⟨fun e he => he, fun r hr => by cases hr⟩
    | ok nvecs =>
      dsimp only
      set L := (siteList w.struct.numBase nvecs).filter fun idx =>
        !check || w.struct.accepts shape primitive pos (1 / 1000) (w.struct.sitePos idx) with hL
      cases hc : w.struct.checkError ((siteList w.struct.numBase nvecs).map w.struct.sitePos) shape
          primitive pos check with
      | some e => exact ⟨fun e he => he, fun r hr => by cases hr⟩
      | none =>
        refine ⟨fun e he => (by cases he), ?_⟩
        intro r hr
        dsimp only at hr
        simp only [Except.ok.injEq] at hr
        subst hr
        dsimp only
        constructor
        · intro hne
          unfold applyMask
          rw [if_neg (fun hh => hne hh.1)]
        · intro g hg
          have hz : ∀ l : List (Idx d), List.zipWith g l (l.map w.struct.sitePos) =
              l.map fun idx => g idx (w.struct.sitePos idx) := by
            intro l
            rw [List.zipWith_map_right, List.zipWith_self]
          have hzz : ∀ l : List (Idx d), l.zip (l.map w.struct.sitePos) =
              l.map fun idx => (idx, w.struct.sitePos idx) := by
            intro l
            rw [List.zip, List.zipWith_map_right, List.zipWith_self]
          refine ⟨(L.filter fun idx => g idx (w.struct.sitePos idx),
            (L.filter fun idx => g idx (w.struct.sitePos idx)).map w.struct.sitePos), ?_, by simp, ?_⟩
          · unfold applyMask
            rw [hg, hz, if_pos (by simp), maskRow_map]
            congr 2
            have := maskRow_map L id (fun idx => g idx (w.struct.sitePos idx))
            simpa using this
          · dsimp only
            rw [hzz, hzz, List.filter_map]
            rfl
  · refine ⟨?_, fun r hr => absurd (numBase_pos hG.positions_length hr) h0⟩
    intro e he
    have hp : w.struct.positions = [] := List.length_eq_zero_iff.1 (by
      rw [hG.positions_length]; omega)
    unfold buildIndices at he ⊢
    rw [hp] at he ⊢
    cases hn : w.struct.buildTranslationVectors shape primitive pos false bits 0 with
    | error e => rw [hn] at he; exact he
    | ok nvecs =>
      rw [hn] at he
      dsimp only [List.map_nil] at he ⊢
      cases hs : stackIndices w.struct.numBase nvecs with
      | error e => rw [hs] at he; exact he
      | ok idx => rw [hs] at he; exact he

/-! ## C42: the tolerance -/

/-- C42 holds at the lower end only: `check_points` accepts a point iff it is in the box extended by
`tol` at the lower end (the tolerance subtracted from the start is part of the computed end). -/
theorem C42_box_partial (S : Structure d ℝ) (points : List (Vec d ℝ)) (size : Vec d ℝ) (isInt : Bool)
    (pos : Option (Vec d ℝ)) (tol : ℝ) :
    ∃ mask, S.checkPoints points (.size (List.ofFn size) isInt) false pos tol = .ok mask ∧
      mask.length = points.length ∧ ∀ (i : ℕ) (p : Vec d ℝ), points[i]? = some p →
        (mask[i]? = some true ↔ ∀ k, pos.getD 0 k - tol ≤ p k ∧ p k ≤ pos.getD 0 k + size k) := by
  have h : ∃ mask, S.checkPoints points (.size (List.ofFn size) isInt) false pos tol = .ok mask := by
    unfold checkPoints
    dsimp only
    rw [toVec_ofFn]
    exact ⟨_, rfl⟩
  obtain ⟨mask, h⟩ := h
  have hm := checkPoints_ok h
  refine ⟨mask, h, by rw [hm]; simp, ?_⟩
  intro i p hp
  rw [hm, List.getElem?_map, hp]
  unfold accepts
  dsimp only [Option.map_some]
  rw [toVec_ofFn]
  simp only [Bool.false_eq_true, if_false, Option.some.injEq, decide_eq_true_eq]
  refine forall_congr' fun k => ?_
  have : pos.getD 0 k - tol + size k + tol = pos.getD 0 k + size k := by ring
  rw [this]

/-- With `relative=True` the box is also enlarged by the largest vector components minus a tenth of
the vector lengths. -/
theorem C42_relative_partial (S : Structure d ℝ) (points : List (Vec d ℝ)) (size : Vec d ℝ)
    (pos : Option (Vec d ℝ)) (tol : ℝ) :
    ∃ mask, S.checkPoints points (.size (List.ofFn size) false) true pos tol = .ok mask ∧
      mask.length = points.length ∧ ∀ (i : ℕ) (p : Vec d ℝ), points[i]? = some p →
        (mask[i]? = some true ↔ ∀ k, pos.getD 0 k - tol ≤ p k ∧
          ∃ j, p k ≤ pos.getD 0 k + size k + S.basis.vectors j k -
            1 / 10 * norm2 (S.basis.vectors k)) := by
  have h : ∃ mask, S.checkPoints points (.size (List.ofFn size) false) true pos tol = .ok mask := by
    unfold checkPoints
    dsimp only
    rw [toVec_ofFn]
    exact ⟨_, rfl⟩
  obtain ⟨mask, h⟩ := h
  have hm := checkPoints_ok h
  refine ⟨mask, h, by rw [hm]; simp, ?_⟩
  intro i p hp
  rw [hm, List.getElem?_map, hp]
  unfold accepts
  dsimp only [Option.map_some]
  rw [toVec_ofFn]
  simp only [if_true, Option.some.injEq, decide_eq_true_eq]
  refine forall_congr' fun k => ?_
  have hmax := foldl_max_isGreatest ((List.finRange d).map fun i => S.basis.vectors i k)
    (S.basis.vectors k k)
  have hmv : ∃ j, S.maxVector k = S.basis.vectors j k := by
    rcases hmax.1 with h | h
    · exact ⟨k, h⟩
    · obtain ⟨j, -, hj⟩ := List.mem_map.1 h
      exact ⟨j, hj.symm⟩
  have hle : ∀ j, S.basis.vectors j k ≤ S.maxVector k := fun j =>
    hmax.2 (Or.inr (List.mem_map_of_mem (List.mem_finRange j)))
  have e : pos.getD 0 k - tol + (size + S.relativeMargin) k + tol =
      pos.getD 0 k + size k + S.maxVector k - 1 / 10 * norm2 (S.basis.vectors k) := by
    simp only [Pi.add_apply, relativeMargin]; ring
  rw [e]
  refine and_congr_right fun _ => ?_
  constructor
  · intro hle'
    obtain ⟨j, hj⟩ := hmv
    exact ⟨j, by rw [← hj]; exact hle'⟩
  · rintro ⟨j, hj⟩
    linarith [hle j]

/-- C42 fails at the upper end: for every structure, box and tolerance the point `tol/2` above the
upper corner is rejected, although it is within the box extended by `tol` on both sides. -/
theorem C42_upper_fails (hd : 0 < d) (S : Structure d ℝ) (size : Vec d ℝ) (hs : ∀ k, 0 ≤ size k)
    (pos : Vec d ℝ) {tol : ℝ} (ht : 0 < tol) :
    ∃ p : Vec d ℝ, (∀ k, pos k - tol ≤ p k ∧ p k ≤ pos k + size k + tol) ∧
      S.checkPoints [p] (.size (List.ofFn size) false) false (some pos) tol = .ok [false] := by
  refine ⟨fun k => pos k + size k + tol / 2, fun k => ⟨?_, ?_⟩, ?_⟩
  · linarith [hs k]
  · linarith
  · obtain ⟨mask, h, hlen, hm⟩ := C42_box_partial S [fun k => pos k + size k + tol / 2] size false
      (some pos) tol
    rw [h]
    congr 1
    match mask, hlen with
    | [b], _ =>
      have := hm 0 _ rfl
      cases b with
      | false => rfl
      | true =>
        exfalso
        have h2 := (this.1 rfl ⟨0, hd⟩).2
        simp only [Option.getD_some] at h2
        linarith

/-- `check_points(..., relative=True)` raises `TypeError` for every box given by integers. -/
theorem C42_int_fails (S : Structure d ℝ) (points : List (Vec d ℝ)) (size : Vec d ℝ)
    (pos : Option (Vec d ℝ)) (tol : ℝ) :
    S.checkPoints points (.size (List.ofFn size) true) true pos tol = .error .type := by
  unfold checkPoints
  dsimp only
  rw [toVec_ofFn]
  rfl

/-- A box of another dimension raises `ValueError`. -/
theorem C42_dimension (S : Structure d ℝ) (points : List (Vec d ℝ)) (dims : List ℝ)
    (hdim : dims.length ≠ d) (isInt relative : Bool) (pos : Option (Vec d ℝ)) (tol : ℝ) :
    S.checkPoints points (.size dims isInt) relative pos tol = .error .value := by
  unfold checkPoints
  dsimp only
  have : (toVec dims : Option (Vec d ℝ)) = none := by
    unfold toVec
    rw [dif_neg hdim]
  rw [this]

/-! ## C43: primitive builds -/

/-- The basis of a hypercubic lattice. -/
theorem hypercubic_inv {rows : Matrix (Fin d) (Fin d) ℝ} {b : LatticeBasis d ℝ}
    (hb : LatticeBasis.init rows = .ok b) {a : ℝ} (ha : a ≠ 0)
    (hv : ∀ i j, b.vectors i j = if i = j then a else 0) (x : Vec d ℝ) (k : Fin d) :
    b.itransform x k = x k / a := by
  have : IsFrac b x fun k => x k / a := by
    intro i
    rw [Finset.sum_eq_single i (by intro j _ hj; rw [hv, if_neg hj, mul_zero]) (by simp), hv,
      if_pos rfl, div_mul_cancel₀ _ ha]
  rw [(isFrac_iff hb _ _).1 this]

theorem hypercubic_maxVector {S : Structure d ℝ} {a : ℝ} (ha : 0 < a)
    (hv : ∀ i j, S.basis.vectors i j = if i = j then a else 0) (k : Fin d) : S.maxVector k = a := by
  have hmax := foldl_max_isGreatest ((List.finRange d).map fun i => S.basis.vectors i k)
    (S.basis.vectors k k)
  refine le_antisymm ?_ ?_
  · have h1 : S.maxVector k = S.basis.vectors k k ∨
      S.maxVector k ∈ (List.finRange d).map fun i => S.basis.vectors i k := hmax.1
    rcases h1 with h | h
    · rw [h, hv, if_pos rfl]
    · obtain ⟨j, -, hj⟩ := List.mem_map.1 h
      rw [← hj, hv]
      split_ifs
      · exact le_rfl
      · exact ha.le
  · have : S.basis.vectors k k ≤ S.maxVector k := hmax.2 (Or.inl rfl)
    rw [hv, if_pos rfl] at this
    exact this

theorem hypercubic_norm {S : Structure d ℝ} {a : ℝ} (ha : 0 < a)
    (hv : ∀ i j, S.basis.vectors i j = if i = j then a else 0) (k : Fin d) :
    norm2 (S.basis.vectors k) = a := by
  unfold norm2
  rw [hasSqrt_real, Finset.sum_eq_single k (by
    intro j _ hj; rw [hv, if_neg (Ne.symm hj), mul_zero]) (by simp), hv, if_pos rfl,
    Real.sqrt_mul_self ha.le]

/-- The cells of a primitive build of a hypercubic lattice with one atom at the origin and lattice
constant `a`, as `Lattice.build` constructs it (a box in units of the basis vectors, from which
`build_translation_vectors` computes the search window by multiplying once more with `a`). -/
theorem C43_cells_partial (hd : 0 < d) {env : Env ℝ} {w : World d ℝ} (h : Reachable env w) {a : ℝ}
    (ha : 0 < a) (hv : ∀ i j, w.struct.basis.vectors i j = if i = j then a else 0)
    (hp : w.struct.positions = [0]) (size : Fin d → ℕ) (hs : ∀ k, 1 / 10 ≤ (size k : ℝ) * a) :
    ∃ r, w.struct.buildIndices
        (.shape (.box (fun k => (size k : ℝ)) 0 (some w.struct.basis.vectors))) true none true none
        none = .ok r ∧
      ∀ n : Fin d → ℤ, Idx.mk n 0 ∈ r.1 ↔
        ∀ k, 0 ≤ n k ∧ n k ≤ size k ∧ (n k : ℝ) ≤ (size k : ℝ) * a - 1 / 10 := by
  have hG := h.good hd
  obtain ⟨rows, hb⟩ := hG.basis
  have hn1 : w.struct.numBase = 1 := by rw [← hG.positions_length, hp]; rfl
  have h0 : 0 < w.struct.numBase := by omega
  have hdet : w.struct.basis.vectors.det ≠ 0 := by
    have := (LatticeBasis.init_ok hb).2.1
    rwa [LatticeBasis.vectors, Matrix.det_transpose]
  -- limits of the shape
  have hlim : ∃ l, (AShape.box (fun k => (size k : ℝ)) 0 (some w.struct.basis.vectors)).limits = .ok l ∧
      ∀ k, l k = (0, (size k : ℝ) * a) := by
    obtain ⟨l, hl, hk⟩ := AShape.minMax_spec (AShape.corners (fun k => (size k : ℝ)) 0
      (some w.struct.basis.vectors)) (AShape.corners_ne _ _ _)
    refine ⟨l, hl, fun k => ?_⟩
    have hmul : ∀ c : Vec d ℝ, Matrix.vecMul c w.struct.basis.vectors k = c k * a := by
      intro c
      simp only [Matrix.vecMul, dotProduct]
      rw [Finset.sum_eq_single k (by intro j _ hj; rw [hv, if_neg hj, mul_zero]) (by simp), hv,
        if_pos rfl]
    have hset : {t | ∃ v ∈ AShape.corners (fun k => (size k : ℝ)) 0 (some w.struct.basis.vectors),
        t = v k} = {0, (size k : ℝ) * a} := by
      ext t
      have hc : ∀ v, v ∈ AShape.corners (fun k => (size k : ℝ)) 0 (some w.struct.basis.vectors) ↔
          ∃ c ∈ AShape.corners (fun k => (size k : ℝ)) 0 none,
            v = Matrix.vecMul c w.struct.basis.vectors := by
        intro v
        simp [AShape.corners, eq_comm]
      simp only [hc, Set.mem_insert_iff, Set.mem_singleton_iff]
      constructor
      · rintro ⟨v, ⟨c, hcm, rfl⟩, rfl⟩
        rw [hmul]
        rcases (AShape.mem_corners_none _ _ _).1 hcm k with h | h
        · left; rw [h]; simp
        · right; rw [h]; simp
      · rintro (rfl | rfl)
        · refine ⟨_, ⟨0, (AShape.mem_corners_none _ _ _).2 fun k => Or.inl rfl, rfl⟩, ?_⟩
          rw [hmul]; simp
        · refine ⟨_, ⟨fun k => (size k : ℝ), (AShape.mem_corners_none _ _ _).2 fun k =>
            Or.inr (by simp), rfl⟩, ?_⟩
          rw [hmul]
    have h1 := (hk k).1
    have h2 := (hk k).2
    rw [hset] at h1 h2
    have hpos : (0 : ℝ) ≤ (size k : ℝ) * a := by positivity
    refine Prod.ext ?_ ?_
    · rcases h1.1 with h | h
      · exact h
      · exact le_antisymm (h1.2 (by simp)) (by rw [h]; exact hpos)
    · rcases h2.1 with h | h
      · exact le_antisymm (by rw [h]; exact hpos) (h2.2 (by simp))
      · exact h
  obtain ⟨l, hl, hlk⟩ := hlim
  have hreg : w.struct.buildRegion
      (.shape (.box (fun k => (size k : ℝ)) 0 (some w.struct.basis.vectors))) true none =
      .ok (0, fun k => (size k : ℝ) * a * a - 1 / 10 * a) := by
    unfold buildRegion
    dsimp only
    rw [hl]
    simp only [if_true, Except.ok.injEq, Prod.mk.injEq]
    refine ⟨by funext k; rw [hlk]; rfl, ?_⟩
    funext k
    rw [hlk, hypercubic_maxVector ha hv, hypercubic_norm ha hv]
    simp
  set sz : Vec d ℝ := fun k => (size k : ℝ) * a * a - 1 / 10 * a with hsz
  -- the search window
  have hfl : ∀ k, ((fun k => (0 : Vec d ℝ) k + sz k) k) / a = (size k : ℝ) * a - 1 / 10 := by
    intro k
    simp only [hsz, Pi.zero_apply, zero_add]
    field_simp
  have hit0 : ∀ k, w.struct.basis.itransform 0 k = 0 := by
    intro k; rw [hypercubic_inv hb ha.ne' hv]; simp
  have hwin : ∀ k, w.struct.searchLimits 0 sz k = (-1, ⌊(size k : ℝ) * a - 1 / 10⌋ + 1) := by
    intro k
    have hf0 : 0 ≤ ⌊(size k : ℝ) * a - 1 / 10⌋ := Int.floor_nonneg.2 (by linarith [hs k])
    obtain ⟨h1, h2, -⟩ := indexRange_bounds w.struct 0 (fun k => (0 : Vec d ℝ) k + sz k) k
    obtain ⟨⟨q1, hq1, h3⟩, q2, hq2, h4⟩ :=
      indexRange_attained w.struct 0 (fun k => (0 : Vec d ℝ) k + sz k) k
    rw [hit0, Int.floor_zero] at h1
    rw [hypercubic_inv hb ha.ne' hv, hfl] at h2
    rw [hypercubic_inv hb ha.ne' hv] at h3 h4
    have e1 : (w.struct.indexRange 0 (fun k => (0 : Vec d ℝ) k + sz k) k).1 = 0 := by
      rcases hq1 with rfl | hq1
      · rw [h3]; simp
      · rcases hq1 k with h | h
        · rw [h3, h]; simp
        · rw [h, hfl] at h3; omega
    have e2 : (w.struct.indexRange 0 (fun k => (0 : Vec d ℝ) k + sz k) k).2 =
        ⌊(size k : ℝ) * a - 1 / 10⌋ := by
      rcases hq2 k with h | h
      · rw [h, zero_div, Int.floor_zero] at h4; omega
      · rw [h, hfl] at h4; exact h4
    unfold searchLimits
    rw [e1, e2]
    rfl
  obtain ⟨nv, hnv, hmem, -, -⟩ := vindices_spec (w.struct.searchLimits 0 sz)
    (fun k => by
      rw [hwin]
      have hf0 : 0 ≤ ⌊(size k : ℝ) * a - 1 / 10⌋ := Int.floor_nonneg.2 (by linarith [hs k])
      dsimp only; omega) (some ⟨0, hd⟩) none (by
      intro k i hi0 hi1
      refine indexWrap_of_lt (k := k) _ ?_ hi0 hi1
      right
      rw [hwin])
  have hbtv : w.struct.buildTranslationVectors
      (.shape (.box (fun k => (size k : ℝ)) 0 (some w.struct.basis.vectors))) true none false none 0 =
      .ok nv := by
    rw [buildTranslationVectors_eq _ hd, hreg]
    exact hnv
  have hcontains : ∀ p : Vec d ℝ, ∃ b, (AShape.box (fun k => (size k : ℝ)) 0
      (some w.struct.basis.vectors)).contains p (1 / 1000) = .ok b ∧
      (b = true ↔ ∀ k, -(1 / 1000) ≤ p k / a ∧ p k / a ≤ (size k : ℝ) + 1 / 1000) := by
    intro p
    obtain ⟨b, hb1, hb2⟩ := (C28_basis_box (fun k => (size k : ℝ)) 0 p w.struct.basis.vectors
      (1 / 1000)).2 hdet
    refine ⟨b, hb1, hb2.trans ?_⟩
    constructor
    · rintro ⟨c, hc, hck⟩ k
      have : p k / a = c k := by
        rw [← hypercubic_inv hb ha.ne' hv, (isFrac_iff hb p c).1 hc]
      rw [this]
      simpa using hck k
    · intro hk
      refine ⟨fun k => p k / a, (isFrac_iff hb _ _).2 (by
        funext k; rw [hypercubic_inv hb ha.ne' hv]), ?_⟩
      intro k
      simpa using hk k
  have hce : ∀ points : List (Vec d ℝ), w.struct.checkError points
      (.shape (.box (fun k => (size k : ℝ)) 0 (some w.struct.basis.vectors))) true none true = none := by
    intro points
    unfold checkError checkPoints
    rw [if_pos rfl]
    have : points.mapM (fun p => (AShape.box (fun k => (size k : ℝ)) 0
        (some w.struct.basis.vectors)).contains p (1 / 1000)) =
        .ok (points.map fun p => (hcontains p).choose) :=
      mapM_ok _ _ _ fun p _ => (hcontains p).choose_spec.1
    dsimp only
    rw [this]
  refine ⟨_, buildIndices_none hG.positions_length h0 hbtv hce, ?_⟩
  · intro n
    dsimp only
    rw [List.mem_filter, mem_siteList, Idx.cell_mk, Idx.alpha_mk, hmem]
    have hsp : w.struct.sitePos (Idx.mk n 0) = fun k => (n k : ℝ) * a := by
      unfold sitePos
      rw [Idx.cell_mk, Idx.alpha_mk, posOf_eq (b := Int.toNat 0) (p := 0) (by rw [hp]; rfl),
        LatticeBasis.translate_eq]
      funext k
      rw [Finset.sum_eq_single k (by intro j _ hj; rw [hv, if_neg hj, mul_zero]) (by simp), hv,
        if_pos rfl]
      simp
    have hacc : w.struct.accepts (.shape (.box (fun k => (size k : ℝ)) 0
        (some w.struct.basis.vectors))) true none (1 / 1000) (w.struct.sitePos (Idx.mk n 0)) = true ↔
        ∀ k, 0 ≤ n k ∧ n k ≤ size k := by
      obtain ⟨b, hb1, hb2⟩ := hcontains (w.struct.sitePos (Idx.mk n 0))
      unfold accepts
      dsimp only
      rw [hb1]
      dsimp only
      rw [hb2, hsp]
      refine forall_congr' fun k => ?_
      rw [mul_div_cancel_right₀ _ ha.ne']
      constructor
      · rintro ⟨h1, h2⟩
        constructor
        · have : ((-1 : ℤ) : ℝ) < n k := by push_cast; linarith
          have : -1 < n k := by exact_mod_cast this
          omega
        · have : (n k : ℝ) < (((size k : ℤ) + 1 : ℤ) : ℝ) := by push_cast; linarith
          have : n k < (size k : ℤ) + 1 := by exact_mod_cast this
          omega
      · rintro ⟨h1, h2⟩
        have h1' : (0 : ℝ) ≤ n k := by exact_mod_cast h1
        have h2' : (n k : ℝ) ≤ size k := by exact_mod_cast h2
        constructor <;> linarith
    simp only [Bool.not_true, Bool.false_or]
    rw [hacc]
    constructor
    · rintro ⟨⟨h1, -⟩, h2⟩ k
      refine ⟨(h2 k).1, (h2 k).2, ?_⟩
      have := (h1 k).2
      rw [hwin] at this
      exact Int.le_floor.1 (by dsimp only at this; omega)
    · intro hk
      refine ⟨⟨fun k => ?_, 0, by omega, rfl⟩, fun k => ⟨(hk k).1, (hk k).2.1⟩⟩
      rw [hwin]
      have := Int.le_floor.2 (hk k).2.2
      have := (hk k).1
      constructor <;> dsimp only <;> omega

/-- C43 for lattice constant 1: the cells are exactly those of the box. -/
theorem C43_unit_partial (hd : 0 < d) {env : Env ℝ} {w : World d ℝ} (h : Reachable env w)
    (hv : ∀ i j, w.struct.basis.vectors i j = if i = j then 1 else 0)
    (hp : w.struct.positions = [0]) (size : Fin d → ℕ) (hs : ∀ k, 0 < size k) :
    ∃ r, w.struct.buildIndices
        (.shape (.box (fun k => (size k : ℝ)) 0 (some w.struct.basis.vectors))) true none true none
        none = .ok r ∧
      ∀ n : Fin d → ℤ, Idx.mk n 0 ∈ r.1 ↔ ∀ k, 0 ≤ n k ∧ n k < size k := by
  have hs1 : ∀ k, (1 : ℝ) ≤ size k := fun k => by exact_mod_cast hs k
  obtain ⟨r, hr, hm⟩ := C43_cells_partial hd h one_pos hv hp size (fun k => by linarith [hs1 k])
  refine ⟨r, hr, fun n => (hm n).trans (forall_congr' fun k => ?_)⟩
  constructor
  · rintro ⟨h1, -, h3⟩
    refine ⟨h1, ?_⟩
    have : (n k : ℝ) < ((size k : ℤ) : ℝ) := by push_cast; linarith
    exact_mod_cast this
  · rintro ⟨h1, h2⟩
    refine ⟨h1, h2.le, ?_⟩
    have : ((n k + 1 : ℤ) : ℝ) ≤ ((size k : ℤ) : ℝ) := by exact_mod_cast (by omega : n k + 1 ≤ size k)
    push_cast at this
    linarith

/-- C43 fails: the primitive build of the chain with 4 cells has the cells 0..3 for lattice constant
1, only 0 and 1 for lattice constant 1/2, and 0..4 for lattice constant 2. -/
theorem C43_constant_fails (env : Env ℝ) (a : ℝ) (M : ℤ)
    (haM : (a = 1 ∧ M = 3) ∨ (a = 1 / 2 ∧ M = 1) ∨ (a = 2 ∧ M = 4)) :
    ∃ (w : World 1 ℝ) (r : List (Idx 1) × List (Vec 1 ℝ)), Reachable env w ∧
      w.struct.basis.vectors 0 0 = a ∧ w.struct.positions = [0] ∧
      w.struct.buildIndices (.shape (.box (fun _ => 4) 0 (some w.struct.basis.vectors))) true none
        true none none = .ok r ∧
      ∀ n : Fin 1 → ℤ, Idx.mk n 0 ∈ r.1 ↔ 0 ≤ n 0 ∧ n 0 ≤ M := by
  have ha : 1 / 2 ≤ a := by rcases haM with ⟨h, -⟩ | ⟨h, -⟩ | ⟨h, -⟩ <;> rw [h] <;> norm_num
  obtain ⟨w, A, cells, c, hr, hb, hp, -⟩ := exists_chain env (a := a) (by linarith) 0 Nat.one_pos
  have hv : ∀ i j, w.struct.basis.vectors i j = if i = j then a else 0 := by
    intro i j
    rw [hb, chain_vectors, if_pos (Subsingleton.elim i j)]
  obtain ⟨r, h1, h2⟩ := C43_cells_partial Nat.one_pos hr (by linarith) hv hp (fun _ => 4) (by
    intro k; push_cast; linarith)
  refine ⟨w, r, hr, by rw [hv]; simp, hp, by simpa using h1, ?_⟩
  intro n
  rw [h2]
  simp only [Fin.forall_fin_one]
  constructor
  · rintro ⟨h3, h4, h5⟩
    refine ⟨h3, ?_⟩
    push_cast at h4 h5
    rcases haM with ⟨h, hM⟩ | ⟨h, hM⟩ | ⟨h, hM⟩ <;> rw [h] at h5 <;> rw [hM]
    · have : (n 0 : ℝ) < ((4 : ℤ) : ℝ) := by push_cast; linarith
      have : n 0 < 4 := by exact_mod_cast this
      omega
    · have : (n 0 : ℝ) < ((2 : ℤ) : ℝ) := by push_cast; linarith
      have : n 0 < 2 := by exact_mod_cast this
      omega
    · exact h4
  · rintro ⟨h3, h4⟩
    have h4' : (n 0 : ℝ) ≤ (M : ℝ) := by exact_mod_cast h4
    refine ⟨h3, ?_, ?_⟩
    · push_cast
      rcases haM with ⟨h, hM⟩ | ⟨h, hM⟩ | ⟨h, hM⟩ <;> omega
    · push_cast
      rcases haM with ⟨h, hM⟩ | ⟨h, hM⟩ | ⟨h, hM⟩ <;> rw [hM] at h4' <;> rw [h] <;>
        push_cast at h4' <;> linarith

/-- Non-vacuity of the C41 and C43 theorems: the built chain of 4 cells. -/
example (env : Env ℝ) : ∃ (w : World 1 ℝ) (r : List (Idx 1) × List (Vec 1 ℝ)), Reachable env w ∧
    w.struct.buildIndices (.shape (.box (fun _ => 4) 0 (some w.struct.basis.vectors))) true none
        true none none = .ok r ∧
    List.Forall₂ (IsSitePos w.struct) r.1 r.2 ∧ r.1.Nodup ∧ Idx.mk (fun _ => 3) 0 ∈ r.1 := by
  obtain ⟨w, r, hr, -, -, h1, h2⟩ := C43_constant_fails env 1 3 (Or.inl ⟨rfl, rfl⟩)
  obtain ⟨h3, h4⟩ := C41_sites Nat.one_pos hr h1
  exact ⟨w, r, hr, h1, h3, h4 rfl, (h2 _).2 (by norm_num)⟩

end Lattpy
