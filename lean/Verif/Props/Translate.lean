import Verif.Props.Overlap

/-!
# C118: a region moved by a lattice vector gives the moved lattice
-/

set_option autoImplicit false

namespace Lattpy

open Structure World Preset

variable {d : ℕ}

/-! ## spec -/

/-- The index of the site that is `m` cells further. -/
def shiftIdx (m : Fin d → ℤ) (x : Idx d) : Idx d := Idx.mk (fun k => x.cell k + m k) x.alpha

/-- `v` is the lattice vector with the integer coordinates `m`. -/
def IsLatticeVec (b : LatticeBasis d ℝ) (m : Fin d → ℤ) (v : Vec d ℝ) : Prop :=
  IsFrac b v fun k => (m k : ℝ)

/-- `build_indices` accepts the position `p`: `check_points` with the tolerance `1e-3`. -/
def Accepted (S : Structure d ℝ) (shape : ShapeArg d ℝ) (pos : Option (Vec d ℝ)) (p : Vec d ℝ) : Prop :=
  S.checkPoints [p] shape false pos (1 / 1000) = .ok [true]

/-- The first region moved by `v` is the second region. -/
structure Moved (S : Structure d ℝ) (v : Vec d ℝ) (shape : ShapeArg d ℝ) (pos : Option (Vec d ℝ))
    (shape' : ShapeArg d ℝ) (pos' : Option (Vec d ℝ)) (lo hi : Vec d ℝ) : Prop where
  box : RegionBox shape pos lo hi
  box' : RegionBox shape' pos' (lo + v) (hi + v)
  accepted : ∀ p, Accepted S shape' pos' (p + v) ↔ Accepted S shape pos p

/-- The window of cells that is searched has the right size: all accepted sites are within the
limits of the region, and the index type can enumerate the cells. -/
structure Searched (S : Structure d ℝ) (bits : Option ℕ) (shape : ShapeArg d ℝ) (pos : Option (Vec d ℝ))
    (lo hi : Vec d ℝ) : Prop where
  sharp : ∀ idx p, IsSitePos S idx p → Accepted S shape pos p → ∀ k, lo k ≤ p k ∧ p k ≤ hi k
  wide : ∃ m M : ℤ, WideEnough bits m M ∧ ∀ x c : Vec d ℝ, IsFrac S.basis x c →
      (∀ i, min 0 (lo i) ≤ x i ∧ x i ≤ max 0 (hi i)) → ∀ k, (m : ℝ) ≤ c k ∧ c k ≤ M

/-- The window of cells reaches all cells of a region that starts at `lo`: every lattice coordinate
grows in all Cartesian directions, or the region is in the positive quadrant and the coordinate
grows in one of them. -/
def Reaches (b : LatticeBasis d ℝ) (lo : Vec d ℝ) : Prop :=
  ∀ k, (∀ x c : Vec d ℝ, IsFrac b x c → (∀ i, 0 ≤ x i) → 0 ≤ c k) ∨
    ((∀ i, 0 ≤ lo i) ∧ ∃ x c : Vec d ℝ, IsFrac b x c ∧ (∀ i, 0 ≤ x i) ∧ x ≠ 0 ∧ 0 ≤ c k)

theorem Reaches.vinv {rows : Matrix (Fin d) (Fin d) ℝ} {b : LatticeBasis d ℝ}
    (hb : LatticeBasis.init rows = .ok b) {lo : Vec d ℝ} (h : Reaches b lo) (k : Fin d) :
    (∀ j, 0 ≤ b.Vinv k j) ∨ ((∀ j, 0 ≤ lo j) ∧ ∃ j, 0 ≤ b.Vinv k j) := by
  have hW : ∀ j, b.itransform (Pi.single j 1) k = b.Vinv k j := by
    intro j
    rw [itransform_apply, Finset.sum_eq_single j (by intro i _ hi; simp [hi]) (by simp)]
    simp
  rcases h k with hk | ⟨hs, x, cx, hx, hx0, hxne, hxk⟩
  · left
    intro j
    rw [← hW]
    refine hk (Pi.single j 1) _ ((isFrac_iff hb _ _).2 rfl) ?_
    intro i
    by_cases hij : i = j
    · subst hij; simp
    · simp [hij]
  · right
    refine ⟨hs, ?_⟩
    by_contra hneg
    push Not at hneg
    rw [← (isFrac_iff hb _ _).1 hx, itransform_apply] at hxk
    obtain ⟨i, hi'⟩ : ∃ i, x i ≠ 0 := by
      by_contra hall
      push Not at hall
      exact hxne (funext hall)
    have : ∑ j, b.Vinv k j * x j < 0 := by
      refine Finset.sum_neg' (fun j _ => mul_nonpos_of_nonpos_of_nonneg (hneg j).le (hx0 j))
        ⟨i, Finset.mem_univ i, ?_⟩
      exact mul_neg_of_neg_of_pos (hneg i) (lt_of_le_of_ne (hx0 i) (Ne.symm hi'))
    linarith

/-- The limits of the window are in order. -/
theorem Reaches.limits {S : Structure d ℝ} {rows : Matrix (Fin d) (Fin d) ℝ}
    (hb : LatticeBasis.init rows = .ok S.basis) {lo size : Vec d ℝ} (h : Reaches S.basis lo)
    (hsize : ∀ k, 0 ≤ size k) (k : Fin d) : (S.searchLimits lo size k).1 ≤ (S.searchLimits lo size k).2 := by
  obtain ⟨h1, h2, h3⟩ := indexRange_bounds S lo (fun k => lo k + size k) k
  unfold searchLimits
  dsimp only
  by_cases hk : ∃ j, j ≠ k
  · obtain ⟨j, hj⟩ := hk
    have := h3 (fun i => decide (i = k)) ⟨k, by simp⟩ ⟨j, by simpa using hj⟩
    omega
  · push Not at hk
    have hV : ∀ j, 0 ≤ S.basis.Vinv k j := by
      rcases h.vinv hb k with hk' | ⟨-, i, hi⟩
      · exact hk'
      · intro j
        rw [show j = i from (hk j).trans (hk i).symm]
        exact hi
    have h4 : ⌊S.basis.itransform lo k⌋ ≤ ⌊S.basis.itransform (fun k => lo k + size k) k⌋ := by
      refine Int.floor_le_floor ?_
      rw [itransform_apply, itransform_apply]
      refine Finset.sum_le_sum fun j _ => mul_le_mul_of_nonneg_left ?_ (hV j)
      have := hsize j
      linarith
    omega

/-! ## order of the sites -/

/-- The order of the sites: cells in lexicographic order, in a cell the atoms. -/
def IdxLt (x y : Idx d) : Prop := LexLt x.cell y.cell ∨ (x.cell = y.cell ∧ x.alpha < y.alpha)

theorem IdxLt.asymm {x y : Idx d} (h : IdxLt x y) (h' : IdxLt y x) : False := by
  have lex : ∀ a b : Fin d → ℤ, LexLt a b → LexLt b a → False := by
    rintro a b ⟨i, hi, hlt⟩ ⟨j, hj, hlt'⟩
    rcases lt_trichotomy i j with h | rfl | h
    · have := hj i h; omega
    · omega
    · have := hi j h; omega
  rcases h with h | ⟨h, h1⟩ <;> rcases h' with h' | ⟨h', h1'⟩
  · exact lex _ _ h h'
  · rw [h'] at h; exact h.ne rfl
  · rw [h] at h'; exact h'.ne rfl
  · omega

theorem siteList_ordered {B : ℕ} {nvecs : List (Fin d → ℤ)} (h : nvecs.Pairwise LexLt) :
    (siteList B nvecs).Pairwise IdxLt := by
  unfold siteList
  rw [List.pairwise_flatMap]
  constructor
  · intro n _
    rw [List.pairwise_map]
    refine List.pairwise_lt_range.imp ?_
    intro a b hab
    right
    rw [Idx.cell_mk, Idx.cell_mk, Idx.alpha_mk, Idx.alpha_mk]
    exact ⟨rfl, by exact_mod_cast hab⟩
  · refine h.imp ?_
    intro n n' hn x hx y hy
    obtain ⟨a, -, rfl⟩ := List.mem_map.1 hx
    obtain ⟨b, -, rfl⟩ := List.mem_map.1 hy
    left
    rwa [Idx.cell_mk, Idx.cell_mk]

theorem IdxLt.shift (m : Fin d → ℤ) {x y : Idx d} (h : IdxLt x y) :
    IdxLt (shiftIdx m x) (shiftIdx m y) := by
  unfold shiftIdx
  rcases h with ⟨i, h1, h2⟩ | ⟨h1, h2⟩
  · left
    refine ⟨i, ?_, ?_⟩
    · intro j hj
      rw [Idx.cell_mk, Idx.cell_mk, h1 j hj]
    · rw [Idx.cell_mk, Idx.cell_mk]
      omega
  · right
    rw [Idx.cell_mk, Idx.cell_mk, Idx.alpha_mk, Idx.alpha_mk, h1]
    exact ⟨rfl, h2⟩

theorem ordered_ext {l l' : List (Idx d)} (h : l.Pairwise IdxLt) (h' : l'.Pairwise IdxLt)
    (hm : ∀ x, x ∈ l ↔ x ∈ l') : l = l' := by
  have nd : ∀ {l : List (Idx d)}, l.Pairwise IdxLt → l.Nodup := fun h =>
    h.imp fun hab e => by rw [e] at hab; exact hab.asymm hab
  exact List.Perm.eq_of_pairwise (fun a b _ _ h1 h2 => (h1.asymm h2).elim) h h'
    ((List.perm_ext_iff_of_nodup (nd h) (nd h')).2 hm)

/-! ## sites -/

theorem shift_site {S : Structure d ℝ} {m : Fin d → ℤ} {v : Vec d ℝ} (hv : IsLatticeVec S.basis m v)
    (x : Idx d) (p : Vec d ℝ) : IsSitePos S (shiftIdx m x) (p + v) ↔ IsSitePos S x p := by
  have key : ∀ r : Vec d ℝ, (fun i => r i + ∑ k, ((x.cell k + m k : ℤ) : ℝ) * S.basis.vectors k i) =
      (fun i => r i + ∑ k, (x.cell k : ℝ) * S.basis.vectors k i) + v := by
    intro r
    funext i
    rw [Pi.add_apply, hv i, add_assoc, ← Finset.sum_add_distrib]
    congr 1
    refine Finset.sum_congr rfl fun k _ => ?_
    push_cast
    ring
  unfold IsSitePos shiftIdx
  simp only [Idx.cell_mk, Idx.alpha_mk]
  refine exists_congr fun b => exists_congr fun r => and_congr_right fun _ => and_congr_right fun _ => ?_
  rw [key]
  exact add_left_inj v

theorem accepts_iff (S : Structure d ℝ) (shape : ShapeArg d ℝ) (pos : Option (Vec d ℝ)) (p : Vec d ℝ) :
    S.accepts shape false pos (1 / 1000) p = true ↔ Accepted S shape pos p := by
  unfold Accepted
  constructor
  · intro h
    unfold accepts at h
    unfold checkPoints
    cases shape with
    | shape s =>
      dsimp only at h ⊢
      cases hc : s.contains p (1 / 1000) with
      | error e => rw [hc] at h; cases h
      | ok b =>
        rw [hc] at h
        dsimp only at h
        rw [List.mapM_cons, hc, h]
        rfl
    | size dims isInt =>
      dsimp only at h ⊢
      cases hv : (toVec dims : Option (Vec d ℝ)) with
      | none => rw [hv] at h; cases h
      | some size =>
        rw [hv] at h
        simpa using h
  · intro h
    have := checkPoints_ok h
    simpa using this.symm

/-- The sites of the region, if the searched window has the right size. -/
theorem searched_sites (hd : 0 < d) {env : Env ℝ} {w : World d ℝ} (h : Reachable env w)
    {shape : ShapeArg d ℝ} {pos : Option (Vec d ℝ)} {lo hi : Vec d ℝ}
    (hbox : RegionBox shape pos lo hi) {bits : Option ℕ}
    (hS : Searched w.struct bits shape pos lo hi) {r : List (Idx d) × List (Vec d ℝ)}
    (hr : w.struct.buildIndices shape false pos true none bits = .ok r)
    (hatoms : ∀ p ∈ w.struct.positions, ∃ c, IsFrac w.struct.basis p c ∧ ∀ k, 0 ≤ c k ∧ c k < 2)
    (hR : Reaches w.struct.basis lo)
    (hle : ∀ k, lo k ≤ hi k) :
    r.1.Pairwise IdxLt ∧ r.2 = r.1.map w.struct.sitePos ∧
      ∀ x, x ∈ r.1 ↔ ∃ p, IsSitePos w.struct x p ∧ Accepted w.struct shape pos p := by
  have hG := h.good hd
  obtain ⟨rows, hb⟩ := hG.basis
  have h0 := numBase_pos hG.positions_length hr
  obtain ⟨nvecs, L, hnv, hL, -, hrr⟩ := buildIndices_ok hG.positions_length h0 hr
  obtain ⟨hreg, -⟩ := region_limits (S := w.struct) hbox
  rw [buildTranslationVectors_eq _ hd, hreg] at hnv
  dsimp only at hnv hrr
  have hsum : ∀ j, lo j + (hi - lo) j = hi j := by intro j; simp
  have hcov : ∀ (x : Idx d) (p : Vec d ℝ), IsSitePos w.struct x p → Accepted w.struct shape pos p → ∀ k,
      (w.struct.searchLimits lo (hi - lo) k).1 ≤ x.cell k ∧
        x.cell k < (w.struct.searchLimits lo (hi - lo) k).2 := by
    intro x p hp hacc k
    have hpl := hS.sharp x p hp hacc
    obtain ⟨b, ra, hb1, hb2, rfl⟩ := hp
    obtain ⟨c, hc, hck⟩ := hatoms ra (List.mem_of_getElem? hb2)
    have hit := LatticeBasis.itransform_translate hb x.cell ra
    rw [(isFrac_iff hb _ _).1 hc, LatticeBasis.translate_eq] at hit
    exact window_covers (c := c) (fun j => ⟨(hpl j).1, by rw [hsum]; exact (hpl j).2⟩)
      (hR.vinv hb k) (hck k) (congrFun hit k)
  obtain ⟨m, M, hw, hB⟩ := hS.wide
  have hbnd : ∀ k, m - 1 ≤ (w.struct.searchLimits lo (hi - lo) k).1 ∧
      (w.struct.searchLimits lo (hi - lo) k).2 ≤ M + 1 := by
    refine window_bounds ?_ ?_
    · intro j; rw [hsum]; exact hle j
    · intro x hx k
      exact hB x _ ((isFrac_iff hb _ _).2 rfl) (fun i => by have := hx i; rwa [hsum] at this) k
  have hll := hR.limits hb (size := hi - lo) (fun k => by have := hle k; simpa using this)
  obtain ⟨nv, hnv', hmem, -, -, hlex⟩ := vindices_spec (w.struct.searchLimits lo (hi - lo))
    hll (some ⟨0, hd⟩) bits (by
      intro k i hi0 hi1
      refine indexWrap_of_lt (k := k) _ ?_ hi0 hi1
      have hk := hbnd k
      unfold WideEnough at hw
      cases bits with
      | some w' => exact ⟨hw.1, by have := hw.2; omega⟩
      | none =>
        rcases hw with hw | hw
        · left; omega
        · right; omega)
  rw [hnv'] at hnv
  cases hnv
  have hord := siteList_ordered (B := w.struct.numBase) (hlex fun k => Nat.zero_le _)
  subst hrr
  dsimp only
  refine ⟨?_, rfl, ?_⟩
  · rw [hL]; exact hord.filter _
  · intro x
    rw [hL, List.mem_filter, mem_siteList]
    simp only [Bool.not_true, Bool.false_or]
    rw [accepts_iff]
    constructor
    · rintro ⟨⟨-, hα⟩, hacc⟩
      exact ⟨_, (isSitePos_iff hG.positions_length x _).2 ⟨hα, rfl⟩, hacc⟩
    · rintro ⟨p, hp, hacc⟩
      obtain ⟨hα, hpp⟩ := (isSitePos_iff hG.positions_length x p).1 hp
      refine ⟨⟨(hmem _).2 (hcov x p hp hacc), hα⟩, ?_⟩
      rw [← hpp]
      exact hacc

theorem mem_shift {m : Fin d → ℤ} {l : List (Idx d)} {x : Idx d} :
    shiftIdx m x ∈ l.map (shiftIdx m) ↔ x ∈ l := by
  rw [List.mem_map]
  constructor
  · rintro ⟨y, hy, he⟩
    unfold shiftIdx at he
    rw [Idx.mk_inj] at he
    have : y = x := by
      rw [← Idx.mk_cell_alpha y, ← Idx.mk_cell_alpha x, Idx.mk_inj]
      refine ⟨?_, he.2⟩
      funext k
      have := congrFun he.1 k
      omega
    rwa [← this]
  · intro hx
    exact ⟨x, hx, rfl⟩

theorem exists_shift (m : Fin d → ℤ) (x : Idx d) : ∃ y, shiftIdx m y = x := by
  refine ⟨Idx.mk (fun k => x.cell k - m k) x.alpha, ?_⟩
  unfold shiftIdx
  rw [Idx.cell_mk, Idx.alpha_mk]
  conv_rhs => rw [← Idx.mk_cell_alpha x]
  rw [Idx.mk_inj]
  exact ⟨by funext k; omega, rfl⟩

/-- C118 for `build_indices`: if the atoms are in the first two cells and the searched windows of
cells have the right size and reach all cells of the regions, then the region moved by a lattice vector
has the moved sites, in the same order. -/
theorem C118_sites_partial (hd : 0 < d) {env : Env ℝ} {w : World d ℝ} (h : Reachable env w)
    (hatoms : ∀ p ∈ w.struct.positions, ∃ c, IsFrac w.struct.basis p c ∧ ∀ k, 0 ≤ c k ∧ c k < 2)
    {m : Fin d → ℤ} {v : Vec d ℝ} (hv : IsLatticeVec w.struct.basis m v)
    {shape shape' : ShapeArg d ℝ} {pos pos' : Option (Vec d ℝ)} {lo hi : Vec d ℝ}
    (hle : ∀ k, lo k ≤ hi k) (hM : Moved w.struct v shape pos shape' pos' lo hi) {bits : Option ℕ}
    (hS : Searched w.struct bits shape pos lo hi)
    (hS' : Searched w.struct bits shape' pos' (lo + v) (hi + v))
    (hR : Reaches w.struct.basis lo) (hR' : Reaches w.struct.basis (lo + v))
    {r r' : List (Idx d) × List (Vec d ℝ)}
    (hr : w.struct.buildIndices shape false pos true none bits = .ok r)
    (hr' : w.struct.buildIndices shape' false pos' true none bits = .ok r') :
    r'.1 = r.1.map (shiftIdx m) ∧ r'.2 = r.2.map (· + v) := by
  have hG := h.good hd
  obtain ⟨h1, h2, h3⟩ := searched_sites hd h hM.box hS hr hatoms hR hle
  obtain ⟨h1', h2', h3'⟩ := searched_sites hd h hM.box' hS' hr' hatoms hR'
    (fun k => by simpa using hle k)
  have he : r'.1 = r.1.map (shiftIdx m) := by
    refine ordered_ext h1' ?_ ?_
    · rw [List.pairwise_map]
      exact h1.imp fun h => h.shift m
    · intro x
      obtain ⟨y, rfl⟩ := exists_shift m x
      rw [mem_shift, h3, h3']
      constructor
      · rintro ⟨p, hp, hacc⟩
        have e : p = (p - v) + v := by simp
        rw [e] at hp hacc
        exact ⟨p - v, (shift_site hv y _).1 hp, (hM.accepted _).1 hacc⟩
      · rintro ⟨p, hp, hacc⟩
        exact ⟨p + v, (shift_site hv y _).2 hp, (hM.accepted _).2 hacc⟩
  refine ⟨he, ?_⟩
  rw [h2', he, h2, List.map_map, List.map_map]
  refine List.map_congr_left ?_
  intro x hx
  obtain ⟨p, hp, -⟩ := (h3 x).1 hx
  obtain ⟨-, hp1⟩ := (isSitePos_iff hG.positions_length x p).1 hp
  obtain ⟨-, hp2⟩ := (isSitePos_iff hG.positions_length _ _).1 ((shift_site hv x p).2 hp)
  simp only [Function.comp_apply]
  rw [← hp2, ← hp1]

/-! ## regions -/

theorem moved_size (S : Structure d ℝ) (v size p : Vec d ℝ) (isInt : Bool) :
    Moved S v (.size (List.ofFn size) isInt) (some p) (.size (List.ofFn size) isInt) (some (p + v))
      p (p + size) where
  box := ⟨rfl, by congr 1; funext k; simp⟩
  box' := ⟨rfl, by congr 1; funext k; simp⟩
  accepted q := by
    unfold Accepted checkPoints
    simp only [toVec_ofFn]
    simp only [Bool.false_and, Bool.false_eq_true, if_false, Option.getD_some, List.map_cons,
      List.map_nil, Except.ok.injEq, List.cons.injEq, and_true, decide_eq_true_eq, Pi.add_apply]
    refine forall_congr' fun k => and_congr ?_ ?_ <;> constructor <;> intro h <;> linarith

theorem moved_circle (S : Structure d ℝ) (v p : Vec d ℝ) (radius : ℝ) (pos pos' : Option (Vec d ℝ)) :
    Moved S v (.shape (.circle p radius)) pos (.shape (.circle (p + v) radius)) pos'
      (fun k => p k - radius) (fun k => p k + radius) where
  box := ⟨trivial, _, rfl, fun k => by simp [sub_eq_add_neg]⟩
  box' := ⟨trivial, _, rfl, fun k => by simp only [Pi.add_apply, Prod.mk.injEq]; constructor <;> ring⟩
  accepted q := by
    have e : q + v - (p + v) = q - p := by abel
    unfold Accepted checkPoints
    simp only [List.mapM_cons, List.mapM_nil, AShape.contains, e]

theorem box_limits (size p : Vec d ℝ) (hsize : ∀ k, 0 ≤ size k) :
    ∃ l, (AShape.box size p none).limits = .ok l ∧ ∀ k, l k = (p k, p k + size k) := by
  obtain ⟨l, hl, hm⟩ := AShape.minMax_spec (AShape.corners size p none) (AShape.corners_ne _ _ _)
  refine ⟨l, hl, fun k => ?_⟩
  obtain ⟨⟨⟨v, hv, e⟩, hle⟩, ⟨v', hv', e'⟩, hle'⟩ := hm k
  have h1 : (l k).1 = p k := by
    apply le_antisymm
    · exact hle ⟨p, (AShape.mem_corners_none _ _ _).2 fun _ => Or.inl rfl, rfl⟩
    · rw [e]
      have := hsize k
      rcases (AShape.mem_corners_none _ _ _).1 hv k with h | h <;> rw [h]
      linarith
  have h2 : (l k).2 = p k + size k := by
    apply le_antisymm
    · rw [e']
      have := hsize k
      rcases (AShape.mem_corners_none _ _ _).1 hv' k with h | h <;> rw [h]
      linarith
    · exact hle' ⟨p + size, (AShape.mem_corners_none _ _ _).2 fun _ => Or.inr rfl, rfl⟩
  rw [← h2, ← h1]

theorem moved_box (S : Structure d ℝ) (v size p : Vec d ℝ) (hsize : ∀ k, 0 ≤ size k)
    (pos pos' : Option (Vec d ℝ)) :
    Moved S v (.shape (.box size p none)) pos (.shape (.box size (p + v) none)) pos' p (p + size) where
  box := by
    obtain ⟨l, h1, h2⟩ := box_limits size p hsize
    exact ⟨trivial, l, h1, h2⟩
  box' := by
    obtain ⟨l, h1, h2⟩ := box_limits size (p + v) hsize
    refine ⟨trivial, l, h1, fun k => ?_⟩
    rw [h2]
    simp only [Pi.add_apply, Prod.mk.injEq, true_and]
    ring
  accepted q := by
    unfold Accepted checkPoints
    simp only [List.mapM_cons, List.mapM_nil, AShape.contains]
    have : (∀ k, (p + v) k - 1 / 1000 ≤ (q + v) k ∧ (q + v) k ≤ (p + v) k + size k + 1 / 1000) ↔
        ∀ k, p k - 1 / 1000 ≤ q k ∧ q k ≤ p k + size k + 1 / 1000 := by
      refine forall_congr' fun k => and_congr ?_ ?_ <;> simp only [Pi.add_apply] <;> constructor <;>
        intro h <;> linarith
    simp only [this]

/-! ## lattices -/

/-- The second lattice is the first one moved by `m` cells and the vector `v`: it has the moved sites
in the same order, and every site has the same neighbours. -/
structure MovedLattice (m : Fin d → ℤ) (v : Vec d ℝ) (L1 : Lattice d ℝ) (D1 : LatticeData d ℝ)
    (L2 : Lattice d ℝ) (D2 : LatticeData d ℝ) : Prop where
  indices : D2.indices = D1.indices.map (shiftIdx m)
  positions : D2.positions = D1.positions.map (· + v)
  neighbors : ∀ i < D1.numSites, ∃ l1 l2, L1.neighbors i none false = .ok l1 ∧
    L2.neighbors i none false = .ok l2 ∧ l1.Perm l2

theorem built_sites {env : Env ℝ} {L L' : Lattice d ℝ} {a : BuildArgs d ℝ}
    (hm : a.minNeighbors = none) (hp : a.periodic = none) (hok : L.build env a = (L', .ok ())) :
    ∃ shape D, Lattice.buildShape L.struct a = .ok shape ∧ L'.data = some D ∧
      L.struct.buildIndices (.shape shape) a.primitive a.pos a.check a.callback a.bits =
        .ok (D.indices, D.positions) := by
  obtain ⟨A, shape, D, lo, hi, hA, hsh, hD, hlim, rfl⟩ := Lattice.build_ok hp hok
  obtain ⟨indices, positions, table, indices', positions', table', h1, h2, h3, h4⟩ :=
    Lattice.buildData_ok hD
  rw [hm] at h3
  simp only [Lattice.dropDangling, Except.ok.injEq, Prod.mk.injEq] at h3
  obtain ⟨rfl, rfl, rfl⟩ := h3
  have hDi : D.indices = indices ∧ D.positions = positions := by
    rcases set_cases indices positions (table.map fun r => r.map Prod.fst)
        (table.map fun r => r.map Prod.snd) with ⟨-, h⟩ | ⟨-, D', h, h7, h8, -⟩
    · rw [h4] at h; cases h
    · rw [h4] at h; cases h; exact ⟨h7, h8⟩
  exact ⟨shape, D, hsh, rfl, by rw [hDi.1, hDi.2]; exact h1⟩

theorem distance_moved (p q v : Vec d ℝ) (n : Option ℕ) :
    distance (q + v) (p + v) n = distance q p n := by
  unfold distance
  simp only [Pi.add_apply, add_sub_add_right_eq_sub]

/-- C118: the region moved by a lattice vector gives the moved lattice, for atoms in the first
two cells and search windows of the right size that reach all cells (`C118_sites_partial`), if the neighbours of the lattices are resolved (C59). -/
theorem C118_lattice_partial (hd : 0 < d) {env : Env ℝ} {L L1 L2 : Lattice d ℝ}
    (h : Reachable env L.world) (hS : SitesDistinct L.struct)
    (hatoms : ∀ p ∈ L.struct.positions, ∃ c, IsFrac L.struct.basis p c ∧ ∀ k, 0 ≤ c k ∧ c k < 2)
    {m : Fin d → ℤ} {v : Vec d ℝ} (hv : IsLatticeVec L.struct.basis m v)
    {shape1 shape2 : ShapeArg d ℝ} {pos1 pos2 : Option (Vec d ℝ)} {s1 s2 : AShape d ℝ}
    (hs1 : Lattice.buildShape L.struct { shape := shape1, pos := pos1 } = .ok s1)
    (hs2 : Lattice.buildShape L.struct { shape := shape2, pos := pos2 } = .ok s2) {lo hi : Vec d ℝ}
    (hle : ∀ k, lo k ≤ hi k) (hM : Moved L.struct v (.shape s1) pos1 (.shape s2) pos2 lo hi)
    (hS1 : Searched L.struct none (.shape s1) pos1 lo hi)
    (hS2 : Searched L.struct none (.shape s2) pos2 (lo + v) (hi + v))
    (hR1 : Reaches L.struct.basis lo) (hR2 : Reaches L.struct.basis (lo + v))
    (hok1 : L.build env { shape := shape1, pos := pos1 } = (L1, .ok ()))
    (hok2 : L.build env { shape := shape2, pos := pos2 } = (L2, .ok ())) :
    ∃ A D1 D2, L.struct.analysis = some A ∧ L1.data = some D1 ∧ L2.data = some D2 ∧
      D2.indices = D1.indices.map (shiftIdx m) ∧ D2.positions = D1.positions.map (· + v) ∧
      ((∀ y, RawDistance A y → 5 / 10 ^ 6 < y) → WellResolved A D1 → WellResolved A D2 →
        MovedLattice m v L1 D1 L2 D2) := by
  obtain ⟨s1', D1, hs1', hD1, hb1⟩ := built_sites rfl rfl hok1
  obtain ⟨s2', D2, hs2', hD2, hb2⟩ := built_sites rfl rfl hok2
  cases hs1.symm.trans hs1'
  cases hs2.symm.trans hs2'
  obtain ⟨hi, hp⟩ := C118_sites_partial hd h hatoms hv hle hM hS1 hS2 hR1 hR2 hb1 hb2
  dsimp only at hi hp
  obtain ⟨A, D1', hA, hD1', hf1, hn1, hnb1⟩ := C59_neighbors_partial hd h hS rfl rfl rfl hok1
  obtain ⟨A', D2', hA', hD2', hf2, hn2, hnb2⟩ := C59_neighbors_partial hd h hS rfl rfl rfl hok2
  cases hD1.symm.trans hD1'
  cases hD2.symm.trans hD2'
  cases hA.symm.trans hA'
  refine ⟨A, D1, D2, hA, hD1, hD2, hi, hp, ?_⟩
  rintro hraw ⟨t1, c1, w1⟩ ⟨t2, c2, w2⟩
  refine ⟨hi, hp, ?_⟩
  intro i hin
  have hin2 : i < D2.numSites := by
    unfold LatticeData.numSites at hin ⊢
    rw [hi, List.length_map]
    exact hin
  obtain ⟨l1, e1, n1, g1, m1, -⟩ := hnb1 t1 c1 i hin
  obtain ⟨l2, e2, n2, g2, m2, -⟩ := hnb2 t2 c2 i hin2
  have hsl : ∀ j, ShouldLink A D1 i j ↔ ShouldLink A D2 i j := by
    intro j
    unfold ShouldLink
    rw [hi, hp]
    simp only [List.getElem?_map, Option.map_eq_some_iff]
    constructor
    · rintro ⟨g0, p, q, a, b, f1, f2, f3, f4, f5⟩
      refine ⟨g0, _, _, _, _, ⟨p, f1, rfl⟩, ⟨q, f2, rfl⟩, ⟨a, f3, rfl⟩, ⟨b, f4, rfl⟩, ?_⟩
      rw [distance_moved]
      unfold shiftIdx
      rw [Idx.alpha_mk, Idx.alpha_mk]
      exact f5
    · rintro ⟨g0, _, _, _, _, ⟨p, f1, rfl⟩, ⟨q, f2, rfl⟩, ⟨a, f3, rfl⟩, ⟨b, f4, rfl⟩, f5⟩
      rw [distance_moved] at f5
      unfold shiftIdx at f5
      rw [Idx.alpha_mk, Idx.alpha_mk] at f5
      exact ⟨g0, p, q, a, b, f1, f2, f3, f4, f5⟩
  have full : ∀ (D : LatticeData d ℝ) (l : List ℕ),
      (∀ j p q, ShouldLink A D i j → D.positions[i]? = some p → D.positions[j]? = some q →
        closer D.positions p q ≤ (A.rawNum.map List.sum).sum + 1 → j ∈ l) →
      (∀ (i j : ℕ) (p q : Vec d ℝ), ShouldLink A D i j → D.positions[i]? = some p →
        D.positions[j]? = some q → closer D.positions p q ≤ (A.rawNum.map List.sum).sum + 1) →
      ∀ j, ShouldLink A D i j → j ∈ l := by
    intro D l hl hw j hj
    obtain ⟨-, p, q, -, -, f1, f2, -⟩ := id hj
    exact hl j p q hj f1 f2 (hw i j p q hj f1 f2)
  refine ⟨l1, l2, e1, e2, (List.perm_ext_iff_of_nodup n1 n2).2 fun j => ?_⟩
  constructor
  · intro hj
    exact full D2 l2 (m2 hraw) w2 j ((hsl j).1 (g1 j hj))
  · intro hj
    exact full D1 l1 (m1 hraw) w1 j ((hsl j).2 (g2 j hj))

/-- The cells of a box can be enumerated. -/
theorem box_cells (hd : 0 < d) {env : Env ℝ} {w : World d ℝ} (h : Reachable env w)
    {size p : Vec d ℝ} (hsize : ∀ k, 0 ≤ size k)
    (hR : Reaches w.struct.basis p)
    {m M : ℤ} (hw : WideEnough none m M)
    (hB : ∀ x c : Vec d ℝ, IsFrac w.struct.basis x c →
      (∀ i, min 0 (p i) ≤ x i ∧ x i ≤ max 0 ((p + size) i)) → ∀ k, (m : ℝ) ≤ c k ∧ c k ≤ M) :
    ∃ nv, vindices (w.struct.searchLimits p size) (some ⟨0, hd⟩) none = .ok nv ∧
      ∀ n, n ∈ nv ↔ ∀ k, (w.struct.searchLimits p size k).1 ≤ n k ∧
        n k < (w.struct.searchLimits p size k).2 := by
  obtain ⟨rows, hbas⟩ := (h.good hd).basis
  have hfrac : ∀ x, IsFrac w.struct.basis x (w.struct.basis.itransform x) := fun x =>
    (isFrac_iff hbas _ _).2 rfl
  have hll := hR.limits hbas hsize
  obtain ⟨nv, hnv, hmem, -⟩ := vindices_spec (w.struct.searchLimits p size) hll (some ⟨0, hd⟩) none (by
      intro k i hi0 hi1
      refine indexWrap_of_lt (k := k) _ ?_ hi0 hi1
      have hk := window_bounds (S := w.struct) (start := p) (size := size) (m := m) (M := M)
        (fun j => by have := hsize j; linarith) (fun x hx k => hB x _ (hfrac x) hx k) k
      rcases hw with hw | hw
      · left; omega
      · right; omega)
  exact ⟨nv, hnv, hmem⟩

/-- `build_indices` of a box does not fail. -/
theorem box_indices (hd : 0 < d) {env : Env ℝ} {w : World d ℝ} (h : Reachable env w)
    (hb : 0 < w.struct.numBase) {size p : Vec d ℝ} (hsize : ∀ k, 0 ≤ size k)
    (hR : Reaches w.struct.basis p)
    (pos : Option (Vec d ℝ)) {m M : ℤ} (hw : WideEnough none m M)
    (hB : ∀ x c : Vec d ℝ, IsFrac w.struct.basis x c →
      (∀ i, min 0 (p i) ≤ x i ∧ x i ≤ max 0 ((p + size) i)) → ∀ k, (m : ℝ) ≤ c k ∧ c k ≤ M) :
    ∃ r, w.struct.buildIndices (.shape (.box size p none)) false pos true none none = .ok r ∧
      ∀ idx, idx ∈ r.1 ↔ ((∀ k, (w.struct.searchLimits p size k).1 ≤ idx.cell k ∧
        idx.cell k < (w.struct.searchLimits p size k).2) ∧ ∃ b : ℕ, b < w.struct.numBase ∧ idx.alpha = b) ∧
        Accepted w.struct (.shape (.box size p none)) pos (w.struct.sitePos idx) := by
  have hG := h.good hd
  obtain ⟨l, hl, hl'⟩ := box_limits size p hsize
  have hlim : (fun k => (l k).1) = p ∧ (fun k => (l k).2 - (l k).1) = size := by
    constructor <;> funext k <;> rw [hl']
    simp
  obtain ⟨nv, hnv, hmem⟩ := box_cells hd h hsize hR hw hB
  refine ⟨_, buildIndices_none hG.positions_length hb (nvecs := nv) ?_ ?_, ?_⟩
  · rw [buildTranslationVectors_eq _ hd]
    unfold buildRegion
    dsimp only
    rw [hl]
    dsimp only
    rw [hlim.1, hlim.2]
    exact hnv
  · intro points
    unfold checkError checkPoints
    rw [if_pos rfl]
    dsimp only
    rw [mapM_ok (fun q => (AShape.box size p none).contains q (1 / 1000)) (fun q =>
      decide (∀ k, p k - 1 / 1000 ≤ q k ∧ q k ≤ p k + size k + 1 / 1000)) points fun q _ => rfl]
  · intro idx
    rw [List.mem_filter, mem_siteList, hmem, ← accepts_iff]
    simp only [Bool.not_true, Bool.false_or]

/-! ## hypercubic lattices -/

/-- The cells from `c` to `c + n` can be enumerated: no cell number is negative, or the cells and
the origin lie in a cube with at most 126 cells per edge. -/
def CellsFit (c : Fin d → ℤ) (n : Fin d → ℕ) : Prop :=
  (∀ k, 0 ≤ c k) ∨ ∃ m M : ℤ, M - m ≤ 126 ∧ m ≤ 0 ∧ 0 ≤ M ∧ ∀ k, m ≤ c k ∧ c k + n k ≤ M

theorem cubic_frac {b : LatticeBasis d ℝ} {a : ℝ} (hv : b.vectors = a • (1 : Matrix (Fin d) (Fin d) ℝ))
    (x c : Vec d ℝ) : IsFrac b x c ↔ ∀ k, x k = a * c k := by
  unfold IsFrac
  refine forall_congr' fun k => ?_
  rw [hv, Finset.sum_eq_single k (by intro i _ hi; simp [hi]) (by simp)]
  simp [mul_comm]

/-- The position of the cell `c`. -/
def cellPos (a : ℝ) (c : Fin d → ℤ) : Vec d ℝ := fun k => a * c k

theorem cubic_searched {S : Structure d ℝ} {a : ℝ} (ha : 1 / 1000 < a)
    (hv : S.basis.vectors = a • (1 : Matrix (Fin d) (Fin d) ℝ)) (hp : S.positions = [0])
    {c : Fin d → ℤ} {n : Fin d → ℕ} (hfit : CellsFit c n) (pos : Option (Vec d ℝ)) :
    Searched S none (.shape (.box (fun k => a * n k) (cellPos a c) none)) pos (cellPos a c)
      (cellPos a c + fun k => a * n k) where
  sharp := by
    rintro idx p ⟨b, r, -, hb, rfl⟩ hacc k
    have hr : r = 0 := by
      rw [hp, List.getElem?_singleton] at hb
      split_ifs at hb
      exact (Option.some.inj hb).symm
    subst hr
    rw [← accepts_iff] at hacc
    unfold accepts AShape.contains at hacc
    simp only [decide_eq_true_eq] at hacc
    have hk := hacc k
    have e : (0 : Vec d ℝ) k + ∑ l, (idx.cell l : ℝ) * S.basis.vectors l k = a * idx.cell k := by
      rw [hv, Finset.sum_eq_single k (by intro i _ hi; simp [hi]) (by simp)]
      simp [mul_comm]
    rw [e] at hk
    dsimp only
    rw [e]
    unfold cellPos at hk ⊢
    simp only [Pi.add_apply]
    have h1 : c k ≤ idx.cell k := by
      by_contra hlt
      have : (idx.cell k : ℝ) + 1 ≤ c k := by exact_mod_cast (by omega : idx.cell k + 1 ≤ c k)
      nlinarith
    have h2 : idx.cell k ≤ c k + n k := by
      by_contra hlt
      have : (c k : ℝ) + n k + 1 ≤ idx.cell k := by
        exact_mod_cast (by omega : c k + n k + 1 ≤ idx.cell k)
      nlinarith
    have h1' : (c k : ℝ) ≤ idx.cell k := by exact_mod_cast h1
    have h2' : (idx.cell k : ℝ) ≤ c k + n k := by exact_mod_cast h2
    constructor <;> nlinarith
  wide := by
    have ha0 : 0 < a := by linarith
    have key : ∀ m M : ℤ, m ≤ 0 → 0 ≤ M → (∀ k, m ≤ c k ∧ c k + n k ≤ M) →
        ∀ x cx : Vec d ℝ, IsFrac S.basis x cx → (∀ i, min 0 (cellPos a c i) ≤ x i ∧
          x i ≤ max 0 ((cellPos a c + fun k => a * n k) i)) →
          ∀ k, (m : ℝ) ≤ cx k ∧ cx k ≤ M := by
      intro m M hm hM hk x cx hx hb k
      rw [cubic_frac hv] at hx
      obtain ⟨h1, h2⟩ := hb k
      have h3 : (m : ℝ) ≤ c k := by exact_mod_cast (hk k).1
      have h4 : (c k : ℝ) + n k ≤ M := by exact_mod_cast (hk k).2
      have h5 : (m : ℝ) ≤ 0 := by exact_mod_cast hm
      have h6 : (0 : ℝ) ≤ M := by exact_mod_cast hM
      rw [hx k] at h1 h2
      unfold cellPos at h1 h2
      simp only [Pi.add_apply] at h2
      constructor
      · have : a * m ≤ a * cx k := le_trans (le_min (by nlinarith) (by nlinarith)) h1
        exact le_of_mul_le_mul_left this ha0
      · have : a * cx k ≤ a * M := h2.trans (max_le (by nlinarith) (by nlinarith))
        exact le_of_mul_le_mul_left this ha0
    rcases hfit with h0 | ⟨m, M, hmM, hm, hM, hk⟩
    · refine ⟨0, ∑ k, (c k + n k), Or.inr (le_refl _), key 0 _ (le_refl _) ?_ fun k => ⟨h0 k, ?_⟩⟩
      · exact Finset.sum_nonneg fun k _ => by have := h0 k; omega
      · exact Finset.single_le_sum (f := fun k => c k + (n k : ℤ)) (fun k _ => by have := h0 k; omega)
          (Finset.mem_univ k)
    · exact ⟨m, M, Or.inl (by omega), key m M hm hM hk⟩

/-- A box of whole cells of a hypercubic lattice can be built anywhere, and the box moved by any
number of cells gives the moved lattice. -/
def BoxesMove (env : Env ℝ) (w : World d ℝ) (a : ℝ) : Prop :=
  ∀ (c m : Fin d → ℤ) (n : Fin d → ℕ) (isInt isInt' : Bool), CellsFit c n → CellsFit (c + m) n →
    ∃ L1 D1 L2 D2,
      (Lattice.ofWorld w).build env
        { shape := .size (List.ofFn fun k => a * n k) isInt, pos := some (cellPos a c) } =
        (L1, .ok ()) ∧
      (Lattice.ofWorld w).build env
        { shape := .size (List.ofFn fun k => a * n k) isInt', pos := some (cellPos a (c + m)) } =
        (L2, .ok ()) ∧
      L1.data = some D1 ∧ L2.data = some D2 ∧ Idx.mk c 0 ∈ D1.indices ∧
      MovedLattice m (cellPos a m) L1 D1 L2 D2

theorem cubic_moves (hd : 0 < d) (env : Env ℝ) (s : Session) {a : ℝ} (ha : 1 / 1000 < a)
    (atom : AtomSpec) {rows : Matrix (Fin d) (Fin d) ℝ}
    (hrows : rows = a • (1 : Matrix (Fin d) (Fin d) ℝ)) :
    ∃ w, configure env s (LatticeBasis.init rows) (oneAtom atom 1) = .ok w ∧ BoxesMove env w a := by
  have ha0 : 0 < a := by linarith
  have habs : |a| = a := abs_of_pos ha0
  obtain ⟨w, h1, h2, -, h3⟩ := cubic_nearest hd env s (a := a) (by rw [habs]; linarith) atom hrows
  have hr := configure_reachable h1
  have hvec := (configure_vectors h1).trans hrows
  have hN := cubic_only (by rw [habs]; linarith) hd hr hvec h2 h3
  obtain ⟨b, hb⟩ := (LatticeBasis.init_eq_ok_iff rows).2 (by
    rw [hrows, Matrix.det_smul, Matrix.det_one, mul_one]
    exact pow_ne_zero _ ha0.ne')
  obtain ⟨w', c0, cells, A, h1', hC, he⟩ := configure_oneAtom hd env s hb atom one_pos
  cases h1.symm.trans h1'
  refine ⟨w, h1, ?_⟩
  have hG := hr.good hd
  have hnb : 0 < w.struct.numBase := by rw [← hG.positions_length, h2]; exact one_pos
  have hs : 0 < c0.size := by rw [hC.size]; exact Nat.one_pos
  have hz' : c0.allZero = false := by
    by_contra hz'
    rw [Bool.not_eq_false, ConnMatrix.allZero_iff] at hz'
    have := hz' 0 hs 0 hs
    omega
  have hdir : ∀ x c : Vec d ℝ, IsFrac w.struct.basis x c → (∀ i, 0 ≤ x i) → ∀ k, 0 ≤ c k := by
    intro x c hx h0 k
    rw [cubic_frac hvec] at hx
    have := h0 k
    rw [hx k] at this
    exact nonneg_of_mul_nonneg_right this ha0
  have hR : ∀ lo, Reaches w.struct.basis lo := fun lo k => Or.inl fun x c hx h0 => hdir x c hx h0 k
  have hatoms : ∀ p ∈ w.struct.positions, ∃ c, IsFrac w.struct.basis p c ∧ ∀ k, 0 ≤ c k ∧ c k < 2 := by
    intro p hp
    rw [h2, List.mem_singleton] at hp
    subst hp
    exact ⟨0, (cubic_frac hvec _ _).2 fun k => by simp, fun k => by simp⟩
  obtain ⟨n1, hn1, hn10⟩ := exists_searched hd hC.searched
  have hbuild : ∀ (c : Fin d → ℤ) (n : Fin d → ℕ) (isInt : Bool), CellsFit c n → ∃ L D,
      (Lattice.ofWorld w).build env
        { shape := .size (List.ofFn fun k => a * n k) isInt, pos := some (cellPos a c) } =
        (L, .ok ()) ∧ L.data = some D ∧ Idx.mk c 0 ∈ D.indices := by
    intro c n isInt hfit
    have hS := cubic_searched ha hvec h2 hfit (some (cellPos a c))
    obtain ⟨m, M, hw, hB⟩ := hS.wide
    have hsize : ∀ k, 0 ≤ a * (n k : ℝ) := fun k => by positivity
    obtain ⟨r, hbi, -⟩ := box_indices hd hr hnb hsize (hR _) (some (cellPos a c)) hw hB
    obtain ⟨-, hr2, hmem⟩ := searched_sites hd hr
      (moved_box w.struct 0 _ (cellPos a c) hsize (some (cellPos a c)) none).box hS hbi hatoms (hR _)
      (fun k => by simpa using hsize k)
    have h0 : Idx.mk c 0 ∈ r.1 := by
      rw [hmem]
      refine ⟨cellPos a c, ⟨0, 0, by rw [Idx.alpha_mk]; rfl, by rw [h2]; rfl, ?_⟩, ?_⟩
      · funext k
        rw [hvec, Finset.sum_eq_single k (by intro i _ hi; simp [hi]) (by simp), Idx.cell_mk]
        simp [cellPos, mul_comm]
      · rw [← accepts_iff]
        unfold accepts AShape.contains
        simp only [decide_eq_true_eq]
        intro k
        have := hsize k
        constructor <;> linarith
    have hne : r.2 ≠ [] := by
      rw [hr2]
      intro e
      rw [List.map_eq_nil_iff] at e
      rw [e] at h0
      cases h0
    have hsh : Lattice.buildShape (Lattice.ofWorld w).struct
        ({ shape := .size (List.ofFn fun k => a * (n k : ℝ)) isInt, pos := some (cellPos a c) } :
          BuildArgs d ℝ) = .ok (.box (fun k => a * n k) (cellPos a c) none) := by
      unfold Lattice.buildShape
      dsimp only
      rw [toVec_ofFn]
      rfl
    obtain ⟨L, D, g1, g2, g3, -⟩ := C59_nearest_only_builds_partial (L := Lattice.ofWorld w) hd hr hN
      hC.analysis (fun c' hc' => by cases hC.conn.symm.trans hc'; exact hz') (raw_one hN hC hn1 hn10)
      (a := { shape := .size (List.ofFn fun k => a * (n k : ℝ)) isInt, pos := some (cellPos a c) })
      rfl rfl rfl hsh hbi hne
    exact ⟨L, D, g1, g2, by rw [g3]; exact h0⟩
  intro c m n isInt isInt' hf1 hf2
  obtain ⟨L1, D1, b1, d1, i1⟩ := hbuild c n isInt hf1
  obtain ⟨L2, D2, b2, d2, -⟩ := hbuild (c + m) n isInt' hf2
  have hsh : ∀ (c : Fin d → ℤ) (isInt : Bool), Lattice.buildShape (Lattice.ofWorld w).struct
      ({ shape := .size (List.ofFn fun k => a * (n k : ℝ)) isInt, pos := some (cellPos a c) } :
        BuildArgs d ℝ) = .ok (.box (fun k => a * n k) (cellPos a c) none) := by
    intro c isInt
    unfold Lattice.buildShape
    dsimp only
    rw [toVec_ofFn]
    rfl
  have hadd : cellPos a (c + m) = cellPos a c + cellPos a m := by
    funext k
    simp only [cellPos, Pi.add_apply]
    push_cast
    ring
  have hsize : ∀ k, 0 ≤ a * (n k : ℝ) := fun k => by positivity
  have hM := moved_box w.struct (cellPos a m) (fun k => a * (n k : ℝ)) (cellPos a c) hsize
    (some (cellPos a c)) (some (cellPos a (c + m)))
  have hS1 := cubic_searched ha hvec h2 hf1 (some (cellPos a c))
  have hS2 := cubic_searched ha hvec h2 hf2 (some (cellPos a (c + m)))
  have e2 : cellPos a (c + m) + (fun k => a * (n k : ℝ)) =
      cellPos a c + (fun k => a * (n k : ℝ)) + cellPos a m := by
    rw [hadd]; abel
  rw [e2] at hS2
  rw [← hadd] at hM
  obtain ⟨A', D1', D2', hA', d1', d2', -, -, hmv⟩ := C118_lattice_partial (L := Lattice.ofWorld w)
    (m := m) (v := cellPos a m) hd hr hN.distinct hatoms ((cubic_frac hvec _ _).2 fun k => rfl)
    (hsh c isInt) (hsh (c + m) isInt') (fun k => by simpa using hsize k) hM hS1
    (by rw [← hadd]; exact hS2) (hR _) (hR _) b1 b2
  cases d1.symm.trans d1'
  cases d2.symm.trans d2'
  exact ⟨L1, D1, L2, D2, b1, b2, d1, d2, i1, hmv (hN.raw hd hr hA')
    (hN.wellResolved (L := Lattice.ofWorld w) hd hr hA' rfl rfl rfl b1 d1)
    (hN.wellResolved (L := Lattice.ofWorld w) hd hr hA' rfl rfl rfl b2 d2)⟩

/-- C118 for the hypercubic preset lattices with one shell of neighbours and a lattice constant above
the tolerance of `check_points`: boxes of whole cells can be built at every cell, and the box moved
by any number of cells gives the moved lattice. -/
theorem C118_hypercubic (env : Env ℝ) (s : Session) (a : ℝ) (ha : 1 / 1000 < a) (atom : AtomSpec) :
    (∃ w, simpleChain env s a atom 1 = .ok w ∧ BoxesMove env w a) ∧
    (∃ w, simpleSquare env s a atom 1 = .ok w ∧ BoxesMove env w a) ∧
    (∃ w, simpleCubic env s a atom 1 = .ok w ∧ BoxesMove env w a) ∧
    (∀ d, 0 < d → ∃ w : World d ℝ,
      configure env s (LatticeBasis.hypercubic d a) (oneAtom atom 1) = .ok w ∧
      BoxesMove env w a) := by
  refine ⟨?_, ?_, ?_, fun d hd => ?_⟩
  · exact cubic_moves one_pos env s ha atom (rows := !![a]) (by
      ext i j; fin_cases i; fin_cases j; simp)
  · exact cubic_moves two_pos env s ha atom rfl
  · exact cubic_moves three_pos env s ha atom rfl
  · exact cubic_moves hd env s ha atom rfl

/-- The box of 4 × 3 cells at the cell (0, 0) and at the cell (-7, 25), and the box of 300 × 3 cells
at the cells (0, 0) and (1000, 0). -/
example : CellsFit ![0, 0] ![4, 3] ∧ CellsFit (![0, 0] + ![-7, 25]) ![4, 3] ∧
    CellsFit ![0, 0] ![300, 3] ∧ CellsFit (![0, 0] + ![1000, 0]) ![300, 3] := by
  refine ⟨Or.inl ?_, Or.inr ⟨-7, 28, by norm_num, by norm_num, by norm_num, ?_⟩, Or.inl ?_, Or.inl ?_⟩ <;>
    intro k <;> fin_cases k <;> norm_num

/-! ## honeycomb lattices -/

/-- A box in the positive quadrant with no sites in the margin of the tolerance around it, whose
cells can be enumerated. -/
structure CleanBox (S : Structure d ℝ) (size p : Vec d ℝ) : Prop where
  start : ∀ k, 0 ≤ p k
  margin : ∀ idx q, IsSitePos S idx q →
    (∀ k, p k - 1 / 1000 ≤ q k ∧ q k ≤ p k + size k + 1 / 1000) → ∀ k, p k ≤ q k ∧ q k ≤ p k + size k
  cells : ∃ m M : ℤ, M - m ≤ 126 ∧ ∀ x c : Vec d ℝ, IsFrac S.basis x c →
    (∀ k, 0 ≤ x k ∧ x k ≤ p k + size k) → ∀ k, (m : ℝ) ≤ c k ∧ c k ≤ M

theorem CleanBox.searched {S : Structure d ℝ} {size p : Vec d ℝ} (h : CleanBox S size p)
    (hsize : ∀ k, 0 ≤ size k) (pos : Option (Vec d ℝ)) :
    Searched S none (.shape (.box size p none)) pos p (p + size) where
  sharp idx q hq hacc := by
    rw [← accepts_iff] at hacc
    unfold accepts AShape.contains at hacc
    simp only [decide_eq_true_eq] at hacc
    exact h.margin idx q hq hacc
  wide := by
    obtain ⟨m, M, hmM, hk⟩ := h.cells
    refine ⟨m, M, Or.inl (by omega), fun x c hx hb => hk x c hx fun k => ?_⟩
    have h1 := hb k
    have h2 := h.start k
    have h3 := hsize k
    rw [min_eq_left h2, Pi.add_apply, max_eq_right (by linarith)] at h1
    exact h1

/-- Clean boxes with sites can be built, and the box moved by a lattice vector to another clean box
gives the moved lattice. -/
def CleanBoxesMove (env : Env ℝ) (w : World d ℝ) : Prop :=
  ∀ (size p v : Vec d ℝ) (m : Fin d → ℤ) (isInt isInt' : Bool), (∀ k, 0 ≤ size k) →
    IsLatticeVec w.struct.basis m v → CleanBox w.struct size p → CleanBox w.struct size (p + v) →
    (∃ idx q, IsSitePos w.struct idx q ∧ ∀ k, p k ≤ q k ∧ q k ≤ p k + size k) →
    ∃ L1 D1 L2 D2,
      (Lattice.ofWorld w).build env { shape := .size (List.ofFn size) isInt, pos := some p } =
        (L1, .ok ()) ∧
      (Lattice.ofWorld w).build env { shape := .size (List.ofFn size) isInt', pos := some (p + v) } =
        (L2, .ok ()) ∧
      L1.data = some D1 ∧ L2.data = some D2 ∧ MovedLattice m v L1 D1 L2 D2

theorem NearestOnly.moves {w : World d ℝ} {r : ℝ} {N : ℕ → Set (Idx d)} (hN : NearestOnly w r N)
    (hd : 0 < d) {env : Env ℝ} (hr : Reachable env w) {b : LatticeBasis d ℝ} {ps : List (Vec d ℝ)}
    {c cells A} (hC : Preset.Configured w b ps c 1 cells A) (hps : ps ≠ [])
    (hz : ∃ i < c.size, ∃ j < c.size, c.entry i j ≠ 0)
    (hR : ∀ lo : Vec d ℝ, (∀ k, 0 ≤ lo k) → Reaches w.struct.basis lo)
    (hatoms : ∀ p ∈ ps, ∃ c, IsFrac w.struct.basis p c ∧ ∀ k, 0 ≤ c k ∧ c k < 2) :
    CleanBoxesMove env w := by
  have hnb : 0 < w.struct.numBase := by
    rw [← hC.good.positions_length, hC.positions]
    exact List.length_pos_iff.2 hps
  rw [← hC.positions] at hatoms
  have hz' : c.allZero = false := by
    by_contra hz'
    rw [Bool.not_eq_false, ConnMatrix.allZero_iff] at hz'
    obtain ⟨i, hi, j, hj, hij⟩ := hz
    exact hij (hz' i hi j hj)
  obtain ⟨n1, hn1, hn10⟩ := exists_searched hd hC.searched
  have hsh : ∀ (size p : Vec d ℝ) (isInt : Bool), Lattice.buildShape (Lattice.ofWorld w).struct
      ({ shape := .size (List.ofFn size) isInt, pos := some p } : BuildArgs d ℝ) =
        .ok (.box size p none) := by
    intro size p isInt
    unfold Lattice.buildShape
    dsimp only
    rw [toVec_ofFn]
    rfl
  have hbuild : ∀ (size p : Vec d ℝ) (isInt : Bool), (∀ k, 0 ≤ size k) → CleanBox w.struct size p →
      (∃ idx q, IsSitePos w.struct idx q ∧ ∀ k, p k ≤ q k ∧ q k ≤ p k + size k) → ∃ L,
      (Lattice.ofWorld w).build env { shape := .size (List.ofFn size) isInt, pos := some p } =
        (L, .ok ()) := by
    rintro size p isInt hsize hcl ⟨idx, q, hq, hin⟩
    have hS := hcl.searched hsize (some p)
    obtain ⟨m, M, hw, hB⟩ := hS.wide
    obtain ⟨r, hbi, -⟩ := box_indices hd hr hnb hsize (hR p hcl.start) (some p) hw hB
    obtain ⟨-, hr2, hmem⟩ := searched_sites hd hr
      (moved_box w.struct 0 _ p hsize (some p) none).box hS hbi hatoms (hR p hcl.start)
      (fun k => by simpa using hsize k)
    have h0 : idx ∈ r.1 := by
      rw [hmem]
      refine ⟨q, hq, ?_⟩
      rw [← accepts_iff]
      unfold accepts AShape.contains
      simp only [decide_eq_true_eq]
      intro k
      have := hin k
      constructor <;> linarith [this.1, this.2]
    have hne : r.2 ≠ [] := by
      rw [hr2]
      intro e
      rw [List.map_eq_nil_iff] at e
      rw [e] at h0
      cases h0
    obtain ⟨L, D, g1, -⟩ := C59_nearest_only_builds_partial (L := Lattice.ofWorld w) hd hr hN
      hC.analysis (fun c' hc' => by cases hC.conn.symm.trans hc'; exact hz') (raw_one hN hC hn1 hn10)
      (a := { shape := .size (List.ofFn size) isInt, pos := some p })
      rfl rfl rfl (hsh size p isInt) hbi hne
    exact ⟨L, g1⟩
  rintro size p v m isInt isInt' hsize hv hc1 hc2 ⟨idx, q, hq, hin⟩
  obtain ⟨L1, b1⟩ := hbuild size p isInt hsize hc1 ⟨idx, q, hq, hin⟩
  obtain ⟨L2, b2⟩ := hbuild size (p + v) isInt' hsize hc2
    ⟨shiftIdx m idx, q + v, (shift_site hv idx q).2 hq, fun k => by
      have := hin k
      simp only [Pi.add_apply]
      constructor <;> linarith [this.1, this.2]⟩
  have e2 : p + v + size = p + size + v := by abel
  have hS2 := hc2.searched hsize (some (p + v))
  rw [e2] at hS2
  obtain ⟨A', D1, D2, hA', d1, d2, -, -, hmv⟩ := C118_lattice_partial (L := Lattice.ofWorld w)
    hd hr hN.distinct hatoms hv (hsh size p isInt) (hsh size (p + v) isInt')
    (fun k => by simpa using hsize k) (moved_box w.struct v size p hsize _ _)
    (hc1.searched hsize _) hS2 (hR _ hc1.start) (hR _ hc2.start) b1 b2
  exact ⟨L1, D1, L2, D2, b1, b2, d1, d2, hmv (hN.raw hd hr hA')
    (hN.wellResolved (L := Lattice.ofWorld w) hd hr hA' rfl rfl rfl b1 d1)
    (hN.wellResolved (L := Lattice.ofWorld w) hd hr hA' rfl rfl rfl b2 d2)⟩

/-- The coordinates of the hexagonal basis grow along the first axis. -/
theorem hex_reaches {a : ℝ} (ha : 0 < a) {b : LatticeBasis 2 ℝ} (hb : LatticeBasis.hexagonal a = .ok b)
    (lo : Vec 2 ℝ) (hlo : ∀ k, 0 ≤ lo k) : Reaches b lo := by
  intro k
  refine Or.inr ⟨hlo, Pi.single 0 1, b.itransform (Pi.single 0 1), (isFrac_iff hb _ _).2 rfl, ?_, ?_, ?_⟩
  · intro i
    fin_cases i <;> simp
  · intro h
    have := congrFun h 0
    simp at this
  · rw [itransform_apply, Finset.sum_eq_single 0 (by intro i _ hi; simp [hi]) (by simp)]
    obtain ⟨e1, -, -, e2⟩ := LatticeBasis.init_ok hb
    rw [e1] at e2
    have e : b.Vinv k 0 * (3 * a) = 1 := by
      have h0 := congrFun (congrFun e2 k) 0
      have h1 := congrFun (congrFun e2 k) 1
      simp [Matrix.mul_apply, Fin.sum_univ_two] at h0 h1
      fin_cases k <;> simp [Matrix.one_apply] at h0 h1 ⊢ <;> linarith
    simp only [Pi.single_eq_same, mul_one]
    by_contra hneg
    push Not at hneg
    nlinarith

theorem honey_atoms {a : ℝ} {b : LatticeBasis 2 ℝ} (hb : LatticeBasis.hexagonal a = .ok b) :
    ∀ p ∈ [(![0, 0] : Vec 2 ℝ), ![a, 0]], ∃ c, IsFrac b p c ∧ ∀ k, 0 ≤ c k ∧ c k < 2 := by
  have hv := LatticeBasis.init_vectors hb
  intro p hp
  simp only [List.mem_cons, List.not_mem_nil, or_false] at hp
  rcases hp with rfl | rfl
  · refine ⟨0, fun i => ?_, fun k => by simp⟩
    fin_cases i <;> simp
  · refine ⟨fun _ => 1 / 3, fun i => ?_, fun k => by norm_num⟩
    rw [hv]
    fin_cases i
    · simp [Fin.sum_univ_two]
      ring
    · simp [Fin.sum_univ_two]

/-- C118 for the hexagonal presets with one shell of neighbours and any lattice constant resolved by
the rounding of distances: clean boxes in the positive quadrant that are moved by a lattice vector give
the moved lattice. -/
theorem C118_honeycomb (env : Env ℝ) (s : Session) (a : ℝ) (ha : 1 / 10 ^ 5 ≤ a) (atom : AtomSpec) :
    (∃ w, simpleHexagonal env s a atom 1 = .ok w ∧ CleanBoxesMove env w) ∧
    (∃ w, honeycomb env s a atom = .ok w ∧ CleanBoxesMove env w) ∧
    (∃ w, graphene env s a = .ok w ∧ CleanBoxesMove env w) := by
  have ha0 : 0 < a := lt_of_lt_of_le (by positivity) ha
  have habs : |a| = a := abs_of_pos ha0
  have ha' : 1 / 10 ^ 5 ≤ |a| := by rwa [habs]
  refine ⟨?_, ?_, ?_⟩
  · obtain ⟨w, h1, h2, h3⟩ := C84_hexagonal_partial env s a ha' atom
    have hr := configure_reachable h1
    have hN := hex_only ha' hr (configure_vectors h1) h2 h3
    obtain ⟨b, hb, -⟩ := hex_init ha0.ne'
    obtain ⟨w', c, cells, A, h1', hC, he⟩ := configure_oneAtom two_pos env s hb atom one_pos
    cases h1.symm.trans h1'
    have hs : 0 < c.size := by rw [hC.size]; exact Nat.one_pos
    refine ⟨w, h1, hN.moves two_pos hr hC (by simp) ⟨0, hs, 0, hs, by omega⟩
      (by rw [hC.basis]; exact hex_reaches ha0 hb) ?_⟩
    intro p hp
    rw [List.mem_singleton] at hp
    subst hp
    exact ⟨0, fun i => by simp, fun k => by simp⟩
  · obtain ⟨w, at', h1, -, -, h2, h3, h4⟩ := C84_honeycomb_partial env s a ha' atom
    obtain ⟨s', ops, hc⟩ := honeycomb_configure h1
    have hr := configure_reachable hc
    obtain ⟨w', -, b, c, cells, A, hb, h1', hC, -, -, -, he, -⟩ := honeycomb_pair env s ha0.ne' atom
    cases h1.symm.trans h1'
    have hs : c.size = 2 := by rw [hC.size]; rfl
    exact ⟨w, h1, (honey_only ha' hr (configure_vectors hc) h2 h3 h4).moves two_pos hr hC (by simp)
      ⟨0, by omega, 1, by omega, by omega⟩ (by rw [hC.basis]; exact hex_reaches ha0 hb)
      (by rw [hC.basis]; exact honey_atoms hb)⟩
  · obtain ⟨w, h1, -, h2, h3, h4⟩ := C84_graphene_partial env s a ha'
    obtain ⟨s', ops, hc⟩ := graphene_configure h1
    have hr := configure_reachable hc
    obtain ⟨w', b, c, cells, A, hb, h1', hC, -, -, he, -⟩ := graphene_pair env s ha0.ne'
    cases h1.symm.trans h1'
    have hs : c.size = 2 := by rw [hC.size]; rfl
    exact ⟨w, h1, (honey_only ha' hr (configure_vectors hc) h2 h3 h4).moves two_pos hr hC (by simp)
      ⟨0, by omega, 1, by omega, by omega⟩ (by rw [hC.basis]; exact hex_reaches ha0 hb)
      (by rw [hC.basis]; exact honey_atoms hb)⟩

/-- The boxes of the size 2 × 2 at (0.1, 0.1) and at (3.1, 0.1) are clean boxes of graphene with the lattice
constant 1, the first one contains the site at (1, √3): the hypotheses of `CleanBoxesMove` are met by
the vector (3, 0) with the coordinates (1, 1). -/
example (env : Env ℝ) (s : Session) : ∃ w, graphene env s 1 = .ok w ∧
    IsLatticeVec w.struct.basis ![1, 1] ![3, 0] ∧ CleanBox w.struct ![2, 2] ![1 / 10, 1 / 10] ∧
    CleanBox w.struct ![2, 2] (![1 / 10, 1 / 10] + ![3, 0]) ∧
    ∃ idx q, IsSitePos w.struct idx q ∧
      ∀ k, (![1 / 10, 1 / 10] : Vec 2 ℝ) k ≤ q k ∧ q k ≤ (![1 / 10, 1 / 10] : Vec 2 ℝ) k + (![2, 2] : Vec 2 ℝ) k := by
  obtain ⟨w, b, c, cells, A, hb, h1, hC, -⟩ := graphene_pair env s (one_ne_zero (α := ℝ))
  have hv := LatticeBasis.init_vectors hb
  have h3 : Real.sqrt 3 * Real.sqrt 3 = 3 := Real.mul_self_sqrt (by norm_num)
  have h30 : 0 ≤ Real.sqrt 3 := Real.sqrt_nonneg 3
  have h3l : (173 / 100 : ℝ) < Real.sqrt 3 := by nlinarith
  have h3u : Real.sqrt 3 < (174 / 100 : ℝ) := by nlinarith
  have hfr : ∀ x c : Vec 2 ℝ, IsFrac w.struct.basis x c ↔
      x 0 = 3 / 2 * (c 0 + c 1) ∧ x 1 = Real.sqrt 3 / 2 * (c 0 - c 1) := by
    intro x c
    unfold IsFrac
    rw [hC.basis, hv, Fin.forall_fin_two]
    simp only [Fin.sum_univ_two]
    simp
    constructor
    · rintro ⟨e1, e2⟩
      exact ⟨by rw [e1]; ring, by rw [e2]; ring⟩
    · rintro ⟨e1, e2⟩
      exact ⟨by rw [e1]; ring, by rw [e2]; ring⟩
  have hsite : ∀ (idx : Idx 2) (q : Vec 2 ℝ), IsSitePos w.struct idx q → ∃ t : ℤ,
      2 * q 0 = t ∧ q 1 = Real.sqrt 3 / 2 * ((idx.cell 0 - idx.cell 1 : ℤ) : ℝ) := by
    rintro idx q ⟨β, r, -, hr, rfl⟩
    have hmem := List.mem_of_getElem? hr
    have hq := (hfr _ _).1 (fun i => rfl : IsFrac w.struct.basis
      (fun i => ∑ k, (idx.cell k : ℝ) * w.struct.basis.vectors k i) fun k => (idx.cell k : ℝ))
    dsimp only at hq ⊢
    rw [hq.1, hq.2]
    rw [hC.positions] at hmem
    simp only [List.mem_cons, List.not_mem_nil, or_false] at hmem
    rcases hmem with rfl | rfl
    · refine ⟨3 * (idx.cell 0 + idx.cell 1), ?_, ?_⟩ <;> push_cast <;> simp
      ring
    · refine ⟨2 + 3 * (idx.cell 0 + idx.cell 1), ?_, ?_⟩ <;> push_cast
      · ring
      · simp
  have hclean : ∀ p : Vec 2 ℝ, (p 0 = 1 / 10 ∨ p 0 = 31 / 10) → p 1 = 1 / 10 →
      CleanBox w.struct ![2, 2] p := by
    intro p hp0 hp1
    refine ⟨?_, ?_, ?_⟩
    · intro k
      fin_cases k
      · rcases hp0 with h | h <;> norm_num [h]
      · simp [hp1]
    · intro idx q hq hin
      obtain ⟨t, ht, hy⟩ := hsite idx q hq
      have i0 := hin 0
      have i1 := hin 1
      simp only [Matrix.cons_val_zero, Matrix.cons_val_one, hp1] at i0 i1
      generalize idx.cell 0 - idx.cell 1 = D at hy
      have hD1 : 1 ≤ D := by
        by_contra hlt
        have : (D : ℝ) ≤ 0 := by exact_mod_cast (by omega : D ≤ 0)
        nlinarith
      have hD2 : D ≤ 2 := by
        by_contra hlt
        have : (3 : ℝ) ≤ D := by exact_mod_cast (by omega : 3 ≤ D)
        nlinarith
      have hD1' : (1 : ℝ) ≤ D := by exact_mod_cast hD1
      have hD2' : (D : ℝ) ≤ 2 := by exact_mod_cast hD2
      have k0 : p 0 ≤ q 0 ∧ q 0 ≤ p 0 + 2 := by
        rcases hp0 with h | h <;> rw [h] at i0 ⊢
        · have h1 : 1 ≤ t := by
            by_contra hlt
            have : (t : ℝ) ≤ 0 := by exact_mod_cast (by omega : t ≤ 0)
            linarith
          have h2 : t ≤ 4 := by
            by_contra hlt
            have : (5 : ℝ) ≤ t := by exact_mod_cast (by omega : 5 ≤ t)
            linarith
          have h1' : (1 : ℝ) ≤ t := by exact_mod_cast h1
          have h2' : (t : ℝ) ≤ 4 := by exact_mod_cast h2
          constructor <;> linarith
        · have h1 : 7 ≤ t := by
            by_contra hlt
            have : (t : ℝ) ≤ 6 := by exact_mod_cast (by omega : t ≤ 6)
            linarith
          have h2 : t ≤ 10 := by
            by_contra hlt
            have : (11 : ℝ) ≤ t := by exact_mod_cast (by omega : 11 ≤ t)
            linarith
          have h1' : (7 : ℝ) ≤ t := by exact_mod_cast h1
          have h2' : (t : ℝ) ≤ 10 := by exact_mod_cast h2
          constructor <;> linarith
      have k1 : p 1 ≤ q 1 ∧ q 1 ≤ p 1 + 2 := by
        rw [hp1, hy]
        constructor <;> nlinarith
      intro k
      fin_cases k
      · simpa using k0
      · simpa using k1
    · refine ⟨-3, 3, by norm_num, ?_⟩
      intro x c hx hb k
      obtain ⟨e1, e2⟩ := (hfr x c).1 hx
      have b0 := hb 0
      have b1 := hb 1
      simp only [Matrix.cons_val_zero, Matrix.cons_val_one, hp1] at b0 b1
      have b0' : x 0 ≤ 51 / 10 := by rcases hp0 with h | h <;> rw [h] at b0 <;> linarith [b0.2]
      have d1 : 0 ≤ c 0 - c 1 := by
        by_contra hlt
        push Not at hlt
        nlinarith [b1.1]
      have d2 : c 0 - c 1 ≤ 25 / 10 := by
        by_contra hlt
        push Not at hlt
        nlinarith [b1.2]
      fin_cases k <;> push_cast <;> constructor <;> linarith [b0.1]
  refine ⟨w, h1, ?_, hclean _ (Or.inl rfl) rfl, hclean _ (Or.inr ?_) ?_, Idx.mk ![1, -1] 1, ![1, Real.sqrt 3],
    ⟨1, ![1, 0], by rw [Idx.alpha_mk]; rfl, by rw [hC.positions]; rfl, ?_⟩, ?_⟩
  · refine (hfr _ _).2 ?_
    norm_num
  · norm_num
  · norm_num
  · have hq := (hfr _ _).1 (fun i => rfl : IsFrac w.struct.basis
      (fun i => ∑ k, ((![1, -1] : Fin 2 → ℤ) k : ℝ) * w.struct.basis.vectors k i)
        fun k => ((![1, -1] : Fin 2 → ℤ) k : ℝ))
    rw [Idx.cell_mk]
    funext k
    fin_cases k
    · simp only [Fin.zero_eta, hq.1]
      norm_num
    · simp only [Fin.mk_one, hq.2]
      norm_num
  · intro k
    fin_cases k
    · norm_num
    · simp
      constructor <;> linarith

/-- C118 fails for long chains around the origin: the chain with lattice constant 1 in the box
[0, 200] has the site at 150, but in the box moved by -100 the site at 50 is missing, since the numbers
of the cells do not fit into the index type. -/
theorem C118_index_type_fails (env : Env ℝ) :
    ∃ (w : World 1 ℝ) (shape : ShapeArg 1 ℝ) (r r' : List (Idx 1) × List (Vec 1 ℝ)),
      Reachable env w ∧ w.struct.positions = [fun _ => 0] ∧
      IsLatticeVec w.struct.basis (fun _ => -100) (fun _ => -100) ∧
      shape = .size (List.ofFn fun _ : Fin 1 => (200 : ℝ)) false ∧
      w.struct.buildIndices shape false (some fun _ => 0) true none none = .ok r ∧
      w.struct.buildIndices shape false (some fun _ => -100) true none none = .ok r' ∧
      Idx.mk (fun _ => 150) 0 ∈ r.1 ∧ shiftIdx (fun _ => -100) (Idx.mk (fun _ => 150) 0) ∉ r'.1 := by
  obtain ⟨w, shape, r', hr, hb, hp, rfl, h1, -, -, h2⟩ := C40_index_type_fails env
  have hG := hr.good one_pos
  have hfr : ∀ x c : Vec 1 ℝ, IsFrac w.struct.basis x c ↔ x 0 = c 0 := by
    intro x c
    unfold IsFrac
    simp only [Fin.forall_fin_one, Finset.univ_unique, Fin.default_eq_zero, Fin.isValue,
      Finset.sum_singleton]
    rw [hb, mul_one]
  have hdir : ∀ x c : Vec 1 ℝ, IsFrac w.struct.basis x c → (∀ i, 0 ≤ x i) → ∀ k, 0 ≤ c k := by
    intro x c hx h0 k
    rw [hfr] at hx
    rw [Subsingleton.elim k 0, ← hx]
    exact h0 0
  have hB : ∀ x c : Vec 1 ℝ, IsFrac w.struct.basis x c →
      (∀ i, min 0 ((fun _ => 0 : Vec 1 ℝ) i) ≤ x i ∧
        x i ≤ max 0 (((fun _ => 0) + fun _ => 200 : Vec 1 ℝ) i)) →
      ∀ k, ((0 : ℤ) : ℝ) ≤ c k ∧ c k ≤ ((200 : ℤ) : ℝ) := by
    intro x c hx h0 k
    rw [hfr] at hx
    rw [Subsingleton.elim k 0, ← hx]
    have := h0 0
    norm_num at this ⊢
    exact this
  obtain ⟨nv, hnv, -⟩ := box_cells (size := fun _ => 200) (p := fun _ => 0) one_pos hr
    (fun k => by norm_num) (fun k => Or.inl fun x c hx h0 => hdir x c hx h0 k) (Or.inr (le_refl 0)) hB
  obtain ⟨r, h3, -⟩ := buildIndices_size one_pos hG.positions_length
    (by rw [← hG.positions_length, hp]; exact one_pos) (fun _ => 200) false (some fun _ => 0) none hnv
  have hsite : IsSitePos w.struct (Idx.mk (fun _ => 150) 0) (fun _ => 150) := by
    refine ⟨0, _, by rw [Idx.alpha_mk]; rfl, by rw [hp]; rfl, ?_⟩
    funext k
    rw [Subsingleton.elim k 0, Idx.cell_mk]
    simp [hb]
  obtain ⟨i, hi, -⟩ := C40_region_partial one_pos hr (lo := fun _ => 0) (hi := fun _ => 200)
    (shape := .size (List.ofFn fun _ : Fin 1 => (200 : ℝ)) false) (pos := some fun _ => 0)
    ⟨rfl, by congr 1; funext k; simp⟩ h3
    (by
      intro p hp'
      rw [hp, List.mem_singleton] at hp'
      subst hp'
      exact ⟨fun _ => 0, (hfr _ _).2 rfl, fun k => by norm_num⟩)
    (fun k => Or.inl fun x c hx h0 => hdir x c hx h0 k) (m := 0) (M := 200)
    (by
      intro x c hx h0 k
      refine hB x c hx (fun i => ?_) k
      have := h0 i
      norm_num at this ⊢
      exact this) (Or.inr (le_refl 0)) hsite ⟨_, rfl, fun k => by norm_num⟩
  refine ⟨w, _, r, r', hr, hp, (hfr _ _).2 (by norm_num), rfl, h3, h1, List.mem_of_getElem? hi, ?_⟩
  have e : shiftIdx (fun _ => -100) (Idx.mk (fun _ : Fin 1 => (150 : ℤ)) 0) = Idx.mk (fun _ => 50) 0 := by
    unfold shiftIdx
    rw [Idx.cell_mk, Idx.alpha_mk]
    congr 1
  rw [e]
  exact h2

/-- C118 fails for boxes that end just before a lattice plane: the square lattice in the box
[0, 2.9995] × [0, 1] does not have the site (3, 0), which is within the tolerance of `check_points`
but not in the searched window; in the box moved by (-3, 0) the window reaches up to the origin, and the
corresponding site (0, 0) is there. -/
theorem C118_tolerance_fails (env : Env ℝ) :
    ∃ (w : World 2 ℝ) (r r' : List (Idx 2) × List (Vec 2 ℝ)),
      Reachable env w ∧ w.struct.basis.vectors = 1 ∧ w.struct.positions = [0] ∧
      IsLatticeVec w.struct.basis ![-3, 0] ![-3, 0] ∧
      w.struct.buildIndices (.shape (.box ![29995 / 10000, 1] ![0, 0] none)) false none true none none =
        .ok r ∧
      w.struct.buildIndices (.shape (.box ![29995 / 10000, 1] ![-3, 0] none)) false none true none none =
        .ok r' ∧
      Idx.mk ![3, 0] 0 ∉ r.1 ∧ shiftIdx ![-3, 0] (Idx.mk ![3, 0] 0) ∈ r'.1 := by
  obtain ⟨b, hb⟩ := (LatticeBasis.init_eq_ok_iff (1 : Matrix (Fin 2) (Fin 2) ℝ)).2 (by simp)
  obtain ⟨w, A, cells, c, hr, hbas, hp, hn, -⟩ :=
    exists_structure two_pos env hb [0] (by simp) (by simp) Nat.one_pos
  have hG := hr.good two_pos
  have hn1 : w.struct.numBase = 1 := by rw [hn]; rfl
  have hv : w.struct.basis.vectors = 1 := by rw [hbas, LatticeBasis.init_vectors hb]
  have hv' : w.struct.basis.vectors = (1 : ℝ) • (1 : Matrix (Fin 2) (Fin 2) ℝ) := by rw [hv, one_smul]
  have hfr : ∀ x, w.struct.basis.itransform x = x := by
    intro x
    rw [hbas]
    refine (isFrac_iff hb _ _).1 ?_
    rw [← hbas, cubic_frac hv']
    simp
  have hdir : ∀ x c : Vec 2 ℝ, IsFrac w.struct.basis x c → (∀ i, 0 ≤ x i) → ∀ k, 0 ≤ c k := by
    intro x c hx h0 k
    rw [cubic_frac hv'] at hx
    have := h0 k
    rw [hx k] at this
    linarith
  have hR : ∀ lo, Reaches w.struct.basis lo := fun lo k => Or.inl fun x c hx h0 => hdir x c hx h0 k
  have hsize : ∀ k, 0 ≤ (![29995 / 10000, 1] : Vec 2 ℝ) k := by
    intro k; fin_cases k <;> norm_num
  have hbox : ∀ p0 : ℝ, (p0 = 0 ∨ p0 = -3) → ∀ x c : Vec 2 ℝ, IsFrac w.struct.basis x c →
      (∀ i, min 0 ((![p0, 0] : Vec 2 ℝ) i) ≤ x i ∧
        x i ≤ max 0 ((![p0, 0] + ![29995 / 10000, 1] : Vec 2 ℝ) i)) →
      ∀ k, ((-3 : ℤ) : ℝ) ≤ c k ∧ c k ≤ ((3 : ℤ) : ℝ) := by
    intro p0 hp0 x c hx h0 k
    rw [cubic_frac hv'] at hx
    have h1 := h0 0
    have h2 := h0 1
    rw [hx 0] at h1
    rw [hx 1] at h2
    rcases hp0 with rfl | rfl <;> norm_num at h1 h2 <;> fin_cases k <;> norm_num <;>
      constructor <;> linarith [h1.1, h1.2, h2.1, h2.2]
  have hpos : ∀ n : Fin 2 → ℤ, w.struct.sitePos (Idx.mk n 0) = fun k => (n k : ℝ) := by
    intro n
    have h0 : 0 < w.struct.numBase := by omega
    have h1 : w.struct.posOf 0 = 0 := by
      have := exists_pos hG h0
      rw [hp] at this
      injection this with this
      exact this.symm
    unfold sitePos
    rw [Idx.alpha_mk, Idx.cell_mk, Int.toNat_zero, h1, LatticeBasis.translate_eq]
    funext k
    rw [hv, Finset.sum_eq_single k (by intro i _ hi; simp [hi]) (by simp)]
    simp
  obtain ⟨r, h1, m1⟩ := box_indices two_pos hr (by omega) hsize (hR _) none (m := -3) (M := 3)
    (p := ![0, 0]) (Or.inl (by norm_num)) (hbox 0 (Or.inl rfl))
  obtain ⟨r', h2, m2⟩ := box_indices two_pos hr (by omega) hsize (hR _) none (m := -3) (M := 3)
    (p := ![-3, 0]) (Or.inl (by norm_num)) (hbox (-3) (Or.inr rfl))
  refine ⟨w, r, r', hr, hv, hp, ?_, h1, h2, ?_, ?_⟩
  · refine (cubic_frac hv' _ _).2 fun k => ?_
    fin_cases k <;> norm_num
  · rw [m1]
    rintro ⟨⟨h3, -⟩, -⟩
    have h4 := (h3 0).2
    rw [Idx.cell_mk] at h4
    obtain ⟨-, q, hq, h⟩ := indexRange_attained w.struct ![0, 0]
      (fun k => (![0, 0] : Vec 2 ℝ) k + (![29995 / 10000, 1] : Vec 2 ℝ) k) 0
    unfold searchLimits at h4
    dsimp only at h4
    rw [h, hfr] at h4
    have h0 : q 0 < 3 := by rcases hq 0 with h | h <;> rw [h] <;> norm_num
    have : ⌊q 0⌋ < 3 := by
      rw [Int.floor_lt]
      exact_mod_cast h0
    simp only [Matrix.cons_val_zero] at h4
    omega
  · have e : shiftIdx ![-3, 0] (Idx.mk (![3, 0] : Fin 2 → ℤ) 0) = Idx.mk 0 0 := by
      unfold shiftIdx
      rw [Idx.cell_mk, Idx.alpha_mk]
      congr 1
      funext k
      fin_cases k <;> norm_num
    rw [e, m2, hpos]
    refine ⟨⟨fun k => ?_, 0, by omega, by rw [Idx.alpha_mk]; rfl⟩, ?_⟩
    · rw [Idx.cell_mk]
      obtain ⟨b1, b2, b3⟩ := indexRange_bounds w.struct ![-3, 0]
        (fun k => (![-3, 0] : Vec 2 ℝ) k + (![29995 / 10000, 1] : Vec 2 ℝ) k) k
      have b4 := (b3 (fun j => decide (j = k)) ⟨k, by simp⟩ (by
        fin_cases k
        · exact ⟨1, by decide⟩
        · exact ⟨0, by decide⟩)).2
      rw [hfr] at b1 b4
      simp only [decide_true, if_true, Int.floor_zero] at b4
      have b5 : ⌊(![-3, 0] : Vec 2 ℝ) k⌋ ≤ 0 := by
        fin_cases k
        · have : ⌊(-3 : ℝ)⌋ = -3 := by rw [Int.floor_eq_iff]; norm_num
          simpa using this.le.trans (by norm_num)
        · simp
      unfold searchLimits
      dsimp only
      simp only [Pi.zero_apply]
      omega
    · rw [← accepts_iff]
      unfold accepts AShape.contains
      simp only [decide_eq_true_eq]
      intro k
      fin_cases k <;> norm_num

end Lattpy
