import Verif.Props.Plot
import Verif.Props.UnitCellPlot
import Verif.Props.StructureQuery
import Verif.Props.Analysis
import Verif.Props.PresetAtoms
import Verif.Props.FourierPresets

/-!
# C102: the plot of the unit cell
-/

set_option autoImplicit false
set_option linter.unusedSectionVars false

namespace Lattpy

open Structure World

variable {d : ℕ}

/-- The line from an atom of the unit cell to the site `x.2`, in the colour of the pair of atoms. -/
def IsCellLine (S : Structure d ℝ) (l : List (ℤ × ℤ × PyVal)) (x : ℕ × Idx d) (s : Segment d ℝ) :
    Prop :=
  S.positions[x.1]? = some s.start ∧ IsSitePos S x.2 (fun k => s.start k + s.vec k) ∧
    PairColor S.numBase l (.str "k") x.1 x.2.alpha.toNat s.color

theorem mapM_flatMap {ι α β : Type*} {f : ι → Except PyErr (List β)} {P : α → β → Prop}
    {A : ι → List α} {l : List ι}
    (h : ∀ i ∈ l, ∃ u, f i = .ok u ∧ List.Forall₂ P (A i) u) :
    ∃ R, l.mapM f = .ok R ∧ List.Forall₂ P (l.flatMap A) R.flatten := by
  induction l with
  | nil => exact ⟨[], rfl, by simp⟩
  | cons i l ih =>
    obtain ⟨u, h1, h2⟩ := h i (by simp)
    obtain ⟨R, k1, k2⟩ := ih fun x hx => h x (by simp [hx])
    refine ⟨u :: R, ?_, ?_⟩
    · rw [List.mapM_cons, h1, k1]
      rfl
    · rw [List.flatMap_cons, List.flatten_cons]
      exact List.rel_append h2 k2

/-- The neighbours of an atom at one distance; none if there is no such distance. -/
noncomputable def levelList (S : Structure d ℝ) (a k : ℕ) : List (Idx d) :=
  match S.getNeighbors 0 a k with
  | .ok l => l
  | .error _ => []

theorem mem_levelList {S : Structure d ℝ} {a k : ℕ} {idx : Idx d} :
    idx ∈ levelList S a k ↔ ∃ l, S.getNeighbors 0 a k = .ok l ∧ idx ∈ l := by
  unfold levelList
  cases S.getNeighbors 0 a k <;> simp

theorem shiftIdx_zero (idx : Idx d) : shiftIdx 0 idx = idx := by
  unfold shiftIdx
  simp [Idx.mk_cell_alpha]

/-- The neighbours of atom `a` at distance number `k`. -/
theorem getNeighbors_zero_iff {S : Structure d ℝ} {A : Analysis d ℝ} (hA : S.analysis = some A)
    (a k : ℕ) (l : List (Idx d)) : S.getNeighbors 0 a k = .ok l ↔ ∃ D x, A.base[a]? = some D ∧
      D.sortedKeys[k]? = some x ∧ D.get? x = some l := by
  unfold getNeighbors
  rw [hA]
  dsimp only
  rw [pyGet_nat]
  have hid : ∀ l : List (Idx d), l.map (shiftIdx 0) = l := by
    intro l
    rw [List.map_congr_left (g := id) fun x _ => shiftIdx_zero x, List.map_id]
  cases hD : A.base[a]? with
  | none => simp
  | some D =>
    dsimp only
    rw [pyGet_nat]
    cases hx : D.sortedKeys[k]? with
    | none => simp [hx]
    | some x =>
      dsimp only
      cases hg : D.get? x with
      | none => simp [hx, hg]
      | some l' => simp [hx, hg, hid]

/-- The only exception of a query for an atom of an analysed structure is `IndexError`. -/
theorem getNeighbors_error {S : Structure d ℝ} {A : Analysis d ℝ} (hS : S.Good)
    (hA : S.analysis = some A) (a k : ℕ) {e : PyErr} (h : S.getNeighbors 0 a k = .error e) :
    e = .index := by
  obtain ⟨cells, m, c, -, -, -, -, -, hI⟩ := hS.analysis A hA
  unfold getNeighbors at h
  rw [hA] at h
  dsimp only at h
  rw [pyGet_nat] at h
  cases hD : A.base[a]? with
  | none => rw [hD] at h; cases h; rfl
  | some D =>
    rw [hD] at h
    dsimp only at h
    rw [pyGet_nat] at h
    cases hx : D.sortedKeys[k]? with
    | none => rw [hx] at h; cases h; rfl
    | some x =>
      rw [hx] at h
      dsimp only at h
      have hxk : x ∈ D.keys := by
        have : x ∈ D.sortedKeys := List.mem_of_getElem? hx
        unfold NDict.sortedKeys at this
        rwa [List.mem_insertionSort] at this
      obtain ⟨⟨x', xs⟩, hp, hxx⟩ := List.mem_map.1 hxk
      dsimp only at hxx
      subst hxx
      rw [(NDict.get?_eq_some (hI.base a D hD).1.1).2 hp] at h
      cases h

/-- Listed sites and queries. -/
theorem listed_iff_level {S : Structure d ℝ} {A : Analysis d ℝ} (hS : S.Good)
    (hA : S.analysis = some A) (a : ℕ) (idx : Idx d) :
    (∃ x, Listed A a x idx) ↔ ∃ (k : ℕ) (l : List (Idx d)), S.getNeighbors 0 a k = .ok l ∧ idx ∈ l := by
  obtain ⟨cells, m, c, -, -, -, -, -, hI⟩ := hS.analysis A hA
  constructor
  · rintro ⟨x, D, xs, hD, hx, hi⟩
    have hk : x ∈ D.sortedKeys := by
      unfold NDict.sortedKeys
      rw [List.mem_insertionSort]
      exact List.mem_map.2 ⟨_, hx, rfl⟩
    obtain ⟨k, hk⟩ := List.mem_iff_getElem?.1 hk
    exact ⟨k, xs, (getNeighbors_zero_iff hA a k xs).2 ⟨D, x, hD, hk,
      (NDict.get?_eq_some (hI.base a D hD).1.1).2 hx⟩, hi⟩
  · rintro ⟨k, l, hl, hi⟩
    obtain ⟨D, x, h1, -, h3⟩ := (getNeighbors_zero_iff hA a k l).1 hl
    exact ⟨x, D, l, h1, (NDict.get?_eq_some (hI.base a D h1).1.1).1 h3, hi⟩

/-- No neighbour is found at two distances. -/
theorem levels_nodup {S : Structure d ℝ} {A : Analysis d ℝ} (hS : S.Good)
    (hA : S.analysis = some A) (a n : ℕ) : ((List.range n).flatMap (levelList S a)).Nodup := by
  obtain ⟨cells, m, c, -, -, -, -, -, hI⟩ := hS.analysis A hA
  rw [List.nodup_flatMap]
  constructor
  · intro k _
    unfold levelList
    cases h : S.getNeighbors 0 a k with
    | error e => exact List.nodup_nil
    | ok l =>
      obtain ⟨-, -, -, -, -, -, -, -, -, -, -, -, hnd, -⟩ := getNeighbors_info hS h
      exact hnd
  · refine List.Pairwise.imp_of_mem ?_ List.pairwise_lt_range
    intro k k' _ _ hkk
    rw [Function.onFun, List.disjoint_left]
    intro idx h1 h2
    obtain ⟨l, e1, e2⟩ := mem_levelList.1 h1
    obtain ⟨l', f1, f2⟩ := mem_levelList.1 h2
    obtain ⟨D, x, g1, g2, g3⟩ := (getNeighbors_zero_iff hA a k l).1 e1
    obtain ⟨D', x', g1', g2', g3'⟩ := (getNeighbors_zero_iff hA a k' l').1 f1
    rw [g1] at g1'
    cases g1'
    obtain ⟨hwf, -, hm⟩ := hI.base a D g1
    obtain ⟨b, -, q, -, i1, i2, -⟩ := (hm x idx).1
      (NDict.mem_pairs.2 ⟨l, (NDict.get?_eq_some hwf.1).1 g3, e2⟩)
    obtain ⟨b', -, q', -, j1, j2, -⟩ := (hm x' idx).1
      (NDict.mem_pairs.2 ⟨l', (NDict.get?_eq_some hwf.1).1 g3', f2⟩)
    rw [i1, Idx.mk_inj] at j1
    obtain ⟨rfl, hbb⟩ := j1
    have hbb : b = b' := by exact_mod_cast hbb
    subst hbb
    have hxx : x = x' := i2.trans j2.symm
    subst hxx
    have hnd : D.sortedKeys.Nodup := by
      unfold NDict.sortedKeys
      exact (List.perm_insertionSort _ _).nodup_iff.2 hwf.1
    obtain ⟨k1, k2⟩ := List.getElem?_eq_some_iff.1 g2
    obtain ⟨k1', k2'⟩ := List.getElem?_eq_some_iff.1 g2'
    exact absurd ((hnd.getElem_inj_iff).1 (k2.trans k2'.symm)) hkk.ne

/-- Positions of sites are unique. -/
theorem IsSitePos.unique {S : Structure d ℝ} {idx : Idx d} {p q : Vec d ℝ} (hp : IsSitePos S idx p)
    (hq : IsSitePos S idx q) : p = q := by
  obtain ⟨b, r, h1, h2, rfl⟩ := hp
  obtain ⟨b', r', k1, k2, rfl⟩ := hq
  have : b = b' := by exact_mod_cast h1.symm.trans k1
  subst this
  rw [h2] at k2
  cases k2
  rfl

/-- The lines to listed sites. -/
theorem linkLines_ok {S : Structure d ℝ} {l : List (ℤ × ℤ × PyVal)} {colors : List (List PyVal)}
    (hcol : ∀ i j, i < S.numBase → j < S.numBase →
      ∃ c, cellAt colors i j = some c ∧ PairColor S.numBase l (.str "k") i j c)
    (hlen : S.positions.length = S.numBase) {a : ℕ} {pa : Vec d ℝ} (ha : S.positions[a]? = some pa)
    {is : List (Idx d)} {ps : List (Vec d ℝ)} (h : List.Forall₂ (IsSitePos S) is ps) :
    List.Forall₂ (fun x y => y.2.1 = x ∧ IsSitePos S x y.2.2 ∧ IsCellLine S l (a, x) y.1) is
      (linkLines colors a pa (is.zip ps)) := by
  induction h with
  | nil => exact List.Forall₂.nil
  | @cons idx p is ps h1 h2 ih =>
    obtain ⟨b, r, e1, e2, e3⟩ := h1
    have hb : b < S.numBase := by rw [← hlen]; exact (List.getElem?_eq_some_iff.1 e2).1
    have haN : a < S.numBase := by rw [← hlen]; exact (List.getElem?_eq_some_iff.1 ha).1
    obtain ⟨c, c1, c2⟩ := hcol a b haN hb
    have hca : colorAt colors a idx.alpha = .ok c := by
      rw [e1]
      exact colorAt_ok c1
    rw [List.zip_cons_cons]
    unfold linkLines
    rw [hca]
    refine List.Forall₂.cons ⟨rfl, ⟨b, r, e1, e2, e3⟩, ha, ⟨b, r, e1, e2, ?_⟩, ?_⟩ ih
    · rw [← e3]
      funext k
      dsimp only
      ring
    · dsimp only
      rw [e1, Int.toNat_natCast]
      exact c2

/-- What `plot_cell` draws for the neighbours, given the drawn connections `links`. -/
structure CellLinks (w : World d ℝ) (l : List (ℤ × ℤ × PyVal)) (links : List (ℕ × Idx d))
    (G : CellDrawing d ℝ) : Prop where
  nodup : links.Nodup
  lines : List.Forall₂ (IsCellLine w.struct l) links G.segments
  images : G.images.length = w.struct.numBase
  none : ∀ b < w.struct.numBase, (∀ x ∈ links, ¬ (x.2.alpha = b ∧ x.2.cell ≠ 0)) →
    G.images[b]? = some none
  some : ∀ b < w.struct.numBase, (∃ x ∈ links, x.2.alpha = b ∧ x.2.cell ≠ 0) → ∃ m m0 a q,
    G.images[b]? = some (some m) ∧ G.atoms[b]? = some m0 ∧ w.struct.atoms[b]? = some a ∧
    w.session.param a "radius" = .ok (.num q) ∧ m.radius = .num (3 / 5 * q) ∧ m.color = m0.color ∧
    m.points.Nodup ∧ ∀ p, p ∈ m.points ↔
      ∃ x ∈ links, x.2.alpha = b ∧ x.2.cell ≠ 0 ∧ IsSitePos w.struct x.2 p

/-- The circles of the atoms of the unit cell. -/
def CellAtoms (w : World d ℝ) (G : CellDrawing d ℝ) : Prop :=
  G.atoms.length = w.struct.numBase ∧ ∀ (b : ℕ) m, G.atoms[b]? = some m → ∃ a c p,
    w.struct.atoms[b]? = some a ∧ w.session.param a "color" = .ok c ∧
    w.session.param a "radius" = .ok m.radius ∧ m.label = w.session.nameAttr a ∧
    m.color = (if c = .none ∨ c = .str "" ∨ c = .num 0 then .str ("C" ++ toString b) else c) ∧
    w.struct.positions[b]? = some p ∧ m.points = [p]

theorem cellMarkers_ok {w : World d ℝ} (hS : w.struct.Good)
    (ha : ∀ a ∈ w.struct.atoms, ∃ c r, w.session.param a "color" = .ok c ∧
      w.session.param a "radius" = .ok r) {b : ℕ} (hb : b < w.struct.numBase) :
    ∃ m, w.cellMarkers b = .ok m ∧ ∃ a c p,
      w.struct.atoms[b]? = some a ∧ w.session.param a "color" = .ok c ∧
      w.session.param a "radius" = .ok m.radius ∧ m.label = w.session.nameAttr a ∧
      m.color = (if c = .none ∨ c = .str "" ∨ c = .num 0 then .str ("C" ++ toString b) else c) ∧
      w.struct.positions[b]? = some p ∧ m.points = [p] := by
  have h1 : b < w.struct.atoms.length := hb.trans_le hS.atoms_ge
  have h2 : b < w.struct.positions.length := by rw [hS.positions_length]; exact hb
  obtain ⟨c, r, e1, e2⟩ := ha _ (List.getElem_mem h1)
  unfold cellMarkers
  rw [pyGet_nat, pyGet_nat, List.getElem?_eq_getElem h1, List.getElem?_eq_getElem h2]
  dsimp only
  rw [e1, e2]
  refine ⟨_, rfl, _, c, _, rfl, e1, e2, rfl, ?_, rfl, rfl⟩
  unfold siteColor
  cases c with
  | none => rfl
  | str s => by_cases hs : s = "" <;> simp [PyVal.truthy, hs]
  | num q => by_cases hq : q = 0 <;> simp [PyVal.truthy, hq]
  | obj o => simp [PyVal.truthy]

theorem markers_ok {w : World d ℝ} (hS : w.struct.Good)
    (ha : ∀ a ∈ w.struct.atoms, ∃ c r, w.session.param a "color" = .ok c ∧
      w.session.param a "radius" = .ok r) :
    ∃ ms, (List.range w.struct.numBase).mapM w.cellMarkers = .ok ms ∧
      ∀ G : CellDrawing d ℝ, G.atoms = ms → CellAtoms w G := by
  obtain ⟨ms, h1, h2⟩ := mapM_total (l := List.range w.struct.numBase) (f := w.cellMarkers)
    fun b hb => by
      obtain ⟨m, hm, -⟩ := cellMarkers_ok hS ha (List.mem_range.1 hb)
      exact ⟨m, hm⟩
  refine ⟨ms, h1, ?_⟩
  rintro G rfl
  have hlen : G.atoms.length = w.struct.numBase := by
    have := h2.length_eq
    simpa using this.symm
  refine ⟨hlen, fun b m hm => ?_⟩
  obtain ⟨hb, hget⟩ := List.getElem?_eq_some_iff.1 hm
  have hk := (List.forall₂_iff_get.1 h2).2 b (by rw [List.length_range, ← hlen]; exact hb) hb
  simp only [List.get_eq_getElem, List.getElem_range] at hk
  obtain ⟨m', hm', hrest⟩ := cellMarkers_ok hS ha (by rw [← hlen]; exact hb)
  rw [hk, hget] at hm'
  cases hm'
  exact hrest

/-- C102: `plot_cell` draws the basis vectors and the outline of the cell, every atom of the cell at
its position, a line to every neighbour at the first `num_distances` distances of each atom, and a
smaller circle at every such neighbour in another cell. -/
theorem C102_cell (hd : 0 < d) (hd3 : d ≤ 3) {env : Env ℝ} {w : World d ℝ} (hw : Reachable env w)
    {A : Analysis d ℝ} (hA : w.struct.analysis = some A)
    (ha : ∀ a ∈ w.struct.atoms, ∃ c q, w.session.param a "color" = .ok c ∧
      w.session.param a "radius" = .ok (.num q))
    (showCell showVecs : Bool) (conColors : Option (List (ℤ × ℤ × PyVal)))
    (hc : ∀ e ∈ conColors.getD [], InRange w.struct.numBase e) :
    ∃ G n links, w.plotCell showCell showVecs true conColors = .ok G ∧
      w.struct.numDistances = .ok n ∧
      (G.arrows, G.outlines) =
        (if showVecs then drawUnitCell w.struct.basis.vectors showCell else ([], [])) ∧
      CellAtoms w G ∧ CellLinks w (conColors.getD []) links G ∧
      ∀ a idx, (a, idx) ∈ links ↔ ∃ k < n, ∃ l, w.struct.getNeighbors 0 a k = .ok l ∧ idx ∈ l := by
  have hS := hw.good hd
  obtain ⟨cells, m, c, -, -, -, -, hpos, hI⟩ := hS.analysis A hA
  -- connections
  obtain ⟨n, hn⟩ : ∃ n, w.struct.numDistances = .ok n := by
    unfold Structure.numDistances
    cases hcon : w.struct.conn with
    | none => exact absurd (hS.conn_none hcon).1 hpos.ne'
    | some c' =>
      obtain ⟨e1, e2⟩ := hS.conn_size c' hcon
      have hmem : c'.entry 0 0 ∈ c'.entries :=
        ConnMatrix.mem_entries.2 ⟨0, by omega, 0, by omega, rfl⟩
      dsimp only
      unfold ConnMatrix.max?
      cases hE : c'.entries with
      | nil => rw [hE] at hmem; exact absurd hmem List.not_mem_nil
      | cons x xs => exact ⟨_, rfl⟩
  obtain ⟨ms, hms, hatoms⟩ := markers_ok hS fun a h => by
    obtain ⟨c, q, h1, h2⟩ := ha a h
    exact ⟨c, _, h1, h2⟩
  obtain ⟨t, ht, hcol⟩ := colors_ok w.struct.numBase (.str "k") conColors hc
  have hlevel : ∀ a < w.struct.numBase, ∀ pa, w.struct.positions[a]? = some pa → ∀ k,
      ∃ u, levelLinks w.struct t a pa k = .ok u ∧
        List.Forall₂ (fun x y => y.2.1 = x ∧ IsSitePos w.struct x y.2.2 ∧
          IsCellLine w.struct (conColors.getD []) (a, x) y.1) (levelList w.struct a k) u := by
    intro a haN pa hpa k
    unfold levelLinks levelList
    cases hg : w.struct.getNeighbors 0 a k with
    | error e =>
      dsimp only
      rw [if_pos (getNeighbors_error hS hA a k hg)]
      exact ⟨[], rfl, List.Forall₂.nil⟩
    | ok l =>
      obtain ⟨ps, p0, x, g1, g2, -⟩ := C35_neighbor_positions hd hw 0 a k hg
      unfold getNeighborPositions at g1
      rw [hg] at g1
      dsimp only at g1 ⊢
      rw [g1]
      exact ⟨_, rfl, linkLines_ok hcol hS.positions_length hpa g2⟩
  have hatom : ∀ a < w.struct.numBase, ∃ u, atomLinks w.struct t a = .ok u ∧
      List.Forall₂ (fun x y => y.2.1 = x.2 ∧ IsSitePos w.struct x.2 y.2.2 ∧
          IsCellLine w.struct (conColors.getD []) x y.1)
        (((List.range n).flatMap (levelList w.struct a)).map (Prod.mk a)) u := by
    intro a haN
    have hlt : a < w.struct.positions.length := by rw [hS.positions_length]; exact haN
    obtain ⟨R, r1, r2⟩ := mapM_flatMap (l := List.range n) (A := levelList w.struct a)
      fun k _ => hlevel a haN _ (List.getElem?_eq_getElem hlt) k
    refine ⟨R.flatten, ?_, ?_⟩
    · unfold atomLinks
      rw [pyGet_nat, List.getElem?_eq_getElem hlt]
      dsimp only
      rw [hn]
      dsimp only
      rw [r1]
    · rw [List.forall₂_map_left_iff]
      exact r2
  obtain ⟨R, r1, r2⟩ := mapM_flatMap (l := List.range w.struct.numBase)
    (A := fun a => ((List.range n).flatMap (levelList w.struct a)).map (Prod.mk a))
    fun a h => hatom a (List.mem_range.1 h)
  generalize hlinks : (List.range w.struct.numBase).flatMap
    (fun a => ((List.range n).flatMap (levelList w.struct a)).map (Prod.mk a)) = links at r2
  -- the points of the images
  have hps : ∀ b : ℕ, ∃ ps, ((R.flatten.filter fun x => decide (x.2.1.alpha = (b : ℤ) ∧
      x.2.1.cell ≠ 0)).map fun x => x.2.2) = ps ∧
      (∀ p, p ∈ ps ↔ ∃ x ∈ links, x.2.alpha = b ∧ x.2.cell ≠ 0 ∧ IsSitePos w.struct x.2 p) ∧
      (ps = [] ↔ ∀ x ∈ links, ¬ (x.2.alpha = b ∧ x.2.cell ≠ 0)) := by
    intro b
    have hmem : ∀ p, p ∈ ((R.flatten.filter fun x => decide (x.2.1.alpha = (b : ℤ) ∧
        x.2.1.cell ≠ 0)).map fun x => x.2.2) ↔
        ∃ x ∈ links, x.2.alpha = b ∧ x.2.cell ≠ 0 ∧ IsSitePos w.struct x.2 p := by
      intro p
      simp only [List.mem_map, List.mem_filter, decide_eq_true_eq]
      constructor
      · rintro ⟨y, ⟨hy, h1, h2⟩, rfl⟩
        obtain ⟨x, hx, e1, e2, -⟩ := forall₂_mem r2 hy
        rw [e1] at h1 h2
        exact ⟨x, hx, h1, h2, e2⟩
      · rintro ⟨x, hx, h1, h2, h3⟩
        obtain ⟨y, hy, e1, e2, -⟩ := forall₂_mem r2.flip hx
        refine ⟨y, ⟨hy, ?_, ?_⟩, e2.unique h3⟩
        · rw [e1]; exact h1
        · rw [e1]; exact h2
    refine ⟨_, rfl, hmem, ?_⟩
    rw [List.eq_nil_iff_forall_not_mem]
    constructor
    · intro h x hx hb
      obtain ⟨y, hy, e1, e2, -⟩ := forall₂_mem r2.flip hx
      exact h _ ((hmem y.2.2).2 ⟨x, hx, hb.1, hb.2, e2⟩)
    · intro h p hp
      obtain ⟨x, hx, h1, h2, -⟩ := (hmem p).1 hp
      exact h x hx ⟨h1, h2⟩
  have hmslen : ms.length = w.struct.numBase :=
    (hatoms ⟨[], [], ms, [], []⟩ rfl).1
  have himg : ∀ b < w.struct.numBase, ∃ o, w.imageMarkers ms R.flatten b = .ok o ∧
      ((∀ x ∈ links, ¬ (x.2.alpha = b ∧ x.2.cell ≠ 0)) → o = none) ∧
      ((∃ x ∈ links, x.2.alpha = b ∧ x.2.cell ≠ 0) → ∃ m m0 a q, o = some m ∧ ms[b]? = some m0 ∧
        w.struct.atoms[b]? = some a ∧
        w.session.param a "radius" = .ok (.num q) ∧ m.radius = .num (3 / 5 * q) ∧
        m.color = m0.color ∧ m.points.Nodup ∧ ∀ p, p ∈ m.points ↔
          ∃ x ∈ links, x.2.alpha = b ∧ x.2.cell ≠ 0 ∧ IsSitePos w.struct x.2 p) := by
    intro b hb
    obtain ⟨ps, p1, p2, p3⟩ := hps b
    have h1 : b < w.struct.atoms.length := hb.trans_le hS.atoms_ge
    have h2 : b < ms.length := by rw [hmslen]; exact hb
    obtain ⟨c, q, -, e2⟩ := ha _ (List.getElem_mem h1)
    unfold imageMarkers
    rw [pyGet_nat, List.getElem?_eq_getElem h1, List.getElem?_eq_getElem h2]
    dsimp only
    rw [p1]
    by_cases hnil : ps = []
    · rw [if_pos hnil]
      exact ⟨_, rfl, fun _ => rfl, fun ⟨x, hx, hx2⟩ => absurd hx2 (p3.1 hnil x hx)⟩
    · rw [if_neg hnil, e2]
      refine ⟨_, rfl, fun h => absurd (p3.2 h) hnil, fun _ => ?_⟩
      refine ⟨_, _, _, q, rfl, rfl, rfl, e2, rfl, rfl, List.nodup_dedup _, fun p => ?_⟩
      dsimp only
      rw [List.mem_dedup]
      exact p2 p
  obtain ⟨is, i1, i2⟩ := mapM_total (l := List.range w.struct.numBase)
    (f := w.imageMarkers ms R.flatten) fun b hb => by
      obtain ⟨o, ho, -⟩ := himg b (List.mem_range.1 hb)
      exact ⟨o, ho⟩
  have hislen : is.length = w.struct.numBase := by
    have := i2.length_eq
    simpa using this.symm
  have hget : ∀ b < w.struct.numBase, ∃ o, is[b]? = some o ∧
      w.imageMarkers ms R.flatten b = .ok o := by
    intro b hb
    have hb' : b < is.length := by rw [hislen]; exact hb
    have hk := (List.forall₂_iff_get.1 i2).2 b (by rw [List.length_range]; exact hb) hb'
    simp only [List.get_eq_getElem, List.getElem_range] at hk
    exact ⟨_, List.getElem?_eq_getElem hb', hk⟩
  generalize hcell : (if showVecs then drawUnitCell w.struct.basis.vectors showCell
    else (([], []) : List (Vec d ℝ × Vec d ℝ) × List (Vec d ℝ × Vec d ℝ))) = cell
  refine ⟨⟨cell.1, cell.2, ms, R.flatten.map Prod.fst, is⟩, n, links, ?_, hn, rfl, hatoms _ rfl,
    ⟨?_, ?_, hislen, ?_, ?_⟩, ?_⟩
  · unfold plotCell
    rw [if_neg (by omega), hms]
    dsimp only
    rw [ht]
    dsimp only
    rw [if_pos rfl, r1]
    dsimp only
    rw [i1, hcell]
  · rw [← hlinks, List.nodup_flatMap]
    refine ⟨fun a _ => (levels_nodup hS hA a n).map (Prod.mk_right_injective a), ?_⟩
    refine List.Pairwise.imp ?_ List.nodup_range
    intro a b hab x hx hy
    obtain ⟨y, -, rfl⟩ := List.mem_map.1 hx
    obtain ⟨z, -, hz⟩ := List.mem_map.1 hy
    exact hab (congrArg Prod.fst hz).symm
  · dsimp only
    rw [List.forall₂_map_right_iff]
    exact r2.imp fun x y h => h.2.2
  · intro b hb hx
    obtain ⟨o, o1, o2⟩ := hget b hb
    obtain ⟨o', k1, k2, -⟩ := himg b hb
    rw [o2] at k1
    cases k1
    dsimp only
    rw [o1, k2 hx]
  · intro b hb hx
    obtain ⟨o, o1, o2⟩ := hget b hb
    obtain ⟨o', k1, -, k2⟩ := himg b hb
    rw [o2] at k1
    cases k1
    obtain ⟨m, m0, a, q, rfl, h2⟩ := k2 hx
    exact ⟨m, m0, a, q, o1, h2⟩
  · intro a idx
    rw [← hlinks]
    simp only [List.mem_flatMap, List.mem_range, List.mem_map, Prod.mk.injEq]
    constructor
    · rintro ⟨a', -, y, ⟨k, hk, hy⟩, rfl, rfl⟩
      exact ⟨k, hk, mem_levelList.1 hy⟩
    · rintro ⟨k, hk, l, hl, hi⟩
      obtain ⟨D, x, h1, -, -⟩ := (getNeighbors_zero_iff hA a k l).1 hl
      have : a < w.struct.numBase := by
        rw [← hI.base_length]
        exact (List.getElem?_eq_some_iff.1 h1).1
      exact ⟨a, this, idx, ⟨k, hk, mem_levelList.2 ⟨l, hl, hi⟩⟩, rfl, rfl⟩

/-- C102: every neighbour found by `analyze` gets a line if no atom has neighbours at more than
`num_distances` different distances. -/
theorem C102_all_partial (hd : 0 < d) {env : Env ℝ} {w : World d ℝ} (hw : Reachable env w)
    {A : Analysis d ℝ} (hA : w.struct.analysis = some A) {n : ℕ}
    (hfew : ∀ (a : ℕ) (D : NDict d ℝ), A.base[a]? = some D → D.keys.length ≤ n) {links : List (ℕ × Idx d)}
    (hl : ∀ a idx, (a, idx) ∈ links ↔
      ∃ k < n, ∃ l, w.struct.getNeighbors 0 a k = .ok l ∧ idx ∈ l) (a : ℕ) (idx : Idx d) :
    (a, idx) ∈ links ↔ ∃ x, Listed A a x idx := by
  have hS := hw.good hd
  rw [hl, listed_iff_level hS hA]
  constructor
  · rintro ⟨k, -, l, h⟩
    exact ⟨k, l, h⟩
  · rintro ⟨k, l, h1, h2⟩
    refine ⟨k, ?_, l, h1, h2⟩
    obtain ⟨D, x, e1, e2, -⟩ := (getNeighbors_zero_iff hA a k l).1 h1
    have h3 := (List.getElem?_eq_some_iff.1 e2).1
    unfold NDict.sortedKeys at h3
    rw [List.length_insertionSort] at h3
    exact h3.trans_le (hfew a D e1)

/-- C102: `plot_cell` is refused in more than three dimensions; without connections drawn it needs
no analysis; an analysis is needed as soon as a neighbour can exist. -/
theorem C102_errors (hd : 0 < d) {env : Env ℝ} {w : World d ℝ} (hw : Reachable env w)
    (showCell showVecs : Bool) (conColors : Option (List (ℤ × ℤ × PyVal))) :
    (3 < d → ∀ show_, w.plotCell showCell showVecs show_ conColors = .error .value) ∧
    (d ≤ 3 → (∀ a ∈ w.struct.atoms, ∃ c r, w.session.param a "color" = .ok c ∧
        w.session.param a "radius" = .ok r) →
      (∀ e ∈ conColors.getD [], InRange w.struct.numBase e) →
      (∃ G, w.plotCell showCell showVecs false conColors = .ok G ∧ CellAtoms w G ∧
        G.segments = [] ∧ G.images = [] ∧ (G.arrows, G.outlines) =
        (if showVecs then drawUnitCell w.struct.basis.vectors showCell else ([], []))) ∧
      (w.struct.analysis = none → (∃ n, w.struct.numDistances = .ok n ∧ 0 < n) →
        w.plotCell showCell showVecs true conColors = .error .notAnalyzed)) := by
  have hS := hw.good hd
  constructor
  · intro h show_
    unfold plotCell
    rw [if_pos h]
  · intro h ha hc
    obtain ⟨ms, hms, hatoms⟩ := markers_ok hS ha
    obtain ⟨t, ht, -⟩ := colors_ok w.struct.numBase (.str "k") conColors hc
    constructor
    · generalize hcell : (if showVecs then drawUnitCell w.struct.basis.vectors showCell
        else (([], []) : List (Vec d ℝ × Vec d ℝ) × List (Vec d ℝ × Vec d ℝ))) = cell
      refine ⟨⟨cell.1, cell.2, ms, [], []⟩, ?_, hatoms _ rfl, rfl, rfl, rfl⟩
      unfold plotCell
      rw [if_neg (by omega), hms]
      dsimp only
      rw [ht, hcell]
      rfl
    · rintro hA ⟨n, hn, hn0⟩
      have hpos : 0 < w.struct.numBase := by
        rcases Nat.eq_zero_or_pos w.struct.numBase with h0 | h0
        · unfold Structure.numDistances at hn
          cases hcon : w.struct.conn with
          | none => rw [hcon] at hn; cases hn
          | some c => exact absurd h0 (hS.conn_size c hcon).2.ne'
        · exact h0
      have hlt : 0 < w.struct.positions.length := by rw [hS.positions_length]; exact hpos
      have hfirst : atomLinks w.struct t 0 = .error .notAnalyzed := by
        unfold atomLinks
        rw [pyGet_nat, List.getElem?_eq_getElem hlt]
        dsimp only
        rw [hn]
        dsimp only
        obtain ⟨n', rfl⟩ : ∃ n', n = n' + 1 := ⟨n - 1, by omega⟩
        rw [List.range_succ_eq_map, List.mapM_cons]
        have : levelLinks w.struct t 0 w.struct.positions[0] 0 = .error .notAnalyzed := by
          unfold levelLinks getNeighbors
          rw [hA]
          rfl
        rw [this]
        rfl
      unfold plotCell
      rw [if_neg (by omega), hms]
      dsimp only
      rw [ht]
      dsimp only
      rw [if_pos rfl]
      obtain ⟨n', hn'⟩ : ∃ n', w.struct.numBase = n' + 1 := ⟨w.struct.numBase - 1, by omega⟩
      rw [hn', List.range_succ_eq_map, List.mapM_cons, hfirst]
      rfl

/-- C102: a unit cell with one atom is drawn with all its neighbours. -/
theorem C102_one_atom (hd : 0 < d) {env : Env ℝ} {w : World d ℝ} (hw : Reachable env w)
    (h1 : w.struct.numBase = 1) {S' : Structure d ℝ}
    (hok : w.struct.analyze env = (S', .ok ())) :
    ∃ n A, S'.numDistances = .ok n ∧ S'.analysis = some A ∧ ∀ a idx,
      (∃ k < n, ∃ l, S'.getNeighbors 0 (a : ℕ) (k : ℕ) = .ok l ∧ idx ∈ l) ↔
        ∃ x, Listed A a x idx := by
  obtain ⟨c, cells, m, A, k1, -, k3, k4, -, -, hI, hG, -, -, hnb⟩ := call_analyze_ok hd hw hok
  have hw' : Reachable env ⟨w.session, S'⟩ := by
    have := hw.call (.analyze)
    have he : (w.call env .analyze).1 = ⟨w.session, S'⟩ := by
      change (⟨w.session, (w.struct.analyze env).1⟩ : World d ℝ) = _
      rw [hok]
    rwa [he] at this
  have hn1 : S'.numBase = 1 := hnb.trans h1
  refine ⟨m, A, ?_, k3, fun a idx => ?_⟩
  · unfold Structure.numDistances
    rw [k1]
    exact k4
  · classical
    let links : List (ℕ × Idx d) := ((List.range 1).flatMap fun a =>
      ((List.range m).flatMap (levelList S' a)).map (Prod.mk a))
    have hlinks : ∀ a idx, (a, idx) ∈ links ↔
        ∃ k < m, ∃ l, S'.getNeighbors 0 (a : ℕ) (k : ℕ) = .ok l ∧ idx ∈ l := by
      intro a idx
      simp only [links, List.mem_flatMap, List.mem_range, List.mem_map, Prod.mk.injEq]
      constructor
      · rintro ⟨a', -, y, ⟨k, hk, hy⟩, rfl, rfl⟩
        exact ⟨k, hk, mem_levelList.1 hy⟩
      · rintro ⟨k, hk, l, hl, hi⟩
        obtain ⟨D, x, e1, -, -⟩ := (getNeighbors_zero_iff k3 a k l).1 hl
        have : a < 1 := by
          rw [← hn1, ← hI.base_length]
          exact (List.getElem?_eq_some_iff.1 e1).1
        exact ⟨a, this, idx, ⟨k, hk, mem_levelList.2 ⟨l, hl, hi⟩⟩, rfl, rfl⟩
    rw [← hlinks]
    refine C102_all_partial hd hw' k3 (n := m) ?_ hlinks a idx
    intro a D hD
    have ha : a = 0 := by
      have h2 := (List.getElem?_eq_some_iff.1 hD).1
      rw [hI.base_length, hn1] at h2
      omega
    subst ha
    obtain ⟨⟨hnd, hne⟩, -, hmem⟩ := hI.base 0 D hD
    have hcs := hG.conn_size c k1
    have hent : c.entry 0 0 ≤ m := by
      cases hz : c.allZero with
      | true =>
        rw [ConnMatrix.allZero_iff] at hz
        rw [hz 0 (by omega) 0 (by omega)]
        exact Nat.zero_le m
      | false =>
      obtain ⟨m', e1, -, e2, -⟩ := ConnMatrix.max?_ok hz
      rw [k4] at e1
      cases e1
      exact e2 0 (by omega) 0 (by omega)
    have hsub : D.keys ⊆ (S'.levels cells 0 0).take (c.entry 0 0) := by
      intro x hx
      obtain ⟨⟨x', xs⟩, hp, hxx⟩ := List.mem_map.1 hx
      dsimp only at hxx
      subst hxx
      obtain ⟨idx, hidx⟩ := List.exists_mem_of_ne_nil _ (hne _ hp)
      obtain ⟨b, hb, n, -, -, -, h4⟩ := (hmem x' idx).1 (NDict.mem_pairs.2 ⟨xs, hp, hidx⟩)
      have : b = 0 := by omega
      subst this
      exact h4
    have := (hnd.subperm hsub).length_le
    rw [List.length_take] at this
    omega

/-- C102 fails: `plot_cell` tries as many distances for every atom as the largest number of distances
configured for a pair (`num_distances`), but an atom with neighbours of two kinds has more.  In
`alternating_chain(1, neighbors=1)` the neighbours of an atom of its own kind, at the distance 1, are
not drawn. -/
theorem C102_cell_fails (env : Env ℝ) (s : Session) : ∃ w A G,
    Preset.alternatingChain env s 1 .none .none 0 1 = .ok w ∧ w.struct.analysis = some A ∧
    w.struct.positions = [![0], ![1 / 2]] ∧
    Listed A 0 1 (Idx.mk ![1] 0) ∧ w.plotCell true true true none = .ok G ∧
    ∀ sg ∈ G.segments, ¬ (sg.start = ![0] ∧ sg.start + sg.vec = ![1]) := by
  obtain ⟨w, hw, hp, ⟨A, hA, h01⟩, -, ⟨A', hA', h00⟩, -⟩ :=
    C84_alternating_partial env s 1 (by norm_num) .none .none 0
  rw [hA] at hA'
  cases hA'
  simp only [abs_one, mul_one, add_zero] at h01 h00 hp
  have hr1 : npRound 6 (1 : ℝ) = 1 := by simpa using npRound_natCast 1
  rw [hr1] at h00
  have hr : Reachable env w := configure_reachable hw
  have hS := hr.good one_pos
  obtain ⟨a1, a2, hat, g1, g2, -⟩ := (C84_two_atoms env s 1 0 .none .none 1).1 w hw
  -- one distance per pair
  have hnd : w.struct.numDistances = .ok 1 := by
    obtain ⟨b, hb, hv⟩ := LatticeBasis.init_of_det (rows := !![(1 : ℝ)]) (by
      rw [Matrix.det_fin_one]; simp)
    obtain ⟨w', c, cells, A', e1, hC, -⟩ := Preset.configure_twoAtoms one_pos env s hb .none .none
      (p1 := ![(0 + 0) * 1]) (p2 := ![(1 / 2 + 0) * 1]) (by
        intro h
        have := congrFun h 0
        norm_num at this) (atomPos_one b _) (atomPos_one b _) one_pos
    have e2 : (Except.ok w : Except PyErr (World 1 ℝ)) = .ok w' := hw.symm.trans e1
    cases e2
    unfold Structure.numDistances
    rw [hC.conn]
    exact hC.max
  obtain ⟨G, n, links, hG, hn, -, -, hL, hmem⟩ := C102_cell one_pos (by norm_num) hr hA (by
    intro a ha
    rw [hat] at ha
    simp only [List.mem_cons, List.not_mem_nil, or_false] at ha
    rcases ha with rfl | rfl
    · exact ⟨_, _, param_of_getItem rfl g1.2.2.2.2.1, param_of_getItem rfl g1.2.2.2.1⟩
    · exact ⟨_, _, param_of_getItem rfl g2.2.2.2.2.1, param_of_getItem rfl g2.2.2.2.1⟩) true true none
    (by simp)
  rw [hnd] at hn
  cases hn
  have hlist : Listed A 0 1 (Idx.mk ![1] 0) := (h00 1 ![1]).2 ⟨rfl, by simp⟩
  refine ⟨w, A, G, hw, hA, by rw [hp], hlist, hG, ?_⟩
  rintro sg hsg ⟨e1, e2⟩
  obtain ⟨⟨a, idx⟩, hx, q1, ⟨b, r, q2, q3, q4⟩, -⟩ := forall₂_mem hL.lines hsg
  dsimp only at q1 q2 q3 q4
  obtain ⟨k, hk, l, hl, hi⟩ := (hmem a idx).1 hx
  obtain rfl : k = 0 := by omega
  have hvec : w.struct.basis.vectors = !![(1 : ℝ)] := configure_vectors hw
  have ha : a = 0 := by
    rw [hp, e1] at q1
    match a with
    | 0 => rfl
    | 1 =>
      simp only [List.getElem?_cons_succ, List.getElem?_cons_zero, Option.some.injEq] at q1
      have := congrFun q1 0
      norm_num at this
    | a + 2 => simp at q1
  subst ha
  have hidx : idx = Idx.mk ![1] 0 := by
    have q5 := congrFun (q4.symm.trans e2) 0
    rw [hvec] at q5
    simp only [Fin.sum_univ_one] at q5
    rw [← Idx.mk_cell_alpha idx, q2]
    have hcell : ∀ z : ℤ, idx.cell 0 = z → idx.cell = ![z] := by
      intro z hz
      funext t
      rw [Subsingleton.elim t 0, hz]
      rfl
    match b with
    | 0 =>
      rw [hp] at q3
      simp only [List.getElem?_cons_zero, Option.some.injEq] at q3
      subst q3
      simp at q5
      rw [hcell 1 (by exact_mod_cast q5)]
      rfl
    | 1 =>
      rw [hp] at q3
      simp only [List.getElem?_cons_succ, List.getElem?_cons_zero, Option.some.injEq] at q3
      subst q3
      simp at q5
      exfalso
      have : (1 : ℝ) + 2 * idx.cell 0 = 2 := by linarith
      have : (1 : ℤ) + 2 * idx.cell 0 = 2 := by exact_mod_cast this
      omega
    | b + 2 => rw [hp] at q3; simp at q3
  subst hidx
  obtain ⟨D, x, d1, d2, d3⟩ := (getNeighbors_zero_iff hA 0 0 l).1 hl
  obtain ⟨cells, m, c, -, -, -, -, -, hI⟩ := hS.analysis A hA
  have hx1 : x = 1 := by
    have : Listed A 0 x (Idx.mk ![1] 0) :=
      ⟨D, l, d1, (NDict.get?_eq_some (hI.base 0 D d1).1.1).1 d3, hi⟩
    exact ((h00 x ![1]).1 this).1
  have hlow : npRound 6 (1 / 2 : ℝ) ∈ D.sortedKeys := by
    obtain ⟨D', xs, t1, t2, -⟩ := (h01 _ ![0]).2 ⟨rfl, by simp⟩
    rw [d1] at t1
    cases t1
    unfold NDict.sortedKeys
    rw [List.mem_insertionSort]
    exact List.mem_map.2 ⟨_, t2, rfl⟩
  have hlt : npRound 6 (1 / 2 : ℝ) < 1 := by
    have := npRound_lt (n := 6) (x := (1 / 2 : ℝ)) (y := 1) (by norm_num)
    rwa [hr1] at this
  have hsorted : D.sortedKeys.Pairwise (· ≤ ·) := List.pairwise_insertionSort _ _
  cases hD : D.sortedKeys with
  | nil => rw [hD] at d2; simp at d2
  | cons y ys =>
    rw [hD] at d2 hlow hsorted
    simp only [List.getElem?_cons_zero, Option.some.injEq] at d2
    subst d2
    rw [List.pairwise_cons] at hsorted
    rcases List.mem_cons.1 hlow with h | h
    · rw [h, hx1] at hlt
      exact lt_irrefl _ hlt
    · have := hsorted.1 _ h
      rw [hx1] at this
      exact absurd hlt (not_lt.2 this)

/-- The hypotheses of the theorems are met by the square lattice: a line to each neighbour, in the
given colour. -/
example (env : Env ℝ) (s : Session) : ∃ w G, Preset.simpleSquare env s 1 (.name "Cu") 1 = .ok w ∧
    w.plotCell true true true (some [(0, 0, .str "r")]) = .ok G ∧ G.atoms.length = 1 ∧
    (∀ sg ∈ G.segments, sg.start = 0 ∧ sg.color = .str "r") ∧
    (∃ sg ∈ G.segments, sg.start + sg.vec = ![0, -1]) ∧
    ∃ m, G.images = [some m] ∧ m.radius = .num (3 / 25) ∧ ![0, -1] ∈ m.points := by
  obtain ⟨w, hw, hp, A, hA, hL⟩ := (C84_cubic_partial env s 1 (by norm_num) (.name "Cu")).2.1
  obtain ⟨at', hat, -, -, -, hrad, hcol, -⟩ :=
    (C84_atoms env s 1 0 (.name "Cu") 1).2.1 w hw
  have hr : Reachable env w := configure_reachable hw
  have hS := hr.good two_pos
  have hnum : w.struct.numBase = 1 := by
    rw [← hS.positions_length, hp]
    rfl
  have hvec : w.struct.basis.vectors = (1 : ℝ) • (1 : Matrix (Fin 2) (Fin 2) ℝ) :=
    configure_vectors hw
  have hnd : ∃ n, w.struct.numDistances = .ok n ∧ 0 < n := by
    obtain ⟨w', c, e1, -, e3, e4, e5, -⟩ := (C84_answers env s 1 0 0 (.name "Cu") .none 1).2.1.2.2
      (by simp) one_pos
    rw [hw] at e1
    cases e1
    have hz : c.allZero = false := by
      rw [← Bool.not_eq_true, ConnMatrix.allZero_iff]
      intro h
      have h1 := h 0 (by omega) 0 (by omega)
      rw [e5 0 0 one_pos one_pos] at h1
      cases h1
    obtain ⟨m, k1, k2, -⟩ := ConnMatrix.max?_ok hz
    refine ⟨m, ?_, k2⟩
    unfold Structure.numDistances
    rw [e3]
    exact k1
  obtain ⟨n', hn', hpos⟩ := hnd
  obtain ⟨G, n, links, hG, hn, -, hat2, hlk, hmem⟩ := C102_cell two_pos (by norm_num) hr hA (by
    intro a ha
    rw [hat] at ha
    simp only [List.mem_cons, List.not_mem_nil, or_false] at ha
    subst ha
    exact ⟨_, _, param_of_getItem rfl hcol, param_of_getItem rfl hrad⟩) true true
    (some [(0, 0, .str "r")]) (by simp [InRange, hnum])
  rw [hn'] at hn
  cases hn
  obtain ⟨cells, m, c, -, -, -, -, -, hI⟩ := hS.analysis A hA
  have hall := C102_all_partial two_pos hr hA (n := n') (by
    intro a D hD
    obtain ⟨⟨hnd, hne⟩, -, -⟩ := hI.base a D hD
    have ha : a = 0 := by
      have h2 := (List.getElem?_eq_some_iff.1 hD).1
      rw [hI.base_length, hnum] at h2
      omega
    subst ha
    have hsub : D.keys ⊆ [npRound 6 |(1 : ℝ)|] := by
      intro x hx
      obtain ⟨⟨x', xs⟩, hp, hxx⟩ := List.mem_map.1 hx
      dsimp only at hxx
      subst hxx
      obtain ⟨idx, hidx⟩ := List.exists_mem_of_ne_nil _ (hne _ hp)
      rw [((hL x' idx).1 ⟨D, xs, hD, hp, hidx⟩).1]
      exact List.mem_singleton_self _
    have := (hnd.subperm hsub).length_le
    rw [List.length_singleton] at this
    omega) hmem
  have hlink : (0, Idx.mk ![0, -1] 0) ∈ links := (hall 0 _).2 ⟨_, (hL _ _).2 ⟨rfl, by simp⟩⟩
  have hpos0 : IsSitePos w.struct (Idx.mk ![0, -1] 0) ![0, -1] := by
    refine ⟨0, 0, by simp, by rw [hp]; rfl, ?_⟩
    rw [hvec]
    funext k
    fin_cases k <;> simp
  have hzero : ∀ (a : ℕ) (p : Vec 2 ℝ), w.struct.positions[a]? = some p → a = 0 ∧ p = 0 := by
    intro a p h
    rw [hp] at h
    match a with
    | 0 => exact ⟨rfl, by simpa using h.symm⟩
    | a + 1 => simp at h
  refine ⟨w, G, hw, hG, hat2.1.trans hnum, fun sg hsg => ?_, ?_, ?_⟩
  · obtain ⟨⟨a, idx⟩, -, q1, ⟨b, r, q2, q3, -⟩, q4⟩ := forall₂_mem hlk.lines hsg
    obtain ⟨rfl, h0⟩ := hzero _ _ q1
    obtain ⟨rfl, -⟩ := hzero _ _ q3
    refine ⟨h0, ?_⟩
    dsimp only at q2 q4
    rw [q2, hnum] at q4
    rcases q4 with ⟨q5, -⟩ | ⟨l1, e, l2, q5, -, -, q6⟩
    · exact absurd (Or.inl ⟨rfl, rfl⟩) (q5 (0, 0, .str "r") (by simp))
    · have he : e ∈ [((0 : ℤ), (0 : ℤ), PyVal.str "r")] := by
        have : e ∈ l1 ++ e :: l2 := by simp
        rwa [← q5] at this
      rw [List.mem_singleton] at he
      rw [q6, he]
  · obtain ⟨sg, hsg, q1, q2, -⟩ := forall₂_mem hlk.lines.flip hlink
    exact ⟨sg, hsg, q2.unique hpos0⟩
  · obtain ⟨m, m0, a, q, h1, -, h3, h4, h5, -, -, h8⟩ := hlk.some 0 (by omega)
      ⟨_, hlink, by simp, by
        intro h
        have := congrFun h 1
        simp at this⟩
    refine ⟨m, ?_, ?_, (h8 _).2 ⟨_, hlink, by simp, ?_, hpos0⟩⟩
    · have hl := hlk.images
      rw [hnum] at hl
      obtain ⟨x, hx⟩ := List.length_eq_one_iff.1 hl
      rw [hx] at h1 ⊢
      simpa using h1
    · rw [hat] at h3
      simp only [List.getElem?_cons_zero, Option.some.injEq] at h3
      subst h3
      rw [param_of_getItem rfl hrad] at h4
      cases h4
      rw [h5]
      norm_num
    · intro h
      have := congrFun h 1
      simp at this

/-- A chain with an atom but without analysis: its cell can be drawn only without neighbours. -/
example (env : Env ℝ) : ∃ w : World 1 ℝ, Reachable env w ∧ w.struct.numDistances = .ok 1 ∧
    w.plotCell true true true none = .error .notAnalyzed ∧
    ∃ G, w.plotCell true true false none = .ok G ∧ G.atoms.length = 1 := by
  obtain ⟨b, hb, -⟩ := LatticeBasis.init_of_det (rows := !![(1 : ℝ)]) (by
    rw [Matrix.det_fin_one]; simp)
  let at' : Atom := ⟨0, "A", .num 1, 0⟩
  obtain ⟨-, h2, h3, -, h5, -, h7⟩ := addAtomAt_ok one_pos env (good_ofBasis hb) 0
    (by simp [ofBasis]) at' 0 rfl
  have hcall : World.addAtom env ⟨Session.empty.withNew "A", ofBasis b⟩ none (.obj at') false 0 =
      (⟨Session.empty.withNew "A", ((ofBasis b).addAtomAt env 0 at' 0).1⟩,
        ((ofBasis b).addAtomAt env 0 at' 0).2) := by
    unfold World.addAtom
    have : atomPos (ofBasis b).basis none false = .ok 0 := Preset.atomPos_none b
    rw [this]
    dsimp only
    rw [if_neg (by simp [ofBasis])]
  have hr : Reachable env ⟨Session.empty.withNew "A", ((ofBasis b).addAtomAt env 0 at' 0).1⟩ :=
    ⟨_, b, Session.empty.withNew "A", [.addAtom none (.obj at') false 0], hb, by
      unfold World.run
      rw [List.foldl_cons, List.foldl_nil]
      exact (congrArg Prod.fst hcall).symm⟩
  have hfr : ((ofBasis b).addAtomAt env 0 at' 0).1.frozen = false := by
    simp [addAtomAt, ofBasis]
  have hnb : (ofBasis b).numBase = 0 := rfl
  rw [hnb] at h5 h7
  have hat0 : (ofBasis b).atoms = [] := rfl
  rw [hat0, List.nil_append] at h3
  generalize ((ofBasis b).addAtomAt env 0 at' 0).1 = S0 at *
  have hA0 : S0.analysis = none := by
    by_contra hA
    have := h2.analysis_frozen hA
    rw [hfr] at this
    cases this
  replace hr := hr.call (.addConnections 1 false)
  obtain ⟨S1, hS1⟩ : ∃ S1, S1 = (S0.addConnections env 1 false).1 := ⟨_, rfl⟩
  have hS1' : S1 = { S0 with conn := some (((ConnMatrix.zeros (0 + 1)).fill 0).fill 1) } := by
    rw [hS1]
    unfold addConnections
    rw [h7]
    rfl
  have hr : Reachable env ⟨Session.empty.withNew "A", S1⟩ := by
    rw [hS1]
    exact hr
  have h3 : S1.atoms = [at'] := by rw [hS1', ← h3]
  have h5 : S1.numBase = 0 + 1 := by rw [hS1', ← h5]
  have hA : S1.analysis = none := by rw [hS1', ← hA0]
  have hn : S1.numDistances = .ok 1 := by
    unfold Structure.numDistances
    rw [hS1']
    simp [ConnMatrix.max?, ConnMatrix.entries, ConnMatrix.fill, ConnMatrix.zeros]
  have hpar : ∀ a ∈ S1.atoms, ∃ c r,
      (Session.empty.withNew "A").param a "color" = .ok c ∧
      (Session.empty.withNew "A").param a "radius" = .ok r := by
    intro a ha
    rw [h3] at ha
    obtain rfl : a = at' := by simpa using ha
    exact ⟨.none, .num (1 / 5), param_of_getItem rfl rfl, param_of_getItem rfl rfl⟩
  obtain ⟨⟨G, g1, g2, -⟩, e2⟩ := (C102_errors one_pos hr true true none).2 (by norm_num) hpar
    (by simp)
  exact ⟨_, hr, hn, e2 hA ⟨1, hn, one_pos⟩, G, g1, g2.1.trans h5⟩

end Lattpy
