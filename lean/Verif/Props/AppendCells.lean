import Verif.Props.AppendChain
import Verif.Props.Torus

/-!
# Property C68 for lattices of whole cells in any dimension
-/

set_option autoImplicit false
set_option linter.unusedSectionVars false

namespace Lattpy

open Structure World Preset LatticeData

variable {d : ℕ}

/-! ## spec -/

/-- The sites `i` and `j` of `P` are at the distance `r`. -/
def PairIn (P : List (Vec d ℝ)) (r : ℝ) (i j : ℕ) : Prop :=
  ∃ p q : Vec d ℝ, P[i]? = some p ∧ P[j]? = some q ∧ distance q p = r

/-! ## data of lattices with one neighbour distance -/

/-- Data whose links are the pairs at the distance `r`; rows of width `w`. -/
structure CellData (S : Structure d ℝ) (r : ℝ) (w : ℕ) (D : LatticeData d ℝ) : Prop where
  rect : D.Rect w
  entry : ∀ r ∈ D.entries, ∀ e ∈ r,
      e.level < D.invalidDistidx ∧ e.nbr ≠ D.invalidIdx ∨ e.level = D.invalidDistidx
  sorted : D.distvals.Pairwise (· < ·)
  top : D.distvals[D.invalidDistidx]? = some ⊤
  rows : ∀ r ∈ D.entries, D.PackedRow r ∧ ∀ e ∈ r, e.per = false
  sites : List.Forall₂ (IsSitePos S) D.indices D.positions
  nodup : D.indices.Nodup
  ne : 0 < D.numSites
  names : ∀ i < D.numSites, ((D.linksOf i).map Prod.fst).Nodup
  links : ∀ i < D.numSites, ∀ j y, (j, y) ∈ D.linksOf i ↔
    y = some ((npRound 6 r : ℝ) : WithTop ℝ) ∧ PairIn D.positions r i j

theorem pairIn_lt {P : List (Vec d ℝ)} {r : ℝ} {i j : ℕ} (h : PairIn P r i j) :
    i < P.length ∧ j < P.length := by
  obtain ⟨p, q, hp, hq, -⟩ := h
  exact ⟨(List.getElem?_eq_some_iff.1 hp).1, (List.getElem?_eq_some_iff.1 hq).1⟩

/-- The distance of two sites depends only on the atoms and the difference of the cells. -/
theorem site_congr {S : Structure d ℝ} {a b a' b' : Idx d} {p q p' q' : Vec d ℝ}
    (hp : IsSitePos S a p) (hq : IsSitePos S b q) (hp' : IsSitePos S a' p')
    (hq' : IsSitePos S b' q') (e1 : a'.alpha = a.alpha) (e2 : b'.alpha = b.alpha)
    (he : b'.cell - a'.cell = b.cell - a.cell) : distance q' p' = distance q p := by
  obtain ⟨α, β, ra, rb, c1, c2, c3, c4, c5⟩ := site_distance hp hq
  obtain ⟨α', β', ra', rb', c1', c2', c3', c4', c5'⟩ := site_distance hp' hq'
  have : α' = α := by omega
  subst this
  have : β' = β := by omega
  subst this
  rw [c3] at c3'
  rw [c4] at c4'
  cases c3'
  cases c4'
  rw [c5, c5', he]

theorem pair_step {w : World d ℝ} {r : ℝ} {N : ℕ → Set (Idx d)} (h : NearestOnly w r N)
    {a b : Idx d} {p q : Vec d ℝ} (hp : IsSitePos w.struct a p) (hq : IsSitePos w.struct b q)
    (hd : distance q p = r) : ∃ α β : ℕ, a.alpha = α ∧ b.alpha = β ∧
      Idx.mk (b.cell - a.cell) (β : ℤ) ∈ N α := by
  have hpos := h.pos
  have hne : a ≠ b := by
    rintro rfl
    rw [site_unique hp hq, distance_self] at hd
    exact hpos.ne hd
  obtain ⟨α, β, e1, e2, ⟨-, hc⟩ | hc⟩ := h.sites hp hq hne
  · exact ⟨α, β, e1, e2, hc⟩
  · linarith

namespace CellData

variable {S : Structure d ℝ} {r : ℝ} {w : ℕ} {D : LatticeData d ℝ}

theorem level_le (h : CellData S r w D) : ∀ r ∈ D.entries, ∀ e ∈ r,
    e.level ≤ D.invalidDistidx := by
  intro r hr e he
  rcases h.entry r hr e he with h1 | h1 <;> omega

theorem get (h : CellData S r w D) {i : ℕ} {a : Idx d}
    (ha : D.indices[i]? = some a) : ∃ p, D.positions[i]? = some p ∧ IsSitePos S a p := by
  obtain ⟨i1, e1⟩ := List.getElem?_eq_some_iff.1 ha
  have i2 : i < D.positions.length := by rw [← h.sites.length_eq]; exact i1
  have := h.sites.get i1 i2
  simp only [List.get_eq_getElem, e1] at this
  exact ⟨_, List.getElem?_eq_getElem i2, this⟩

theorem get' (h : CellData S r w D) {i : ℕ} {p : Vec d ℝ}
    (hp : D.positions[i]? = some p) : ∃ a, D.indices[i]? = some a ∧ IsSitePos S a p := by
  obtain ⟨i2, e2⟩ := List.getElem?_eq_some_iff.1 hp
  have i1 : i < D.indices.length := by rw [h.sites.length_eq]; exact i2
  have := h.sites.get i1 i2
  simp only [List.get_eq_getElem, e2] at this
  exact ⟨_, List.getElem?_eq_getElem i1, this⟩

theorem table_length (h : CellData S r w D) : D.distTable.length = D.numSites ∧
    ∀ q ∈ D.distTable, q.length = w := by
  unfold distTable
  refine ⟨by rw [List.length_map, h.rect.distances.1], ?_⟩
  intro q hq
  obtain ⟨q', hq', rfl⟩ := List.mem_map.1 hq
  rw [List.length_map]
  exact h.rect.distances.2 q' hq'

theorem row (h : CellData S r w D) {j : ℕ} {nr : List ℕ} {dr : List (WithTop ℝ)}
    (hn : D.neighbors[j]? = some nr) (hd : D.distTable[j]? = some dr) :
    ((nr.zip dr).filter fun p => decide (p.2 ≠ ⊤)).map (fun p => (p.1, some p.2)) = D.linksOf j :=
  row_links h.rect.cols h.sorted h.top h.level_le hn hd

/-- The distances in the table. -/
theorem mem_table (h : CellData S r w D) {x : WithTop ℝ} (hx : x ∈ D.distTable.flatten) :
    x = ⊤ ∨ x = ((npRound 6 r : ℝ) : WithTop ℝ) := by
  obtain ⟨dr, hdr, hxd⟩ := List.mem_flatten.1 hx
  obtain ⟨j, hj⟩ := List.mem_iff_getElem?.1 hdr
  have hjl : j < D.neighbors.length := by
    rw [h.rect.neighbors.1, ← h.table_length.1]; exact (List.getElem?_eq_some_iff.1 hj).1
  have hrow := h.row (List.getElem?_eq_getElem hjl) hj
  by_cases htop : x = ⊤
  · exact Or.inl htop
  right
  obtain ⟨m, hm⟩ := List.mem_iff_getElem?.1 hxd
  have hw1 : (D.neighbors[j]).length = w := h.rect.neighbors.2 _ (List.getElem_mem _)
  have hw2 : dr.length = w := h.table_length.2 dr hdr
  have hml : m < (D.neighbors[j]).length := by
    rw [hw1, ← hw2]; exact (List.getElem?_eq_some_iff.1 hm).1
  have hmem : ((D.neighbors[j])[m], some x) ∈ D.linksOf j := by
    rw [← hrow]
    refine List.mem_map.2 ⟨((D.neighbors[j])[m], x), List.mem_filter.2 ⟨?_, by simpa using htop⟩, rfl⟩
    refine List.mem_of_getElem? (i := m) ?_
    rw [List.getElem?_zip_eq_some]
    exact ⟨List.getElem?_eq_getElem hml, hm⟩
  have hjc : j < D.numSites := by rw [h.rect.neighbors.1] at hjl; exact hjl
  exact Option.some.inj ((h.links j hjc _ _).1 hmem).1

/-- The distance is stored if there is a pair. -/
theorem table_mem (h : CellData S r w D) {i j : ℕ} (hij : PairIn D.positions r i j) :
    ((npRound 6 r : ℝ) : WithTop ℝ) ∈ D.distTable.flatten := by
  have hi : i < D.numSites := by
    have := (pairIn_lt hij).1
    rwa [h.rect.positions] at this
  have hmem := (h.links i hi j _).2 ⟨rfl, hij⟩
  have hil : i < D.neighbors.length := by rw [h.rect.neighbors.1]; exact hi
  have hil2 : i < D.distTable.length := by rw [h.table_length.1]; exact hi
  rw [← h.row (List.getElem?_eq_getElem hil) (List.getElem?_eq_getElem hil2)] at hmem
  obtain ⟨p, hp, hpe⟩ := List.mem_map.1 hmem
  have h2 := (List.of_mem_zip (show (p.1, p.2) ∈ _ from (List.mem_filter.1 hp).1)).2
  have h3 := Option.some.inj (congrArg Prod.snd hpe)
  rw [h3] at h2
  exact List.mem_flatten.2 ⟨_, List.getElem_mem hil2, h2⟩

theorem links_length (h : CellData S r w D) {i : ℕ} (hi : i < D.numSites) :
    (D.linksOf i).length ≤ w := by
  obtain ⟨row, hr1, hr2, -⟩ := h.rect.getNeighbors hi
  rw [linksOf_of_row h.rect.cols hr1, List.length_map, ← h.rect.row_length row hr2]
  exact List.length_filter_le _ _

theorem nearest (h : CellData S r w D) {L : Lattice d ℝ} (hL : L.data = some D) :
    NearestNeighbors L D r := by
  intro i hi
  obtain ⟨row, hr, hm⟩ := h.rect.getElem?_entries hi
  refine ⟨_, by
    unfold Lattice.neighbors
    rw [hL]
    exact getNeighbors_linksOf h.rect.cols hr, h.names i hi, ?_⟩
  intro j
  rw [List.mem_map]
  constructor
  · rintro ⟨p, hp, rfl⟩
    exact ((h.links i hi p.1 p.2).1 hp).2
  · intro hj
    exact ⟨(j, _), (h.links i hi j _).2 ⟨rfl, hj⟩, rfl⟩

end CellData

/-- A built lattice of whole cells. -/
theorem IsTiled.cellData {env : Env ℝ} {L : Lattice d ℝ} {r : ℝ} {N : ℕ → Set (Idx d)}
    {A : Analysis d ℝ} {D : LatticeData d ℝ} {table : List (List (ℕ × WithTop ℝ))}
    {lo : Fin d → ℤ} {size : Fin d → ℕ} (hd : 0 < d)
    (h : IsTiled env L r N A D table lo size) :
    ∃ width, CellData L.struct r width D ∧ ⊤ ∈ D.distTable.flatten := by
  obtain ⟨width, hr⟩ := h.rect
  refine ⟨width, ?_, ?_⟩
  all_goals obtain ⟨htop, h256⟩ := h.levels hd
  · obtain ⟨hc, -, -, hii, -, hlev⟩ := set_cols h.set htop h256
    have htl := h.length hd
    have hlen : table.length = D.numSites := by rw [htl, hr.positions]
    obtain ⟨w', hrows⟩ := C45_rows hd h.reach h.analysis D.indices D.positions h.sites.length_eq
      h.posNodup h.comp
    have hlinks : ∀ i (hit : i < table.length), D.linksOf i =
        ((table[i]).filter fun p => decide (p.2 ≠ ⊤)).map (fun p => (p.1, some p.2)) := by
      intro i hit
      have hrow := List.getElem?_eq_getElem hit
      rw [linksOf_of_row (r := (table[i]).map (builtEntry D.distvals)) hc (by
        rw [List.getElem?_map, hrow]; rfl), List.filter_map, List.map_map]
      have : (table[i]).filter ((fun e : Entry d => decide (e.level < D.invalidDistidx)) ∘
          builtEntry D.distvals) = (table[i]).filter fun p => decide (p.2 ≠ ⊤) := by
        apply List.filter_congr
        intro e he
        have := (hlev _ (List.getElem_mem hit) e he).2.2
        rw [Function.comp_apply, decide_eq_decide]
        exact this
      rw [this]
      apply List.map_congr_left
      intro e he
      have := (hlev _ (List.getElem_mem hit) e (List.mem_filter.1 he).1).1
      rw [Function.comp_apply]
      exact Prod.ext rfl this
    have hlk : ∀ i j x, Linked table i j x ↔ x = npRound 6 r ∧ PairIn D.positions r i j :=
      (h.near.table hd h.reach h.analysis h.sites h.nodup h.comp).2.2.1
    constructor
    · exact hr
    · intro q hq e he
      rw [hc.entries_eq] at hq
      obtain ⟨row, hrow, rfl⟩ := List.mem_map.1 hq
      obtain ⟨p, hp, rfl⟩ := List.mem_map.1 he
      obtain ⟨g1, g2, g3⟩ := hlev row hrow p hp
      rcases Nat.lt_or_eq_of_le g2 with hlt | heq
      · left
        refine ⟨hlt, ?_⟩
        obtain ⟨x, hx⟩ := WithTop.ne_top_iff_exists.1 (g3.1 hlt)
        obtain ⟨i, hi⟩ := List.mem_iff_getElem?.1 hrow
        have := (pairIn_lt ((hlk i p.1 x).1 ⟨row, hi, by rw [hx]; exact hp⟩).2).2
        rw [← h.sites.length_eq, ← hii] at this
        exact this.ne
      · exact Or.inr heq
    · exact set_sorted h.set
    · obtain ⟨row, hrow, e, he, hx⟩ := (Lattpy.mem_distvals h.set _).1 htop
      obtain ⟨g1, g2, g3⟩ := hlev row hrow e he
      rw [hx] at g1 g2 g3
      have : searchsorted D.distvals ⊤ = D.invalidDistidx := by
        by_contra hne
        exact absurd rfl (g3.1 (lt_of_le_of_ne g2 hne))
      rwa [this] at g1
    · intro q hq
      rw [hc.entries_eq] at hq
      obtain ⟨row, hrow, rfl⟩ := List.mem_map.1 hq
      obtain ⟨i, hi⟩ := List.mem_iff_getElem?.1 hrow
      have hper : ∀ e ∈ row.map (builtEntry (d := d) D.distvals), e.per = false := by
        intro e he
        obtain ⟨x, -, rfl⟩ := List.mem_map.1 he
        rfl
      refine ⟨?_, hper⟩
      obtain ⟨a, b, g1, g2, g3⟩ := set_packed h.set htop h256 (by
        intro row hrow
        obtain ⟨i, hi⟩ := List.mem_iff_getElem?.1 hrow
        exact (hrows i row hi).2.1) i (row.map (builtEntry D.distvals)) (by
          rw [hc.entries_eq, List.getElem?_map, hi]; rfl)
      refine ⟨a, b, g1, fun e he => (g2 e he).1, fun e he => ?_⟩
      refine (g3 e he).resolve_right ?_
      rw [hper e (by rw [g1]; exact List.mem_append_right _ he)]
      simp
    · exact h.sites
    · exact h.nodup
    · obtain ⟨row, hrow, -⟩ := set_nonempty h.set
      rw [← hlen]
      exact List.length_pos_of_mem hrow
    · intro i hi
      have hit : i < table.length := by rw [hlen]; exact hi
      rw [hlinks i hit, List.map_map]
      exact (hrows i _ (List.getElem?_eq_getElem hit)).2.2.2.2
    · intro i hi j y
      have hit : i < table.length := by rw [hlen]; exact hi
      rw [hlinks i hit]
      constructor
      · intro hy
        obtain ⟨p, hp, hpe⟩ := List.mem_map.1 hy
        obtain ⟨hp1, hp2⟩ := List.mem_filter.1 hp
        obtain ⟨x, hx⟩ := WithTop.ne_top_iff_exists.1 (of_decide_eq_true hp2)
        obtain ⟨g1, g2⟩ := (hlk i p.1 x).1 ⟨_, List.getElem?_eq_getElem hit, by
          rw [hx]; exact hp1⟩
        cases hpe
        exact ⟨by rw [← hx, g1], g2⟩
      · rintro ⟨rfl, hij⟩
        obtain ⟨row, hrow, he⟩ := (hlk i j _).2 ⟨rfl, hij⟩
        rw [List.getElem?_eq_getElem hit] at hrow
        cases hrow
        exact List.mem_map.2 ⟨_, List.mem_filter.2 ⟨he, by simp⟩, rfl⟩
  · rw [(set_tables h.set htop h256).2]
    obtain ⟨row, hrow, e, he, hx⟩ := (Lattpy.mem_distvals h.set _).1 htop
    exact List.mem_flatten.2 ⟨_, List.mem_map_of_mem hrow, List.mem_map.2 ⟨e, he, hx⟩⟩

/-- The links of a lattice of whole cells as the lemmas on tori need them. -/
theorem CellData.tiling {env : Env ℝ} {L : Lattice d ℝ} {r : ℝ} {N : ℕ → Set (Idx d)}
    {A : Analysis d ℝ} {w : ℕ} {D : LatticeData d ℝ} {lo : Fin d → ℤ} {size : Fin d → ℕ}
    (h : CellData L.struct r w D) (hr : Reachable env L.world) (hn : NearestOnly L.world r N)
    (hst : NearSteps N) (hA : L.struct.analysis = some A) (hq : ∃ k R, queryParams A = .ok (k, R))
    (hD : L.data = some D) (hsh : L.shape ≠ none) (hw : WholeCells L.struct D lo size) :
    IsTiling env L r N A D lo size := by
  have ht : ∀ p, L.struct.basis.translate 0 p = p := by
    intro p
    rw [LatticeBasis.translate_eq]
    simp
  have hI : ∀ i j, ImageAt L.struct D r i j 0 ↔ PairIn D.positions r i j := by
    intro i j
    unfold ImageAt PairIn
    simp only [shifted_dist, ht]
  exact
    { reach := hr
      near := hn
      steps := hst
      analysis := hA
      params := hq
      data := hD
      sites := h.sites
      nodup := h.nodup
      ne := List.length_pos_iff_ne_nil.1 h.ne
      rect := ⟨w, h.rect⟩
      sorted := h.sorted
      packed := by
        intro i q hq
        obtain ⟨⟨a, b, g1, g2, g3⟩, g4⟩ := h.rows q (List.mem_of_getElem? hq)
        refine ⟨a, b, g1, fun e he => ⟨g2 e he, g4 e ?_⟩, fun e he => Or.inl (g3 e he)⟩
        rw [g1]
        exact List.mem_append_left _ he
      regular := by
        intro i a ha
        have hi : i < D.numSites := (List.getElem?_eq_some_iff.1 ha).1
        obtain ⟨row, hrow, hm⟩ := h.rect.getElem?_entries hi
        refine ⟨(D.linksOf i).map Prod.fst, ?_, h.names i hi, fun j => ?_⟩
        · rw [h.rect.cols.getNeighbors i row hrow, linksOf_of_row h.rect.cols hrow, List.map_map]
          congr 1
          have : row.filter (D.sel i none (some false) false) =
              row.filter fun e => decide (e.level < D.invalidDistidx) := by
            apply List.filter_congr
            intro e he
            simp [LatticeData.sel, (h.rows row hm).2 e he]
          rw [this]
          rfl
        · rw [hI, List.mem_map]
          constructor
          · rintro ⟨p, hp, rfl⟩
            exact ((h.links i hi p.1 p.2).1 hp).2
          · intro hj
            exact ⟨(j, _), (h.links i hi j _).2 ⟨rfl, hj⟩, rfl⟩
      stored := by
        intro i j hij
        rw [hI] at hij
        have hi : i < D.numSites := by
          have := (pairIn_lt hij).1
          rwa [h.rect.positions] at this
        obtain ⟨row, hrow, hm⟩ := h.rect.getElem?_entries hi
        have hmem := (h.links i hi j _).2 ⟨rfl, hij⟩
        rw [linksOf_of_row h.rect.cols hrow] at hmem
        obtain ⟨e, he, hee⟩ := List.mem_map.1 hmem
        exact ⟨e.level, of_decide_eq_true (List.mem_filter.1 he).2, congrArg Prod.snd hee⟩
      shape := hsh
      whole := hw }

/-! ## the interface -/

/-- The radius of the search for pairs across the interface. -/
theorem NearestOnly.radius (hd : 0 < d) {env : Env ℝ} {w : World d ℝ} {r : ℝ}
    {N : ℕ → Set (Idx d)} (hr : Reachable env w) (h : NearestOnly w r N) {A : Analysis d ℝ}
    (hA : w.struct.analysis = some A) {k : ℕ} {R : ℝ} (hq : queryParams A = .ok (k, R)) :
    r ≤ R ∧ R < 14 / 10 * r := by
  obtain ⟨cells, m, c, -, -, -, -, -, hI⟩ := (hr.good hd).analysis A hA
  obtain ⟨-, -, -, M, y, hR, hy, hymin, hM, hmax⟩ := hI.queryParams hq
  have hpos := h.pos
  have hD := h.resolved
  have hrd := abs_le.1 (abs_npRound_sub_le 6 r)
  obtain ⟨a0, b0, hc0⟩ := h.exists_configured hd hr hA
  have hMx : M = npRound 6 r := by
    rcases hM with hM | ⟨a, b, hab⟩
    · have := hmax _ _ _ hc0
      norm_num at hrd hD
      linarith
    · exact h.configured hd hr hA hab
  have hyx : y ≤ npRound 6 r := hymin _ (raw_of_configured hd hr hA hc0)
  have hy0 := h.raw hd hr hA y hy
  rw [hR, hMx]
  norm_num at hrd hD hy0
  constructor <;> linarith

theorem storedAbove_eq {vals : List (WithTop ℝ)} {x c : WithTop ℝ} (hc : c ∈ vals) (hx : x ≤ c)
    (hall : ∀ y ∈ vals, x ≤ y → c ≤ y) : storedAbove vals x = c := by
  unfold storedAbove
  have hmem : c ∈ vals.filter fun y => decide (x ≤ y) := List.mem_filter.2 ⟨hc, by simpa using hx⟩
  have hle : ∀ y ∈ vals.filter fun y => decide (x ≤ y), c ≤ y := by
    intro y hy
    obtain ⟨h1, h2⟩ := List.mem_filter.1 hy
    exact hall y h1 (by simpa using h2)
  generalize vals.filter (fun y => decide (x ≤ y)) = l at hmem hle
  have key : ∀ l : List (WithTop ℝ), (∀ y ∈ l, c ≤ y) → c ≤ l.foldr min ⊤ := by
    intro l hl
    induction l with
    | nil => exact le_top
    | cons z l ih =>
      exact le_min (hl z (by simp)) (ih fun y hy => hl y (by simp [hy]))
  have key2 : ∀ l : List (WithTop ℝ), c ∈ l → l.foldr min ⊤ ≤ c := by
    intro l hl
    induction l with
    | nil => cases hl
    | cons z l ih =>
      rcases List.mem_cons.1 hl with rfl | hl
      · exact min_le_left _ _
      · exact (min_le_right _ _).trans (ih hl)
  exact le_antisymm (key2 l hmem) (key l hle)

theorem storedAbove_top {vals : List (WithTop ℝ)} {x : WithTop ℝ}
    (hall : ∀ y ∈ vals, x ≤ y → y = ⊤) : storedAbove vals x = ⊤ := by
  unfold storedAbove
  have hle : ∀ y ∈ vals.filter fun y => decide (x ≤ y), y = ⊤ := by
    intro y hy
    obtain ⟨h1, h2⟩ := List.mem_filter.1 hy
    exact hall y h1 (by simpa using h2)
  generalize vals.filter (fun y => decide (x ≤ y)) = l at hle
  induction l with
  | nil => rfl
  | cons z l ih =>
    rw [List.foldr_cons, ih fun y hy => hle y (by simp [hy]), hle z (by simp), min_self]

/-- The links across the interface if the stored distance is not below the distance `r`. -/
theorem linksWithin_cells {vals : List (WithTop ℝ)} {r R : ℝ}
    (hv : ∀ x ∈ vals, x = ⊤ ∨ x = ((npRound 6 r : ℝ) : WithTop ℝ)) (hround : r ≤ npRound 6 r)
    (hR : r ≤ R) {p : Vec d ℝ} {Q : List (Vec d ℝ)}
    (hmem : ∀ (j : ℕ) q, Q[j]? = some q → distance p q = r →
      ((npRound 6 r : ℝ) : WithTop ℝ) ∈ vals)
    (hQ : ∀ (j : ℕ) q, Q[j]? = some q → distance p q = r ∨ R < distance p q) (off : ℕ) :
    linksWithin vals p Q R off = ((List.range Q.length).filter fun j =>
      decide (distance p (Q.getD j 0) = r)).map fun j : ℕ =>
        (off + j, some ((npRound 6 r : ℝ) : WithTop ℝ)) := by
  unfold linksWithin
  have hget : ∀ j ∈ List.range Q.length, Q[j]? = some (Q.getD j 0) := by
    intro j hj
    rw [List.getD_eq_getElem?_getD, List.getElem?_eq_getElem (List.mem_range.1 hj)]
    rfl
  have hf : (List.range Q.length).filter (fun j => decide (distance p (Q.getD j 0) ≤ R)) =
      (List.range Q.length).filter fun j => decide (distance p (Q.getD j 0) = r) := by
    apply List.filter_congr
    intro j hj
    rw [decide_eq_decide]
    constructor
    · intro hle
      exact (hQ j _ (hget j hj)).resolve_right (not_lt.2 hle)
    · intro he
      rw [he]
      exact hR
  rw [hf, ← List.filterMap_eq_map]
  apply List.filterMap_congr
  intro j hj
  obtain ⟨h1, h2⟩ := List.mem_filter.1 hj
  have hr := of_decide_eq_true h2
  have hs : storedAbove vals ((distance p (Q.getD j 0) : ℝ) : WithTop ℝ) =
      ((npRound 6 r : ℝ) : WithTop ℝ) := by
    rw [hr]
    refine storedAbove_eq (hmem j _ (hget j h1) hr) (by exact_mod_cast hround) ?_
    intro y hy _
    rcases hv y hy with rfl | rfl
    · exact le_top
    · exact le_rfl
  unfold storedLink
  rw [hs, if_neg (by simp)]
  rfl

/-- The links across the interface if the stored distance is below the distance `r`: none. -/
theorem linksWithin_rounded {vals : List (WithTop ℝ)} {r R : ℝ}
    (hv : ∀ x ∈ vals, x = ⊤ ∨ x = ((npRound 6 r : ℝ) : WithTop ℝ)) (hround : npRound 6 r < r)
    {p : Vec d ℝ} {Q : List (Vec d ℝ)}
    (hQ : ∀ (j : ℕ) q, Q[j]? = some q → distance p q = r ∨ R < distance p q) (off : ℕ) :
    linksWithin vals p Q R off = [] := by
  unfold linksWithin
  rw [List.filterMap_eq_nil_iff]
  intro j hj
  obtain ⟨h1, h2⟩ := List.mem_filter.1 hj
  have hget : Q[j]? = some (Q.getD j 0) := by
    rw [List.getD_eq_getElem?_getD, List.getElem?_eq_getElem (List.mem_range.1 h1)]
    rfl
  have hr := (hQ j _ hget).resolve_right (not_lt.2 (of_decide_eq_true h2))
  have hs : storedAbove vals ((distance p (Q.getD j 0) : ℝ) : WithTop ℝ) = ⊤ := by
    rw [hr]
    apply storedAbove_top
    intro y hy hle
    rcases hv y hy with rfl | rfl
    · rfl
    · exfalso
      have : r ≤ npRound 6 r := by exact_mod_cast hle
      linarith
  unfold storedLink
  rw [if_pos hs]

/-! ## room in the rows -/

/-- Every site of `J` with the sites around it is found, shifted, among the sites of `D`. -/
def Embeds (D : LatticeData d ℝ) (J : List (Idx d)) : Prop :=
  ∀ a ∈ J, ∃ c : Fin d → ℤ, Idx.mk c a.alpha ∈ D.indices ∧ ∀ b ∈ J,
    (∀ k, |b.cell k - a.cell k| ≤ 1) → Idx.mk (c + (b.cell - a.cell)) b.alpha ∈ D.indices

theorem sites_get {S : Structure d ℝ} {J : List (Idx d)} {P : List (Vec d ℝ)}
    (h : List.Forall₂ (IsSitePos S) J P) {i : ℕ} {p : Vec d ℝ} (hp : P[i]? = some p) :
    ∃ a, J[i]? = some a ∧ IsSitePos S a p := by
  obtain ⟨i2, e2⟩ := List.getElem?_eq_some_iff.1 hp
  have i1 : i < J.length := by rw [h.length_eq]; exact i2
  have := h.get i1 i2
  simp only [List.get_eq_getElem, e2] at this
  exact ⟨_, List.getElem?_eq_getElem i1, this⟩

/-- The copies in `D` of a site of `J` and its neighbours. -/
theorem Embeds.copies {w : World d ℝ} {r : ℝ} {N : ℕ → Set (Idx d)} (h : NearestOnly w r N)
    (hst : ∀ (α : ℕ), ∀ x ∈ N α, ∀ k, |Idx.cell x k| ≤ 1) {width : ℕ} {D : LatticeData d ℝ}
    (hD : CellData w.struct r width D) {J : List (Idx d)} {P : List (Vec d ℝ)}
    (hs : List.Forall₂ (IsSitePos w.struct) J P) (hE : Embeds D J) {i : ℕ} {a : Idx d}
    (ha : J[i]? = some a) : ∃ (i' : ℕ) (c : Fin d → ℤ), D.indices[i']? = some (Idx.mk c a.alpha) ∧
      ∀ j, PairIn P r i j → ∃ (b : Idx d) (j' : ℕ), J[j]? = some b ∧
        D.indices[j']? = some (Idx.mk (c + (b.cell - a.cell)) b.alpha) ∧
        PairIn D.positions r i' j' := by
  obtain ⟨c, hc, hall⟩ := hE a (List.mem_of_getElem? ha)
  obtain ⟨i', hi'⟩ := List.mem_iff_getElem?.1 hc
  refine ⟨i', c, hi', ?_⟩
  rintro j ⟨p, q, hp, hq, hpq⟩
  obtain ⟨a0, ha0, hap⟩ := sites_get hs hp
  rw [ha] at ha0
  cases ha0
  obtain ⟨b, hb, hbq⟩ := sites_get hs hq
  obtain ⟨α, β, -, -, hN⟩ := pair_step h hap hbq hpq
  have hle : ∀ k, |b.cell k - a.cell k| ≤ 1 := by
    intro k
    have := hst α _ hN k
    rwa [Idx.cell_mk, Pi.sub_apply] at this
  obtain ⟨j', hj'⟩ := List.mem_iff_getElem?.1 (hall b (List.mem_of_getElem? hb) hle)
  obtain ⟨p', hp', hsp⟩ := hD.get hi'
  obtain ⟨q', hq', hsq⟩ := hD.get hj'
  refine ⟨b, j', hb, hj', p', q', hp', hq', ?_⟩
  rw [← hpq]
  refine site_congr hap hbq hsp hsq (Idx.alpha_mk _ _) (Idx.alpha_mk _ _) ?_
  rw [Idx.cell_mk, Idx.cell_mk, add_sub_cancel_left]

/-- The rows of `D` have room for the neighbours of the sites of `J`. -/
theorem Embeds.room {w : World d ℝ} {r : ℝ} {N : ℕ → Set (Idx d)} (h : NearestOnly w r N)
    (hst : ∀ (α : ℕ), ∀ x ∈ N α, ∀ k, |Idx.cell x k| ≤ 1) {width : ℕ} {D : LatticeData d ℝ}
    (hD : CellData w.struct r width D) {J : List (Idx d)} {P : List (Vec d ℝ)}
    (hs : List.Forall₂ (IsSitePos w.struct) J P) (hnd : J.Nodup) (hE : Embeds D J) {i : ℕ}
    {M : List ℕ} (hM : M.Nodup) (hall : ∀ j ∈ M, PairIn P r i j) : M.length ≤ width := by
  by_cases hM0 : M = []
  · rw [hM0]; simp
  obtain ⟨x, hx⟩ := List.exists_mem_of_ne_nil M hM0
  obtain ⟨p, q, hp, -⟩ := hall x hx
  obtain ⟨a, ha, -⟩ := sites_get hs hp
  obtain ⟨i', c, hi', hcop⟩ := hE.copies h hst hD hs ha
  have hg : ∀ j ∈ M, ∃ (g : ℕ) (b : Idx d), J[j]? = some b ∧
      D.indices[g]? = some (Idx.mk (c + (b.cell - a.cell)) b.alpha) ∧
      PairIn D.positions r i' g := by
    intro j hj
    obtain ⟨b, j', e⟩ := hcop j (hall j hj)
    exact ⟨j', b, e⟩
  choose! g b g1 g2 g3 using hg
  have hi'l : i' < D.numSites := (List.getElem?_eq_some_iff.1 hi').1
  have hinj : ∀ j ∈ M, ∀ j' ∈ M, g j = g j' → j = j' := by
    intro j hj j' hj' he
    have e1 := g2 j hj
    rw [he, g2 j' hj', Option.some_inj, Idx.mk_inj] at e1
    have hbb : b j = b j' := by
      rw [← Idx.mk_cell_alpha (b j), ← Idx.mk_cell_alpha (b j'), e1.2,
        sub_left_injective (add_left_cancel e1.1)]
    have e2 := g1 j hj
    rw [hbb, ← g1 j' hj'] at e2
    exact (List.getElem?_inj (List.getElem?_eq_some_iff.1 (g1 j hj)).1 hnd).1 e2
  have hle : (M.map g).length ≤ ((D.linksOf i').map Prod.fst).length := by
    refine List.Subperm.length_le (List.Nodup.subperm ?_ ?_)
    · exact (List.nodup_map_iff_inj_on hM).2 hinj
    · intro y hy
      obtain ⟨j, hj, rfl⟩ := List.mem_map.1 hy
      exact List.mem_map.2 ⟨_, (hD.links i' hi'l (g j) _).2 ⟨rfl, g3 j hj⟩, rfl⟩
  rw [List.length_map, List.length_map] at hle
  exact hle.trans (hD.links_length hi'l)

/-- The distance is stored if two sites of `J` are connected. -/
theorem Embeds.level {w : World d ℝ} {r : ℝ} {N : ℕ → Set (Idx d)} (h : NearestOnly w r N)
    (hst : ∀ (α : ℕ), ∀ x ∈ N α, ∀ k, |Idx.cell x k| ≤ 1) {width : ℕ} {D : LatticeData d ℝ}
    (hD : CellData w.struct r width D) {J : List (Idx d)} {P : List (Vec d ℝ)}
    (hs : List.Forall₂ (IsSitePos w.struct) J P) (hE : Embeds D J) {i j : ℕ}
    (hij : PairIn P r i j) : ((npRound 6 r : ℝ) : WithTop ℝ) ∈ D.distTable.flatten := by
  obtain ⟨p, q, hp, -⟩ := id hij
  obtain ⟨a, ha, -⟩ := sites_get hs hp
  obtain ⟨i', c, -, hcop⟩ := hE.copies h hst hD hs ha
  obtain ⟨-, j', -, -, hp⟩ := hcop j hij
  exact hD.table_mem hp

/-! ## joining two lattices -/

theorem pairIn_left {P Q : List (Vec d ℝ)} {r : ℝ} {i j : ℕ} (hi : i < P.length)
    (hj : j < P.length) : PairIn (P ++ Q) r i j ↔ PairIn P r i j := by
  unfold PairIn
  rw [List.getElem?_append_left hi, List.getElem?_append_left hj]

theorem pairIn_right {P Q : List (Vec d ℝ)} {r : ℝ} {i j : ℕ} :
    PairIn (P ++ Q) r (P.length + i) (P.length + j) ↔ PairIn Q r i j := by
  unfold PairIn
  rw [List.getElem?_append_right (by omega), List.getElem?_append_right (by omega)]
  simp only [Nat.add_sub_cancel_left]

theorem pairIn_comm {P : List (Vec d ℝ)} {r : ℝ} {i j : ℕ} :
    PairIn P r i j ↔ PairIn P r j i := by
  constructor <;> rintro ⟨p, q, hp, hq, h⟩ <;> exact ⟨q, p, hq, hp, by rw [distance_comm, h]⟩

theorem pairIn_translate (S : Structure d ℝ) {P : List (Vec d ℝ)} {r : ℝ} {n : Fin d → ℤ}
    {i j : ℕ} : PairIn (P.map (S.basis.translate n)) r i j ↔ PairIn P r i j := by
  have hdist : ∀ p q : Vec d ℝ, distance (S.basis.translate n q) (S.basis.translate n p) =
      distance q p := by
    intro p q
    rw [LatticeBasis.translate_eq, LatticeBasis.translate_eq]
    unfold distance
    rw [hasSqrt_real, hasSqrt_real]
    refine congrArg Real.sqrt (Finset.sum_congr rfl fun k _ => ?_)
    ring
  unfold PairIn
  simp only [List.getElem?_map, Option.map_eq_some_iff]
  constructor
  · rintro ⟨_, _, ⟨p, hp, rfl⟩, ⟨q, hq, rfl⟩, h⟩
    exact ⟨p, q, hp, hq, by rw [← hdist, h]⟩
  · rintro ⟨p, q, hp, hq, h⟩
    exact ⟨_, _, ⟨p, hp, rfl⟩, ⟨q, hq, rfl⟩, by rw [hdist, h]⟩

namespace Lattice

/-- The sites of two lattices together. -/
theorem joint_sites {S : Structure d ℝ} {r : ℝ} {w1 w2 : ℕ} {D D2 : LatticeData d ℝ}
    (h1 : CellData S r w1 D) (h2 : CellData S r w2 D2) (n : Fin d → ℤ) :
    List.Forall₂ (IsSitePos S) (D.indices ++ D2.indices.map (shiftIdx n))
      (D.positions ++ D2.positions.map (S.basis.translate n)) := by
  refine List.rel_append h1.sites ?_
  rw [List.forall₂_map_left_iff, List.forall₂_map_right_iff]
  refine h2.sites.imp ?_
  intro a p hp
  exact shifted_site S hp n

theorem joint_nodup {D D2 : LatticeData d ℝ} (h1 : D.indices.Nodup) (h2 : D2.indices.Nodup)
    {n : Fin d → ℤ} (hdisj : ∀ a ∈ D.indices, ∀ b ∈ D2.indices, a ≠ shiftIdx n b) :
    (D.indices ++ D2.indices.map (shiftIdx n)).Nodup := by
  rw [List.nodup_append]
  refine ⟨h1, h2.map ?_, ?_⟩
  · intro a b hab
    unfold shiftIdx at hab
    rw [Idx.mk_inj] at hab
    rw [← Idx.mk_cell_alpha a, ← Idx.mk_cell_alpha b, hab.2]
    congr 1
    funext k
    have := congrFun hab.1 k
    simpa using this
  · intro x hx y hy
    obtain ⟨y', hy', rfl⟩ := List.mem_map.1 hy
    exact hdisj x hx y' hy'

/-- The interface of two lattices with the same single neighbour distance. -/
theorem cells_interface (env : Env ℝ) {L : Lattice d ℝ} {D D2 : LatticeData d ℝ}
    (hdata : L.data = some D) {A : Analysis d ℝ} (hA : L.struct.analysis = some A) {r : ℝ}
    {k : ℕ} {R : ℝ} (hq : queryParams A = .ok (k, R)) {w1 w2 : ℕ}
    (h1 : CellData L.struct r w1 D) (h2 : CellData L.struct r w2 D2)
    (hinf : ⊤ ∈ D2.distTable.flatten) {ax : ℕ} {side : Bool} {v : Fin d → ℤ}
    (hvec : periodicVector L.struct.basis (if side then D.indices else D2.indices) [ax]
      (L.primitive.getD false) = .ok v) :
    ∃ L' E, L.appendSites env D2.indices D2.positions D2.neighbors D2.distTable ax side none false =
        (L', .ok ()) ∧
      L'.data = some E ∧ L'.world = L.world ∧ L'.primitive = L.primitive ∧
      L'.periodicAxes = L.periodicAxes ∧
      E.indices = D.indices ++ D2.indices.map (shiftIdx (if side then v else -v)) ∧
      E.positions = D.positions ++
        D2.positions.map (L.struct.basis.translate (if side then v else -v)) ∧
      E.Open (D.numSites + D2.numSites) (max w1 w2) ∧
      E.invalidIdx = D.numSites + D2.numSites ∧
      (∀ i < D.numSites, ∃ s, s.Subperm (linksWithin (D.distTable.flatten ++ D2.distTable.flatten)
          (D.positions.getD i 0)
          (D2.positions.map (L.struct.basis.translate (if side then v else -v))) R D.numSites) ∧
        s.length = min (max w1 w2 - (D.linksOf i).length)
          (linksWithin (D.distTable.flatten ++ D2.distTable.flatten) (D.positions.getD i 0)
          (D2.positions.map (L.struct.basis.translate (if side then v else -v))) R
            D.numSites).length ∧
        (E.linksOf i).Perm (D.linksOf i ++ s)) ∧
      (∀ (j : ℕ) q, D2.positions[j]? = some q →
        ∃ s, s.Subperm (linksWithin (D.distTable.flatten ++ D2.distTable.flatten)
            (L.struct.basis.translate (if side then v else -v) q) D.positions R 0) ∧
          s.length = min (max w1 w2 - (D2.linksOf j).length)
            (linksWithin (D.distTable.flatten ++ D2.distTable.flatten)
              (L.struct.basis.translate (if side then v else -v) q) D.positions R 0).length ∧
          (E.linksOf (D.numSites + j)).Perm (((D2.linksOf j).map
            fun p => (p.1 + D.numSites, p.2)) ++ s)) := by
  have hw2 : 0 < w2 := by
    obtain ⟨q, hq, hx⟩ := List.mem_flatten.1 hinf
    rw [← h2.table_length.2 q hq]
    exact List.length_pos_of_mem hx
  obtain ⟨L', E, e1, e2, e3, e4, e5, e6, e7, e8, e9, e10, e11⟩ :=
    C68_interface_partial env hdata hA hq h1.rect h1.entry h1.ne h1.sorted h1.top D2.indices
      D2.positions D2.neighbors D2.distTable h2.sites.length_eq.symm h2.ne hw2
      ⟨h2.rect.neighbors.1, h2.rect.neighbors.2⟩ h2.table_length
      (by
        intro j nr dr hnr hdr p hp hpt
        have hmem : (p.1, some p.2) ∈ D2.linksOf j := by
          rw [← h2.row hnr hdr]
          exact List.mem_map.2 ⟨p, List.mem_filter.2 ⟨hp, by simpa using hpt⟩, rfl⟩
        have hj : j < D2.numSites := by
          rw [← h2.rect.neighbors.1]
          exact (List.getElem?_eq_some_iff.1 hnr).1
        have := (pairIn_lt ((h2.links j hj _ _).1 hmem).2).2
        rw [← h2.sites.length_eq] at this
        exact this.le)
      (Or.inr (Or.inl hinf))
      (by
        have hsub : (⊤ :: (D.distTable.flatten ++ D2.distTable.flatten)).dedup ⊆
            [⊤, ((npRound 6 r : ℝ) : WithTop ℝ)] := by
          intro x hx
          rw [List.mem_dedup, List.mem_cons, List.mem_append] at hx
          rcases hx with rfl | hx | hx
          · simp
          · rcases h1.mem_table hx with rfl | rfl <;> simp
          · rcases h2.mem_table hx with rfl | rfl <;> simp
        have := ((List.nodup_dedup _).subperm hsub).length_le
        simp only [List.length_cons, List.length_nil] at this
        omega)
      hvec
  refine ⟨L', E, e1, e2, e3, e4, e5, e6, e7, e8, e9, e10, ?_⟩
  intro j q hjq
  have hj : j < D2.numSites := by
    have := (List.getElem?_eq_some_iff.1 hjq).1
    rwa [h2.rect.positions] at this
  have hnl : j < D2.neighbors.length := by rw [h2.rect.neighbors.1]; exact hj
  have hdl : j < D2.distTable.length := by rw [h2.table_length.1]; exact hj
  obtain ⟨s, s1, s2, s3⟩ := e11 j q _ _ hjq (List.getElem?_eq_getElem hnl)
    (List.getElem?_eq_getElem hdl)
  have hrow := h2.row (List.getElem?_eq_getElem hnl) (List.getElem?_eq_getElem hdl)
  refine ⟨s, s1, ?_, ?_⟩
  · rw [s2, ← hrow, List.length_map]
  · rw [← hrow, List.map_map]
    exact s3

/-- Two lattices joined: if no two sites coincide, the stored distance is not below the distance,
and the neighbourhoods of the joint lattice occur in one of the two, the links of the result are all
pairs at the distance `r`. -/
theorem cells_step (hd : 0 < d) (env : Env ℝ) {L : Lattice d ℝ} {D D2 : LatticeData d ℝ}
    (hdata : L.data = some D) {A : Analysis d ℝ} (hA : L.struct.analysis = some A) {r : ℝ}
    {N : ℕ → Set (Idx d)} (hreach : Reachable env L.world) (hnear : NearestOnly L.world r N)
    (hst : ∀ (α : ℕ), ∀ x ∈ N α, ∀ k, |Idx.cell x k| ≤ 1)
    {k : ℕ} {R : ℝ} (hq : queryParams A = .ok (k, R)) (hround : r ≤ npRound 6 r) {w1 w2 : ℕ}
    (h1 : CellData L.struct r w1 D) (h2 : CellData L.struct r w2 D2)
    (hinf : ⊤ ∈ D2.distTable.flatten) {ax : ℕ} {side : Bool} {v : Fin d → ℤ}
    (hvec : periodicVector L.struct.basis (if side then D.indices else D2.indices) [ax]
      (L.primitive.getD false) = .ok v)
    (hdisj : ∀ a ∈ D.indices, ∀ b ∈ D2.indices, a ≠ shiftIdx (if side then v else -v) b)
    (hemb : Embeds D (D.indices ++ D2.indices.map (shiftIdx (if side then v else -v))) ∨
      Embeds D2 (D.indices ++ D2.indices.map (shiftIdx (if side then v else -v)))) :
    ∃ L' E, L.appendSites env D2.indices D2.positions D2.neighbors D2.distTable ax side none false =
        (L', .ok ()) ∧
      L'.data = some E ∧ L'.world = L.world ∧ L'.primitive = L.primitive ∧
      L'.periodicAxes = L.periodicAxes ∧
      E.indices = D.indices ++ D2.indices.map (shiftIdx (if side then v else -v)) ∧
      E.positions = D.positions ++
        D2.positions.map (L.struct.basis.translate (if side then v else -v)) ∧
      CellData L.struct r (max w1 w2) E := by
  obtain ⟨hR1, hR2⟩ := hnear.radius hd hreach hA hq
  obtain ⟨L', E, e1, e2, e3, e4, e5, e6, e7, e8, e9, e10, e11⟩ :=
    cells_interface env hdata hA hq h1 h2 hinf hvec
  set n : Fin d → ℤ := if side then v else -v with hn
  set J := D.indices ++ D2.indices.map (shiftIdx n) with hJ
  set Q := D2.positions.map (L.struct.basis.translate n) with hQ
  set vals := D.distTable.flatten ++ D2.distTable.flatten with hvals
  have hJP := joint_sites h1 h2 n
  rw [← hJ, ← hQ] at hJP
  have hnd : J.Nodup := joint_nodup h1.nodup h2.nodup hdisj
  have hl1 : D.positions.length = D.numSites := h1.rect.positions
  have hl2 : Q.length = D2.numSites := by rw [hQ, List.length_map, h2.rect.positions]
  have hv : ∀ x ∈ vals, x = ⊤ ∨ x = ((npRound 6 r : ℝ) : WithTop ℝ) := by
    intro x hx
    rcases List.mem_append.1 hx with hx | hx
    · exact h1.mem_table hx
    · exact h2.mem_table hx
  have hroom : ∀ (i : ℕ) (M : List ℕ), M.Nodup → (∀ j ∈ M, PairIn (D.positions ++ Q) r i j) →
      M.length ≤ max w1 w2 := by
    intro i M hM hall
    rcases hemb with hemb | hemb
    · exact (hemb.room hnear hst h1 hJP hnd hM hall).trans (le_max_left _ _)
    · exact (hemb.room hnear hst h2 hJP hnd hM hall).trans (le_max_right _ _)
  have hlevel : ∀ i j, PairIn (D.positions ++ Q) r i j →
      ((npRound 6 r : ℝ) : WithTop ℝ) ∈ vals := by
    intro i j hij
    rcases hemb with hemb | hemb
    · exact List.mem_append_left _ (hemb.level hnear hst h1 hJP hij)
    · exact List.mem_append_right _ (hemb.level hnear hst h2 hJP hij)
  have hacross : ∀ (i j : ℕ) p q, D.positions[i]? = some p → Q[j]? = some q →
      distance p q = r ∨ R < distance p q := by
    intro i j p q hp hq
    have hi := (List.getElem?_eq_some_iff.1 hp).1
    obtain ⟨a, ha, hap⟩ := sites_get hJP (i := i) (p := p) (by
      rw [List.getElem?_append_left hi, hp])
    obtain ⟨b, hb, hbq⟩ := sites_get hJP (i := D.positions.length + j) (p := q) (by
      rw [List.getElem?_append_right (by omega), Nat.add_sub_cancel_left, hq])
    have hab : a ≠ b := by
      rintro rfl
      have := (List.getElem?_inj (List.getElem?_eq_some_iff.1 ha).1 hnd).1 (ha.trans hb.symm)
      omega
    obtain ⟨α, β, -, -, hc⟩ := hnear.sites hap hbq hab
    rw [distance_comm]
    rcases hc with ⟨hc, -⟩ | hc
    · exact Or.inl hc
    · exact Or.inr (hR2.trans hc)
  have hpair : ∀ (i j : ℕ) p q, D.positions[i]? = some p → Q[j]? = some q → distance p q = r →
      PairIn (D.positions ++ Q) r i (D.numSites + j) := by
    intro i j p q hp hq hpq
    have hi := (List.getElem?_eq_some_iff.1 hp).1
    refine ⟨p, q, by rw [List.getElem?_append_left hi, hp], ?_, by rw [distance_comm, hpq]⟩
    rw [← hl1, List.getElem?_append_right (by omega), Nat.add_sub_cancel_left, hq]
  have hgetD : ∀ {P : List (Vec d ℝ)} {j : ℕ}, j < P.length → P[j]? = some (P.getD j 0) := by
    intro P j hj
    rw [List.getD_eq_getElem?_getD, List.getElem?_eq_getElem hj]
    rfl
  -- the links of the sites
  have hlinks : ∀ i < D.numSites + D2.numSites, ((E.linksOf i).map Prod.fst).Nodup ∧
      ∀ j y, (j, y) ∈ E.linksOf i ↔
        y = some ((npRound 6 r : ℝ) : WithTop ℝ) ∧ PairIn (D.positions ++ Q) r i j := by
    intro i hi
    by_cases hi1 : i < D.numSites
    · obtain ⟨s, s1, s2, s3⟩ := e10 i hi1
      have hp := hgetD (P := D.positions) (j := i) (by rw [hl1]; exact hi1)
      set p := D.positions.getD i 0 with hpd
      rw [linksWithin_cells hv hround hR1
        (fun j q hjq hdist => hlevel _ _ (hpair i j p q hp hjq hdist))
        (fun j q hjq => hacross i j p q hp hjq)] at s1 s2
      set F := (List.range Q.length).filter fun j => decide (distance p (Q.getD j 0) = r) with hF
      set T := F.map fun j : ℕ => (D.numSites + j, some ((npRound 6 r : ℝ) : WithTop ℝ)) with hT
      have hmem : ∀ j y, (j, y) ∈ D.linksOf i ++ T ↔
          y = some ((npRound 6 r : ℝ) : WithTop ℝ) ∧ PairIn (D.positions ++ Q) r i j := by
        intro j y
        rw [List.mem_append, h1.links i hi1]
        constructor
        · rintro (⟨rfl, hij⟩ | hT')
          · exact ⟨rfl, (pairIn_left (pairIn_lt hij).1 (pairIn_lt hij).2).2 hij⟩
          · obtain ⟨m, hm, he⟩ := List.mem_map.1 hT'
            obtain ⟨m1, m2⟩ := List.mem_filter.1 hm
            cases he
            exact ⟨rfl, hpair i m p _ hp (hgetD (List.mem_range.1 m1)) (of_decide_eq_true m2)⟩
        · rintro ⟨rfl, hij⟩
          by_cases hj : j < D.numSites
          · left
            exact ⟨rfl, (pairIn_left (by rw [hl1]; exact hi1) (by rw [hl1]; exact hj)).1 hij⟩
          · right
            obtain ⟨p', q, hp', hq', hpq⟩ := hij
            rw [List.getElem?_append_left (by rw [hl1]; exact hi1), hp] at hp'
            cases hp'
            rw [List.getElem?_append_right (by omega), hl1] at hq'
            have hjl := (List.getElem?_eq_some_iff.1 hq').1
            refine List.mem_map.2 ⟨j - D.numSites, List.mem_filter.2 ⟨List.mem_range.2 hjl, ?_⟩, by
              rw [Nat.add_sub_cancel' (by omega)]⟩
            have := hgetD hjl
            rw [hq'] at this
            rw [← Option.some.inj this, distance_comm, hpq]
            simp
      have hnames : ((D.linksOf i ++ T).map Prod.fst).Nodup := by
        rw [List.map_append, List.nodup_append]
        refine ⟨h1.names i hi1, ?_, ?_⟩
        · rw [hT, List.map_map]
          refine (List.nodup_range.filter _).map ?_
          intro a b hab
          simpa using hab
        · rintro x hx y hy rfl
          obtain ⟨⟨x', z⟩, hx', rfl⟩ := List.mem_map.1 hx
          have := (pairIn_lt ((h1.links i hi1 _ _).1 hx').2).2
          obtain ⟨q, hq', he⟩ := List.mem_map.1 hy
          obtain ⟨m, -, rfl⟩ := List.mem_map.1 hq'
          dsimp only at he this
          omega
      have hlen := hroom i _ hnames (by
        intro j hj
        obtain ⟨⟨x', z⟩, hx', rfl⟩ := List.mem_map.1 hj
        exact ((hmem _ _).1 hx').2)
      rw [List.length_map, List.length_append] at hlen
      have hs := subperm_eq_length s1 (by rw [s2]; omega)
      have hperm := s3.trans (hs.append_left _)
      exact ⟨((hperm.map Prod.fst).nodup_iff).2 hnames, fun j y => by rw [hperm.mem_iff, hmem]⟩
    · obtain ⟨m, rfl⟩ : ∃ m, i = D.numSites + m := ⟨i - D.numSites, by omega⟩
      have hm2 : m < D2.numSites := by omega
      have hq0 := hgetD (P := D2.positions) (j := m) (by rw [h2.rect.positions]; exact hm2)
      obtain ⟨s, s1, s2, s3⟩ := e11 m _ hq0
      set q := L.struct.basis.translate n (D2.positions.getD m 0) with hqd
      have hq' : Q[m]? = some q := by rw [hQ, List.getElem?_map, hq0]; rfl
      rw [linksWithin_cells hv hround hR1
        (fun j p hjp hdist => hlevel _ _ (hpair j m p q hjp hq' (by rw [distance_comm, hdist])))
        (fun j p hjp => by rw [distance_comm]; exact hacross j m p q hjp hq')] at s1 s2
      set F := (List.range D.positions.length).filter fun j =>
        decide (distance q (D.positions.getD j 0) = r) with hF
      set T := F.map fun j : ℕ => (0 + j, some ((npRound 6 r : ℝ) : WithTop ℝ)) with hT
      set B := (D2.linksOf m).map fun p => (p.1 + D.numSites, p.2) with hB
      have hmem : ∀ j y, (j, y) ∈ B ++ T ↔ y = some ((npRound 6 r : ℝ) : WithTop ℝ) ∧
          PairIn (D.positions ++ Q) r (D.numSites + m) j := by
        intro j y
        rw [List.mem_append]
        constructor
        · rintro (hB' | hT')
          · obtain ⟨⟨x, z⟩, hx, he⟩ := List.mem_map.1 hB'
            obtain ⟨rfl, hpq⟩ := (h2.links m hm2 x z).1 hx
            cases he
            refine ⟨rfl, ?_⟩
            rw [← hl1, Nat.add_comm x, pairIn_right, hQ]
            exact (pairIn_translate L.struct).2 hpq
          · obtain ⟨x, hx, he⟩ := List.mem_map.1 hT'
            obtain ⟨m1, m2⟩ := List.mem_filter.1 hx
            cases he
            refine ⟨rfl, pairIn_comm.1 ?_⟩
            rw [Nat.zero_add]
            exact hpair x m _ q (hgetD (List.mem_range.1 m1)) hq' (by
              rw [distance_comm]; exact of_decide_eq_true m2)
        · rintro ⟨rfl, hij⟩
          by_cases hj : j < D.numSites
          · right
            obtain ⟨q', p, hq'', hp, hpq⟩ := hij
            rw [← hl1, List.getElem?_append_right (by omega), Nat.add_sub_cancel_left, hq'] at hq''
            cases hq''
            rw [List.getElem?_append_left (by rw [hl1]; exact hj)] at hp
            have hjl := (List.getElem?_eq_some_iff.1 hp).1
            refine List.mem_map.2 ⟨j, List.mem_filter.2 ⟨List.mem_range.2 hjl, ?_⟩, by
              rw [Nat.zero_add]⟩
            have := hgetD hjl
            rw [hp] at this
            rw [← Option.some.inj this, distance_comm, hpq]
            simp
          · left
            obtain ⟨x, rfl⟩ : ∃ x, j = D.numSites + x := ⟨j - D.numSites, by omega⟩
            rw [← hl1, pairIn_right, hQ, pairIn_translate] at hij
            exact List.mem_map.2 ⟨(x, _), (h2.links m hm2 x _).2 ⟨rfl, hij⟩, by
              dsimp only
              rw [Nat.add_comm]⟩
      have hnames : ((B ++ T).map Prod.fst).Nodup := by
        rw [List.map_append, List.nodup_append]
        refine ⟨?_, ?_, ?_⟩
        · rw [hB, List.map_map]
          have := (h2.names m hm2).map (f := fun x => x + D.numSites) (fun a b hab => by
            simpa using hab)
          rw [List.map_map] at this
          exact this
        · rw [hT, List.map_map]
          refine (List.nodup_range.filter _).map ?_
          intro a b hab
          simpa using hab
        · rintro x hx y hy rfl
          obtain ⟨z, hz, rfl⟩ := List.mem_map.1 hx
          obtain ⟨z', -, rfl⟩ := List.mem_map.1 hz
          obtain ⟨q'', hq'', he⟩ := List.mem_map.1 hy
          obtain ⟨x, hx, rfl⟩ := List.mem_map.1 hq''
          have := List.mem_range.1 (List.mem_filter.1 hx).1
          dsimp only at he
          omega
      have hlen := hroom (D.numSites + m) _ hnames (by
        intro j hj
        obtain ⟨⟨x', z⟩, hx', rfl⟩ := List.mem_map.1 hj
        exact ((hmem _ _).1 hx').2)
      rw [List.length_map, List.length_append, hB, List.length_map] at hlen
      have hs := subperm_eq_length s1 (by rw [s2]; omega)
      have hperm := s3.trans (hs.append_left _)
      exact ⟨((hperm.map Prod.fst).nodup_iff).2 hnames, fun j y => by rw [hperm.mem_iff, hmem]⟩
  refine ⟨L', E, e1, e2, e3, e4, e5, e6, e7, ?_⟩
  have hpl : E.positions.length = D.numSites + D2.numSites := by
    rw [e7, List.length_append, hl1, hl2]
  have hil : E.numSites = D.numSites + D2.numSites := by
    unfold LatticeData.numSites
    rw [e6, hJ, List.length_append, List.length_map]
  constructor
  · exact e8.rect (by rw [hpl, hil]) hil
  · intro q hq e he
    obtain ⟨-, ⟨a, b, hab, ha, hb'⟩, -⟩ := e8.rows q hq
    rw [hab, List.mem_append] at he
    rcases he with he | he
    · left
      refine ⟨ha e he, ?_⟩
      obtain ⟨i, hi⟩ := List.mem_iff_getElem?.1 hq
      have hic : i < D.numSites + D2.numSites := by
        rw [← e8.length]
        exact (List.getElem?_eq_some_iff.1 hi).1
      have hmem : (e.nbr, E.distvals[e.level]?) ∈ E.linksOf i := by
        rw [linksOf_of_row e8.cols hi]
        refine List.mem_map.2 ⟨e, List.mem_filter.2 ⟨?_, by simpa using ha e he⟩, rfl⟩
        rw [hab]
        exact List.mem_append_left _ he
      have := (pairIn_lt (((hlinks i hic).2 _ _).1 hmem).2).2
      rw [List.length_append, hl1, hl2] at this
      omega
    · exact Or.inr (hb' e he)
  · exact e8.sorted
  · exact e8.top
  · exact fun q hq => (e8.rows q hq).2
  · rw [e6, e7]; exact hJP
  · rw [e6]; exact hnd
  · rw [hil]
    have := h1.ne
    omega
  · intro i hi
    rw [hil] at hi
    exact (hlinks i hi).1
  · intro i hi
    rw [hil] at hi
    rw [e7]
    exact (hlinks i hi).2

/-! ## blocks of whole cells -/

/-- A block with three cells along `ax` has copies of all neighbourhoods of a block that is longer
along `ax`. -/
theorem whole_embeds {S : Structure d ℝ} {D : LatticeData d ℝ} {lo : Fin d → ℤ} {size : Fin d → ℕ}
    (hw : WholeCells S D lo size) {ax : Fin d} (h3 : 3 ≤ size ax) {J : List (Idx d)}
    (hJ : ∀ x ∈ J, (0 ≤ x.alpha ∧ x.alpha < S.numBase) ∧
      ∀ k, k ≠ ax → lo k ≤ x.cell k ∧ x.cell k < lo k + size k) : Embeds D J := by
  intro a ha
  refine ⟨Function.update a.cell ax (lo ax + 1), ?_, ?_⟩
  · rw [hw]
    refine ⟨by rw [Idx.alpha_mk]; exact (hJ a ha).1, fun k => ?_⟩
    rw [Idx.cell_mk]
    rcases eq_or_ne k ax with rfl | hk
    · rw [Function.update_self]
      omega
    · rw [Function.update_of_ne hk]
      exact (hJ a ha).2 k hk
  · intro b hb hab
    rw [hw]
    refine ⟨by rw [Idx.alpha_mk]; exact (hJ b hb).1, fun k => ?_⟩
    rw [Idx.cell_mk, Pi.add_apply, Pi.sub_apply]
    rcases eq_or_ne k ax with rfl | hk
    · rw [Function.update_self]
      have := abs_le.1 (hab k)
      omega
    · rw [Function.update_of_ne hk]
      have := (hJ b hb).2 k hk
      omega

/-- The period of a block of whole cells. -/
theorem whole_period {S : Structure d ℝ} {D : LatticeData d ℝ} {lo : Fin d → ℤ} {size : Fin d → ℕ}
    (hw : WholeCells S D lo size) (hne : D.indices ≠ []) {primitive : Bool}
    (hb : primitive = true ∨ Orthogonal S.basis) (ax : Fin d) :
    periodicVector S.basis D.indices [ax.val] primitive = .ok (Pi.single ax (size ax : ℤ)) := by
  obtain ⟨v, hv, hP⟩ := periodicVector_spec hb hne (S := [ax.val]) (by simp)
  obtain ⟨x0, hx0⟩ := List.exists_mem_of_ne_nil _ hne
  obtain ⟨h0, hx0'⟩ := (hw x0).1 hx0
  have : v = Pi.single ax (size ax : ℤ) := by
    refine PeriodOf.unique hP ⟨fun k hk => Pi.single_eq_of_ne (by rintro rfl; simp at hk) _, ?_⟩
    intro k hk
    obtain rfl : k = ax := Fin.ext (by simpa using hk)
    refine ⟨Idx.mk (fun m => lo m + size m - 1) (Idx.alpha x0), Idx.mk lo (Idx.alpha x0), ?_, ?_, ?_, ?_⟩
    · rw [hw, Idx.alpha_mk, Idx.cell_mk]
      refine ⟨h0, fun m => ?_⟩
      have := hx0' m
      omega
    · rw [hw, Idx.alpha_mk, Idx.cell_mk]
      refine ⟨h0, fun m => ?_⟩
      have := hx0' m
      omega
    · rw [Idx.cell_mk, Idx.cell_mk, Pi.single_eq_same]
      ring
    · intro z hz
      have := ((hw z).1 hz).2 k
      rw [Idx.cell_mk, Idx.cell_mk]
      omega
  rw [hv, this]

/-- The size of two blocks joined along `ax`. -/
def joinSize (size1 size2 : Fin d → ℕ) (ax : Fin d) : Fin d → ℕ :=
  Function.update size1 ax (size1 ax + size2 ax)

/-- The first cell of two blocks joined along `ax`: the second block comes behind or before the
first one. -/
def joinLo (lo : Fin d → ℤ) (size2 : Fin d → ℕ) (ax : Fin d) (side : Bool) : Fin d → ℤ :=
  if side then lo else Function.update lo ax (lo ax - size2 ax)

/-- The shifted block has no site in common with the first one. -/
theorem whole_disjoint {S : Structure d ℝ} {D D2 : LatticeData d ℝ} {lo : Fin d → ℤ}
    {size1 size2 : Fin d → ℕ} (hw1 : WholeCells S D lo size1) (hw2 : WholeCells S D2 lo size2)
    {ax : Fin d} {side : Bool} {n : Fin d → ℤ}
    (hn : n ax = if side then (size1 ax : ℤ) else -(size2 ax : ℤ)) :
    ∀ a ∈ D.indices, ∀ b ∈ D2.indices, a ≠ shiftIdx n b := by
  rintro a ha b hb rfl
  have g1 := ((hw1 _).1 ha).2 ax
  have g2 := ((hw2 _).1 hb).2 ax
  unfold shiftIdx at g1
  rw [Idx.cell_mk, hn] at g1
  cases side
  · simp only [Bool.false_eq_true, if_false] at g1
    omega
  · simp only [if_true] at g1
    omega

/-- A lattice to which sites were appended has a shape. -/
theorem appendSites_shape {env : Env ℝ} {L L' : Lattice d ℝ} {ind : List (Idx d)}
    {pos : List (Vec d ℝ)} {nbrs : List (List ℕ)} {dists : List (List (WithTop ℝ))} {ax : ℕ}
    {side : Bool} {sortAx : Option (Fin (d + 1))} {rev : Bool}
    (h : L.appendSites env ind pos nbrs dists ax side sortAx rev = (L', .ok ())) :
    L'.shape ≠ none := by
  have key : ∀ M : Lattice d ℝ, M.updateShape = (L', .ok ()) → L'.shape ≠ none := by
    intro M hM
    unfold updateShape at hM
    split at hM
    · cases hM
    · split at hM
      · cases hM
      · cases hM
        simp
  unfold appendSites at h
  dsimp only at h
  split at h
  · cases h
  · split at h
    · cases h
    · split at h
      · cases h
      · split at h
        · cases h
        · split at h
          · cases h
          · exact key _ h

theorem cells_join (hd : 0 < d) (env : Env ℝ) {L : Lattice d ℝ} {D D2 : LatticeData d ℝ}
    (hdata : L.data = some D) {A : Analysis d ℝ} (hA : L.struct.analysis = some A) {r : ℝ}
    {N : ℕ → Set (Idx d)} (hreach : Reachable env L.world) (hnear : NearestOnly L.world r N)
    (hst : ∀ (α : ℕ), ∀ x ∈ N α, ∀ k, |Idx.cell x k| ≤ 1)
    {k : ℕ} {R : ℝ} (hq : queryParams A = .ok (k, R)) (hround : r ≤ npRound 6 r) {w1 w2 : ℕ}
    (h1 : CellData L.struct r w1 D) (h2 : CellData L.struct r w2 D2)
    (hinf : ⊤ ∈ D2.distTable.flatten) {ax : Fin d} {side : Bool}
    (hb : L.primitive.getD false = true ∨ Orthogonal L.struct.basis)
    {lo : Fin d → ℤ} {size1 size2 : Fin d → ℕ}
    (hw1 : WholeCells L.struct D lo size1) (hw2 : WholeCells L.struct D2 lo size2)
    (hsize : ∀ k, k ≠ ax → size1 k = size2 k) (h3 : 3 ≤ size1 ax ∨ 3 ≤ size2 ax) :
    ∃ L' E, L.appendSites env D2.indices D2.positions D2.neighbors D2.distTable ax.val side none
        false = (L', .ok ()) ∧
      L'.data = some E ∧ L'.world = L.world ∧ L'.primitive = L.primitive ∧ L'.shape ≠ none ∧
      CellData L.struct r (max w1 w2) E ∧
      WholeCells L.struct E (joinLo lo size2 ax side) (joinSize size1 size2 ax) := by
  have hne1 : D.indices ≠ [] := List.length_pos_iff_ne_nil.1 h1.ne
  have hne2 : D2.indices ≠ [] := List.length_pos_iff_ne_nil.1 h2.ne
  set v : Fin d → ℤ := if side then Pi.single ax (size1 ax : ℤ) else Pi.single ax (size2 ax : ℤ)
    with hv
  have hvec : periodicVector L.struct.basis (if side then D.indices else D2.indices) [ax.val]
      (L.primitive.getD false) = .ok v := by
    cases side
    · exact whole_period hw2 hne2 hb ax
    · exact whole_period hw1 hne1 hb ax
  set n : Fin d → ℤ := if side then v else -v with hn
  have hn1 : ∀ k, k ≠ ax → n k = 0 := by
    intro k hk
    rw [hn, hv]
    cases side <;> simp [Pi.single_eq_of_ne hk]
  have hn2 : n ax = if side then (size1 ax : ℤ) else -(size2 ax : ℤ) := by
    rw [hn, hv]
    cases side <;> simp
  have hshift : ∀ b : Idx d, (shiftIdx n b).alpha = b.alpha ∧
      ∀ k, (shiftIdx n b).cell k = b.cell k + n k := by
    intro b
    unfold shiftIdx
    rw [Idx.alpha_mk, Idx.cell_mk]
    exact ⟨rfl, fun _ => rfl⟩
  have hdisj := whole_disjoint hw1 hw2 hn2
  have hwhole : ∀ x : Idx d, x ∈ D.indices ++ D2.indices.map (shiftIdx n) ↔
      (0 ≤ x.alpha ∧ x.alpha < L.struct.numBase) ∧ ∀ k, joinLo lo size2 ax side k ≤ x.cell k ∧
        x.cell k < joinLo lo size2 ax side k + joinSize size1 size2 ax k := by
    intro x
    have hax : (joinLo lo size2 ax side ax ≤ x.cell ax ∧
        x.cell ax < joinLo lo size2 ax side ax + joinSize size1 size2 ax ax) ↔
        (lo ax ≤ x.cell ax ∧ x.cell ax < lo ax + size1 ax) ∨
        (lo ax ≤ x.cell ax - n ax ∧ x.cell ax - n ax < lo ax + size2 ax) := by
      unfold joinLo joinSize
      rw [Function.update_self, hn2]
      push_cast
      cases side
      · simp only [Bool.false_eq_true, if_false, Function.update_self]
        omega
      · simp only [if_true]
        omega
    have hoff : ∀ k, k ≠ ax → joinLo lo size2 ax side k = lo k ∧
        joinSize size1 size2 ax k = size1 k := by
      intro k hk
      unfold joinLo joinSize
      rw [Function.update_of_ne hk]
      refine ⟨?_, rfl⟩
      cases side
      · simp [Function.update_of_ne hk]
      · rfl
    rw [List.mem_append, hw1]
    constructor
    · rintro (⟨g1, g2⟩ | hx)
      · refine ⟨g1, fun k => ?_⟩
        rcases eq_or_ne k ax with rfl | hk
        · exact hax.2 (Or.inl (g2 k))
        · rw [(hoff k hk).1, (hoff k hk).2]
          exact g2 k
      · obtain ⟨b, hb, rfl⟩ := List.mem_map.1 hx
        obtain ⟨g1, g2⟩ := (hw2 b).1 hb
        refine ⟨by rw [(hshift b).1]; exact g1, fun k => ?_⟩
        rcases eq_or_ne k ax with rfl | hk
        · refine hax.2 (Or.inr ?_)
          rw [(hshift b).2, add_sub_cancel_right]
          exact g2 k
        · rw [(hoff k hk).1, (hoff k hk).2, (hshift b).2, hn1 k hk, add_zero, hsize k hk]
          exact g2 k
    · rintro ⟨g1, g2⟩
      rcases hax.1 (g2 ax) with g | g
      · left
        refine ⟨g1, fun k => ?_⟩
        rcases eq_or_ne k ax with rfl | hk
        · exact g
        · have := g2 k
          rwa [(hoff k hk).1, (hoff k hk).2] at this
      · right
        refine List.mem_map.2 ⟨Idx.mk (fun k => x.cell k - n k) x.alpha, ?_, ?_⟩
        · rw [hw2, Idx.alpha_mk, Idx.cell_mk]
          refine ⟨g1, fun k => ?_⟩
          rcases eq_or_ne k ax with rfl | hk
          · exact g
          · have := g2 k
            rw [(hoff k hk).1, (hoff k hk).2, hsize k hk] at this
            rwa [hn1 k hk, sub_zero]
        · unfold shiftIdx
          rw [Idx.cell_mk, Idx.alpha_mk]
          conv_rhs => rw [← Idx.mk_cell_alpha x]
          congr 1
          funext k
          exact sub_add_cancel _ _
  have hJ : ∀ x ∈ D.indices ++ D2.indices.map (shiftIdx n),
      (0 ≤ Idx.alpha x ∧ Idx.alpha x < L.struct.numBase) ∧
      ∀ k, k ≠ ax → lo k ≤ Idx.cell x k ∧ Idx.cell x k < lo k + size1 k := by
    intro x hx
    obtain ⟨g1, g2⟩ := (hwhole x).1 hx
    refine ⟨g1, fun k hk => ?_⟩
    have := g2 k
    unfold joinLo joinSize at this
    rw [Function.update_of_ne hk] at this
    cases side
    · simpa [Function.update_of_ne hk] using this
    · simpa using this
  have hemb : Embeds D (D.indices ++ D2.indices.map (shiftIdx n)) ∨
      Embeds D2 (D.indices ++ D2.indices.map (shiftIdx n)) := by
    rcases h3 with h3 | h3
    · exact Or.inl (whole_embeds hw1 h3 hJ)
    · refine Or.inr (whole_embeds hw2 h3 fun x hx => ⟨(hJ x hx).1, fun k hk => ?_⟩)
      rw [← hsize k hk]
      exact (hJ x hx).2 k hk
  obtain ⟨L', E, e1, e2, e3, e4, -, e6, -, e8⟩ := cells_step hd env hdata hA hreach hnear hst hq
    hround h1 h2 hinf hvec hdisj hemb
  refine ⟨L', E, e1, e2, e3, e4, appendSites_shape e1, e8, ?_⟩
  intro x
  rw [e6]
  exact hwhole x

/-- The lattice with the data `D` and the one with the data `E` have the same sites, in any order, and
the same neighbours. -/
def SameNeighbors (L : Lattice d ℝ) (D : LatticeData d ℝ) (M : Lattice d ℝ) (E : LatticeData d ℝ) :
    Prop :=
  (∀ x : Idx d, x ∈ D.indices ↔ x ∈ E.indices) ∧
  ∀ (i i' : ℕ) (x : Idx d), D.indices[i]? = some x → E.indices[i']? = some x →
    ∃ l l', L.neighbors i none false = .ok l ∧ M.neighbors i' none false = .ok l' ∧ l.Nodup ∧
      l'.Nodup ∧ l.length = l'.length ∧
      ∀ (j j' : ℕ) (y : Idx d), D.indices[j]? = some y → E.indices[j']? = some y →
        (j ∈ l ↔ j' ∈ l')

theorem sameNeighbors_of {S : Structure d ℝ} {r : ℝ} {L M : Lattice d ℝ} {D E : LatticeData d ℝ}
    (h1 : List.Forall₂ (IsSitePos S) D.indices D.positions)
    (h2 : List.Forall₂ (IsSitePos S) E.indices E.positions)
    (hmem : ∀ x : Idx d, x ∈ D.indices ↔ x ∈ E.indices) (hD : D.indices.Nodup)
    (hE : E.indices.Nodup)
    (hL : NearestNeighbors L D r) (hM : NearestNeighbors M E r) : SameNeighbors L D M E := by
  have get : ∀ {D : LatticeData d ℝ}, List.Forall₂ (IsSitePos S) D.indices D.positions →
      ∀ {i : ℕ} {x : Idx d}, D.indices[i]? = some x → ∃ p, D.positions[i]? = some p ∧
        IsSitePos S x p := by
    intro D h1 i x hx
    obtain ⟨i1, e1⟩ := List.getElem?_eq_some_iff.1 hx
    have i2 : i < D.positions.length := by rw [← h1.length_eq]; exact i1
    have := h1.get i1 i2
    simp only [List.get_eq_getElem, e1] at this
    exact ⟨_, List.getElem?_eq_getElem i2, this⟩
  refine ⟨hmem, ?_⟩
  intro i i' x hi hi'
  obtain ⟨l, l1, l2, l3⟩ := hL i (List.getElem?_eq_some_iff.1 hi).1
  obtain ⟨l', m1, m2, m3⟩ := hM i' (List.getElem?_eq_some_iff.1 hi').1
  obtain ⟨p, hp, sp⟩ := get h1 hi
  obtain ⟨p', hp', sp'⟩ := get h2 hi'
  have hpp := site_unique sp sp'
  subst hpp
  have key : ∀ (j j' : ℕ) (y : Idx d), D.indices[j]? = some y → E.indices[j']? = some y →
      (j ∈ l ↔ j' ∈ l') := by
    intro j j' y hj hj'
    obtain ⟨q, hq, sq⟩ := get h1 hj
    obtain ⟨q', hq', sq'⟩ := get h2 hj'
    have hqq := site_unique sq sq'
    subst hqq
    rw [l3, m3]
    constructor
    · rintro ⟨a, b, ha, hb, hab⟩
      rw [hp] at ha
      rw [hq] at hb
      cases ha
      cases hb
      exact ⟨p, q, hp', hq', hab⟩
    · rintro ⟨a, b, ha, hb, hab⟩
      rw [hp'] at ha
      rw [hq'] at hb
      cases ha
      cases hb
      exact ⟨p, q, hp, hq, hab⟩
  refine ⟨l, l', l1, m1, l2, m2, ?_, key⟩
  -- the two lists name the same sites
  have hle : ∀ {D E : LatticeData d ℝ} {l l' : List ℕ}, (∀ x : Idx d, x ∈ D.indices → x ∈ E.indices) →
      D.indices.Nodup → l.Nodup → (∀ j ∈ l, j < D.indices.length) →
      (∀ (j j' : ℕ) (y : Idx d), D.indices[j]? = some y → E.indices[j']? = some y →
        (j ∈ l → j' ∈ l')) → l.length ≤ l'.length := by
    intro D E l l' hsub hnd hl hlt hto
    have hg : ∀ j ∈ l, ∃ (j' : ℕ) (y : Idx d), D.indices[j]? = some y ∧ E.indices[j']? = some y := by
      intro j hj
      have hj1 := List.getElem?_eq_getElem (hlt j hj)
      obtain ⟨j', hj'⟩ := List.mem_iff_getElem?.1 (hsub _ (List.mem_of_getElem? hj1))
      exact ⟨j', _, hj1, hj'⟩
    choose! g y g1 g2 using hg
    have hs : (l.map g).Subperm l' := by
      refine List.Nodup.subperm ?_ ?_
      · refine (List.nodup_map_iff_inj_on hl).2 ?_
        intro a ha b hb hab
        have e := g2 a ha
        rw [hab, g2 b hb] at e
        have e' := (g1 b hb).trans (e.trans (g1 a ha).symm)
        exact ((List.getElem?_inj (hlt b hb) hnd).1 e').symm
      · intro z hz
        obtain ⟨j, hj, rfl⟩ := List.mem_map.1 hz
        exact hto j (g j) (y j) (g1 j hj) (g2 j hj) hj
    have := hs.length_le
    rwa [List.length_map] at this
  refine le_antisymm (hle (D := D) (E := E) (fun x => (hmem x).1) hD l2 ?_
    fun j j' y hj hj' => (key j j' y hj hj').1) (hle (D := E) (E := D) (fun x => (hmem x).2) hE m2 ?_
    fun j j' y hj hj' => (key j' j y hj' hj).2)
  · intro j hj
    obtain ⟨-, b, -, hb, -⟩ := (l3 j).1 hj
    rw [h1.length_eq]
    exact (List.getElem?_eq_some_iff.1 hb).1
  · intro j hj
    obtain ⟨-, b, -, hb, -⟩ := (m3 j).1 hj
    rw [h2.length_eq]
    exact (List.getElem?_eq_some_iff.1 hb).1

/-- The lattice `L` with the data `E` is the finite lattice of the sites of whole cells: all pairs at
the distance `r` are links, stored once with the rounded distance. -/
def IsBlock (S : Structure d ℝ) (r : ℝ) (lo : Fin d → ℤ) (size : Fin d → ℕ) (L : Lattice d ℝ)
    (E : LatticeData d ℝ) : Prop :=
  L.data = some E ∧ List.Forall₂ (IsSitePos S) E.indices E.positions ∧ E.indices.Nodup ∧
    WholeCells S E lo size ∧ NearestNeighbors L E r ∧
    ∀ i < E.numSites, ∀ j y, (j, y) ∈ E.linksOf i → y = some ((npRound 6 r : ℝ) : WithTop ℝ)

theorem _root_.Lattpy.CellData.block {S : Structure d ℝ} {r : ℝ} {w : ℕ} {E : LatticeData d ℝ}
    (h : CellData S r w E) {L : Lattice d ℝ} (hL : L.data = some E) {lo : Fin d → ℤ}
    {size : Fin d → ℕ} (hw : WholeCells S E lo size) : IsBlock S r lo size L E :=
  ⟨hL, h.sites, h.nodup, hw, h.nearest hL, fun i hi j y hy => ((h.links i hi j y).1 hy).1⟩

/-- Two blocks of the same cells have the same sites and neighbours. -/
theorem IsBlock.same {S : Structure d ℝ} {r : ℝ} {lo : Fin d → ℤ} {size : Fin d → ℕ}
    {L M : Lattice d ℝ} {D E : LatticeData d ℝ} (h1 : IsBlock S r lo size L D)
    (h2 : IsBlock S r lo size M E) : SameNeighbors L D M E :=
  sameNeighbors_of h1.2.1 h2.2.1 (fun x => (h1.2.2.2.1 x).trans (h2.2.2.2.1 x).symm) h1.2.2.1
    h2.2.2.1 h1.2.2.2.2.1 h2.2.2.2.2.1

/-- The lattice of `C68_cells_partial`. -/
theorem append_tiling (hd : 0 < d) {env : Env ℝ} {L L1 L2 : Lattice d ℝ}
    (hr : Reachable env L.world) {r : ℝ} {N : ℕ → Set (Idx d)} (h : NearestOnly L.world r N)
    (hst : NearSteps N) (hround : r ≤ npRound 6 r) {a1 a2 : BuildArgs d ℝ}
    (ha1 : a1.minNeighbors = none ∧ a1.periodic = none ∧ a1.bits = none)
    (ha2 : a2.minNeighbors = none ∧ a2.periodic = none ∧ a2.bits = none)
    (hok1 : L.build env a1 = (L1, .ok ())) (hok2 : L.build env a2 = (L2, .ok ()))
    (hprim : a1.primitive = true ∨ Orthogonal L.struct.basis) {D1 D2 : LatticeData d ℝ}
    (hD1 : L1.data = some D1) (hD2 : L2.data = some D2) {lo : Fin d → ℤ} {size1 size2 : Fin d → ℕ}
    (hw1 : WholeCells L.struct D1 lo size1) (hw2 : WholeCells L.struct D2 lo size2) {ax : Fin d}
    (hsize : ∀ k, k ≠ ax → size1 k = size2 k) (h3 : 3 ≤ size1 ax ∨ 3 ≤ size2 ax) (side : Bool) :
    ∃ L' E A w, L1.append env L2 ax.val side none false = (L', .ok ()) ∧ L'.world = L.world ∧
      L'.primitive = some a1.primitive ∧ CellData L.struct r w E ∧
      IsTiling env L' r N A E (joinLo lo size2 ax side) (joinSize size1 size2 ax) := by
  obtain ⟨hworld1, hp1, A, table, hT1⟩ := exists_isTiled hd hr h hst ha1.1 ha1.2.1 ha1.2.2 hok1 hD1 hw1
  obtain ⟨hworld2, -, A2, table2, hT2⟩ := exists_isTiled hd hr h hst ha2.1 ha2.2.1 ha2.2.2 hok2 hD2 hw2
  have hS1 : L1.struct = L.struct := congrArg World.struct hworld1
  have hS2 : L2.struct = L.struct := congrArg World.struct hworld2
  obtain ⟨width1, c1, -⟩ := hT1.cellData hd
  obtain ⟨width2, c2, hinf⟩ := hT2.cellData hd
  obtain ⟨k, R, hq⟩ := computeNeighbors_params hT1.analysis hT1.comp
  rw [hS2, ← hS1] at c2
  obtain ⟨L', E, e1, e2, e3, e4, e7, e5, e6⟩ := cells_join hd env hD1 hT1.analysis hT1.reach hT1.near
    (fun α x hx => (hst α x hx).1) hq hround c1 c2 hinf (ax := ax) (side := side)
    (by rw [hp1, hS1]; exact hprim) (by rw [hS1]; exact hw1) (by rw [hS1]; exact hw2) hsize h3
  have hS' : L'.struct = L1.struct := congrArg World.struct e3
  rw [← hS'] at e5 e6
  refine ⟨L', E, A, _, ?_, e3.trans hworld1, e4.trans hp1, by rw [← hS1, ← hS']; exact e5, ?_⟩
  · unfold Lattice.append
    rw [hD2]
    exact e1
  · exact e5.tiling (by rw [e3]; exact hT1.reach) (by rw [e3]; exact hT1.near) hst
      (by rw [hS']; exact hT1.analysis) ⟨_, _, hq⟩ e2 e7 e6

/-- C68 for structures in any dimension whose connections are those between nearest sites at most one
cell away (`NearestOnly`, `NearSteps`): two built blocks of whole cells with the same cross section,
one of them with at least three cells along the axis, appended on either side, make the block of all
these cells: every pair at the distance `r` is a link.  The distance must not be rounded down when it
is stored (`C68_rounded_fails`). -/
theorem C68_cells_partial (hd : 0 < d) {env : Env ℝ} {L L1 L2 : Lattice d ℝ}
    (hr : Reachable env L.world) {r : ℝ} {N : ℕ → Set (Idx d)} (h : NearestOnly L.world r N)
    (hst : NearSteps N) (hround : r ≤ npRound 6 r) {a1 a2 : BuildArgs d ℝ}
    (ha1 : a1.minNeighbors = none ∧ a1.periodic = none ∧ a1.bits = none)
    (ha2 : a2.minNeighbors = none ∧ a2.periodic = none ∧ a2.bits = none)
    (hok1 : L.build env a1 = (L1, .ok ())) (hok2 : L.build env a2 = (L2, .ok ()))
    (hprim : a1.primitive = true ∨ Orthogonal L.struct.basis) {D1 D2 : LatticeData d ℝ}
    (hD1 : L1.data = some D1) (hD2 : L2.data = some D2) {lo : Fin d → ℤ} {size1 size2 : Fin d → ℕ}
    (hw1 : WholeCells L.struct D1 lo size1) (hw2 : WholeCells L.struct D2 lo size2) {ax : Fin d}
    (hsize : ∀ k, k ≠ ax → size1 k = size2 k) (h3 : 3 ≤ size1 ax ∨ 3 ≤ size2 ax) (side : Bool) :
    ∃ L' E, L1.append env L2 ax.val side none false = (L', .ok ()) ∧ L'.world = L.world ∧
      IsBlock L.struct r (joinLo lo size2 ax side) (joinSize size1 size2 ax) L' E := by
  obtain ⟨L', E, A, w, e1, e2, -, e4, e5⟩ := append_tiling hd hr h hst hround ha1 ha2 hok1 hok2 hprim
    hD1 hD2 hw1 hw2 hsize h3 side
  have hS : L'.struct = L.struct := congrArg World.struct e2
  exact ⟨L', E, e1, e2, e4.block e5.data (by rw [← hS]; exact e5.whole)⟩

/-- A lattice of whole cells built directly is the block of these cells, so the lattice of
`C68_cells_partial` has the sites and the neighbours of the direct build (`IsBlock.same`). -/
theorem C68_block_direct (hd : 0 < d) {env : Env ℝ} {L M : Lattice d ℝ}
    (hr : Reachable env L.world) {r : ℝ} {N : ℕ → Set (Idx d)} (h : NearestOnly L.world r N)
    (hst : NearSteps N) {a : BuildArgs d ℝ}
    (ha : a.minNeighbors = none ∧ a.periodic = none ∧ a.bits = none)
    (hok : L.build env a = (M, .ok ())) {D : LatticeData d ℝ} (hD : M.data = some D)
    {lo : Fin d → ℤ} {size : Fin d → ℕ} (hw : WholeCells L.struct D lo size) :
    IsBlock L.struct r lo size M D ∧
      ∀ L' E, IsBlock L.struct r lo size L' E → SameNeighbors L' E M D := by
  obtain ⟨hworld, -, A, table, hT⟩ := exists_isTiled hd hr h hst ha.1 ha.2.1 ha.2.2 hok hD hw
  have hS : M.struct = L.struct := congrArg World.struct hworld
  obtain ⟨width, c, -⟩ := hT.cellData hd
  rw [hS] at c
  have hb := c.block hD hw
  exact ⟨hb, fun L' E hE => hE.same hb⟩

/-- The lattice of `C68_cells_repeat_partial`. -/
theorem repeat_tiling (hd : 0 < d) {env : Env ℝ} {L L1 : Lattice d ℝ}
    (hr : Reachable env L.world) {r : ℝ} {N : ℕ → Set (Idx d)} (h : NearestOnly L.world r N)
    (hst : NearSteps N) (hround : r ≤ npRound 6 r) {a : BuildArgs d ℝ}
    (ha : a.minNeighbors = none ∧ a.periodic = none ∧ a.bits = none)
    (hok : L.build env a = (L1, .ok ()))
    (hprim : a.primitive = true ∨ Orthogonal L.struct.basis) {D : LatticeData d ℝ}
    (hD : L1.data = some D) {lo : Fin d → ℤ} {size : Fin d → ℕ}
    (hw : WholeCells L.struct D lo size) {ax : Fin d} (h3 : 3 ≤ size ax) (num : ℕ) :
    ∃ L' E A w, L1.repeat env num ax.val true none false = (L', .ok ()) ∧ L'.world = L.world ∧
      L'.primitive = some a.primitive ∧ CellData L.struct r w E ∧
      IsTiling env L' r N A E lo (Function.update size ax ((num + 1) * size ax)) := by
  obtain ⟨hworld, hp, A, table, hT⟩ := exists_isTiled hd hr h hst ha.1 ha.2.1 ha.2.2 hok hD hw
  have hS : L1.struct = L.struct := congrArg World.struct hworld
  obtain ⟨width, c, hinf⟩ := hT.cellData hd
  obtain ⟨k, R, hq⟩ := computeNeighbors_params hT.analysis hT.comp
  rw [hS] at c
  have hA := hT.analysis
  rw [hS] at hA
  have key : ∀ (num n : ℕ) (M : Lattice d ℝ) (E : LatticeData d ℝ), M.data = some E →
      M.world = L.world → M.primitive = some a.primitive → M.shape ≠ none →
      CellData L.struct r width E →
      WholeCells L.struct E lo (Function.update size ax n) →
      ∃ L' F, repeatLoop env D ax.val true none false num D.neighbors M = (L', .ok ()) ∧
        L'.data = some F ∧ L'.world = L.world ∧ L'.primitive = some a.primitive ∧
        L'.shape ≠ none ∧ CellData L.struct r width F ∧
        WholeCells L.struct F lo (Function.update size ax (n + num * size ax)) := by
    intro num
    induction num with
    | zero =>
      intro n M E g1 g2 g3 g6 g4 g5
      exact ⟨M, E, rfl, g1, g2, g3, g6, g4, by simpa using g5⟩
    | succ num ih =>
      intro n M E g1 g2 g3 g6 g4 g5
      have hSM : M.struct = L.struct := congrArg World.struct g2
      obtain ⟨L', F, e1, e2, e3, e4, e7, e5, e6⟩ := cells_join hd env (L := M) (D := E) (D2 := D) g1
        (A := A) (by rw [hSM]; exact hA) (by rw [g2]; exact hr) (by rw [g2]; exact h)
        (fun α x hx => (hst α x hx).1) hq hround (by rw [hSM]; exact g4) (by rw [hSM]; exact c) hinf
        (ax := ax) (side := true) (by rw [g3, hSM]; exact hprim) (lo := lo)
        (size1 := Function.update size ax n) (size2 := size) (by rw [hSM]; exact g5)
        (by rw [hSM]; exact hw) (fun k hk => Function.update_of_ne hk _ _) (Or.inr h3)
      rw [hSM] at e5 e6
      rw [max_self] at e5
      have hsz : joinSize (Function.update size ax n) size ax =
          Function.update size ax (n + size ax) := by
        unfold joinSize
        rw [Function.update_idem, Function.update_self]
      rw [hsz] at e6
      obtain ⟨L'', G, f1, f2, f3, f6, f7, f4, f5⟩ :=
        ih (n + size ax) L' F e2 (e3.trans g2) (e4.trans g3) e7 e5 e6
      refine ⟨L'', G, ?_, f2, f3, f6, f7, f4, ?_⟩
      · rw [repeatLoop, e1, set_cleared hT.set]
        exact f1
      · rw [show n + (num + 1) * size ax = n + size ax + num * size ax by ring]
        exact f5
  obtain ⟨L', F, e1, e2, e3, e6, e7, e4, e5⟩ := key num (size ax) L1 D hD hworld hp hT.shape c
    (by rw [Function.update_eq_self]; exact hw)
  have hS' : L'.struct = L.struct := congrArg World.struct e3
  refine ⟨L', F, A, _, ?_, e3, e6, e4, ?_⟩
  · unfold Lattice.repeat
    rw [hD]
    exact e1
  · rw [show size ax + num * size ax = (num + 1) * size ax by ring] at e5
    rw [← hS'] at e4 e5
    exact e4.tiling (by rw [e3]; exact hr) (by rw [e3]; exact h) hst (by rw [hS']; exact hA)
      ⟨_, _, hq⟩ e2 e7 e5

/-- C68 for `repeat` on the positive side: `num` copies of a built block of whole cells with at least
three cells along the axis make the block with `num + 1` times as many cells along the axis. -/
theorem C68_cells_repeat_partial (hd : 0 < d) {env : Env ℝ} {L L1 : Lattice d ℝ}
    (hr : Reachable env L.world) {r : ℝ} {N : ℕ → Set (Idx d)} (h : NearestOnly L.world r N)
    (hst : NearSteps N) (hround : r ≤ npRound 6 r) {a : BuildArgs d ℝ}
    (ha : a.minNeighbors = none ∧ a.periodic = none ∧ a.bits = none)
    (hok : L.build env a = (L1, .ok ()))
    (hprim : a.primitive = true ∨ Orthogonal L.struct.basis) {D : LatticeData d ℝ}
    (hD : L1.data = some D) {lo : Fin d → ℤ} {size : Fin d → ℕ}
    (hw : WholeCells L.struct D lo size) {ax : Fin d} (h3 : 3 ≤ size ax) (num : ℕ) :
    ∃ L' E, L1.repeat env num ax.val true none false = (L', .ok ()) ∧ L'.world = L.world ∧
      IsBlock L.struct r lo (Function.update size ax ((num + 1) * size ax)) L' E := by
  obtain ⟨L', E, A, w, e1, e2, -, e4, e5⟩ := repeat_tiling hd hr h hst hround ha hok hprim hD hw h3 num
  have hS : L'.struct = L.struct := congrArg World.struct e2
  exact ⟨L', E, e1, e2, e4.block e5.data (by rw [← hS]; exact e5.whole)⟩

/-- Without `hround`: if the distance is rounded down when it is stored, `append` makes no link at all
between the two blocks, for any two built blocks of whole cells. -/
theorem rounded_unlinked (hd : 0 < d) {env : Env ℝ} {L L1 L2 : Lattice d ℝ}
    (hr : Reachable env L.world) {r : ℝ} {N : ℕ → Set (Idx d)} (h : NearestOnly L.world r N)
    (hst : NearSteps N) (hround : npRound 6 r < r) {a1 a2 : BuildArgs d ℝ}
    (ha1 : a1.minNeighbors = none ∧ a1.periodic = none ∧ a1.bits = none)
    (ha2 : a2.minNeighbors = none ∧ a2.periodic = none ∧ a2.bits = none)
    (hok1 : L.build env a1 = (L1, .ok ())) (hok2 : L.build env a2 = (L2, .ok ()))
    (hprim : a1.primitive = true ∨ Orthogonal L.struct.basis) {D1 D2 : LatticeData d ℝ}
    (hD1 : L1.data = some D1) (hD2 : L2.data = some D2) {lo : Fin d → ℤ} {size1 size2 : Fin d → ℕ}
    (hw1 : WholeCells L.struct D1 lo size1) (hw2 : WholeCells L.struct D2 lo size2) (ax : Fin d)
    (side : Bool) :
    ∃ (L' : Lattice d ℝ) (E : LatticeData d ℝ) (n : Fin d → ℤ),
      L1.append env L2 ax.val side none false = (L', .ok ()) ∧ L'.data = some E ∧
      n = Pi.single ax (if side then (size1 ax : ℤ) else -(size2 ax : ℤ)) ∧
      E.indices = D1.indices ++ D2.indices.map (shiftIdx n) ∧
      List.Forall₂ (IsSitePos L.struct) E.indices E.positions ∧
      (∀ i < D1.numSites, ∃ l, L'.neighbors i none false = .ok l ∧ ∀ j ∈ l, j < D1.numSites) ∧
      ∀ i, D1.numSites ≤ i → i < D1.numSites + D2.numSites → ∃ l,
        L'.neighbors i none false = .ok l ∧ ∀ j ∈ l, D1.numSites ≤ j := by
  obtain ⟨hworld1, hp1, A, table, hT1⟩ := exists_isTiled hd hr h hst ha1.1 ha1.2.1 ha1.2.2 hok1 hD1 hw1
  obtain ⟨hworld2, -, A2, table2, hT2⟩ := exists_isTiled hd hr h hst ha2.1 ha2.2.1 ha2.2.2 hok2 hD2 hw2
  have hS1 : L1.struct = L.struct := congrArg World.struct hworld1
  have hS2 : L2.struct = L.struct := congrArg World.struct hworld2
  obtain ⟨width1, c1, -⟩ := hT1.cellData hd
  obtain ⟨width2, c2, hinf⟩ := hT2.cellData hd
  obtain ⟨k, R, hq⟩ := computeNeighbors_params hT1.analysis hT1.comp
  rw [hS2, ← hS1] at c2
  obtain ⟨-, hR2⟩ := hT1.near.radius hd hT1.reach hT1.analysis hq
  have hne1 : D1.indices ≠ [] := List.length_pos_iff_ne_nil.1 c1.ne
  have hne2 : D2.indices ≠ [] := List.length_pos_iff_ne_nil.1 c2.ne
  set v : Fin d → ℤ := Pi.single ax (if side then (size1 ax : ℤ) else (size2 ax : ℤ)) with hv
  have hvec : periodicVector L1.struct.basis (if side then D1.indices else D2.indices) [ax.val]
      (L1.primitive.getD false) = .ok v := by
    rw [hS1, hp1]
    cases side
    · exact whole_period hw2 hne2 hprim ax
    · exact whole_period hw1 hne1 hprim ax
  obtain ⟨L', E, e1, e2, e3, -, -, e6, e7, e8, -, e10, e11⟩ :=
    cells_interface env hD1 hT1.analysis hq c1 c2 hinf (ax := ax.val) (side := side) hvec
  set n : Fin d → ℤ := if side then v else -v with hn
  have hns : n = Pi.single ax (if side then (size1 ax : ℤ) else -(size2 ax : ℤ)) := by
    rw [hn, hv]
    cases side
    · simp [Pi.single_neg]
    · rfl
  have hdisj := whole_disjoint hw1 hw2 (ax := ax) (side := side) (n := n) (by rw [hns, Pi.single_eq_same])
  have hJP := joint_sites c1 c2 n
  have hnd := joint_nodup c1.nodup c2.nodup hdisj
  set Q := D2.positions.map (L1.struct.basis.translate n) with hQ
  have hl1 : D1.positions.length = D1.numSites := c1.rect.positions
  have hl2 : Q.length = D2.numSites := by rw [hQ, List.length_map, c2.rect.positions]
  have hvals : ∀ x ∈ D1.distTable.flatten ++ D2.distTable.flatten,
      x = ⊤ ∨ x = ((npRound 6 r : ℝ) : WithTop ℝ) := by
    intro x hx
    rcases List.mem_append.1 hx with hx | hx
    · exact c1.mem_table hx
    · exact c2.mem_table hx
  have hacross : ∀ (i j : ℕ) p q, D1.positions[i]? = some p → Q[j]? = some q →
      distance p q = r ∨ R < distance p q := by
    intro i j p q hp hq
    have hi := (List.getElem?_eq_some_iff.1 hp).1
    obtain ⟨a, ha, hap⟩ := sites_get hJP (i := i) (p := p) (by
      rw [List.getElem?_append_left hi, hp])
    obtain ⟨b, hb, hbq⟩ := sites_get hJP (i := D1.positions.length + j) (p := q) (by
      rw [List.getElem?_append_right (by omega), Nat.add_sub_cancel_left, hq])
    have hab : a ≠ b := by
      rintro rfl
      have := (List.getElem?_inj (List.getElem?_eq_some_iff.1 ha).1 hnd).1 (ha.trans hb.symm)
      omega
    obtain ⟨α, β, -, -, hc⟩ := hT1.near.sites hap hbq hab
    rw [distance_comm]
    rcases hc with ⟨hc, -⟩ | hc
    · exact Or.inl hc
    · exact Or.inr (hR2.trans hc)
  have hgetD : ∀ {P : List (Vec d ℝ)} {j : ℕ}, j < P.length → P[j]? = some (P.getD j 0) := by
    intro P j hj
    rw [List.getD_eq_getElem?_getD, List.getElem?_eq_getElem hj]
    rfl
  have hil : E.numSites = D1.numSites + D2.numSites := by
    unfold LatticeData.numSites
    rw [e6, List.length_append, List.length_map]
  have hrect : E.Rect (max width1 width2) := e8.rect (by
    rw [e7, List.length_append, hl1, hl2, hil]) hil
  have hnb : ∀ i < D1.numSites + D2.numSites,
      L'.neighbors i none false = .ok ((E.linksOf i).map Prod.fst) := by
    intro i hi
    obtain ⟨row, hr, -⟩ := hrect.getElem?_entries (by rw [hil]; exact hi)
    unfold Lattice.neighbors
    rw [e2]
    exact getNeighbors_linksOf hrect.cols hr
  refine ⟨L', E, n, ?_, e2, hns, e6, ?_, ?_, ?_⟩
  · unfold Lattice.append
    rw [hD2]
    exact e1
  · rw [e6, e7, ← hS1]
    exact hJP
  · intro i hi
    refine ⟨_, hnb i (by omega), ?_⟩
    obtain ⟨s, s1, -, s3⟩ := e10 i hi
    have hp := hgetD (P := D1.positions) (j := i) (by rw [hl1]; exact hi)
    rw [linksWithin_rounded hvals hround (fun j q hjq => hacross i j _ q hp hjq)] at s1
    obtain rfl := List.subperm_nil.1 s1
    intro j hj
    obtain ⟨⟨x, y⟩, hx, rfl⟩ := List.mem_map.1 hj
    rw [List.append_nil] at s3
    have := (pairIn_lt ((c1.links i hi x y).1 (s3.mem_iff.1 hx)).2).2
    rwa [hl1] at this
  · intro i hi1 hi2
    obtain ⟨m, rfl⟩ : ∃ m, i = D1.numSites + m := ⟨i - D1.numSites, by omega⟩
    refine ⟨_, hnb _ hi2, ?_⟩
    have hq0 := hgetD (P := D2.positions) (j := m) (by rw [c2.rect.positions]; omega)
    obtain ⟨s, s1, -, s3⟩ := e11 m _ hq0
    have hq' : Q[m]? = some (L1.struct.basis.translate n (D2.positions.getD m 0)) := by
      rw [hQ, List.getElem?_map, hq0]; rfl
    rw [linksWithin_rounded hvals hround (fun j p hjp => by
      rw [distance_comm]; exact hacross j m p _ hjp hq')] at s1
    obtain rfl := List.subperm_nil.1 s1
    rw [List.append_nil] at s3
    intro j hj
    obtain ⟨⟨x, y⟩, hx, rfl⟩ := List.mem_map.1 hj
    obtain ⟨z, -, he⟩ := List.mem_map.1 (s3.mem_iff.1 hx)
    cases he
    exact Nat.le_add_left _ _

end Lattice

end Lattpy
