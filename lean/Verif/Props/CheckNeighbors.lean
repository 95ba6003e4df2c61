import Verif.Lemmas.LatticeHistory
import Verif.Lemmas.BuiltChain
import Verif.Props.LatticeDimer

/-!
# C62: check_neighbors
-/

set_option autoImplicit false
set_option linter.unusedSectionVars false

namespace Lattpy

open Structure World

variable {d : ℕ}

/-- The loop returns the first level whose neighbours contain the site. -/
theorem checkLoop_spec {K : Type*} (L : Lattice d K) (i j : ℕ) (f : ℕ → List ℕ)
    (hf : ∀ x, L.neighbors i (some x) false = .ok (f x)) :
    ∀ xs : List ℕ, L.checkLoop i j xs = .ok (xs.find? fun x => decide (j ∈ f x))
  | [] => rfl
  | x :: xs => by
    unfold Lattice.checkLoop
    rw [hf]
    dsimp only
    by_cases h : j ∈ f x
    · rw [if_pos h, List.find?_cons_of_pos (by simpa using h)]
    · rw [if_neg h, List.find?_cons_of_neg (by simpa using h), checkLoop_spec L i j f hf xs]

theorem checkNeighbors_one {K : Type*} {L : Lattice d K} {c : ConnMatrix}
    (hc : L.struct.conn = some c) (hmax : c.max? = .ok 1) {i j : ℕ} {l : List ℕ}
    (hl : L.neighbors i (some 0) false = .ok l) (hj : j ∉ l) : L.checkNeighbors i j = .ok none := by
  unfold Lattice.checkNeighbors
  rw [hc]
  dsimp only
  rw [hmax]
  dsimp only [List.range, List.range.loop]
  unfold Lattice.checkLoop
  rw [hl]
  dsimp only
  rw [if_neg hj]
  rfl

theorem find?_range {n x : ℕ} {p : ℕ → Bool} :
    (List.range n).find? p = some x ↔ x < n ∧ p x = true ∧ ∀ y < x, p y = false := by
  rw [List.find?_range_eq_some]
  simp only [List.mem_range, Bool.not_eq_eq_eq_not, Bool.not_true]
  tauto

/-- `check_neighbors(i, j)` for consistent tables: it is the first level, below the largest number
of connections, whose neighbours of `i` contain `j`.  If it is a level then `j` is a neighbour of
`i`.  If there are not more levels than that number, it is `None` exactly if `j` is not a neighbour
of `i`. -/
theorem C62_check_neighbors_partial {L : Lattice d ℝ} {D : LatticeData d ℝ} (hD : L.data = some D)
    {width : ℕ} (hR : D.Rect width) (hV : D.Valid) {c : ConnMatrix} (hc : L.struct.conn = some c)
    {n : ℕ} (hn : c.max? = .ok n) {i j : ℕ} (hi : i < D.numSites) (hj : j < D.numSites) :
    ∃ r l, L.checkNeighbors i j = .ok r ∧ L.neighbors i none false = .ok l ∧
      (∀ x, r = some x ↔ x < n ∧ (∃ lx, L.neighbors i (some x) false = .ok lx ∧ j ∈ lx) ∧
        ∀ y < x, ∃ ly, L.neighbors i (some y) false = .ok ly ∧ j ∉ ly) ∧
      (r ≠ none → j ∈ l) ∧
      (D.invalidDistidx ≤ n → (r = none ↔ j ∉ l)) := by
  obtain ⟨row, hrow, hrm, hget⟩ := hR.getNeighbors hi
  have hnb : ∀ dist, L.neighbors i dist false =
      .ok ((row.filter (D.sel i dist none false)).map Entry.nbr) := by
    intro dist
    unfold Lattice.neighbors
    rw [hD]
    exact hget dist none false
  have hmem : ∀ dist, j ∈ (row.filter (D.sel i dist none false)).map Entry.nbr ↔
      ∃ e ∈ row, LatticeData.levelSel D.invalidDistidx dist e.level = true ∧ e.nbr = j := by
    intro dist
    simp only [List.mem_map, List.mem_filter, LatticeData.sel, Bool.not_false, Bool.true_or,
      Bool.and_true, and_assoc]
  have hcheck : L.checkNeighbors i j = .ok ((List.range n).find? fun x =>
      decide (j ∈ (row.filter (D.sel i (some x) none false)).map Entry.nbr)) := by
    unfold Lattice.checkNeighbors
    rw [hc]
    dsimp only
    rw [hn]
    exact checkLoop_spec L i j _ (fun x => hnb (some x)) _
  have hval : ∀ e ∈ row, e.nbr = j → e.level < D.invalidDistidx := by
    intro e he hej
    rcases hV.entry row hrm e he with h | h
    · exact h.1
    · omega
  refine ⟨_, _, hcheck, hnb none, ?_, ?_, ?_⟩
  · intro x
    rw [find?_range, decide_eq_true_eq]
    constructor
    · rintro ⟨h1, h2, h3⟩
      exact ⟨h1, ⟨_, hnb _, h2⟩, fun y hy => ⟨_, hnb _, by simpa using h3 y hy⟩⟩
    · rintro ⟨h1, ⟨lx, h2, h2'⟩, h3⟩
      rw [hnb] at h2
      cases h2
      refine ⟨h1, h2', fun y hy => ?_⟩
      obtain ⟨ly, h4, h4'⟩ := h3 y hy
      rw [hnb] at h4
      cases h4
      simpa using h4'
  · intro hr
    obtain ⟨x, hx⟩ := Option.ne_none_iff_exists'.1 hr
    rw [find?_range, decide_eq_true_eq, hmem] at hx
    obtain ⟨-, ⟨e, he, -, hej⟩, -⟩ := hx
    rw [hmem]
    exact ⟨e, he, by simpa using hval e he hej, hej⟩
  · intro hle
    rw [List.find?_eq_none]
    simp only [List.mem_range, decide_eq_true_eq]
    rw [hmem]
    constructor
    · rintro h ⟨e, he, -, hej⟩
      have := hval e he hej
      refine h e.level (by omega) ((hmem _).2 ⟨e, he, by simp, hej⟩)
    · intro h x _ hx
      obtain ⟨e, he, -, hej⟩ := (hmem _).1 hx
      exact h ⟨e, he, by simpa using hval e he hej, hej⟩

/-- The number of levels of a built lattice does not exceed the number of configured distances. -/
theorem invalidDistidx_le (hd : 0 < d) {env : Env ℝ} {L L' : Lattice d ℝ}
    (h : Reachable env L.world) (hS : SitesDistinct L.struct) {a : BuildArgs d ℝ}
    (hm : a.minNeighbors = none) (hp : a.periodic = none) (hb : a.bits = none)
    (hok : L.build env a = (L', .ok ())) {D : LatticeData d ℝ} (hD : L'.data = some D)
    (htop : ⊤ ∈ D.distvals) (h256 : D.distvals.length ≤ 256) {A : Analysis d ℝ}
    (hA : L.struct.analysis = some A) :
    (D.invalidDistidx : ℕ∞) ≤ {x : ℝ | ∃ a b, Configured A a b x}.encard := by
  obtain ⟨A', D', table, hA', hD', -, hsites, hnd, hcomp, hset⟩ := build_table hd h hm hp hb hok
  rw [hA] at hA'
  rw [hD] at hD'
  cases hA'
  cases hD'
  have hpn := positions_nodup hS hsites hnd
  obtain ⟨-, hsound, -⟩ := C44_neighbors_partial hd h hA D.indices D.positions hsites.length_eq hpn
    (alpha_range hd h hsites) hcomp
  have hmd := fun x => mem_distvals hset x
  obtain ⟨-, -, -, -, -, hlev⟩ := set_cols hset htop h256
  have hlt : D.invalidDistidx < D.distvals.length := by
    obtain ⟨row, hrow, e, he, het⟩ := (hmd ⊤).1 htop
    obtain ⟨h1, h2, h3⟩ := hlev row hrow e he
    have h4 : ¬ searchsorted D.distvals e.2 < D.invalidDistidx := fun h => h3.1 h het
    have := (List.getElem?_eq_some_iff.1 h1).1
    omega
  have hnd : D.distvals.Nodup := by
    rcases set_cases D.indices D.positions (table.map fun r => r.map Prod.fst)
      (table.map fun r => r.map Prod.snd) with ⟨-, h⟩ | ⟨-, D', h, -, -, -, h8, -⟩
    · rw [hset] at h; cases h
    · rw [hset] at h
      cases h
      rw [h8]
      exact (npUnique_pairwise_lt _).imp fun h => ne_of_lt h
  have hsub : {x : ℝ | (x : WithTop ℝ) ∈ D.distvals} ⊆ {x : ℝ | ∃ a b, Configured A a b x} := by
    intro x hx
    obtain ⟨row, hrow, ⟨j, y⟩, he, hxe⟩ := (hmd x).1 hx
    obtain ⟨i, hi⟩ := List.mem_iff_getElem?.1 hrow
    dsimp only at hxe
    subst hxe
    obtain ⟨-, -, a, b, -, -, -, -, -, -, hc⟩ := hsound i j x ⟨row, hi, he⟩
    exact ⟨_, _, hc⟩
  refine le_trans ?_ (Set.encard_le_encard hsub)
  have himg : ((fun x : ℝ => (x : WithTop ℝ)) '' {x : ℝ | (x : WithTop ℝ) ∈ D.distvals}) =
      ↑(D.distvals.toFinset.erase ⊤) := by
    ext y
    simp only [Set.mem_image, Set.mem_ofPred_eq, Finset.coe_erase, Set.mem_sdiff, Finset.mem_coe,
      List.mem_toFinset, Set.mem_singleton_iff]
    constructor
    · rintro ⟨x, hx, rfl⟩
      exact ⟨hx, WithTop.coe_ne_top⟩
    · rintro ⟨h1, h2⟩
      obtain ⟨x, rfl⟩ := WithTop.ne_top_iff_exists.1 h2
      exact ⟨x, h1, rfl⟩
  have hinj : Function.Injective fun x : ℝ => (x : WithTop ℝ) := WithTop.coe_injective
  rw [← hinj.encard_image, himg, Set.encard_coe_eq_coe_finsetCard,
    Finset.card_erase_of_mem (List.mem_toFinset.2 htop), List.toFinset_card_of_nodup hnd]
  exact_mod_cast (by omega : D.invalidDistidx ≤ D.distvals.length - 1)

/-- For a built lattice with padded tables whose number of different configured distances does not
exceed the largest number of connections, `check_neighbors(i, j)` is the level of `j` in the
neighbours of `i`, and `None` exactly if `j` is not a neighbour of `i`. -/
theorem C62_few_distances_partial (hd : 0 < d) {env : Env ℝ} {L L' : Lattice d ℝ}
    (h : Reachable env L.world) (hS : SitesDistinct L.struct) {a : BuildArgs d ℝ}
    (hm : a.minNeighbors = none) (hp : a.periodic = none) (hb : a.bits = none)
    (hok : L.build env a = (L', .ok ())) {D : LatticeData d ℝ} (hD : L'.data = some D)
    (htop : ⊤ ∈ D.distvals) (h256 : D.distvals.length ≤ 256) {A : Analysis d ℝ}
    (hA : L.struct.analysis = some A) {c : ConnMatrix} (hc : L.struct.conn = some c) {n : ℕ}
    (hn : c.max? = .ok n) (hfew : {x : ℝ | ∃ a b, Configured A a b x}.encard ≤ n) {i j : ℕ}
    (hi : i < D.numSites) (hj : j < D.numSites) :
    ∃ r l, L'.checkNeighbors i j = .ok r ∧ L'.neighbors i none false = .ok l ∧
      (r = none ↔ j ∉ l) ∧ ∀ x, r = some x ↔
        ∃ (y : ℝ) (lx : List ℕ), D.distvals[x]? = some (y : WithTop ℝ) ∧ SiteDistance D i j y ∧
          L'.neighbors i (some x) false = .ok lx ∧ j ∈ lx := by
  obtain ⟨D', hD', hrect⟩ := build_rect hd h hS hm hp hb hok
  rw [hD] at hD'
  cases hD'
  obtain ⟨width, hR, hV⟩ := hrect htop h256
  obtain ⟨A', D', hA', hD', -, -, hnbrs⟩ := C59_neighbors_partial hd h hS hm hp hb hok
  rw [hD] at hD'
  cases hD'
  obtain ⟨A'', D', table, hA'', hD', hw, hsites, hnd, hcomp, hset⟩ := build_table hd h hm hp hb hok
  rw [hD] at hD'
  cases hD'
  have hle : D.invalidDistidx ≤ n := by
    have := (invalidDistidx_le hd h hS hm hp hb hok hD htop h256 hA).trans hfew
    exact_mod_cast this
  have hc' : L'.struct.conn = some c := by
    have : L'.struct = L.struct := congrArg World.struct hw
    rw [this, hc]
  obtain ⟨r, l, h1, h2, h3, h4, h5⟩ := C62_check_neighbors_partial hD hR hV hc' hn hi hj
  refine ⟨r, l, h1, h2, h5 hle, fun x => ?_⟩
  obtain ⟨l', g1, -, -, -, g2⟩ := hnbrs htop h256 i hi
  rw [h2] at g1
  cases g1
  obtain ⟨-, -, -, hinv, -, hpw, -⟩ := set_table D.indices D.positions table ⊤
    ((mem_distvals hset ⊤).1 htop) (fun _ _ _ _ => le_top) hset h256
  obtain ⟨hinvlt, hinv⟩ := List.getElem?_eq_some_iff.1 hinv
  have hlt : ∀ u v (hu : u < D.distvals.length) (hv : v < D.distvals.length), u < v →
      D.distvals[u] < D.distvals[v] := fun u v hu hv huv => List.pairwise_iff_getElem.1 hpw u v hu hv huv
  have hfin : ∀ u < D.invalidDistidx, ∃ y : ℝ, D.distvals[u]? = some (y : WithTop ℝ) := by
    intro u hu
    have hul : u < D.distvals.length := hu.trans hinvlt
    have := hlt u _ hul hinvlt hu
    rw [hinv] at this
    obtain ⟨y, hy⟩ := WithTop.ne_top_iff_exists.1 this.ne
    exact ⟨y, by rw [List.getElem?_eq_getElem hul, hy]⟩
  -- a level occurring in the table of `i` is the level of a distance
  have hlevel : ∀ x lx, L'.neighbors i (some x) false = .ok lx → j ∈ lx → x < D.invalidDistidx := by
    intro x lx hlx hjx
    obtain ⟨row, hrow, hrm, hget⟩ := hR.getNeighbors hi
    unfold Lattice.neighbors at hlx
    rw [hD] at hlx
    dsimp only at hlx
    rw [hget] at hlx
    cases hlx
    obtain ⟨e, he, hej⟩ := List.mem_map.1 hjx
    obtain ⟨he1, he2⟩ := List.mem_filter.1 he
    simp only [LatticeData.sel, LatticeData.levelSel_some, Bool.not_false, Bool.true_or,
      Bool.and_true, decide_eq_true_eq] at he2
    rcases hV.entry row hrm e he1 with h | h
    · omega
    · omega
  constructor
  · intro hr
    obtain ⟨-, ⟨lx, h6, h7⟩, -⟩ := (h3 x).1 hr
    obtain ⟨y, h8⟩ := hfin x (hlevel x lx h6 h7)
    obtain ⟨ln, e1, -, e2⟩ := g2 x y h8
    rw [h6] at e1
    cases e1
    exact ⟨y, lx, h8, ((e2 j).1 h7).2, h6, h7⟩
  · rintro ⟨y, lx, e1, e2, e3, e4⟩
    have hx := hlevel x lx e3 e4
    refine (h3 x).2 ⟨by omega, ⟨lx, e3, e4⟩, fun u hu => ?_⟩
    obtain ⟨z, hz⟩ := hfin u (hu.trans hx)
    obtain ⟨lu, f1, -, f2⟩ := g2 u z hz
    refine ⟨lu, f1, fun hju => ?_⟩
    obtain ⟨-, p, q, k1, k2, rfl⟩ := (f2 j).1 hju
    obtain ⟨p', q', k1', k2', rfl⟩ := e2
    rw [k1] at k1'
    rw [k2] at k2'
    cases k1'
    cases k2'
    obtain ⟨hul, hz⟩ := List.getElem?_eq_some_iff.1 hz
    obtain ⟨hxl, e1⟩ := List.getElem?_eq_some_iff.1 e1
    have := hlt u x hul hxl hu
    rw [hz, e1] at this
    exact lt_irrefl _ this

/-- For built lattices with one atom in the unit cell (and padded tables, analysis up to date)
`check_neighbors(i, j)` is the level of `j` in the neighbours of `i`, and `None` exactly if `j` is not
a neighbour of `i`. -/
theorem C62_one_atom_partial (hd : 0 < d) {env : Env ℝ} {w : World d ℝ} (h : Reachable env w)
    {L L' : Lattice d ℝ} (hw : L.world = (w.call env .analyze).1)
    (han : w.struct.analyze env = (L.struct, .ok ())) (hS : SitesDistinct L.struct)
    (hone : L.struct.numBase = 1) {a : BuildArgs d ℝ} (hm : a.minNeighbors = none) (hp : a.periodic = none) (hb : a.bits = none)
    (hok : L.build env a = (L', .ok ())) {D : LatticeData d ℝ} (hD : L'.data = some D)
    (htop : ⊤ ∈ D.distvals) (h256 : D.distvals.length ≤ 256) {i j : ℕ}
    (hi : i < D.numSites) (hj : j < D.numSites) :
    ∃ r l, L'.checkNeighbors i j = .ok r ∧ L'.neighbors i none false = .ok l ∧
      (r = none ↔ j ∉ l) ∧ ∀ x, r = some x ↔
        ∃ (y : ℝ) (lx : List ℕ), D.distvals[x]? = some (y : WithTop ℝ) ∧ SiteDistance D i j y ∧
          L'.neighbors i (some x) false = .ok lx ∧ j ∈ lx := by
  have hr : Reachable env L.world := by rw [hw]; exact h.call .analyze
  rcases analyze_cases hd env (h.good hd) with ⟨h1, -⟩ | ⟨c, -, -, h1⟩ |
    ⟨c, cells, m, A, h1, h2, h3, -, -, h5, h6⟩
  · rw [han] at h1; exact absurd (congrArg Prod.snd h1) (by simp)
  · rw [han] at h1; exact absurd (congrArg Prod.snd h1) (by simp)
  · rw [han] at h5
    have hL : L.struct = { w.struct with frozen := true, analysis := some A } :=
      congrArg Prod.fst h5
    have hA : L.struct.analysis = some A := by rw [hL]
    have hc : L.struct.conn = some c := by rw [hL]; exact h1
    have hI : IsAnalysis L.struct cells m c A := h6.congr (by rw [hL]) (by rw [hL]) (by rw [hL])
    refine C62_few_distances_partial hd hr hS hm hp hb hok hD htop h256 hA hc h3 ?_ hi hj
    have hsz : c.size = L.struct.numBase := ((hr.good hd).conn_size c hc).1
    rw [hone] at hsz
    obtain ⟨m', g1, -, g2, -⟩ := ConnMatrix.max?_ok h2
    rw [h3] at g1
    cases g1
    have hle := g2 0 (by omega) 0 (by omega)
    have hsub : {x : ℝ | ∃ a b, Configured A a b x} ⊆
        ↑((L.struct.levels cells 0 0).take (c.entry 0 0)).toFinset := by
      rintro x ⟨a, b, hx⟩
      obtain ⟨-, -, ha, hb, hx⟩ := hI.configured.1 hx
      rw [hone] at ha hb
      rw [show a.toNat = 0 by omega, show b.toNat = 0 by omega] at hx
      simpa using hx
    refine (Set.encard_le_encard hsub).trans ?_
    rw [Set.encard_coe_eq_coe_finsetCard]
    have h7 := List.toFinset_card_le ((L.struct.levels cells 0 0).take (c.entry 0 0))
    have h8 := List.length_take_le (c.entry 0 0) (L.struct.levels cells 0 0)
    exact_mod_cast (by omega :
      ((L.struct.levels cells 0 0).take (c.entry 0 0)).toFinset.card ≤ m)

/-- The chain with sites at 0, 1 and 3 and two neighbour shells meets the hypotheses of the three
theorems above; sites 1 and 2 are neighbours at level 1, sites 0 and 2 are none. -/
example (env : Env ℝ) : ∃ (w : World 1 ℝ) (L L' : Lattice 1 ℝ) (a : BuildArgs 1 ℝ)
    (D : LatticeData 1 ℝ), Reachable env w ∧ L.world = (w.call env .analyze).1 ∧
    w.struct.analyze env = (L.struct, .ok ()) ∧ SitesDistinct L.struct ∧ L.struct.numBase = 1 ∧
    a.minNeighbors = none ∧ a.periodic = none ∧ a.bits = none ∧ L.build env a = (L', .ok ()) ∧
    L'.data = some D ∧ ⊤ ∈ D.distvals ∧ D.distvals.length ≤ 256 ∧ D.numSites = 3 ∧
    L'.checkNeighbors 1 2 = .ok (some 1) ∧ L'.checkNeighbors 0 2 = .ok none := by
  obtain ⟨w, A, c, L, D, table, ⟨w0, hr0, hp0, hc0, hb0, hw0, han⟩, hr, hb, hp, hc, hcs, hc1, hA,
    hbuild, hw, hD, h1, h2, h3, hDi, hDp, hcomp, hset, htl, hlink, htop, h256, hconf, hraw⟩ :=
    exists_built_chain env (nb := 2) (by norm_num) (by norm_num) 3 (fun i => decide (i ≠ 2))
      (by decide)
  have hI : IsBuiltChain env 2 3 (fun i => decide (i ≠ 2)) w A L D table :=
    ⟨hr, hb, hp, ⟨c, hc, hcs, hc1⟩, hA, hbuild, hw, hD, h1, h2, h3, hDi,
      hDp, hcomp, hset, htl, hlink, htop, h256, hconf, hraw⟩
  have hcells : chainCells 3 (fun i => decide (i ≠ 2)) = [0, 1, 3] := by decide
  have hns : D.numSites = 3 := by rw [hI.numSites, hcells]; rfl
  have hone : w.struct.numBase = 1 := by
    have := (hr.good Nat.one_pos).positions_length
    rw [hp] at this
    exact this.symm
  have hspec : ∀ i < 3, ∀ j < 3, _ := fun i hi j hj => C62_one_atom_partial Nat.one_pos hr0
    (L := Lattice.ofWorld w) hw0 han hI.distinct hone (a := chainArgs 3 fun i => decide (i ≠ 2))
    rfl rfl rfl hbuild hD htop h256 (i := i) (j := j) (by omega) (by omega)
  have hpos : ∀ i : ℕ, D.positions[i]? =
      (([0, 1, 3] : List ℕ)[i]?).map fun (m : ℕ) (_ : Fin 1) => (m : ℝ) := by
    intro i
    rw [hDp, hcells, List.getElem?_map]
  -- the levels
  have hmem := fun x => hI.mem_distvals x
  rw [hcells] at hmem
  have hdv : D.distvals = [((1 : ℝ) : WithTop ℝ), ((2 : ℝ) : WithTop ℝ), ⊤] := by
    refine eq_of_sorted hI.sorted ?_ fun x => ?_
    · simp only [List.pairwise_cons, List.mem_cons, List.not_mem_nil, or_false, forall_eq_or_imp,
        forall_eq, false_imp_iff, implies_true, List.Pairwise.nil, and_true, WithTop.coe_lt_coe,
        WithTop.coe_lt_top]
      norm_num
    · simp only [List.mem_cons, List.not_mem_nil, or_false]
      cases x using WithTop.recTopCoe with
      | top => simp [htop]
      | coe x =>
        rw [hmem]
        simp only [WithTop.coe_inj, WithTop.coe_ne_top, or_false, List.mem_cons, List.not_mem_nil]
        constructor
        · rintro ⟨a, ha, b, hb', hab, hle, rfl⟩
          rcases ha with rfl | rfl | rfl <;> rcases hb' with rfl | rfl | rfl <;> norm_num at *
        · rintro (rfl | rfl)
          · exact ⟨0, by simp, 1, by simp, by norm_num, by norm_num, by norm_num⟩
          · exact ⟨1, by simp, 3, by simp, by norm_num, by norm_num, by norm_num⟩
  refine ⟨w0, Lattice.ofWorld w, L, _, D, hr0, hw0, han, hI.distinct, hone, rfl, rfl, rfl, hbuild, hD,
    htop, h256, hns, ?_, ?_⟩
  · obtain ⟨r, l, e1, e2, e3, e4⟩ := hspec 1 (by norm_num) 2 (by norm_num)
    obtain ⟨l', f1, f2, f3⟩ := hI.neighbors (i := 1) (by decide)
    obtain ⟨ln, g1, g2⟩ := f3 1 2 le_rfl (by norm_num) (by rw [hdv]; simp)
    rw [e1]
    refine congrArg Except.ok ((e4 1).2 ⟨2, ln, by rw [hdv]; rfl, ?_, g1, ?_⟩)
    · refine ⟨fun _ => 1, fun _ => 3, by rw [hpos]; simp, by rw [hpos]; simp, ?_⟩
      rw [distance_some, distance_one]
      have := npRound_natCast 2
      norm_num at this ⊢
      exact this.symm
    · rw [g2.mem_iff]
      decide
  · obtain ⟨r, l, e1, e2, e3, e4⟩ := hspec 0 (by norm_num) 2 (by norm_num)
    obtain ⟨l', f1, f2, -⟩ := hI.neighbors (i := 0) (by decide)
    rw [e2] at f1
    cases f1
    rw [e1, e3.2]
    rw [f2.mem_iff]
    decide

/-- C62 fails for the chain with lattice constant 10 and atoms at 0 and 3, nearest connections between
all atoms, with sites at 0, 3, 10, 13 and 20: `check_neighbors(0, 2)` is `None` although 2 is a
neighbour of 0 (at level 1): the largest number of connections is 1, but there are 2 distances. -/
theorem C62_two_distances_fails (env : Env ℝ) :
    ∃ (w : World 1 ℝ) (L : Lattice 1 ℝ) (D : LatticeData 1 ℝ), Reachable env w ∧
      w.struct.basis.vectors 0 0 = 10 ∧ w.struct.positions = [fun _ => 0, fun _ => 3] ∧
      (Lattice.ofWorld w).build env (dimerArgs 2 fun s => decide (s ≠ (2, 1))) = (L, .ok ()) ∧
      L.data = some D ∧
      D.positions = [fun _ => 0, fun _ => 3, fun _ => 10, fun _ => 13, fun _ => 20] ∧
      (∃ l, L.neighbors 0 none false = .ok l ∧ 2 ∈ l) ∧ L.checkNeighbors 0 2 = .ok none := by
  obtain ⟨w, A, h⟩ := exists_dimer env
  obtain ⟨table, width, hcomp, htl, hw, hrnd, hlink, hW⟩ := dimer_table h
    [(0, 0), (0, 1), (1, 0), (1, 1), (2, 0)] (by decide) (by decide) (by decide)
  have hbi := dimer_buildIndices h 2 fun s => decide (s ≠ (2, 1))
  have hs4 : ((List.range (2 + 1)).flatMap fun n => [(n, 0), (n, 1)]).filter
      (fun s => decide (s ≠ (2, 1))) = [(0, 0), (0, 1), (1, 0), (1, 1), (2, 0)] := by decide
  rw [hs4] at hbi
  have hmemrow : ∀ (i : ℕ) (row : List (ℕ × WithTop ℝ)), table[i]? = some row → ∀ j,
      j ∈ (row.filter isLink).map Prod.fst ↔ ∃ x, Linked table i j x := by
    intro i row hrow j
    rw [List.mem_map]
    constructor
    · rintro ⟨⟨j', y⟩, he, rfl⟩
      obtain ⟨he1, he2⟩ := List.mem_filter.1 he
      obtain ⟨x, rfl⟩ := WithTop.ne_top_iff_exists.1 (of_decide_eq_true he2)
      exact ⟨x, _, hrow, he1⟩
    · rintro ⟨x, row', hrow', he⟩
      rw [hrow] at hrow'
      cases hrow'
      exact ⟨_, List.mem_filter.2 ⟨he, by simp [isLink]⟩, rfl⟩
  have hl02 : Linked table 0 2 10 := by
    refine (hlink _ _ _).2 ⟨_, _, rfl, rfl, by decide, ?_, by decide⟩
    norm_num [dimerPos]
  have hl01 : Linked table 0 1 3 := by
    refine (hlink _ _ _).2 ⟨_, _, rfl, rfl, by decide, ?_, by decide⟩
    norm_num [dimerPos]
  have h4 : (4 : ℕ) < table.length := by rw [htl]; decide
  have h0 : (0 : ℕ) < table.length := by rw [htl]; decide
  -- the row of site 4 is padded
  have hrow4 := List.getElem?_eq_getElem h4
  have hlen4 : ((table[4]'h4).filter isLink).length ≤ 1 := by
    have hsub : ((table[4]'h4).filter isLink).map Prod.fst ⊆ [2] := by
      intro j hj
      obtain ⟨x, hx⟩ := (hmemrow 4 _ hrow4 j).1 hj
      obtain ⟨s, t, hs, ht, hij, -, hl⟩ := (hlink 4 j x).1 hx
      have hj5 : j < 5 := (List.getElem?_eq_some_iff.1 ht).1
      interval_cases j <;>
        simp only [List.getElem?_cons_zero, List.getElem?_cons_succ, Option.some_inj] at hs ht <;>
        subst hs <;> subst ht <;> revert hl hij <;> decide
    have := ((hrnd _ (List.getElem_mem h4)).subperm hsub).length_le
    simpa using this
  have hrow0 := List.getElem?_eq_getElem h0
  have hlen0 : 2 ≤ ((table[0]'h0).filter isLink).length := by
    have hsub : [1, 2] ⊆ ((table[0]'h0).filter isLink).map Prod.fst := by
      intro j hj
      rw [hmemrow 0 _ hrow0]
      simp only [List.mem_cons, List.not_mem_nil, or_false] at hj
      rcases hj with rfl | rfl
      · exact ⟨_, hl01⟩
      · exact ⟨_, hl02⟩
    have := ((show [1, 2].Nodup by decide).subperm hsub).length_le
    simpa using this
  have htop : ∃ row ∈ table, ∃ e ∈ row, e.2 = ⊤ := by
    by_contra hno
    push Not at hno
    have h1 : (table[4]'h4).filter isLink = table[4] := List.filter_eq_self.2 fun e he => by
      simpa [isLink] using hno _ (List.getElem_mem h4) e he
    have h2 := hw _ (List.getElem_mem h4)
    have h3 := hw _ (List.getElem_mem h0)
    have h5 := List.length_filter_le isLink (table[0]'h0)
    rw [h1] at hlen4
    omega
  obtain ⟨D, hset⟩ : ∃ D, LatticeData.set
      ([(0, 0), (0, 1), (1, 0), (1, 1), (2, 0)].map dimerIdx)
      ([(0, 0), (0, 1), (1, 0), (1, 1), (2, 0)].map dimerVec) (table.map fun r => r.map Prod.fst)
      (table.map fun r => r.map Prod.snd) = .ok D := by
    rcases set_cases ([(0, 0), (0, 1), (1, 0), (1, 1), (2, 0)].map dimerIdx)
        ([(0, 0), (0, 1), (1, 0), (1, 1), (2, 0)].map dimerVec) (table.map fun r => r.map Prod.fst)
        (table.map fun r => r.map Prod.snd) with ⟨hf, -⟩ | ⟨-, D, h1, -⟩
    · obtain ⟨row, hrow, e, he, -⟩ := htop
      have h3 := List.flatten_eq_nil_iff.1 hf _ (List.mem_map.2 ⟨row, hrow, rfl⟩)
      rw [List.map_eq_nil_iff] at h3
      rw [h3] at he
      cases he
    · exact ⟨D, h1⟩
  have hmd := fun x => mem_distvals hset x
  have hentry : ∀ x ∈ D.distvals, x = ((3 : ℝ) : WithTop ℝ) ∨ x = ((10 : ℝ) : WithTop ℝ) ∨ x = ⊤ := by
    intro x hx
    obtain ⟨row, hrow, ⟨j, y⟩, he, rfl⟩ := (hmd x).1 hx
    obtain ⟨i, hi⟩ := List.mem_iff_getElem?.1 hrow
    by_cases hy : y = ⊤
    · exact Or.inr (Or.inr hy)
    · obtain ⟨x, rfl⟩ := WithTop.ne_top_iff_exists.1 hy
      obtain ⟨s, t, -, -, -, rfl, hl⟩ := (hlink i j x).1 ⟨row, hi, he⟩
      unfold dimerLink at hl
      rw [hl]
      split_ifs
      · right; left; norm_num
      · left; norm_num
  have hnd : D.distvals.Pairwise (· < ·) := by
    rcases set_cases ([(0, 0), (0, 1), (1, 0), (1, 1), (2, 0)].map dimerIdx)
      ([(0, 0), (0, 1), (1, 0), (1, 1), (2, 0)].map dimerVec) (table.map fun r => r.map Prod.fst)
      (table.map fun r => r.map Prod.snd) with ⟨-, h⟩ | ⟨-, D', h, -, -, -, h8, -⟩
    · rw [hset] at h; cases h
    · rw [hset] at h
      cases h
      rw [h8]
      exact npUnique_pairwise_lt _
  have hlinked : ∀ i j x, Linked table i j x → ((x : ℝ) : WithTop ℝ) ∈ D.distvals := by
    rintro i j x ⟨row, hrow, he⟩
    exact (hmd x).2 ⟨row, List.mem_of_getElem? hrow, _, he, rfl⟩
  have hdv : D.distvals = [((3 : ℝ) : WithTop ℝ), ((10 : ℝ) : WithTop ℝ), ⊤] := by
    refine List.Perm.eq_of_pairwise (le := (· < ·)) (fun a b _ _ h1 h2 => absurd h1 (lt_asymm h2))
      hnd ?_ ?_
    · simp only [List.pairwise_cons, List.mem_cons, List.not_mem_nil, or_false, forall_eq_or_imp,
        forall_eq, false_imp_iff, implies_true, List.Pairwise.nil, and_true, WithTop.coe_lt_coe,
        WithTop.coe_lt_top]
      norm_num
    · refine (List.perm_ext_iff_of_nodup (hnd.imp fun h => ne_of_lt h) ?_).2 fun x => ?_
      · simp only [List.nodup_cons, List.mem_cons, List.not_mem_nil, or_false,
          WithTop.coe_ne_top, not_false_eq_true, List.nodup_nil, and_true, WithTop.coe_inj]
        norm_num
      · simp only [List.mem_cons, List.not_mem_nil, or_false]
        constructor
        · exact hentry x
        · rintro (rfl | rfl | rfl)
          · exact hlinked _ _ _ hl01
          · exact hlinked _ _ _ hl02
          · exact (hmd ⊤).2 htop
  have h256 : D.distvals.length ≤ 256 := by rw [hdv]; norm_num
  obtain ⟨hDi, hDp, -⟩ := set_table _ _ table ⊤ htop (fun _ _ _ _ => le_top) hset h256
  obtain ⟨l, g1, -, g2, g3⟩ := neighbors_of_links hset ((hmd ⊤).2 htop) h256 h0
    (hrnd _ (List.getElem_mem h0))
  obtain ⟨ln, f1, -, f2⟩ := g3 0 3 (by rw [hdv]; rfl)
  obtain ⟨lo, hi, hlim⟩ := Lattice.getLimits_ok (D := D) (by rw [hDp]; decide)
  obtain ⟨c, hc, hcs, hce⟩ := h.conn
  have hz : c.allZero = false := by
    by_contra hz
    rw [Bool.not_eq_false, ConnMatrix.allZero_iff] at hz
    have h1 := hz 0 (by omega) 0 (by omega)
    have h2 := hce 0 0 (by norm_num) (by norm_num)
    omega
  have hmax : c.max? = .ok 1 := by
    obtain ⟨m, e1, -, -, i, hi, j, hj, e2⟩ := ConnMatrix.max?_ok hz
    rw [hcs] at hi hj
    rw [e1, ← e2, hce i j hi hj]
  refine ⟨w, _, D, h.reach, by rw [h.basis, chain_vectors], h.positions,
    Lattice.build_of (L := Lattice.ofWorld w) (a := dimerArgs 2 fun s => decide (s ≠ (2, 1)))
      h.analysis ?_ rfl hbi hcomp rfl hset hlim rfl, rfl, ?_, ⟨l, g1, (g2 2).2 ⟨_, hl02⟩⟩, ?_⟩
  · intro c' hc'
    have hc' : w.struct.conn = some c' := hc'
    rw [hc] at hc'
    cases hc'
    exact hz
  · rw [hDp]
    simp only [List.map_cons, List.map_nil]
    unfold dimerVec dimerPos
    norm_num
  · refine checkNeighbors_one (c := c) (l := ln) ?_ hmax f1 fun hm => ?_
    · exact hc
    obtain ⟨s, t, hs, ht, -, hx, -⟩ := (hlink 0 2 3).1 ((f2 2).1 hm)
    cases hs
    cases ht
    norm_num [dimerPos] at hx

end Lattpy
