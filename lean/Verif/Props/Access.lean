import Verif.Lemmas.BuiltData
import Verif.Lemmas.BuiltChain
import Verif.Props.Data
import Verif.Props.LatticeIndex
import Verif.Lemmas.SymmetryPoints

/-!
# C103: the accessors of a built lattice
-/

set_option autoImplicit false
set_option linter.unusedSectionVars false

namespace Lattpy

open Structure World LatticeData

variable {d : ℕ}

/-- Sites `i` and `j` are reported as neighbours. -/
def Lattice.Reports (L : Lattice d ℝ) (i j : ℕ) : Prop :=
  ∃ l, L.neighbors i none false = .ok l ∧ j ∈ l

/-- Every level yielded by `iter_neighbors` has a neighbour. -/
theorem iterNeighbors_nonempty {K : Type*} {D : LatticeData d K} {w : ℕ} (h : D.Rect w) {i : ℕ}
    (hi : i < D.numSites) {ls : List (ℕ × List ℕ)} (hls : D.iterNeighbors i false = .ok ls) :
    ∀ p ∈ ls, p.2 ≠ [] := by
  obtain ⟨r, hr, -, hg⟩ := h.getNeighbors hi
  have hd : D.distances[i]? = some (r.map Entry.level) := by rw [h.cols.level]; simp [hr]
  unfold LatticeData.iterNeighbors at hls
  rw [hd] at hls
  dsimp only at hls
  intro p hp
  obtain ⟨x, hx, hpx⟩ := forall₂_mem (mapM_forall₂ hls) hp
  rw [hg] at hpx
  cases hpx
  obtain ⟨hx1, -⟩ := List.mem_filter.1 hx
  rw [mem_npUnique] at hx1
  obtain ⟨e, he, rfl⟩ := List.mem_map.1 hx1
  intro h0
  rw [List.map_eq_nil_iff, List.filter_eq_nil_iff] at h0
  exact h0 e he (by simp [sel])

/-- With `unique`, `iter_neighbors` yields the same levels, each with its neighbours of larger
number only. -/
theorem iterNeighbors_unique {K : Type*} {D : LatticeData d K} {w : ℕ} (h : D.Rect w) {i : ℕ}
    (hi : i < D.numSites) {ls : List (ℕ × List ℕ)} (hls : D.iterNeighbors i false = .ok ls) :
    D.iterNeighbors i true = .ok (ls.map fun p => (p.1, p.2.filter fun j => decide (i < j))) := by
  choose l h1 h2 using fun n : ℕ => getNeighbors_unique h hi (some n) none
  unfold LatticeData.iterNeighbors at hls ⊢
  cases hd : D.distances[i]? with
  | none => rw [hd] at hls; cases hls
  | some dr =>
    rw [hd] at hls
    dsimp only at hls ⊢
    rw [mapM_ok _ (fun n => (n, l n)) _ fun n _ => by rw [h1]] at hls
    cases hls
    rw [mapM_ok _ (fun n => (n, (l n).filter fun j => decide (i < j))) _ fun n _ => by rw [h2],
      List.map_map]
    rfl

/-- C103 after `build` (without `min_neighbors`, periodic boundary conditions and an explicit index
type): `position(i)` is the position of the site named by the index in row `i`, and raises
`IndexError` beyond the last site; the data counts as true.  If the stored distances contain infinity
(the table is padded) and are at most 256, then `iter_neighbors(i)` yields the neighbours of `i`
grouped by distance, in ascending order of the distances, each neighbour once and no group empty,
and with `unique` the same groups restricted to the neighbours with a larger number; and if the lattice has any neighbours at all, `nearest_neighbors(i)` lists exactly those neighbours
of `i` whose distance is the smallest distance of any two neighbours in the lattice (which may be
none), and with `unique` those of them with a larger number. -/
theorem C103_access_partial (hd : 0 < d) {env : Env ℝ} {L L' : Lattice d ℝ}
    (h : Reachable env L.world) (hS : SitesDistinct L.struct)
    {a : BuildArgs d ℝ} (hm : a.minNeighbors = none) (hp : a.periodic = none) (hb : a.bits = none)
    (hok : L.build env a = (L', .ok ())) :
    ∃ D, L'.data = some D ∧ D.toBool = true ∧
      (∀ i x, D.indices[i]? = some x → ∃ p, L'.position i = .ok p ∧ IsSitePos L.struct x p) ∧
      (∀ i, D.indices[i]? = none → L'.position i = .error .index) ∧
      (⊤ ∈ D.distvals → D.distvals.length ≤ 256 → ∀ i < D.numSites,
        ∃ l, L'.neighbors i none false = .ok l ∧
          (∃ (ls : List (ℕ × List ℕ)) (dist : ℕ → ℝ), L'.iterNeighbors i false = .ok ls ∧
            L'.iterNeighbors i true =
              .ok (ls.map fun p => (p.1, p.2.filter fun j => decide (i < j))) ∧
            ls.Pairwise (fun p q => dist p.1 < dist q.1) ∧ (ls.flatMap Prod.snd).Perm l ∧
            ∀ p ∈ ls, D.distvals[p.1]? = some ((dist p.1 : ℝ) : WithTop ℝ) ∧ p.2 ≠ [] ∧
              ∀ j, j ∈ p.2 ↔ j ∈ l ∧ SiteDistance D i j (dist p.1)) ∧
          ((∃ i' j', L'.Reports i' j') →
            ∃ ln, L'.nearestNeighbors i false = .ok ln ∧ ln.Nodup ∧
              L'.nearestNeighbors i true = .ok (ln.filter fun j => decide (i < j)) ∧
              ∀ j, j ∈ ln ↔ j ∈ l ∧ ∀ i' j' x y, L'.Reports i' j' → SiteDistance D i j x →
                SiteDistance D i' j' y → x ≤ y)) := by
  obtain ⟨A, D, hA, hD, hsites, -, hC⟩ := C59_neighbors_partial hd h hS hm hp hb hok
  obtain ⟨A', D', table, hA', hD', -, -, hnd, hcomp, hset⟩ := build_table hd h hm hp hb hok
  obtain ⟨D'', hD'', hrect⟩ := build_rect hd h hS hm hp hb hok
  rw [hA] at hA'
  rw [hD] at hD' hD''
  cases hA'
  cases hD'
  cases hD''
  have hlen := hsites.length_eq
  have hpn := positions_nodup hS hsites hnd
  have hal := alpha_range hd h hsites
  obtain ⟨htl, hsound, -⟩ := C44_neighbors_partial hd h hA D.indices D.positions hlen hpn hal hcomp
  have hpos : ∀ i, L'.position i = match D.positions[i]? with
      | none => .error .index
      | some x => .ok x := by
    intro i
    unfold Lattice.position
    rw [hD]
    dsimp only
    cases D.positions[i]? <;> rfl
  refine ⟨D, hD, ?_, ?_, ?_, ?_⟩
  · unfold LatticeData.toBool
    rw [decide_eq_true_eq]
    intro h0
    obtain ⟨row, hrow, -⟩ := set_nonempty hset
    have := List.length_pos_of_mem hrow
    omega
  · intro i x hx
    have hi := (List.getElem?_eq_some_iff.1 hx).1
    have hi' : i < D.positions.length := by omega
    refine ⟨D.positions[i], by rw [hpos, List.getElem?_eq_getElem hi'], ?_⟩
    have := hsites.get (i := i) hi hi'
    simp only [List.get_eq_getElem] at this
    rw [List.getElem?_eq_getElem hi] at hx
    cases hx
    exact this
  · intro i hx
    rw [hpos, List.getElem?_eq_none (by rw [← hlen]; exact List.getElem?_eq_none_iff.1 hx)]
  intro htop h256 i hi
  obtain ⟨width, hR, hV⟩ := hrect htop h256
  obtain ⟨l, hl, hlnd, -, -, hlev⟩ := hC htop h256 i hi
  have hmem : ∃ row ∈ table, ∃ e ∈ row, e.2 = ⊤ := (mem_distvals hset _).1 htop
  obtain ⟨-, -, -, hinv, -, hsorted, -, hget⟩ := set_table D.indices D.positions table ⊤ hmem
    (fun _ _ _ _ => le_top) hset h256
  have hnb : ∀ i n u, L'.neighbors i n u = D.getNeighbors i n none u := by
    intro i n u; unfold Lattice.neighbors; rw [hD]
  -- reported neighbours are links
  have hrep : ∀ i j, L'.Reports i j ↔ ∃ x, Linked table i j x := by
    intro i j
    by_cases hi' : i < table.length
    · obtain ⟨-, -, g1, -⟩ := hget i _ (List.getElem?_eq_getElem hi')
      constructor
      · rintro ⟨l, h1, h2⟩
        rw [hnb, g1] at h1
        cases h1
        obtain ⟨⟨j', y⟩, he, rfl⟩ := List.mem_map.1 h2
        obtain ⟨he1, he2⟩ := List.mem_filter.1 he
        obtain ⟨x, rfl⟩ := WithTop.ne_top_iff_exists.1 (by simpa using he2)
        exact ⟨x, _, List.getElem?_eq_getElem hi', he1⟩
      · rintro ⟨x, row, hrow, he⟩
        rw [List.getElem?_eq_getElem hi'] at hrow
        cases hrow
        exact ⟨_, (hnb _ _ _).trans g1, List.mem_map.2 ⟨_, List.mem_filter.2 ⟨he, by simp⟩, rfl⟩⟩
    · constructor
      · rintro ⟨l, h1, -⟩
        rw [hnb, hR.getNeighbors_error (by unfold numSites; omega)] at h1
        cases h1
      · rintro ⟨x, row, hrow, -⟩
        exact absurd (List.getElem?_eq_some_iff.1 hrow).1 hi'
  have hdist : ∀ i j x y, Linked table i j x → SiteDistance D i j y → x = y := by
    rintro i j x y hx ⟨p', q', hp', hq', rfl⟩
    obtain ⟨p, q, ia, ib, e1, e2, e3, e4, e5, e6, e7⟩ := hsound i j x hx
    rw [e1] at hp'
    rw [e2] at hq'
    cases hp'
    cases hq'
    exact e6
  have hdist' : ∀ i j x, Linked table i j x → SiteDistance D i j x := by
    intro i j x hx
    obtain ⟨p, q, ia, ib, e1, e2, e3, e4, e5, e6, e7⟩ := hsound i j x hx
    exact ⟨p, q, e1, e2, e6⟩
  refine ⟨l, hl, ?_, ?_⟩
  · obtain ⟨ls, all, h1, h2, h3, h4, h5⟩ := C47_level_partition hR hV hi false
    rw [hnb, h2] at hl
    cases hl
    -- valid levels have finite distances
    have hfin : ∀ n, n < D.invalidDistidx → ∃ x : ℝ, D.distvals[n]? = some (x : WithTop ℝ) := by
      intro n hn
      obtain ⟨hinv1, hinv2⟩ := List.getElem?_eq_some_iff.1 hinv
      have hlt := List.pairwise_iff_getElem.1 hsorted n _ (hn.trans hinv1) hinv1 hn
      obtain ⟨x, hx⟩ := WithTop.ne_top_iff_exists.1 (hlt.trans_le le_top).ne
      exact ⟨x, by rw [List.getElem?_eq_getElem (hn.trans hinv1), hx]⟩
    choose! dist hdv using hfin
    refine ⟨ls, dist, by unfold Lattice.iterNeighbors; rw [hD]; exact h1,
      by unfold Lattice.iterNeighbors; rw [hD]; exact iterNeighbors_unique hR hi h1, ?_, h5, ?_⟩
    · refine (List.pairwise_map.1 h3).imp_of_mem ?_
      intro p q hpm hqm hpq
      obtain ⟨a1, a2⟩ := List.getElem?_eq_some_iff.1 (hdv p.1 (h4 p hpm).1)
      obtain ⟨b1, b2⟩ := List.getElem?_eq_some_iff.1 (hdv q.1 (h4 q hqm).1)
      have := List.pairwise_iff_getElem.1 hsorted _ _ a1 b1 hpq
      rw [a2, b2] at this
      exact WithTop.coe_lt_coe.1 this
    · intro p hpm
      refine ⟨hdv p.1 (h4 p hpm).1, iterNeighbors_nonempty hR hi h1 p hpm, ?_⟩
      obtain ⟨ln, k1, -, k3⟩ := hlev p.1 _ (hdv p.1 (h4 p hpm).1)
      rw [hnb, (h4 p hpm).2] at k1
      cases k1
      exact k3
  · rintro ⟨i0, j0, h0⟩
    obtain ⟨y0, row0, hrow0, he0⟩ := (hrep i0 j0).1 h0
    have hy0 : ((y0 : ℝ) : WithTop ℝ) ∈ D.distvals :=
      (mem_distvals hset _).2 ⟨row0, List.mem_of_getElem? hrow0, _, he0, rfl⟩
    have hle : ∀ y ∈ D.distvals, ∀ h0 : 0 < D.distvals.length, D.distvals[0] ≤ y := by
      intro y hy hpos0
      obtain ⟨n, hn, rfl⟩ := List.mem_iff_getElem.1 hy
      rcases Nat.eq_zero_or_pos n with rfl | hn0
      · exact le_rfl
      · exact (List.pairwise_iff_getElem.1 hsorted 0 n hpos0 hn hn0).le
    have hpos0 : 0 < D.distvals.length := List.length_pos_of_mem hy0
    obtain ⟨x0, hx0⟩ := WithTop.ne_top_iff_exists.1
      ((hle _ hy0 hpos0).trans_lt (WithTop.coe_lt_top y0)).ne
    have hx0' : D.distvals[0]? = some ((x0 : ℝ) : WithTop ℝ) := by
      rw [List.getElem?_eq_getElem hpos0, hx0]
    obtain ⟨ln, k1, k2, k3⟩ := hlev 0 x0 hx0'
    obtain ⟨lu, u1, u2⟩ := getNeighbors_unique hR hi (some 0) none
    have hlu : lu = ln := by
      rw [hnb, u1] at k1
      cases k1
      rfl
    subst hlu
    refine ⟨lu, k1, k2, (hnb _ _ _).trans u2, fun j => ?_⟩
    rw [k3]
    have hlj : j ∈ l ↔ L'.Reports i j := by
      constructor
      · exact fun hj => ⟨l, hl, hj⟩
      · rintro ⟨l', e1, e2⟩
        rw [hl] at e1
        cases e1
        exact e2
    refine and_congr_right fun hj => ?_
    obtain ⟨z, hz⟩ := (hrep i j).1 (hlj.1 hj)
    constructor
    · intro hd0 i' j' x y hr' hx hy
      obtain ⟨y', hy'⟩ := (hrep i' j').1 hr'
      have e1 := hdist _ _ _ _ hz hd0
      have e2 := hdist _ _ _ _ hz hx
      have e3 := hdist _ _ _ _ hy' hy
      subst e3
      rw [← e2, e1]
      obtain ⟨row, hrow, he⟩ := hy'
      have := hle _ ((mem_distvals hset _).2 ⟨row, List.mem_of_getElem? hrow, _, he, rfl⟩) hpos0
      rw [← hx0] at this
      exact WithTop.coe_le_coe.1 this
    · intro hmin
      -- the smallest stored distance belongs to a link
      obtain ⟨row, hrow, ⟨j1, y1⟩, he, hy1⟩ := (mem_distvals hset _).1
        (List.mem_of_getElem? hx0')
      dsimp only at hy1
      subst hy1
      obtain ⟨i1, hi1⟩ := List.mem_iff_getElem?.1 hrow
      have hl1 : Linked table i1 j1 x0 := ⟨row, hi1, he⟩
      have h2 := hmin i1 j1 z x0 ((hrep _ _).2 ⟨_, hl1⟩) (hdist' _ _ _ hz) (hdist' _ _ _ hl1)
      have h3 : x0 ≤ z := by
        obtain ⟨row, hrow, he⟩ := hz
        have := hle _ ((mem_distvals hset _).2 ⟨row, List.mem_of_getElem? hrow, _, he, rfl⟩) hpos0
        rw [← hx0] at this
        exact WithTop.coe_le_coe.1 this
      have : z = x0 := le_antisymm h2 h3
      rw [← this]
      exact hdist' _ _ _ hz

/-- C103 fails for a lattice without neighbours: if no site has a neighbour, `nearest_neighbors(i)`
is not empty but lists the number of sites, which is not a site. -/
theorem C103_no_neighbors_fails (hd : 0 < d) {env : Env ℝ} {L L' : Lattice d ℝ}
    (h : Reachable env L.world) (hS : SitesDistinct L.struct)
    {a : BuildArgs d ℝ} (hm : a.minNeighbors = none) (hp : a.periodic = none) (hb : a.bits = none)
    (hok : L.build env a = (L', .ok ())) {D : LatticeData d ℝ} (hD : L'.data = some D)
    (htop : ⊤ ∈ D.distvals) (h256 : D.distvals.length ≤ 256) (hno : ∀ i j, ¬ L'.Reports i j)
    {i : ℕ} (hi : i < D.numSites) :
    L'.neighbors i none false = .ok [] ∧
      ∃ ln, L'.nearestNeighbors i false = .ok ln ∧ ln ≠ [] ∧ ∀ j ∈ ln, j = D.numSites := by
  obtain ⟨A, D', hA, hD', hsites, -, hC⟩ := C59_neighbors_partial hd h hS hm hp hb hok
  obtain ⟨A', D'', table, hA', hD'', -, -, hnd, hcomp, hset⟩ := build_table hd h hm hp hb hok
  obtain ⟨D3, hD3, hrect⟩ := build_rect hd h hS hm hp hb hok
  rw [hA] at hA'
  rw [hD] at hD' hD'' hD3
  cases hA'
  cases hD'
  cases hD''
  cases hD3
  have hlen := hsites.length_eq
  have hpn := positions_nodup hS hsites hnd
  obtain ⟨htl, -, -⟩ := C44_neighbors_partial hd h hA D.indices D.positions hlen hpn
    (alpha_range hd h hsites) hcomp
  obtain ⟨width, hrows⟩ := C45_rows hd h hA D.indices D.positions hlen hpn hcomp
  obtain ⟨-, -, -, -, -, hsorted, hdv, hget⟩ := set_table D.indices D.positions table ⊤
    ((mem_distvals hset _).1 htop) (fun _ _ _ _ => le_top) hset h256
  have hnb : ∀ i n u, L'.neighbors i n u = D.getNeighbors i n none u := by
    intro i n u; unfold Lattice.neighbors; rw [hD]
  have hall : ∀ row ∈ table, ∀ e ∈ row, e.2 = ⊤ := by
    intro row hrow e he
    by_contra hne
    obtain ⟨k, hk⟩ := List.mem_iff_getElem?.1 hrow
    obtain ⟨-, -, g1, -⟩ := hget k row hk
    exact hno k e.1 ⟨_, (hnb _ _ _).trans g1,
      List.mem_map.2 ⟨e, List.mem_filter.2 ⟨he, by simpa using hne⟩, rfl⟩⟩
  have h0 : D.distvals[0]? = some ⊤ := by
    have hpos0 : 0 < D.distvals.length := List.length_pos_of_mem htop
    obtain ⟨row, hrow, e, he, h1⟩ := (hdv D.distvals[0]).1 (List.getElem_mem hpos0)
    rw [List.getElem?_eq_getElem hpos0, ← h1, hall row hrow e he]
  have hi' : i < table.length := by rw [htl, ← hlen]; exact hi
  obtain ⟨-, -, g1, g2, -⟩ := hget i _ (List.getElem?_eq_getElem hi')
  have hri := hall _ (List.getElem_mem hi')
  refine ⟨?_, _, (hnb _ _ _).trans (g2 0 ⊤ h0), ?_, ?_⟩
  · rw [hnb, g1, List.filter_eq_nil_iff.2 (fun e he => by simp [hri e he])]
    rfl
  · obtain ⟨row, hrow, hne⟩ := set_nonempty hset
    obtain ⟨k, hk⟩ := List.mem_iff_getElem?.1 hrow
    have hw1 := (hrows k row hk).1
    have hw2 := (hrows i _ (List.getElem?_eq_getElem hi')).1
    have hpos : 0 < table[i].length := by rw [hw2, ← hw1]; exact List.length_pos_iff.2 hne
    intro hnil
    rw [List.map_eq_nil_iff, List.filter_eq_nil_iff] at hnil
    exact hnil _ (List.getElem_mem hpos) (by simp [hri _ (List.getElem_mem hpos)])
  · intro j hj
    obtain ⟨e, he, rfl⟩ := List.mem_map.1 hj
    have he' := (List.mem_filter.1 he).1
    exact ((hrows i _ (List.getElem?_eq_getElem hi')).2.2.1 e he' (hri e he')).trans hlen.symm

/-- The smallest stored distance of a chain with two sites next to each other. -/
theorem IsBuiltChain.first_distval {env : Env ℝ} {nb N : ℕ} {keep : ℕ → Bool} {w : World 1 ℝ}
    {A : Analysis 1 ℝ} {L : Lattice 1 ℝ} {D : LatticeData 1 ℝ} {table : List (List (ℕ × WithTop ℝ))}
    (h : IsBuiltChain env nb N keep w A L D table) (hnb : 0 < nb) {i j a : ℕ}
    (hi : (chainCells N keep)[i]? = some a) (hj : (chainCells N keep)[j]? = some (a + 1)) :
    D.distvals[0]? = some (((1 : ℕ) : ℝ) : WithTop ℝ) := by
  obtain ⟨-, -, -, -, -, hsorted, -, -⟩ := set_table D.indices D.positions table ⊤
    ((Lattpy.mem_distvals h.set _).1 h.top) (fun _ _ _ _ => le_top) h.set h.levels
  have hl : Linked table i j 1 := (h.links i j 1).2 ⟨a, a + 1, hi, hj, by omega, by simp, by omega,
    by omega⟩
  obtain ⟨row, hrow, he⟩ := hl
  have hm : ((1 : ℝ) : WithTop ℝ) ∈ D.distvals :=
    (Lattpy.mem_distvals h.set _).2 ⟨row, List.mem_of_getElem? hrow, _, he, rfl⟩
  have hpos := List.length_pos_of_mem hm
  have hle : D.distvals[0] ≤ ((1 : ℝ) : WithTop ℝ) := by
    obtain ⟨n, hn, hn1⟩ := List.mem_iff_getElem.1 hm
    rw [← hn1]
    rcases Nat.eq_zero_or_pos n with rfl | hn0
    · exact le_rfl
    · exact (List.pairwise_iff_getElem.1 hsorted 0 n hpos hn hn0).le
  obtain ⟨row1, hrow1, ⟨j1, y⟩, he1, hy⟩ := (Lattpy.mem_distvals h.set _).1 (List.getElem_mem hpos)
  dsimp only at hy
  rw [← hy] at hle
  obtain ⟨y, rfl⟩ := WithTop.ne_top_iff_exists.1 (hle.trans_lt (WithTop.coe_lt_top 1)).ne
  obtain ⟨i1, hi1⟩ := List.mem_iff_getElem?.1 hrow1
  obtain ⟨b, c, -, -, hbc, hyy, -, -⟩ := (h.links i1 j1 y).1 ⟨row1, hi1, he1⟩
  have h1 : (1 : ℝ) ≤ y := by
    rw [hyy]
    rcases lt_or_gt_of_ne hbc with hlt | hlt
    · have : (b : ℝ) + 1 ≤ c := by exact_mod_cast hlt
      exact le_trans (by linarith) (le_abs_self _)
    · have : (c : ℝ) + 1 ≤ b := by exact_mod_cast hlt
      exact le_trans (by linarith) (neg_le_abs _)
  have h2 : y = 1 := le_antisymm (WithTop.coe_le_coe.1 hle) h1
  rw [List.getElem?_eq_getElem hpos, ← hy, h2]
  simp

/-- A chain with the cells `0`, `1`, `3` and two shells: a site with a neighbour but without nearest
neighbours. -/
theorem exists_gap_chain (env : Env ℝ) : ∃ (w : World 1 ℝ) (L : Lattice 1 ℝ) (D : LatticeData 1 ℝ)
    (a : BuildArgs 1 ℝ), Reachable env w ∧ SitesDistinct w.struct ∧ a.minNeighbors = none ∧
      a.periodic = none ∧ a.bits = none ∧ (Lattice.ofWorld w).build env a = (L, .ok ()) ∧
      L.data = some D ∧ ⊤ ∈ D.distvals ∧ D.distvals.length ≤ 256 ∧ D.numSites = 3 ∧
      L.neighbors 2 none false = .ok [1] ∧ L.nearestNeighbors 2 false = .ok [] ∧
      L.nearestNeighbors 0 false = .ok [1] := by
  obtain ⟨w, A, L, D, table, h⟩ := exists_isBuiltChain env (nb := 2) (by norm_num) (by norm_num) 3
    (fun i => decide (i ≠ 2)) (by decide)
  have hc : chainCells 3 (fun i => decide (i ≠ 2)) = [0, 1, 3] := by decide
  have h0 := h.first_distval (by norm_num) (i := 0) (j := 1) (a := 0) (by rw [hc]; rfl)
    (by rw [hc]; rfl)
  obtain ⟨l, h1, h2, h3⟩ := h.neighbors (i := 2) (by rw [hc]; decide)
  obtain ⟨l0, -, -, h4⟩ := h.neighbors (i := 0) (by rw [hc]; decide)
  obtain ⟨ln, k1, k2⟩ := h3 0 1 (by norm_num) (by norm_num) h0
  obtain ⟨lm, m1, m2⟩ := h4 0 1 (by norm_num) (by norm_num) h0
  have e1 : chainNbrs (chainCells 3 (fun i => decide (i ≠ 2))) 2 2 = [1] := by decide
  have e2 : chainAt (chainCells 3 (fun i => decide (i ≠ 2))) 1 2 = [] := by decide
  have e3 : chainAt (chainCells 3 (fun i => decide (i ≠ 2))) 1 0 = [1] := by decide
  rw [e1, List.perm_singleton] at h2
  rw [e2, List.perm_nil] at k2
  rw [e3, List.perm_singleton] at m2
  subst h2 k2 m2
  refine ⟨w, L, D, _, h.reach, h.distinct, rfl, rfl, rfl, h.build, h.data, h.top, h.levels, ?_, h1,
    k1, m1⟩
  rw [h.numSites, hc]
  rfl

/-- C103 fails for a site whose neighbours are all farther away than the nearest neighbours of other
sites: `neighbors(2)` is `[1]` but `nearest_neighbors(2)` is empty. -/
theorem C103_far_fails (env : Env ℝ) : ∃ (w : World 1 ℝ) (L : Lattice 1 ℝ) (a : BuildArgs 1 ℝ),
    Reachable env w ∧ (Lattice.ofWorld w).build env a = (L, .ok ()) ∧
      L.neighbors 2 none false = .ok [1] ∧ L.nearestNeighbors 2 false = .ok [] := by
  obtain ⟨w, L, D, a, h1, -, -, -, -, h2, -, -, -, -, h3, h4, -⟩ := exists_gap_chain env
  exact ⟨w, L, a, h1, h2, h3, h4⟩

/-- The hypotheses of `C103_access_partial` are met, also by a lattice with neighbours. -/
example (env : Env ℝ) : ∃ (L L' : Lattice 1 ℝ) (D : LatticeData 1 ℝ) (a : BuildArgs 1 ℝ),
    Reachable env L.world ∧ SitesDistinct L.struct ∧ a.minNeighbors = none ∧
      a.periodic = none ∧ a.bits = none ∧ L.build env a = (L', .ok ()) ∧
      L'.data = some D ∧ ⊤ ∈ D.distvals ∧ D.distvals.length ≤ 256 ∧ D.numSites = 3 ∧
      L'.Reports 2 1 := by
  obtain ⟨w, L, D, a, h1, h2, h3, h4, h5, h6, h7, h8, h9, h10, h11, -⟩ := exists_gap_chain env
  exact ⟨Lattice.ofWorld w, L, D, a, h1, h2, h3, h4, h5, h6, h7, h8, h9, h10, _, h11, by simp⟩

/-- A chain of a single site: its only nearest neighbour is a site that does not exist. -/
theorem exists_single_site (env : Env ℝ) : ∃ (w : World 1 ℝ) (L : Lattice 1 ℝ) (D : LatticeData 1 ℝ)
    (a : BuildArgs 1 ℝ), Reachable env w ∧ (Lattice.ofWorld w).build env a = (L, .ok ()) ∧
      L.data = some D ∧ D.numSites = 1 ∧ L.neighbors 0 none false = .ok [] ∧
      ∃ l, L.nearestNeighbors 0 false = .ok l ∧ l ≠ [] ∧ ∀ j ∈ l, j = 1 := by
  obtain ⟨w, A, L, D, table, h⟩ := exists_isBuiltChain env (nb := 1) (by norm_num) (by norm_num) 0
    (fun _ => true) (by decide)
  have hc : chainCells 0 (fun _ => true) = [0] := by decide
  have hn : D.numSites = 1 := by rw [h.numSites, hc]; rfl
  have hno : ∀ i j, ¬ L.Reports i j := by
    rintro i j ⟨l, h1, h2⟩
    rcases Nat.eq_zero_or_pos i with rfl | hi
    · obtain ⟨l', g1, g2, -⟩ := h.neighbors (i := 0) (by rw [hc]; decide)
      have e1 : chainNbrs (chainCells 0 (fun _ => true)) 1 0 = [] := by decide
      rw [e1, List.perm_nil] at g2
      rw [h1, g2] at g1
      cases g1
      cases h2
    · obtain ⟨width, hr, -⟩ := h.rect
      unfold Lattice.neighbors at h1
      rw [h.data] at h1
      dsimp only at h1
      rw [hr.getNeighbors_error (by omega)] at h1
      cases h1
  have hf := C103_no_neighbors_fails Nat.one_pos (L := Lattice.ofWorld w) h.reach h.distinct
    (a := chainArgs 0 fun _ => true) rfl rfl rfl h.build h.data h.top h.levels hno (i := 0)
    (by omega)
  rw [hn] at hf
  exact ⟨w, L, D, _, h.reach, h.build, h.data, hn, hf⟩

end Lattpy
