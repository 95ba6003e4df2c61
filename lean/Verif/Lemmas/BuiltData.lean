import Verif.Props.LatticeCubic
import Verif.Props.DataMap

/-!
# The data object of a built lattice as a table of entries
-/

set_option autoImplicit false
set_option linter.unusedSectionVars false

namespace Lattpy

open Structure World

variable {d : ℕ}

/-- The slot stored for an entry of the neighbour table. -/
def builtEntry {K : Type*} [LinearOrder K] (distvals : List (WithTop K)) (e : ℕ × WithTop K) :
    Entry d :=
  ⟨e.1, searchsorted distvals e.2, false, 0, List.replicate d 0⟩

/-- The data stored by `set` for a padded neighbour table. -/
theorem set_cols {K : Type*} [LinearOrder K] {indices : List (Idx d)} {positions : List (Vec d K)}
    {table : List (List (ℕ × WithTop K))} {D : LatticeData d K}
    (hset : LatticeData.set indices positions (table.map fun r => r.map Prod.fst)
        (table.map fun r => r.map Prod.snd) = .ok D) (htop : ⊤ ∈ D.distvals)
    (h256 : D.distvals.length ≤ 256) :
    D.Cols (table.map fun r => r.map (builtEntry D.distvals)) ∧ D.indices = indices ∧
      D.positions = positions ∧ D.invalidIdx = indices.length ∧ D.dmap = none ∧
      ∀ r ∈ table, ∀ e ∈ r, D.distvals[searchsorted D.distvals e.2]? = some e.2 ∧
        searchsorted D.distvals e.2 ≤ D.invalidDistidx ∧
        (searchsorted D.distvals e.2 < D.invalidDistidx ↔ e.2 ≠ ⊤) := by
  set distances := table.map fun r => r.map Prod.snd with hdist
  have hdv : D.distvals = npUnique distances.flatten := by
    rcases set_cases indices positions (table.map fun r => r.map Prod.fst) distances with
      ⟨-, h⟩ | ⟨-, D', h, -, -, -, h', -⟩
    · rw [hset] at h; cases h
    · rw [hset] at h; cases h; exact h'
  have hmem : ⊤ ∈ distances.flatten := by rwa [hdv, mem_npUnique] at htop
  have hok := set_ok indices positions (table.map fun r => r.map Prod.fst) distances ⊤ hmem
    (fun _ _ => le_top) (by rw [hdv] at h256; simpa [npUnique] using h256)
  rw [hset] at hok
  have hD := Except.ok.inj hok
  have hin : ∀ r ∈ table, ∀ e ∈ r, e.2 ∈ distances.flatten := by
    intro r hr e he
    exact List.mem_flatten.2 ⟨_, List.mem_map.2 ⟨r, hr, rfl⟩, List.mem_map_of_mem he⟩
  have hinv : D.invalidDistidx = searchsorted D.distvals ⊤ := by
    rw [hdv, hD]
  refine ⟨⟨?_, ?_, ?_, ?_, ?_⟩, by rw [hD], by rw [hD], by rw [hD], by rw [hD], ?_⟩
  · rw [hD]; simp [builtEntry, Function.comp_def]
  · rw [hD]; simp [builtEntry, Function.comp_def, hdist]
  · rw [hD]; simp [builtEntry, Function.comp_def]
  · rw [hD]; simp [builtEntry, Function.comp_def]
  · rw [hD]; simp [builtEntry, Function.comp_def]
  · intro r hr e he
    have h1 := hin r hr e he
    rw [hinv, hdv]
    refine ⟨npUnique_searchsorted h1, ?_, ?_⟩
    · rcases eq_or_ne e.2 ⊤ with h | h
      · rw [h]
      · exact le_of_lt ((searchsorted_lt_iff h1 hmem).2 (lt_top_iff_ne_top.2 h))
    · rw [searchsorted_lt_iff h1 hmem, lt_top_iff_ne_top]

/-- The data of a padded neighbour table are rectangular and consistent. -/
theorem set_rect {K : Type*} [LinearOrder K] {indices : List (Idx d)} {positions : List (Vec d K)}
    {table : List (List (ℕ × WithTop K))} {D : LatticeData d K} {width : ℕ}
    (hset : LatticeData.set indices positions (table.map fun r => r.map Prod.fst)
        (table.map fun r => r.map Prod.snd) = .ok D) (htop : ⊤ ∈ D.distvals)
    (h256 : D.distvals.length ≤ 256) (hl : table.length = indices.length)
    (hp : positions.length = indices.length) (hw : ∀ r ∈ table, r.length = width)
    (hn : ∀ r ∈ table, ∀ e ∈ r, (e.2 = ⊤ → e.1 = indices.length) ∧
      (e.2 ≠ ⊤ → e.1 < indices.length)) :
    D.Rect width ∧ D.Valid := by
  obtain ⟨hc, hi, hpos, hii, -, hlev⟩ := set_cols hset htop h256
  have hns : D.numSites = indices.length := by unfold LatticeData.numSites; rw [hi]
  have hcol : ∀ {α : Type _} (f : Entry d → α) (l : List (List α)),
      l = (table.map fun r => r.map (builtEntry D.distvals)).map (List.map f) →
      l.length = D.numSites ∧ ∀ r ∈ l, r.length = width := by
    rintro α f l rfl
    refine ⟨by simp [hns, hl], ?_⟩
    intro r hr
    obtain ⟨r1, hr1, rfl⟩ := List.mem_map.1 hr
    obtain ⟨r2, hr2, rfl⟩ := List.mem_map.1 hr1
    simp [hw r2 hr2]
  refine ⟨⟨by rw [hpos, hns, hp], hcol _ _ hc.nbr, hcol _ _ hc.level, hcol _ _ hc.per,
    hcol _ _ hc.nvec, hcol _ _ hc.axes⟩, by rw [hii, hns], ?_⟩
  rw [hc.entries_eq]
  intro r hr e he
  obtain ⟨r2, hr2, rfl⟩ := List.mem_map.1 hr
  obtain ⟨e2, he2, rfl⟩ := List.mem_map.1 he
  obtain ⟨-, h2, h3⟩ := hlev r2 hr2 e2 he2
  rw [hns]
  by_cases ht : e2.2 = ⊤
  · right
    refine ⟨le_antisymm h2 ?_, (hn r2 hr2 e2 he2).1 ht, rfl⟩
    by_contra hlt
    exact (h3.1 (not_le.1 hlt)) ht
  · left
    exact ⟨h3.2 ht, (hn r2 hr2 e2 he2).2 ht⟩

/-- The data of a lattice built without `min_neighbors` and periodic boundary conditions with padded
rows. -/
theorem build_rect (hd : 0 < d) {env : Env ℝ} {L L' : Lattice d ℝ} (h : Reachable env L.world)
    (hS : SitesDistinct L.struct) {a : BuildArgs d ℝ} (hm : a.minNeighbors = none)
    (hp : a.periodic = none) (hb : a.bits = none) (hok : L.build env a = (L', .ok ())) :
    ∃ D, L'.data = some D ∧ (⊤ ∈ D.distvals → D.distvals.length ≤ 256 →
      ∃ width, D.Rect width ∧ D.Valid) := by
  obtain ⟨A, D, table, hA, hD, -, hsites, hnd, hcomp, hset⟩ := build_table hd h hm hp hb hok
  have hpn := positions_nodup hS hsites hnd
  have hlen := hsites.length_eq
  have htl : table.length = D.positions.length := (C44_neighbors_partial hd h hA D.indices
    D.positions hlen hpn (alpha_range hd h hsites) hcomp).1
  obtain ⟨width, hrows⟩ := C45_rows hd h hA D.indices D.positions hlen hpn hcomp
  refine ⟨D, hD, fun htop h256 => ⟨width, set_rect hset htop h256 (by rw [htl, hlen]) hlen.symm ?_ ?_⟩⟩
  · intro r hr
    obtain ⟨i, hi⟩ := List.mem_iff_getElem?.1 hr
    exact (hrows i r hi).1
  · intro r hr e he
    obtain ⟨i, hi⟩ := List.mem_iff_getElem?.1 hr
    obtain ⟨-, -, h3, h4, -⟩ := hrows i r hi
    rw [hlen]
    exact ⟨h3 e he, fun h => (h4 e he h).2⟩

end Lattpy
