import Verif.Lemmas.BuiltData
import Verif.Lemmas.BuiltChain

/-!
# Removing dangling sites (C60)
-/

set_option autoImplicit false
set_option linter.unusedSectionVars false

namespace Lattpy

open Structure World LatticeData

variable {d : ℕ}

theorem newIndex_nil (n : ℕ) : newIndex [] n = n := by simp [newIndex]

/-- An entry of the neighbour table after the removal of `sites` from `N` sites. -/
def dropEntry {K : Type*} (sites : List ℕ) (N : ℕ) (e : ℕ × WithTop K) : ℕ × WithTop K :=
  if e.1 ∈ sites then (newIndex sites N, ⊤) else (newIndex sites e.1, e.2)

/-- The result of `_filter_dangling`. -/
theorem filterDangling_ok {K : Type*} [DecidableEq K] {indices : List (Idx d)}
    {positions : List (Vec d K)} {table : List (List (ℕ × WithTop K))} {m N : ℕ}
    (hi : indices.length = N) (hp : positions.length = N) (ht : table.length = N)
    (hn : ∀ r ∈ table, ∀ e ∈ r, e.1 ≤ N)
    {r : List (Idx d) × List (Vec d K) × List (List (ℕ × WithTop K))}
    (hr : filterDangling indices positions table m = .ok r) :
    ∃ sites : List ℕ, sites.Nodup ∧ (∀ s ∈ sites, s < N) ∧
      (∀ (i : ℕ) row, table[i]? = some row → (i ∈ sites ↔
        (row.filter fun p => decide (p.2 ≠ ⊤)).length < m)) ∧
      newIndex sites N + sites.length = N ∧
      r.1 = gather indices (keptSites sites N) ∧ r.2.1 = gather positions (keptSites sites N) ∧
      r.2.2 = (gather table (keptSites sites N)).map fun row => row.map (dropEntry sites N) := by
  unfold filterDangling at hr
  set sites := whereIdx (fun row => decide
    ((row.filter fun p : ℕ × WithTop K => decide (p.2 ≠ ⊤)).length < m)) table with hsites
  have hmem : ∀ (i : ℕ) row, table[i]? = some row → (i ∈ sites ↔
      (row.filter fun p => decide (p.2 ≠ ⊤)).length < m) := by
    intro i row hrow
    rw [hsites, mem_whereIdx]
    simp [hrow]
  have hnd : sites.Nodup := by
    refine (whereIdx_pairwise _ _).imp fun h => ne_of_lt h
  have hlt : ∀ s ∈ sites, s < N := by
    intro s hs
    rw [hsites, mem_whereIdx] at hs
    obtain ⟨a, ha, -⟩ := hs
    rw [← ht]
    exact (List.getElem?_eq_some_iff.1 ha).1
  have hcount : newIndex sites N + sites.length = N := by
    have := newIndex_add sites hnd N
    rwa [List.filter_eq_self.2 (by simpa using hlt)] at this
  refine ⟨sites, hnd, hlt, hmem, hcount, ?_⟩
  by_cases h0 : sites.length = 0
  · rw [if_pos h0] at hr
    cases hr
    rw [List.length_eq_zero_iff] at h0
    have hk : keptSites sites N = List.range N := by simp [h0, keptSites]
    rw [hk]
    refine ⟨?_, ?_, ?_⟩
    · rw [← hi, gather_range]
    · rw [← hp, gather_range]
    · rw [← ht, gather_range]
      dsimp only
      have : dropEntry (K := K) sites table.length = id := by
        funext e
        simp [dropEntry, h0, newIndex_nil]
      rw [this]
      simp
  · rw [if_neg h0] at hr
    split_ifs at hr with h1
    rw [deleteRows_ok indices sites hi hlt, deleteRows_ok positions sites hp hlt,
      deleteRows_ok table sites ht hlt] at hr
    dsimp only at hr
    cases hr
    refine ⟨rfl, rfl, ?_⟩
    have hlen : (gather indices (keptSites sites N)).length = newIndex sites N :=
      gather_length _ _ (by
        intro k hk
        simp only [keptSites, List.mem_filter, List.mem_range] at hk
        omega)
    dsimp only
    rw [List.map_map, List.map_map]
    refine List.map_congr_left fun row hrow => ?_
    simp only [Function.comp_apply]
    rw [List.map_map, List.map_map]
    have hrow' : row ∈ table := by
      obtain ⟨k, hk⟩ := List.mem_iff_getElem?.1 hrow
      unfold gather at hrow
      obtain ⟨i, -, hi'⟩ := List.mem_filterMap.1 hrow
      exact List.mem_of_getElem? hi'
    refine List.map_congr_left fun e he => ?_
    have hNs : N ∉ sites := fun h => lt_irrefl _ (hlt N h)
    simp only [Function.comp_apply, dropEntry, hlen, hi]
    by_cases hes : e.1 ∈ sites
    · simp only [if_pos hes, decrement_eq sites hnd N hNs]
      split_ifs <;> rfl
    · simp only [if_neg hes, decrement_eq sites hnd e.1 hes]
      by_cases heN : newIndex sites e.1 = N
      · have := newIndex_le sites e.1
        have h2 := hn row hrow' e he
        have : e.1 = N := by omega
        rw [this] at heN
        omega
      · rw [if_neg heN]

theorem mem_gather {α : Type*} {l : List α} {perm : List ℕ} {x : α} (h : x ∈ gather l perm) :
    ∃ i ∈ perm, l[i]? = some x := by
  unfold gather at h
  exact List.mem_filterMap.1 h

/-- C60, the remaining sites (restricted to builds without periodic boundary conditions and explicit
index type, different sites at different positions, and padded neighbour tables with at most 256
distances): if `build(min_neighbors=m)` succeeds, so does the build without it; the removed
sites are exactly those of the full lattice with less than `m` neighbours; the others keep their order,
indices and positions, and their neighbours are those of the full lattice which were not removed. -/
theorem C60_induced_partial (hd : 0 < d) {env : Env ℝ} {L L' : Lattice d ℝ}
    (h : Reachable env L.world) (hS : SitesDistinct L.struct) {a : BuildArgs d ℝ} {m : ℕ}
    (hm : a.minNeighbors = some m) (hp : a.periodic = none) (hb : a.bits = none)
    (hok : L.build env a = (L', .ok ())) :
    ∃ L0 D0 D, L.build env { a with minNeighbors := none } = (L0, .ok ()) ∧ L0.data = some D0 ∧
      L'.data = some D ∧ (⊤ ∈ D0.distvals → D0.distvals.length ≤ 256 →
        ∃ sites : List ℕ, sites.Nodup ∧ (∀ s ∈ sites, s < D0.numSites) ∧
          (∀ i < D0.numSites, ∃ l, L0.neighbors i none false = .ok l ∧
            (i ∈ sites ↔ l.length < m)) ∧
          D.numSites + sites.length = D0.numSites ∧ D.positions.length = D.numSites ∧
          (∀ k < D.numSites, ∃ i < D0.numSites, i ∉ sites ∧ newIndex sites i = k) ∧
          (∀ i < D0.numSites, i ∉ sites → D.indices[newIndex sites i]? = D0.indices[i]? ∧
            D.positions[newIndex sites i]? = D0.positions[i]?) ∧
          (⊤ ∈ D.distvals → ∀ i < D0.numSites, i ∉ sites → ∃ l,
            L0.neighbors i none false = .ok l ∧ L'.neighbors (newIndex sites i) none false =
              .ok ((l.filter fun j => decide (j ∉ sites)).map (newIndex sites)))) := by
  obtain ⟨A, shape, D, lo, hi, hA, hsh, hD, hlim, rfl⟩ := Lattice.build_ok hp hok
  obtain ⟨indices, positions, table, indices', positions', table', h1, h2, h3, h4⟩ :=
    Lattice.buildData_ok hD
  obtain ⟨h5, h6⟩ := buildIndices_sites hd h h1
  have hnd := h6 hb
  have hpn := positions_nodup hS h5 hnd
  have hlen := h5.length_eq
  dsimp only at hlen hpn hnd h5
  have htl : table.length = positions.length := (C44_neighbors_partial hd h hA indices
    positions hlen hpn (alpha_range hd h h5) h2).1
  obtain ⟨width, hrows⟩ := C45_rows hd h hA indices positions hlen hpn h2
  rw [hm] at h3
  have hle : ∀ r ∈ table, ∀ e ∈ r, e.1 ≤ positions.length := by
    intro r hr e he
    obtain ⟨i, hi⟩ := List.mem_iff_getElem?.1 hr
    obtain ⟨-, -, g3, g4, -⟩ := hrows i r hi
    by_cases ht : e.2 = ⊤
    · exact le_of_eq (g3 e he ht)
    · exact le_of_lt (g4 e he ht).2
  obtain ⟨sites, hsn, hslt, hsmem, hcount, r1, r2, r3⟩ := filterDangling_ok hlen rfl htl hle h3
  dsimp only at r1 r2 r3
  have hkept : ∀ i ∈ keptSites sites positions.length, i < positions.length ∧ i ∉ sites := by
    intro i hi
    simpa [keptSites] using hi
  have hDi : D.indices = indices' ∧ D.positions = positions' := by
    rcases set_cases indices' positions' (table'.map fun r => r.map Prod.fst)
        (table'.map fun r => r.map Prod.snd) with ⟨-, h⟩ | ⟨-, D', h, h7, h8, -⟩
    · rw [h4] at h; cases h
    · rw [h4] at h; cases h; exact ⟨h7, h8⟩
  -- the full lattice
  obtain ⟨D0, hset0⟩ : ∃ D0, LatticeData.set indices positions (table.map fun r => r.map Prod.fst)
      (table.map fun r => r.map Prod.snd) = .ok D0 := by
    rcases set_cases indices positions (table.map fun r => r.map Prod.fst)
        (table.map fun r => r.map Prod.snd) with ⟨hf, -⟩ | ⟨-, D', h, -⟩
    · exfalso
      have hx : (table'.map fun r => r.map Prod.snd).flatten ≠ [] := by
        rcases set_cases indices' positions' (table'.map fun r => r.map Prod.fst)
          (table'.map fun r => r.map Prod.snd) with ⟨-, h⟩ | ⟨h, -⟩
        · rw [h4] at h; cases h
        · exact h
      apply hx
      rw [List.flatten_eq_nil_iff] at hf ⊢
      intro l hl
      obtain ⟨row', hrow', rfl⟩ := List.mem_map.1 hl
      rw [r3] at hrow'
      obtain ⟨row, hrow, rfl⟩ := List.mem_map.1 hrow'
      obtain ⟨i, -, hi⟩ := mem_gather hrow
      have := hf _ (List.mem_map.2 ⟨row, List.mem_of_getElem? hi, rfl⟩)
      rw [List.map_eq_nil_iff] at this
      rw [this]
      rfl
    · exact ⟨D', h⟩
  have hD0 : D0.indices = indices ∧ D0.positions = positions := by
    rcases set_cases indices positions (table.map fun r => r.map Prod.fst)
        (table.map fun r => r.map Prod.snd) with ⟨-, h⟩ | ⟨-, D', h, h7, h8, -⟩
    · rw [hset0] at h; cases h
    · rw [hset0] at h; cases h; exact ⟨h7, h8⟩
  have hns : D0.numSites = positions.length := by
    unfold LatticeData.numSites; rw [hD0.1, hlen]
  have hpos : 0 < D0.positions.length := by
    rw [hD0.2]
    by_contra hz
    have hz : positions = [] := by rw [← List.length_eq_zero_iff]; omega
    rw [hz] at r2
    unfold LatticeData.getLimits at hlim
    rw [hDi.2, r2] at hlim
    simp [gather] at hlim
  obtain ⟨lo0, hi0, hlim0⟩ := Lattice.getLimits_ok hpos
  have hready : ∀ c, L.struct.conn = some c → c.allZero = false := by
    intro c hc
    by_contra hz
    rw [Bool.not_eq_false] at hz
    unfold Lattice.build at hok
    have : Lattice.assertReady L.struct = .error .noConnections := by
      unfold Lattice.assertReady
      simp [hc, hz]
    rw [this] at hok
    simp at hok
  have hb0 := Lattice.build_of (env := env) (L := L) (a := { a with minNeighbors := none }) hA hready
    (shape := shape) hsh h1 h2 rfl hset0 hlim0 hp
  refine ⟨_, D0, D, hb0, rfl, rfl, ?_⟩
  intro htop h256
  obtain ⟨-, -, -, -, -, -, -, hget⟩ := set_table indices positions table ⊤
    ((mem_distvals hset0 ⊤).1 htop) (fun _ _ _ _ => le_top) hset0 h256
  have hnum : D.numSites = newIndex sites positions.length := by
    unfold LatticeData.numSites
    rw [hDi.1, r1]
    exact gather_length _ _ (fun i hi => by rw [hlen]; exact (hkept i hi).1)
  refine ⟨sites, hsn, by rw [hns]; exact hslt, ?_, by rw [hnum, hns, hcount], ?_, ?_, ?_, ?_⟩
  · intro i hi
    have hi' : i < table.length := by rw [htl, ← hns]; exact hi
    obtain ⟨-, -, g1, -⟩ := hget i _ (List.getElem?_eq_getElem hi')
    refine ⟨_, g1, ?_⟩
    rw [List.length_map]
    exact hsmem i _ (List.getElem?_eq_getElem hi')
  · rw [hnum, hDi.2, r2]
    exact gather_length _ _ (fun i hi => (hkept i hi).1)
  · intro k hk
    rw [hns]
    exact newIndex_kept sites (by rw [← hnum]; exact hk)
  · intro i hi his
    rw [hns] at hi
    rw [hDi.1, hDi.2, r1, r2, hD0.1, hD0.2]
    exact ⟨gather_kept _ sites hlen hi his, gather_kept _ sites rfl hi his⟩
  · intro htop' i hi his
    have hi' : i < table.length := by rw [htl, ← hns]; exact hi
    obtain ⟨-, -, g1, -⟩ := hget i _ (List.getElem?_eq_getElem hi')
    refine ⟨_, g1, ?_⟩
    have h256' : D.distvals.length ≤ 256 := by
      have hnd : ∀ {is : List (Idx d)} {ps : List (Vec d ℝ)} {t : List (List (ℕ × WithTop ℝ))}
          {E : LatticeData d ℝ}, LatticeData.set is ps (t.map fun r => r.map Prod.fst)
            (t.map fun r => r.map Prod.snd) = .ok E → E.distvals.Nodup := by
        intro is ps t E hE
        rcases set_cases is ps (t.map fun r => r.map Prod.fst)
            (t.map fun r => r.map Prod.snd) with ⟨-, h⟩ | ⟨-, D', h, -, -, -, h8, -⟩
        · rw [hE] at h; cases h
        · rw [hE] at h
          cases h
          rw [h8]
          exact (npUnique_pairwise_lt _).imp fun h => ne_of_lt h
      refine le_trans ((hnd h4).subperm ?_).length_le h256
      intro x hx
      obtain ⟨row', hrow', e', he', rfl⟩ := (mem_distvals h4 x).1 hx
      rw [r3] at hrow'
      obtain ⟨row, hrow, rfl⟩ := List.mem_map.1 hrow'
      obtain ⟨k, -, hk⟩ := mem_gather hrow
      obtain ⟨e, he, rfl⟩ := List.mem_map.1 he'
      unfold dropEntry
      split_ifs
      · exact htop
      · exact (mem_distvals hset0 _).2 ⟨row, List.mem_of_getElem? hk, e, he, rfl⟩
    obtain ⟨-, -, -, -, -, -, -, hget'⟩ := set_table indices' positions' table' ⊤
      ((mem_distvals h4 ⊤).1 htop') (fun _ _ _ _ => le_top) h4 h256'
    have hrow' : table'[newIndex sites i]? =
        some (table[i].map (dropEntry sites positions.length)) := by
      rw [r3, List.getElem?_map, gather_kept table sites htl (by rw [← htl]; exact hi') his,
        List.getElem?_eq_getElem hi']
      rfl
    obtain ⟨-, -, g1', -⟩ := hget' _ _ hrow'
    refine Eq.trans g1' ?_
    congr 1
    rw [List.filter_map, List.map_map, List.filter_map, List.map_map, List.filter_filter]
    have hf : (table[i].filter ((fun e => decide (e.2 ≠ ⊤)) ∘ dropEntry sites positions.length)) =
        table[i].filter fun e => decide (e.1 ∉ sites) && decide (e.2 ≠ ⊤) := by
      refine List.filter_congr fun e _ => ?_
      simp only [Function.comp_apply, dropEntry]
      by_cases hes : e.1 ∈ sites <;> simp [hes]
    rw [hf]
    refine List.map_congr_left fun e he => ?_
    have hes : e.1 ∉ sites := by
      have := (List.mem_filter.1 he).2
      rw [Bool.and_eq_true, decide_eq_true_eq] at this
      exact this.1
    simp [dropEntry, hes]

/-- C60, the number of neighbours (restricted to `min_neighbors <= 1` and a symmetric full lattice, and
as `C60_induced_partial`): every site of the lattice built with `min_neighbors=m` has at least `m`
neighbours. -/
theorem C60_isolated_partial (hd : 0 < d) {env : Env ℝ} {L L' : Lattice d ℝ}
    (h : Reachable env L.world) (hS : SitesDistinct L.struct) {a : BuildArgs d ℝ} {m : ℕ}
    (hm : a.minNeighbors = some m) (hm1 : m ≤ 1) (hp : a.periodic = none) (hb : a.bits = none)
    (hok : L.build env a = (L', .ok ())) {L0 : Lattice d ℝ} {D0 D : LatticeData d ℝ}
    (hok0 : L.build env { a with minNeighbors := none } = (L0, .ok ())) (hD0 : L0.data = some D0)
    (hD : L'.data = some D) (ht0 : ⊤ ∈ D0.distvals) (h256 : D0.distvals.length ≤ 256)
    (ht : ⊤ ∈ D.distvals) (hlt : ∀ i j l, L0.neighbors i none false = .ok l → j ∈ l →
      j < D0.numSites)
    (hsym : ∀ i j li lj, L0.neighbors i none false = .ok li → L0.neighbors j none false = .ok lj →
      j ∈ li → i ∈ lj) (k : ℕ) (hk : k < D.numSites) :
    ∃ l, L'.neighbors k none false = .ok l ∧ m ≤ l.length := by
  obtain ⟨L0', D0', D', e1, e2, e3, e4⟩ := C60_induced_partial hd h hS hm hp hb hok
  rw [hok0] at e1
  cases e1
  rw [hD0] at e2
  cases e2
  rw [hD] at e3
  cases e3
  obtain ⟨sites, -, -, hmem, -, -, hkept, -, hnb⟩ := e4 ht0 h256
  obtain ⟨i, hi, his, rfl⟩ := hkept k hk
  obtain ⟨l, hl, hl'⟩ := hnb ht i hi his
  refine ⟨_, hl', ?_⟩
  obtain ⟨l2, hl2, hl2'⟩ := hmem i hi
  rw [hl] at hl2
  cases hl2
  have hcnt : ¬ l.length < m := fun hh => his (hl2'.2 hh)
  rw [List.length_map, List.filter_eq_self.2]
  · omega
  · intro j hj
    rw [decide_eq_true_eq]
    intro hjs
    have hj0 := hlt i j l hl hj
    obtain ⟨lj, hlj, hlj'⟩ := hmem j hj0
    have h1 := hlj'.1 hjs
    have h2 := List.length_pos_of_mem (hsym i j l lj hl hlj hj)
    omega

theorem filterDangling_succeeds {K : Type*} [DecidableEq K] {indices : List (Idx d)}
    {positions : List (Vec d K)} {table : List (List (ℕ × WithTop K))} {m N : ℕ}
    (hi : indices.length = N) (hp : positions.length = N) (ht : table.length = N)
    {row : List (ℕ × WithTop K)} (hrow : row ∈ table)
    (hm : m ≤ (row.filter fun p => decide (p.2 ≠ ⊤)).length) :
    ∃ r, filterDangling indices positions table m = .ok r := by
  unfold filterDangling
  set sites := whereIdx (fun row => decide
    ((row.filter fun p : ℕ × WithTop K => decide (p.2 ≠ ⊤)).length < m)) table with hsites
  have hlt : ∀ s ∈ sites, s < N := by
    intro s hs
    rw [hsites, mem_whereIdx] at hs
    obtain ⟨a, ha, -⟩ := hs
    rw [← ht]
    exact (List.getElem?_eq_some_iff.1 ha).1
  by_cases h0 : sites.length = 0
  · rw [if_pos h0]; exact ⟨_, rfl⟩
  · rw [if_neg h0, if_neg]
    · rw [deleteRows_ok indices sites hi hlt, deleteRows_ok positions sites hp hlt,
        deleteRows_ok table sites ht hlt]
      exact ⟨_, rfl⟩
    · intro hall
      obtain ⟨i, hi'⟩ := List.mem_iff_getElem?.1 hrow
      have hnd : sites.Nodup := (whereIdx_pairwise _ _).imp fun h => ne_of_lt h
      have hsub : sites.Subperm (List.range N) := hnd.subperm fun s hs => by simpa using hlt s hs
      have hperm := hsub.perm_of_length_le (by rw [List.length_range, hall, hi])
      have hiN : i < N := by rw [← ht]; exact (List.getElem?_eq_some_iff.1 hi').1
      have his : i ∈ sites := hperm.mem_iff.2 (by simpa using hiN)
      rw [hsites, mem_whereIdx] at his
      obtain ⟨a, ha, ha2⟩ := his
      rw [hi'] at ha
      cases ha
      rw [decide_eq_true_eq] at ha2
      omega

/-- A build with `min_neighbors=m` succeeds if some site has enough neighbours; the resulting table is
padded if such a site has a neighbour with too few. -/
theorem build_dangling (hd : 0 < d) {env : Env ℝ} {L L0 : Lattice d ℝ}
    (h : Reachable env L.world) (hS : SitesDistinct L.struct) {a : BuildArgs d ℝ}
    (hm : a.minNeighbors = none) (hp : a.periodic = none) (hb : a.bits = none)
    (hok : L.build env a = (L0, .ok ())) {D0 : LatticeData d ℝ} (hD0 : L0.data = some D0)
    {table : List (List (ℕ × WithTop ℝ))}
    (hcomp : computeNeighbors env L.struct D0.indices D0.positions = .ok table) {m : ℕ}
    (hm0 : 0 < m) {i : ℕ} {row : List (ℕ × WithTop ℝ)} (hrow : table[i]? = some row)
    (hcnt : m ≤ (row.filter fun p => decide (p.2 ≠ ⊤)).length) :
    ∃ L' D', L.build env { a with minNeighbors := some m } = (L', .ok ()) ∧ L'.data = some D' ∧
      ((∃ (j : ℕ) (x : WithTop ℝ) (row' : List (ℕ × WithTop ℝ)), (j, x) ∈ row ∧
          table[j]? = some row' ∧ (row'.filter fun p => decide (p.2 ≠ ⊤)).length < m) →
        ⊤ ∈ D'.distvals) ∧
      ∃ (sites : List ℕ) (table' : List (List (ℕ × WithTop ℝ))), sites.Nodup ∧
        (∀ s ∈ sites, s < table.length) ∧
        (∀ (i : ℕ) row, table[i]? = some row → (i ∈ sites ↔
          (row.filter fun p => decide (p.2 ≠ ⊤)).length < m)) ∧
        table' = (gather table (keptSites sites table.length)).map
          (fun row => row.map (dropEntry sites table.length)) ∧
        D'.positions = gather D0.positions (keptSites sites table.length) ∧
        LatticeData.set D'.indices D'.positions (table'.map fun r => r.map Prod.fst)
          (table'.map fun r => r.map Prod.snd) = .ok D' := by
  obtain ⟨A, shape, D, lo, hi, hA, hsh, hD, hlim, rfl⟩ := Lattice.build_ok hp hok
  obtain rfl : D = D0 := Option.some.inj hD0
  obtain ⟨indices, positions, table0, indices', positions', table', h1, h2, h3, h4⟩ :=
    Lattice.buildData_ok hD
  rw [hm] at h3
  simp only [Lattice.dropDangling, Except.ok.injEq, Prod.mk.injEq] at h3
  obtain ⟨rfl, rfl, rfl⟩ := h3
  have hDi : D.indices = indices ∧ D.positions = positions := by
    rcases set_cases indices positions (table0.map fun r => r.map Prod.fst)
        (table0.map fun r => r.map Prod.snd) with ⟨-, h⟩ | ⟨-, D', h, h7, h8, -⟩
    · rw [h4] at h; cases h
    · rw [h4] at h; cases h; exact ⟨h7, h8⟩
  rw [hDi.1, hDi.2, h2] at hcomp
  have hcomp := Except.ok.inj hcomp
  subst hcomp
  obtain ⟨h5, h6⟩ := buildIndices_sites hd h h1
  have hnd := h6 hb
  have hpn := positions_nodup hS h5 hnd
  have hlen := h5.length_eq
  dsimp only at hlen hpn hnd h5
  have htl : table0.length = positions.length := (C44_neighbors_partial hd h hA indices
    positions hlen hpn (alpha_range hd h h5) h2).1
  obtain ⟨width, hrows⟩ := C45_rows hd h hA indices positions hlen hpn h2
  have hle : ∀ r ∈ table0, ∀ e ∈ r, e.1 ≤ positions.length := by
    intro r hr e he
    obtain ⟨i, hi⟩ := List.mem_iff_getElem?.1 hr
    obtain ⟨-, -, g3, g4, -⟩ := hrows i r hi
    by_cases ht : e.2 = ⊤
    · exact le_of_eq (g3 e he ht)
    · exact le_of_lt (g4 e he ht).2
  obtain ⟨r, hr⟩ := filterDangling_succeeds (m := m) hlen rfl htl (List.mem_of_getElem? hrow) hcnt
  obtain ⟨sites, hsn, hslt, hsmem, hcount, r1, r2, r3⟩ := filterDangling_ok hlen rfl htl hle hr
  have hi' : i < positions.length := by rw [← htl]; exact (List.getElem?_eq_some_iff.1 hrow).1
  have his : i ∉ sites := by
    rw [hsmem i row hrow]
    omega
  have hrow' : row.map (dropEntry sites positions.length) ∈ r.2.2 := by
    rw [r3]
    refine List.mem_map.2 ⟨row, List.mem_of_getElem? (i := newIndex sites i) ?_, rfl⟩
    rw [gather_kept table0 sites htl hi' his, hrow]
  have hne : row ≠ [] := by
    rintro rfl
    simp at hcnt
    omega
  obtain ⟨D', hset⟩ : ∃ D', LatticeData.set r.1 r.2.1 (r.2.2.map fun r => r.map Prod.fst)
      (r.2.2.map fun r => r.map Prod.snd) = .ok D' := by
    rcases set_cases r.1 r.2.1 (r.2.2.map fun r => r.map Prod.fst)
        (r.2.2.map fun r => r.map Prod.snd) with ⟨hf, -⟩ | ⟨-, D', h, -⟩
    · exfalso
      rw [List.flatten_eq_nil_iff] at hf
      have := hf _ (List.mem_map.2 ⟨_, hrow', rfl⟩)
      simp only [List.map_eq_nil_iff] at this
      exact hne this
    · exact ⟨D', h⟩
  obtain ⟨hDi', hDp'⟩ : D'.indices = r.1 ∧ D'.positions = r.2.1 := by
    rcases set_cases r.1 r.2.1 (r.2.2.map fun r => r.map Prod.fst)
        (r.2.2.map fun r => r.map Prod.snd) with ⟨-, h⟩ | ⟨-, D', h, h7, h8, -⟩
    · rw [hset] at h; cases h
    · rw [hset] at h; cases h; exact ⟨h7, h8⟩
  have hpos : 0 < D'.positions.length := by
    rw [hDp', r2]
    have h9 := gather_kept positions sites rfl hi' his
    rw [List.getElem?_eq_getElem hi'] at h9
    have := (List.getElem?_eq_some_iff.1 h9).1
    omega
  obtain ⟨lo', hi'', hlim'⟩ := Lattice.getLimits_ok hpos
  have hready : ∀ c, L.struct.conn = some c → c.allZero = false := by
    intro c hc
    by_contra hz
    rw [Bool.not_eq_false] at hz
    unfold Lattice.build at hok
    have : Lattice.assertReady L.struct = .error .noConnections := by
      unfold Lattice.assertReady
      simp [hc, hz]
    rw [this] at hok
    simp at hok
  refine ⟨_, D', Lattice.build_of (env := env) (L := L) (a := { a with minNeighbors := some m }) hA
    hready (shape := shape) hsh h1 h2 hr hset hlim' hp, rfl, ?_, sites, r.2.2, hsn,
    by rw [htl]; exact hslt, hsmem, by rw [htl]; exact r3,
    by rw [hDp', hDi.2, htl]; exact r2, by rw [hDi', hDp']; exact hset⟩
  rintro ⟨j, x, row2, hj, hrow2, hcnt2⟩
  refine (mem_distvals hset ⊤).2 ⟨_, hrow', _, List.mem_map_of_mem hj, ?_⟩
  have hjs : j ∈ sites := (hsmem j row2 hrow2).2 hcnt2
  simp [dropEntry, hjs]

/-- C60 fails: the chain of 5 sites with nearest neighbours built with `min_neighbors=2` loses its two
ends (one pass over the sites of the full lattice), and the new ends have a single neighbour:
`neighbors(0)` of the result, with sites at 1, 2, 3, is `[1]`. -/
theorem C60_single_pass_fails (env : Env ℝ) :
    ∃ (w : World 1 ℝ) (L : Lattice 1 ℝ) (D : LatticeData 1 ℝ), Reachable env w ∧
      w.struct.basis.vectors 0 0 = 1 ∧ w.struct.positions = [0] ∧
      (Lattice.ofWorld w).build env { chainArgs 4 (fun _ => true) with minNeighbors := some 2 } =
        (L, .ok ()) ∧
      L.data = some D ∧ D.positions = [fun _ => 1, fun _ => 2, fun _ => 3] ∧
      L.neighbors 0 none false = .ok [1] := by
  obtain ⟨w, A, L, D, table, hC⟩ := exists_isBuiltChain env Nat.one_pos (by norm_num) 4
    (fun _ => true) (by decide)
  have hcells : chainCells 4 (fun _ => true) = [0, 1, 2, 3, 4] := by decide
  have hlen : (chainCells 4 fun _ => true).length = 5 := by decide
  have hrow : ∀ i : ℕ, i < 5 → ∃ row, table[i]? = some row ∧
      (row.filter fun p => decide (p.2 ≠ ⊤)).length =
        (chainNbrs [0, 1, 2, 3, 4] 1 i).length := by
    intro i hi
    have hi' : i < table.length := by rw [hC.length, hlen]; exact hi
    refine ⟨_, List.getElem?_eq_getElem hi', ?_⟩
    have := hC.count (List.getElem?_eq_getElem hi')
    rwa [hcells] at this
  obtain ⟨row0, hrow0, hc0⟩ := hrow 0 (by norm_num)
  obtain ⟨row1, hrow1, hc1⟩ := hrow 1 (by norm_num)
  obtain ⟨x, row1', hrow1', hl10⟩ := (hC.link_iff (i := 1) (by rw [hlen]; norm_num) 0).2 (by
    rw [hcells]; decide)
  rw [hrow1] at hrow1'
  cases hrow1'
  obtain ⟨L', D', hbuild, hD', htop', -⟩ := build_dangling Nat.one_pos (L := Lattice.ofWorld w) hC.reach
    hC.distinct (a := chainArgs 4 fun _ => true) rfl rfl rfl hC.build hC.data hC.comp (m := 2)
    (by norm_num) hrow1 (by rw [hc1]; decide)
  have htop' := htop' ⟨0, _, row0, hl10, hrow0, by rw [hc0]; decide⟩
  obtain ⟨L0, D0, D'', e1, e2, e3, e4⟩ := C60_induced_partial Nat.one_pos (L := Lattice.ofWorld w)
    hC.reach hC.distinct (a := { chainArgs 4 (fun _ => true) with minNeighbors := some 2 }) rfl rfl
    rfl hbuild
  have e1' : (Lattice.ofWorld w).build env (chainArgs 4 fun _ => true) = (L0, .ok ()) := e1
  rw [hC.build] at e1'
  cases e1'
  rw [hC.data] at e2
  cases e2
  rw [hD'] at e3
  cases e3
  obtain ⟨sites, hsn, hslt, hmem, hcount, hpl, hkept, hsite, hnb⟩ := e4 hC.top hC.levels
  have hns : D.numSites = 5 := by rw [hC.numSites]; exact hlen
  rw [hns] at hslt hmem hcount hkept hsite hnb
  have hin : ∀ i, i < 5 → (i ∈ sites ↔ (chainNbrs [0, 1, 2, 3, 4] 1 i).length < 2) := by
    intro i hi
    obtain ⟨l, h1, h2⟩ := hmem i hi
    obtain ⟨l', h1', h2', -⟩ := hC.neighbors (i := i) (by rw [hlen]; exact hi)
    rw [h1] at h1'
    cases h1'
    rw [h2, h2'.length_eq, hcells]
  have hperm : sites.Perm [0, 4] := by
    refine (List.perm_ext_iff_of_nodup hsn (by decide)).2 fun i => ?_
    constructor
    · intro hi
      have h5 := hslt i hi
      have := (hin i h5).1 hi
      interval_cases i <;> revert this <;> decide
    · intro hi
      simp only [List.mem_cons, List.not_mem_nil, or_false] at hi
      rcases hi with rfl | rfl
      · exact (hin 0 (by norm_num)).2 (by decide)
      · exact (hin 4 (by norm_num)).2 (by decide)
  have hnew : ∀ n, newIndex sites n = newIndex [0, 4] n := by
    intro n
    unfold newIndex
    congr 1
    refine List.filter_congr fun s _ => ?_
    rw [decide_eq_decide, hperm.mem_iff]
  have hnot : ∀ i, i ∉ sites ↔ i ∉ [0, 4] := by
    intro i
    rw [hperm.mem_iff]
  have hpos : ∀ i : ℕ, i < 5 → D.positions[i]? = some fun _ => (i : ℝ) := by
    intro i hi
    rw [hC.sites, hcells]
    interval_cases i <;> rfl
  refine ⟨w, L', D', hC.reach, by rw [hC.basis, chain_vectors], hC.positions, hbuild, hD', ?_, ?_⟩
  · have hl3 : D'.positions.length = 3 := by
      have h1 : D'.numSites = 3 := by
        rw [hperm.length_eq] at hcount
        simpa using hcount
      rw [hpl, h1]
    have g : ∀ i : ℕ, i < 5 → i ∉ [0, 4] → D'.positions[newIndex [0, 4] i]? =
        some fun _ => (i : ℝ) := by
      intro i hi hi2
      rw [← hnew, (hsite i hi ((hnot i).2 hi2)).2, hpos i hi]
    have g1 := g 1 (by norm_num) (by decide)
    have g2 := g 2 (by norm_num) (by decide)
    have g3 := g 3 (by norm_num) (by decide)
    have n1 : newIndex [0, 4] 1 = 0 := by decide
    have n2 : newIndex [0, 4] 2 = 1 := by decide
    have n3 : newIndex [0, 4] 3 = 2 := by decide
    rw [n1] at g1
    rw [n2] at g2
    rw [n3] at g3
    refine List.ext_getElem? fun k => ?_
    by_cases hk : k < 3
    · interval_cases k
      · rw [g1]; simp
      · rw [g2]; simp
      · rw [g3]; simp
    · rw [List.getElem?_eq_none (by omega), List.getElem?_eq_none (by simpa using hk)]
  · obtain ⟨l, h1, h2⟩ := hnb htop' 1 (by norm_num) ((hnot 1).2 (by decide))
    obtain ⟨l', h1', h2', -⟩ := hC.neighbors (i := 1) (by rw [hlen]; norm_num)
    rw [h1] at h1'
    cases h1'
    have n1 : newIndex sites 1 = 0 := by rw [hnew]; decide
    rw [n1] at h2
    rw [h2]
    congr 1
    have hp : ((l.filter fun j => decide (j ∉ sites)).map (newIndex sites)).Perm [1] := by
      refine (((h2'.filter _).map _)).trans (List.Perm.of_eq ?_)
      rw [hcells]
      have : (newIndex sites) = newIndex [0, 4] := funext hnew
      rw [this]
      have : (fun j => decide (j ∉ sites)) = fun j => decide (j ∉ [0, 4]) := by
        funext j
        rw [decide_eq_decide]
        exact hnot j
      rw [this]
      decide
    exact List.perm_singleton.1 hp

/-- C60 fails even for `min_neighbors=1`: of the sites at 0, 1, 3 of the chain with nearest neighbours
the isolated last one is removed.  The remaining table has no padding, so the distance 1 is taken for
the invalid one, and the two remaining sites, at distance 1, have no neighbours. -/
theorem C60_unpadded_fails (env : Env ℝ) :
    ∃ (w : World 1 ℝ) (L : Lattice 1 ℝ) (D : LatticeData 1 ℝ), Reachable env w ∧
      w.struct.basis.vectors 0 0 = 1 ∧ w.struct.positions = [0] ∧
      (Lattice.ofWorld w).build env { chainArgs 3 (fun i => i != 2) with minNeighbors := some 1 } =
        (L, .ok ()) ∧
      L.data = some D ∧ D.positions = [fun _ => 0, fun _ => 1] ∧
      L.neighbors 0 none false = .ok [] ∧ L.neighbors 1 none false = .ok [] := by
  obtain ⟨w, A, L, D, table, hC⟩ := exists_isBuiltChain env Nat.one_pos (by norm_num) 3
    (fun i => i != 2) (by decide)
  have hcells : chainCells 3 (fun i => i != 2) = [0, 1, 3] := by decide
  have hpos : D.positions = [fun _ => 0, fun _ => 1, fun _ => 3] := by
    rw [hC.sites, hcells]; simp
  have hlenp : D.positions.length = 3 := by rw [hpos]; rfl
  have hleni : D.indices.length = D.positions.length := by
    rw [hC.indices, hC.sites, List.length_map, List.length_map]
  have htl : table.length = 3 := by rw [hC.length]; decide
  obtain ⟨cells, m, c, -, -, -, -, -, hI⟩ := (hC.reach.good Nat.one_pos).analysis A hC.analysis
  obtain ⟨k, maxDist, hq⟩ := computeNeighbors_params hC.analysis hC.comp
  obtain ⟨-, -, -, M, y, hMy, -, hmin, hM, -⟩ := hI.queryParams hq
  have hn1 : w.struct.numBase = 1 := by
    rw [← (hC.reach.good Nat.one_pos).positions_length, hC.positions]; rfl
  have hmd : maxDist < 2 := by
    have h1 := hmin 1 hC.raw
    have h2 : M ≤ 1 := by
      rcases hM with rfl | ⟨a, b, hab⟩
      · norm_num
      · obtain ⟨a0, b0, a1, b1, -⟩ := hI.configured.1 hab
        rw [hn1] at a1 b1
        have ha : a = 0 := by omega
        have hb : b = 0 := by omega
        subst ha
        subst hb
        obtain ⟨m', m1, m2, rfl⟩ := (hC.configured M).1 hab
        exact_mod_cast m2
    linarith
  obtain ⟨t, sel, width, ht, -, hrows, -, -, hW⟩ := computeNeighbors_width env hI hC.analysis hq
    D.indices D.positions hleni hC.sites_nodup
  rw [hC.comp] at ht
  have ht := Except.ok.inj ht
  subst ht
  have hrow : ∀ i : ℕ, i < 3 → ∃ row p x, table[i]? = some row ∧ row.length = width ∧
      D.positions[i]? = some p ∧ D.indices[i]? = some x ∧
      (row.filter fun p => decide (p.2 ≠ ⊤)).length = (chainNbrs [0, 1, 3] 1 i).length := by
    intro i hi
    have h1 := List.getElem?_eq_getElem (l := D.positions) (i := i) (by omega)
    have h2 := List.getElem?_eq_getElem (l := D.indices) (i := i) (by omega)
    obtain ⟨row, r1, r2, -⟩ := hrows i _ _ h1 h2
    refine ⟨row, _, _, r1, r2, h1, h2, ?_⟩
    have := hC.count r1
    rwa [hcells] at this
  obtain ⟨row0, p0, x0, hr0, hw0, hp0, hx0, hc0⟩ := hrow 0 (by norm_num)
  obtain ⟨row1, p1, x1, hr1, hw1, hp1, hx1, hc1⟩ := hrow 1 (by norm_num)
  obtain ⟨row2, p2, x2, hr2, hw2, hp2, hx2, hc2⟩ := hrow 2 (by norm_num)
  have hlk : ∀ {i j : ℕ} {row : List (ℕ × WithTop ℝ)}, table[i]? = some row →
      ∀ {a b : ℕ}, [0, 1, 3][i]? = some a → [0, 1, 3][j]? = some b → a ≠ b →
      (b : ℝ) - a = 1 ∨ (a : ℝ) - b = 1 → b ≤ a + 1 → a ≤ b + 1 →
      (j, ((1 : ℝ) : WithTop ℝ)) ∈ row := by
    intro i j row hr a b ha hb hab h1 h2 h3
    obtain ⟨row', e1, e2⟩ := (hC.links i j 1).2 ⟨a, b, by rw [hcells]; exact ha,
      by rw [hcells]; exact hb, hab, by
        rcases h1 with h1 | h1
        · rw [h1, abs_one]
        · rw [← neg_sub, h1, abs_neg, abs_one], h2, h3⟩
    rw [hr] at e1
    cases e1
    exact e2
  have hl0 : (1, ((1 : ℝ) : WithTop ℝ)) ∈ row0 := hlk hr0 (a := 0) (b := 1) rfl rfl (by norm_num)
    (by norm_num) (by norm_num) (by norm_num)
  have hl1 : (0, ((1 : ℝ) : WithTop ℝ)) ∈ row1 := hlk hr1 (a := 1) (b := 0) rfl rfl (by norm_num)
    (by norm_num) (by norm_num) (by norm_num)
  -- the rows have one column
  have hsel2 : (sel 2).length = 0 := by
    rw [List.length_eq_zero_iff, List.eq_nil_iff_forall_not_mem]
    intro j hj
    obtain ⟨-, -, -, -, -, r6, -⟩ := hrows 2 _ _ hp2 hx2
    obtain ⟨h1, h2, h3⟩ := r6 j hj
    rw [hpos] at hp2
    simp only [List.getElem?_cons_succ, List.getElem?_cons_zero, Option.some.injEq] at hp2
    rw [hlenp] at h2
    rw [hpos, ← hp2, distance_one] at h3
    have h2 : j = 0 ∨ j = 1 := by omega
    rcases h2 with rfl | rfl
    · norm_num at h3
      linarith
    · norm_num at h3
      linarith
  have hsel0 : 0 < (sel 0).length := by
    obtain ⟨row, r1, -, -, r4, -⟩ := hrows 0 _ _ hp0 hx0
    rw [hr0] at r1
    cases r1
    have : (1, ((1 : ℝ) : WithTop ℝ)) ∈ row0.filter isLink :=
      List.mem_filter.2 ⟨hl0, by simp [isLink]⟩
    rw [r4.mem_iff] at this
    obtain ⟨j, hj, -⟩ := List.mem_map.1 this
    exact List.length_pos_of_mem (List.mem_of_mem_filter hj)
  have hwidth : width = 1 := by
    have h0 : 0 < width := by rw [← hw0]; exact List.length_pos_of_mem hl0
    rcases hW 2 0 (by omega) (by omega) (by omega) with h | ⟨row, hrow', hfull⟩
    · omega
    · obtain ⟨i, hi⟩ := List.mem_iff_getElem?.1 hrow'
      have hi3 : i < 3 := by rw [← htl]; exact (List.getElem?_eq_some_iff.1 hi).1
      obtain ⟨row', p, x, e1, e2, -, -, e3⟩ := hrow i hi3
      rw [hi] at e1
      cases e1
      rw [List.filter_eq_self.2 (fun e he => by simpa using hfull e he), e2] at e3
      have : (chainNbrs [0, 1, 3] 1 i).length ≤ 1 := by interval_cases i <;> decide
      omega
  rw [hwidth] at hw0 hw1
  have he0 : row0 = [(1, ((1 : ℝ) : WithTop ℝ))] := by
    obtain ⟨e, he⟩ := List.length_eq_one_iff.1 hw0
    rw [he, List.mem_singleton] at hl0
    rw [he, hl0]
  have he1 : row1 = [(0, ((1 : ℝ) : WithTop ℝ))] := by
    obtain ⟨e, he⟩ := List.length_eq_one_iff.1 hw1
    rw [he, List.mem_singleton] at hl1
    rw [he, hl1]
  have htab : table = [row0, row1, row2] := by
    refine List.ext_getElem? fun i => ?_
    by_cases hi : i < 3
    · interval_cases i
      · rw [hr0]; rfl
      · rw [hr1]; rfl
      · rw [hr2]; rfl
    · rw [List.getElem?_eq_none (by omega), List.getElem?_eq_none (by simpa using hi)]
  obtain ⟨L', D', hbuild, hD', -, sites, table', hsn, hslt, hsmem, ht', hp', hset⟩ :=
    build_dangling Nat.one_pos (L := Lattice.ofWorld w) hC.reach hC.distinct
      (a := chainArgs 3 fun i => i != 2) rfl rfl rfl hC.build hC.data hC.comp (m := 1)
      (by norm_num) hr0 (by rw [hc0]; decide)
  have hk : keptSites sites table.length = [0, 1] := by
    have h0 : 0 ∉ sites := by rw [hsmem 0 row0 hr0, hc0]; decide
    have h1 : 1 ∉ sites := by rw [hsmem 1 row1 hr1, hc1]; decide
    have h2 : 2 ∈ sites := by rw [hsmem 2 row2 hr2, hc2]; decide
    rw [htl]
    simp [keptSites, List.range_succ, h0, h1, h2]
  have hnew : newIndex sites 0 = 0 ∧ newIndex sites 1 = 1 := by
    have h0 : 0 ∉ sites := by rw [hsmem 0 row0 hr0, hc0]; decide
    constructor
    · simp [newIndex]
    · have := newIndex_lt sites (a := 0) (b := 1) (by norm_num) h0
      have := newIndex_le sites 1
      omega
  have htab' : table' = [[(1, ((1 : ℝ) : WithTop ℝ))], [(0, ((1 : ℝ) : WithTop ℝ))]] := by
    have h0 : 0 ∉ sites := by rw [hsmem 0 row0 hr0, hc0]; decide
    have h1 : 1 ∉ sites := by rw [hsmem 1 row1 hr1, hc1]; decide
    rw [ht', hk, htab, he0, he1]
    simp [gather, dropEntry, h0, h1, hnew.1, hnew.2]
  rw [hk, hpos] at hp'
  have hp' : D'.positions = [fun _ => 0, fun _ => 1] := by rw [hp']; simp [gather]
  rw [htab'] at hset
  have hdl : D'.distvals.length ≤ 256 := by
    rcases set_cases D'.indices D'.positions
        ([[(1, ((1 : ℝ) : WithTop ℝ))], [(0, ((1 : ℝ) : WithTop ℝ))]].map fun r => r.map Prod.fst)
        ([[(1, ((1 : ℝ) : WithTop ℝ))], [(0, ((1 : ℝ) : WithTop ℝ))]].map fun r => r.map Prod.snd)
      with ⟨-, h⟩ | ⟨-, E, h, -, -, -, h8, -⟩
    · rw [hset] at h; cases h
    · rw [hset] at h
      cases h
      rw [h8]
      unfold npUnique
      simp
  obtain ⟨-, -, -, -, -, -, -, hget⟩ := set_table D'.indices D'.positions _ ((1 : ℝ) : WithTop ℝ)
    ⟨_, List.mem_cons_self, _, List.mem_cons_self, rfl⟩ (by
      intro row hr e he
      simp only [List.mem_cons, List.not_mem_nil, or_false] at hr
      rcases hr with rfl | rfl
      · rw [List.mem_singleton] at he; rw [he]
      · rw [List.mem_singleton] at he; rw [he]) hset hdl
  refine ⟨w, L', D', hC.reach, by rw [hC.basis, chain_vectors], hC.positions, hbuild, hD', hp', ?_, ?_⟩
  · have := (hget 0 _ rfl).2.2.1
    unfold Lattice.neighbors
    rw [hD']
    simpa using this
  · have := (hget 1 _ rfl).2.2.1
    unfold Lattice.neighbors
    rw [hD']
    simpa using this

/-- The hypotheses of `C60_induced_partial` and `C60_isolated_partial` are met by the chain with sites
0, 1, 2, 3, 5, which loses its last site with `min_neighbors=1`. -/
example (env : Env ℝ) :
    ∃ (L L' L0 : Lattice 1 ℝ) (a : BuildArgs 1 ℝ) (D0 D : LatticeData 1 ℝ), Reachable env L.world ∧
      SitesDistinct L.struct ∧ a.minNeighbors = some 1 ∧ a.periodic = none ∧ a.bits = none ∧
      L.build env a = (L', .ok ()) ∧ L.build env { a with minNeighbors := none } = (L0, .ok ()) ∧
      L0.data = some D0 ∧ L'.data = some D ∧ ⊤ ∈ D0.distvals ∧ D0.distvals.length ≤ 256 ∧
      ⊤ ∈ D.distvals ∧ (∀ i j l, L0.neighbors i none false = .ok l → j ∈ l → j < D0.numSites) ∧
      (∀ i j li lj, L0.neighbors i none false = .ok li → L0.neighbors j none false = .ok lj →
        j ∈ li → i ∈ lj) ∧ D0.numSites = 5 ∧ D.positions.length = 4 := by
  obtain ⟨w, A, L, D, table, hC⟩ := exists_isBuiltChain env Nat.one_pos (by norm_num) 5
    (fun i => i != 4) (by decide)
  have hcells : chainCells 5 (fun i => i != 4) = [0, 1, 2, 3, 5] := by decide
  have hlen : (chainCells 5 fun i => i != 4).length = 5 := by decide
  have htl : table.length = 5 := by rw [hC.length]; decide
  have hns : D.numSites = 5 := by rw [hC.numSites]; decide
  have hget : ∀ i : ℕ, i < 5 → ∃ row, table[i]? = some row := fun i hi =>
    ⟨_, List.getElem?_eq_getElem (by omega)⟩
  obtain ⟨row0, hr0⟩ := hget 0 (by norm_num)
  obtain ⟨row1, hr1⟩ := hget 1 (by norm_num)
  have hc0 := hC.count hr0
  have hc1 := hC.count hr1
  rw [hcells] at hc0 hc1
  obtain ⟨width, hrows⟩ := hC.rows
  have hw0 := (hrows 0 row0 hr0).1
  have hw1 := (hrows 1 row1 hr1).1
  have hpad : ∃ e ∈ row0, e.2 = ⊤ := by
    by_contra hno
    push Not at hno
    rw [List.filter_eq_self.2 (fun e he => by simpa using hno e he)] at hc0
    have h1 := List.length_filter_le (fun p : ℕ × WithTop ℝ => decide (p.2 ≠ ⊤)) row1
    have h2 : (chainNbrs [0, 1, 2, 3, 5] 1 0).length = 1 := by decide
    have h3 : (chainNbrs [0, 1, 2, 3, 5] 1 1).length = 2 := by decide
    omega
  obtain ⟨e, he, het⟩ := hpad
  obtain ⟨L', D', hbuild, hD', -, sites, table', hsn, hslt, hsmem, ht', hp', hset⟩ :=
    build_dangling Nat.one_pos (L := Lattice.ofWorld w) hC.reach hC.distinct
      (a := chainArgs 5 fun i => i != 4) rfl rfl rfl hC.build hC.data hC.comp (m := 1)
      (by norm_num) hr0 (by rw [hc0]; decide)
  have hin : ∀ i : ℕ, i < 5 → (i ∈ sites ↔ (chainNbrs [0, 1, 2, 3, 5] 1 i).length < 1) := by
    intro i hi
    obtain ⟨row, hr⟩ := hget i hi
    rw [hsmem i row hr]
    have := hC.count hr
    rw [hcells] at this
    rw [this]
  have hkept : keptSites sites table.length = [0, 1, 2, 3] := by
    have h0 : 0 ∉ sites := by rw [hin 0 (by norm_num)]; decide
    have h1 : 1 ∉ sites := by rw [hin 1 (by norm_num)]; decide
    have h2 : 2 ∉ sites := by rw [hin 2 (by norm_num)]; decide
    have h3 : 3 ∉ sites := by rw [hin 3 (by norm_num)]; decide
    have h4 : 4 ∈ sites := by rw [hin 4 (by norm_num)]; decide
    rw [htl]
    simp [keptSites, List.range_succ, h0, h1, h2, h3, h4]
  have htop' : ⊤ ∈ D'.distvals := by
    refine (mem_distvals hset ⊤).2 ⟨row0.map (dropEntry sites table.length), ?_, _,
      List.mem_map_of_mem he, ?_⟩
    · rw [ht']
      refine List.mem_map.2 ⟨row0, ?_, rfl⟩
      rw [hkept]
      simp [gather, hr0]
    · unfold dropEntry
      split_ifs
      · rfl
      · exact het
  have hnb : ∀ i l, L.neighbors i none false = .ok l →
      i < 5 ∧ l.Perm (chainNbrs [0, 1, 2, 3, 5] 1 i) := by
    intro i l hl
    have hi : i < 5 := by
      by_contra hi
      obtain ⟨wd, hR, -⟩ := hC.rect
      unfold Lattice.neighbors at hl
      rw [hC.data] at hl
      dsimp only at hl
      unfold LatticeData.getNeighbors at hl
      rw [List.getElem?_eq_none (l := D.neighbors) (by rw [hR.neighbors.1, hns]; omega)] at hl
      split at hl <;> simp_all
    obtain ⟨l', h1, h2, -⟩ := hC.neighbors (i := i) (by rw [hlen]; exact hi)
    rw [hl] at h1
    cases h1
    rw [hcells] at h2
    exact ⟨hi, h2⟩
  refine ⟨Lattice.ofWorld w, L', L, _, D, D', hC.reach, hC.distinct, rfl, rfl, rfl, hbuild, hC.build,
    hC.data, hD', hC.top, hC.levels, htop', ?_, ?_, hns, ?_⟩
  · intro i j l hl hj
    rw [(hnb i l hl).2.mem_iff] at hj
    rw [hns]
    exact List.mem_range.1 (List.mem_of_mem_filter hj)
  · intro i j li lj hi hj hm
    obtain ⟨i1, i2⟩ := hnb i li hi
    obtain ⟨j1, j2⟩ := hnb j lj hj
    rw [i2.mem_iff] at hm
    rw [j2.mem_iff]
    revert hm
    interval_cases i <;> interval_cases j <;> decide
  · rw [hp', hkept]
    refine gather_length _ _ ?_
    intro i hi
    rw [hC.sites, List.length_map, hlen]
    fin_cases hi <;> norm_num

end Lattpy
