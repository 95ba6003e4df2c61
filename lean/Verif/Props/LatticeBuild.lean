import Verif.Lemmas.Lattice
import Verif.Props.Neighbors

/-!
# Building lattices (C59, C60, C71)
-/

set_option autoImplicit false
set_option linter.unusedSectionVars false

namespace Lattpy

open Structure World

variable {d : ℕ}

/-! ## spec -/

/-- Different sites of the infinite lattice are at different positions (no two atoms of the unit cell
differ by a lattice vector). -/
def SitesDistinct (S : Structure d ℝ) : Prop :=
  ∀ x y p, IsSitePos S x p → IsSitePos S y p → x = y

/-- Site `j` should be a neighbour of site `i`: it is another site and the rounded distance is one of
the configured distances of the two atoms. -/
def ShouldLink (A : Analysis d ℝ) (D : LatticeData d ℝ) (i j : ℕ) : Prop :=
  i ≠ j ∧ ∃ (p q : Vec d ℝ) (a b : Idx d), D.positions[i]? = some p ∧ D.positions[j]? = some q ∧
    D.indices[i]? = some a ∧ D.indices[j]? = some b ∧
    Configured A a.alpha b.alpha (distance q p (some 6))

/-- The rounded distance of two sites. -/
def SiteDistance (D : LatticeData d ℝ) (i j : ℕ) (x : ℝ) : Prop :=
  ∃ p q, D.positions[i]? = some p ∧ D.positions[j]? = some q ∧ x = distance q p (some 6)

/-! ## C59 -/

theorem positions_nodup {S : Structure d ℝ} (hS : SitesDistinct S) {indices : List (Idx d)}
    {positions : List (Vec d ℝ)} (h : List.Forall₂ (IsSitePos S) indices positions)
    (hnd : indices.Nodup) : positions.Nodup := by
  induction h with
  | nil => simp
  | @cons a b l₁ l₂ hab hl ih =>
    rw [List.nodup_cons] at hnd ⊢
    refine ⟨?_, ih hnd.2⟩
    intro hb
    obtain ⟨i, hi, hbi⟩ := List.mem_iff_getElem.1 hb
    have h2 := hl.get (i := i) (by rw [hl.length_eq]; exact hi) hi
    simp only [List.get_eq_getElem, hbi] at h2
    have := hS _ _ _ hab h2
    rw [this] at hnd
    exact hnd.1 (List.getElem_mem _)

theorem alpha_range (hd : 0 < d) {env : Env ℝ} {w : World d ℝ} (h : Reachable env w)
    {indices : List (Idx d)} {positions : List (Vec d ℝ)}
    (hs : List.Forall₂ (IsSitePos w.struct) indices positions) :
    ∀ x ∈ indices, 0 ≤ x.alpha ∧ x.alpha < w.struct.numBase := by
  have hG := h.good hd
  intro x hx
  obtain ⟨i, hi, rfl⟩ := List.mem_iff_getElem.1 hx
  have h2 := hs.get (i := i) hi (by rw [← hs.length_eq]; exact hi)
  obtain ⟨⟨b, hb, hb2⟩, -⟩ := (isSitePos_iff hG.positions_length _ _).1 h2
  simp only [List.get_eq_getElem] at hb2
  rw [hb2]
  constructor
  · positivity
  · exact_mod_cast hb

/-- The data of a lattice built without `min_neighbors` and periodic boundary conditions, in terms
of the table of `compute_neighbors`. -/
theorem build_table (hd : 0 < d) {env : Env ℝ} {L L' : Lattice d ℝ} (h : Reachable env L.world)
    {a : BuildArgs d ℝ} (hm : a.minNeighbors = none) (hp : a.periodic = none) (hb : a.bits = none)
    (hok : L.build env a = (L', .ok ())) :
    ∃ A D table, L.struct.analysis = some A ∧ L'.data = some D ∧ L'.world = L.world ∧
      List.Forall₂ (IsSitePos L.struct) D.indices D.positions ∧ D.indices.Nodup ∧
      computeNeighbors env L.struct D.indices D.positions = .ok table ∧
      LatticeData.set D.indices D.positions (table.map fun r => r.map Prod.fst)
        (table.map fun r => r.map Prod.snd) = .ok D := by
  obtain ⟨A, shape, D, lo, hi, hA, hsh, hD, hlim, rfl⟩ := Lattice.build_ok hp hok
  obtain ⟨indices, positions, table, indices', positions', table', h1, h2, h3, h4⟩ :=
    Lattice.buildData_ok hD
  rw [hm] at h3
  simp only [Lattice.dropDangling, Except.ok.injEq, Prod.mk.injEq] at h3
  obtain ⟨rfl, rfl, rfl⟩ := h3
  obtain ⟨h5, h6⟩ := buildIndices_sites hd h h1
  have hDi : D.indices = indices ∧ D.positions = positions := by
    rcases set_cases indices positions (table.map fun r => r.map Prod.fst)
        (table.map fun r => r.map Prod.snd) with ⟨-, h⟩ | ⟨-, D', h, h7, h8, -⟩
    · rw [h4] at h; cases h
    · rw [h4] at h; cases h; exact ⟨h7, h8⟩
  refine ⟨A, D, table, hA, rfl, rfl, ?_⟩
  rw [hDi.1, hDi.2]
  exact ⟨h5, h6 hb, h2, h4⟩

/-- C59 for tables with padding: after `build` (without `min_neighbors`, periodic boundary conditions
and an explicit index type) the indices are distinct and the positions are those of the indices.  If
the stored distances contain infinity (the table is padded) and are at most 256, then `neighbors(i)`
lists without repetition only other sites whose rounded distance to `i` is a configured distance of
the two atoms; it lists all of them which are among the sites requested from the tree query, if all
raw distances exceed `5e-6`.  With a level it lists those at the distance of the level. -/
theorem C59_neighbors_partial (hd : 0 < d) {env : Env ℝ} {L L' : Lattice d ℝ}
    (h : Reachable env L.world) (hS : SitesDistinct L.struct)
    {a : BuildArgs d ℝ} (hm : a.minNeighbors = none) (hp : a.periodic = none) (hb : a.bits = none)
    (hok : L.build env a = (L', .ok ())) :
    ∃ A D, L.struct.analysis = some A ∧ L'.data = some D ∧
      List.Forall₂ (IsSitePos L.struct) D.indices D.positions ∧ D.indices.Nodup ∧
      (⊤ ∈ D.distvals → D.distvals.length ≤ 256 → ∀ i < D.numSites,
        ∃ l, L'.neighbors i none false = .ok l ∧ l.Nodup ∧ (∀ j ∈ l, ShouldLink A D i j) ∧
          ((∀ y, RawDistance A y → 5 / 10 ^ 6 < y) → ∀ j p q, ShouldLink A D i j →
            D.positions[i]? = some p → D.positions[j]? = some q →
            closer D.positions p q ≤ (A.rawNum.map List.sum).sum + 1 → j ∈ l) ∧
          ∀ n x, D.distvals[n]? = some ((x : ℝ) : WithTop ℝ) →
            ∃ ln, L'.neighbors i (some n) false = .ok ln ∧ ln.Nodup ∧
              ∀ j, j ∈ ln ↔ j ∈ l ∧ SiteDistance D i j x) := by
  obtain ⟨A, D, table, hA, hD, -, hsites, hnd, hcomp, hset⟩ := build_table hd h hm hp hb hok
  have hpn := positions_nodup hS hsites hnd
  have hal := alpha_range hd h hsites
  have hlen := hsites.length_eq
  obtain ⟨htl, hsound, hcompl⟩ := C44_neighbors_partial hd h hA D.indices D.positions hlen hpn hal
    hcomp
  obtain ⟨width, hrows⟩ := C45_rows hd h hA D.indices D.positions hlen hpn hcomp
  refine ⟨A, D, hA, hD, hsites, hnd, ?_⟩
  intro htop h256 i hi
  have hmem : ∃ row ∈ table, ∃ e ∈ row, e.2 = ⊤ := by
    rcases set_cases D.indices D.positions (table.map fun r => r.map Prod.fst)
        (table.map fun r => r.map Prod.snd) with ⟨-, h⟩ | ⟨-, D', h, -, -, -, h8, -⟩
    · rw [hset] at h; cases h
    · rw [hset] at h
      cases h
      rw [h8, mem_npUnique] at htop
      simpa [List.mem_flatten] using htop
  obtain ⟨-, -, -, -, -, -, -, hget⟩ := set_table D.indices D.positions table ⊤ hmem
    (fun _ _ _ _ => le_top) hset h256
  have hi' : i < table.length := by rw [htl, ← hlen]; exact hi
  obtain ⟨-, -, g1, g2, -⟩ := hget i _ (List.getElem?_eq_getElem hi')
  obtain ⟨-, -, -, r4, r5⟩ := hrows i _ (List.getElem?_eq_getElem hi')
  have hlink : ∀ j, j ∈ (table[i].filter fun e => decide (e.2 ≠ ⊤)).map Prod.fst ↔
      ∃ x, Linked table i j x := by
    intro j
    rw [List.mem_map]
    constructor
    · rintro ⟨⟨j', y⟩, he, rfl⟩
      obtain ⟨he1, he2⟩ := List.mem_filter.1 he
      obtain ⟨x, rfl⟩ := WithTop.ne_top_iff_exists.1 (by simpa using he2)
      exact ⟨x, _, List.getElem?_eq_getElem hi', he1⟩
    · rintro ⟨x, row, hrow, he⟩
      rw [List.getElem?_eq_getElem hi'] at hrow
      cases hrow
      exact ⟨_, List.mem_filter.2 ⟨he, by simp⟩, rfl⟩
  refine ⟨_, by unfold Lattice.neighbors; rw [hD]; exact g1, r5, ?_, ?_, ?_⟩
  · intro j hj
    obtain ⟨x, hx⟩ := (hlink j).1 hj
    obtain ⟨p, q, ia, ib, e1, e2, e3, e4, e5, e6, e7⟩ := hsound i j x hx
    exact ⟨e5, p, q, ia, ib, e1, e2, e3, e4, by rw [← e6]; exact e7⟩
  · rintro hres j p q ⟨hne, p', q', ia, ib, e1, e2, e3, e4, hconf⟩ hp' hq' hcl
    rw [e1] at hp'
    rw [e2] at hq'
    cases hp'
    cases hq'
    exact (hlink j).2 ⟨_, hcompl hres i j _ _ ia ib e1 e2 e3 e4 hne hconf hcl⟩
  · intro n x hx
    refine ⟨_, by unfold Lattice.neighbors; rw [hD]; exact g2 n _ hx, ?_, ?_⟩
    · refine r5.sublist ((List.monotone_filter_right _ ?_).map _)
      intro e he
      rw [decide_eq_true_eq] at he ⊢
      rw [he]
      exact WithTop.coe_ne_top
    · intro j
      rw [hlink, List.mem_map]
      constructor
      · rintro ⟨⟨j', y⟩, he, rfl⟩
        obtain ⟨he1, he2⟩ := List.mem_filter.1 he
        have he2 : y = (x : WithTop ℝ) := by simpa using he2
        subst he2
        have hl : Linked table i j' x := ⟨_, List.getElem?_eq_getElem hi', he1⟩
        obtain ⟨p, q, ia, ib, e1, e2, e3, e4, e5, e6, e7⟩ := hsound i j' x hl
        exact ⟨⟨x, hl⟩, p, q, e1, e2, e6⟩
      · rintro ⟨⟨y, hy⟩, p', q', hp', hq', rfl⟩
        obtain ⟨p, q, ia, ib, e1, e2, e3, e4, e5, e6, e7⟩ := hsound i j y hy
        rw [e1] at hp'
        rw [e2] at hq'
        cases hp'
        cases hq'
        obtain ⟨row, hrow, he⟩ := hy
        rw [List.getElem?_eq_getElem hi'] at hrow
        cases hrow
        exact ⟨_, List.mem_filter.2 ⟨he, by simp [e6]⟩, rfl⟩

theorem mem_distvals {indices : List (Idx d)} {positions : List (Vec d ℝ)}
    {table : List (List (ℕ × WithTop ℝ))} {D : LatticeData d ℝ}
    (hset : LatticeData.set indices positions (table.map fun r => r.map Prod.fst)
        (table.map fun r => r.map Prod.snd) = .ok D) (x : WithTop ℝ) :
    x ∈ D.distvals ↔ ∃ row ∈ table, ∃ e ∈ row, e.2 = x := by
  rcases set_cases indices positions (table.map fun r => r.map Prod.fst)
      (table.map fun r => r.map Prod.snd) with ⟨-, h⟩ | ⟨-, D', h, -, -, -, h8, -⟩
  · rw [hset] at h; cases h
  · rw [hset] at h
    cases h
    rw [h8, mem_npUnique]
    simp [List.mem_flatten]

theorem set_nonempty {indices : List (Idx d)} {positions : List (Vec d ℝ)}
    {table : List (List (ℕ × WithTop ℝ))} {D : LatticeData d ℝ}
    (hset : LatticeData.set indices positions (table.map fun r => r.map Prod.fst)
        (table.map fun r => r.map Prod.snd) = .ok D) : ∃ row ∈ table, row ≠ [] := by
  rcases set_cases indices positions (table.map fun r => r.map Prod.fst)
      (table.map fun r => r.map Prod.snd) with ⟨-, h⟩ | ⟨h, -⟩
  · rw [hset] at h; cases h
  · by_contra hno
    push Not at hno
    apply h
    rw [List.flatten_eq_nil_iff]
    intro l hl
    obtain ⟨row, hrow, rfl⟩ := List.mem_map.1 hl
    rw [hno row hrow]
    rfl

/-- Padding of the table of a set of sites. -/
theorem padded_sites (hd : 0 < d) {env : Env ℝ} {w : World d ℝ} (h : Reachable env w)
    {A : Analysis d ℝ} (hA : w.struct.analysis = some A) {indices : List (Idx d)}
    {positions : List (Vec d ℝ)} (hsites : List.Forall₂ (IsSitePos w.struct) indices positions)
    (hpn : positions.Nodup) (h0 : 0 < positions.length) {table : List (List (ℕ × WithTop ℝ))}
    (hcomp : computeNeighbors env w.struct indices positions = .ok table) :
    ∃ M y, (M = 0 ∨ ∃ a b, Configured A a b M) ∧ (∀ a b x, Configured A a b x → x ≤ M) ∧
      RawDistance A y ∧ (∀ z, RawDistance A z → y ≤ z) ∧
      ((∀ (i j : ℕ) (p q : Vec d ℝ) (a b : Idx d), i ≠ j → positions[i]? = some p →
        positions[j]? = some q → indices[i]? = some a → indices[j]? = some b →
        distance q p ≤ M + 1 / 10 * y → Configured A a.alpha b.alpha (distance q p (some 6))) →
        ∃ row ∈ table, ∃ e ∈ row, e.2 = ⊤) := by
  have hal := alpha_range hd h hsites
  have hlen := hsites.length_eq
  obtain ⟨cells, m, c, hcells, -, hsym, -, -, hI⟩ := (h.good hd).analysis A hA
  obtain ⟨k, maxDist, hq⟩ := computeNeighbors_params hA hcomp
  obtain ⟨-, -, -, M, y, hMy, hy, hmin, hM, hmax⟩ := hI.queryParams hq
  obtain ⟨t, sel, width, ht, htl, hrows, hpad, -⟩ := computeNeighbors_width env hI hA hq indices
    positions hlen hpn
  rw [ht] at hcomp
  cases hcomp
  refine ⟨M, y, hM, hmax, hy, hmin, ?_⟩
  intro hall
  refine hpad h0 ?_
  intro i p x hp' hx j hj
  obtain ⟨-, -, -, -, -, r6, -⟩ := hrows i p x hp' hx
  obtain ⟨hji, hjl, hdist⟩ := r6 j hj
  have hq' := List.getElem?_eq_getElem hjl
  have hg : positions.getD j 0 = positions[j] := by simp [hjl]
  rw [hg] at hdist ⊢
  have e4 := List.getElem?_eq_getElem (hlen ▸ hjl : j < indices.length)
  have hconf := hall i j p _ x _ hji.symm hp' hq' hx e4 (by rw [← hMy]; exact hdist)
  have hib : alphaOf indices j = Idx.alpha indices[j] := by simp [alphaOf, e4]
  rw [hib, connectedAt_iff hI (hal _ (List.mem_of_getElem? hx)) (hal _ (List.mem_of_getElem? e4))]
  exact hconf

/-- The padding needed in `C59_neighbors_partial` is present whenever all pairs of different sites
within the search radius (the largest configured distance plus a tenth of the smallest raw distance)
are connected. -/
theorem C59_padded_partial (hd : 0 < d) {env : Env ℝ} {L L' : Lattice d ℝ}
    (h : Reachable env L.world) (hS : SitesDistinct L.struct)
    {a : BuildArgs d ℝ} (hm : a.minNeighbors = none) (hp : a.periodic = none) (hb : a.bits = none)
    (hok : L.build env a = (L', .ok ())) :
    ∃ A D M y, L.struct.analysis = some A ∧ L'.data = some D ∧
      (M = 0 ∨ ∃ a b, Configured A a b M) ∧ (∀ a b x, Configured A a b x → x ≤ M) ∧
      RawDistance A y ∧ (∀ z, RawDistance A z → y ≤ z) ∧
      ((∀ (i j : ℕ) (p q : Vec d ℝ), i ≠ j → D.positions[i]? = some p → D.positions[j]? = some q →
        distance q p ≤ M + 1 / 10 * y → ShouldLink A D i j) → ⊤ ∈ D.distvals) := by
  obtain ⟨A, D, table, hA, hD, -, hsites, hnd, hcomp, hset⟩ := build_table hd h hm hp hb hok
  have hpn := positions_nodup hS hsites hnd
  obtain ⟨row, hrow, hne⟩ := set_nonempty hset
  obtain ⟨htl, -⟩ := C44_neighbors_partial hd h hA D.indices D.positions hsites.length_eq hpn
    (alpha_range hd h hsites) hcomp
  obtain ⟨M, y, hM, hmax, hy, hmin, hpad⟩ := padded_sites hd h hA hsites hpn
    (by rw [← htl]; exact List.length_pos_of_mem hrow) hcomp
  refine ⟨A, D, M, y, hA, hD, hM, hmax, hy, hmin, ?_⟩
  intro hall
  rw [mem_distvals hset]
  refine hpad ?_
  intro i j p q ia ib hij e1 e2 e3 e4 hdist
  obtain ⟨-, p', q', ia', ib', f1, f2, f3, f4, hconf⟩ := hall i j p q hij e1 e2 hdist
  rw [e1] at f1
  rw [e2] at f2
  rw [e3] at f3
  rw [e4] at f4
  cases f1
  cases f2
  cases f3
  cases f4
  exact hconf

/-- C59 fails for every built lattice whose table is not padded (no stored distance is infinite):
the largest distance then is taken for the invalid one, and every pair of neighbours at this
distance is missing. -/
theorem C59_unpadded_fails (hd : 0 < d) {env : Env ℝ} {L L' : Lattice d ℝ}
    (h : Reachable env L.world) (hS : SitesDistinct L.struct)
    {a : BuildArgs d ℝ} (hm : a.minNeighbors = none) (hp : a.periodic = none) (hb : a.bits = none)
    (hok : L.build env a = (L', .ok ())) {A : Analysis d ℝ} (hA : L.struct.analysis = some A)
    {D : LatticeData d ℝ} (hD : L'.data = some D)
    (hinf : ⊤ ∉ D.distvals) (h256 : D.distvals.length ≤ 256) :
    ∃ (M : ℝ) (i j : ℕ), ShouldLink A D i j ∧ SiteDistance D i j M ∧
      ∀ i' < D.numSites, ∃ l, L'.neighbors i' none false = .ok l ∧
        ∀ j' ∈ l, ¬ SiteDistance D i' j' M := by
  obtain ⟨A', D', table, hA', hD', -, hsites, hnd, hcomp, hset⟩ := build_table hd h hm hp hb hok
  rw [hA] at hA'
  rw [hD] at hD'
  cases hA'
  cases hD'
  have hpn := positions_nodup hS hsites hnd
  have hal := alpha_range hd h hsites
  have hlen := hsites.length_eq
  obtain ⟨htl, hsound, -⟩ := C44_neighbors_partial hd h hA D.indices D.positions hlen hpn hal
    hcomp
  have hmd := fun x => mem_distvals hset x
  -- the largest distance
  obtain ⟨row, hrow, hne⟩ := set_nonempty hset
  have hlast : D.distvals ≠ [] := by
    obtain ⟨e, he⟩ := List.exists_mem_of_ne_nil _ hne
    exact List.ne_nil_of_mem ((hmd e.2).2 ⟨row, hrow, e, he, rfl⟩)
  obtain ⟨Mx, hMx, hMmax⟩ : ∃ Mx ∈ D.distvals, ∀ x ∈ D.distvals, x ≤ Mx := by
    obtain ⟨e, he⟩ := List.exists_mem_of_ne_nil _ hlast
    obtain ⟨Mx, h1, h2⟩ := Finset.exists_max_image D.distvals.toFinset id ⟨e, by simpa using he⟩
    exact ⟨Mx, by simpa using h1, fun x hx => h2 x (by simpa using hx)⟩
  obtain ⟨M, rfl⟩ := WithTop.ne_top_iff_exists.1 (fun hh : Mx = ⊤ => hinf (hh ▸ hMx))
  obtain ⟨row1, hrow1, ⟨j, y⟩, he1, hy⟩ := (hmd _).1 hMx
  obtain ⟨i, hi⟩ := List.mem_iff_getElem?.1 hrow1
  dsimp only at hy
  subst hy
  obtain ⟨p, q, ia, ib, e1, e2, e3, e4, e5, e6, e7⟩ := hsound i j M ⟨_, hi, he1⟩
  refine ⟨M, i, j, ⟨e5, p, q, ia, ib, e1, e2, e3, e4, by rw [← e6]; exact e7⟩,
    ⟨p, q, e1, e2, e6⟩, ?_⟩
  obtain ⟨-, -, -, -, -, -, -, hget⟩ := set_table D.indices D.positions table M
    ((hmd _).1 hMx) (fun row hr e he => hMmax _ ((hmd _).2 ⟨row, hr, e, he, rfl⟩)) hset h256
  intro i' hi'
  have hi' : i' < table.length := by rw [htl, ← hlen]; exact hi'
  obtain ⟨-, -, g1, -⟩ := hget i' _ (List.getElem?_eq_getElem hi')
  refine ⟨_, by unfold Lattice.neighbors; rw [hD]; exact g1, ?_⟩
  rintro j' hj' ⟨p', q', f1, f2, f3⟩
  obtain ⟨⟨j'', y⟩, he, rfl⟩ := List.mem_map.1 hj'
  obtain ⟨he1, he2⟩ := List.mem_filter.1 he
  obtain ⟨z, rfl⟩ := WithTop.ne_top_iff_exists.1 (show y ≠ ⊤ from fun hh => hinf
    ((hmd _).2 ⟨_, List.getElem_mem hi', _, he1, hh⟩))
  obtain ⟨p2, q2, -, -, k1, k2, -, -, -, k6, -⟩ := hsound i' j'' z ⟨_, List.getElem?_eq_getElem hi', he1⟩
  rw [f1] at k1
  rw [f2] at k2
  cases k1
  cases k2
  rw [← f3] at k6
  rw [k6] at he2
  simp at he2

end Lattpy
