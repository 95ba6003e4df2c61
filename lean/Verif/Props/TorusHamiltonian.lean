import Verif.Props.TorusSymmetry
import Verif.Props.Hamiltonian
import Verif.Props.LatticeRuns

/-!
# The Hamiltonian of a periodic lattice commutes with the translations (C125)
-/

set_option autoImplicit false
set_option linter.unusedSectionVars false

namespace Lattpy

open Structure World Preset DataMap

variable {d : ℕ}

/-! ## specification -/

/-- The matrix with the entries `H` has the same entries between the sites moved by `s` cells, for
every `s` along the periodic axes. -/
def Invariant {β : Type*} (D : LatticeData d ℝ) (size : Fin d → ℕ) (axes : List ℕ)
    (H : ℕ → ℕ → β) : Prop :=
  ∀ s : Fin d → ℤ, (∀ k : Fin d, k.val ∉ axes → s k = 0) → ∀ i j i' j' : ℕ,
    MovedSite D size axes s i i' → MovedSite D size axes s j j' → H i' j' = H i j

/-! ## lemmas -/

/-- With two distances (one of them infinite) there is only the level 0. -/
theorem count_level {D : LatticeData d ℝ} {w : ℕ} (hR : D.Rect w) (hF : Fresh D)
    (hinv : D.invalidDistidx ≤ 1) {i : ℕ} (hi : i < D.numSites) {l : ℕ → List ℕ}
    (hl : ∀ n, D.getNeighbors i (some n) none false = .ok (l n)) {all : List ℕ}
    (hall : D.getNeighbors i none none false = .ok all) {β : Type*} [AddCommMonoid β] (v : ℕ → β)
    (j : ℕ) :
    ∑ n ∈ Finset.range D.invalidDistidx, (l n).count j • v n = all.count j • v 0 := by
  obtain ⟨r, hr, hmem, hg⟩ := hR.getNeighbors hi
  have hle : ∀ e ∈ r, e.level ≤ D.invalidDistidx := by
    intro e he
    have hd : D.distances[i]? = some (r.map Entry.level) := by rw [hR.cols.level]; simp [hr]
    exact hF.levels _ (List.mem_of_getElem? hd) _ (List.mem_map_of_mem he)
  have h0 := (hg (some 0) none false).symm.trans (hl 0)
  have h1 := (hg none none false).symm.trans hall
  obtain h | h : D.invalidDistidx = 0 ∨ D.invalidDistidx = 1 := by omega
  · rw [h, Finset.range_zero, Finset.sum_empty]
    have : all = [] := by
      rw [← Except.ok.inj h1, List.map_eq_nil_iff, List.filter_eq_nil_iff]
      intro e he
      have := hle e he
      simp [LatticeData.sel, LatticeData.levelSel]
      omega
    rw [this, List.count_nil, zero_smul]
  · rw [h, Finset.sum_range_one]
    congr 1
    rw [← Except.ok.inj h0, ← Except.ok.inj h1]
    congr 2
    apply List.filter_congr
    intro e he
    have := hle e he
    simp only [LatticeData.sel, LatticeData.levelSel]
    congr 2
    rw [h]
    have : e.level = 0 ∨ e.level = 1 := by omega
    rcases this with h | h <;> simp [h]

theorem IsTiled.twoDistances (hd : 0 < d) {env : Env ℝ} {L : Lattice d ℝ} {r : ℝ}
    {N : ℕ → Set (Idx d)} {A : Analysis d ℝ} {D : LatticeData d ℝ}
    {table : List (List (ℕ × WithTop ℝ))} {lo : Fin d → ℤ} {size : Fin d → ℕ}
    (h : IsTiled env L r N A D table lo size) : D.distvals.length ≤ 2 := by
  have hsub : D.distvals ⊆ [((npRound 6 r : ℝ) : WithTop ℝ), ⊤] := by
    intro x hx
    obtain ⟨row, hrow, e, he, rfl⟩ := (mem_distvals h.set x).1 hx
    obtain ⟨i, hi⟩ := List.mem_iff_getElem?.1 hrow
    obtain ⟨j, y⟩ := e
    cases y with
    | top => simp
    | coe y =>
      have := ((h.links hd i j y).1 ⟨row, hi, he⟩).1
      simp [this]
  exact (List.subperm_of_subset ((h.tiling hd).sorted.imp fun h => ne_of_lt h) hsub).length_le

/-- The entries of the matrix assembled from the data map of a torus. -/
theorem torus_matrix (hd : 0 < d) {env : Env ℝ} {w : World d ℝ} {L : Lattice d ℝ}
    (hr : Reachable env w) {r : ℝ} {N : ℕ → Set (Idx d)} (h : NearestOnly w r N)
    (hst : NearSteps N) {a : BuildArgs d ℝ} (hm : a.minNeighbors = none) (hp : a.periodic = none)
    (hb : a.bits = none) (hok : (Lattice.ofWorld w).build env a = (L, .ok ()))
    {D : LatticeData d ℝ} (hD : L.data = some D) {lo : Fin d → ℤ} {size : Fin d → ℕ}
    (hw : WholeCells w.struct D lo size) {axes : List ℕ} {L' : Lattice d ℝ}
    (h1 : L.setPeriodic env (.axes axes) = (L', .ok ())) (h128 : w.struct.numBase ≤ 128)
    {β : Type*} [AddCommMonoid β] {assigns : List (Mask × β)} (hdoc : Documented assigns) :
    ∃ m data, (L'.dmap env.argsortNat).2 = .ok m ∧ m.fill assigns = .ok data ∧
      m.csrShape = .ok (D.numSites, D.numSites) ∧
      (∀ i j, m.bsrEntry data i j = m.csrEntry data i j) ∧
      ∀ (i j : ℕ) (x : Idx d) (l : List ℕ), D.indices[i]? = some x →
        L'.neighbors i none false = .ok l → m.csrEntry data i j =
          (if i = j then lastValue (ForSite x.alpha.toNat) assigns else 0) +
            l.count j • lastValue (ForLink 0) assigns := by
  have hr' : Reachable env (Lattice.ofWorld w).world := hr
  obtain ⟨-, -, A, table, hI⟩ := exists_isTiled (L := Lattice.ofWorld w) hd hr' h hst hm hp hb hok
    hD hw
  obtain ⟨htop, h256⟩ := hI.levels hd
  have htwo := hI.twoDistances hd
  obtain ⟨E, hE, hS⟩ := (Lattice.setPeriodic_frame env L (.axes axes)).2.2.2.2.2 D hD
  rw [h1] at hE
  have hrun : Lattice.run env (Lattice.ofWorld w) [.build a, .setPeriodic (.axes axes)] = L' := by
    unfold Lattice.run
    rw [List.foldl_cons, List.foldl_cons, List.foldl_nil]
    show (((Lattice.ofWorld w).build env a).1.setPeriodic env (.axes axes)).1 = L'
    rw [hok, h1]
  have hE' := hE
  rw [← hrun] at hE'
  obtain ⟨hW, hF⟩ := Lattice.run_fresh hd hr _ hE' (by rw [hS.distvals]; exact h256)
    (by rw [hS.distvals]; exact htop)
  have hinv : E.invalidDistidx ≤ 1 := by
    have := hW.inv
    rw [hS.distvals] at this
    omega
  have hn : E.numSites = D.numSites := hS.numSites
  have hpos : 0 < D.numSites := List.length_pos_iff.2 (hI.tiling hd).ne
  obtain ⟨m, data, g1, g2, g3, g4, g5⟩ := dmap_matrix (env := env) (assigns := assigns) hE hW hF
    (by
      rw [hS.indices]
      intro x hx
      exact ((hw x).1 hx).1.1)
    (by
      rw [hS.indices]
      intro x hx
      have := ((hw x).1 hx).1.2
      omega) hdoc
  obtain ⟨wd, hR⟩ := hW.sound.rect
  refine ⟨m, data, g1, g2, by rw [g4 (by omega), hn], g3, fun i j x l hx hl => ?_⟩
  obtain ⟨q, q1, q2⟩ := g5 i x (by rw [hS.indices]; exact hx)
  rw [q2 j, count_level hR hF hinv (i := i) (by
    rw [hn]; exact (List.getElem?_eq_some_iff.1 hx).1) (fun n => by
      have := q1 n
      unfold Lattice.neighbors at this
      rw [hE] at this
      exact this) (all := l) (by
      unfold Lattice.neighbors at hl
      rw [hE] at hl
      exact hl)]

/-! ## C125 -/

/-- C125: the matrix assembled from `dmap()` of a block of whole cells, made periodic along any axes
with at least three cells, has the same entries between the moved sites, whatever values are
assigned to the kinds of sites and to the links. -/
theorem C125_torus_partial (hd : 0 < d) {env : Env ℝ} {w : World d ℝ} {L : Lattice d ℝ}
    (hr : Reachable env w) {r : ℝ} {N : ℕ → Set (Idx d)} (h : NearestOnly w r N)
    (hst : NearSteps N) {a : BuildArgs d ℝ} (hm : a.minNeighbors = none) (hp : a.periodic = none)
    (hb : a.bits = none) (hok : (Lattice.ofWorld w).build env a = (L, .ok ()))
    (hprim : a.primitive = true ∨ Orthogonal w.struct.basis) {D : LatticeData d ℝ}
    (hD : L.data = some D) {lo : Fin d → ℤ} {size : Fin d → ℕ}
    (hw : WholeCells w.struct D lo size) {axes : List ℕ} (hax : ∀ k ∈ axes, k < d)
    (h3 : ∀ k : Fin d, k.val ∈ axes → 3 ≤ size k) (h128 : w.struct.numBase ≤ 128) {β : Type*}
    [AddCommMonoid β] {assigns : List (Mask × β)} (hdoc : Documented assigns) :
    ∃ L' m data, L.setPeriodic env (.axes axes) = (L', .ok ()) ∧
      (L'.dmap env.argsortNat).2 = .ok m ∧ m.fill assigns = .ok data ∧
      m.csrShape = .ok (D.numSites, D.numSites) ∧
      (∀ i j, m.bsrEntry data i j = m.csrEntry data i j) ∧
      Invariant D size axes (m.csrEntry data) := by
  have hr' : Reachable env (Lattice.ofWorld w).world := hr
  obtain ⟨L', h1, hT, -⟩ := C111_torus_partial (L := Lattice.ofWorld w) hd hr' h hst hm hp hb hok
    hprim hD hw hax h3
  obtain ⟨L'', h1', hH⟩ := C124_torus_partial (L := Lattice.ofWorld w) hd hr' h hst hm hp hb hok
    hprim hD hw hax h3
  cases h1.symm.trans h1'
  obtain ⟨m, data, g1, g2, g3, g4, entry⟩ := torus_matrix hd hr h hst hm hp hb hok hD hw h1 h128
    hdoc
  refine ⟨L', m, data, h1, g1, g2, g3, g4, ?_⟩
  intro s hs i j i' j' hi hj
  obtain ⟨σ, hσ, hnb⟩ := hH s hs
  obtain ⟨x, x', k1, k2, kα, -⟩ := id hi
  obtain ⟨y, y', k3, k4, -⟩ := id hj
  have li := (List.getElem?_eq_some_iff.1 k1).1
  have li' := (List.getElem?_eq_some_iff.1 k2).1
  have lj := (List.getElem?_eq_some_iff.1 k3).1
  have lj' := (List.getElem?_eq_some_iff.1 k4).1
  have ei := (hσ ⟨i, li⟩ ⟨i', li'⟩).1 hi
  have ej := (hσ ⟨j, lj⟩ ⟨j', lj'⟩).1 hj
  obtain ⟨l, l', n1, n2, -, -, -, n3⟩ := hnb ⟨i, li⟩
  have n3 := n3 ⟨j, lj⟩
  rw [← ei] at n2
  rw [← ej] at n3
  dsimp only at n1 n2 n3
  obtain ⟨E', -, -, -, hlists, -⟩ := hT
  obtain ⟨l1, f1, nd1, -⟩ := hlists i li
  obtain ⟨l2, f2, nd2, -⟩ := hlists i' li'
  cases f1.symm.trans n1
  cases f2.symm.trans n2
  rw [entry i j x _ k1 n1, entry i' j' x' _ k2 n2, kα]
  have hij : i' = j' ↔ i = j := by
    have : (⟨i', li'⟩ : Fin D.numSites) = ⟨j', lj'⟩ ↔ (⟨i, li⟩ : Fin D.numSites) = ⟨j, lj⟩ := by
      rw [ei, ej]
      exact σ.injective.eq_iff
    simpa [Fin.ext_iff] using this
  congr 1
  · simp only [hij]
  · congr 1
    by_cases hm : j ∈ l
    · rw [List.count_eq_one_of_mem nd1 hm, List.count_eq_one_of_mem nd2 (n3.1 hm)]
    · rw [List.count_eq_zero.2 hm, List.count_eq_zero.2 fun hc => hm (n3.2 hc)]

/-- The Hamiltonian of a periodic graphene sheet of 10 × 18 cells with different values for the two
sublattices. -/
example (env : Env ℝ) (s : Session) : ∃ w L D L' m data, graphene env s 1 = .ok w ∧
    (Lattice.ofWorld w).build env (primitiveBox ![19 / 2, 35 / 2] false) = (L, .ok ()) ∧
    L.data = some D ∧ L.setPeriodic env (.axes [0, 1]) = (L', .ok ()) ∧
    (L'.dmap env.argsortNat).2 = .ok m ∧
    m.fill [(.onsite (some 0), (1 : ℝ)), (.onsite (some 1), -1), (.hopping (some 0), 27 / 10)] =
      .ok data ∧
    Invariant D ![10, 18] [0, 1] (m.csrEntry data) := by
  obtain ⟨w, h1, hr, hN, -, hb, hB⟩ := graphene_block env s 1 le_rfl
  obtain ⟨L, D, b, c, hw⟩ := hB ![10, 18] ![19 / 2, 35 / 2] false
    (by intro k; fin_cases k <;> simp) (by intro k; fin_cases k <;> norm_num)
  obtain ⟨L', m, data, g1, g2, g3, -, -, g4⟩ := C125_torus_partial two_pos hr hN
    (nearSteps_planar le_rfl honeySets_steps) rfl rfl rfl b (Or.inl rfl) c hw (axes := [0, 1])
    (by simp) (by intro k _; fin_cases k <;> simp) (by rw [hb]; norm_num)
    (assigns := [(.onsite (some 0), (1 : ℝ)), (.onsite (some 1), -1), (.hopping (some 0), 27 / 10)])
    (by
      intro p hp
      simp only [List.mem_cons, List.not_mem_nil, or_false] at hp
      rcases hp with rfl | rfl | rfl
      · exact ⟨fun a ha => by cases ha; rfl, nofun⟩
      · exact ⟨fun a ha => by cases ha; exact zero_le_one, nofun⟩
      · exact ⟨nofun, fun a ha => by cases ha; rfl⟩)
  exact ⟨w, L, D, L', m, data, h1, b, c, g1, g2, g3, g4⟩

/-- C125 fails for several shells on short rings: five sites with three neighbour shells and periodic
boundaries.  The pair (0, 3) moved by two cells is the pair (2, 0).  Both are second neighbours around
the ring, but the first one is stored as third neighbour (`C64_level_fails`), so that the matrix has
the values of different shells. -/
theorem C125_shells_fails :
    let env := Env.brute ℚ
    let L := (Runs.chain 3).build env { shape := .size [4] false, periodic := some (.axes [0]) }
    L.2 = .ok () ∧ L.1.numSites = 5 ∧ L.1.periodicAxes = [0] ∧
    (L.1.data.map fun D => (List.range 5).map fun i => (D.indices[i]?.map List.ofFn)) =
      some [some [0, 0], some [1, 0], some [2, 0], some [3, 0], some [4, 0]] ∧
    ((L.1.dmap env.argsortNat).2.toOption.bind fun m =>
      (m.fill [(.hopping (some 0), (1 : ℕ)), (.hopping (some 1), 10), (.hopping (some 2), 100)]
        ).toOption.map fun data => (m.csrEntry data 0 3, m.csrEntry data 2 0)) =
      some (100, 10) := by
  decide +kernel

/-- C125 fails if `dmap()` was called before `set_periodic`: the old map is returned again
(data.py 619-632, C57), and the matrix is the one of the open chain.  The pair (2, 3) moved by one cell
is the pair (3, 0), which are neighbours now, but have no entry. -/
theorem C125_stale_fails :
    let env := Env.brute ℚ
    let L1 := (Runs.chain 1).build env { shape := .size [3] false }
    let L2 := (L1.1.dmap env.argsortNat).1.setPeriodic env (.axes [0])
    L1.2 = .ok () ∧ L2.2 = .ok () ∧ L2.1.numSites = 4 ∧ L2.1.periodicAxes = [0] ∧
    L2.1.neighbors 3 none false = .ok [2, 0] ∧
    ((L2.1.dmap env.argsortNat).2.toOption.bind fun m =>
      (m.fill [(.hopping none, (1 : ℕ))]).toOption.map fun data =>
        (m.csrEntry data 2 3, m.csrEntry data 3 0)) = some (1, 0) := by
  decide +kernel

end Lattpy
