import Verif.Props.RingBands
import Verif.Props.TorusHamiltonian
import Verif.Props.BlochWaves
import Verif.Props.SmallTorus

/-!
# Sublattices (C127)

A lattice whose sites can be coloured with two colours such that neighbours have different colours has
a Hamiltonian without entries inside a colour (if there is no onsite value), and its energies come in
pairs `E`, `-E` (chiral symmetry).  The hypercubic and the honeycomb lattices have such a colouring.
-/

set_option autoImplicit false
set_option linter.unusedSectionVars false

namespace Lattpy

open Structure World Preset LatticeData DataMap

variable {d : ℕ}

/-! ## Specification -/

/-- All neighbours of a site, also those across a periodic boundary, have the other colour. -/
def TwoColoured (L : Lattice d ℝ) (c : ℕ → Bool) : Prop :=
  ∃ D, L.data = some D ∧ ∀ i < D.numSites, ∃ l, L.neighbors i none false = .ok l ∧
    ∀ j ∈ l, j < D.numSites ∧ c j ≠ c i

/-- The colours of the sites are those of their indices. -/
def ColourOf (D : LatticeData d ℝ) (col : Idx d → Bool) (c : ℕ → Bool) : Prop :=
  ∀ (i : ℕ) (a : Idx d), D.indices[i]? = some a → c i = col a

/-- The sign of a colour. -/
def colourSign (b : Bool) : ℂ := if b then 1 else -1

theorem colourSign_ne {a b : Bool} (h : a ≠ b) : colourSign a = -colourSign b := by
  cases a <;> cases b <;> simp [colourSign] at h ⊢

/-! ## The matrix of a coloured lattice -/

/-- C127, for every history of calls: the matrix filled without onsite values connects only sites of
different colours, and multiplying an eigenvector with the signs of the colours gives an eigenvector
with the opposite eigenvalue. -/
theorem C127_chiral_partial (hd : 0 < d) {env : Env ℝ} {w : World d ℝ} (hw : Reachable env w)
    (ops : List (Lattice.Op d ℝ)) {L : Lattice d ℝ}
    (hL : Lattice.run env (Lattice.ofWorld w) ops = L) {D : LatticeData d ℝ} (hD : L.data = some D)
    (h256 : D.distvals.length ≤ 256) (htop : ⊤ ∈ D.distvals)
    (h128 : ∀ x ∈ D.indices, Idx.alpha x < 128) {assigns : List (Mask × ℂ)}
    (hdoc : Documented assigns)
    (hzero : ∀ x ∈ D.indices, lastValue (ForSite (Idx.alpha x).toNat) assigns = 0)
    {c : ℕ → Bool} (hc : TwoColoured L c) :
    ∃ m data, (L.dmap env.argsortNat).2 = .ok m ∧ m.fill assigns = .ok data ∧
      (0 < D.numSites → m.csrShape = .ok (D.numSites, D.numSites)) ∧
      (∀ i < D.numSites, ∀ j, c i = c j → m.csrEntry data i j = 0) ∧
      ∀ (E : ℂ) (ψ : ℕ → ℂ), (∀ i < D.numSites,
          ∑ j ∈ Finset.range D.numSites, m.csrEntry data i j * ψ j = E * ψ i) →
        ∀ i < D.numSites, ∑ j ∈ Finset.range D.numSites,
          m.csrEntry data i j * (colourSign (c j) * ψ j) = -E * (colourSign (c i) * ψ i) := by
  obtain ⟨m, data, g1, g2, -, g3, g4⟩ := C110_history_partial hd hw ops hL hD h256 htop h128 hdoc
  have hsound := (Lattice.run_weak hd hw ops (by rw [hL]; exact hD) h256).sound
  obtain ⟨width, hrect⟩ := hsound.rect
  obtain ⟨D', hD', hc⟩ := hc
  cases hD.symm.trans hD'
  have key : ∀ i < D.numSites, ∀ j, c i = c j → m.csrEntry data i j = 0 := by
    intro i hi j hij
    obtain ⟨l, h1, h2⟩ := g4 i _ (List.getElem?_eq_getElem hi)
    obtain ⟨all, h3, h4⟩ := hc i hi
    rw [h2 j, hzero _ (List.getElem_mem hi), ite_self, zero_add]
    refine Finset.sum_eq_zero fun n hn => ?_
    rw [List.count_eq_zero_of_not_mem, zero_smul]
    intro hj
    have : j ∈ all := by
      obtain ⟨r, -, -, hg⟩ := hrect.getNeighbors hi
      have e1 := h1 n
      unfold Lattice.neighbors at e1 h3
      rw [hD] at e1 h3
      have e2 := hg (some n) none false
      have e3 := hg none none false
      have e4 := Except.ok.inj (e1.symm.trans e2)
      cases h3.symm.trans e3
      rw [e4] at hj
      obtain ⟨e, he, rfl⟩ := List.mem_map.1 hj
      rw [List.mem_filter] at he
      refine List.mem_map_of_mem (List.mem_filter.2 ⟨he.1, ?_⟩)
      have := he.2
      simp only [sel, levelSel_some, levelSel_none, Bool.not_false, Bool.true_or, Bool.and_true,
        decide_eq_true_eq] at this ⊢
      rw [this]
      exact Finset.mem_range.1 hn
    exact (h4 j this).2 hij.symm
  refine ⟨m, data, g1, g2, g3, key, fun E ψ hψ i hi => ?_⟩
  have : ∑ j ∈ Finset.range D.numSites, m.csrEntry data i j * (colourSign (c j) * ψ j) =
      ∑ j ∈ Finset.range D.numSites, -colourSign (c i) * (m.csrEntry data i j * ψ j) := by
    refine Finset.sum_congr rfl fun j _ => ?_
    by_cases hij : c i = c j
    · rw [key i hi j hij]; ring
    · rw [colourSign_ne (Ne.symm hij)]; ring
  rw [this, ← Finset.mul_sum, hψ i hi]
  ring

/-! ## Lattices with two colours -/

/-- A colouring of the sites of the infinite structure for the neighbour sets `N`. -/
def Colouring (w : World d ℝ) (N : ℕ → Set (Idx d)) (col : Idx d → Bool) : Prop :=
  ∀ α < w.struct.numBase, ∀ x y : Idx d, x.alpha = α →
    Idx.mk (y.cell - x.cell) y.alpha ∈ N α → col y ≠ col x

theorem coloured_site (hd : 0 < d) {env : Env ℝ} {w : World d ℝ} (hr : Reachable env w) {r : ℝ}
    {N : ℕ → Set (Idx d)} (h : NearestOnly w r N) {col : Idx d → Bool} (hcol : Colouring w N col)
    {a b : Idx d} {p q : Vec d ℝ} (hp : IsSitePos w.struct a p) (hq : IsSitePos w.struct b q)
    (e : distance q p = r) : col b ≠ col a := by
  obtain ⟨α, ra, hα, hra, -⟩ := id hp
  have hαn : α < w.struct.numBase := by
    rw [← (hr.good hd).positions_length]
    exact (List.getElem?_eq_some_iff.1 hra).1
  exact hcol α hαn a b hα ((h.distance_iff hd hr hp hq hα).1 e)

theorem coloured_get {S : Structure d ℝ} {D : LatticeData d ℝ}
    (hs : List.Forall₂ (IsSitePos S) D.indices D.positions) {j : ℕ} {q : Vec d ℝ}
    (hq : D.positions[j]? = some q) : ∃ b, D.indices[j]? = some b ∧ IsSitePos S b q := by
  obtain ⟨hj, rfl⟩ := List.getElem?_eq_some_iff.1 hq
  have hj' : j < D.indices.length := by rw [hs.length_eq]; exact hj
  exact ⟨_, List.getElem?_eq_getElem hj', by simpa using hs.get hj' hj⟩

/-- C127, a colouring of the infinite structure colours every finite lattice built from it, with any
shape, position and callback. -/
theorem C127_finite_partial (hd : 0 < d) {env : Env ℝ} {L L' : Lattice d ℝ}
    (hr : Reachable env L.world) {r : ℝ} {N : ℕ → Set (Idx d)} (h : NearestOnly L.world r N)
    {col : Idx d → Bool} (hcol : Colouring L.world N col)
    {a : BuildArgs d ℝ} (hm : a.minNeighbors = none) (hp : a.periodic = none) (hb : a.bits = none)
    (hok : L.build env a = (L', .ok ())) :
    ∃ D, L'.data = some D ∧ ∀ c, ColourOf D col c → TwoColoured L' c := by
  obtain ⟨D, hD, hs, -, -, hnn, -⟩ := C59_nearest_only_partial hd hr h hm hp hb hok
  refine ⟨D, hD, fun c hc => ⟨D, hD, fun i hi => ?_⟩⟩
  obtain ⟨l, hl, -, hlm⟩ := hnn i hi
  refine ⟨l, hl, fun j hj => ?_⟩
  obtain ⟨p, q, hp, hq, e⟩ := (hlm j).1 hj
  obtain ⟨x, hx, hxp⟩ := coloured_get hs hp
  obtain ⟨y, hy, hyq⟩ := coloured_get hs hq
  refine ⟨(List.getElem?_eq_some_iff.1 hy).1, ?_⟩
  rw [hc i x hx, hc j y hy]
  exact coloured_site hd hr h hcol hxp hyq e

/-- C127 for periodic boundaries: the colouring has to be the same after a period. -/
theorem C127_torus_partial (hd : 0 < d) {env : Env ℝ} {L L' : Lattice d ℝ}
    (hr : Reachable env L.world) {r : ℝ} {N : ℕ → Set (Idx d)} (h : NearestOnly L.world r N)
    (hst : NearSteps N) {col : Idx d → Bool} (hcol : Colouring L.world N col)
    {a : BuildArgs d ℝ} (hm : a.minNeighbors = none) (hp : a.periodic = none)
    (hb : a.bits = none) (hok : L.build env a = (L', .ok ()))
    (hprim : a.primitive = true ∨ Orthogonal L.struct.basis) {D : LatticeData d ℝ}
    (hD : L'.data = some D) {lo : Fin d → ℤ} {size : Fin d → ℕ}
    (hw : WholeCells L.struct D lo size) {axes : List ℕ} (hax : ∀ k ∈ axes, k < d)
    (h3 : ∀ k : Fin d, k.val ∈ axes → 3 ≤ size k)
    (hper : ∀ t, IsShift size axes t → ∀ x : Idx d, col (Idx.mk (x.cell + t) x.alpha) = col x) :
    ∃ L'', L'.setPeriodic env (.axes axes) = (L'', .ok ()) ∧
      ∀ c, ColourOf D col c → TwoColoured L'' c := by
  obtain ⟨L'', h1, ⟨E, hE, hEi, hEp, hn, -⟩, -⟩ :=
    C111_torus_partial hd hr h hst hm hp hb hok hprim hD hw hax h3
  obtain ⟨D', hD', hs, -⟩ := C59_nearest_only_partial hd hr h hm hp hb hok
  cases hD.symm.trans hD'
  have hnum : E.numSites = D.numSites := by unfold LatticeData.numSites; rw [hEi]
  refine ⟨L'', h1, fun c hc => ⟨E, hE, fun i hi => ?_⟩⟩
  rw [hnum] at hi
  obtain ⟨l, hl, -, hlm⟩ := hn i hi
  refine ⟨l, hl, fun j hj => ?_⟩
  obtain ⟨t, ht, p, q, hp, hq, e⟩ := (hlm j).1 hj
  obtain ⟨x, hx, hxp⟩ := coloured_get hs hp
  obtain ⟨y, hy, hyq⟩ := coloured_get hs hq
  rw [hnum]
  refine ⟨(List.getElem?_eq_some_iff.1 hy).1, ?_⟩
  rw [hc i x hx, hc j y hy, ← hper t ht x]
  rw [shifted_dist] at e
  refine coloured_site hd hr h hcol (p := L.struct.basis.translate t p) ?_ hyq e
  obtain ⟨α, ra, hα, hra, hpeq⟩ := hxp
  refine ⟨α, ra, by rw [Idx.alpha_mk, hα], hra, ?_⟩
  rw [LatticeBasis.translate_eq, hpeq, Idx.cell_mk]
  funext c
  simp only [Pi.add_apply, Int.cast_add, add_mul, Finset.sum_add_distrib]
  unfold Lattice.struct
  ring

/-! ## Preset lattices -/

/-- The parity of a cell. -/
def cellParity (x : Idx d) : Bool := decide (Even (∑ k, x.cell k))

/-- The colour of an atom of the honeycomb lattice. -/
def atomColour (x : Idx d) : Bool := decide (x.alpha = 0)

theorem parity_ne {m n : ℤ} (h : Odd (m - n)) : decide (Even m) ≠ decide (Even n) := by
  rw [Int.odd_sub] at h
  rw [Ne, decide_eq_decide, ← Int.not_odd_iff_even, h]
  tauto

theorem cubic_colouring (w : World d ℝ) :
    Colouring w (fun _ => {idx | ∃ n ∈ axisCells d, idx = Idx.mk n 0}) cellParity := by
  rintro α - x y hα ⟨n, ⟨k, hk⟩, e⟩
  rw [Idx.mk_inj] at e
  refine parity_ne ?_
  rw [← Finset.sum_sub_distrib]
  have e1 := e.1
  have : ∑ k, (y.cell k - x.cell k) = ∑ k, n k := by rw [← e1]; rfl
  rw [this]
  rcases hk with rfl | rfl <;> simp

theorem honey_colouring (w : World 2 ℝ) : Colouring w honeySets atomColour := by
  intro α _ x y hx hy
  unfold honeySets at hy
  unfold atomColour
  rw [Ne, decide_eq_decide, hx]
  split_ifs at hy with h0
  · rcases hy with hy | hy | hy <;> have hy := Idx.mk_inj.1 hy <;> rw [hy.2] <;> simp [h0]
  · rcases hy with hy | hy | hy <;> have hy := Idx.mk_inj.1 hy <;> rw [hy.2] <;> simp [h0]

/-- Every lattice built from the structure is two-coloured by `col`. -/
def BuildsColoured (env : Env ℝ) (w : World d ℝ) (col : Idx d → Bool) : Prop :=
  ∀ (L L' : Lattice d ℝ) (a : BuildArgs d ℝ), L.world = w → a.minNeighbors = none →
    a.periodic = none → a.bits = none → L.build env a = (L', .ok ()) →
    ∃ D, L'.data = some D ∧ ∀ c, ColourOf D col c → TwoColoured L' c

theorem cubic_coloured (hd : 0 < d) (env : Env ℝ) (s : Session) {a : ℝ} (ha : 1 / 10 ^ 5 ≤ |a|)
    (atom : AtomSpec) {rows : Matrix (Fin d) (Fin d) ℝ}
    (hrows : rows = a • (1 : Matrix (Fin d) (Fin d) ℝ)) :
    ∃ w, configure env s (LatticeBasis.init rows) (oneAtom atom 1) = .ok w ∧
      BuildsColoured env w cellParity := by
  obtain ⟨w, h1, h2, -, h3⟩ := cubic_nearest hd env s ha atom hrows
  have hr := configure_reachable h1
  refine ⟨w, h1, ?_⟩
  rintro L L' b rfl hm hp hb hok
  exact C127_finite_partial hd hr (cubic_only ha hd hr ((configure_vectors h1).trans hrows) h2 h3)
    (cubic_colouring _) hm hp hb hok

/-- C127 for the preset lattices with nearest neighbours: all finite lattices built from them are
coloured by the parity of the cell (hypercubic lattices) or by the atom (honeycomb, graphene). -/
theorem C127_presets_partial (env : Env ℝ) (s : Session) (a : ℝ) (ha : 1 / 10 ^ 5 ≤ |a|)
    (atom : AtomSpec) :
    (∃ w, simpleChain env s a atom 1 = .ok w ∧ BuildsColoured env w cellParity) ∧
    (∃ w, simpleSquare env s a atom 1 = .ok w ∧ BuildsColoured env w cellParity) ∧
    (∃ w, simpleCubic env s a atom 1 = .ok w ∧ BuildsColoured env w cellParity) ∧
    (∀ d, 0 < d → ∃ w : World d ℝ,
      configure env s (LatticeBasis.hypercubic d a) (oneAtom atom 1) = .ok w ∧
      BuildsColoured env w cellParity) ∧
    (∃ w, honeycomb env s a atom = .ok w ∧ BuildsColoured env w atomColour) ∧
    (∃ w, graphene env s a = .ok w ∧ BuildsColoured env w atomColour) := by
  refine ⟨?_, ?_, ?_, ?_, ?_, ?_⟩
  · exact cubic_coloured one_pos env s ha atom (rows := !![a]) (by
      ext i j; fin_cases i; fin_cases j; simp)
  · exact cubic_coloured two_pos env s ha atom rfl
  · exact cubic_coloured three_pos env s ha atom rfl
  · intro d hd
    exact cubic_coloured hd env s ha atom rfl
  · obtain ⟨w, at', h1, -, -, h2, h3, h4⟩ := C84_honeycomb_partial env s a ha atom
    obtain ⟨s', ops, hc⟩ := honeycomb_configure h1
    have hr := configure_reachable hc
    refine ⟨w, h1, ?_⟩
    rintro L L' b rfl hm hp hb hok
    exact C127_finite_partial two_pos hr (honey_only ha hr (configure_vectors hc) h2 h3 h4)
      (honey_colouring _) hm hp hb hok
  · obtain ⟨w, h1, -, h2, h3, h4⟩ := C84_graphene_partial env s a ha
    obtain ⟨s', ops, hc⟩ := graphene_configure h1
    have hr := configure_reachable hc
    refine ⟨w, h1, ?_⟩
    rintro L L' b rfl hm hp hb hok
    exact C127_finite_partial two_pos hr (honey_only ha hr (configure_vectors hc) h2 h3 h4)
      (honey_colouring _) hm hp hb hok

/-- C127 for graphene with periodic boundaries: every block of cells, both axes periodic, is coloured by
the atoms, and without onsite values its energies come in pairs. -/
theorem C127_graphene_torus_partial (env : Env ℝ) (s : Session) (a : ℝ) (ha : 1 ≤ a)
    {size : Fin 2 → ℕ} {σ : Vec 2 ℝ} (isInt : Bool) (hm : ∀ k, 3 ≤ size k)
    (hσ : ∀ k, (size k : ℝ) - 2 / 3 ≤ σ k ∧ σ k < size k - 1 / 1000 ∧
      3 * σ k ≤ 2 * (a * (σ 0 + σ 1)))
    {assigns : List (Mask × ℂ)} (hdoc : Documented assigns)
    (h0 : lastValue (ForSite 0) assigns = 0) (h1 : lastValue (ForSite 1) assigns = 0) :
    ∃ w L D L' m data, graphene env s a = .ok w ∧
      (Lattice.ofWorld w).build env (primitiveBox σ isInt) = (L, .ok ()) ∧ L.data = some D ∧
      L.setPeriodic env (.axes [0, 1]) = (L', .ok ()) ∧ (L'.dmap env.argsortNat).2 = .ok m ∧
      m.fill assigns = .ok data ∧ ∀ c, ColourOf D atomColour c → TwoColoured L' c ∧
      ∀ (E : ℂ) (ψ : ℕ → ℂ), (∀ i < D.numSites,
          ∑ j ∈ Finset.range D.numSites, m.csrEntry data i j * ψ j = E * ψ i) →
        ∀ i < D.numSites, ∑ j ∈ Finset.range D.numSites,
          m.csrEntry data i j * (colourSign (c j) * ψ j) = -E * (colourSign (c i) * ψ i) := by
  obtain ⟨w, g1, hr, hN, -, hb, hB⟩ := graphene_block env s a ha
  obtain ⟨L, D, g2, g3, hw⟩ := hB size σ isInt hm hσ
  have hr' : Reachable env (Lattice.ofWorld w).world := hr
  have hst := nearSteps_planar le_rfl honeySets_steps
  obtain ⟨L', g4, g5⟩ := C127_torus_partial (L := Lattice.ofWorld w) two_pos hr' hN hst
    (honey_colouring w) rfl rfl rfl g2 (Or.inl rfl) g3 hw (axes := [0, 1]) (by simp)
    (fun k _ => hm k) (fun t _ x => by unfold atomColour; rw [Idx.alpha_mk])
  obtain ⟨-, -, A, table, hI⟩ := exists_isTiled (L := Lattice.ofWorld w) two_pos hr' hN hst
    rfl rfl rfl g2 g3 hw
  obtain ⟨htop, h256⟩ := hI.levels two_pos
  obtain ⟨E, hE, hS⟩ := (Lattice.setPeriodic_frame env L (.axes [0, 1])).2.2.2.2.2 D g3
  rw [g4] at hE
  have hrun : Lattice.run env (Lattice.ofWorld w)
      [.build (primitiveBox σ isInt), .setPeriodic (.axes [0, 1])] = L' := by
    simp only [Lattice.run, List.foldl_cons, List.foldl_nil, Lattice.call]
    rw [g2, g4]
  have hal : ∀ x ∈ E.indices, Idx.alpha x = 0 ∨ Idx.alpha x = 1 := by
    intro x hx
    rw [hS.indices] at hx
    have := ((hw x).1 hx).1
    rw [hb] at this
    omega
  have key := fun c hc => C127_chiral_partial two_pos hr _ hrun hE
    (by rw [hS.distvals]; exact h256) (by rw [hS.distvals]; exact htop)
    (fun x hx => by rcases hal x hx with e | e <;> rw [e] <;> norm_num) hdoc
    (fun x hx => by rcases hal x hx with e | e <;> rw [e] <;> assumption) (c := c) (g5 c hc)
  have hn : E.numSites = D.numSites := hS.numSites
  rw [hn] at key
  obtain ⟨m, data, k1, k2, -⟩ := C110_history_partial two_pos hr _ hrun hE
    (by rw [hS.distvals]; exact h256) (by rw [hS.distvals]; exact htop)
    (fun x hx => by rcases hal x hx with e | e <;> rw [e] <;> norm_num) hdoc
  refine ⟨w, L, D, L', m, data, g1, g2, g3, g4, k1, k2, fun c hc => ⟨g5 c hc, ?_⟩⟩
  obtain ⟨m', data', k1', k2', -, -, k3⟩ := key c hc
  cases k1.symm.trans k1'
  cases k2.symm.trans k2'
  exact k3

/-- Graphene with 10 × 18 cells and the hopping 27/10. -/
example (env : Env ℝ) (s : Session) : ∃ w L D L' m data, graphene env s 1 = .ok w ∧
    (Lattice.ofWorld w).build env (primitiveBox ![19 / 2, 35 / 2] false) = (L, .ok ()) ∧
    L.data = some D ∧ L.setPeriodic env (.axes [0, 1]) = (L', .ok ()) ∧
    (L'.dmap env.argsortNat).2 = .ok m ∧ m.fill [(.hopping (some 0), (27 / 10 : ℂ))] = .ok data ∧
    ∀ c, ColourOf D atomColour c → TwoColoured L' c := by
  obtain ⟨w, L, D, L', m, data, h1, h2, h3, h4, h5, h6, h7⟩ := C127_graphene_torus_partial env s 1
    le_rfl (size := ![10, 18]) (σ := ![19 / 2, 35 / 2]) false (by intro k; fin_cases k <;> simp)
    (by intro k; fin_cases k <;> norm_num) (assigns := [(.hopping (some 0), (27 / 10 : ℂ))])
    (by
      intro p hp
      rw [List.mem_singleton] at hp
      subst hp
      exact ⟨nofun, fun a ha => by cases ha; rfl⟩)
    (by simp [lastValue, ForSite]) (by simp [lastValue, ForSite])
  exact ⟨w, L, D, L', m, data, h1, h2, h3, h4, h5, h6, fun c hc => (h7 c hc).1⟩

/-- C127, rings with an even number of sites are coloured by the parity of the sites. -/
theorem C127_even_ring_partial (env : Env ℝ) {N : ℕ} (hN : 2 ≤ N) (hodd : Odd N) {w : World 1 ℝ}
    {A : Analysis 1 ℝ} {L : Lattice 1 ℝ} {D : LatticeData 1 ℝ}
    {table : List (List (ℕ × WithTop ℝ))}
    (h : IsBuiltChain env 1 N (fun _ => true) w A L D table) :
    ∃ L', L.setPeriodic env (.axes [0]) = (L', .ok ()) ∧
      TwoColoured L' fun i => decide (i % 2 = 0) := by
  obtain ⟨L', E, h1, h2, -, h3, -, h5, -⟩ := C64_ring_partial env (by omega) one_pos h
  have hn : E.numSites = N + 1 := by
    have := h.numSites
    rw [chainCells_true, List.length_range] at this
    rw [← this]
    unfold LatticeData.numSites
    rw [h3]
  refine ⟨L', h1, E, h2, fun i hi => ?_⟩
  rw [hn] at hi
  obtain ⟨l, g1, -, -, g2⟩ := h5 i hi
  refine ⟨l, g1, fun j hj => ?_⟩
  obtain ⟨hj, m, m1, m2, m3⟩ := (g2 j).1 hj
  have : m = 1 := by omega
  subst this
  rw [hn]
  refine ⟨hj, ?_⟩
  have := (ringSteps_iff (M := N + 1) (m := 1) (by omega) hi hj).1 m3
  rw [Nat.odd_iff] at hodd
  rw [Ne, decide_eq_decide]
  omega

/-- A ring of six sites. -/
example (env : Env ℝ) : ∃ w A L D table, IsBuiltChain env 1 5 (fun _ => true) w A L D table ∧
    ∃ L', L.setPeriodic env (.axes [0]) = (L', .ok ()) ∧
      TwoColoured L' fun i => decide (i % 2 = 0) := by
  obtain ⟨w, A, L, D, table, h⟩ := exists_isBuiltChain env (nb := 1) (by norm_num) (by norm_num) 5
    (fun _ => true) (by rw [chainCells_true]; norm_num)
  exact ⟨w, A, L, D, table, h, C127_even_ring_partial env (by norm_num) (by decide) h⟩

/-- C127 fails for periodic rings with an odd number of sites: no colouring exists at all.  The chain
itself has one (`C127_presets_partial`). -/
theorem C127_odd_ring_fails (env : Env ℝ) {N : ℕ} (hN : 2 ≤ N) (hev : Even N) {w : World 1 ℝ}
    {A : Analysis 1 ℝ} {L : Lattice 1 ℝ} {D : LatticeData 1 ℝ}
    {table : List (List (ℕ × WithTop ℝ))}
    (h : IsBuiltChain env 1 N (fun _ => true) w A L D table) :
    ∃ L', L.setPeriodic env (.axes [0]) = (L', .ok ()) ∧ ∀ c, ¬ TwoColoured L' c := by
  obtain ⟨L', E, h1, h2, -, h3, -, h5, -⟩ := C64_ring_partial env (by omega) one_pos h
  refine ⟨L', h1, ?_⟩
  rintro c ⟨E', hE', hc⟩
  cases h2.symm.trans hE'
  have hn : E.numSites = N + 1 := by
    have := h.numSites
    rw [chainCells_true, List.length_range] at this
    rw [← this]
    unfold LatticeData.numSites
    rw [h3]
  rw [hn] at hc
  have step : ∀ i < N + 1, c ((i + 1) % (N + 1)) ≠ c i := by
    intro i hi
    obtain ⟨l, g1, -, -, g2⟩ := h5 i hi
    obtain ⟨l', g3, g4⟩ := hc i hi
    cases g1.symm.trans g3
    exact (g4 _ ((g2 _).2 ⟨Nat.mod_lt _ (by omega), 1, one_pos, le_rfl, Or.inl rfl⟩)).2
  have alt : ∀ i ≤ N, c i = (c 0 ^^ decide (Odd i)) := by
    intro i
    induction i with
    | zero => simp
    | succ i ih =>
      intro hi
      have := step i (by omega)
      rw [Nat.mod_eq_of_lt (by omega), ih (by omega)] at this
      simp only [Nat.odd_add_one]
      by_cases ho : Odd i <;> cases h0 : c 0 <;> cases h1 : c (i + 1) <;> simp_all
  have h0 := step N (by omega)
  rw [Nat.mod_self, alt N le_rfl] at h0
  rw [← Nat.not_odd_iff_even] at hev
  simp [hev] at h0

/-- A ring of five sites. -/
example (env : Env ℝ) : ∃ w A L D table, IsBuiltChain env 1 4 (fun _ => true) w A L D table ∧
    ∃ L', L.setPeriodic env (.axes [0]) = (L', .ok ()) ∧ ∀ c, ¬ TwoColoured L' c := by
  obtain ⟨w, A, L, D, table, h⟩ := exists_isBuiltChain env (nb := 1) (by norm_num) (by norm_num) 4
    (fun _ => true) (by rw [chainCells_true]; norm_num)
  exact ⟨w, A, L, D, table, h, C127_odd_ring_fails env (by norm_num) (by decide) h⟩

/-! ## Periodic hypercubic lattices -/

theorem torusStep_parity {size : Fin d → ℕ} {axes : List ℕ}
    (he : ∀ k : Fin d, k.val ∈ axes → Even (size k)) {a b : Idx d}
    (h : TorusStep size axes a.cell b.cell) : cellParity b ≠ cellParity a := by
  refine parity_ne ?_
  obtain ⟨k, h1, h2⟩ := h
  rw [← Finset.sum_sub_distrib, Finset.sum_eq_single k
    (fun m _ hm => by rw [h1 m hm, sub_self]) (fun hk => absurd (Finset.mem_univ k) hk)]
  rcases h2 with h2 | h2 | ⟨hk, h2⟩
  · rw [h2, add_sub_cancel_left]; exact odd_one
  · rw [h2]; exact ⟨-1, by ring⟩
  · obtain ⟨q, hq⟩ := he k hk
    rcases h2 with ⟨e1, e2⟩ | ⟨e1, e2⟩
    · rw [e1, e2, hq]; exact ⟨q - 1, by push_cast; ring⟩
    · rw [e1, e2, hq]; exact ⟨-q, by push_cast; ring⟩

/-- C127 for `finite_hypercubic` with periodic axes of two or more cells: the sites can be coloured if
and only if all periodic axes have an even number of cells; then the parity of the cells is a
colouring. -/
theorem C127_hypercubic_torus_partial (hd : 0 < d) (hdim : d ≤ 10 ^ 9) (env : Env ℝ) (s : Session)
    (atom : AtomSpec) (size : Fin d → ℕ) (hs : ∀ k, 0 < size k) (isInt : Bool) {axes : List ℕ}
    (hax : ∀ a ∈ axes, a < d) (h2 : ∀ k : Fin d, k.val ∈ axes → 2 ≤ size k) {p : PAxis}
    (hp : p = .axes axes ∨ p = .flag true ∧ axes = List.range d) :
    ∃ (L : Lattice d ℝ) (D : LatticeData d ℝ), Preset.finiteHypercubic env s
      (.size (List.ofFn fun k => (size k : ℝ)) isInt) 1 atom 1 true (some p) = .ok L ∧
      L.data = some D ∧ D.numSites = ∏ k, size k ∧
      ((∃ c, TwoColoured L c) ↔ ∀ k : Fin d, k.val ∈ axes → Even (size k)) ∧
      ((∀ k : Fin d, k.val ∈ axes → Even (size k)) → ∀ c, ColourOf D cellParity c →
        TwoColoured L c) := by
  obtain ⟨L, D, h1, h2', -, -, h3, hnd, hw, -, hnb⟩ :=
    C98_neighbors_partial hd hdim env s atom size hs isInt hax h2 hp
  have hcol : (∀ k : Fin d, k.val ∈ axes → Even (size k)) → ∀ c, ColourOf D cellParity c →
      TwoColoured L c := by
    intro he c hc
    refine ⟨D, h2', fun i hi => ?_⟩
    have hi' : i < D.indices.length := hi
    obtain ⟨l, e1, -, e3⟩ := hnb i _ (List.getElem?_eq_getElem hi')
    refine ⟨l, e1, fun j hj => ?_⟩
    obtain ⟨b, g1, g2⟩ := (e3 j).1 hj
    refine ⟨(List.getElem?_eq_some_iff.1 g1).1, ?_⟩
    rw [hc i _ (List.getElem?_eq_getElem hi'), hc j b g1]
    exact torusStep_parity he g2
  refine ⟨L, D, h1, h2', h3, ⟨?_, fun he => ?_⟩, hcol⟩
  · rintro ⟨c, D', hD', hc⟩ k hk
    cases h2'.symm.trans hD'
    -- the sites along the axis
    have hsite : ∀ m : ℕ, ∃ i : ℕ, m < size k →
        D.indices[i]? = some (Idx.mk (Pi.single k (m : ℤ)) 0) := by
      intro m
      by_cases hm : m < size k
      · have : Idx.mk (Pi.single k (m : ℤ)) 0 ∈ D.indices := by
          rw [hw, Idx.alpha_mk, Idx.cell_mk]
          refine ⟨rfl, fun k' => ?_⟩
          by_cases e : k' = k
          · subst e; rw [Pi.single_eq_same]; omega
          · rw [Pi.single_eq_of_ne e]; have := hs k'; omega
        obtain ⟨i, hi⟩ := List.mem_iff_getElem?.1 this
        exact ⟨i, fun _ => hi⟩
      · exact ⟨0, fun h => absurd h hm⟩
    choose f hf using hsite
    have step : ∀ m m' : ℕ, m < size k → m' < size k →
        TorusStep size axes (Pi.single k (m : ℤ)) (Pi.single k (m' : ℤ)) → c (f m') ≠ c (f m) := by
      intro m m' hm hm' hst
      obtain ⟨l, e1, -, e3⟩ := hnb _ _ (hf m hm)
      obtain ⟨l', e1', e4⟩ := hc (f m) (List.getElem?_eq_some_iff.1 (hf m hm)).1
      cases e1.symm.trans e1'
      exact (e4 _ ((e3 _).2 ⟨_, hf m' hm', by rw [Idx.cell_mk, Idx.cell_mk]; exact hst⟩)).2
    have alt : ∀ m < size k, c (f m) = (c (f 0) ^^ decide (Odd m)) := by
      intro m
      induction m with
      | zero => simp
      | succ m ih =>
        intro hm
        have := step m (m + 1) (by omega) hm
          ⟨k, fun n hn => by rw [Pi.single_eq_of_ne hn, Pi.single_eq_of_ne hn], Or.inl (by simp)⟩
        rw [ih (by omega)] at this
        simp only [Nat.odd_add_one]
        by_cases ho : Odd m <;> cases h0 : c (f 0) <;> cases h1 : c (f (m + 1)) <;> simp_all
    have h2k := h2 k hk
    have last := step (size k - 1) 0 (by omega) (by omega)
      ⟨k, fun n hn => by rw [Pi.single_eq_of_ne hn, Pi.single_eq_of_ne hn],
        Or.inr (Or.inr ⟨hk, Or.inr ⟨by simp, by rw [Pi.single_eq_same]; omega⟩⟩)⟩
    rw [alt (size k - 1) (by omega)] at last
    by_contra hodd
    rw [Nat.not_even_iff_odd] at hodd
    have : ¬ Odd (size k - 1) := by
      rw [Nat.not_odd_iff_even]
      exact Nat.Odd.sub_odd hodd odd_one
    simp [this] at last
  · refine ⟨_, hcol he (fun i => match D.indices[i]? with
      | some a => cellParity a
      | none => false) fun i a ha => ?_⟩
    dsimp only
    rw [ha]

/-- A torus of 2 × 6 cells can be coloured, one of 4 × 5 cells cannot. -/
example (env : Env ℝ) (s : Session) :
    (∃ L : Lattice 2 ℝ, Preset.finiteHypercubic env s
      (.size (List.ofFn fun k : Fin 2 => ((![2, 6] k : ℕ) : ℝ)) true) 1 .none 1 true
      (some (.flag true)) = .ok L ∧ ∃ c, TwoColoured L c) ∧
    ∃ L : Lattice 2 ℝ, Preset.finiteHypercubic env s
      (.size (List.ofFn fun k : Fin 2 => ((![4, 5] k : ℕ) : ℝ)) true) 1 .none 1 true
      (some (.flag true)) = .ok L ∧ ¬ ∃ c, TwoColoured L c := by
  constructor
  · obtain ⟨L, D, h1, -, -, h2, -⟩ := C127_hypercubic_torus_partial (d := 2) two_pos (by norm_num)
      env s .none ![2, 6] (by decide) true (axes := [0, 1]) (by decide) (by decide)
      (Or.inr ⟨rfl, by decide⟩)
    exact ⟨L, h1, h2.2 (by decide)⟩
  · obtain ⟨L, D, h1, -, -, h2, -⟩ := C127_hypercubic_torus_partial (d := 2) two_pos (by norm_num)
      env s .none ![4, 5] (by decide) true (axes := [0, 1]) (by decide) (by decide)
      (Or.inr ⟨rfl, by decide⟩)
    exact ⟨L, h1, fun h => absurd (h2.1 h 1 (by decide)) (by decide)⟩

/-! ## Any sequence of `set_periodic` calls -/

/-- The atoms of all neighbouring sites, also across periodic boundaries, are connected. -/
def OnlyConnected (A : Analysis d ℝ) (L : Lattice d ℝ) : Prop :=
  ∃ D, L.data = some D ∧ ∀ i < D.numSites, ∃ l, L.neighbors i none false = .ok l ∧
    ∀ j ∈ l, ∃ (a b : Idx d) (x : ℝ), D.indices[i]? = some a ∧ D.indices[j]? = some b ∧
      Configured A a.alpha b.alpha x

/-- The lattice after the calls `set_periodic(axis)` for the given arguments, whatever their results. -/
noncomputable def afterPeriodic (env : Env ℝ) (L : Lattice d ℝ) (axs : List PAxis) : Lattice d ℝ :=
  axs.foldl (fun L axis => (L.setPeriodic env axis).1) L

theorem connected_step (hd : 0 < d) {env : Env ℝ} {w : World d ℝ} (hw : Reachable env w)
    {A : Analysis d ℝ} (hA : w.struct.analysis = some A) (axs : List PAxis) :
    ∀ (ops : List (Lattice.Op d ℝ)) {L : Lattice d ℝ} {D : LatticeData d ℝ},
      Lattice.run env (Lattice.ofWorld w) ops = L → L.data = some D → D.distvals.length ≤ 256 →
      L.shape ≠ none → L.world = w → OnlyConnected A L →
      OnlyConnected A (afterPeriodic env L axs) ∧
        ∃ E ops', Lattice.run env (Lattice.ofWorld w) ops' = afterPeriodic env L axs ∧
          (afterPeriodic env L axs).data = some E ∧ SameSites D E := by
  induction axs with
  | nil => exact fun ops L D hL hD _ _ _ hc => ⟨hc, D, ops, hL, hD, SameSites.refl D⟩
  | cons axis axs ih =>
    intro ops L D hL hD h256 hs hworld hc
    have hf := Lattice.setPeriodic_frame env L axis
    obtain ⟨E, hE, hS⟩ := hf.2.2.2.2.2 D hD
    have hrun : Lattice.run env (Lattice.ofWorld w) (ops ++ [.setPeriodic axis]) =
        (L.setPeriodic env axis).1 := by
      unfold Lattice.run at hL ⊢
      rw [List.foldl_append, hL]
      rfl
    have h256' : E.distvals.length ≤ 256 := by rw [hS.distvals]; exact h256
    have key : OnlyConnected A (L.setPeriodic env axis).1 := by
      obtain ⟨D', hD', hc⟩ := hc
      cases hD.symm.trans hD'
      obtain ⟨E', hE', -, -, ⟨hreg, -⟩, hper⟩ := C64_sound hd hw ops hL hD h256 hs axis
        (Prod.mk.eta (p := L.setPeriodic env axis)).symm
      cases hE.symm.trans hE'
      obtain ⟨width, hr⟩ := (Lattice.run_weak hd hw ops (by rw [hL]; exact hD) h256).sound.rect
      obtain ⟨width', hr'⟩ := (Lattice.run_weak hd hw _ (by rw [hrun]; exact hE) h256').sound.rect
      refine ⟨E, hE, fun i hi => ?_⟩
      obtain ⟨per, reg, all, e1, e2, e3, e4⟩ := C47_periodic_partition hr' hi none false
      refine ⟨all, by unfold Lattice.neighbors; rw [hE]; exact e3, fun j hj => ?_⟩
      have hi' : i < D.numSites := by rw [← hS.numSites]; exact hi
      rw [hS.indices]
      rcases List.mem_append.1 (e4.mem_iff.2 hj) with hj | hj
      · obtain ⟨A', vecs, hA', -, v, -, x, hI | hI⟩ := hper i per e1 j hj <;>
        · obtain ⟨p, q, a, b, -, -, ha, hb, -, hC⟩ := hI
          unfold Lattice.struct at hA'
          rw [hworld, hA] at hA'
          cases hA'
          exact ⟨a, b, x, ha, hb, hC⟩
      · obtain ⟨l, hl, hjl⟩ := hreg i j ⟨reg, e2, hj⟩
        obtain ⟨per', reg', all', f1, f2, f3, f4⟩ := C47_periodic_partition hr hi' none false
        cases hl.symm.trans f2
        obtain ⟨l', g1, g2⟩ := hc i hi'
        unfold Lattice.neighbors at g1
        rw [hD] at g1
        cases g1.symm.trans f3
        exact g2 j (f4.mem_iff.1 (List.mem_append_right _ hjl))
    obtain ⟨k1, F, ops', k2, k3, k4⟩ := ih _ hrun hE h256' (by rw [hf.2.1]; exact hs)
      (by rw [hf.1]; exact hworld) key
    refine ⟨k1, F, ops', k2, k3, ?_⟩
    exact ⟨k4.indices.trans hS.indices, k4.positions.trans hS.positions,
      k4.distvals.trans hS.distvals, k4.invalidIdx.trans hS.invalidIdx,
      k4.invalidDistidx.trans hS.invalidDistidx⟩

/-- C127, atoms without a connection are never neighbours: after every build and every sequence of
`set_periodic` calls, also failing ones and for sites of any shape. -/
theorem C127_connected_partial (hd : 0 < d) {env : Env ℝ} {w : World d ℝ} (hw : Reachable env w)
    (hS : SitesDistinct w.struct) {a : BuildArgs d ℝ} (hm : a.minNeighbors = none)
    (hp : a.periodic = none) (hb : a.bits = none) {L : Lattice d ℝ}
    (hok : (Lattice.ofWorld w).build env a = (L, .ok ())) {D : LatticeData d ℝ}
    (hD : L.data = some D) (htop : ⊤ ∈ D.distvals) (h256 : D.distvals.length ≤ 256)
    (axs : List PAxis) :
    ∃ A E ops, w.struct.analysis = some A ∧ OnlyConnected A (afterPeriodic env L axs) ∧
      Lattice.run env (Lattice.ofWorld w) ops = afterPeriodic env L axs ∧
      (afterPeriodic env L axs).data = some E ∧ SameSites D E := by
  obtain ⟨A, D', hA, hD', -, -, hn⟩ :=
    C59_neighbors_partial (L := Lattice.ofWorld w) hd hw hS hm hp hb hok
  cases hD.symm.trans hD'
  have hworld : L.world = w := by
    have := build_keeps_world env (Lattice.ofWorld w) a
    rw [hok] at this
    exact this
  obtain ⟨A', sh, D'', lo', hi', -, -, -, -, hL'⟩ := Lattice.build_ok hp hok
  have hsh : L.shape ≠ none := by rw [hL']; simp
  have hrun : Lattice.run env (Lattice.ofWorld w) [.build a] = L := by
    simp only [Lattice.run, List.foldl_cons, List.foldl_nil, Lattice.call]
    rw [hok]
  have hc : OnlyConnected A L := by
    refine ⟨D, hD, fun i hi => ?_⟩
    obtain ⟨l, h1, -, h2, -⟩ := hn htop h256 i hi
    refine ⟨l, h1, fun j hj => ?_⟩
    obtain ⟨-, p, q, a, b, -, -, ha, hb, hC⟩ := h2 j hj
    exact ⟨a, b, _, ha, hb, hC⟩
  obtain ⟨k1, E, ops, k2, k3, k4⟩ := connected_step hd hw hA axs _ hrun hD h256 hsh hworld hc
  exact ⟨A, E, ops, hA, k1, k2, k3, k4⟩

/-- A connection is between atoms which are neighbours in the infinite structure. -/
theorem configured_listed (hd : 0 < d) {env : Env ℝ} {w : World d ℝ} (hr : Reachable env w)
    {A : Analysis d ℝ} (hA : w.struct.analysis = some A) {a b : ℤ} {x : ℝ}
    (h : Configured A a b x) : 0 ≤ a ∧ 0 ≤ b ∧ a.toNat < w.struct.numBase ∧
      ∃ n, Listed A a.toNat x (Idx.mk n b) := by
  obtain ⟨cells, m, c, -, -, -, -, -, hI⟩ := (hr.good hd).analysis A hA
  obtain ⟨h1, h2, h3, h4, h5⟩ := hI.configured.1 h
  refine ⟨h1, h2, h3, ?_⟩
  obtain ⟨-, n, hn, hx⟩ := mem_levels.1 (List.mem_of_mem_take h5)
  exact ⟨n, (listed_iff hI _ _ _).2 ⟨h3, b.toNat, h4, n, hn, by rw [Int.toNat_of_nonneg h2], hx, h5⟩⟩

/-- C127 for the honeycomb lattice and graphene: after every build and every sequence of
`set_periodic` calls, successful or not, the neighbours of a site are sites of the other atom. -/
theorem C127_honeycomb_partial (env : Env ℝ) (s : Session) (a : ℝ) (ha : 1 / 10 ^ 5 ≤ |a|)
    (atom : AtomSpec) {w : World 2 ℝ} (hw : honeycomb env s a atom = .ok w ∨ graphene env s a = .ok w)
    {b : BuildArgs 2 ℝ} (hm : b.minNeighbors = none) (hp : b.periodic = none) (hb : b.bits = none)
    {L : Lattice 2 ℝ} (hok : (Lattice.ofWorld w).build env b = (L, .ok ())) (axs : List PAxis) :
    ∃ D, (afterPeriodic env L axs).data = some D ∧
      ∀ c, ColourOf D atomColour c → TwoColoured (afterPeriodic env L axs) c := by
  have hN : Reachable env w ∧ NearestOnly w |a| honeySets := by
    rcases hw with hw | hw
    · obtain ⟨w', at', h1, -, -, h2, h3, h4⟩ := C84_honeycomb_partial env s a ha atom
      cases hw.symm.trans h1
      obtain ⟨s', ops, hc⟩ := honeycomb_configure h1
      have hr := configure_reachable hc
      exact ⟨hr, honey_only ha hr (configure_vectors hc) h2 h3 h4⟩
    · obtain ⟨w', h1, -, h2, h3, h4⟩ := C84_graphene_partial env s a ha
      cases hw.symm.trans h1
      obtain ⟨s', ops, hc⟩ := graphene_configure h1
      have hr := configure_reachable hc
      exact ⟨hr, honey_only ha hr (configure_vectors hc) h2 h3 h4⟩
  obtain ⟨hr, hN⟩ := hN
  have hr' : Reachable env (Lattice.ofWorld w).world := hr
  obtain ⟨A, D, table, hA, hD, -, hsites, hnd, hcomp, hset⟩ := build_table two_pos hr' hm hp hb hok
  obtain ⟨row, hrow, -⟩ := set_nonempty hset
  have h0 : 0 < D.positions.length := by
    rw [← (hN.table two_pos hr hA hsites hnd hcomp).2.1]
    exact List.length_pos_of_mem hrow
  obtain ⟨D', hset', -, -, htop, h256, -⟩ := hN.data two_pos hr hA hsites hnd h0 hcomp
  rw [hset] at hset'
  cases hset'
  obtain ⟨A', E, ops, hA', ⟨E', hE', hc⟩, -, hE, hS⟩ := C127_connected_partial two_pos hr hN.distinct
    hm hp hb hok hD htop h256 axs
  cases hE.symm.trans hE'
  refine ⟨E, hE, fun c hcol => ⟨E, hE, fun i hi => ?_⟩⟩
  obtain ⟨l, h1, h2⟩ := hc i hi
  refine ⟨l, h1, fun j hj => ?_⟩
  obtain ⟨x, y, dist, hx, hy, hC⟩ := h2 j hj
  refine ⟨(List.getElem?_eq_some_iff.1 hy).1, ?_⟩
  rw [hcol i x hx, hcol j y hy]
  obtain ⟨p1, -, p2, n, hl⟩ := configured_listed two_pos hr hA' hC
  obtain ⟨A'', hA'', hl'⟩ := hN.listed _ p2
  cases hA'.symm.trans hA''
  have hmem := ((hl' _ _).1 hl).2
  have := honey_colouring w _ p2 (Idx.mk 0 x.alpha) (Idx.mk n y.alpha)
    (by rw [Idx.alpha_mk]; omega) (by rw [Idx.cell_mk, Idx.cell_mk, Idx.alpha_mk, sub_zero]; exact hmem)
  unfold atomColour at this ⊢
  rwa [Idx.alpha_mk, Idx.alpha_mk] at this

/-- A box of graphene of the size 10 × 20 after three calls: with an axis which does not exist, for
both axes, and for the second axis. -/
example (env : Env ℝ) (s : Session) : ∃ w L D, graphene env s 1 = .ok w ∧
    (Lattice.ofWorld w).build env { shape := .size (List.ofFn ![10, 20]) true } = (L, .ok ()) ∧
    (afterPeriodic env L [.axes [0, 7], .flag true, .axes [1]]).data = some D ∧
    ∀ c, ColourOf D atomColour c →
      TwoColoured (afterPeriodic env L [.axes [0, 7], .flag true, .axes [1]]) c := by
  obtain ⟨-, -, -, -, -, -, w, h1, h2⟩ := C108_boxes env s 1 (by norm_num) .none
  obtain ⟨L, D, b, -⟩ := h2 ![10, 20] true (by intro k; fin_cases k <;> norm_num)
  obtain ⟨D', h3, h4⟩ := C127_honeycomb_partial env s 1 (by norm_num) .none (Or.inr h1) rfl rfl rfl b
    [.axes [0, 7], .flag true, .axes [1]]
  exact ⟨w, L, D', h1, b, h3, h4⟩

end Lattpy
