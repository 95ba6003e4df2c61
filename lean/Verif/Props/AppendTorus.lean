import Verif.Props.AppendPresets

/-!
# Lattices joined from several blocks of whole cells, and their tori (C68, C111)
-/

set_option autoImplicit false
set_option linter.unusedSectionVars false

namespace Lattpy

open Structure World Preset LatticeData Lattpy.Lattice

variable {d : ℕ}

/-! ## spec -/

/-- A build without `min_neighbors`, `periodic` and `dtype`. -/
def BuildArgs.Plain (a : BuildArgs d ℝ) : Prop :=
  a.minNeighbors = none ∧ a.periodic = none ∧ a.bits = none

/-- `M2` is a block built from `L` with which the block of the cells from `lo` on can be continued
along `ax`: the same first cells, the same cross section, and one of the two has at least three cells
along `ax`. -/
structure Continues (env : Env ℝ) (L : Lattice d ℝ) (lo : Fin d → ℤ) (size1 size2 : Fin d → ℕ)
    (ax : Fin d) (M2 : Lattice d ℝ) : Prop where
  built : ∃ a : BuildArgs d ℝ, a.Plain ∧ L.build env a = (M2, .ok ())
  whole : ∃ D2, M2.data = some D2 ∧ WholeCells L.struct D2 lo size2
  cross : ∀ k, k ≠ ax → size1 k = size2 k
  three : 3 ≤ size1 ax ∨ 3 ≤ size2 ax

/-- The lattices made from blocks of whole cells by any number of calls of `append`, along any axes
and on any sides; the block has the cells from `lo` on, `size k` of them along the axis `k`. -/
inductive Joined (env : Env ℝ) (L : Lattice d ℝ) :
    Lattice d ℝ → (Fin d → ℤ) → (Fin d → ℕ) → Prop
  | built {a : BuildArgs d ℝ} {M : Lattice d ℝ} {D : LatticeData d ℝ} {lo : Fin d → ℤ}
      {size : Fin d → ℕ} : a.Plain → (a.primitive = true ∨ Orthogonal L.struct.basis) →
      L.build env a = (M, .ok ()) → M.data = some D → WholeCells L.struct D lo size →
      Joined env L M lo size
  | append {M M2 M' : Lattice d ℝ} {lo : Fin d → ℤ} {size1 size2 : Fin d → ℕ} {ax : Fin d}
      {side : Bool} : Joined env L M lo size1 → Continues env L lo size1 size2 ax M2 →
      M.append env M2 ax.val side none false = (M', .ok ()) →
      Joined env L M' (joinLo lo size2 ax side) (joinSize size1 size2 ax)

/-! ## lemmas -/

/-- What is known about a joined lattice. -/
structure JoinedData (env : Env ℝ) (L : Lattice d ℝ) (r : ℝ) (N : ℕ → Set (Idx d)) (M : Lattice d ℝ)
    (lo : Fin d → ℤ) (size : Fin d → ℕ) (E : LatticeData d ℝ) : Prop where
  world : M.world = L.world
  prim : M.primitive.getD false = true ∨ Orthogonal L.struct.basis
  cell : ∃ w, CellData L.struct r w E
  tiling : ∃ A, IsTiling env M r N A E lo size

theorem JoinedData.append (hd : 0 < d) {env : Env ℝ} {L M M2 : Lattice d ℝ}
    (hr : Reachable env L.world) {r : ℝ} {N : ℕ → Set (Idx d)} (h : NearestOnly L.world r N)
    (hst : NearSteps N) (hround : r ≤ npRound 6 r) {lo : Fin d → ℤ} {size1 size2 : Fin d → ℕ}
    {E : LatticeData d ℝ} (hM : JoinedData env L r N M lo size1 E) {ax : Fin d}
    (h2 : Continues env L lo size1 size2 ax M2) (side : Bool) :
    ∃ M' F, M.append env M2 ax.val side none false = (M', .ok ()) ∧
      JoinedData env L r N M' (joinLo lo size2 ax side) (joinSize size1 size2 ax) F := by
  obtain ⟨⟨a2, ha2, hok2⟩, ⟨D2, hD2, hw2⟩, hcross, h3⟩ := h2
  obtain ⟨hworld, hprim, ⟨w, hE⟩, A, hT⟩ := hM
  obtain ⟨hworld2, -, A2, table2, hT2⟩ := exists_isTiled hd hr h hst ha2.1 ha2.2.1 ha2.2.2 hok2 hD2 hw2
  have hS : M.struct = L.struct := congrArg World.struct hworld
  have hS2 : M2.struct = L.struct := congrArg World.struct hworld2
  obtain ⟨width2, c2, hinf⟩ := hT2.cellData hd
  obtain ⟨k, R, hq⟩ := hT.params
  rw [hS2, ← hS] at c2
  rw [← hS] at hE hw2
  obtain ⟨L', F, e1, e2, e3, e4, e7, e5, e6⟩ := cells_join hd env hT.data hT.analysis hT.reach hT.near
    (fun α x hx => (hst α x hx).1) hq hround hE c2 hinf (ax := ax) (side := side)
    (by rw [hS]; exact hprim) hT.whole hw2 hcross h3
  have hS' : L'.struct = M.struct := congrArg World.struct e3
  rw [← hS'] at e5 e6
  refine ⟨L', F, ?_, e3.trans hworld, by rw [e4]; exact hprim, ⟨_, by rw [← hS, ← hS']; exact e5⟩, A, ?_⟩
  · unfold Lattice.append
    rw [hD2]
    exact e1
  · exact e5.tiling (by rw [e3]; exact hT.reach) (by rw [e3]; exact hT.near) hst
      (by rw [hS']; exact hT.analysis) ⟨_, _, hq⟩ e2 e7 e6

theorem Joined.data (hd : 0 < d) {env : Env ℝ} {L M : Lattice d ℝ}
    (hr : Reachable env L.world) {r : ℝ} {N : ℕ → Set (Idx d)} (h : NearestOnly L.world r N)
    (hst : NearSteps N) (hround : r ≤ npRound 6 r) {lo : Fin d → ℤ} {size : Fin d → ℕ}
    (hM : Joined env L M lo size) : ∃ E, JoinedData env L r N M lo size E := by
  induction hM with
  | @built a M D lo size ha hprim hok hD hw =>
    obtain ⟨hworld, hp, A, table, hT⟩ := exists_isTiled hd hr h hst ha.1 ha.2.1 ha.2.2 hok hD hw
    have hS : M.struct = L.struct := congrArg World.struct hworld
    obtain ⟨width, c, -⟩ := hT.cellData hd
    rw [hS] at c
    exact ⟨D, hworld, by rw [hp]; exact hprim, ⟨_, c⟩, A, hT.tiling hd⟩
  | @append M M2 M' lo size1 size2 ax side h1 h2 happ ih =>
    obtain ⟨E, hE⟩ := ih
    obtain ⟨M'', F, e1, e2⟩ := hE.append hd hr h hst hround h2 side
    rw [happ] at e1
    cases e1
    exact ⟨F, e2⟩

/-! ## C68, C111 -/

/-- C68 for any number of `append`s along any axes and on any sides (structures as in
`C68_cells_partial`): the lattice is the block of all the cells, with all links between the nearest
sites and no others, so it has the sites and neighbours of every direct build of these cells
(`C68_block_direct`).  Appending a further block always succeeds. -/
theorem C68_joined_partial (hd : 0 < d) {env : Env ℝ} {L M : Lattice d ℝ}
    (hr : Reachable env L.world) {r : ℝ} {N : ℕ → Set (Idx d)} (h : NearestOnly L.world r N)
    (hst : NearSteps N) (hround : r ≤ npRound 6 r) {lo : Fin d → ℤ} {size : Fin d → ℕ}
    (hM : Joined env L M lo size) :
    (∃ E, IsBlock L.struct r lo size M E) ∧
      ∀ (M2 : Lattice d ℝ) (size2 : Fin d → ℕ) (ax : Fin d) (side : Bool),
        Continues env L lo size size2 ax M2 →
        ∃ M', M.append env M2 ax.val side none false = (M', .ok ()) := by
  obtain ⟨E, hE⟩ := hM.data hd hr h hst hround
  obtain ⟨w, hc⟩ := hE.cell
  obtain ⟨A, hT⟩ := hE.tiling
  have hS : M.struct = L.struct := congrArg World.struct hE.world
  refine ⟨⟨E, hc.block hT.data (by rw [← hS]; exact hT.whole)⟩, ?_⟩
  intro M2 size2 ax side h2
  obtain ⟨M', F, e1, -⟩ := hE.append hd hr h hst hround h2 side
  exact ⟨M', e1⟩

/-- C111 for lattices joined by any number of `append`s: `set_periodic` makes the torus of all the
cells, as for a direct build (`C111_torus_partial`). -/
theorem C111_joined_partial (hd : 0 < d) {env : Env ℝ} {L M : Lattice d ℝ}
    (hr : Reachable env L.world) {r : ℝ} {N : ℕ → Set (Idx d)} (h : NearestOnly L.world r N)
    (hst : NearSteps N) (hround : r ≤ npRound 6 r) {lo : Fin d → ℤ} {size : Fin d → ℕ}
    (hM : Joined env L M lo size) {axes : List ℕ} (hax : ∀ k ∈ axes, k < d)
    (h3 : ∀ k : Fin d, k.val ∈ axes → 3 ≤ size k) :
    ∃ E M', M.data = some E ∧ WholeCells L.struct E lo size ∧
      M.setPeriodic env (.axes axes) = (M', .ok ()) ∧ IsTorus L.struct E size axes r M' ∧
      ((∀ k : Fin d, k.val ∈ axes) → ∀ (i : ℕ) (p : Vec d ℝ), E.positions[i]? = some p →
        ∃ l, M'.neighbors i none false = .ok l ∧
          l.length = {x : Idx d | ∃ q, IsSitePos L.struct x q ∧ distance q p = r}.ncard) := by
  obtain ⟨E, hE⟩ := hM.data hd hr h hst hround
  obtain ⟨A, hT⟩ := hE.tiling
  have hS : M.struct = L.struct := congrArg World.struct hE.world
  obtain ⟨M', e1, e2⟩ := hT.periodic hd hax h3 (by rw [hS]; exact hE.prim)
  rw [hS] at e2
  exact ⟨E, M', hT.data, by rw [← hS]; exact hT.whole, e1, e2⟩

/-- C111 for lattices made by `repeat` on the positive side. -/
theorem C111_repeat_partial (hd : 0 < d) {env : Env ℝ} {L L1 : Lattice d ℝ}
    (hr : Reachable env L.world) {r : ℝ} {N : ℕ → Set (Idx d)} (h : NearestOnly L.world r N)
    (hst : NearSteps N) (hround : r ≤ npRound 6 r) {a : BuildArgs d ℝ} (ha : a.Plain)
    (hok : L.build env a = (L1, .ok ()))
    (hprim : a.primitive = true ∨ Orthogonal L.struct.basis) {D : LatticeData d ℝ}
    (hD : L1.data = some D) {lo : Fin d → ℤ} {size : Fin d → ℕ}
    (hw : WholeCells L.struct D lo size) {ax : Fin d} (hax3 : 3 ≤ size ax) (num : ℕ) {axes : List ℕ}
    (hax : ∀ k ∈ axes, k < d) (h3 : ∀ k : Fin d, k.val ∈ axes → 3 ≤ size k) :
    ∃ L' E L'', L1.repeat env num ax.val true none false = (L', .ok ()) ∧ L'.data = some E ∧
      L'.setPeriodic env (.axes axes) = (L'', .ok ()) ∧
      IsTorus L.struct E (Function.update size ax ((num + 1) * size ax)) axes r L'' ∧
      ((∀ k : Fin d, k.val ∈ axes) → ∀ (i : ℕ) (p : Vec d ℝ), E.positions[i]? = some p →
        ∃ l, L''.neighbors i none false = .ok l ∧
          l.length = {x : Idx d | ∃ q, IsSitePos L.struct x q ∧ distance q p = r}.ncard) := by
  obtain ⟨L', E, A, w, e1, e2, e3, -, hT⟩ :=
    repeat_tiling hd hr h hst hround ha hok hprim hD hw hax3 num
  have hS : L'.struct = L.struct := congrArg World.struct e2
  obtain ⟨L'', f1, f2⟩ := hT.periodic hd hax (fun k hk => by
    rcases eq_or_ne k ax with rfl | hne
    · rw [Function.update_self]
      exact le_trans hax3 (Nat.le_mul_of_pos_left _ (Nat.succ_pos num))
    · rw [Function.update_of_ne hne]
      exact h3 k hk) (by rw [e3, hS]; exact hprim)
  rw [hS] at f2
  exact ⟨L', E, L'', e1, hT.data, f1, f2⟩

/-! ## an example -/

/-- Three sheets of graphene of 3 × 4, 3 × 4 and 6 × 4 cells, joined along both axes and closed to a
torus of 6 × 8 cells. -/
example (env : Env ℝ) (s : Session) : ∃ w L1 L2 L3 M1 M2 E M3, graphene env s 1 = .ok w ∧
    (Lattice.ofWorld w).build env (primitiveBox ![5 / 2, 7 / 2] false) = (L1, .ok ()) ∧
    (Lattice.ofWorld w).build env (primitiveBox ![5 / 2, 7 / 2] false) = (L2, .ok ()) ∧
    (Lattice.ofWorld w).build env (primitiveBox ![11 / 2, 7 / 2] false) = (L3, .ok ()) ∧
    L1.append env L2 0 true none false = (M1, .ok ()) ∧
    M1.append env L3 1 false none false = (M2, .ok ()) ∧ M2.data = some E ∧
    M2.setPeriodic env (.axes [0, 1]) = (M3, .ok ()) ∧ IsTorus w.struct E ![6, 8] [0, 1] 1 M3 := by
  obtain ⟨w, h1, hr, hN, -, -, hB⟩ := graphene_block env s 1 le_rfl
  have hst := nearSteps_planar le_rfl honeySets_steps
  obtain ⟨L1, D1, b1, c1, w1⟩ := hB ![3, 4] ![5 / 2, 7 / 2] false
    (by intro k; fin_cases k <;> simp) (by intro k; fin_cases k <;> norm_num)
  obtain ⟨L2, D2, b2, c2, w2⟩ := hB ![3, 4] ![5 / 2, 7 / 2] false
    (by intro k; fin_cases k <;> simp) (by intro k; fin_cases k <;> norm_num)
  obtain ⟨L3, D3, b3, c3, w3⟩ := hB ![6, 4] ![11 / 2, 7 / 2] false
    (by intro k; fin_cases k <;> simp) (by intro k; fin_cases k <;> norm_num)
  have J1 : Joined env (Lattice.ofWorld w) L1 0 ![3, 4] :=
    .built ⟨rfl, rfl, rfl⟩ (Or.inl rfl) b1 c1 w1
  have C2 : Continues env (Lattice.ofWorld w) 0 ![3, 4] ![3, 4] 0 L2 :=
    ⟨⟨_, ⟨rfl, rfl, rfl⟩, b2⟩, ⟨D2, c2, w2⟩, by intro k hk; fin_cases k <;> simp at hk ⊢, by simp⟩
  obtain ⟨M1, m1⟩ := (C68_joined_partial two_pos hr hN hst npRound_one.ge J1).2 L2 _ 0 true C2
  have J2 := Joined.append J1 C2 m1
  have e2 : joinSize ![3, 4] ![3, 4] (0 : Fin 2) = ![6, 4] := by
    unfold joinSize
    funext k
    fin_cases k <;> simp
  rw [e2, show joinLo (0 : Fin 2 → ℤ) ![3, 4] 0 true = 0 from rfl] at J2
  have C3 : Continues env (Lattice.ofWorld w) 0 ![6, 4] ![6, 4] 1 L3 :=
    ⟨⟨_, ⟨rfl, rfl, rfl⟩, b3⟩, ⟨D3, c3, w3⟩, fun _ _ => rfl, by simp⟩
  obtain ⟨M2, m2⟩ := (C68_joined_partial two_pos hr hN hst npRound_one.ge J2).2 L3 _ 1 false C3
  have J3 := Joined.append J2 C3 m2
  have e3 : joinSize ![6, 4] ![6, 4] (1 : Fin 2) = ![6, 8] := by
    unfold joinSize
    funext k
    fin_cases k <;> simp
  rw [e3] at J3
  obtain ⟨E, M3, f1, -, f2, f3, -⟩ := C111_joined_partial two_pos hr hN hst npRound_one.ge J3
    (axes := [0, 1]) (by simp) (by intro k _; fin_cases k <;> simp)
  exact ⟨w, L1, L2, L3, M1, M2, E, M3, h1, b1, b2, b3, m1, m2, f1, f2, f3⟩

/-- A sheet of 3 × 4 cells, repeated five times along the first axis and closed to a torus. -/
example (env : Env ℝ) (s : Session) : ∃ w L L' E L'', graphene env s 1 = .ok w ∧
    (Lattice.ofWorld w).build env (primitiveBox ![5 / 2, 7 / 2] false) = (L, .ok ()) ∧
    L.repeat env 5 0 true none false = (L', .ok ()) ∧ L'.data = some E ∧
    L'.setPeriodic env (.axes [0, 1]) = (L'', .ok ()) ∧
    IsTorus w.struct E ![18, 4] [0, 1] 1 L'' := by
  obtain ⟨w, h1, hr, hN, -, -, hB⟩ := graphene_block env s 1 le_rfl
  obtain ⟨L, D, g1, g2, g3⟩ := hB ![3, 4] ![5 / 2, 7 / 2] false
    (by intro k; fin_cases k <;> simp) (by intro k; fin_cases k <;> norm_num)
  obtain ⟨L', E, L'', e1, e2, e3, e4, -⟩ := C111_repeat_partial (L := Lattice.ofWorld w) two_pos hr hN
    (nearSteps_planar le_rfl honeySets_steps) npRound_one.ge
    (a := primitiveBox ![5 / 2, 7 / 2] false) ⟨rfl, rfl, rfl⟩ g1 (Or.inl rfl) g2 g3 (ax := 0)
    (by simp) 5 (axes := [0, 1]) (by simp) (by intro k _; fin_cases k <;> simp)
  have : Function.update (![3, 4] : Fin 2 → ℕ) 0 ((5 + 1) * (![3, 4] : Fin 2 → ℕ) 0) = ![18, 4] := by
    funext k
    fin_cases k <;> simp
  rw [this] at e4
  exact ⟨w, L, L', E, L'', h1, g1, e1, e2, e3, e4⟩

end Lattpy
