import Verif.Props.BuildAgain
import Verif.Props.PresetConst
import Verif.Props.Plot
import Verif.Lemmas.LatticeBuilt

/-!
C123: configuration calls on a lattice that has been built (structure.py 175-420 inherited by
lattice.py 126).
-/

namespace Lattpy

open Structure World

variable {d : ℕ}

/-! ## spec -/

/-- Everything a lattice reports about its sites. -/
structure SameReport (L M : Lattice d ℝ) : Prop where
  numSites : M.numSites = L.numSites
  shape : M.shape = L.shape
  pos : M.pos = L.pos
  periodicAxes : M.periodicAxes = L.periodicAxes
  alpha : ∀ i, M.alpha i = L.alpha i
  position : ∀ i, M.position i = L.position i
  neighbors : ∀ i n unique, M.neighbors i n unique = L.neighbors i n unique
  nearest : ∀ i unique, M.nearestNeighbors i unique = L.nearestNeighbors i unique
  iter : ∀ i unique, M.iterNeighbors i unique = L.iterNeighbors i unique
  pairs : ∀ unique, M.neighborPairs unique = L.neighborPairs unique
  adjacency : M.adjacencyMatrix = L.adjacencyMatrix
  superindex : ∀ p atol, M.superindexFromPos p atol = L.superindexFromPos p atol
  index : ∀ x, M.superindexFromIndex x = L.superindexFromIndex x
  limits : M.limits = L.limits
  center : M.center = L.center
  minimum : ∀ i, M.minimumDistances i = L.minimumDistances i
  cells : M.numCells = L.numCells
  volume : M.volume = L.volume

/-- The atom of a site. -/
def SameAtoms (L M : Lattice d ℝ) : Prop := ∀ i < L.numSites, ∃ a, L.atom i = .ok a ∧ M.atom i = .ok a

/-! ## lemmas -/

theorem analyze_atoms (env : Env ℝ) (S : Structure d ℝ) : (S.analyze env).1.atoms = S.atoms := by
  unfold Structure.analyze
  split_ifs
  · rfl
  · split
    · rfl
    · split_ifs
      · rfl
      · split
        · rfl
        · split <;> rfl

theorem addConnections_atoms (env : Env ℝ) (S : Structure d ℝ) (num : ℕ) (an : Bool) :
    (S.addConnections env num an).1.atoms = S.atoms := by
  unfold Structure.addConnections
  split
  · rfl
  · dsimp only
    split_ifs
    · exact analyze_atoms env _
    · rfl

theorem addAtomAt_atoms (env : Env ℝ) (S : Structure d ℝ) (p : Vec d ℝ) (a : Atom) (nb : ℕ) :
    (S.addAtomAt env p a nb).1.atoms = S.atoms ++ [a] := by
  unfold Structure.addAtomAt
  dsimp only
  split_ifs
  all_goals first | rfl | exact addConnections_atoms env _ _ _

/-- Configuration calls only add atoms at the end. -/
theorem call_atoms_prefix (env : Env ℝ) (w : World d ℝ) (op : World.Op ℝ) :
    w.struct.atoms <+: (w.call env op).1.struct.atoms := by
  cases op with
  | addAtom pos atom prim nb =>
    change _ <+: (w.addAtom env pos atom prim nb).1.struct.atoms
    unfold World.addAtom
    split
    · exact List.prefix_rfl
    · split_ifs
      · exact List.prefix_rfl
      · split
        · dsimp only
          rw [addAtomAt_atoms]
          exact List.prefix_append _ _
        · split
          · exact List.prefix_rfl
          · split
            · exact List.prefix_rfl
            · dsimp only
              rw [addAtomAt_atoms]
              exact List.prefix_append _ _
  | addConnection a1 a2 num an =>
    change _ <+: (w.struct.addConnection env w.session a1 a2 num an).1.atoms
    unfold Structure.addConnection
    split
    · exact List.prefix_rfl
    · exact List.prefix_rfl
    · split
      · exact List.prefix_rfl
      · dsimp only
        split_ifs
        · rw [analyze_atoms]
        · exact List.prefix_rfl
  | addConnections num an =>
    change _ <+: (w.struct.addConnections env num an).1.atoms
    rw [addConnections_atoms]
  | analyze =>
    change _ <+: (w.struct.analyze env).1.atoms
    rw [analyze_atoms]

/-- What configuration calls leave unchanged in the lattice. -/
theorem Lattice.run_conf (env : Env ℝ) (cs : List (World.Op ℝ)) (L : Lattice d ℝ) :
    (L.run env (cs.map .conf)).data = L.data ∧ (L.run env (cs.map .conf)).shape = L.shape ∧
    (L.run env (cs.map .conf)).pos = L.pos ∧
    (L.run env (cs.map .conf)).periodicAxes = L.periodicAxes ∧
    (L.run env (cs.map .conf)).primitive = L.primitive ∧
    (L.run env (cs.map .conf)).struct.basis = L.struct.basis ∧
    L.struct.atoms <+: (L.run env (cs.map .conf)).struct.atoms := by
  induction cs generalizing L with
  | nil => exact ⟨rfl, rfl, rfl, rfl, rfl, rfl, List.prefix_rfl⟩
  | cons c cs ih =>
    obtain ⟨h1, h2, h3, h4, h5, h6, h7⟩ := ih (L.call env (.conf c)).1
    exact ⟨h1, h2, h3, h4, h5, h6.trans (call_basis env L.world c),
      (call_atoms_prefix env L.world c).trans h7⟩

theorem sameReport_of_eq {L M : Lattice d ℝ} (h1 : M.data = L.data) (h2 : M.shape = L.shape)
    (h3 : M.pos = L.pos) (h4 : M.periodicAxes = L.periodicAxes) (h5 : M.primitive = L.primitive)
    (h6 : M.struct.basis = L.struct.basis) : SameReport L M := by
  have hn : ∀ i n unique, M.neighbors i n unique = L.neighbors i n unique := by
    intro i n unique
    unfold Lattice.neighbors
    rw [h1]
  have hp : ∀ unique, M.neighborPairs unique = L.neighborPairs unique := by
    intro unique
    unfold Lattice.neighborPairs
    rw [h1]
  have hl : M.limits = L.limits := by
    unfold Lattice.limits
    rw [h1]
  constructor
  · unfold Lattice.numSites; rw [h1]
  · exact h2
  · exact h3
  · exact h4
  · intro i; unfold Lattice.alpha; rw [h1]
  · intro i; unfold Lattice.position; rw [h1]
  · exact hn
  · intro i unique; unfold Lattice.nearestNeighbors; rw [hn]
  · intro i unique; unfold Lattice.iterNeighbors; rw [h1]
  · exact hp
  · unfold Lattice.adjacencyMatrix; rw [hp]
  · intro p atol; unfold Lattice.superindexFromPos; rw [h1]
  · intro x; unfold Lattice.superindexFromIndex; rw [h1]
  · exact hl
  · unfold Lattice.center Lattice.relativePosition; rw [hl]
  · intro i; unfold Lattice.minimumDistances; rw [h1, h4, h5, h6]
  · unfold Lattice.numCells; rw [h1]
  · unfold Lattice.volume; rw [h1, h6]

/-! ## property theorems -/

/-- C123: whatever a lattice went through, configuration calls (`add_atom`, `add_connection`,
`add_connections`, `analyze`, each of which may raise) change nothing of what it reports about its sites,
and the atom of every site stays the same. -/
theorem C123_snapshot_partial (hd : 0 < d) {env : Env ℝ} {w : World d ℝ} (hw : Reachable env w)
    (ops : List (Lattice.Op d ℝ)) (cs : List (World.Op ℝ)) :
    SameReport (Lattice.run env (Lattice.ofWorld w) ops)
      (Lattice.run env (Lattice.ofWorld w) (ops ++ cs.map .conf)) ∧
    SameAtoms (Lattice.run env (Lattice.ofWorld w) ops)
      (Lattice.run env (Lattice.ofWorld w) (ops ++ cs.map .conf)) := by
  have hrun : Lattice.run env (Lattice.ofWorld w) (ops ++ cs.map .conf) =
      Lattice.run env (Lattice.run env (Lattice.ofWorld w) ops) (cs.map .conf) := by
    unfold Lattice.run
    rw [List.foldl_append]
  rw [hrun]
  obtain ⟨hr, hb⟩ := Lattice.run_built hd hw ops
  generalize Lattice.run env (Lattice.ofWorld w) ops = L at *
  obtain ⟨h1, h2, h3, h4, h5, h6, t, h7⟩ := L.run_conf env cs
  have hs := sameReport_of_eq h1 h2 h3 h4 h5 h6
  refine ⟨hs, ?_⟩
  intro i hi
  cases hD : L.data with
  | none =>
    unfold Lattice.numSites at hi
    rw [hD] at hi
    cases hi
  | some D =>
    have hi' : i < D.indices.length := by
      unfold Lattice.numSites at hi
      rw [hD] at hi
      exact hi
    obtain ⟨a0, a1⟩ := (hb D hD).alpha _ (List.getElem_mem hi')
    obtain ⟨α, hα⟩ := Int.eq_ofNat_of_zero_le a0
    have hlen : α < L.struct.atoms.length := by
      have : L.struct.numBase ≤ L.struct.atoms.length := (hr.good hd).atoms_ge
      rw [hα] at a1
      have a1 : α < L.struct.numBase := by exact_mod_cast a1
      omega
    have hal : L.alpha i = .ok (α : ℤ) := by
      unfold Lattice.alpha
      rw [hD]
      dsimp only
      rw [List.getElem?_eq_getElem hi']
      dsimp only
      rw [hα]
    refine ⟨L.struct.atoms[α], ?_, ?_⟩
    · unfold Lattice.atom
      rw [hal]
      dsimp only
      rw [pyGet_nat, List.getElem?_eq_getElem hlen]
    · unfold Lattice.atom
      rw [hs.alpha, hal]
      dsimp only
      rw [pyGet_nat, ← h7, List.getElem?_append_left hlen, List.getElem?_eq_getElem hlen]

/-- A chain of five sites made periodic; a second shell is configured, another atom refused. -/
example : ∃ (L M : Lattice 1 ℚ), L = (Runs.chain 1).run (Env.brute ℚ)
      [.build { shape := .size [4] false, periodic := some (.axes [0]) }] ∧
    M = L.run (Env.brute ℚ) ([.addConnections 2 true,
      .addAtom (some [1 / 2]) (.new (some "B") .none .none .none []) false 0].map .conf) ∧
    L.numSites = 5 ∧ M.numSites = 5 ∧ L.neighbors 0 none false = .ok [1, 4] ∧
    M.neighbors 0 none false = .ok [1, 4] ∧ L.struct.atoms.length = 1 ∧ M.struct.atoms.length = 2 := by
  refine ⟨_, _, rfl, rfl, ?_⟩
  decide +kernel

/-- C123 fails for `set_periodic`, which mixes the sites that were built with the present
configuration: the ring of six sites with nearest neighbours.  After `add_connections(2)` the lattice
still reports the neighbours 1 and 5 of site 0, but setting the same periodic axis again raises
`ValueError`: there is no room in the rows for the neighbours of the second shell.  The periodic
neighbours are lost, while `periodic_axes` still names the axis. -/
theorem C123_set_periodic_fails :
    let env := Env.brute ℚ
    let L := (Runs.chain 1).build env { shape := .size [5] false, periodic := some (.axes [0]) }
    let M := L.1.call env (.conf (.addConnections 2 true))
    let again := L.1.setPeriodic env (.axes [0])
    let R := M.1.setPeriodic env (.axes [0])
    L.2 = .ok () ∧ M.2 = .ok () ∧ L.1.neighbors 0 none false = .ok [1, 5] ∧
    M.1.neighbors 0 none false = .ok [1, 5] ∧
    again.2 = .ok () ∧ again.1.neighbors 0 none false = .ok [1, 5] ∧
    R.2 = .error .value ∧ R.1.neighbors 0 none false = .ok [1] ∧ R.1.periodicAxes = [0] := by
  decide +kernel

/-- C123 fails for `check_neighbors`, which tries as many levels as are configured at present: the
chain of seven sites with two shells.  After `add_connections(1)` site 2 is still a neighbour of site 0 at
level 1, but `check_neighbors(0, 2)` no longer says so. -/
theorem C123_check_neighbors_fails :
    let env := Env.brute ℚ
    let L := (Runs.chain 2).build env { shape := .size [6] false }
    let M := L.1.call env (.conf (.addConnections 1 true))
    L.2 = .ok () ∧ M.2 = .ok () ∧ L.1.checkNeighbors 0 2 = .ok (some 1) ∧
    M.1.neighbors 0 (some 1) false = .ok [2] ∧ M.1.checkNeighbors 0 2 = .ok none := by
  decide +kernel

end Lattpy
