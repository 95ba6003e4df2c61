import Verif.Props.LatticeRuns

/-!
C122: what `Lattice.build` (lattice.py 396-485) takes over from earlier calls.
-/

namespace Lattpy

variable {d : ℕ}

/-- `set_periodic` does not read the recorded axes. -/
theorem Lattice.setPeriodic_axes (env : Env ℝ) (L : Lattice d ℝ) (x : List ℕ) (p : PAxis) :
    (({ L with periodicAxes := x } : Lattice d ℝ).setPeriodic env p).2 = (L.setPeriodic env p).2 ∧
    (({ L with periodicAxes := x } : Lattice d ℝ).setPeriodic env p).1.data =
      (L.setPeriodic env p).1.data := by
  have key : ∀ (D : LatticeData d ℝ) (axes : List ℕ),
      (Lattice.setPeriodicAxes env { L with data := some D, periodicAxes := x } D axes).2 =
        (Lattice.setPeriodicAxes env { L with data := some D } D axes).2 ∧
      (Lattice.setPeriodicAxes env { L with data := some D, periodicAxes := x } D axes).1.data =
        (Lattice.setPeriodicAxes env { L with data := some D } D axes).1.data := by
    intro D axes
    unfold Lattice.setPeriodicAxes
    have hs : Lattice.struct ({ L with data := some D, periodicAxes := x } : Lattice d ℝ) =
        Lattice.struct ({ L with data := some D } : Lattice d ℝ) := rfl
    rw [hs]
    dsimp only
    split
    · exact ⟨rfl, rfl⟩
    · split
      · exact ⟨rfl, rfl⟩
      · split
        · exact ⟨rfl, rfl⟩
        · split <;> exact ⟨rfl, rfl⟩
  unfold Lattice.setPeriodic
  dsimp only
  split
  · exact ⟨rfl, rfl⟩
  · split
    · exact ⟨rfl, rfl⟩
    · split
      · exact ⟨rfl, rfl⟩
      · cases p with
        | flag b => cases b with
          | false => exact ⟨rfl, rfl⟩
          | true => exact key _ _
        | axes l => exact key _ _

/-- C122: two lattices with the same structure, whatever was built, made periodic or failed before:
`build` has the same result or exception for both and leaves the same structure and the same sites
and neighbours.  If it succeeds, the shape, the position and the kind of axes agree, and the periodic
axes if there are periodic neighbours or `build` was asked for open boundaries (`periodic=False`). -/
theorem C122_build_again_partial (env : Env ℝ) {L M : Lattice d ℝ} (hw : M.world = L.world)
    (a : BuildArgs d ℝ) :
    (M.build env a).2 = (L.build env a).2 ∧ (M.build env a).1.data = (L.build env a).1.data ∧
    (M.build env a).1.world = (L.build env a).1.world ∧
    ((L.build env a).2 = .ok () → (M.build env a).1.shape = (L.build env a).1.shape ∧
      (M.build env a).1.pos = (L.build env a).1.pos ∧
      (M.build env a).1.primitive = (L.build env a).1.primitive ∧
      ((L.build env a).1.Marked ∨ a.periodic = some (.flag false) →
        (M.build env a).1.periodicAxes = (L.build env a).1.periodicAxes)) := by
  suffices h : (M.build env a).2 = (L.build env a).2 ∧
      (M.build env a).1.data = (L.build env a).1.data ∧
      (M.build env a).1.world = (L.build env a).1.world ∧
      ((L.build env a).2 = .ok () → (M.build env a).1.shape = (L.build env a).1.shape ∧
        (M.build env a).1.pos = (L.build env a).1.pos ∧
        (M.build env a).1.primitive = (L.build env a).1.primitive) by
    obtain ⟨h1, h2, h3, h4⟩ := h
    refine ⟨h1, h2, h3, fun hok => ⟨(h4 hok).1, (h4 hok).2.1, (h4 hok).2.2, fun hm => ?_⟩⟩
    have k1 := Lattice.C67_build_partial (env := env) (L := L) (a := a) (Prod.ext rfl hok)
    have k2 := Lattice.C67_build_partial (env := env) (L := M) (a := a) (Prod.ext rfl (h1.trans hok))
    rcases hm with hm | hm
    · have hm' : (M.build env a).1.Marked := by
        obtain ⟨E, hE, h⟩ := hm
        exact ⟨E, h2.trans hE, h⟩
      cases hp : a.periodic with
      | none => exact absurd hm (k1.1 hp).1
      | some p => rw [((k1.2 p hp).1).resolve_right fun h => h.1 hm,
          ((k2.2 p hp).1).resolve_right fun h => h.1 hm']
    · rw [((k1.2 _ hm).2 rfl).2, ((k2.2 _ hm).2 rfl).2]
  have hs : M.struct = L.struct := by unfold Lattice.struct; rw [hw]
  unfold Lattice.build
  dsimp only
  rw [hs]
  cases Lattice.assertReady L.struct with
  | error e => exact ⟨rfl, rfl, hw, fun h => nomatch h⟩
  | ok u =>
  cases Lattice.buildShape L.struct a with
  | error e => exact ⟨rfl, rfl, hw, fun h => nomatch h⟩
  | ok shape =>
  dsimp only
  cases hD : Lattice.buildData env L.struct a shape with
  | error e => exact ⟨rfl, rfl, hw, fun h => nomatch h⟩
  | ok D =>
  dsimp only
  unfold Lattice.updateShape
  dsimp only
  cases D.getLimits with
  | error e => exact ⟨rfl, rfl, hw, fun h => nomatch h⟩
  | ok lh =>
  obtain ⟨lo, hi⟩ := lh
  dsimp only
  cases hp : a.periodic with
  | none => exact ⟨rfl, rfl, hw, fun _ => ⟨rfl, rfl, rfl⟩⟩
  | some p =>
    dsimp only
    obtain ⟨e1, e2⟩ := Lattice.setPeriodic_axes env { L with
      data := some D, primitive := some a.primitive, shape := some fun k => hi k - lo k,
      pos := some lo } M.periodicAxes p
    obtain ⟨f1, f2, f3, f4, -⟩ := Lattice.setPeriodic_frame env { L with
      data := some D, primitive := some a.primitive, shape := some fun k => hi k - lo k,
      pos := some lo } p
    obtain ⟨g1, g2, g3, g4, -⟩ := Lattice.setPeriodic_frame env { M with
      data := some D, primitive := some a.primitive, shape := some fun k => hi k - lo k,
      pos := some lo } p
    rw [f1, f2, f3, f4, g1, g2, g3, g4]
    rw [← hw] at e1 e2 ⊢
    exact ⟨e1, e2, rfl, fun _ => ⟨rfl, rfl, rfl⟩⟩

/-- The ring of five sites with three shells, built after another lattice was built, made a ring and
a build failed (size for two dimensions), and built on a new lattice. -/
example :
    let env := Env.brute ℚ
    let L := (Runs.chain 3).build env { shape := .size [9] false, periodic := some (.axes [0]) }
    let L1 := L.1.build env { shape := .size [4, 4] false }
    let L2 := L1.1.build env { shape := .size [4] false, periodic := some (.axes [0]) }
    let M := (Runs.chain 3).build env { shape := .size [4] false, periodic := some (.axes [0]) }
    L.2 = .ok () ∧ L1.2 = .error .value ∧ L2.2 = .ok () ∧ M.2 = .ok () ∧
    L2.1.numSites = 5 ∧ M.1.numSites = 5 ∧ L2.1.periodicAxes = [0] ∧ M.1.periodicAxes = [0] ∧
    L2.1.neighbors 0 none false = .ok [1, 2, 3, 4] ∧
    M.1.neighbors 0 none false = .ok [1, 2, 3, 4] := by
  decide +kernel

/-- C122 fails for what an earlier build leaves behind: after a build that raises, the sites are gone
but the shape is still that of the lattice built before (and the recorded axes, see
`C67_rebuild_fails`); `set_periodic` then raises `IndexError`.  The same build on a new lattice leaves
no shape, and `set_periodic` raises `NotBuiltError`. -/
theorem C122_failed_build_fails :
    let env := Env.brute ℚ
    let L := (Runs.chain 1).build env { shape := .size [5] false, periodic := some (.axes [0]) }
    let L1 := L.1.build env { shape := .size [4, 4] false }
    let M := (Runs.chain 1).build env { shape := .size [4, 4] false }
    L.2 = .ok () ∧ L1.2 = .error .value ∧ M.2 = .error .value ∧
    L1.1.numSites = 0 ∧ M.1.numSites = 0 ∧
    L1.1.shape.map List.ofFn = some [5] ∧ M.1.shape.map List.ofFn = none ∧
    L1.1.periodicAxes = [0] ∧ M.1.periodicAxes = [] ∧
    (L1.1.setPeriodic env (.axes [0])).2 = .error .index ∧
    (M.1.setPeriodic env (.axes [0])).2 = .error .notBuilt := by
  decide +kernel

end Lattpy
