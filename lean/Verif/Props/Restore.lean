import Verif.Model.Restore
import Verif.Props.StructureQuery
import Verif.Props.PresetPairs
import Verif.Props.Presets

/-!
# C95: independence of a restored structure
-/

set_option autoImplicit false
set_option linter.unusedSectionVars false

namespace Lattpy
open Structure
variable {d : ℕ}

/-- The part of a structure that is not the array of connections. -/
def SameButConn (S T : Structure d ℝ) : Prop :=
  S.basis = T.basis ∧ S.atoms = T.atoms ∧ S.positions = T.positions ∧ S.frozen = T.frozen ∧
    S.numBase = T.numBase ∧ S.analysis = T.analysis

theorem analyze_keeps (env : Env ℝ) (S : Structure d ℝ) :
    (S.analyze env).1.positions = S.positions ∧ (S.analyze env).1.conn = S.conn ∧
      (S.frozen = true → (S.analyze env).1.frozen = true) := by
  unfold Structure.analyze
  split
  · exact ⟨rfl, rfl, id⟩
  · split
    · exact ⟨rfl, rfl, id⟩
    · rename_i c hc
      split
      · exact ⟨rfl, rfl, id⟩
      · split
        · exact ⟨rfl, rfl, id⟩
        · split
          · exact ⟨rfl, rfl, fun _ => rfl⟩
          · exact ⟨rfl, rfl, fun _ => rfl⟩

theorem addConnections_keeps (env : Env ℝ) (S : Structure d ℝ) (num : ℕ) (an : Bool) :
    (S.addConnections env num an).1.positions = S.positions ∧
      (S.frozen = true → (S.addConnections env num an).1.frozen = true) := by
  unfold addConnections
  split
  · exact ⟨rfl, id⟩
  · rename_i c hc
    dsimp only
    split
    · have := analyze_keeps env { S with conn := some (c.fill num) }
      exact ⟨this.1, this.2.2⟩
    · exact ⟨rfl, id⟩

theorem addConnection_keeps (env : Env ℝ) (s : Session) (S : Structure d ℝ) (a b : AtomRef)
    (num : ℕ) (an : Bool) :
    (S.addConnection env s a b num an).1.positions = S.positions ∧
      (S.frozen = true → (S.addConnection env s a b num an).1.frozen = true) := by
  unfold addConnection
  split
  · exact ⟨rfl, id⟩
  · exact ⟨rfl, id⟩
  · split
    · exact ⟨rfl, id⟩
    · rename_i c hc
      dsimp only
      split
      · have := analyze_keeps env { S with conn := c }
        exact ⟨this.1, this.2.2⟩
      · exact ⟨rfl, id⟩

theorem addAtom_keeps (env : Env ℝ) (w : World d ℝ) (hf : w.struct.frozen = true)
    (pos : Option (List ℝ)) (atom : AtomArg) (primitive : Bool) (nb : ℕ) :
    (w.addAtom env pos atom primitive nb).1.struct.positions = w.struct.positions ∧
    (w.addAtom env pos atom primitive nb).1.struct.frozen = true ∧
    (w.addAtom env pos atom primitive nb).1.struct.conn = w.struct.conn ∧
    (∃ e, (w.addAtom env pos atom primitive nb).2 = .error e) := by
  have key : ∀ p a, (w.struct.addAtomAt env p a nb) =
      ({ w.struct with atoms := w.struct.atoms ++ [a] }, .error .attribute) := by
    intro p a
    unfold addAtomAt
    simp only [hf, if_true]
  unfold World.addAtom
  split
  · exact ⟨rfl, hf, rfl, _, rfl⟩
  · split
    · exact ⟨rfl, hf, rfl, _, rfl⟩
    · split
      · rw [key]
        exact ⟨rfl, hf, rfl, _, rfl⟩
      · split
        · exact ⟨rfl, hf, rfl, _, rfl⟩
        · split
          · exact ⟨rfl, hf, rfl, _, rfl⟩
          · rw [key]
            exact ⟨rfl, hf, rfl, _, rfl⟩

/-- Calls on an analysed structure keep the positions: `add_atom` raises. -/
theorem call_keeps (env : Env ℝ) (w : World d ℝ) (hf : w.struct.frozen = true) (op : World.Op ℝ) :
    (w.call env op).1.struct.positions = w.struct.positions ∧
      (w.call env op).1.struct.frozen = true := by
  cases op with
  | addAtom pos atom primitive nb =>
    have := addAtom_keeps env w hf pos atom primitive nb
    exact ⟨this.1, this.2.1⟩
  | addConnection a b num an =>
    have := addConnection_keeps env w.session w.struct a b num an
    exact ⟨this.1, this.2 hf⟩
  | addConnections num an =>
    have := addConnections_keeps env w.struct num an
    exact ⟨this.1, this.2 hf⟩
  | analyze =>
    have := analyze_keeps env w.struct
    exact ⟨this.1, this.2.2 hf⟩

theorem restore_ok {env : Env ℝ} {w : World d ℝ} {t : Twins d ℝ}
    (h : Twins.restore env w = .ok t) :
    t.session = w.session ∧ t.orig = w.struct ∧ t.shared = true ∧ t.copy.frozen = true ∧
      t.copy.conn = w.struct.conn ∧ fromDict env w.struct.toDict = .ok t.copy := by
  unfold Twins.restore at h
  split at h
  · cases h
  · rename_i S hS
    cases h
    refine ⟨rfl, rfl, rfl, ?_, ?_, hS⟩
    all_goals
      unfold fromDict at hS
      split at hS
      · cases hS
      · split at hS
        · cases hS
        · rename_i S1 h1
          split at hS
          · rename_i S2 h2
            cases hS
            first
            | (have := (analyze_keeps env { S1 with conn := w.struct.toDict.connections }).2.1
               rw [h2] at this
               exact this)
            | (unfold Structure.analyze at h2
               split at h2
               · simp at h2
               · split at h2
                 · simp at h2
                 · split at h2
                   · simp at h2
                   · split at h2
                     · simp at h2
                     · split at h2
                       · simp at h2
                       · cases h2
                         rfl)
          · cases hS

/-- The state after a history of calls on the restored structure. -/
theorem runCopy_inv {env : Env ℝ} {S : Structure d ℝ} (ops : List (World.Op ℝ)) :
    ∀ t : Twins d ℝ, t.shared = true → t.copy.frozen = true → t.orig.conn = t.copy.conn →
      SameButConn t.orig S →
      (t.runCopy env ops).shared = true ∧ (t.runCopy env ops).copy.frozen = true ∧
      (t.runCopy env ops).orig.conn = (t.runCopy env ops).copy.conn ∧
      SameButConn (t.runCopy env ops).orig S := by
  induction ops with
  | nil => exact fun t h1 h2 h3 h4 => ⟨h1, h2, h3, h4⟩
  | cons op ops ih =>
    intro t h1 h2 h3 h4
    have hk := call_keeps env (⟨t.session, t.copy⟩ : World d ℝ) h2 op
    have hr : Twins.replaces t.copy
        ((⟨t.session, t.copy⟩ : World d ℝ).call env op).1.struct = false := by
      unfold Twins.replaces
      rw [hk.1]
      simp
    have hstep := ih (t.callCopy env op).1
    apply hstep
    · simp [Twins.callCopy, h1, hr]
    · exact hk.2
    · simp [Twins.callCopy, Twins.follow, h1, hr]
    · simp only [Twins.callCopy, Twins.follow, h1, hr]
      exact h4

/-- C95, what does not change: whatever is called on the restored structure, the original keeps its
vectors, atoms, positions and the results of its analysis (hence its neighbours). -/
theorem C95_original_partial {env : Env ℝ} {w : World d ℝ} {t : Twins d ℝ}
    (h : Twins.restore env w = .ok t) (ops : List (World.Op ℝ)) :
    SameButConn (t.runCopy env ops).orig w.struct := by
  obtain ⟨-, h2, h3, h4, h5, -⟩ := restore_ok h
  exact (runCopy_inv ops t h3 h4 (by rw [h2, h5]) (by rw [h2]; exact ⟨rfl, rfl, rfl, rfl, rfl, rfl⟩)
    ).2.2.2

/-- C95, the connections: after any history of calls on the restored structure the connections of
the original are those of the restored structure. -/
theorem C95_connections {env : Env ℝ} {w : World d ℝ} {t : Twins d ℝ}
    (h : Twins.restore env w = .ok t) (ops : List (World.Op ℝ)) :
    (t.runCopy env ops).orig.conn = (t.runCopy env ops).copy.conn := by
  obtain ⟨-, h2, h3, h4, h5, -⟩ := restore_ok h
  exact (runCopy_inv (S := w.struct) ops t h3 h4 (by rw [h2, h5])
    (by rw [h2]; exact ⟨rfl, rfl, rfl, rfl, rfl, rfl⟩)).2.2.1

/-- C95 holds for histories without `add_connection` and `add_connections`: the original does not
change at all. -/
theorem C95_no_connections_partial {env : Env ℝ} {w : World d ℝ} {t : Twins d ℝ}
    (h : Twins.restore env w = .ok t) (ops : List (World.Op ℝ))
    (hops : ∀ op ∈ ops, op = .analyze ∨ ∃ pos atom primitive nb,
      op = .addAtom pos atom primitive nb) :
    (t.runCopy env ops).orig = w.struct := by
  obtain ⟨-, h2, h3, h4, h5, -⟩ := restore_ok h
  have key : ∀ (ops : List (World.Op ℝ)) (t : Twins d ℝ), (∀ op ∈ ops, op = .analyze ∨
      ∃ pos atom primitive nb, op = .addAtom pos atom primitive nb) → t.copy.frozen = true →
      t.copy.conn = w.struct.conn → t.orig = w.struct → (t.runCopy env ops).orig = w.struct := by
    intro ops
    induction ops with
    | nil => exact fun t _ _ _ h => h
    | cons op ops ih =>
      intro t ho hf hc h0
      have hk := call_keeps env (⟨t.session, t.copy⟩ : World d ℝ) hf op
      have hconn : ((⟨t.session, t.copy⟩ : World d ℝ).call env op).1.struct.conn =
          w.struct.conn := by
        rw [← hc]
        rcases ho op (by simp) with rfl | ⟨pos, atom, primitive, nb, rfl⟩
        · exact (analyze_keeps env t.copy).2.1
        · exact (addAtom_keeps env ⟨t.session, t.copy⟩ hf pos atom primitive nb).2.2.1
      apply ih (t.callCopy env op).1 (fun o h => ho o (by simp [h])) hk.2 hconn
      change Twins.follow _ _ _ _ = _
      unfold Twins.follow
      split
      · rw [hconn, h0]
      · exact h0
  exact key ops t hops h4 h5 h2

/-- A restored chain, analysed again and given a second atom (which raises). -/
example (env : Env ℝ) : ∃ (w : World 1 ℝ) (t : Twins 1 ℝ), Reachable env w ∧
    Twins.restore env w = .ok t ∧ (t.runCopy env [.analyze, .addAtom (some [1 / 2])
      (.new (some "B") .none .none .none []) false 0]).orig = w.struct := by
  obtain ⟨w, A, cells, c, hr, -, hp, hn, ha, hc, hs, he, hA, -⟩ :=
    exists_chain env one_pos 0 Nat.one_pos
  obtain ⟨-, -, h3⟩ := C38_roundtrip Nat.one_pos hr (by rw [ha, hn]; rfl)
  obtain ⟨S', S'', hS, -⟩ :=
    h3 c 0 0 hc (by rw [hs]; exact Nat.one_pos) (by rw [hs]; exact Nat.one_pos)
      (by rw [he]; exact one_ne_zero)
  have ht : Twins.restore env w = .ok ⟨w.session, w.struct, S', true⟩ := by
    unfold Twins.restore
    rw [hS]
  refine ⟨w, _, hr, ht, C95_no_connections_partial ht _ ?_⟩
  intro op hop
  simp only [List.mem_cons, List.not_mem_nil, or_false] at hop
  rcases hop with rfl | rfl
  · exact Or.inl rfl
  · exact Or.inr ⟨_, _, _, _, rfl⟩

/-- C95 fails: a chain linked to its nearest neighbours is restored from its dictionary, and
`add_connections(2)` is called on the restored lattice.  Then the original reports two levels of
neighbours as configured, although its neighbours have not been computed again. -/
theorem C95_shared_fails (env : Env ℝ) :
    ∃ (w : World 1 ℝ) (c c' : ConnMatrix) (t : Twins 1 ℝ), Reachable env w ∧
      w.struct.analysis ≠ none ∧ w.struct.conn = some c ∧ c.max? = .ok 1 ∧
      Twins.restore env w = .ok t ∧
      (t.runCopy env [.addConnections 2 true]).orig.conn = some c' ∧ c'.max? = .ok 2 ∧
      (t.runCopy env [.addConnections 2 true]).orig.analysis = w.struct.analysis := by
  obtain ⟨w, A, cells, c, hr, -, hp, hn, ha, hc, hs, he, hA, -⟩ :=
    exists_chain env one_pos 0 Nat.one_pos
  obtain ⟨-, -, h3⟩ := C38_roundtrip Nat.one_pos hr (by rw [ha, hn]; rfl)
  obtain ⟨S', S'', hS, -, -, -, hSc, -⟩ :=
    h3 c 0 0 hc (by rw [hs]; exact Nat.one_pos) (by rw [hs]; exact Nat.one_pos)
      (by rw [he]; exact one_ne_zero)
  have ht : Twins.restore env w = .ok ⟨w.session, w.struct, S', true⟩ := by
    unfold Twins.restore
    rw [hS]
  refine ⟨w, c, c.fill 2, _, hr, by rw [hA]; simp, hc, ?_, ht, ?_, ?_, ?_⟩
  · simp [ConnMatrix.max?, ConnMatrix.entries, hs, he]
  · rw [C95_connections ht]
    have e : ((⟨w.session, w.struct, S', true⟩ : Twins 1 ℝ).runCopy env
        [.addConnections 2 true]).copy = (S'.addConnections env 2 true).1 := rfl
    rw [e]
    unfold addConnections
    rw [hSc, hc]
    dsimp only
    rw [if_pos rfl]
    exact (analyze_keeps env { S' with conn := some (c.fill 2) }).2.1
  · simp [ConnMatrix.max?, ConnMatrix.entries, ConnMatrix.fill, hs]
  · exact (C95_original_partial ht _).2.2.2.2.2

theorem SameButConn.refl (S : Structure d ℝ) : SameButConn S S := ⟨rfl, rfl, rfl, rfl, rfl, rfl⟩

theorem SameButConn.trans {S T U : Structure d ℝ} (h : SameButConn S T) (h' : SameButConn T U) :
    SameButConn S U :=
  ⟨h.1.trans h'.1, h.2.1.trans h'.2.1, h.2.2.1.trans h'.2.2.1, h.2.2.2.1.trans h'.2.2.2.1,
    h.2.2.2.2.1.trans h'.2.2.2.2.1, h.2.2.2.2.2.trans h'.2.2.2.2.2⟩

theorem follow_same (b : Bool) (S S' T : Structure d ℝ) : SameButConn (Twins.follow b S S' T) T := by
  unfold Twins.follow
  split
  · exact ⟨rfl, rfl, rfl, rfl, rfl, rfl⟩
  · exact SameButConn.refl T

/-- C95, calls on the original: whatever is called on the original, the restored structure keeps its
vectors, atoms, positions and the results of its analysis, and the original becomes what it would
have become without the restored structure. -/
theorem C95_copy_partial {env : Env ℝ} {w : World d ℝ} {t : Twins d ℝ}
    (h : Twins.restore env w = .ok t) (ops : List (World.Op ℝ)) :
    SameButConn (t.runOrig env ops).copy t.copy ∧
      (t.runOrig env ops).orig = (w.run env ops).struct ∧
      (t.runOrig env ops).session = (w.run env ops).session := by
  obtain ⟨h1, h2, -⟩ := restore_ok h
  have key : ∀ (ops : List (World.Op ℝ)) (t : Twins d ℝ) (w : World d ℝ), t.session = w.session →
      t.orig = w.struct → SameButConn (t.runOrig env ops).copy t.copy ∧
      (t.runOrig env ops).orig = (w.run env ops).struct ∧
      (t.runOrig env ops).session = (w.run env ops).session := by
    intro ops
    induction ops with
    | nil => exact fun t w h1 h2 => ⟨SameButConn.refl _, h2, h1⟩
    | cons op ops ih =>
      intro t w h1 h2
      have hw : (⟨t.session, t.orig⟩ : World d ℝ) = w := by rw [h1, h2]
      obtain ⟨g1, g2, g3⟩ := ih (t.callOrig env op).1 (w.call env op).1
        (by rw [← hw]; rfl) (by rw [← hw]; rfl)
      exact ⟨g1.trans (follow_same _ _ _ _), g2, g3⟩
  exact key ops t w h1 h2

/-- C95, calls on an original that refuses further atoms (it has been analysed): the restored structure
shows the connections of the original after any history. -/
theorem C95_copy_connections {env : Env ℝ} {w : World d ℝ} {t : Twins d ℝ}
    (h : Twins.restore env w = .ok t) (hf : w.struct.frozen = true) (ops : List (World.Op ℝ)) :
    (t.runOrig env ops).copy.conn = (t.runOrig env ops).orig.conn := by
  obtain ⟨-, h2, h3, -, h5, -⟩ := restore_ok h
  have key : ∀ (ops : List (World.Op ℝ)) (t : Twins d ℝ), t.shared = true → t.orig.frozen = true →
      t.copy.conn = t.orig.conn →
      (t.runOrig env ops).copy.conn = (t.runOrig env ops).orig.conn := by
    intro ops
    induction ops with
    | nil => exact fun t _ _ h => h
    | cons op ops ih =>
      intro t h1 h2 h3
      have hk := call_keeps env (⟨t.session, t.orig⟩ : World d ℝ) h2 op
      have hr : Twins.replaces t.orig
          ((⟨t.session, t.orig⟩ : World d ℝ).call env op).1.struct = false := by
        unfold Twins.replaces
        rw [hk.1]
        simp
      apply ih (t.callOrig env op).1
      · simp [Twins.callOrig, h1, hr]
      · exact hk.2
      · simp [Twins.callOrig, Twins.follow, h1, hr]
  exact key ops t h3 (by rw [h2]; exact hf) (by rw [h2, h5])

/-- C95 fails for calls on the original as well: a chain linked to its nearest neighbours is restored
from its dictionary, and `add_connections(2)` is called on the original.  Then the restored lattice
reports two levels of neighbours as configured, although its neighbours have not been computed
again. -/
theorem C95_original_fails (env : Env ℝ) :
    ∃ (w : World 1 ℝ) (c' : ConnMatrix) (t : Twins 1 ℝ), Reachable env w ∧
      Twins.restore env w = .ok t ∧ (∃ c, t.copy.conn = some c ∧ c.max? = .ok 1) ∧
      (t.runOrig env [.addConnections 2 true]).copy.conn = some c' ∧ c'.max? = .ok 2 ∧
      (t.runOrig env [.addConnections 2 true]).copy.analysis = t.copy.analysis := by
  obtain ⟨w, A, cells, c, hr, -, hp, hn, ha, hc, hs, he, hA, -⟩ :=
    exists_chain env one_pos 0 Nat.one_pos
  obtain ⟨-, -, h3⟩ := C38_roundtrip Nat.one_pos hr (by rw [ha, hn]; rfl)
  obtain ⟨S', S'', hS, -, -, -, hSc, -⟩ :=
    h3 c 0 0 hc (by rw [hs]; exact Nat.one_pos) (by rw [hs]; exact Nat.one_pos)
      (by rw [he]; exact one_ne_zero)
  have ht : Twins.restore env w = .ok ⟨w.session, w.struct, S', true⟩ := by
    unfold Twins.restore
    rw [hS]
  have hfz : w.struct.frozen = true := by
    exact (Reachable.good Nat.one_pos hr).analysis_frozen (by rw [hA]; simp)
  refine ⟨w, c.fill 2, _, hr, ht, ⟨c, hSc.trans hc, ?_⟩, ?_, ?_, ?_⟩
  · simp [ConnMatrix.max?, ConnMatrix.entries, hs, he]
  · rw [C95_copy_connections ht hfz]
    have e : ((⟨w.session, w.struct, S', true⟩ : Twins 1 ℝ).runOrig env
        [.addConnections 2 true]).orig = (w.struct.addConnections env 2 true).1 := rfl
    rw [e]
    unfold addConnections
    rw [hc]
    dsimp only
    rw [if_pos rfl]
    exact (analyze_keeps env { w.struct with conn := some (c.fill 2) }).2.1
  · simp [ConnMatrix.max?, ConnMatrix.entries, ConnMatrix.fill, hs]
  · exact (C95_copy_partial ht _).1.2.2.2.2.2

/-- C95, once the arrays are separate: if the structures do not share the array of connections (which
is so after an atom has been added to the original), calls on one of them leave the other as it is,
and the arrays stay separate. -/
theorem C95_separate {t : Twins d ℝ} (h : t.shared = false) (env : Env ℝ) (op : World.Op ℝ) :
    (t.callOrig env op).1.copy = t.copy ∧ (t.callCopy env op).1.orig = t.orig ∧
      (t.callOrig env op).1.shared = false ∧ (t.callCopy env op).1.shared = false := by
  refine ⟨?_, ?_, ?_, ?_⟩ <;> simp [Twins.callOrig, Twins.callCopy, Twins.follow, h]

/-- C95, adding an atom to the original separates the arrays: if a call adds a position and an atom
to the original, the restored structure does not change and the arrays are separate. -/
theorem C95_added {t : Twins d ℝ} (env : Env ℝ) (op : World.Op ℝ)
    (h : t.orig.positions.length < (t.callOrig env op).1.orig.positions.length)
    (ha : (t.callOrig env op).1.orig.atoms.length = (t.callOrig env op).1.orig.positions.length) :
    (t.callOrig env op).1.copy = t.copy ∧ (t.callOrig env op).1.shared = false := by
  have hr : Twins.replaces t.orig ((⟨t.session, t.orig⟩ : World d ℝ).call env op).1.struct = true := by
    unfold Twins.replaces
    rw [Bool.and_eq_true, decide_eq_true_eq, decide_eq_true_eq]
    exact ⟨(Nat.ne_of_lt h).symm, ha⟩
  simp [Twins.callOrig, Twins.follow, hr]

/-- The hypotheses of `C95_copy_partial` and `C95_added` are met by an original that has not been
analysed: adding an atom to it separates the arrays. -/
example (env : Env ℝ) : ∃ (w : World 1 ℝ) (t : Twins 1 ℝ) (op : World.Op ℝ), Reachable env w ∧
    Twins.restore env w = .ok t ∧ t.shared = true ∧
    t.orig.positions.length < (t.callOrig env op).1.orig.positions.length ∧
    (t.callOrig env op).1.orig.atoms.length = (t.callOrig env op).1.orig.positions.length := by
  obtain ⟨b, hb, -⟩ := LatticeBasis.init_of_det (rows := !![(1 : ℝ)]) (by
    rw [Matrix.det_fin_one]; simp)
  let at' : Atom := ⟨0, "A", .num 1, 0⟩
  obtain ⟨-, h2, h3, h4, h5, -, h7⟩ := addAtomAt_ok one_pos env (good_ofBasis hb) 0
    (by simp [ofBasis]) at' 0 rfl
  have hcall : World.addAtom env ⟨Session.empty, ofBasis b⟩ none (.obj at') false 0 =
      (⟨Session.empty, ((ofBasis b).addAtomAt env 0 at' 0).1⟩,
        ((ofBasis b).addAtomAt env 0 at' 0).2) := by
    unfold World.addAtom
    have : atomPos (ofBasis b).basis none false = .ok 0 := Preset.atomPos_none b
    rw [this]
    dsimp only
    rw [if_neg (by simp [ofBasis])]
  have hr : Reachable env ⟨Session.empty, ((ofBasis b).addAtomAt env 0 at' 0).1⟩ :=
    ⟨_, b, Session.empty, [.addAtom none (.obj at') false 0], hb, by
      unfold World.run
      rw [List.foldl_cons, List.foldl_nil]
      exact (congrArg Prod.fst hcall).symm⟩
  have hfr : ((ofBasis b).addAtomAt env 0 at' 0).1.frozen = false := by
    simp [addAtomAt, ofBasis]
  have hnb : (ofBasis b).numBase = 0 := rfl
  rw [hnb] at h5 h7
  have hat0 : (ofBasis b).atoms = [] := rfl
  have hpo0 : (ofBasis b).positions = [] := rfl
  rw [hat0, List.nil_append] at h3
  rw [hpo0, List.nil_append] at h4
  generalize ((ofBasis b).addAtomAt env 0 at' 0).1 = S0 at *
  replace hr := hr.call (.addConnections 1 false)
  obtain ⟨S1, hS1⟩ : ∃ S1, S1 = (S0.addConnections env 1 false).1 := ⟨_, rfl⟩
  have hS1' : S1 = { S0 with conn := some (((ConnMatrix.zeros (0 + 1)).fill 0).fill 1) } := by
    rw [hS1]
    unfold addConnections
    rw [h7]
    rfl
  have hr : Reachable env ⟨Session.empty, S1⟩ := by
    rw [hS1]
    exact hr
  have h3 : S1.atoms = [at'] := by rw [hS1', ← h3]
  have h4 : S1.positions = [0] := by rw [hS1', ← h4]
  have h5 : S1.numBase = 0 + 1 := by rw [hS1', ← h5]
  have hf : S1.frozen = false := by rw [hS1', ← hfr]
  obtain ⟨-, -, hc⟩ := C38_roundtrip Nat.one_pos hr (by change S1.atoms.length = _; rw [h3, h5]; rfl)
  obtain ⟨S', -, hS', -⟩ := hc (((ConnMatrix.zeros (0 + 1)).fill 0).fill 1) 0 0
    (by change S1.conn = _; rw [hS1']) (by simp [ConnMatrix.fill, ConnMatrix.zeros])
    (by simp [ConnMatrix.fill, ConnMatrix.zeros]) (by simp [ConnMatrix.fill, ConnMatrix.zeros])
  obtain ⟨-, -, g3, g4, -⟩ := addAtomAt_ok one_pos env (hr.good Nat.one_pos) (![1])
    (by
      change _ ∉ S1.positions
      rw [h4, List.mem_singleton]
      intro h
      exact one_ne_zero (congrFun h 0)) at' 0 hf
  have hop : (World.call env ⟨Session.empty, S1⟩ (.addAtom (some [1]) (.obj at') false 0)).1.struct =
      (S1.addAtomAt env (![1]) at' 0).1 := by
    unfold World.call World.addAtom
    dsimp only
    have : atomPos S1.basis (some [1]) false = .ok ![1] := atomPos_one _ 1
    rw [this]
    dsimp only
    rw [if_neg]
    rw [h4, List.mem_singleton]
    intro h
    exact one_ne_zero (congrFun h 0)
  refine ⟨_, ⟨Session.empty, S1, S', true⟩, .addAtom (some [1]) (.obj at') false 0, hr, ?_, rfl, ?_, ?_⟩
  · unfold Twins.restore
    rw [hS']
  · change S1.positions.length < (World.call env ⟨Session.empty, S1⟩ _).1.struct.positions.length
    rw [hop, g4]
    simp
  · change (World.call env ⟨Session.empty, S1⟩ _).1.struct.atoms.length =
      (World.call env ⟨Session.empty, S1⟩ _).1.struct.positions.length
    rw [hop, g3, g4]
    simp [h3, h4]

end Lattpy
