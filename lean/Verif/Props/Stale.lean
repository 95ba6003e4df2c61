import Verif.Props.Complete

/-!
# Property C83: the neighbours follow the configuration
-/

set_option autoImplicit false
set_option linter.unusedSectionVars false

namespace Lattpy

open Structure

variable {d : ℕ}

/-- C83, after a call of `analyze`: the outcome and the stored neighbours depend on the vectors,
the atoms with their positions and the connections only, not on an earlier analysis. -/
theorem C83_analyze_partial (env : Env ℝ) (S T : Structure d ℝ) (hb : S.basis = T.basis)
    (ha : S.atoms = T.atoms) (hp : S.positions = T.positions) (hn : S.numBase = T.numBase)
    (hc : S.conn = T.conn) :
    (S.analyze env).2 = (T.analyze env).2 ∧
    ((S.analyze env).2 = .ok () → (S.analyze env).1.analysis = (T.analyze env).1.analysis ∧
      (S.analyze env).1.analysis ≠ none) := by
  have key : ∀ m, computeBaseNeighbors env S m = computeBaseNeighbors env T m := by
    intro m
    obtain ⟨b, as, ps, f, n, c, A⟩ := S
    obtain ⟨b', as', ps', f', n', c', A'⟩ := T
    dsimp only at hb ha hp hn hc
    subst hb ha hp hn hc
    rfl
  unfold analyze
  rw [ha, hc]
  by_cases h1 : T.atoms.isEmpty = true
  · simp [h1]
  · simp only [h1]
    cases T.conn with
    | none => simp
    | some c =>
      by_cases h2 : c.allZero = true
      · simp [h2]
      · simp only [h2]
        cases c.max? with
        | error e => simp
        | ok m =>
          simp only [key m]
          cases computeBaseNeighbors env T m <;> simp

/-- The chain of the counterexample below and the same chain configured from scratch: equal
configurations, one with an earlier analysis. -/
example (env : Env ℝ) : ∃ w : World 1 ℝ, w.struct.analysis ≠ none ∧
    (w.struct.analyze env).2 = (({ w.struct with
      frozen := false
      analysis := none } : Structure 1 ℝ).analyze env).2 := by
  obtain ⟨w, A, -, -, -, -, -, -, -, -, -, -, hA, -⟩ :=
    exists_chain env one_pos 0 (nb := 1) Nat.one_pos
  refine ⟨w, by simp [hA], ?_⟩
  exact (C83_analyze_partial env w.struct
    { w.struct with
      frozen := false
      analysis := none } rfl rfl rfl rfl rfl).1

/-- C83 with `analyze=True`: `add_connections` stores the neighbours a separate call of `analyze`
would find for the new connections. -/
theorem C83_add_connections_partial (env : Env ℝ) (S : Structure d ℝ) (num : ℕ) :
    S.addConnections env num true =
      (if S.conn = none then (S, .error .attribute)
      else (S.addConnections env num false).1.analyze env) := by
  unfold addConnections
  cases S.conn <;> simp

/-- C83 fails with `analyze=False` (the default of `add_connection`) until `analyze` is called; the
docstrings ask for that call, but nothing raises without it. A chain analysed with one distance and
then given two distances reports two configured distances, while its neighbours are still those of
one distance. Only a later `analyze` lists the cell two steps away. -/
theorem C83_stale_fails (env : Env ℝ) :
    ∃ (w : World 1 ℝ) (c : ConnMatrix) (A : Analysis 1 ℝ) (S' : Structure 1 ℝ) (A' : Analysis 1 ℝ),
      Reachable env w ∧ w.struct.basis = chainBasis 1 ∧ w.struct.positions = [fun _ => 0] ∧
      w.struct.conn = some c ∧ c.entry 0 0 = 2 ∧ w.struct.analysis = some A ∧
      (∀ x, ¬ Listed A 0 x (Idx.mk (fun _ => 2) 0)) ∧
      w.struct.analyze env = (S', .ok ()) ∧ S'.analysis = some A' ∧
      ∃ x, Listed A' 0 x (Idx.mk (fun _ => 2) 0) := by
  obtain ⟨w0, -, -, c, hr0, hb0, hp0, -, -, hc0, hcs, hce, -⟩ :=
    exists_chain env one_pos 0 (nb := 1) Nat.one_pos
  -- the analysis with one distance
  obtain ⟨S1, hS1⟩ := analyze_again Nat.one_pos hr0 hc0 (i := 0) (j := 0) (by omega) (by omega)
    (by rw [hce]; norm_num)
  obtain ⟨A, hA, hL⟩ := C39_chain_partial hr0 (a := 1) (p := 0) (by norm_num) hb0 hp0 hc0 hS1
  obtain ⟨c1, -, -, -, hc1, hc1', -, -, -, -, -, -, hb1, hp1, -⟩ := call_analyze_ok Nat.one_pos hr0 hS1
  rw [hc0] at hc1'
  cases hc1'
  have hw1 : (w0.call env .analyze).1 = ⟨w0.session, S1⟩ := by
    change (⟨w0.session, (w0.struct.analyze env).1⟩ : World 1 ℝ) = _
    rw [hS1]
  have hr1 : Reachable env (⟨w0.session, S1⟩ : World 1 ℝ) := hw1 ▸ hr0.call .analyze
  -- two distances, without a new analysis
  have hadd : S1.addConnections env 2 false = ({ S1 with conn := some (c.fill 2) }, .ok ()) := by
    unfold addConnections
    rw [hc1]
    rfl
  have hw2 : ((⟨w0.session, S1⟩ : World 1 ℝ).call env (.addConnections 2 false)).1 =
      ⟨w0.session, { S1 with conn := some (c.fill 2) }⟩ := by
    change (⟨w0.session, (S1.addConnections env 2 false).1⟩ : World 1 ℝ) = _
    rw [hadd]
  have hr2 : Reachable env
      (⟨w0.session, { S1 with conn := some (c.fill 2) }⟩ : World 1 ℝ) :=
    hw2 ▸ hr1.call (.addConnections 2 false)
  have he : (c.fill 2).entry 0 0 = 2 := by simp [ConnMatrix.fill, hcs]
  obtain ⟨S', hS'⟩ := analyze_again Nat.one_pos hr2 (c := c.fill 2) rfl (i := 0) (j := 0)
    (by simp [ConnMatrix.fill, hcs]) (by simp [ConnMatrix.fill, hcs]) (by rw [he]; norm_num)
  obtain ⟨A', hA', hL'⟩ := C39_chain_partial hr2 (a := 1) (p := 0) (by norm_num) (hb1.trans hb0)
    (hp1.trans hp0) (c := c.fill 2) rfl hS'
  refine ⟨_, c.fill 2, A, S', A', hr2, hb1.trans hb0, hp1.trans hp0, rfl, he, hA, ?_, hS', hA', ?_⟩
  · intro x hx
    obtain ⟨j, h1, h2, -, h3⟩ := (hL x _).1 hx
    rw [hce] at h2
    have hj : j = 1 := by omega
    subst hj
    rcases h3 with h3 | h3 <;>
    · have := congrArg (fun i : Idx 1 => i.cell 0) h3
      simp at this
  · exact ⟨_, (hL' _ _).2 ⟨2, by norm_num, by rw [he], rfl, Or.inl rfl⟩⟩

end Lattpy
