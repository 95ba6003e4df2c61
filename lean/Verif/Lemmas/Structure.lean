import Verif.Lemmas.Analysis

/-! Invariants of configured structures. -/

set_option autoImplicit false
set_option linter.unusedSectionVars false

namespace Lattpy

variable {d : ℕ}

namespace Structure

/-- Invariant of every structure reachable by configuration calls. -/
structure Good (S : Structure d ℝ) : Prop where
  basis : ∃ rows, LatticeBasis.init rows = .ok S.basis
  positions_length : S.positions.length = S.numBase
  positions_nodup : S.positions.Nodup
  conn_none : S.conn = none → S.numBase = 0 ∧ S.atoms = [] ∧ S.frozen = false
  conn_size : ∀ c, S.conn = some c → c.size = S.numBase ∧ 0 < S.numBase
  conn_symm : ∀ c, S.conn = some c → ∀ i j, c.entry i j = c.entry j i
  atoms_of_not_frozen : S.frozen = false → S.atoms.length = S.numBase
  atoms_ge : S.numBase ≤ S.atoms.length
  analysis : ∀ A, S.analysis = some A → ∃ cells m c,
    S.basis.getNeighborCells (2 * m) true (fun a b => decide (a ≤ b)) = .ok cells ∧
    c.size = S.numBase ∧ (∀ i j, c.entry i j = c.entry j i) ∧ c.max? = .ok m ∧
    0 < S.numBase ∧ IsAnalysis S cells m c A
  analysis_frozen : S.analysis ≠ none → S.frozen = true

theorem good_ofBasis {rows : Matrix (Fin d) (Fin d) ℝ} {b : LatticeBasis d ℝ}
    (h : LatticeBasis.init rows = .ok b) : Good (ofBasis b) := by
  refine ⟨⟨rows, h⟩, rfl, List.nodup_nil, ?_, ?_, ?_, ?_, ?_, ?_, ?_⟩ <;> simp [ofBasis]

theorem IsAnalysis.congr {S S' : Structure d ℝ} {cells m c A} (h : IsAnalysis S cells m c A)
    (hb : S'.basis = S.basis) (hp : S'.positions = S.positions) (hn : S'.numBase = S.numBase) :
    IsAnalysis S' cells m c A := by
  have h1 : S'.siteDist = S.siteDist := by
    funext a b n; simp [siteDist, posOf, hb, hp]
  have h2 : S'.levels = S.levels := by
    funext cells a b; simp [levels, h1]
  exact ⟨by rw [hn]; exact h.base_length, by rw [hn, h1, h2]; exact h.base,
    by rw [hn, h2]; exact h.distMatrix, h.numNeighbors, h.distances,
    by rw [hn, h2]; exact h.rawDistances, by rw [hn, h1, h2]; exact h.rawNum⟩

/-- What `analyze` can do to a consistent structure. -/
theorem analyze_cases (hd : 0 < d) (env : Env ℝ) {S : Structure d ℝ} (hS : S.Good) :
    (S.analyze env = (S, .error .noAtoms) ∧ S.conn = none) ∨
    (∃ c, S.conn = some c ∧ c.allZero = true ∧ S.analyze env = (S, .error .noConnections)) ∨
    (∃ c cells m A, S.conn = some c ∧ c.allZero = false ∧ c.max? = .ok m ∧ 0 < m ∧
      S.basis.getNeighborCells (2 * m) true (fun a b => decide (a ≤ b)) = .ok cells ∧
      S.analyze env = ({ S with frozen := true, analysis := some A }, .ok ()) ∧
      IsAnalysis S cells m c A) := by
  obtain ⟨rows, hb⟩ := hS.basis
  rcases hc : S.conn with _ | c
  · left
    have := (hS.conn_none hc).2.1
    simp [analyze, this]
  · right
    rw [← hc]
    have hsz := hS.conn_size c hc
    have ha : S.atoms ≠ [] := by
      intro h
      have := hS.atoms_ge
      rw [h] at this
      simp at this
      omega
    rcases hz : c.allZero with _ | _
    · right
      obtain ⟨cells, m, A, h1, h2, h3, h4, h5⟩ := analyze_ok env S hb hd hS.positions_length ha hc
        hsz.1 hz
      exact ⟨c, cells, m, A, hc, hz, h1, h2, h3, h4, h5⟩
    · left
      refine ⟨c, hc, hz, ?_⟩
      unfold analyze
      rw [if_neg (by simpa using ha), hc]
      simp [hz]

theorem Good.analyzed {S : Structure d ℝ} (hS : S.Good) {c cells m A}
    (hc : S.conn = some c) (hm : c.max? = .ok m)
    (hcells : S.basis.getNeighborCells (2 * m) true (fun a b => decide (a ≤ b)) = .ok cells)
    (hA : IsAnalysis S cells m c A) : Good { S with frozen := true, analysis := some A } :=
  ⟨hS.basis, hS.positions_length, hS.positions_nodup, by
      intro h
      have h : S.conn = none := h
      simp [hc] at h, hS.conn_size, hS.conn_symm,
    by simp, hS.atoms_ge, by
      intro A' hA'
      simp only [Option.some.injEq] at hA'
      subst hA'
      exact ⟨cells, m, c, hcells, (hS.conn_size c hc).1, hS.conn_symm c hc, hm,
        (hS.conn_size c hc).2, hA.congr rfl rfl rfl⟩, by simp⟩

theorem Good.analyze (hd : 0 < d) (env : Env ℝ) {S : Structure d ℝ} (hS : S.Good) :
    (S.analyze env).1.Good := by
  rcases analyze_cases hd env hS with ⟨h, -⟩ | ⟨c, -, -, h⟩ | ⟨c, cells, m, A, hc, -, hm, -, hcells,
    h, hA⟩
  · rw [h]; exact hS
  · rw [h]; exact hS
  · rw [h]; exact hS.analyzed hc hm hcells hA

theorem analyze_frame (hd : 0 < d) (env : Env ℝ) {S : Structure d ℝ} (hS : S.Good) :
    (S.analyze env).1.atoms = S.atoms ∧ (S.analyze env).1.positions = S.positions ∧
    (S.analyze env).1.numBase = S.numBase ∧ (S.analyze env).1.basis = S.basis ∧
    (S.analyze env).1.conn = S.conn := by
  rcases analyze_cases hd env hS with ⟨h, -⟩ | ⟨c, -, -, h⟩ | ⟨c, cells, m, A, hc, -, hm, -, hcells,
    h, hA⟩ <;> rw [h] <;> simp

theorem Good.setConn {S : Structure d ℝ} (hS : S.Good) (c : ConnMatrix) (h1 : c.size = S.numBase)
    (h2 : 0 < S.numBase) (h3 : ∀ i j, c.entry i j = c.entry j i) :
    Good { S with conn := some c } :=
  ⟨hS.basis, hS.positions_length, hS.positions_nodup, by simp, by
    intro c' hc'
    simp only [Option.some.injEq] at hc'
    subst hc'
    exact ⟨h1, h2⟩, by
    intro c' hc'
    simp only [Option.some.injEq] at hc'
    subst hc'
    exact h3, hS.atoms_of_not_frozen, hS.atoms_ge, by
    intro A hA
    obtain ⟨cells, m, c', e1, e2, e3, e4, e5, e6⟩ := hS.analysis A hA
    exact ⟨cells, m, c', e1, e2, e3, e4, e5, e6.congr rfl rfl rfl⟩, hS.analysis_frozen⟩

theorem ConnMatrix.fill_symm (c : ConnMatrix) (v i j : ℕ) :
    (c.fill v).entry i j = (c.fill v).entry j i := by
  simp only [ConnMatrix.fill, and_comm]

theorem ConnMatrix.setPair_symm (c : ConnMatrix) (h : ∀ i j, c.entry i j = c.entry j i)
    (a b v i j : ℕ) : (c.setPair a b v).entry i j = (c.setPair a b v).entry j i := by
  simp only [ConnMatrix.setPair, h i j]
  congr 1
  apply propext
  tauto

theorem addConnections_good (hd : 0 < d) (env : Env ℝ) {S : Structure d ℝ} (hS : S.Good)
    (num : ℕ) (an : Bool) :
    (S.addConnections env num an).1.Good ∧
    (S.addConnections env num an).1.atoms = S.atoms ∧
    (S.addConnections env num an).1.positions = S.positions ∧
    (S.addConnections env num an).1.numBase = S.numBase ∧
    (S.addConnections env num an).1.basis = S.basis ∧
    (S.addConnections env num an).1.conn = S.conn.map fun c => c.fill num := by
  unfold addConnections
  cases hc : S.conn with
  | none => exact ⟨hS, rfl, rfl, rfl, rfl, hc⟩
  | some c =>
    have h1 := hS.conn_size c hc
    have hG := hS.setConn (c.fill num) h1.1 h1.2 (ConnMatrix.fill_symm c num)
    dsimp only
    cases an with
    | false => exact ⟨hG, rfl, rfl, rfl, rfl, rfl⟩
    | true =>
      have hf := analyze_frame hd env hG
      exact ⟨hG.analyze hd env, hf.1, hf.2.1, hf.2.2.1, hf.2.2.2.1, hf.2.2.2.2⟩

theorem connectPairs_spec (num : ℕ) : ∀ (ps : List (ℤ × ℤ)) (c c' : ConnMatrix),
    connectPairs num (some c) ps = .ok (some c') → (∀ i j, c.entry i j = c.entry j i) →
    c'.size = c.size ∧ (∀ i j, c'.entry i j = c'.entry j i) ∧
    ∀ i j, c'.entry i j = if (∃ p ∈ ps, (pyIdx c.size p.1 = some i ∧ pyIdx c.size p.2 = some j) ∨
        (pyIdx c.size p.1 = some j ∧ pyIdx c.size p.2 = some i)) then num else c.entry i j
  | [], c, c', h, hs => by
    simp only [connectPairs, Except.ok.injEq, Option.some.injEq] at h
    subst h
    exact ⟨rfl, hs, by simp⟩
  | (p, q) :: ps, c, c', h, hs => by
    unfold connectPairs at h
    split at h
    · rename_i a b ha hb
      obtain ⟨h1, h2, h3⟩ := connectPairs_spec num ps _ c' h (ConnMatrix.setPair_symm c hs a b num)
      refine ⟨h1, h2, ?_⟩
      intro i j
      rw [h3 i j]
      have hsz : (c.setPair a b num).size = c.size := rfl
      rw [hsz]
      by_cases hP : ∃ p ∈ ps, (pyIdx c.size p.1 = some i ∧ pyIdx c.size p.2 = some j) ∨
        (pyIdx c.size p.1 = some j ∧ pyIdx c.size p.2 = some i)
      · rw [if_pos hP, if_pos]
        obtain ⟨x, hx, h⟩ := hP
        exact ⟨x, by simp [hx], h⟩
      · rw [if_neg hP]
        by_cases hQ : (i = a ∧ j = b) ∨ (i = b ∧ j = a)
        · rw [if_pos]
          · simp only [ConnMatrix.setPair]
            rw [if_pos hQ]
          · refine ⟨(p, q), by simp, ?_⟩
            rcases hQ with ⟨rfl, rfl⟩ | ⟨rfl, rfl⟩
            · exact Or.inl ⟨ha, hb⟩
            · exact Or.inr ⟨ha, hb⟩
        · rw [if_neg]
          · simp only [ConnMatrix.setPair]
            rw [if_neg hQ]
          · rintro ⟨x, hx, h⟩
            rcases List.mem_cons.1 hx with rfl | hx
            · apply hQ
              dsimp only at h
              rw [ha, hb] at h
              simp only [Option.some.injEq] at h
              rcases h with ⟨rfl, rfl⟩ | ⟨rfl, rfl⟩
              · exact Or.inl ⟨rfl, rfl⟩
              · exact Or.inr ⟨rfl, rfl⟩
            · exact hP ⟨x, hx, h⟩
    · cases h

theorem connectPairs_none (num : ℕ) (ps : List (ℤ × ℤ)) (c : Option ConnMatrix)
    (h : connectPairs num none ps = .ok c) : c = none := by
  cases ps with
  | nil => simp only [connectPairs, Except.ok.injEq] at h; exact h.symm
  | cons p ps => simp [connectPairs] at h

theorem connectPairs_some (num : ℕ) : ∀ (ps : List (ℤ × ℤ)) (c : ConnMatrix)
    (c' : Option ConnMatrix), connectPairs num (some c) ps = .ok c' → ∃ c'', c' = some c''
  | [], c, c', h => by
    simp only [connectPairs, Except.ok.injEq] at h
    exact ⟨c, h.symm⟩
  | p :: ps, c, c', h => by
    unfold connectPairs at h
    split at h
    · exact connectPairs_some num ps _ c' h
    · cases h

theorem addConnection_good (hd : 0 < d) (env : Env ℝ) (s : Session) {S : Structure d ℝ}
    (hS : S.Good) (a1 a2 : AtomRef) (num : ℕ) (an : Bool) :
    (S.addConnection env s a1 a2 num an).1.Good ∧
    (S.addConnection env s a1 a2 num an).1.atoms = S.atoms ∧
    (S.addConnection env s a1 a2 num an).1.positions = S.positions ∧
    (S.addConnection env s a1 a2 num an).1.numBase = S.numBase ∧
    (S.addConnection env s a1 a2 num an).1.basis = S.basis := by
  unfold addConnection
  split
  · exact ⟨hS, rfl, rfl, rfl, rfl⟩
  · exact ⟨hS, rfl, rfl, rfl, rfl⟩
  · rename_i as bs _ _
    split
    · exact ⟨hS, rfl, rfl, rfl, rfl⟩
    · rename_i c hc
      have hG : Good { S with conn := c } := by
        cases hSc : S.conn with
        | none =>
          rw [hSc] at hc
          have := connectPairs_none num _ _ hc
          subst this
          rw [← hSc]
          exact hS
        | some c0 =>
          rw [hSc] at hc
          obtain ⟨c1, rfl⟩ := connectPairs_some num _ _ _ hc
          have h1 := connectPairs_spec num _ _ _ hc (hS.conn_symm c0 hSc)
          have h2 := hS.conn_size c0 hSc
          exact hS.setConn c1 (h1.1.trans h2.1) h2.2 h1.2.1
      dsimp only
      cases an with
      | false => exact ⟨hG, rfl, rfl, rfl, rfl⟩
      | true =>
        have hf := analyze_frame hd env hG
        exact ⟨hG.analyze hd env, hf.1, hf.2.1, hf.2.2.1, hf.2.2.2.1⟩

theorem addAtomAt_frozen (env : Env ℝ) (S : Structure d ℝ) (p : Vec d ℝ) (a : Atom) (nb : ℕ)
    (h : S.frozen = true) :
    S.addAtomAt env p a nb = ({ S with atoms := S.atoms ++ [a] }, .error .attribute) := by
  simp [addAtomAt, h]

/-- `add_atom` on a structure whose positions are still a list. -/
theorem addAtomAt_ok (hd : 0 < d) (env : Env ℝ) {S : Structure d ℝ} (hS : S.Good) (p : Vec d ℝ)
    (hp : p ∉ S.positions) (a : Atom) (nb : ℕ) (h : S.frozen = false) :
    (S.addAtomAt env p a nb).2 = .ok () ∧ (S.addAtomAt env p a nb).1.Good ∧
    (S.addAtomAt env p a nb).1.atoms = S.atoms ++ [a] ∧
    (S.addAtomAt env p a nb).1.positions = S.positions ++ [p] ∧
    (S.addAtomAt env p a nb).1.numBase = S.numBase + 1 ∧
    (S.addAtomAt env p a nb).1.basis = S.basis ∧
    (S.addAtomAt env p a nb).1.conn =
      some ((ConnMatrix.zeros (S.numBase + 1)).fill nb) := by
  have hlen := hS.atoms_of_not_frozen h
  have hA : S.analysis = none := by
    by_contra hA
    have := hS.analysis_frozen hA
    rw [h] at this
    cases this
  set S3 : Structure d ℝ := { S with
    atoms := S.atoms ++ [a]
    positions := S.positions ++ [p]
    numBase := S.numBase + 1
    conn := some (ConnMatrix.zeros (S.numBase + 1)) } with hS3
  have hG : Good S3 := by
    refine ⟨hS.basis, ?_, ?_, by simp [hS3], ?_, ?_, ?_, ?_, ?_, ?_⟩
    · simp [hS3, hS.positions_length]
    · simp only [hS3]
      rw [List.nodup_append]
      exact ⟨hS.positions_nodup, by simp, by
        intro x hx y hy
        rw [List.mem_singleton] at hy
        rintro rfl
        exact hp (hy ▸ hx)⟩
    · intro c hc
      simp only [hS3, Option.some.injEq] at hc
      subst hc
      exact ⟨rfl, Nat.succ_pos _⟩
    · intro c hc
      simp only [hS3, Option.some.injEq] at hc
      subst hc
      intro i j; rfl
    · intro _; simp [hS3, hlen]
    · simp [hS3, hlen]
    · intro A hA'
      simp only [hS3, hA] at hA'
      cases hA'
    · simp [hS3, hA]
  have heq : S.addAtomAt env p a nb =
      if nb ≠ 0 then S3.addConnections env nb true else (S3, .ok ()) := by
    unfold addAtomAt
    simp only [h, Bool.false_eq_true, if_false, List.length_append, List.length_singleton, hlen,
      hS.positions_length, ne_eq, not_true_eq_false, hS3]
  rw [heq]
  by_cases hnb : nb = 0
  · rw [if_neg (by simpa using hnb)]
    refine ⟨rfl, hG, rfl, rfl, rfl, rfl, ?_⟩
    subst hnb
    simp [hS3, ConnMatrix.fill, ConnMatrix.zeros]
  · rw [if_pos hnb]
    obtain ⟨g1, g2, g3, g4, g5, g6⟩ := addConnections_good hd env hG nb true
    refine ⟨?_, g1, g2, g3, g4, g5, g6⟩
    -- the analysis succeeds
    unfold addConnections
    have hc : S3.conn = some (ConnMatrix.zeros (S.numBase + 1)) := rfl
    rw [hc]
    dsimp only
    have hG' := hG.setConn ((ConnMatrix.zeros (S.numBase + 1)).fill nb) rfl (Nat.succ_pos _)
      (ConnMatrix.fill_symm _ nb)
    rcases analyze_cases hd env hG' with ⟨-, h⟩ | ⟨c, hc, hz, -⟩ | ⟨c, cells, m, A, -, -, -, -, -, h, -⟩
    · cases h
    · simp only [Option.some.injEq] at hc
      subst hc
      rw [ConnMatrix.allZero_iff] at hz
      have := hz 0 (Nat.succ_pos _) 0 (Nat.succ_pos _)
      simp [ConnMatrix.fill, ConnMatrix.zeros] at this
      exact absurd this hnb
    · simp [h]

end Structure

namespace World

/-- What `add_atom` can do to a consistent structure. -/
theorem addAtom_cases (env : Env ℝ) (w : World d ℝ) (pos : Option (List ℝ)) (atom : AtomArg) (primitive : Bool) (nb : ℕ) :
    (∃ e, w.addAtom env pos atom primitive nb = (w, .error e) ∧ e ≠ .attribute) ∨
    ∃ p a s, Structure.atomPos w.struct.basis pos primitive = .ok p ∧ p ∉ w.struct.positions ∧
      (match atom with
        | .obj a' => a = a' ∧ s = w.session
        | .new name radius color weight kwargs =>
          w.session.create name radius color weight kwargs = .ok s ∧ s.atoms.getLast? = some a) ∧
      w.addAtom env pos atom primitive nb =
        (⟨s, (w.struct.addAtomAt env p a nb).1⟩, (w.struct.addAtomAt env p a nb).2) := by
  unfold addAtom
  cases hpos : Structure.atomPos w.struct.basis pos primitive with
  | error e =>
    left
    refine ⟨e, rfl, ?_⟩
    unfold Structure.atomPos at hpos
    split at hpos
    · cases hpos
    · split at hpos
      · cases hpos; decide
      · cases hpos
  | ok p =>
    dsimp only
    by_cases hp : p ∈ w.struct.positions
    · left
      rw [if_pos hp]
      exact ⟨_, rfl, by decide⟩
    · rw [if_neg hp]
      cases atom with
      | obj a => exact Or.inr ⟨p, a, w.session, rfl, hp, ⟨rfl, rfl⟩, rfl⟩
      | new name radius color weight kwargs =>
        dsimp only
        cases hcr : w.session.create name radius color weight kwargs with
        | error e =>
          left
          refine ⟨e, rfl, ?_⟩
          unfold Session.create at hcr
          split at hcr
          · cases hcr; decide
          · cases hcr
        | ok s =>
          dsimp only
          have hlast : ∃ a, s.atoms.getLast? = some a := by
            unfold Session.create at hcr
            split at hcr
            · cases hcr
            · simp only [Except.ok.injEq] at hcr
              subst hcr
              exact ⟨_, List.getLast?_append_cons _ _ _⟩
          obtain ⟨a, ha⟩ := hlast
          rw [ha]
          exact Or.inr ⟨p, a, s, rfl, hp, ⟨rfl, ha⟩, rfl⟩

theorem call_good (hd : 0 < d) (env : Env ℝ) {w : World d ℝ} (hw : w.struct.Good) (op : Op ℝ) :
    (w.call env op).1.struct.Good := by
  cases op with
  | addAtom pos atom primitive nb =>
    change (w.addAtom env pos atom primitive nb).1.struct.Good
    rcases addAtom_cases env w pos atom primitive nb with ⟨e, h, -⟩ | ⟨p, a, s, -, hp, -, h⟩
    · rw [h]; exact hw
    · rw [h]
      dsimp only
      cases hf : w.struct.frozen with
      | false => exact (Structure.addAtomAt_ok hd env hw p hp a nb hf).2.1
      | true =>
        rw [Structure.addAtomAt_frozen env _ p a nb hf]
        exact ⟨hw.basis, hw.positions_length, hw.positions_nodup, by
          intro h
          have h1 := (hw.conn_none h).2.2
          simp [hf] at h1, hw.conn_size, hw.conn_symm,
          by simp [hf], by
            have := hw.atoms_ge
            simp only [List.length_append]
            omega, by
            intro A hA
            obtain ⟨cells, m, c, h⟩ := hw.analysis A hA
            exact ⟨cells, m, c, h.1, h.2.1, h.2.2.1, h.2.2.2.1, h.2.2.2.2.1,
              h.2.2.2.2.2.congr rfl rfl rfl⟩, by intro h; exact hf⟩
  | addConnection a1 a2 num an => exact (Structure.addConnection_good hd env w.session hw a1 a2 num an).1
  | addConnections num an => exact (Structure.addConnections_good hd env hw num an).1
  | analyze => exact hw.analyze hd env

theorem run_good (hd : 0 < d) (env : Env ℝ) (ops : List (Op ℝ)) {w : World d ℝ}
    (hw : w.struct.Good) : (w.run env ops).struct.Good := by
  induction ops generalizing w with
  | nil => exact hw
  | cons op ops ih => exact ih (call_good hd env hw op)

end World

end Lattpy
