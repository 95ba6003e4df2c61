import Verif.Lemmas.Atom
import Verif.Lemmas.Chain
import Verif.Lemmas.Env

/-!
# Properties of the configuration of a structure (C29, C30, C31, C35, C36, C37, C38)
-/

set_option autoImplicit false
set_option linter.unusedSectionVars false

namespace Lattpy

open Structure World

variable {d : ℕ}

/-- The structures a program can construct: a regular basis of positive dimension and any history
of configuration calls, some of which may raise. -/
def Reachable (env : Env ℝ) (w : World d ℝ) : Prop :=
  ∃ rows b s ops, LatticeBasis.init rows = .ok b ∧ w = World.run env ⟨s, ofBasis b⟩ ops

theorem Reachable.good (hd : 0 < d) {env : Env ℝ} {w : World d ℝ} (h : Reachable env w) :
    w.struct.Good := by
  obtain ⟨rows, b, s, ops, hb, rfl⟩ := h
  exact run_good hd env ops (good_ofBasis hb)

theorem Reachable.call {env : Env ℝ} {w : World d ℝ} (h : Reachable env w) (op : World.Op ℝ) :
    Reachable env (w.call env op).1 := by
  obtain ⟨rows, b, s, ops, hb, rfl⟩ := h
  refine ⟨rows, b, s, ops ++ [op], hb, ?_⟩
  simp [World.run]

/-! ## C29 -/

/-- The call is an `add_atom`. -/
def isAddAtom : World.Op ℝ → Prop
  | .addAtom .. => True
  | _ => False

/-- No `add_atom` of the history raised an `AttributeError`. -/
def NoAttributeError (env : Env ℝ) : World d ℝ → List (World.Op ℝ) → Prop
  | _, [] => True
  | w, op :: ops => (isAddAtom op → (w.call env op).2 ≠ .error .attribute) ∧
      NoAttributeError env (w.call env op).1 ops

theorem call_atoms (hd : 0 < d) (env : Env ℝ) {w : World d ℝ} (hw : w.struct.Good)
    (op : World.Op ℝ) (ha : w.struct.atoms.length = w.struct.numBase)
    (hop : isAddAtom op → (w.call env op).2 ≠ .error .attribute) :
    (w.call env op).1.struct.atoms.length = (w.call env op).1.struct.numBase := by
  cases op with
  | addAtom pos atom primitive nb =>
    change (w.addAtom env pos atom primitive nb).1.struct.atoms.length = _
    change _ = (w.addAtom env pos atom primitive nb).1.struct.numBase
    have hop : (w.addAtom env pos atom primitive nb).2 ≠ .error .attribute := hop trivial
    rcases addAtom_cases env w pos atom primitive nb with ⟨e, h, -⟩ | ⟨p, a, s, -, hp, -, h⟩
    · rw [h]; exact ha
    · rw [h] at hop ⊢
      dsimp only at hop ⊢
      cases hf : w.struct.frozen with
      | true =>
        rw [addAtomAt_frozen env _ p a nb hf] at hop
        exact absurd rfl hop
      | false =>
        obtain ⟨-, -, h1, -, h2, -⟩ := addAtomAt_ok hd env hw p hp a nb hf
        rw [h1, h2]
        simp [ha]
  | addConnection a1 a2 num an =>
    have := addConnection_good hd env w.session hw a1 a2 num an
    change (w.struct.addConnection env w.session a1 a2 num an).1.atoms.length =
      (w.struct.addConnection env w.session a1 a2 num an).1.numBase
    rw [this.2.1, this.2.2.2.1, ha]
  | addConnections num an =>
    have := addConnections_good hd env hw num an
    change (w.struct.addConnections env num an).1.atoms.length =
      (w.struct.addConnections env num an).1.numBase
    rw [this.2.1, this.2.2.2.1, ha]
  | analyze =>
    have := analyze_frame hd env hw
    change (w.struct.analyze env).1.atoms.length = (w.struct.analyze env).1.numBase
    rw [this.1, this.2.2.1, ha]

/-- C29, what holds: after any history the numbers of positions and `num_base` agree and positions
are distinct; the number of atoms agrees with them as long as no `add_atom` raised an
`AttributeError`; every call that raises — except an `add_atom` raising an `AttributeError` — leaves
atoms, positions and `num_base` unchanged. -/
theorem C29_unit_cell_partial (hd : 0 < d) (env : Env ℝ) {rows : Matrix (Fin d) (Fin d) ℝ}
    {b : LatticeBasis d ℝ} (hb : LatticeBasis.init rows = .ok b) (s : Session)
    (ops : List (World.Op ℝ)) :
    let w := World.run env ⟨s, ofBasis b⟩ ops
    w.struct.positions.length = w.struct.numBase ∧ w.struct.positions.Nodup ∧
    (NoAttributeError env ⟨s, ofBasis b⟩ ops → w.struct.atoms.length = w.struct.numBase) ∧
    ∀ op e, (w.call env op).2 = .error e → ¬ (isAddAtom op ∧ e = .attribute) →
      (w.call env op).1.struct.atoms = w.struct.atoms ∧
      (w.call env op).1.struct.positions = w.struct.positions ∧
      (w.call env op).1.struct.numBase = w.struct.numBase := by
  intro w
  have hG : w.struct.Good := run_good hd env ops (good_ofBasis hb)
  refine ⟨hG.positions_length, hG.positions_nodup, ?_, ?_⟩
  · have key : ∀ (ops : List (World.Op ℝ)) (w : World d ℝ), w.struct.Good →
        w.struct.atoms.length = w.struct.numBase → NoAttributeError env w ops →
        (World.run env w ops).struct.atoms.length = (World.run env w ops).struct.numBase := by
      intro ops
      induction ops with
      | nil => intro w _ h _; exact h
      | cons op ops ih =>
        intro w hw ha hno
        exact ih _ (call_good hd env hw op) (call_atoms hd env hw op ha hno.1) hno.2
    exact key ops _ (good_ofBasis hb) rfl
  · intro op e he hne
    cases op with
    | addAtom pos atom primitive nb =>
      change (w.addAtom env pos atom primitive nb).2 = .error e at he
      change (w.addAtom env pos atom primitive nb).1.struct.atoms = _ ∧
        (w.addAtom env pos atom primitive nb).1.struct.positions = _ ∧
        (w.addAtom env pos atom primitive nb).1.struct.numBase = _
      rcases addAtom_cases env w pos atom primitive nb with ⟨e', h, -⟩ | ⟨p, a, s, -, hp, -, h⟩
      · rw [h]; exact ⟨rfl, rfl, rfl⟩
      · rw [h] at he
        dsimp only at he
        cases hf : w.struct.frozen with
        | true =>
          rw [addAtomAt_frozen env _ p a nb hf] at he
          simp only [Except.error.injEq] at he
          exact absurd ⟨trivial, he.symm⟩ hne
        | false =>
          rw [(addAtomAt_ok hd env hG p hp a nb hf).1] at he
          cases he
    | addConnection a1 a2 num an =>
      have := addConnection_good hd env w.session hG a1 a2 num an
      exact ⟨this.2.1, this.2.2.1, this.2.2.2.1⟩
    | addConnections num an =>
      have := addConnections_good hd env hG num an
      exact ⟨this.2.1, this.2.2.1, this.2.2.2.1⟩
    | analyze =>
      have := analyze_frame hd env hG
      exact ⟨this.1, this.2.1, this.2.2.1⟩

/-- A history that meets the conditions: two atoms of a chain, a rejected third one at an occupied
position, connections. -/
example (env : Env ℝ) : LatticeBasis.init (chainRows 1) = .ok (chainBasis 1) ∧
    (World.run env ⟨Session.empty, ofBasis (chainBasis 1)⟩
      [.addAtom none (.obj ⟨0, "A", .none, 0⟩) false 0,
       .addAtom (some [1 / 2]) (.obj ⟨1, "B", .none, 1⟩) false 0]).struct.atoms.length = 2 := by
  refine ⟨chain_init one_pos, ?_⟩
  have h0 := good_ofBasis (chain_init one_pos)
  have h1 := addAtomAt_ok Nat.one_pos env h0 0 (by simp [ofBasis]) ⟨0, "A", .none, 0⟩ 0 rfl
  set S1 := ((ofBasis (chainBasis 1)).addAtomAt env 0 ⟨0, "A", .none, 0⟩ 0).1 with hS1
  have hf : S1.frozen = false := by simp [hS1, addAtomAt, ofBasis]
  have hp : (fun _ => 1 / 2 : Vec 1 ℝ) ∉ S1.positions := by
    rw [h1.2.2.2.1]
    simp only [ofBasis, List.nil_append, List.mem_singleton]
    intro h
    have := congrFun h 0
    norm_num at this
  have h2 := addAtomAt_ok Nat.one_pos env h1.2.1 _ hp ⟨1, "B", .none, 1⟩ 0 hf
  have e1 : (World.mk Session.empty (ofBasis (chainBasis 1))).addAtom env none
      (.obj ⟨0, "A", .none, 0⟩) false 0 = (⟨Session.empty, S1⟩, .ok ()) := by
    simp only [World.addAtom, Structure.atomPos]
    rw [if_neg (by simp [ofBasis])]
    simp only [Bool.false_eq_true, if_false]
    rw [h1.1, hS1]
  have e2 : (World.mk Session.empty S1).addAtom env (some [1 / 2])
      (.obj ⟨1, "B", .none, 1⟩) false 0 =
      (⟨Session.empty, (S1.addAtomAt env (fun _ => 1 / 2) ⟨1, "B", .none, 1⟩ 0).1⟩, .ok ()) := by
    have hv : (Structure.toVec [1 / 2] : Option (Vec 1 ℝ)) = some fun _ => 1 / 2 := by
      unfold Structure.toVec
      rw [dif_pos (by simp)]
      congr 1
      funext i
      have : i = 0 := Subsingleton.elim _ _
      subst this
      rfl
    simp only [World.addAtom, Structure.atomPos, hv, Bool.false_eq_true, if_false]
    rw [if_neg hp, h2.1]
  simp only [World.run, List.foldl_cons, List.foldl_nil, World.call, e1, e2]
  rw [h2.2.2.1, h1.2.2.1]
  rfl

/-- C29 fails: after a successful `analyze` every `add_atom` with a free position raises an
`AttributeError` *after* the atom has been appended, so that there is one atom more than positions
and than `num_base`. (`analyze` replaces the list of positions by an array, which has no method
`append`; structure.py 253-254, 454.) -/
theorem C29_add_atom_after_analyze_fails (env : Env ℝ) (w : World d ℝ)
    (hok : (w.struct.analyze env).2 = .ok ()) (p : Vec d ℝ) (hp : p ∉ w.struct.positions)
    (a : Atom) (nb : ℕ) :
    let w1 := (w.call env .analyze).1
    let r := w1.call env (.addAtom (some (List.ofFn p)) (.obj a) false nb)
    r.2 = .error .attribute ∧ r.1.struct.atoms = w.struct.atoms ++ [a] ∧
      r.1.struct.positions = w.struct.positions ∧ r.1.struct.numBase = w.struct.numBase := by
  intro w1 r
  have hfr : (w.struct.analyze env).1.frozen = true ∧
      (w.struct.analyze env).1.atoms = w.struct.atoms ∧
      (w.struct.analyze env).1.positions = w.struct.positions ∧
      (w.struct.analyze env).1.numBase = w.struct.numBase := by
    unfold Structure.analyze at hok ⊢
    split at hok
    · cases hok
    · rename_i h1
      rw [if_neg h1]
      split at hok
      · cases hok
      · split at hok
        · cases hok
        · rename_i h2
          rw [if_neg h2]
          split at hok
          · cases hok
          · split at hok
            · cases hok
            · exact ⟨rfl, rfl, rfl, rfl⟩
  have hv : (Structure.toVec (List.ofFn p) : Option (Vec d ℝ)) = some p := by
    unfold Structure.toVec
    rw [dif_pos (by simp)]
    congr 1
    funext i
    simp
  have hr : r = w1.addAtom env (some (List.ofFn p)) (.obj a) false nb := rfl
  have hw1 : w1.struct = (w.struct.analyze env).1 := rfl
  have hr' : r = (⟨w1.session, { w1.struct with atoms := w1.struct.atoms ++ [a] }⟩,
      .error .attribute) := by
    rw [hr]
    simp only [World.addAtom, Structure.atomPos, hv, Bool.false_eq_true, if_false]
    rw [if_neg (by rw [hw1, hfr.2.2.1]; exact hp)]
    rw [addAtomAt_frozen env _ p a nb (by rw [hw1]; exact hfr.1)]
  rw [hr']
  dsimp only
  rw [hw1]
  exact ⟨rfl, by rw [hfr.2.1], hfr.2.2.1, hfr.2.2.2⟩

/-- A chain with one atom is analysed successfully, so the failure occurs. -/
example (env : Env ℝ) : ∃ w : World 1 ℝ, Reachable env w ∧ (w.struct.analyze env).2 = .ok () ∧
    w.struct.positions = [0] := by
  have h0 := good_ofBasis (chain_init one_pos)
  have h1 := addAtomAt_ok Nat.one_pos env h0 0 (by simp [ofBasis]) ⟨0, "A", .none, 0⟩ 1 rfl
  set S1 := ((ofBasis (chainBasis 1)).addAtomAt env 0 ⟨0, "A", .none, 0⟩ 1).1 with hS1
  refine ⟨⟨Session.empty, S1⟩, ⟨_, _, Session.empty, [.addAtom none (.obj ⟨0, "A", .none, 0⟩) false 1],
    chain_init one_pos, ?_⟩, ?_, by rw [h1.2.2.2.1]; rfl⟩
  · simp only [World.run, List.foldl_cons, List.foldl_nil, World.call, World.addAtom,
      Structure.atomPos, Bool.false_eq_true, if_false]
    rw [if_neg (by simp [ofBasis]), hS1]
  · rcases analyze_cases Nat.one_pos env h1.2.1 with ⟨-, h⟩ | ⟨c, hc, hz, -⟩ |
      ⟨c, cells, m, A, -, -, -, -, -, h, -⟩
    · rw [h1.2.2.2.2.2.2] at h; cases h
    · rw [h1.2.2.2.2.2.2] at hc
      simp only [Option.some.injEq] at hc
      subst hc
      rw [ConnMatrix.allZero_iff] at hz
      have := hz 0 (Nat.succ_pos _) 0 (Nat.succ_pos _)
      simp [ConnMatrix.fill, ConnMatrix.zeros] at this
    · rw [h]

/-! ## C30 -/

/-- After any history of calls the connection matrix has the size of the unit cell and is
symmetric. -/
theorem C30_symmetric (hd : 0 < d) {env : Env ℝ} {w : World d ℝ} (h : Reachable env w)
    {c : ConnMatrix} (hc : w.struct.conn = some c) :
    c.size = w.struct.numBase ∧ ∀ i j, c.entry i j = c.entry j i :=
  ⟨((h.good hd).conn_size c hc).1, (h.good hd).conn_symm c hc⟩

/-- `add_connection(i, j, n)` for atom numbers (counted from the end if negative) sets exactly the
entries of the pair; with a number out of range it raises an `IndexError` and changes nothing. -/
theorem C30_add_connection (env : Env ℝ) (s : Session) (S : Structure d ℝ) {c : ConnMatrix}
    (hc : S.conn = some c) (i j : ℤ) (n : ℕ) :
    (∀ k l : ℕ, k < c.size → l < c.size → (i = k ∨ i = (k : ℤ) - c.size) →
        (j = l ∨ j = (l : ℤ) - c.size) →
      ∃ c', S.addConnection env s (.num i) (.num j) n false = ({ S with conn := some c' }, .ok ()) ∧
        c'.size = c.size ∧ c'.entry k l = n ∧ c'.entry l k = n ∧
        ∀ p q, (p, q) ≠ (k, l) → (p, q) ≠ (l, k) → c'.entry p q = c.entry p q) ∧
    ((i < -c.size ∨ (c.size : ℤ) ≤ i ∨ j < -c.size ∨ (c.size : ℤ) ≤ j) →
      S.addConnection env s (.num i) (.num j) n false = (S, .error .index)) := by
  constructor
  · intro k l hk hl hi hj
    have e1 : pyIdx c.size i = some k := by
      unfold pyIdx
      rcases hi with rfl | rfl
      · rw [if_pos (by omega)]; simp
      · rw [if_neg (by omega), if_pos (by omega)]; congr 1; omega
    have e2 : pyIdx c.size j = some l := by
      unfold pyIdx
      rcases hj with rfl | rfl
      · rw [if_pos (by omega)]; simp
      · rw [if_neg (by omega), if_pos (by omega)]; congr 1; omega
    refine ⟨c.setPair k l n, ?_, rfl, ?_, ?_, ?_⟩
    · simp [addConnection, getAlpha, hc, connectPairs, e1, e2]
    · simp [ConnMatrix.setPair]
    · simp [ConnMatrix.setPair]
    · intro p q h1 h2
      simp only [ConnMatrix.setPair]
      rw [if_neg]
      rintro (⟨rfl, rfl⟩ | ⟨rfl, rfl⟩)
      · exact h1 rfl
      · exact h2 rfl
  · intro h
    have hn : ∀ x : ℤ, x < -c.size ∨ (c.size : ℤ) ≤ x → pyIdx c.size x = none := by
      intro x hx
      unfold pyIdx
      rw [if_neg (by omega), if_neg (by omega)]
    rcases h with h | h | h | h
    · simp [addConnection, getAlpha, hc, connectPairs, hn i (Or.inl h)]
    · simp [addConnection, getAlpha, hc, connectPairs, hn i (Or.inr h)]
    · simp [addConnection, getAlpha, hc, connectPairs, hn j (Or.inl h)]
    · simp [addConnection, getAlpha, hc, connectPairs, hn j (Or.inr h)]

example : ∃ c : ConnMatrix, c = ⟨3, fun i j => if i = j then 2 else 1⟩ ∧
    (1 : ℕ) < c.size ∧ (2 : ℕ) < c.size ∧ (-1 : ℤ) = (2 : ℤ) - c.size := ⟨_, rfl, by decide, by decide, by decide⟩

/-- `add_connection` with names: exactly the pairs of atoms with the first and the second name are
connected (in both orders); all other entries are unchanged. -/
theorem C30_add_connection_names (env : Env ℝ) (s : Session) (S : Structure d ℝ) {c : ConnMatrix}
    (hc : S.conn = some c) (hs : c.size = S.atoms.length) (hsym : ∀ i j, c.entry i j = c.entry j i)
    (n1 n2 : String) (n : ℕ) :
    ∃ c', S.addConnection env s (.name n1) (.name n2) n false =
        ({ S with conn := some c' }, .ok ()) ∧ c'.size = c.size ∧
      ∀ (i j : ℕ) (a b : Atom), S.atoms[i]? = some a → S.atoms[j]? = some b →
        c'.entry i j =
          if (s.nameAttr a = .str n1 ∧ s.nameAttr b = .str n2) ∨
            (s.nameAttr a = .str n2 ∧ s.nameAttr b = .str n1) then n else c.entry i j := by
  set as := whereIdx (fun at' => decide (PyVal.str n1 = s.nameAttr at')) S.atoms with has
  set bs := whereIdx (fun at' => decide (PyVal.str n2 = s.nameAttr at')) S.atoms with hbs
  have hin : ∀ (m : String) (i : ℕ), i ∈ whereIdx (fun at' => decide (PyVal.str m = s.nameAttr at'))
      S.atoms → pyIdx c.size (i : ℤ) = some i := by
    intro m i hi
    obtain ⟨a, ha, -⟩ := mem_whereIdx.1 hi
    have := (List.getElem?_eq_some_iff.1 ha).1
    unfold pyIdx
    rw [if_pos (by omega)]
    simp
  set ps : List (ℤ × ℤ) := (as.map fun i : ℕ => (i : ℤ)).flatMap fun i =>
    (bs.map fun i : ℕ => (i : ℤ)).map fun j => (i, j) with hps
  have hmem : ∀ p, p ∈ ps ↔ ∃ i ∈ as, ∃ j ∈ bs, p = ((i : ℤ), (j : ℤ)) := by
    intro p
    simp only [hps, List.mem_flatMap, List.mem_map]
    constructor
    · rintro ⟨x, ⟨i, hi, rfl⟩, y, ⟨j, hj, rfl⟩, rfl⟩
      exact ⟨i, hi, j, hj, rfl⟩
    · rintro ⟨i, hi, j, hj, rfl⟩
      exact ⟨_, ⟨i, hi, rfl⟩, _, ⟨j, hj, rfl⟩, rfl⟩
  -- the loop does not fail
  have hok : ∀ (ps : List (ℤ × ℤ)) (c0 : ConnMatrix), (∀ p ∈ ps, ∃ k l, pyIdx c0.size p.1 = some k ∧
      pyIdx c0.size p.2 = some l) → ∃ c', connectPairs n (some c0) ps = .ok (some c') := by
    intro ps
    induction ps with
    | nil => intro c0 _; exact ⟨c0, rfl⟩
    | cons p ps ih =>
      intro c0 h
      obtain ⟨k, l, h1, h2⟩ := h p (by simp)
      obtain ⟨c', hc'⟩ := ih (c0.setPair k l n) (fun q hq => h q (by simp [hq]))
      refine ⟨c', ?_⟩
      obtain ⟨p1, p2⟩ := p
      simp only at h1 h2
      simp [connectPairs, h1, h2, hc']
  obtain ⟨c', hc'⟩ := hok ps c (by
    intro p hp
    obtain ⟨i, hi, j, hj, rfl⟩ := (hmem p).1 hp
    exact ⟨i, j, hin n1 i hi, hin n2 j hj⟩)
  have hspec := connectPairs_spec n ps c c' hc' hsym
  refine ⟨c', ?_, hspec.1, ?_⟩
  · simp only [addConnection, getAlpha, hc]
    rw [← has, ← hbs, ← hps, hc']
    simp
  · intro i j a b ha hb
    rw [hspec.2.2 i j]
    congr 1
    apply propext
    have hA : ∀ (m : String) (k : ℕ) (at' : Atom), S.atoms[k]? = some at' →
        (k ∈ whereIdx (fun at' => decide (PyVal.str m = s.nameAttr at')) S.atoms ↔
          s.nameAttr at' = .str m) := by
      intro m k at' hat
      rw [mem_whereIdx]
      constructor
      · rintro ⟨x, hx, h⟩
        rw [hat] at hx
        cases hx
        simpa [eq_comm] using h
      · intro h
        exact ⟨at', hat, by simp [h]⟩
    constructor
    · rintro ⟨p, hp, h⟩
      obtain ⟨k, hk, l, hl, rfl⟩ := (hmem p).1 hp
      dsimp only at h
      rw [hin n1 k hk, hin n2 l hl] at h
      simp only [Option.some.injEq] at h
      rcases h with ⟨rfl, rfl⟩ | ⟨rfl, rfl⟩
      · exact Or.inl ⟨(hA n1 _ _ ha).1 hk, (hA n2 _ _ hb).1 hl⟩
      · exact Or.inr ⟨(hA n2 _ _ ha).1 hl, (hA n1 _ _ hb).1 hk⟩
    · rintro (⟨h1, h2⟩ | ⟨h1, h2⟩)
      · have hi := (hA n1 _ _ ha).2 h1
        have hj := (hA n2 _ _ hb).2 h2
        exact ⟨_, (hmem _).2 ⟨i, hi, j, hj, rfl⟩, Or.inl ⟨hin n1 i hi, hin n2 j hj⟩⟩
      · have hi := (hA n2 _ _ ha).2 h1
        have hj := (hA n1 _ _ hb).2 h2
        exact ⟨_, (hmem _).2 ⟨j, hj, i, hi, rfl⟩, Or.inr ⟨hin n1 j hj, hin n2 i hi⟩⟩

/-- `add_connections(n)` sets every entry; with `analyze=False` it does nothing else. -/
theorem C30_add_connections (hd : 0 < d) {env : Env ℝ} {w : World d ℝ} (h : Reachable env w)
    (n : ℕ) (an : Bool) :
    (w.struct.conn = none → w.call env (.addConnections n an) = (w, .error .attribute)) ∧
    ∀ c, w.struct.conn = some c → ∃ c', (w.call env (.addConnections n an)).1.struct.conn = some c' ∧
      c'.size = w.struct.numBase ∧ ∀ i j, i < w.struct.numBase → j < w.struct.numBase →
        c'.entry i j = n := by
  constructor
  · intro hc
    simp [World.call, addConnections, hc]
  · intro c hc
    have h1 := addConnections_good hd env (h.good hd) n an
    have h2 := (h.good hd).conn_size c hc
    refine ⟨c.fill n, ?_, h2.1, ?_⟩
    · change (w.struct.addConnections env n an).1.conn = _
      rw [h1.2.2.2.2.2, hc]; rfl
    · intro i j hi hj
      simp [ConnMatrix.fill, h2.1, hi, hj]

/-- A successful `add_atom` resets all connections: to 0 without, to `neighbors` with the argument
`neighbors`; a rejected one leaves them unchanged. -/
theorem C30_add_atom (hd : 0 < d) {env : Env ℝ} {w : World d ℝ} (h : Reachable env w)
    (pos : Option (List ℝ)) (atom : AtomArg) (primitive : Bool) (nb : ℕ) :
    let r := w.call env (.addAtom pos atom primitive nb)
    (r.2 = .ok () → ∃ c, r.1.struct.conn = some c ∧ c.size = w.struct.numBase + 1 ∧
      ∀ i j, i < c.size → j < c.size → c.entry i j = nb) ∧
    (∀ e, r.2 = .error e → r.1.struct.conn = w.struct.conn) := by
  intro r
  have hr : r = w.addAtom env pos atom primitive nb := rfl
  rcases addAtom_cases env w pos atom primitive nb with ⟨e, h1, -⟩ | ⟨p, a, s, -, hp, -, h1⟩
  · rw [hr, h1]
    exact ⟨fun h => (by cases h), fun _ _ => rfl⟩
  · rw [hr, h1]
    dsimp only
    cases hf : w.struct.frozen with
    | true =>
      rw [addAtomAt_frozen env _ p a nb hf]
      exact ⟨fun h => (by cases h), fun _ _ => rfl⟩
    | false =>
      obtain ⟨h2, -, -, -, -, -, h3⟩ := addAtomAt_ok hd env (h.good hd) p hp a nb hf
      rw [h2, h3]
      refine ⟨fun _ => ⟨_, rfl, rfl, ?_⟩, fun e he => by cases he⟩
      intro i j hi hj
      exact if_pos ⟨hi, hj⟩

/-! ## C31 -/

/-- `get_alpha(name)` lists, in ascending order, exactly the atoms with that name. -/
theorem C31_get_alpha_name (s : Session) (S : Structure d ℝ) (n : String) :
    ∃ l : List ℤ, S.getAlpha s (.name n) = .ok l ∧ l.Pairwise (· < ·) ∧
      ∀ i : ℤ, i ∈ l ↔ ∃ (k : ℕ) (a : Atom), i = k ∧ S.atoms[k]? = some a ∧
        s.nameAttr a = .str n := by
  refine ⟨_, rfl, ?_, ?_⟩
  · rw [List.pairwise_map]
    refine (whereIdx_pairwise _ _).imp ?_
    intro a b hab
    exact_mod_cast hab
  · intro i
    simp only [List.mem_map]
    constructor
    · rintro ⟨k, hk, rfl⟩
      obtain ⟨a, ha, h⟩ := mem_whereIdx.1 hk
      exact ⟨k, a, rfl, ha, by simpa [eq_comm] using h⟩
    · rintro ⟨k, a, rfl, ha, h⟩
      exact ⟨k, mem_whereIdx.2 ⟨a, ha, by simp [h]⟩, rfl⟩

/-- `get_atom` by number: the atom with that number, counted from the end if negative; `IndexError`
otherwise.  By name: the first atom with the name, `ValueError` if there is none. -/
theorem C31_get_atom (s : Session) (S : Structure d ℝ) :
    (∀ (k : ℕ) (a : Atom), S.atoms[k]? = some a →
      S.getAtom s (.num k) = .ok a ∧ S.getAtom s (.num ((k : ℤ) - S.atoms.length)) = .ok a) ∧
    (∀ i : ℤ, i < -S.atoms.length ∨ (S.atoms.length : ℤ) ≤ i →
      S.getAtom s (.num i) = .error .index) ∧
    (∀ (n : String) (a : Atom), S.getAtom s (.name n) = .ok a ↔
      ∃ k : ℕ, S.atoms[k]? = some a ∧ s.nameAttr a = .str n ∧
        ∀ j < k, ∀ b, S.atoms[j]? = some b → s.nameAttr b ≠ .str n) ∧
    (∀ n : String, (∀ a ∈ S.atoms, s.nameAttr a ≠ .str n) →
      S.getAtom s (.name n) = .error .value) := by
  refine ⟨?_, ?_, ?_, ?_⟩
  · intro k a ha
    have h1 : pyGet S.atoms (k : ℤ) = some a := pyGet_eq_some.2 ⟨k, Or.inl rfl, ha⟩
    have h2 : pyGet S.atoms ((k : ℤ) - S.atoms.length) = some a :=
      pyGet_eq_some.2 ⟨k, Or.inr rfl, ha⟩
    simp [getAtom, h1, h2]
  · intro i hi
    have := pyGet_eq_none.2 hi
    simp [getAtom, this]
  · intro n a
    have hfind : S.getAtom s (.name n) = .ok a ↔
        S.atoms.find? (fun at' => decide (PyVal.str n = s.nameAttr at')) = some a := by
      cases h : S.atoms.find? (fun at' => decide (PyVal.str n = s.nameAttr at')) <;>
        simp [getAtom, h]
    rw [hfind, List.find?_eq_some_iff_getElem]
    simp only [decide_eq_true_eq, Bool.not_eq_true', decide_eq_false_iff_not]
    constructor
    · rintro ⟨h1, k, hk, h2, h3⟩
      refine ⟨k, by rw [List.getElem?_eq_getElem hk, h2], h1.symm, ?_⟩
      intro j hj b hb
      have h4 := h3 j hj
      rw [List.getElem?_eq_getElem (by omega)] at hb
      cases hb
      exact fun h5 => h4 h5.symm
    · rintro ⟨k, h1, h2, h3⟩
      obtain ⟨hk, h4⟩ := List.getElem?_eq_some_iff.1 h1
      refine ⟨h2.symm, k, hk, h4, ?_⟩
      intro j hj h5
      exact h3 j hj _ (List.getElem?_eq_getElem (by omega)) h5.symm
  · intro n h
    have hfind : S.atoms.find? (fun at' => decide (PyVal.str n = s.nameAttr at')) = none := by
      rw [List.find?_eq_none]
      intro a ha
      simpa [eq_comm] using h a ha
    simp [getAtom, hfind]

/-- C31, what holds: `get_alpha(atom)` is the number of the given atom object if no atom before it
in the unit cell has its name (or a parameter called `is_identical`, which breaks comparing). -/
theorem C31_get_alpha_object_partial (s : Session) (S : Structure d ℝ) (k : ℕ) (a : Atom)
    (ha : S.atoms[k]? = some a)
    (huniq : ∀ j < k, ∀ b, S.atoms[j]? = some b → b ≠ a ∧ PyVal.str b.name ≠ s.nameAttr a ∧
      "is_identical" ∉ s.iter b) :
    S.getAlpha s (.obj a) = .ok [(k : ℤ)] ∧
    ∀ b ∉ S.atoms, (∀ c ∈ S.atoms, PyVal.str c.name ≠ s.nameAttr b ∧ "is_identical" ∉ s.iter c) →
      S.getAlpha s (.obj b) = .error .value := by
  constructor
  · have : findFirst (fun at' => s.same at' a) S.atoms = .ok (some k) := by
      refine findFirst_some ha (if_pos rfl) ?_
      intro j hj b hb
      obtain ⟨h1, h2, h3⟩ := huniq j hj b hb
      rw [Session.same_of_no_method h3]
      simp [h1, h2]
    simp [getAlpha, this]
  · intro b hb hn
    have : findFirst (fun at' => s.same at' b) S.atoms = .ok none := by
      rw [findFirst_ok (q := fun _ => false)]
      · simp
      · intro c hc
        have h1 : c ≠ b := by rintro rfl; exact hb hc
        rw [Session.same_of_no_method (hn c hc).2]
        simp [h1, (hn c hc).1]
    simp [getAlpha, this]

/-- The second of two atoms called `A` and `B` is found. -/
example : ∃ (s : Session) (a b : Atom), s = ⟨2, [[], []], [a, b]⟩ ∧ a = ⟨0, "A", .none, 0⟩ ∧
    b = ⟨1, "B", .none, 1⟩ ∧ ([a, b] : List Atom)[1]? = some b ∧ b ≠ a ∧
    PyVal.str a.name ≠ s.nameAttr b ∧ "is_identical" ∉ s.iter a :=
  ⟨_, _, _, rfl, rfl, rfl, rfl, by decide, by decide, by decide⟩

/-- C31 fails: with two atoms of the same name in the cell, `get_alpha` of the second atom object
returns the number of the first (`list.index` compares with `==`, which compares names), and
`add_connection(second, second)` connects the first one. -/
theorem C31_same_name_fails :
    ∃ (s : Session) (S : Structure 1 ℚ) (a b : Atom), s = ⟨2, [[], []], [a, b]⟩ ∧
      a = ⟨0, "A", .none, 0⟩ ∧ b = ⟨1, "A", .none, 1⟩ ∧ S.atoms = [a, b] ∧ S.positions = [0, 1 / 2] ∧
      S.getAlpha s (.obj b) = .ok [0] ∧
      ∃ S', S.addConnection (Env.brute ℚ) s (.obj b) (.obj b) 1 false = (S', .ok ()) ∧
        ∃ c, S'.conn = some c ∧ c.entry 1 1 = 0 ∧ c.entry 0 0 = 1 := by
  refine ⟨_, ⟨⟨1, 1⟩, [⟨0, "A", .none, 0⟩, ⟨1, "A", .none, 1⟩], [0, 1 / 2], false, 2,
    some (ConnMatrix.zeros 2), none⟩, ⟨0, "A", .none, 0⟩, ⟨1, "A", .none, 1⟩, rfl, rfl, rfl, rfl, rfl,
    by rfl, ?_⟩
  exact ⟨_, rfl, _, rfl, by rfl, by rfl⟩

end Lattpy
