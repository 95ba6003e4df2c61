import Verif.Model.Copy
import Verif.Model.Text
import Verif.Model.Presets
import Verif.Lemmas.Atom
import Verif.Props.Atom
import Verif.Props.Equality
import Verif.Props.FourierPresets

/-!
# Property C115: deep copies of structures and lattices
-/

set_option autoImplicit false

namespace Lattpy

namespace Session

/-- Different atoms own different dictionaries. -/
def Sep (s : Session) : Prop :=
  ∀ a ∈ s.atoms, a.ref < s.dicts.length ∧ ∀ b ∈ s.atoms, a.ref = b.ref → a = b

theorem sep_of_wf {s : Session} (h : WF s) : s.Sep := by
  intro a ha
  obtain ⟨i, hi, rfl⟩ := List.mem_iff_getElem.1 ha
  have h1 := h.atom i _ (List.getElem?_eq_getElem hi)
  refine ⟨by rw [h1.2.1, h.dicts]; exact hi, ?_⟩
  intro b hb e
  obtain ⟨j, hj, rfl⟩ := List.mem_iff_getElem.1 hb
  have h2 := h.atom j _ (List.getElem?_eq_getElem hj)
  have : i = j := by rw [← h1.2.1, ← h2.2.1]; exact e
  subst this
  rfl

/-- What the copied atoms of a memo have to do with the session before (`s0`) and during (`s`) the
copying. -/
structure CopyInv (s0 s : Session) (memo : List (Atom × Atom)) : Prop where
  counter : s.counter = s0.counter
  dicts : s0.dicts <+: s.dicts
  atoms : s0.atoms <+: s.atoms
  sep : s.Sep
  entry : ∀ a b, memo.lookup a = some b → b = { a with ref := b.ref } ∧ s.params b = s0.params a ∧
    s0.dicts.length ≤ b.ref ∧ b ∈ s.atoms
  inj : ∀ a a' b, memo.lookup a = some b → memo.lookup a' = some b → a = a'

theorem params_of_prefix {s t : Session} (h : s.dicts <+: t.dicts) {a : Atom}
    (ha : a.ref < s.dicts.length) : t.params a = s.params a := by
  unfold params
  obtain ⟨l, e⟩ := h
  rw [← e, List.getElem?_append_left ha]

theorem deepcopyAtom_inv {s0 s : Session} {memo : List (Atom × Atom)} (h : CopyInv s0 s memo)
    {a : Atom} (ha : a ∈ s.atoms) (ha0 : a.ref < s0.dicts.length) (hm : memo.lookup a = none) :
    CopyInv s0 (s.deepcopyAtom a).1 ((a, (s.deepcopyAtom a).2) :: memo) := by
  have hlt : ∀ b ∈ s.atoms, b.ref < s.dicts.length := fun b hb => (h.sep b hb).1
  have hpre : s.dicts <+: (s.deepcopyAtom a).1.dicts := List.prefix_append _ _
  have hmem : ∀ b ∈ s.atoms, b ∈ (s.deepcopyAtom a).1.atoms := fun b hb =>
    List.mem_append.2 (Or.inl hb)
  refine ⟨h.counter, h.dicts.trans hpre, h.atoms.trans (List.prefix_append _ _), ?_, ?_, ?_⟩
  · intro x hx
    have hlen : (s.deepcopyAtom a).1.dicts.length = s.dicts.length + 1 := by simp [deepcopyAtom]
    rcases List.mem_append.1 hx with hx | hx
    · refine ⟨by rw [hlen]; exact Nat.lt_succ_of_lt (hlt x hx), ?_⟩
      intro y hy e
      rcases List.mem_append.1 hy with hy | hy
      · exact (h.sep x hx).2 y hy e
      · rw [List.mem_singleton] at hy
        subst hy
        exact absurd e (hlt x hx).ne
    · rw [List.mem_singleton] at hx
      subst hx
      refine ⟨by rw [hlen]; exact Nat.lt_succ_self _, ?_⟩
      intro y hy e
      rcases List.mem_append.1 hy with hy | hy
      · exact absurd e.symm (hlt y hy).ne
      · rw [List.mem_singleton] at hy
        exact hy.symm
  · intro x b hb
    rw [List.lookup_cons] at hb
    by_cases e : x = a
    · subst e
      simp only [beq_self_eq_true, Option.some.injEq] at hb
      subst hb
      refine ⟨rfl, ?_, h.dicts.length_le, List.mem_append.2 (Or.inr (List.mem_singleton.2 rfl))⟩
      rw [← params_of_prefix h.dicts ha0]
      simp [deepcopyAtom, params]
    · rw [beq_eq_false_iff_ne.2 e] at hb
      obtain ⟨g1, g2, g3, g4⟩ := h.entry x b hb
      exact ⟨g1, by rw [params_of_prefix hpre (hlt b g4)]; exact g2, g3, hmem b g4⟩
  · intro x y b hx hy
    have hfresh : ∀ z, memo.lookup z ≠ some (s.deepcopyAtom a).2 := by
      intro z hz
      exact absurd rfl (hlt _ (h.entry z _ hz).2.2.2).ne
    rw [List.lookup_cons] at hx hy
    by_cases ex : x = a <;> by_cases ey : y = a
    · rw [ex, ey]
    · subst ex
      rw [beq_eq_false_iff_ne.2 ey] at hy
      simp only [beq_self_eq_true, Option.some.injEq] at hx
      subst hx
      exact absurd hy (hfresh y)
    · subst ey
      rw [beq_eq_false_iff_ne.2 ex] at hx
      simp only [beq_self_eq_true, Option.some.injEq] at hy
      subst hy
      exact absurd hx (hfresh x)
    · rw [beq_eq_false_iff_ne.2 ex] at hx
      rw [beq_eq_false_iff_ne.2 ey] at hy
      exact h.inj x y b hx hy

theorem deepcopyAtoms_inv {s0 : Session} : ∀ (l : List Atom) (s : Session)
    (memo : List (Atom × Atom)), CopyInv s0 s memo → (∀ a ∈ l, a ∈ s0.atoms) →
    (∀ a ∈ l, a.ref < s0.dicts.length) →
    ∃ memo', CopyInv s0 (s.deepcopyAtoms memo l).1 memo' ∧
      (∀ a b, memo.lookup a = some b → memo'.lookup a = some b) ∧
      (s.deepcopyAtoms memo l).2.map some = l.map (List.lookup · memo')
  | [], s, memo, h, _, _ => ⟨memo, h, fun _ _ e => e, rfl⟩
  | a :: l, s, memo, h, hl, hr => by
    unfold deepcopyAtoms
    cases e : memo.lookup a with
    | some b =>
      obtain ⟨m, h1, h2, h3⟩ := deepcopyAtoms_inv l s memo h (fun x hx => hl x (by simp [hx]))
        fun x hx => hr x (by simp [hx])
      exact ⟨m, h1, h2, by simp only [List.map_cons, h2 a b e, h3]⟩
    | none =>
      have hk := deepcopyAtom_inv h (h.atoms.subset (hl a (by simp))) (hr a (by simp)) e
      obtain ⟨m, h1, h2, h3⟩ := deepcopyAtoms_inv l _ _ hk (fun x hx => hl x (by simp [hx]))
        fun x hx => hr x (by simp [hx])
      refine ⟨m, h1, ?_, ?_⟩
      · intro x b hb
        refine h2 x b ?_
        rw [List.lookup_cons, beq_eq_false_iff_ne.2 (by rintro rfl; rw [e] at hb; exact nomatch hb)]
        exact hb
      · simp only [List.map_cons, h3]
        rw [h2 a (s.deepcopyAtom a).2 (by rw [List.lookup_cons]; simp)]

end Session

variable {d : ℕ}

/-- The atoms of a lattice exist in its session. -/
def Owned (L : Lattice d ℝ) : Prop :=
  L.world.session.Sep ∧ ∀ a ∈ L.struct.atoms, a ∈ L.world.session.atoms

/-- `M` is a copy of `L` with atoms of its own: everything but the atom objects is the same; atom `i`
has the number, name, weight and parameters of atom `i` of `L`, but is a new object with a dictionary
of its own; and atoms of `M` are one object exactly if those of `L` are. -/
structure IsCopy (L M : Lattice d ℝ) : Prop where
  rest : { M with world := L.world } = L
  struct : { M.struct with atoms := L.struct.atoms } = L.struct
  length : M.struct.atoms.length = L.struct.atoms.length
  slots : ∀ (i : ℕ) (a b : Atom), L.struct.atoms[i]? = some a → M.struct.atoms[i]? = some b →
    b.index = a.index ∧ b.name = a.name ∧ b.weight = a.weight
  params : ∀ (i : ℕ) (a b : Atom), L.struct.atoms[i]? = some a → M.struct.atoms[i]? = some b →
    M.world.session.params b = L.world.session.params a
  ident : ∀ i j : ℕ, i < L.struct.atoms.length → j < L.struct.atoms.length →
    (M.struct.atoms[i]? = M.struct.atoms[j]? ↔ L.struct.atoms[i]? = L.struct.atoms[j]?)
  fresh : ∀ b ∈ M.struct.atoms, b ∈ M.world.session.atoms ∧
    ∀ a ∈ L.world.session.atoms, b.ref ≠ a.ref
  counter : M.world.session.counter = L.world.session.counter
  old : ∀ a ∈ L.world.session.atoms, a ∈ M.world.session.atoms ∧
    M.world.session.params a = L.world.session.params a

/-- C115: `copy()` returns a copy with atoms of its own and leaves the original as it is. -/
theorem C115_copy {L : Lattice d ℝ} (h : Owned L) : IsCopy L L.copy ∧ Owned L.copy := by
  have hinit : Session.CopyInv L.world.session L.world.session [] :=
    ⟨rfl, List.prefix_rfl, List.prefix_rfl, h.1, (fun _ _ e => nomatch e), (fun _ _ _ e => nomatch e)⟩
  obtain ⟨m, h1, -, h3⟩ := Session.deepcopyAtoms_inv (s0 := L.world.session) L.struct.atoms
    L.world.session [] hinit h.2 fun a ha => (h.1 a (h.2 a ha)).1
  have hat : L.copy.struct.atoms = (L.world.session.deepcopyAtoms [] L.struct.atoms).2 := rfl
  have hs : L.copy.world.session = (L.world.session.deepcopyAtoms [] L.struct.atoms).1 := rfl
  have hget : ∀ i : ℕ, L.copy.struct.atoms[i]?.map some = L.struct.atoms[i]?.map (List.lookup · m) := by
    intro i
    rw [hat, ← List.getElem?_map, ← List.getElem?_map, h3]
  have hent : ∀ (i : ℕ) a b, L.struct.atoms[i]? = some a → L.copy.struct.atoms[i]? = some b →
      m.lookup a = some b := by
    intro i a b ha hb
    have := hget i
    rw [ha, hb] at this
    simpa using this.symm
  have hlen : L.copy.struct.atoms.length = L.struct.atoms.length := by
    have := congrArg List.length h3
    simpa [hat] using this
  have hmem : ∀ b ∈ L.copy.struct.atoms, ∃ a, m.lookup a = some b := by
    intro b hb
    obtain ⟨i, hi, rfl⟩ := List.mem_iff_getElem.1 hb
    exact ⟨_, hent i _ _ (List.getElem?_eq_getElem (by rw [← hlen]; exact hi))
      (List.getElem?_eq_getElem hi)⟩
  refine ⟨⟨rfl, rfl, hlen, ?_, ?_, ?_, ?_, h1.counter, ?_⟩, h1.sep, ?_⟩
  · intro i a b ha hb
    have := (h1.entry a b (hent i a b ha hb)).1
    rw [this]
    exact ⟨rfl, rfl, rfl⟩
  · intro i a b ha hb
    exact (h1.entry a b (hent i a b ha hb)).2.1
  · intro i j hi hj
    have ei := hent i _ _ (List.getElem?_eq_getElem hi)
      (List.getElem?_eq_getElem (by rw [hlen]; exact hi))
    have ej := hent j _ _ (List.getElem?_eq_getElem hj)
      (List.getElem?_eq_getElem (by rw [hlen]; exact hj))
    rw [List.getElem?_eq_getElem hi, List.getElem?_eq_getElem hj,
      List.getElem?_eq_getElem (by rw [hlen]; exact hi : i < L.copy.struct.atoms.length),
      List.getElem?_eq_getElem (by rw [hlen]; exact hj : j < L.copy.struct.atoms.length)]
    constructor
    · intro e
      rw [Option.some.injEq] at e
      rw [e] at ei
      rw [h1.inj _ _ _ ei ej]
    · intro e
      rw [Option.some.injEq] at e
      rw [e] at ei
      exact ei.symm.trans ej
  · intro b hb
    obtain ⟨a, ha⟩ := hmem b hb
    obtain ⟨-, -, g3, g4⟩ := h1.entry a b ha
    refine ⟨g4, fun c hc => ?_⟩
    have := (h.1 c hc).1
    omega
  · intro a ha
    exact ⟨h1.atoms.subset ha, Session.params_of_prefix h1.dicts (h.1 a ha).1⟩
  · intro b hb
    obtain ⟨a, ha⟩ := hmem b hb
    exact (h1.entry a b ha).2.2.2

/-- C115: for every way of printing numbers, the copy is printed like the original, before and after
the copying, hence `latt.copy() == latt` wherever `==` does not raise. -/
theorem C115_equal {L : Lattice d ℝ} (h : Owned L) (T : Lattice.TextEnv d ℝ)
    {str : PyVal → String} (hT : T.atom = Session.reprAtom str) :
    L.copy.dumps T = L.dumps T ∧
    (L.within L.copy.world.session).dumps T = L.dumps T ∧
    ∀ t, L.dumps T = .ok t →
      L.copy.eq T (L.within L.copy.world.session) = .ok true ∧
      (L.within L.copy.world.session).eq T L.copy = .ok true := by
  obtain ⟨hc, -⟩ := C115_copy h
  have htext : ∀ (s s' : Session) (a b : Atom), b.index = a.index → b.name = a.name →
      s'.params b = s.params a → T.atom s' b = T.atom s a := by
    intro s s' a b h1 h2 h3
    rw [hT]
    unfold Session.reprAtom Session.indexText Session.attrParam
    rw [h1, h2, h3]
  have e1 : L.copy.struct.atoms.map (T.atom L.copy.world.session) =
      L.struct.atoms.map (T.atom L.world.session) := by
    refine List.ext_getElem (by rw [List.length_map, List.length_map]; exact hc.length) ?_
    intro i hi hj
    rw [List.getElem_map, List.getElem_map]
    rw [List.length_map] at hi hj
    have a1 := List.getElem?_eq_getElem hj
    have a2 := List.getElem?_eq_getElem hi
    have s1 := hc.slots i _ _ a1 a2
    exact htext _ _ _ _ s1.1 s1.2.1 (hc.params i _ _ a1 a2)
  have e2 : L.struct.atoms.map (T.atom L.copy.world.session) =
      L.struct.atoms.map (T.atom L.world.session) :=
    List.map_congr_left fun a ha => htext _ _ _ _ rfl rfl (hc.old a (h.2 a ha)).2
  have g1 : L.copy.dumps T = L.dumps T := by
    unfold Lattice.dumps
    rw [e1]
    rfl
  have g2 : (L.within L.copy.world.session).dumps T = L.dumps T := by
    unfold Lattice.dumps
    rw [← e2]
    rfl
  refine ⟨g1, g2, fun t ht => ?_⟩
  unfold Lattice.eq Lattice.hash
  rw [g1, g2, ht]
  simp

/-! ### independence -/

/-- The atoms of the two lattices own different dictionaries. -/
def LatticePair.Apart (p : LatticePair d ℝ) : Prop :=
  (∀ a ∈ p.fst.struct.atoms, a.ref < p.session.dicts.length) ∧
  ∀ a ∈ p.fst.struct.atoms, ∀ b ∈ p.snd.struct.atoms, a.ref ≠ b.ref

/-- The step does not add an atom of `L` to the other lattice. -/
def Foreign (L : Lattice d ℝ) : LatticePair.Op d ℝ → Prop
  | .call (.conf (.addAtom _ (.obj b) _ _)) => ∀ a ∈ L.struct.atoms, a.ref ≠ b.ref
  | _ => True

theorem analyze_atoms (env : Env ℝ) (S : Structure d ℝ) : (S.analyze env).1.atoms = S.atoms := by
  unfold Structure.analyze
  split
  · rfl
  · split
    · rfl
    · split
      · rfl
      · split
        · rfl
        · split <;> rfl

theorem addConnections_atoms (env : Env ℝ) (S : Structure d ℝ) (num : ℕ) (an : Bool) :
    (S.addConnections env num an).1.atoms = S.atoms := by
  unfold Structure.addConnections
  split
  · rfl
  · dsimp only
    split
    · rw [analyze_atoms]
    · rfl

theorem addConnection_atoms (env : Env ℝ) (s : Session) (S : Structure d ℝ)
    (a b : Structure.AtomRef) (num : ℕ) (an : Bool) :
    (S.addConnection env s a b num an).1.atoms = S.atoms := by
  unfold Structure.addConnection
  split
  · rfl
  · rfl
  · split
    · rfl
    · dsimp only
      split
      · rw [analyze_atoms]
      · rfl

theorem addAtomAt_atoms (env : Env ℝ) (S : Structure d ℝ) (p : Vec d ℝ) (a : Atom) (nb : ℕ) :
    (S.addAtomAt env p a nb).1.atoms = S.atoms ++ [a] := by
  unfold Structure.addAtomAt
  dsimp only
  split
  · rfl
  · split
    · rfl
    · split
      · rw [addConnections_atoms]
      · rfl

theorem call_dicts (env : Env ℝ) (w : World d ℝ) (op : World.Op ℝ) :
    w.session.dicts <+: (w.call env op).1.session.dicts ∧
    ∀ b ∈ (w.call env op).1.struct.atoms, b ∈ w.struct.atoms ∨
      (∃ pos pr nb, op = .addAtom pos (.obj b) pr nb) ∨ w.session.dicts.length ≤ b.ref := by
  cases op with
  | addAtom pos atom pr nb =>
    unfold World.call
    dsimp only
    unfold World.addAtom
    split
    · exact ⟨List.prefix_rfl, fun b hb => Or.inl hb⟩
    · split
      · exact ⟨List.prefix_rfl, fun b hb => Or.inl hb⟩
      · split
        · refine ⟨List.prefix_rfl, fun b hb => ?_⟩
          dsimp only at hb
          rw [addAtomAt_atoms, List.mem_append, List.mem_singleton] at hb
          rcases hb with hb | rfl
          · exact Or.inl hb
          · exact Or.inr (Or.inl ⟨_, _, _, rfl⟩)
        · split
          · exact ⟨List.prefix_rfl, fun b hb => Or.inl hb⟩
          · rename_i s hs
            unfold Session.create at hs
            split_ifs at hs
            rw [Except.ok.injEq] at hs
            subst hs
            rw [List.getLast?_append]
            refine ⟨List.prefix_append _ _, fun b hb => ?_⟩
            simp only [List.getLast?_singleton, Option.some_or] at hb
            rw [addAtomAt_atoms, List.mem_append, List.mem_singleton] at hb
            rcases hb with hb | rfl
            · exact Or.inl hb
            · exact Or.inr (Or.inr le_rfl)
  | addConnection a1 a2 num an =>
    refine ⟨List.prefix_rfl, fun b hb => Or.inl ?_⟩
    have : b ∈ (w.struct.addConnection env w.session a1 a2 num an).1.atoms := hb
    rwa [addConnection_atoms] at this
  | addConnections num an =>
    refine ⟨List.prefix_rfl, fun b hb => Or.inl ?_⟩
    have : b ∈ (w.struct.addConnections env num an).1.atoms := hb
    rwa [addConnections_atoms] at this
  | analyze =>
    refine ⟨List.prefix_rfl, fun b hb => Or.inl ?_⟩
    have : b ∈ (w.struct.analyze env).1.atoms := hb
    rwa [analyze_atoms] at this

theorem setPeriodicAxes_keeps_world (env : Env ℝ) (L : Lattice d ℝ) (D : LatticeData d ℝ)
    (axes : List ℕ) : (L.setPeriodicAxes env D axes).1.world = L.world := by
  unfold Lattice.setPeriodicAxes
  split
  · rfl
  · split
    · rfl
    · split
      · rfl
      · split <;> rfl

theorem setPeriodic_keeps_world (env : Env ℝ) (L : Lattice d ℝ) (axis : PAxis) :
    (L.setPeriodic env axis).1.world = L.world := by
  unfold Lattice.setPeriodic
  split
  · rfl
  · split
    · rfl
    · split
      · rfl
      · dsimp only
        split
        · rfl
        · rw [setPeriodicAxes_keeps_world]
        · rw [setPeriodicAxes_keeps_world]

theorem build_keeps_world (env : Env ℝ) (L : Lattice d ℝ) (a : BuildArgs d ℝ) :
    (L.build env a).1.world = L.world := by
  have hup : ∀ M : Lattice d ℝ, M.updateShape.1.world = M.world := by
    intro M
    unfold Lattice.updateShape
    split
    · rfl
    · split <;> rfl
  unfold Lattice.build
  dsimp only
  split
  · rfl
  · split
    · rfl
    · split
      · rfl
      · split
        · rename_i L1 e h
          have := congrArg (fun r => r.1.world) h
          dsimp only at this
          rw [hup] at this
          exact this.symm
        · rename_i L1 h
          have := congrArg (fun r => r.1.world) h
          dsimp only at this
          rw [hup] at this
          split
          · exact this.symm
          · rw [setPeriodic_keeps_world]
            exact this.symm

theorem latticeCall_dicts (env : Env ℝ) (L : Lattice d ℝ) (op : Lattice.Op d ℝ) :
    L.world.session.dicts <+: (L.call env op).1.world.session.dicts ∧
    ∀ b ∈ (L.call env op).1.struct.atoms, b ∈ L.struct.atoms ∨
      (∃ pos pr nb, op = .conf (.addAtom pos (.obj b) pr nb)) ∨
      L.world.session.dicts.length ≤ b.ref := by
  cases op with
  | conf op =>
    obtain ⟨h1, h2⟩ := call_dicts env L.world op
    refine ⟨h1, fun b hb => ?_⟩
    rcases h2 b hb with h | ⟨pos, pr, nb, rfl⟩ | h
    · exact Or.inl h
    · exact Or.inr (Or.inl ⟨pos, pr, nb, rfl⟩)
    · exact Or.inr (Or.inr h)
  | build a =>
    have e : (L.call env (.build a)).1.world = L.world := build_keeps_world env L a
    unfold Lattice.struct
    rw [e]
    exact ⟨List.prefix_rfl, fun b hb => Or.inl hb⟩
  | setPeriodic axis =>
    have e : (L.call env (.setPeriodic axis)).1.world = L.world := setPeriodic_keeps_world env L axis
    unfold Lattice.struct
    rw [e]
    exact ⟨List.prefix_rfl, fun b hb => Or.inl hb⟩

theorem setParams_other {s : Session} {a b : Atom} (h : a.ref ≠ b.ref) (x : PyDict) :
    (s.setParams b x).params a = s.params a ∧
      (s.setParams b x).dicts.length = s.dicts.length := by
  unfold Session.setParams Session.params
  rw [List.getElem?_set_ne h.symm]
  exact ⟨rfl, List.length_set ..⟩

theorem step_keeps (env : Env ℝ) {p : LatticePair d ℝ} (h : p.Apart) {op : LatticePair.Op d ℝ}
    (hop : Foreign p.fst op) :
    (p.step env op).fst = p.fst ∧ (p.step env op).Apart ∧
    ∀ a ∈ p.fst.struct.atoms, (p.step env op).session.params a = p.session.params a := by
  have hset : ∀ (i : ℕ) (b : Atom) (x : PyDict), p.snd.struct.atoms[i]? = some b →
      ({ p with session := p.session.setParams b x } : LatticePair d ℝ).Apart ∧
      ∀ a ∈ p.fst.struct.atoms, (p.session.setParams b x).params a = p.session.params a := by
    intro i b x hb
    have hne : ∀ a ∈ p.fst.struct.atoms, a.ref ≠ b.ref := fun a ha =>
      h.2 a ha b (List.mem_of_getElem? hb)
    refine ⟨⟨fun a ha => ?_, h.2⟩, fun a ha => (setParams_other (hne a ha) x).1⟩
    have := h.1 a ha
    rw [← (setParams_other (s := p.session) (hne a ha) x).2] at this
    exact this
  cases op with
  | call op =>
    obtain ⟨h1, h2⟩ := latticeCall_dicts env (p.snd.within p.session) op
    refine ⟨rfl, ⟨fun a ha => lt_of_lt_of_le (h.1 a ha) h1.length_le, fun a ha b hb => ?_⟩,
      fun a ha => Session.params_of_prefix h1 (h.1 a ha)⟩
    rcases h2 b hb with hb | ⟨pos, pr, nb, rfl⟩ | hb
    · exact h.2 a ha b hb
    · exact hop a ha
    · exact ((h.1 a ha).trans_le hb).ne
  | setItem i key v =>
    unfold LatticePair.step
    dsimp only
    split
    · rename_i b hb
      exact ⟨rfl, hset i b _ hb⟩
    · exact ⟨rfl, h, fun _ _ => rfl⟩
  | delItem i key =>
    unfold LatticePair.step
    dsimp only
    split
    · rename_i b hb
      split
      · rename_i t ht
        unfold Session.delItem at ht
        split at ht
        · rw [Except.ok.injEq] at ht
          subst ht
          exact ⟨rfl, hset i b _ hb⟩
        · exact nomatch ht
      · exact ⟨rfl, h, fun _ _ => rfl⟩
    · exact ⟨rfl, h, fun _ _ => rfl⟩
  | setAttr i key v =>
    unfold LatticePair.step
    dsimp only
    split
    · rename_i b hb
      split
      · rename_i t ht
        unfold Session.setAttr at ht
        split_ifs at ht
        rw [Except.ok.injEq] at ht
        subst ht
        exact ⟨rfl, hset i b _ hb⟩
      · exact ⟨rfl, h, fun _ _ => rfl⟩
    · exact ⟨rfl, h, fun _ _ => rfl⟩

/-- C115: whatever is done with one of two lattices without common atoms leaves the other as it is:
its fields, the parameters of its atoms and its text.  (The other lattice gets atoms of the first
only if they are added to it, which is excluded.) -/
theorem C115_apart (env : Env ℝ) {p : LatticePair d ℝ} (h : p.Apart) (ops : List (LatticePair.Op d ℝ))
    (hops : ∀ op ∈ ops, Foreign p.fst op) :
    (p.run env ops).fst = p.fst ∧
    (∀ a ∈ p.fst.struct.atoms, (p.run env ops).session.params a = p.session.params a) ∧
    ∀ (T : Lattice.TextEnv d ℝ) (str : PyVal → String), T.atom = Session.reprAtom str →
      (p.run env ops).seenFst.dumps T = p.seenFst.dumps T := by
  have key : ∀ (ops : List (LatticePair.Op d ℝ)) (p : LatticePair d ℝ), p.Apart →
      (∀ op ∈ ops, Foreign p.fst op) → (p.run env ops).fst = p.fst ∧
      ∀ a ∈ p.fst.struct.atoms, (p.run env ops).session.params a = p.session.params a := by
    intro ops
    induction ops with
    | nil => exact fun p _ _ => ⟨rfl, fun _ _ => rfl⟩
    | cons op ops ih =>
      intro p h hops
      obtain ⟨h1, h2, h3⟩ := step_keeps env h (hops op (by simp))
      obtain ⟨g1, g2⟩ := ih (p.step env op) h2 fun o ho => by rw [h1]; exact hops o (by simp [ho])
      refine ⟨g1.trans h1, fun a ha => ?_⟩
      have := g2 a (by rw [h1]; exact ha)
      exact this.trans (h3 a ha)
  obtain ⟨g1, g2⟩ := key ops p h hops
  refine ⟨g1, g2, fun T str hT => ?_⟩
  have e : p.fst.struct.atoms.map (T.atom (p.run env ops).session) =
      p.fst.struct.atoms.map (T.atom p.session) := by
    refine List.map_congr_left fun a ha => ?_
    rw [hT]
    unfold Session.reprAtom Session.indexText Session.attrParam
    rw [g2 a ha]
  unfold LatticePair.seenFst
  rw [g1]
  unfold Lattice.dumps
  unfold Lattice.within Lattice.struct at *
  rw [e]

theorem ofCopy_apart {L : Lattice d ℝ} (h : Owned L) :
    (LatticePair.ofCopy L).Apart ∧ (LatticePair.ofCopy L).swap.Apart := by
  obtain ⟨hc, ho⟩ := C115_copy h
  have hlt : ∀ a ∈ L.copy.world.session.atoms, a.ref < L.copy.world.session.dicts.length :=
    fun a ha => (ho.1 a ha).1
  refine ⟨⟨fun a ha => hlt a (hc.old a (h.2 a ha)).1, fun a ha b hb => ?_⟩,
    fun a ha => hlt a (ho.2 a ha), fun a ha b hb => ?_⟩
  · exact ((hc.fresh b hb).2 a (h.2 a ha)).symm
  · exact (hc.fresh a ha).2 b (h.2 b hb)

/-- C115: after `copy = latt.copy()`, no history of calls on the copy and of changes of its atoms
changes the original, and no history of calls on the original and of changes of its atoms changes
the copy: their fields, the parameters of their atoms and their texts stay the same.  (Adding an
atom of the one to the other is excluded.) -/
theorem C115_independent (env : Env ℝ) {L : Lattice d ℝ} (h : Owned L)
    (ops : List (LatticePair.Op d ℝ)) :
    ((∀ op ∈ ops, Foreign L op) →
      let q := (LatticePair.ofCopy L).run env ops
      q.fst = L ∧ (∀ a ∈ L.struct.atoms, q.session.params a = L.world.session.params a) ∧
      ∀ (T : Lattice.TextEnv d ℝ) (str : PyVal → String), T.atom = Session.reprAtom str →
        q.seenFst.dumps T = L.dumps T) ∧
    ((∀ op ∈ ops, Foreign L.copy op) →
      let q := (LatticePair.ofCopy L).swap.run env ops
      q.fst = L.copy ∧
      (∀ a ∈ L.copy.struct.atoms, q.session.params a = L.copy.world.session.params a) ∧
      ∀ (T : Lattice.TextEnv d ℝ) (str : PyVal → String), T.atom = Session.reprAtom str →
        q.seenFst.dumps T = L.dumps T) := by
  obtain ⟨a1, a2⟩ := ofCopy_apart h
  obtain ⟨hc, -⟩ := C115_copy h
  refine ⟨fun hops => ?_, fun hops => ?_⟩
  · obtain ⟨g1, g2, g3⟩ := C115_apart env a1 ops hops
    exact ⟨g1, fun a ha => (g2 a ha).trans (hc.old a (h.2 a ha)).2, fun T str hT =>
      (g3 T str hT).trans (C115_equal h T hT).2.1⟩
  · obtain ⟨g1, g2, g3⟩ := C115_apart env a2 ops hops
    exact ⟨g1, g2, fun T str hT => (g3 T str hT).trans (C115_equal h T hT).1⟩

/-! ### every lattice a program can make -/

/-- The lattices of a program that creates atoms and changes their parameters, makes lattices, calls
them and copies them. -/
inductive Made (env : Env ℝ) : Lattice d ℝ → Prop
  | new (ops : List Session.Op) (b : LatticeBasis d ℝ) :
    Made env (Lattice.ofWorld ⟨Session.run ops, Structure.ofBasis b⟩)
  | call {L : Lattice d ℝ} (h : Made env L) (op : Lattice.Op d ℝ)
    (hop : ∀ pos a pr nb, op = .conf (.addAtom pos (.obj a) pr nb) → a ∈ L.world.session.atoms) :
    Made env (L.call env op).1
  | session {L : Lattice d ℝ} (h : Made env L) (op : Session.Op) :
    Made env (L.within (L.world.session.step op))
  | copy {L : Lattice d ℝ} (h : Made env L) : Made env L.copy
  | original {L : Lattice d ℝ} (h : Made env L) : Made env (L.within L.copy.world.session)

/-- Atoms are never lost, and keep dictionaries of their own. -/
def Grows (s t : Session) : Prop := t.Sep ∧ ∀ a ∈ s.atoms, a ∈ t.atoms

theorem create_grows {s t : Session} (h : s.Sep) {n r c w k} (ht : s.create n r c w k = .ok t) :
    Grows s t ∧ ∃ a, t.atoms.getLast? = some a ∧ a ∈ t.atoms := by
  unfold Session.create at ht
  split_ifs at ht
  rw [Except.ok.injEq] at ht
  subst ht
  have hlt : ∀ b ∈ s.atoms, b.ref < s.dicts.length := fun b hb => (h b hb).1
  refine ⟨⟨?_, fun a ha => List.mem_append.2 (Or.inl ha)⟩, _,
    by rw [List.getLast?_append, List.getLast?_singleton, Option.some_or],
    List.mem_append.2 (Or.inr (List.mem_singleton.2 rfl))⟩
  intro x hx
  rw [List.length_append, List.length_singleton]
  rcases List.mem_append.1 hx with hx | hx
  · refine ⟨Nat.lt_succ_of_lt (hlt x hx), fun y hy e => ?_⟩
    rcases List.mem_append.1 hy with hy | hy
    · exact (h x hx).2 y hy e
    · rw [List.mem_singleton] at hy
      subst hy
      exact absurd e (hlt x hx).ne
  · rw [List.mem_singleton] at hx
    subst hx
    refine ⟨Nat.lt_succ_self _, fun y hy e => ?_⟩
    rcases List.mem_append.1 hy with hy | hy
    · exact absurd e.symm (hlt y hy).ne
    · rw [List.mem_singleton] at hy
      exact hy.symm

theorem setParams_grows {s : Session} (h : s.Sep) (a : Atom) (x : PyDict) :
    Grows s (s.setParams a x) := by
  refine ⟨fun b hb => ?_, fun b hb => hb⟩
  have : (s.setParams a x).dicts.length = s.dicts.length := List.length_set ..
  rw [this]
  exact h b hb

theorem step_grows {s : Session} (h : s.Sep) (op : Session.Op) : Grows s (s.step op) := by
  have hrefl : Grows s s := ⟨h, fun _ ha => ha⟩
  cases op with
  | create n r c w k =>
    unfold Session.step
    dsimp only
    split
    · rename_i t ht
      exact (create_grows h ht).1
    · exact hrefl
  | copy i =>
    unfold Session.step
    dsimp only
    split
    · split
      · rename_i t ht
        unfold Session.copy at ht
        dsimp only at ht
        split_ifs at ht
        exact (create_grows h ht).1
      · exact hrefl
    · exact hrefl
  | setItem i key v =>
    unfold Session.step
    dsimp only
    split
    · exact setParams_grows h _ _
    · exact hrefl
  | delItem i key =>
    unfold Session.step
    dsimp only
    split
    · split
      · rename_i t ht
        unfold Session.delItem at ht
        split at ht
        · rw [Except.ok.injEq] at ht
          subst ht
          exact setParams_grows h _ _
        · exact nomatch ht
      · exact hrefl
    · exact hrefl
  | setAttr i key v =>
    unfold Session.step
    dsimp only
    split
    · split
      · rename_i t ht
        unfold Session.setAttr at ht
        split_ifs at ht
        rw [Except.ok.injEq] at ht
        subst ht
        exact setParams_grows h _ _
      · exact hrefl
    · exact hrefl

theorem call_owned (env : Env ℝ) {w : World d ℝ} (h : w.session.Sep)
    (ha : ∀ a ∈ w.struct.atoms, a ∈ w.session.atoms) (op : World.Op ℝ)
    (hop : ∀ pos a pr nb, op = .addAtom pos (.obj a) pr nb → a ∈ w.session.atoms) :
    (w.call env op).1.session.Sep ∧
      ∀ a ∈ (w.call env op).1.struct.atoms, a ∈ (w.call env op).1.session.atoms := by
  cases op with
  | addAtom pos atom pr nb =>
    unfold World.call
    dsimp only
    unfold World.addAtom
    split
    · exact ⟨h, ha⟩
    · split
      · exact ⟨h, ha⟩
      · split
        · refine ⟨h, fun b hb => ?_⟩
          dsimp only at hb
          rw [addAtomAt_atoms, List.mem_append, List.mem_singleton] at hb
          rcases hb with hb | rfl
          · exact ha b hb
          · exact hop _ _ _ _ rfl
        · split
          · exact ⟨h, ha⟩
          · rename_i s hs
            obtain ⟨⟨g1, g2⟩, a, g3, g4⟩ := create_grows h hs
            rw [g3]
            refine ⟨g1, fun b hb => ?_⟩
            dsimp only at hb
            rw [addAtomAt_atoms, List.mem_append, List.mem_singleton] at hb
            rcases hb with hb | rfl
            · exact g2 b (ha b hb)
            · exact g4
  | addConnection a1 a2 num an =>
    refine ⟨h, fun b hb => ha b ?_⟩
    have : b ∈ (w.struct.addConnection env w.session a1 a2 num an).1.atoms := hb
    rwa [addConnection_atoms] at this
  | addConnections num an =>
    refine ⟨h, fun b hb => ha b ?_⟩
    have : b ∈ (w.struct.addConnections env num an).1.atoms := hb
    rwa [addConnections_atoms] at this
  | analyze =>
    refine ⟨h, fun b hb => ha b ?_⟩
    have : b ∈ (w.struct.analyze env).1.atoms := hb
    rwa [analyze_atoms] at this

/-- C115: the hypothesis of the theorems above holds for every lattice a program can make, including
copies of copies. -/
theorem C115_made {env : Env ℝ} {L : Lattice d ℝ} (h : Made env L) : Owned L := by
  induction h with
  | new ops b => exact ⟨Session.sep_of_wf (Session.wf_run ops), fun a ha => nomatch ha⟩
  | @call L h op hop ih =>
    cases op with
    | conf op => exact call_owned env ih.1 ih.2 op fun pos a pr nb e => hop pos a pr nb (by rw [e])
    | build a =>
      have e : (L.call env (.build a)).1.world = L.world := build_keeps_world env L a
      unfold Owned Lattice.struct
      rw [e]
      exact ih
    | setPeriodic axis =>
      have e : (L.call env (.setPeriodic axis)).1.world = L.world :=
        setPeriodic_keeps_world env L axis
      unfold Owned Lattice.struct
      rw [e]
      exact ih
  | session h op ih =>
    obtain ⟨g1, g2⟩ := step_grows ih.1 op
    exact ⟨g1, fun a ha => g2 a (ih.2 a ha)⟩
  | copy h ih => exact (C115_copy ih).2
  | original h ih =>
    obtain ⟨hc, ho⟩ := C115_copy ih
    exact ⟨ho.1, fun a ha => (hc.old a (ih.2 a ha)).1⟩

/-! ### examples -/

/-- A session with one atom. -/
def feSession : Session := Session.run [.create (some "Fe") (.num (1 / 5)) .none (.num 1) []]

/-- The atom. -/
def feAtom : Atom := ⟨0, "Fe", .num 1, 0⟩

theorem feSession_atoms : feSession.atoms = [feAtom] := by decide +kernel

/-- A lattice with the atom at two positions. -/
noncomputable def fePair (env : Env ℝ) : Lattice 1 ℝ :=
  (((Lattice.ofWorld ⟨feSession, Structure.ofBasis ⟨1, 1⟩⟩).call env
    (.conf (.addAtom none (.obj feAtom) false 0))).1.call env
    (.conf (.addAtom (some [1 / 2]) (.obj feAtom) false 0))).1

theorem fePair_made (env : Env ℝ) : Made env (fePair env) := by
  refine Made.call (Made.call (Made.new _ _) _ ?_) _ ?_
  · intro pos a pr nb e
    simp only [Lattice.Op.conf.injEq, World.Op.addAtom.injEq, AtomArg.obj.injEq] at e
    rw [← e.2.1]
    show feAtom ∈ feSession.atoms
    rw [feSession_atoms]
    exact List.mem_singleton.2 rfl
  · intro pos a pr nb e
    simp only [Lattice.Op.conf.injEq, World.Op.addAtom.injEq, AtomArg.obj.injEq] at e
    rw [← e.2.1]
    show feAtom ∈ feSession.atoms
    rw [feSession_atoms]
    exact List.mem_singleton.2 rfl

theorem fePair_world (env : Env ℝ) :
    (fePair env).world.session = feSession ∧ (fePair env).struct.atoms = [feAtom, feAtom] := by
  have hp : (Structure.atomPos (⟨1, 1⟩ : LatticeBasis 1 ℝ) (some [1 / 2]) false) =
      .ok fun _ => 1 / 2 := by
    unfold Structure.atomPos Structure.toVec
    simp
  have hne : (fun _ => 1 / 2 : Vec 1 ℝ) ∉ [(0 : Vec 1 ℝ)] := by
    rw [List.mem_singleton]
    intro e
    have := congrFun e 0
    norm_num at this
  unfold fePair Lattice.struct Lattice.call
  dsimp only
  have e1 : ((⟨feSession, Structure.ofBasis ⟨1, 1⟩⟩ : World 1 ℝ).call env
      (.addAtom none (.obj feAtom) false 0)).1 =
      ⟨feSession, { Structure.ofBasis ⟨1, 1⟩ with
        atoms := [feAtom], positions := [0], numBase := 1, conn := some (ConnMatrix.zeros 1) }⟩ := by
    unfold World.call World.addAtom Structure.atomPos Structure.addAtomAt Structure.ofBasis
    simp
  unfold Lattice.ofWorld
  dsimp only
  rw [e1]
  unfold World.call World.addAtom
  dsimp only [Structure.ofBasis]
  rw [hp]
  dsimp only
  rw [if_neg hne]
  dsimp only
  rw [addAtomAt_atoms]
  exact ⟨rfl, rfl⟩

/-- The copy has one new atom with the same number at both positions; setting its colour leaves the
atom of the original without colour. -/
example (env : Env ℝ) :
    let b : Atom := ⟨0, "Fe", .num 1, 1⟩
    let q := (LatticePair.ofCopy (fePair env)).run env [.setItem 0 "color" (.str "red")]
    (fePair env).copy.struct.atoms = [b, b] ∧
    q.session.getItem b "color" = .ok (.str "red") ∧ q.session.getItem feAtom "color" = .ok .none ∧
    q.fst = fePair env := by
  obtain ⟨h1, h2⟩ := fePair_world env
  have e : (fePair env).copy.struct.atoms = [⟨0, "Fe", .num 1, 1⟩, ⟨0, "Fe", .num 1, 1⟩] ∧
      (fePair env).copy.world.session = (feSession.deepcopyAtom feAtom).1 := by
    show ((fePair env).world.session.deepcopyAtoms [] (fePair env).struct.atoms).2 = _ ∧
      ((fePair env).world.session.deepcopyAtoms [] (fePair env).struct.atoms).1 = _
    rw [h1, h2]
    exact ⟨by decide +kernel, rfl⟩
  have hrun : ((LatticePair.ofCopy (fePair env)).run env [.setItem 0 "color" (.str "red")]).session =
      (feSession.deepcopyAtom feAtom).1.setItem ⟨0, "Fe", .num 1, 1⟩ "color" (.str "red") := by
    unfold LatticePair.run LatticePair.ofCopy
    simp only [List.foldl_cons, List.foldl_nil]
    unfold LatticePair.step
    dsimp only
    rw [e.1, e.2]
    rfl
  refine ⟨e.1, ?_, ?_, ?_⟩
  · rw [hrun]
    decide +kernel
  · rw [hrun]
    decide +kernel
  · exact ((C115_independent env (C115_made (fePair_made env)) _).1 fun op hop => by
      rw [List.mem_singleton] at hop
      subst hop
      exact trivial).1

/-- The index numbers of C26 are no longer unique once a lattice has been copied: `Lattice.copy()`
makes atoms that are different objects with dictionaries of their own, but have the index numbers of
the atoms they were copied from, whereas `Atom.copy()` takes a new number. -/
theorem C26_lattice_copy_fails (env : Env ℝ) :
    ∃ (L : Lattice 1 ℝ) (a b : Atom), Made env L ∧ a ∈ L.struct.atoms ∧ b ∈ L.copy.struct.atoms ∧
      a ∈ L.copy.world.session.atoms ∧ b ∈ L.copy.world.session.atoms ∧ a ≠ b ∧ a.ref ≠ b.ref ∧
      a.index = b.index ∧ ¬ (L.copy.world.session.atoms.map Atom.index).Nodup := by
  have hm := fePair_made env
  have ho := C115_made hm
  obtain ⟨hc, ho'⟩ := C115_copy ho
  obtain ⟨h1, h2⟩ := fePair_world env
  have e : (fePair env).copy.struct.atoms = [⟨0, "Fe", .num 1, 1⟩, ⟨0, "Fe", .num 1, 1⟩] ∧
      (fePair env).copy.world.session = (feSession.deepcopyAtom feAtom).1 := by
    show ((fePair env).world.session.deepcopyAtoms [] (fePair env).struct.atoms).2 = _ ∧
      ((fePair env).world.session.deepcopyAtoms [] (fePair env).struct.atoms).1 = _
    rw [h1, h2]
    exact ⟨by decide +kernel, rfl⟩
  refine ⟨fePair env, feAtom, ⟨0, "Fe", .num 1, 1⟩, hm, by rw [h2]; simp, by rw [e.1]; simp, ?_, ?_,
    by decide, by decide, rfl, ?_⟩
  · exact (hc.old _ (ho.2 _ (by rw [h2]; simp))).1
  · exact ho'.2 _ (by rw [e.1]; simp)
  · rw [e.2]
    decide +kernel

theorem run_made {env : Env ℝ} : ∀ (ops : List (World.Op ℝ)) (w : World d ℝ),
    (∀ op ∈ ops, ∀ pos a pr nb, op ≠ .addAtom pos (.obj a) pr nb) → Made env (Lattice.ofWorld w) →
    Made env (Lattice.ofWorld (World.run env w ops))
  | [], _, _, h => h
  | op :: ops, w, hops, h => run_made ops (w.call env op).1
      (fun o ho => hops o (List.mem_cons_of_mem _ ho))
      (Made.call h (.conf op) fun pos a pr nb e => by
        rw [Lattice.Op.conf.injEq] at e
        exact absurd e (hops op List.mem_cons_self pos a pr nb))

theorem chain_made {env : Env ℝ} {w : World 1 ℝ}
    (hw : Preset.simpleChain env Session.empty 1 .none 1 = .ok w) :
    Made env (Lattice.ofWorld w) := by
  unfold Preset.simpleChain Preset.configure at hw
  split at hw
  · cases hw
  · rename_i b hb
    rw [calls_run env _ _ _ hw]
    refine run_made _ _ ?_ (Made.new [] b)
    intro op hop pos a pr nb e
    subst e
    simp [Preset.oneAtom, AtomSpec.arg] at hop

/-- A chain of 6 sites is equal to its copy. -/
example (env : Env ℝ) : ∃ (w : World 1 ℝ) (L : Lattice 1 ℝ),
    Preset.simpleChain env Session.empty 1 .none 1 = .ok w ∧
    (Lattice.ofWorld w).build env { shape := .size [5] true } = (L, .ok ()) ∧ Made env L ∧
    L.copy.eq exampleText (L.within L.copy.world.session) = .ok true := by
  obtain ⟨w, hw, bw⟩ := (C108_boxes env Session.empty 1 (by norm_num) .none).1
  obtain ⟨L, -, hL, -⟩ := bw (fun _ => 5) true (by intro k; norm_num)
  have hL' : (Lattice.ofWorld w).build env { shape := .size [5] true } = (L, .ok ()) := hL
  have hM : Made env L := by
    have h := Made.call (chain_made hw) (.build { shape := .size [5] true })
      (fun pos a pr nb e => nomatch e)
    have e : ((Lattice.ofWorld w).call env (.build { shape := .size [5] true })).1 = L := by
      show ((Lattice.ofWorld w).build env { shape := .size [5] true }).1 = L
      rw [hL']
    rwa [e] at h
  obtain ⟨-, -, D, lo, hi, -, -, -, -, eL⟩ := Lattice.build_ok rfl hL'
  have hcw : ∃ c, w.struct.conn = some c := by
    obtain ⟨w', c, e1, -, e2, -⟩ := (C84_answers env Session.empty 1 0 0 .none .none 1).1.2.2
      (by simp) one_pos
    rw [hw] at e1
    cases e1
    exact ⟨c, e2⟩
  obtain ⟨c, hc⟩ := hcw
  have hs : L.struct.conn = some c := by rw [eL]; exact hc
  have hsh : L.shape = some fun k => hi k - lo k := by rw [eL]
  have hd : ∃ t, L.dumps exampleText = .ok t := by
    unfold Lattice.dumps
    rw [hs, hsh]
    exact ⟨_, rfl⟩
  obtain ⟨t, ht⟩ := hd
  refine ⟨w, L, hw, hL', hM, ?_⟩
  exact ((C115_equal (C115_made hM) exampleText (str := fun _ => "0.2") rfl).2.2 t ht).1

end Lattpy
