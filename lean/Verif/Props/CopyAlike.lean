import Verif.Props.Copy
import Verif.Props.Sound

/-!
# C115: a copy behaves like the original
-/

set_option autoImplicit false

namespace Lattpy

variable {d : ℕ}

/-! ## spec -/

/-- The lattices differ only in the atom objects: these have the same numbers, names, weights and
parameters, and share dictionaries in the same way. -/
structure Alike (L M : Lattice d ℝ) : Prop where
  rest : { M with world := L.world } = L
  struct : { M.struct with atoms := L.struct.atoms } = L.struct
  length : M.struct.atoms.length = L.struct.atoms.length
  slots : ∀ (i : ℕ) (a b : Atom), L.struct.atoms[i]? = some a → M.struct.atoms[i]? = some b →
    b.index = a.index ∧ b.name = a.name ∧ b.weight = a.weight
  params : ∀ (i : ℕ) (a b : Atom), L.struct.atoms[i]? = some a → M.struct.atoms[i]? = some b →
    M.world.session.params b = L.world.session.params a
  shared : ∀ (i j : ℕ) (a a' b b' : Atom), L.struct.atoms[i]? = some a →
    L.struct.atoms[j]? = some a' → M.struct.atoms[i]? = some b → M.struct.atoms[j]? = some b' →
    (a.ref = a'.ref ↔ b.ref = b'.ref)
  counter : M.world.session.counter = L.world.session.counter
  fst : ∀ a ∈ L.struct.atoms, a.ref < L.world.session.dicts.length
  snd : ∀ b ∈ M.struct.atoms, b.ref < M.world.session.dicts.length

/-- The step names atoms by number or name and not by objects (objects of the original are no objects
of the copy). -/
def ByName : Lattice.Act d ℝ → Prop
  | .call (.conf (.addAtom _ (.obj _) _ _)) => False
  | .call (.conf (.addConnection (.obj _) _ _ _)) => False
  | .call (.conf (.addConnection _ (.obj _) _ _)) => False
  | _ => True

/-- The outcomes of a sequence of steps, and the lattice at the end. -/
noncomputable def outcomes (env : Env ℝ) : Lattice d ℝ → List (Lattice.Act d ℝ) →
    List (Except PyErr Unit) × Lattice d ℝ
  | L, [] => ([], L)
  | L, op :: ops => ((L.act env op).2 :: (outcomes env (L.act env op).1 ops).1,
      (outcomes env (L.act env op).1 ops).2)

/-! ## lemmas -/

/-- The structure with other atoms. -/
def Structure.withAtoms (S : Structure d ℝ) (l : List Atom) : Structure d ℝ := { S with atoms := l }

/-- The lattice with other atoms in another session. -/
def Lattice.withAtoms (L : Lattice d ℝ) (s : Session) (l : List Atom) : Lattice d ℝ :=
  { L with world := ⟨s, L.struct.withAtoms l⟩ }

theorem analyze_withAtoms (env : Env ℝ) (S : Structure d ℝ) (l : List Atom)
    (hl : l.isEmpty = S.atoms.isEmpty) : (S.withAtoms l).analyze env =
      ((S.analyze env).1.withAtoms l, (S.analyze env).2) := by
  have h1 : ∀ m, Structure.computeBaseNeighbors env (S.withAtoms l) m =
      Structure.computeBaseNeighbors env S m := fun _ => rfl
  unfold Structure.analyze
  rw [show (S.withAtoms l).atoms = l from rfl, hl, show (S.withAtoms l).conn = S.conn from rfl]
  split
  · rfl
  · split
    · rfl
    · split
      · rfl
      · split
        · rfl
        · rw [h1]
          split <;> rfl

theorem addConnections_withAtoms (env : Env ℝ) (S : Structure d ℝ) (l : List Atom)
    (hl : l.isEmpty = S.atoms.isEmpty) (num : ℕ) (an : Bool) :
    (S.withAtoms l).addConnections env num an =
      ((S.addConnections env num an).1.withAtoms l, (S.addConnections env num an).2) := by
  unfold Structure.addConnections
  rw [show (S.withAtoms l).conn = S.conn from rfl]
  split
  · rfl
  · rename_i c _
    dsimp only
    split
    · exact analyze_withAtoms env { S with conn := some (c.fill num) } l hl
    · rfl

namespace Lattice

theorem updateShape_withAtoms (L : Lattice d ℝ) (s : Session) (l : List Atom) :
    (L.withAtoms s l).updateShape = (L.updateShape.1.withAtoms s l, L.updateShape.2) := by
  unfold updateShape
  rw [show (L.withAtoms s l).data = L.data from rfl]
  split
  · rfl
  · split <;> rfl

theorem setPeriodicAxes_withAtoms (env : Env ℝ) (L : Lattice d ℝ) (s : Session) (l : List Atom)
    (D : LatticeData d ℝ) (axes : List ℕ) : (L.withAtoms s l).setPeriodicAxes env D axes =
      ((L.setPeriodicAxes env D axes).1.withAtoms s l, (L.setPeriodicAxes env D axes).2) := by
  have h1 : computePneighbors env (L.withAtoms s l).struct D axes
      ((L.withAtoms s l).primitive.getD false) =
      computePneighbors env L.struct D axes (L.primitive.getD false) := rfl
  unfold setPeriodicAxes
  rw [h1]
  split
  · rfl
  · split
    · rfl
    · split
      · rfl
      · split <;> rfl

theorem setPeriodic_withAtoms (env : Env ℝ) (L : Lattice d ℝ) (s : Session) (l : List Atom)
    (axis : PAxis) : (L.withAtoms s l).setPeriodic env axis =
      ((L.setPeriodic env axis).1.withAtoms s l, (L.setPeriodic env axis).2) := by
  unfold setPeriodic
  rw [show (L.withAtoms s l).data = L.data from rfl, show (L.withAtoms s l).shape = L.shape from rfl]
  split
  · rfl
  · split
    · rfl
    · split
      · rfl
      · dsimp only
        split
        · rfl
        · rename_i E _ _
          exact setPeriodicAxes_withAtoms env { L with data := some E } s l _ _
        · rename_i E _ _ _
          exact setPeriodicAxes_withAtoms env { L with data := some E } s l _ _

theorem build_withAtoms (env : Env ℝ) (L : Lattice d ℝ) (s : Session) (l : List Atom)
    (a : BuildArgs d ℝ) : (L.withAtoms s l).build env a =
      ((L.build env a).1.withAtoms s l, (L.build env a).2) := by
  have h1 : assertReady (L.withAtoms s l).struct = assertReady L.struct := rfl
  have h2 : buildShape (L.withAtoms s l).struct a = buildShape L.struct a := rfl
  have h3 : ∀ sh, buildData env (L.withAtoms s l).struct a sh = buildData env L.struct a sh :=
    fun _ => rfl
  have h4 : ∀ D : LatticeData d ℝ, updateShape { ({ (L.withAtoms s l) with data := none } : Lattice d ℝ) with
      data := some D, primitive := some a.primitive } =
      ((updateShape { ({ L with data := none } : Lattice d ℝ) with
        data := some D, primitive := some a.primitive }).1.withAtoms s l,
      (updateShape { ({ L with data := none } : Lattice d ℝ) with
        data := some D, primitive := some a.primitive }).2) := fun D =>
    updateShape_withAtoms { ({ L with data := none } : Lattice d ℝ) with
        data := some D, primitive := some a.primitive } s l
  unfold build
  dsimp only
  rw [h1, h2]
  split
  · rfl
  · split
    · rfl
    · rw [h3]
      split
      · rfl
      · rw [h4]
        rename_i D _
        generalize (updateShape { ({ L with data := none } : Lattice d ℝ) with
          data := some D, primitive := some a.primitive }) = o
        obtain ⟨L1, e⟩ := o
        cases e with
        | error e => rfl
        | ok _ =>
          dsimp only
          split
          · rfl
          · exact setPeriodic_withAtoms env L1 s l _

theorem appendSites_withAtoms (env : Env ℝ) (L : Lattice d ℝ) (s : Session) (l : List Atom)
    (ind : List (Idx d)) (pos : List (Vec d ℝ)) (nbrs : List (List ℕ))
    (dists : List (List (WithTop ℝ))) (ax : ℕ) (side : Bool) (sortAx : Option (Fin (d + 1)))
    (rev : Bool) : (L.withAtoms s l).appendSites env ind pos nbrs dists ax side sortAx rev =
      ((L.appendSites env ind pos nbrs dists ax side sortAx rev).1.withAtoms s l,
        (L.appendSites env ind pos nbrs dists ax side sortAx rev).2) := by
  unfold appendSites
  rw [show (L.withAtoms s l).data = L.data from rfl,
    show (L.withAtoms s l).struct.basis = L.struct.basis from rfl,
    show (L.withAtoms s l).primitive = L.primitive from rfl]
  split
  · rfl
  · split
    · rfl
    · dsimp only
      split
      · rfl
      · rw [show ∀ p q, connectionNeighbors env (L.withAtoms s l).struct p q =
          connectionNeighbors env L.struct p q from fun _ _ => rfl]
        split
        · rfl
        · split
          · rfl
          · rename_i E _
            exact updateShape_withAtoms { L with data := some (match sortAx with
              | none => E
              | some s => E.sort s rev) } s l

theorem append_withAtoms (env : Env ℝ) (L M : Lattice d ℝ) (s : Session) (l : List Atom)
    (ax : ℕ) (side : Bool) (sortAx : Option (Fin (d + 1))) (rev : Bool) :
    (L.withAtoms s l).append env M ax side sortAx rev =
      ((L.append env M ax side sortAx rev).1.withAtoms s l,
        (L.append env M ax side sortAx rev).2) := by
  unfold append
  split
  · rfl
  · exact appendSites_withAtoms ..

theorem extend_withAtoms (env : Env ℝ) (L : Lattice d ℝ) (s : Session) (l : List Atom)
    (size : ℝ) (ax : ℕ) (side : Bool) (sortAx : Option (Fin (d + 1))) (rev : Bool) :
    (L.withAtoms s l).extend env size ax side sortAx rev =
      ((L.extend env size ax side sortAx rev).1.withAtoms s l,
        (L.extend env size ax side sortAx rev).2) := by
  unfold extend
  rw [show (L.withAtoms s l).shape = L.shape from rfl,
    show (L.withAtoms s l).primitive = L.primitive from rfl]
  split
  · rfl
  · split
    · dsimp only
      rw [show ∀ a b c d' e f, (L.withAtoms s l).struct.buildIndices a b c d' e f =
        L.struct.buildIndices a b c d' e f from fun _ _ _ _ _ _ => rfl]
      split
      · rfl
      · rw [show ∀ a b, Structure.computeNeighbors env (L.withAtoms s l).struct a b =
          Structure.computeNeighbors env L.struct a b from fun _ _ => rfl]
        split
        · rfl
        · exact appendSites_withAtoms ..
    · rfl

theorem repeatLoop_withAtoms (env : Env ℝ) (D : LatticeData d ℝ) (s : Session) (l : List Atom)
    (ax : ℕ) (side : Bool) (sortAx : Option (Fin (d + 1))) (rev : Bool) :
    ∀ (n : ℕ) (nbrs : List (List ℕ)) (L : Lattice d ℝ),
      repeatLoop env D ax side sortAx rev n nbrs (L.withAtoms s l) =
      ((repeatLoop env D ax side sortAx rev n nbrs L).1.withAtoms s l,
        (repeatLoop env D ax side sortAx rev n nbrs L).2) := by
  intro n
  induction n with
  | zero => exact fun _ _ => rfl
  | succ n ih =>
    intro nbrs L
    rw [repeatLoop, repeatLoop, appendSites_withAtoms]
    generalize L.appendSites env D.indices D.positions nbrs D.distTable ax side sortAx rev = o
    obtain ⟨L1, e⟩ := o
    cases e with
    | error e => rfl
    | ok _ => exact ih _ L1

theorem repeat_withAtoms (env : Env ℝ) (L : Lattice d ℝ) (s : Session) (l : List Atom)
    (num ax : ℕ) (side : Bool) (sortAx : Option (Fin (d + 1))) (rev : Bool) :
    (L.withAtoms s l).repeat env num ax side sortAx rev =
      ((L.repeat env num ax side sortAx rev).1.withAtoms s l,
        (L.repeat env num ax side sortAx rev).2) := by
  unfold «repeat»
  rw [show (L.withAtoms s l).data = L.data from rfl]
  split
  · rfl
  · exact repeatLoop_withAtoms ..

end Lattice

namespace Alike

theorem eq {L M : Lattice d ℝ} (h : Alike L M) :
    M = L.withAtoms M.world.session M.struct.atoms := by
  have h1 := h.rest
  have h2 := h.struct
  obtain ⟨⟨s, S⟩, a1, a2, a3, a4, a5⟩ := M
  obtain ⟨⟨t, T⟩, b1, b2, b3, b4, b5⟩ := L
  simp only [Lattice.mk.injEq, true_and] at h1
  obtain ⟨rfl, rfl, rfl, rfl, rfl⟩ := h1
  obtain ⟨c1, c2, c3, c4, c5, c6, c7⟩ := S
  obtain ⟨d1, d2, d3, d4, d5, d6, d7⟩ := T
  simp only [Lattice.struct, Structure.mk.injEq, true_and] at h2
  obtain ⟨rfl, rfl, rfl, rfl, rfl, rfl⟩ := h2
  rfl

/-- A step that keeps the sessions and the atoms. -/
theorem keep {L M L' : Lattice d ℝ} (h : Alike L M) (hw : L'.world.session = L.world.session)
    (ha : L'.struct.atoms = L.struct.atoms) :
    Alike L' (L'.withAtoms M.world.session M.struct.atoms) where
  rest := rfl
  struct := rfl
  length := by
    rw [ha]
    exact h.length
  slots := by
    intro i a b h1
    rw [ha] at h1
    exact h.slots i a b h1
  params := by
    intro i a b h1
    rw [ha] at h1
    rw [hw]
    exact h.params i a b h1
  shared := by
    intro i j a a' b b' h1 h2
    rw [ha] at h1 h2
    exact h.shared i j a a' b b' h1 h2
  counter := by
    rw [hw]
    exact h.counter
  fst := by
    rw [ha, hw]
    exact h.fst
  snd := h.snd

theorem keepWorld {L M L' : Lattice d ℝ} (h : Alike L M) (hw : L'.world = L.world) :
    Alike L' (L'.withAtoms M.world.session M.struct.atoms) :=
  h.keep (by rw [hw]) (by rw [Lattice.struct, hw, ← Lattice.struct])

/-- The other atom in the same place. -/
theorem other {L M : Lattice d ℝ} (h : Alike L M) {i : ℕ} {a : Atom}
    (ha : L.struct.atoms[i]? = some a) : ∃ b, M.struct.atoms[i]? = some b := by
  obtain ⟨hi, -⟩ := List.getElem?_eq_some_iff.1 ha
  exact ⟨_, List.getElem?_eq_getElem (by rw [h.length]; exact hi)⟩

theorem other' {L M : Lattice d ℝ} (h : Alike L M) {i : ℕ}
    (ha : L.struct.atoms[i]? = none) : M.struct.atoms[i]? = none := by
  rw [List.getElem?_eq_none_iff] at ha ⊢
  rwa [h.length]

theorem _root_.Lattpy.Session.params_setParams_of_lt (s : Session) (a c : Atom) (x : PyDict)
    (ha : a.ref < s.dicts.length) :
    (s.setParams a x).params c = if a.ref = c.ref then x else s.params c := by
  unfold Session.setParams Session.params
  dsimp only
  rw [List.getElem?_set]
  split_ifs <;> rfl

theorem setParams {L M : Lattice d ℝ} (h : Alike L M) {i : ℕ} {a b : Atom}
    (ha : L.struct.atoms[i]? = some a) (hb : M.struct.atoms[i]? = some b) (x : PyDict) :
    Alike (L.within (L.world.session.setParams a x)) (M.within (M.world.session.setParams b x)) where
  rest := by
    rw [h.eq]
    rfl
  struct := h.struct
  length := h.length
  slots := h.slots
  params := by
    intro j a' b' ha' hb'
    show (M.world.session.setParams b x).params b' = (L.world.session.setParams a x).params a'
    rw [Session.params_setParams_of_lt _ _ _ _ (h.fst a (List.mem_of_getElem? ha)),
      Session.params_setParams_of_lt _ _ _ _ (h.snd b (List.mem_of_getElem? hb)), h.params j a' b' ha' hb']
    have := h.shared i j a a' b b' ha ha' hb hb'
    by_cases e : a.ref = a'.ref
    · rw [if_pos e, if_pos (this.1 e)]
    · rw [if_neg e, if_neg fun e' => e (this.2 e')]
  shared := h.shared
  counter := h.counter
  fst := by
    intro a ha
    show a.ref < (List.set _ _ _).length
    rw [List.length_set]
    exact h.fst a ha
  snd := by
    intro b hb
    show b.ref < (List.set _ _ _).length
    rw [List.length_set]
    exact h.snd b hb

theorem nameAttr {L M : Lattice d ℝ} (h : Alike L M) {i : ℕ} {a b : Atom}
    (ha : L.struct.atoms[i]? = some a) (hb : M.struct.atoms[i]? = some b) :
    M.world.session.nameAttr b = L.world.session.nameAttr a := by
  unfold Session.nameAttr
  rw [h.params i a b ha hb, (h.slots i a b ha hb).2.1]

theorem isEmpty {L M : Lattice d ℝ} (h : Alike L M) :
    M.struct.atoms.isEmpty = L.struct.atoms.isEmpty := by
  have := h.length
  cases h1 : M.struct.atoms <;> cases h2 : L.struct.atoms <;> simp_all

theorem _root_.Lattpy.getElem?_concat_iff {α : Type*} {l : List α} {x y : α} {i : ℕ} :
    (l ++ [x])[i]? = some y ↔ l[i]? = some y ∨ i = l.length ∧ x = y := by
  rcases lt_trichotomy i l.length with hi | hi | hi
  · rw [List.getElem?_append_left hi]
    constructor
    · exact Or.inl
    · rintro (h | h)
      · exact h
      · omega
  · subst hi
    simp
  · rw [List.getElem?_eq_none (by simp; omega), List.getElem?_eq_none (by omega)]
    constructor
    · exact fun h => nomatch h
    · rintro (h | h)
      · exact nomatch h
      · omega

end Alike

theorem addAtomAt_withAtoms (env : Env ℝ) (S : Structure d ℝ) (l : List Atom)
    (hl : l.length = S.atoms.length) (p : Vec d ℝ) (a b : Atom) (nb : ℕ) :
    (S.withAtoms l).addAtomAt env p b nb =
      ((S.addAtomAt env p a nb).1.withAtoms (l ++ [b]), (S.addAtomAt env p a nb).2) := by
  unfold Structure.addAtomAt
  dsimp only
  rw [show (S.withAtoms l).frozen = S.frozen from rfl,
    show (S.withAtoms l).positions = S.positions from rfl,
    show (S.withAtoms l).atoms = l from rfl,
    show (l ++ [b]).length = (S.atoms ++ [a]).length by simp [hl]]
  split
  · rfl
  · split
    · rfl
    · split
      · exact addConnections_withAtoms env { S with
          atoms := S.atoms ++ [a], positions := S.positions ++ [p]
          numBase := (S.atoms ++ [a]).length
          conn := some (ConnMatrix.zeros (S.atoms ++ [a]).length) } (l ++ [b])
          (by cases l <;> cases S.atoms <;> rfl) _ _
      · rfl

theorem getAlpha_alike {L M : Lattice d ℝ} (h : Alike L M) (r : Structure.AtomRef)
    (hr : ∀ a, r ≠ .obj a) : M.struct.getAlpha M.world.session r =
      L.struct.getAlpha L.world.session r := by
  cases r with
  | num i => rfl
  | obj a => exact absurd rfl (hr a)
  | name n =>
    unfold Structure.getAlpha
    dsimp only
    congr 2
    unfold whereIdx
    rw [h.length]
    refine List.filter_congr fun i _ => ?_
    cases ha : L.struct.atoms[i]? with
    | none => rw [h.other' ha]
    | some a =>
      obtain ⟨b, hb⟩ := h.other ha
      rw [hb]
      dsimp only
      rw [h.nameAttr ha hb]

theorem addConnection_withAtoms (env : Env ℝ) {L M : Lattice d ℝ} (h : Alike L M)
    (r1 r2 : Structure.AtomRef) (h1 : ∀ a, r1 ≠ .obj a) (h2 : ∀ a, r2 ≠ .obj a) (num : ℕ)
    (an : Bool) : M.struct.addConnection env M.world.session r1 r2 num an =
      ((L.struct.addConnection env L.world.session r1 r2 num an).1.withAtoms M.struct.atoms,
        (L.struct.addConnection env L.world.session r1 r2 num an).2) := by
  have hM : M.struct = L.struct.withAtoms M.struct.atoms := congrArg Lattice.struct h.eq
  unfold Structure.addConnection
  rw [getAlpha_alike h r1 h1, getAlpha_alike h r2 h2]
  split
  · exact congrArg (·, _) hM
  · exact congrArg (·, _) hM
  · rw [show M.struct.conn = L.struct.conn by rw [hM]; rfl]
    split
    · exact congrArg (·, _) hM
    · rename_i c _
      dsimp only
      have hM' : { M.struct with conn := c } =
          ({ L.struct with conn := c } : Structure d ℝ).withAtoms M.struct.atoms := by
        rw [hM]
        rfl
      rw [hM']
      split
      · exact analyze_withAtoms env _ _ h.isEmpty
      · rfl

/-- Two new atoms. -/
theorem Alike.concat {L M L' : Lattice d ℝ} (h : Alike L M) (x : PyDict) (n : String) (w : PyVal)
    (hs : L'.world.session = ⟨L.world.session.counter + 1, L.world.session.dicts ++ [x],
      L.world.session.atoms ++ [⟨L.world.session.counter, n, w, L.world.session.dicts.length⟩]⟩)
    (ha : L'.struct.atoms = L.struct.atoms ++
      [⟨L.world.session.counter, n, w, L.world.session.dicts.length⟩]) :
    Alike L' (L'.withAtoms ⟨M.world.session.counter + 1, M.world.session.dicts ++ [x],
      M.world.session.atoms ++ [⟨M.world.session.counter, n, w, M.world.session.dicts.length⟩]⟩
      (M.struct.atoms ++ [⟨M.world.session.counter, n, w, M.world.session.dicts.length⟩])) where
  rest := rfl
  struct := rfl
  length := by
    show (_ ++ [_]).length = _
    rw [ha, List.length_append, List.length_append, h.length]
    rfl
  slots := by
    intro i a b h1 h2
    rw [ha, getElem?_concat_iff] at h1
    rw [show (Lattice.withAtoms L' _ _).struct.atoms = _ ++ [_] from rfl, getElem?_concat_iff] at h2
    rcases h1 with h1 | ⟨h1, rfl⟩ <;> rcases h2 with h2 | ⟨h2, rfl⟩
    · exact h.slots i a b h1 h2
    · rw [h2, h.length, List.getElem?_length] at h1
      exact nomatch h1
    · rw [h1, ← h.length, List.getElem?_length] at h2
      exact nomatch h2
    · exact ⟨h.counter, rfl, rfl⟩
  params := by
    intro i a b h1 h2
    rw [ha, getElem?_concat_iff] at h1
    rw [show (Lattice.withAtoms L' _ _).struct.atoms = _ ++ [_] from rfl, getElem?_concat_iff] at h2
    rw [hs]
    rcases h1 with h1 | ⟨h1, rfl⟩ <;> rcases h2 with h2 | ⟨h2, rfl⟩
    · have g1 : Session.params ⟨L.world.session.counter + 1, L.world.session.dicts ++ [x],
          L.world.session.atoms ++ [⟨L.world.session.counter, n, w, L.world.session.dicts.length⟩]⟩ a =
          L.world.session.params a :=
        Session.params_of_prefix (List.prefix_append _ _) (h.fst a (List.mem_of_getElem? h1))
      have g2 : Session.params ⟨M.world.session.counter + 1, M.world.session.dicts ++ [x],
          M.world.session.atoms ++ [⟨M.world.session.counter, n, w, M.world.session.dicts.length⟩]⟩ b =
          M.world.session.params b :=
        Session.params_of_prefix (List.prefix_append _ _) (h.snd b (List.mem_of_getElem? h2))
      exact g2.trans ((h.params i a b h1 h2).trans g1.symm)
    · rw [h2, h.length, List.getElem?_length] at h1
      exact nomatch h1
    · rw [h1, ← h.length, List.getElem?_length] at h2
      exact nomatch h2
    · simp [Session.params, Lattice.withAtoms]
  shared := by
    intro i j a a' b b' h1 h1' h2 h2'
    rw [ha, getElem?_concat_iff] at h1 h1'
    rw [show (Lattice.withAtoms L' _ _).struct.atoms = _ ++ [_] from rfl, getElem?_concat_iff] at h2 h2'
    have key : ∀ (i : ℕ) (a b : Atom), (L.struct.atoms[i]? = some a ∨ i = L.struct.atoms.length ∧
        ⟨L.world.session.counter, n, w, L.world.session.dicts.length⟩ = a) →
        (M.struct.atoms[i]? = some b ∨ i = M.struct.atoms.length ∧
        ⟨M.world.session.counter, n, w, M.world.session.dicts.length⟩ = b) →
        (L.struct.atoms[i]? = some a ∧ M.struct.atoms[i]? = some b ∧
          a.ref < L.world.session.dicts.length ∧ b.ref < M.world.session.dicts.length) ∨
        (a.ref = L.world.session.dicts.length ∧ b.ref = M.world.session.dicts.length) := by
      intro i a b h1 h2
      rcases h1 with h1 | ⟨h1, rfl⟩ <;> rcases h2 with h2 | ⟨h2, rfl⟩
      · exact Or.inl ⟨h1, h2, h.fst a (List.mem_of_getElem? h1), h.snd b (List.mem_of_getElem? h2)⟩
      · rw [h2, h.length, List.getElem?_length] at h1
        exact nomatch h1
      · rw [h1, ← h.length, List.getElem?_length] at h2
        exact nomatch h2
      · exact Or.inr ⟨rfl, rfl⟩
    rcases key i a b h1 h2 with ⟨k1, k2, k3, k4⟩ | ⟨k1, k2⟩ <;>
      rcases key j a' b' h1' h2' with ⟨l1, l2, l3, l4⟩ | ⟨l1, l2⟩
    · exact h.shared i j a a' b b' k1 l1 k2 l2
    · omega
    · omega
    · omega
  counter := by
    rw [hs]
    exact congrArg (· + 1) h.counter
  fst := by
    intro a ha'
    rw [hs]
    show a.ref < (_ ++ [_]).length
    rw [ha, List.mem_append, List.mem_singleton] at ha'
    rw [List.length_append, List.length_singleton]
    rcases ha' with ha' | rfl
    · exact Nat.lt_succ_of_lt (h.fst a ha')
    · exact Nat.lt_succ_self _
  snd := by
    intro b hb
    show b.ref < (_ ++ [_]).length
    rw [show (Lattice.withAtoms L' _ _).struct.atoms = _ ++ [_] from rfl, List.mem_append,
      List.mem_singleton] at hb
    rw [List.length_append, List.length_singleton]
    rcases hb with hb | rfl
    · exact Nat.lt_succ_of_lt (h.snd b hb)
    · exact Nat.lt_succ_self _

theorem addAtom_alike (env : Env ℝ) {L M : Lattice d ℝ} (h : Alike L M) (pos : Option (List ℝ))
    (name : Option String) (radius color weight : PyVal) (kwargs : PyDict) (pr : Bool) (nb : ℕ) :
    (M.world.addAtom env pos (.new name radius color weight kwargs) pr nb).2 =
      (L.world.addAtom env pos (.new name radius color weight kwargs) pr nb).2 ∧
    Alike { L with world := (L.world.addAtom env pos (.new name radius color weight kwargs) pr nb).1 }
      { M with world := (M.world.addAtom env pos (.new name radius color weight kwargs) pr nb).1 } := by
  have hM : M.struct = L.struct.withAtoms M.struct.atoms := congrArg Lattice.struct h.eq
  have hb : M.world.struct.basis = L.world.struct.basis := by
    rw [show M.world.struct = _ from hM]
    rfl
  have hp : M.world.struct.positions = L.world.struct.positions := by
    rw [show M.world.struct = _ from hM]
    rfl
  unfold World.addAtom
  rw [hb, hp]
  split
  · exact ⟨rfl, h⟩
  · rename_i p _
    split
    · exact ⟨rfl, h⟩
    · dsimp only
      obtain ⟨e, he⟩ | ⟨n, hn⟩ : (∃ e, ∀ s : Session, s.create name radius color weight kwargs =
          .error e) ∨ ∃ n, ∀ s : Session, s.create name radius color weight kwargs =
          .ok ⟨s.counter + 1, s.dicts ++ [("color", color) :: ("radius", radius) :: kwargs],
            s.atoms ++ [⟨s.counter, n, weight, s.dicts.length⟩]⟩ := by
        unfold Session.create
        split_ifs
        · exact Or.inl ⟨_, fun _ => rfl⟩
        · exact Or.inr ⟨_, fun _ => rfl⟩
      · rw [he, he]
        exact ⟨rfl, h⟩
      · rw [hn, hn]
        dsimp only
        rw [List.getLast?_concat, List.getLast?_concat]
        dsimp only
        have e := addAtomAt_withAtoms env L.struct M.struct.atoms h.length p
          ⟨L.world.session.counter, n, weight, L.world.session.dicts.length⟩
          ⟨M.world.session.counter, n, weight, M.world.session.dicts.length⟩ nb
        rw [← hM] at e
        rw [show M.world.struct.addAtomAt env p _ nb = _ from e]
        refine ⟨rfl, ?_⟩
        have hrest := h.eq
        have := h.concat (L' := { L with world := ⟨⟨L.world.session.counter + 1,
          L.world.session.dicts ++ [("color", color) :: ("radius", radius) :: kwargs],
          L.world.session.atoms ++ [⟨L.world.session.counter, n, weight, L.world.session.dicts.length⟩]⟩,
          (L.world.struct.addAtomAt env p
            ⟨L.world.session.counter, n, weight, L.world.session.dicts.length⟩ nb).1⟩ })
          (("color", color) :: ("radius", radius) :: kwargs) n weight rfl (addAtomAt_atoms ..)
        obtain ⟨Mw, m1, m2, m3, m4, m5⟩ := M
        obtain ⟨Lw, l1, l2, l3, l4, l5⟩ := L
        simp only [Lattice.withAtoms, Lattice.mk.injEq] at hrest
        obtain ⟨-, rfl, rfl, rfl, rfl, rfl⟩ := hrest
        exact this

/-- One step. -/
theorem act_alike (env : Env ℝ) {L M : Lattice d ℝ} (h : Alike L M) (op : Lattice.Act d ℝ)
    (hop : ByName op) : (M.act env op).2 = (L.act env op).2 ∧
      Alike (L.act env op).1 (M.act env op).1 := by
  have hM := h.eq
  have hS : M.struct = L.struct.withAtoms M.struct.atoms := congrArg Lattice.struct h.eq
  have conf : ∀ S : Structure d ℝ, S.atoms = L.struct.atoms →
      Alike { L with world := ⟨L.world.session, S⟩ }
        { M with world := ⟨M.world.session, S.withAtoms M.struct.atoms⟩ } := by
    intro S hSa
    have := h.keep (L' := { L with world := ⟨L.world.session, S⟩ }) rfl hSa
    have hrest := h.eq
    obtain ⟨Mw, m1, m2, m3, m4, m5⟩ := M
    obtain ⟨Lw, l1, l2, l3, l4, l5⟩ := L
    simp only [Lattice.withAtoms, Lattice.mk.injEq] at hrest
    obtain ⟨-, rfl, rfl, rfl, rfl, rfl⟩ := hrest
    exact this
  have via : ∀ f : Lattice d ℝ → Outcome (Lattice d ℝ) Unit,
      (∀ (N : Lattice d ℝ) s l, f (N.withAtoms s l) = ((f N).1.withAtoms s l, (f N).2)) →
      (f L).1.world = L.world → (f M).2 = (f L).2 ∧ Alike (f L).1 (f M).1 := by
    intro f hf hw
    have e := hf L M.world.session M.struct.atoms
    rw [← hM] at e
    rw [e]
    exact ⟨rfl, h.keepWorld hw⟩
  cases op with
  | call op =>
    cases op with
    | conf op =>
      cases op with
      | addAtom pos atom pr nb =>
        cases atom with
        | obj a => exact hop.elim
        | new name radius color weight kwargs =>
          exact addAtom_alike env h pos name radius color weight kwargs pr nb
      | addConnection r1 r2 num an =>
        have h1 : ∀ a, r1 ≠ .obj a := by
          rintro a rfl
          exact hop
        have h2 : ∀ a, r2 ≠ .obj a := by
          rintro a rfl
          cases r1 <;> exact hop
        have e := addConnection_withAtoms env h r1 r2 h1 h2 num an
        have e1 : M.act env (.call (.conf (.addConnection r1 r2 num an))) =
          ({ M with world := ⟨M.world.session,
            (M.struct.addConnection env M.world.session r1 r2 num an).1⟩ },
            (M.struct.addConnection env M.world.session r1 r2 num an).2) := rfl
        rw [e1, e]
        exact ⟨rfl, conf _ (addConnection_atoms ..)⟩
      | addConnections num an =>
        have e := addConnections_withAtoms env L.struct M.struct.atoms h.isEmpty num an
        rw [← hS] at e
        have e1 : M.act env (.call (.conf (.addConnections num an))) =
          ({ M with world := ⟨M.world.session, (M.struct.addConnections env num an).1⟩ },
            (M.struct.addConnections env num an).2) := rfl
        rw [e1, e]
        exact ⟨rfl, conf _ (addConnections_atoms ..)⟩
      | analyze =>
        have e := analyze_withAtoms env L.struct M.struct.atoms h.isEmpty
        rw [← hS] at e
        have e1 : M.act env (.call (.conf .analyze)) =
          ({ M with world := ⟨M.world.session, (M.struct.analyze env).1⟩ },
            (M.struct.analyze env).2) := rfl
        rw [e1, e]
        exact ⟨rfl, conf _ (analyze_atoms ..)⟩
    | build a =>
      exact via (fun N => N.build env a) (fun N s l => N.build_withAtoms env s l a)
        (build_keeps_world env L a)
    | setPeriodic axis =>
      exact via (fun N => N.setPeriodic env axis) (fun N s l => N.setPeriodic_withAtoms env s l axis)
        (setPeriodic_keeps_world env L axis)
  | append N ax side sortAx rev =>
    refine via (fun M => M.append env N ax side sortAx rev)
      (fun M s l => M.append_withAtoms env N s l ax side sortAx rev) ?_
    unfold Lattice.append
    split
    · rfl
    · exact appendSites_world ..
  | extend size ax side sortAx rev =>
    refine via (fun M => M.extend env size ax side sortAx rev)
      (fun M s l => M.extend_withAtoms env s l size ax side sortAx rev) ?_
    unfold Lattice.extend
    split
    · rfl
    · split
      · dsimp only
        split
        · rfl
        · split
          · rfl
          · exact appendSites_world ..
      · rfl
  | «repeat» num ax side sortAx rev =>
    refine via (fun M => M.repeat env num ax side sortAx rev)
      (fun M s l => M.repeat_withAtoms env s l num ax side sortAx rev) ?_
    unfold Lattice.repeat
    split
    · rfl
    · rename_i D _
      have : ∀ (n : ℕ) (nbrs : List (List ℕ)) (N : Lattice d ℝ),
          (Lattice.repeatLoop env D ax side sortAx rev n nbrs N).1.world = N.world := by
        intro n
        induction n with
        | zero => exact fun _ _ => rfl
        | succ n ih =>
          intro nbrs N
          rw [Lattice.repeatLoop]
          have := appendSites_world env N D.indices D.positions nbrs D.distTable ax side sortAx rev
          generalize N.appendSites env D.indices D.positions nbrs D.distTable ax side sortAx rev = o at this
          obtain ⟨N1, e⟩ := o
          cases e with
          | error e => exact this
          | ok _ => exact (ih _ _).trans this
      exact this ..
  | setItem i key v =>
    unfold Lattice.act
    dsimp only
    cases ha : L.struct.atoms[i]? with
    | none =>
      rw [h.other' ha]
      exact ⟨rfl, h⟩
    | some a =>
      obtain ⟨b, hb⟩ := h.other ha
      rw [hb]
      dsimp only
      unfold Session.setItem
      rw [h.params i a b ha hb]
      exact ⟨rfl, h.setParams ha hb _⟩
  | delItem i key =>
    unfold Lattice.act
    dsimp only
    cases ha : L.struct.atoms[i]? with
    | none =>
      rw [h.other' ha]
      exact ⟨rfl, h⟩
    | some a =>
      obtain ⟨b, hb⟩ := h.other ha
      rw [hb]
      dsimp only
      unfold Session.delItem
      rw [h.params i a b ha hb]
      cases (PyDict.del (L.world.session.params a) key) with
      | error e => exact ⟨rfl, h⟩
      | ok x => exact ⟨rfl, h.setParams ha hb x⟩
  | setAttr i key v =>
    unfold Lattice.act
    dsimp only
    cases ha : L.struct.atoms[i]? with
    | none =>
      rw [h.other' ha]
      exact ⟨rfl, h⟩
    | some a =>
      obtain ⟨b, hb⟩ := h.other ha
      rw [hb]
      dsimp only
      unfold Session.setAttr Session.setItem
      rw [h.params i a b ha hb]
      split_ifs
      · exact ⟨rfl, h.setParams ha hb _⟩
      · exact ⟨rfl, h⟩

theorem outcomes_alike (env : Env ℝ) : ∀ (ops : List (Lattice.Act d ℝ)) {L M : Lattice d ℝ},
    Alike L M → (∀ op ∈ ops, ByName op) →
    (outcomes env M ops).1 = (outcomes env L ops).1 ∧
      Alike (outcomes env L ops).2 (outcomes env M ops).2
  | [], _, _, h, _ => ⟨rfl, h⟩
  | op :: ops, L, M, h, hops => by
    obtain ⟨h1, h2⟩ := act_alike env h op (hops op (by simp))
    obtain ⟨h3, h4⟩ := outcomes_alike env ops h2 fun op hop => hops op (by simp [hop])
    refine ⟨?_, h4⟩
    show _ :: _ = _ :: _
    rw [h1, h3]

theorem copy_alike {L : Lattice d ℝ} (h : Owned L) : Alike L L.copy := by
  obtain ⟨hc, ho⟩ := C115_copy h
  refine ⟨hc.rest, hc.struct, hc.length, hc.slots, hc.params, ?_, hc.counter,
    fun a ha => (h.1 a (h.2 a ha)).1, fun b hb => (ho.1 b (ho.2 b hb)).1⟩
  intro i j a a' b b' h1 h1' h2 h2'
  have hi := (List.getElem?_eq_some_iff.1 h1).1
  have hj := (List.getElem?_eq_some_iff.1 h1').1
  have := hc.ident i j hi hj
  rw [h1, h1', h2, h2', Option.some.injEq, Option.some.injEq] at this
  constructor
  · intro e
    rw [this.2 ((h.1 a (h.2 a (List.mem_of_getElem? h1))).2 a'
      (h.2 a' (List.mem_of_getElem? h1')) e)]
  · intro e
    rw [this.1 ((ho.1 b (ho.2 b (List.mem_of_getElem? h2))).2 b'
      (ho.2 b' (List.mem_of_getElem? h2')) e)]

/-- C115: a copy behaves like the original.  The same steps (configuration, `build`, `set_periodic`,
`append`, `extend`, `repeat`, changes of the parameters of the atoms) raise the same exceptions on
both, and afterwards the lattices still differ only in the atom objects. -/
theorem C115_behaves (env : Env ℝ) {L : Lattice d ℝ} (h : Owned L) (ops : List (Lattice.Act d ℝ))
    (hops : ∀ op ∈ ops, ByName op) :
    (outcomes env L.copy ops).1 = (outcomes env L ops).1 ∧
      Alike (outcomes env L ops).2 (outcomes env L.copy ops).2 :=
  outcomes_alike env ops (copy_alike h) hops

/-- The lattice with one atom at two places: a parameter set at the first place of the copy is deleted
at the second, and then it is missing at the first; the calls that follow go alike. -/
example (env : Env ℝ) : (outcomes env (fePair env).copy [.setItem 0 "spin" (.num 1),
      .delItem 1 "spin", .delItem 0 "spin", .delItem 2 "spin"]).1 =
      [.ok (), .ok (), .error .key, .error .index] ∧
    ∀ ops : List (Lattice.Act 1 ℝ), (∀ op ∈ ops, ByName op) →
      (outcomes env (fePair env).copy ops).1 = (outcomes env (fePair env) ops).1 := by
  have ho := C115_made (fePair_made env)
  refine ⟨?_, fun ops hops => (C115_behaves env ho ops hops).1⟩
  obtain ⟨h1, h2⟩ := fePair_world env
  rw [(C115_behaves env ho _ (by
    intro op hop
    fin_cases hop <;> trivial)).1]
  generalize fePair env = L at h1 h2
  obtain ⟨⟨s, S⟩, l1, l2, l3, l4, l5⟩ := L
  obtain ⟨S1, S2, S3, S4, S5, S6, S7⟩ := S
  dsimp only [Lattice.struct] at h1 h2
  subst h1 h2
  have g1 : (feSession.setItem feAtom "spin" (.num 1)).delItem feAtom "spin" =
      .ok ((feSession.setItem feAtom "spin" (.num 1)).setParams feAtom (feSession.params feAtom)) := by
    rfl
  have g2 : ((feSession.setItem feAtom "spin" (.num 1)).setParams feAtom
      (feSession.params feAtom)).delItem feAtom "spin" = .error .key := by
    rfl
  simp [outcomes, Lattice.act, Lattice.within, Lattice.struct, g1, g2]

end Lattpy
