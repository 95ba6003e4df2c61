import Verif.Props.PresetPairs

/-!
# C84: the atoms of the presets with two atoms
-/

set_option autoImplicit false
set_option linter.unusedSectionVars false

namespace Lattpy

open Structure Lattpy.Preset

/-- The session after `Atom(name)`. -/
def Session.withNew (s : Session) (n : String) : Session :=
  { counter := s.counter + 1
    dicts := s.dicts ++ [[("color", .none), ("radius", .num (1 / 5))]]
    atoms := s.atoms ++ [⟨s.counter, n, .num 1, s.dicts.length⟩] }

/-- The effect of `add_atom(atom=…)` on the session, and the atom that is used. -/
def Gets (s s' : Session) (at' : Atom) : AtomSpec → Prop
  | .obj a => at' = a ∧ s' = s
  | .none => at' = ⟨s.counter, "A", .num 1, s.dicts.length⟩ ∧ s' = s.withNew "A"
  | .name n => at' = ⟨s.counter, givenName (some n), .num 1, s.dicts.length⟩ ∧
      s' = s.withNew (givenName (some n))

theorem addAtom_gets {d : ℕ} (hd : 0 < d) {env : Env ℝ} {w w' : World d ℝ} (hw : w.struct.Good)
    (hf : w.struct.frozen = false) {pos : Option (List ℝ)} {atom : AtomSpec}
    (h : w.call env (.addAtom pos atom.arg false 0) = (w', .ok ())) :
    ∃ at', w'.struct.atoms = w.struct.atoms ++ [at'] ∧ Gets w.session w'.session at' atom ∧
      w'.struct.Good ∧ w'.struct.frozen = false := by
  have h : w.addAtom env pos atom.arg false 0 = (w', .ok ()) := h
  unfold World.addAtom at h
  cases hp : atomPos w.struct.basis pos false with
  | error e => rw [hp] at h; exact absurd (Prod.mk.inj h).2 (by simp)
  | ok p =>
    rw [hp] at h
    dsimp only at h
    by_cases hmem : p ∈ w.struct.positions
    · rw [if_pos hmem] at h; exact absurd (Prod.mk.inj h).2 (by simp)
    · rw [if_neg hmem] at h
      have hadd := fun at' => addAtomAt_ok hd env hw p hmem at' 0 hf
      have hfr : ∀ at' : Atom, (w.struct.addAtomAt env p at' 0).1.frozen = false := by
        intro at'
        have hlen := hw.atoms_of_not_frozen hf
        simp [addAtomAt, hf, hlen, hw.positions_length]
      have hnew : ∀ n : Option String, atom.arg = .new n (.num (1 / 5)) .none (.num 1) [] →
          w'.struct.atoms = w.struct.atoms ++
            [⟨w.session.counter, givenName n, .num 1, w.session.dicts.length⟩] ∧
          w'.session = w.session.withNew (givenName n) ∧ w'.struct.Good ∧
          w'.struct.frozen = false := by
        intro n harg
        rw [harg] at h
        dsimp only at h
        unfold Session.create at h
        rw [if_neg (by simp [PyDict.keys])] at h
        dsimp only at h
        rw [List.getLast?_concat] at h
        dsimp only at h
        obtain ⟨e1, -⟩ := Prod.mk.inj h
        subst e1
        refine ⟨?_, ?_, ?_, hfr _⟩
        · dsimp only
          rw [(hadd _).2.2.1]
          cases n <;> rfl
        · cases n <;> rfl
        · exact (hadd _).2.1
      cases atom with
      | obj a =>
        dsimp only [AtomSpec.arg] at h
        obtain ⟨e1, -⟩ := Prod.mk.inj h
        subst e1
        exact ⟨a, (hadd a).2.2.1, ⟨rfl, rfl⟩, (hadd a).2.1, hfr a⟩
      | none =>
        obtain ⟨h1, h2, h3, h4⟩ := hnew none rfl
        exact ⟨_, h1, ⟨rfl, h2⟩, h3, h4⟩
      | name n =>
        obtain ⟨h1, h2, h3, h4⟩ := hnew (some n) rfl
        exact ⟨_, h1, ⟨rfl, h2⟩, h3, h4⟩

/-- One if `add_atom` makes a new atom. -/
def AtomSpec.fresh : AtomSpec → ℕ
  | .obj _ => 0
  | _ => 1

/-- The atom is the one asked for: the given object, or a new one with the given name (`A` if there
is none), weight 1, radius 0.2, no colour, and the number `i`. -/
def AtomFor {d : ℕ} (w : World d ℝ) (i : ℕ) (at' : Atom) : AtomSpec → Prop
  | .obj a => at' = a
  | .none => IsNew w i at' "A"
  | .name n => IsNew w i at' (if n = "" then "A" else n)
where
  /-- A new atom. -/
  IsNew (w : World d ℝ) (i : ℕ) (at' : Atom) (n : String) : Prop :=
    at'.name = n ∧ at'.index = i ∧ at'.weight = .num 1 ∧
      w.session.getItem at' "radius" = .ok (.num (1 / 5)) ∧
      w.session.getItem at' "color" = .ok .none ∧ w.session.len at' = 2

/-- The two atoms are the ones asked for; existing atoms are not changed. -/
def TwoAtoms {d : ℕ} (s : Session) (w : World d ℝ) (atom1 atom2 : AtomSpec) : Prop :=
  ∃ a1 a2, w.struct.atoms = [a1, a2] ∧ AtomFor w s.counter a1 atom1 ∧
    AtomFor w (s.counter + atom1.fresh) a2 atom2 ∧
    w.session.counter = s.counter + atom1.fresh + atom2.fresh ∧
    ∀ a : Atom, a.ref < s.dicts.length → w.session.params a = s.params a

theorem Gets.frame {s s' : Session} {at' : Atom} {atom : AtomSpec} (h : Gets s s' at' atom) :
    s'.counter = s.counter + atom.fresh ∧ s.dicts.length ≤ s'.dicts.length ∧
      ∀ a : Atom, a.ref < s.dicts.length → s'.params a = s.params a := by
  have hnew : ∀ n, (s.withNew n).counter = s.counter + 1 ∧
      s.dicts.length ≤ (s.withNew n).dicts.length ∧
      ∀ a : Atom, a.ref < s.dicts.length → (s.withNew n).params a = s.params a := by
    intro n
    refine ⟨rfl, by simp [Session.withNew], fun a ha => ?_⟩
    unfold Session.params Session.withNew
    dsimp only
    rw [List.getElem?_append_left ha]
  cases atom with
  | obj a =>
    obtain ⟨-, rfl⟩ := h
    exact ⟨rfl, le_refl _, fun _ _ => rfl⟩
  | none =>
    obtain ⟨-, rfl⟩ := h
    exact hnew _
  | name n =>
    obtain ⟨-, rfl⟩ := h
    exact hnew _

/-- What was asked for is still there after later calls. -/
theorem Gets.atomFor {d : ℕ} {s s' : Session} {at' : Atom} {atom : AtomSpec}
    (h : Gets s s' at' atom) {w : World d ℝ}
    (hk : ∀ a : Atom, a.ref < s'.dicts.length → w.session.params a = s'.params a) :
    AtomFor w s.counter at' atom := by
  have hnew : ∀ n, s' = s.withNew n → AtomFor.IsNew w s.counter
      ⟨s.counter, n, .num 1, s.dicts.length⟩ n := by
    rintro n rfl
    have hpar : w.session.params ⟨s.counter, n, .num 1, s.dicts.length⟩ =
        [("color", .none), ("radius", .num (1 / 5))] := by
      rw [hk _ (by simp [Session.withNew])]
      simp [Session.params, Session.withNew]
    refine ⟨rfl, rfl, rfl, ?_, ?_, ?_⟩
    · unfold Session.getItem
      rw [hpar]
      rfl
    · unfold Session.getItem
      rw [hpar]
      rfl
    · unfold Session.len
      rw [hpar]
      rfl
  cases atom with
  | obj a => exact h.1
  | none =>
    obtain ⟨rfl, h2⟩ := h
    exact hnew _ h2
  | name n =>
    obtain ⟨rfl, h2⟩ := h
    exact hnew _ h2

theorem twoAtoms_asked {d : ℕ} (hd : 0 < d) {env : Env ℝ} {s : Session}
    {b : Except PyErr (LatticeBasis d ℝ)} (hgood : ∀ b', b = .ok b' → (ofBasis b').Good)
    {l1 l2 : Option (List ℝ)} {atom1 atom2 : AtomSpec} {nb : ℕ} {w : World d ℝ}
    (h : configure env s b [.addAtom l1 atom1.arg false 0, .addAtom l2 atom2.arg false 0,
      .addConnections nb true] = .ok w) :
    TwoAtoms s w atom1 atom2 := by
  cases hb : b with
  | error e =>
    rw [hb] at h
    cases h
  | ok b' =>
    rw [hb] at h
    unfold configure at h
    dsimp only at h
    rw [calls] at h
    split at h
    · rename_i w1 hc1
      rw [calls] at h
      split at h
      · rename_i w2 hc2
        rw [calls] at h
        split at h
        · rename_i w3 hc3
          rw [calls] at h
          cases h
          obtain ⟨a1, e1, g1, hg1, hf1⟩ := addAtom_gets hd (hgood b' hb) rfl hc1
          obtain ⟨a2, e2, g2, hg2, -⟩ := addAtom_gets hd hg1 hf1 hc2
          obtain ⟨k1, k2⟩ := addConnections_frame hd env hg2 hc3
          obtain ⟨c1, c2, c3⟩ := g1.frame
          obtain ⟨f1, f2, f3⟩ := g2.frame
          refine ⟨a1, a2, ?_, g1.atomFor fun a ha => ?_, ?_, ?_, fun a ha => ?_⟩
          · rw [k2, e2, e1]
            rfl
          · rw [k1, f3 a ha]
          · have := g2.atomFor (w := w) fun a ha => by rw [k1]
            rwa [c1] at this
          · rw [k1, f1, c1]
          · rw [k1, f3 a (ha.trans_le c2), c3 a ha]
        · cases h
      · cases h
    · cases h

/-- C84: whenever `alternating_chain` or `nacl_structure` returns a lattice, its two atoms are the
ones asked for: the given objects or new ones with the given names, radius 0.2, weight 1 and no
colour; the atoms that existed before are not changed. -/
theorem C84_two_atoms (env : Env ℝ) (s : Session) (a x0 : ℝ) (atom1 atom2 : AtomSpec) (nb : ℕ) :
    (∀ w, alternatingChain env s a atom1 atom2 x0 nb = .ok w → TwoAtoms s w atom1 atom2) ∧
    (∀ w, naclStructure env s a atom1 atom2 nb = .ok w → TwoAtoms s w atom1 atom2) :=
  ⟨fun _ => twoAtoms_asked one_pos fun _ h => good_ofBasis h,
    fun _ => twoAtoms_asked three_pos fun _ h => good_ofBasis h⟩

/-- Rock salt with atoms `Na` and `Cl`. -/
example (env : Env ℝ) (s : Session) : ∃ w a1 a2,
    naclStructure env s 1 (.name "Na") (.name "Cl") 1 = .ok w ∧ w.struct.atoms = [a1, a2] ∧
    a1.name = "Na" ∧ a2.name = "Cl" ∧ a2.index = s.counter + 1 := by
  obtain ⟨w, h1, -⟩ := C84_nacl_partial env s 1 (by norm_num) (.name "Na") (.name "Cl")
  obtain ⟨a1, a2, h2, h3, h4, -⟩ := (C84_two_atoms env s 1 0 (.name "Na") (.name "Cl") 1).2 w h1
  exact ⟨w, a1, a2, h1, h2, by simpa using h3.1, by simpa using h4.1, h4.2.1⟩

end Lattpy
