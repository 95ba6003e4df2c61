import Verif.Lemmas.TextLines
import Verif.Props.LatticeState
import Verif.Props.PeriodicAxes
import Verif.Props.PresetBuild

/-!
# C109: what `==` of structures and lattices compares
-/

set_option autoImplicit false
set_option linter.unusedSectionVars false

namespace Lattpy

open Structure World Preset

variable {d : ℕ}

/-! ## spec -/

/-- A text that can be told apart in a line of texts separated by `; `. -/
def Plain (s : String) : Prop := s ≠ "" ∧ ';' ∉ s.toList ∧ '\n' ∉ s.toList

/-- Row `i` of the connections. -/
def connRow (c : ConnMatrix) (i : ℕ) : List ℕ := (List.range c.size).map (c.entry i)

/-- The texts of the vectors, atoms, positions and connections are plain. -/
structure PlainTexts (T : Lattice.TextEnv d ℝ) (w : World d ℝ) (c : ConnMatrix) : Prop where
  vectors : ∀ i, Plain (T.vec (w.struct.basis.vectors i))
  atoms : ∀ a ∈ w.struct.atoms, Plain (T.atom w.session a)
  positions : ∀ p ∈ w.struct.positions, Plain (T.vec p)
  connections : ∀ i < c.size, Plain (T.conn (connRow c i))

/-- The vectors, atoms, positions and connections of two structures are printed in the same way. -/
structure ReadsAlike (T : Lattice.TextEnv d ℝ) (w v : World d ℝ) (c c' : ConnMatrix) : Prop where
  vectors : ∀ i, T.vec (w.struct.basis.vectors i) = T.vec (v.struct.basis.vectors i)
  atoms : w.struct.atoms.map (T.atom w.session) = v.struct.atoms.map (T.atom v.session)
  positions : w.struct.positions.map T.vec = v.struct.positions.map T.vec
  size : c.size = c'.size
  connections : ∀ i < c.size, T.conn (connRow c i) = T.conn (connRow c' i)

/-! ## lemmas -/

theorem connLine_iff {T : Lattice.TextEnv d ℝ} {c c' : ConnMatrix} :
    ((List.range c.size).map fun i => T.conn ((List.range c.size).map (c.entry i))) =
      ((List.range c'.size).map fun i => T.conn ((List.range c'.size).map (c'.entry i))) ↔
    c.size = c'.size ∧ ∀ i < c.size, T.conn (connRow c i) = T.conn (connRow c' i) := by
  constructor
  · intro h
    have hs : c.size = c'.size := by simpa using congrArg List.length h
    refine ⟨hs, fun i hi => ?_⟩
    have := congrArg (fun l : List String => l[i]?) h
    simpa [hi, hs ▸ hi, connRow] using this
  · rintro ⟨hs, h⟩
    have e : (fun i => T.conn ((List.range c.size).map (c.entry i))) = fun i => T.conn (connRow c i) :=
      rfl
    have e' : (fun i => T.conn ((List.range c'.size).map (c'.entry i))) =
        fun i => T.conn (connRow c' i) := rfl
    rw [e, e', ← hs]
    exact List.map_congr_left fun i hi => h i (List.mem_range.1 hi)

theorem vecLine_iff {T : Lattice.TextEnv d ℝ} {b b' : LatticeBasis d ℝ} :
    ((List.finRange d).map fun i => T.vec (b.V · i)) =
      ((List.finRange d).map fun i => T.vec (b'.V · i)) ↔
    ∀ i, T.vec (b.vectors i) = T.vec (b'.vectors i) := by
  rw [List.map_inj_left]
  exact ⟨fun h i => h i (List.mem_finRange i), fun h i _ => h i⟩

theorem lines_plain {T : Lattice.TextEnv d ℝ} {w : World d ℝ} {c : ConnMatrix}
    (h : PlainTexts T w c) :
    (∀ x ∈ (List.finRange d).map fun i => T.vec (w.struct.basis.V · i), Plain x) ∧
    (∀ x ∈ w.struct.atoms.map (T.atom w.session), Plain x) ∧
    (∀ x ∈ w.struct.positions.map T.vec, Plain x) ∧
    (∀ x ∈ (List.range c.size).map fun i => T.conn ((List.range c.size).map (c.entry i)),
      Plain x) := by
  refine ⟨?_, ?_, ?_, ?_⟩ <;> intro x hx <;> obtain ⟨y, hy, rfl⟩ := List.mem_map.1 hx
  · exact h.vectors y
  · exact h.atoms y hy
  · exact h.positions y hy
  · exact h.connections y (List.mem_range.1 hy)

theorem lines_inj {keys : List String} (hk : ∀ k ∈ keys, '\n' ∉ k.toList) {xs ys : List (List String)}
    (hx : ∀ l ∈ xs, ∀ x ∈ l, Plain x) (hy : ∀ l ∈ ys, ∀ x ∈ l, Plain x)
    (h : "\n".intercalate (List.zipWith Lattice.dumpLine keys xs) =
      "\n".intercalate (List.zipWith Lattice.dumpLine keys ys)) :
    List.zipWith Lattice.dumpLine keys xs = List.zipWith Lattice.dumpLine keys ys := by
  have hp : ∀ zs : List (List String), (∀ l ∈ zs, ∀ x ∈ l, Plain x) →
      ∀ t ∈ List.zipWith Lattice.dumpLine keys zs, t ≠ "" ∧ '\n' ∉ t.toList := by
    intro zs hz t ht
    rw [← List.map_uncurry_zip_eq_zipWith] at ht
    obtain ⟨⟨k, l⟩, hkl, rfl⟩ := List.mem_map.1 ht
    obtain ⟨h1, h2⟩ := List.of_mem_zip hkl
    exact dumpLine_plain (hk k h1) fun x hx => (hz l h2 x hx).2.2
  exact string_join_inj (s := "\n") (c := '\n') (sep := []) rfl (hp xs hx) (hp ys hy) h

theorem plain_inj {key : String} {xs ys : List String} (hx : ∀ x ∈ xs, Plain x)
    (hy : ∀ y ∈ ys, Plain y) (h : Lattice.dumpLine key xs = Lattice.dumpLine key ys) : xs = ys :=
  dumpLine_inj (fun x h => ⟨(hx x h).1, (hx x h).2.1⟩) (fun x h => ⟨(hy x h).1, (hy x h).2.1⟩) h

theorem dumps_structure {T : Lattice.TextEnv d ℝ} {w : World d ℝ} {c : ConnMatrix}
    (hc : w.struct.conn = some c) : w.dumps T = .ok ("\n".intercalate
      (List.zipWith Lattice.dumpLine ["vectors", "atoms", "positions", "connections"]
        [(List.finRange d).map fun i => T.vec (w.struct.basis.V · i),
          w.struct.atoms.map (T.atom w.session), w.struct.positions.map T.vec,
          (List.range c.size).map fun i => T.conn ((List.range c.size).map (c.entry i))])) := by
  unfold World.dumps
  rw [hc]
  rfl

theorem dumps_lattice {T : Lattice.TextEnv d ℝ} {L : Lattice d ℝ} {c : ConnMatrix} {sh : Vec d ℝ}
    (hc : L.struct.conn = some c) (hs : L.shape = some sh) : L.dumps T = .ok ("\n".intercalate
      (List.zipWith Lattice.dumpLine ["vectors", "atoms", "positions", "connections", "shape"]
        [(List.finRange d).map fun i => T.vec (L.struct.basis.V · i),
          L.struct.atoms.map (T.atom L.world.session), L.struct.positions.map T.vec,
          (List.range c.size).map fun i => T.conn ((List.range c.size).map (c.entry i)),
          (List.finRange d).map fun k => T.num (sh k)])) := by
  unfold Lattice.dumps
  rw [hc, hs]
  rfl

/-! ## C109 -/

/-- C109: two structures are equal exactly if their vectors, atoms, positions and connections are
printed in the same way, provided the texts are plain and MD5 does not collide on the two texts. -/
theorem C109_structures_partial {T : Lattice.TextEnv d ℝ} {w v : World d ℝ} {c c' : ConnMatrix}
    (hw : w.struct.conn = some c) (hv : v.struct.conn = some c') (pw : PlainTexts T w c)
    (pv : PlainTexts T v c')
    (hmd5 : ∀ x y, w.dumps T = .ok x → v.dumps T = .ok y → T.md5 x = T.md5 y → x = y) :
    (w.eq T v = .ok true ↔ ReadsAlike T w v c c') ∧
    (w.eq T v = .ok false ↔ ¬ ReadsAlike T w v c c') := by
  have key : w.dumps T = v.dumps T ↔ ReadsAlike T w v c c' := by
    rw [dumps_structure hw, dumps_structure hv, Except.ok.injEq]
    obtain ⟨a1, a2, a3, a4⟩ := lines_plain pw
    obtain ⟨b1, b2, b3, b4⟩ := lines_plain pv
    constructor
    · intro h
      have h := lines_inj (by decide)
        (by simpa only [List.forall_mem_cons] using ⟨a1, a2, a3, a4, by simp⟩)
        (by simpa only [List.forall_mem_cons] using ⟨b1, b2, b3, b4, by simp⟩) h
      simp only [List.zipWith_cons_cons, List.zipWith_nil_left, List.cons.injEq, and_true] at h
      obtain ⟨h1, h2, h3, h4⟩ := h
      obtain ⟨h5, h6⟩ := connLine_iff.1 (plain_inj a4 b4 h4)
      exact ⟨vecLine_iff.1 (plain_inj a1 b1 h1), plain_inj a2 b2 h2, plain_inj a3 b3 h3, h5, h6⟩
    · intro h
      rw [vecLine_iff.2 h.vectors, h.atoms, h.positions, connLine_iff.2 ⟨h.size, h.connections⟩]
  have hx := dumps_structure (T := T) hw
  have hy := dumps_structure (T := T) hv
  generalize "\n".intercalate _ = x at hx
  generalize "\n".intercalate _ = y at hy
  have he : w.eq T v = .ok (decide (T.md5 x = T.md5 y)) := by
    unfold World.eq World.hash
    rw [hx, hy]
  rw [← key, he, hx, hy]
  have : T.md5 x = T.md5 y ↔ x = y := ⟨hmd5 x y hx hy, fun h => by rw [h]⟩
  simp [this]

/-- C109: two lattices that have been built are equal exactly if moreover their shapes are printed in
the same way.  The sites, the neighbours and the periodic axes do not matter. -/
theorem C109_lattices_partial {T : Lattice.TextEnv d ℝ} {L M : Lattice d ℝ} {c c' : ConnMatrix}
    {sh sh' : Vec d ℝ} (hw : L.struct.conn = some c) (hv : M.struct.conn = some c')
    (hs : L.shape = some sh) (hs' : M.shape = some sh') (pw : PlainTexts T L.world c)
    (pv : PlainTexts T M.world c') (ps : ∀ k, Plain (T.num (sh k)))
    (ps' : ∀ k, Plain (T.num (sh' k)))
    (hmd5 : ∀ x y, L.dumps T = .ok x → M.dumps T = .ok y → T.md5 x = T.md5 y → x = y) :
    (L.eq T M = .ok true ↔ ReadsAlike T L.world M.world c c' ∧
      ∀ k, T.num (sh k) = T.num (sh' k)) ∧
    (L.eq T M = .ok false ↔ ¬ (ReadsAlike T L.world M.world c c' ∧
      ∀ k, T.num (sh k) = T.num (sh' k))) := by
  have hsl : (∀ x ∈ (List.finRange d).map fun k => T.num (sh k), Plain x) := by
    intro x hx
    obtain ⟨y, -, rfl⟩ := List.mem_map.1 hx
    exact ps y
  have hsl' : (∀ x ∈ (List.finRange d).map fun k => T.num (sh' k), Plain x) := by
    intro x hx
    obtain ⟨y, -, rfl⟩ := List.mem_map.1 hx
    exact ps' y
  have hshape : ((List.finRange d).map fun k => T.num (sh k)) =
      ((List.finRange d).map fun k => T.num (sh' k)) ↔ ∀ k, T.num (sh k) = T.num (sh' k) := by
    rw [List.map_inj_left]
    exact ⟨fun h i => h i (List.mem_finRange i), fun h i _ => h i⟩
  have key : L.dumps T = M.dumps T ↔ ReadsAlike T L.world M.world c c' ∧
      ∀ k, T.num (sh k) = T.num (sh' k) := by
    rw [dumps_lattice hw hs, dumps_lattice hv hs', Except.ok.injEq]
    obtain ⟨a1, a2, a3, a4⟩ := lines_plain pw
    obtain ⟨b1, b2, b3, b4⟩ := lines_plain pv
    constructor
    · intro h
      have h := lines_inj (by decide)
        (by simpa only [List.forall_mem_cons] using ⟨a1, a2, a3, a4, hsl, by simp⟩)
        (by simpa only [List.forall_mem_cons] using ⟨b1, b2, b3, b4, hsl', by simp⟩) h
      simp only [List.zipWith_cons_cons, List.zipWith_nil_left, List.cons.injEq, and_true] at h
      obtain ⟨h1, h2, h3, h4, h7⟩ := h
      obtain ⟨h5, h6⟩ := connLine_iff.1 (plain_inj a4 b4 h4)
      exact ⟨⟨vecLine_iff.1 (plain_inj a1 b1 h1), plain_inj a2 b2 h2, plain_inj a3 b3 h3, h5, h6⟩,
        hshape.1 (plain_inj hsl hsl' h7)⟩
    · rintro ⟨h, h'⟩
      unfold Lattice.struct
      rw [vecLine_iff.2 h.vectors, h.atoms, h.positions, connLine_iff.2 ⟨h.size, h.connections⟩,
        hshape.2 h']
  have hx := dumps_lattice (T := T) hw hs
  have hy := dumps_lattice (T := T) hv hs'
  generalize "\n".intercalate _ = x at hx
  generalize "\n".intercalate _ = y at hy
  have he : L.eq T M = .ok (decide (T.md5 x = T.md5 y)) := by
    unfold Lattice.eq Lattice.hash
    rw [hx, hy]
  rw [← key, he, hx, hy]
  have : T.md5 x = T.md5 y ↔ x = y := ⟨hmd5 x y hx hy, fun h => by rw [h]⟩
  simp [this]

/-- C109, the text of an atom: the name and the creation number if all parameters are false, the
parameters that are not in between, and a parameter called `index` in the place of the creation
number. -/
theorem C109_atom_text (str : PyVal → String) (s : Session) (a : Atom) :
    ((∀ p ∈ s.params a, p.2.truthy = false) → s.attrParam a "index" = none →
      s.reprAtom str a = "Atom(" ++ a.name ++ ", " ++ Nat.repr a.index ++ ")") ∧
    (∀ k v, (s.params a).filter (fun p => p.2.truthy) = [(k, v)] → s.attrParam a "index" = none →
      s.reprAtom str a = "Atom(" ++ a.name ++ ", " ++ k ++ "=" ++ str v ++ ", " ++
        Nat.repr a.index ++ ")") ∧
    (∀ v, (s.params a).get? "index" = some v →
      ∃ t, s.reprAtom str a = "Atom(" ++ a.name ++ t ++ ", " ++ str v ++ ")") := by
  refine ⟨fun h1 h2 => ?_, fun k v h1 h2 => ?_, fun v h1 => ?_⟩
  · have : (s.params a).filter (fun p => p.2.truthy) = [] :=
      List.filter_eq_nil_iff.2 fun p hp => by simp [h1 p hp]
    unfold Session.reprAtom Session.indexText
    rw [this, h2]
    simp [String.append_assoc]
  · unfold Session.reprAtom Session.indexText
    rw [h1, h2]
    simp [String.append_assoc]
  · have h2 : s.attrParam a "index" = some v := by
      unfold Session.attrParam
      rw [h1]
      rfl
    unfold Session.reprAtom Session.indexText
    rw [h2]
    dsimp only
    split_ifs
    · exact ⟨"", by simp [String.append_assoc]⟩
    · generalize ", ".intercalate _ = t
      exact ⟨", " ++ t, by simp only [String.append_assoc]⟩

/-- Three atoms: without parameters, with a radius, with a parameter called `index`. -/
example :
    let s : Session := ⟨3, [[("color", .none)], [("color", .none), ("radius", .num 2)],
      [("index", .str "x")]], []⟩
    let str : PyVal → String := fun v => match v with | .str t => t | _ => "2"
    s.reprAtom str ⟨0, "A", .none, 0⟩ = "Atom(A, 0)" ∧
    s.reprAtom str ⟨1, "B", .none, 1⟩ = "Atom(B, radius=2, 1)" ∧
    s.reprAtom str ⟨2, "C", .none, 2⟩ = "Atom(C, index=x, x)" := by
  decide +kernel

/-- C109, structures without atoms have no text: `dumps`, `hash` and `==` (on either side) raise
`TypeError`. -/
theorem C109_atomless (T : Lattice.TextEnv d ℝ) {w v : World d ℝ} (h : w.struct.conn = none) :
    w.dumps T = .error .type ∧ w.hash T = .error .type ∧ w.eq T v = .error .type ∧
      v.eq T w = .error .type := by
  have h1 : w.dumps T = .error .type := by unfold World.dumps; rw [h]
  have h2 : w.hash T = .error .type := by unfold World.hash; rw [h1]
  have h3 : (∃ x, v.hash T = .ok x) ∨ v.hash T = .error .type := by
    unfold World.hash World.dumps
    cases v.struct.conn with
    | none => exact Or.inr rfl
    | some c => exact Or.inl ⟨_, rfl⟩
  refine ⟨h1, h2, by unfold World.eq; rw [h2], ?_⟩
  unfold World.eq
  rw [h2]
  rcases h3 with ⟨x, hx⟩ | hx <;> rw [hx]

example (s : Session) (b : LatticeBasis d ℝ) :
    (World.mk s (Structure.ofBasis b)).struct.conn = none := rfl

/-- C109: atoms are printed with their creation number (atom.py 155), so equal lattices consist of
atoms with the same creation numbers, in the same order. -/
theorem C109_atoms {T : Lattice.TextEnv d ℝ} {L M : Lattice d ℝ} {c c' : ConnMatrix}
    {sh sh' : Vec d ℝ} {str : PyVal → String} (hT : T.atom = Session.reprAtom str)
    (hw : L.struct.conn = some c) (hv : M.struct.conn = some c')
    (hs : L.shape = some sh) (hs' : M.shape = some sh') (pw : PlainTexts T L.world c)
    (pv : PlainTexts T M.world c') (ps : ∀ k, Plain (T.num (sh k)))
    (ps' : ∀ k, Plain (T.num (sh' k)))
    (hmd5 : ∀ x y, L.dumps T = .ok x → M.dumps T = .ok y → T.md5 x = T.md5 y → x = y)
    (hi : ∀ a ∈ L.struct.atoms, L.world.session.attrParam a "index" = none)
    (hi' : ∀ a ∈ M.struct.atoms, M.world.session.attrParam a "index" = none)
    (h : L.eq T M = .ok true) :
    L.struct.atoms.map Atom.index = M.struct.atoms.map Atom.index := by
  have hr := ((C109_lattices_partial hw hv hs hs' pw pv ps ps' hmd5).1.1 h).1.atoms
  rw [hT] at hr
  change L.struct.atoms.map _ = M.struct.atoms.map _ at hr
  generalize L.struct.atoms = l at *
  generalize M.struct.atoms = m at *
  induction l generalizing m with
  | nil =>
    cases m with
    | nil => rfl
    | cons b m => simp at hr
  | cons a l ih =>
    cases m with
    | nil => simp at hr
    | cons b m =>
      simp only [List.map_cons, List.cons.injEq] at hr ⊢
      exact ⟨reprAtom_index (hi a (by simp)) (hi' b (by simp)) hr.1,
        ih (fun a ha => hi a (List.mem_cons_of_mem _ ha)) m
          (fun a ha => hi' a (List.mem_cons_of_mem _ ha)) hr.2⟩

theorem newAtom_plain {str : PyVal → String} (hstr : Plain (str (.num (1 / 5)))) {s : Session}
    {a : Atom} (hn : Plain a.name)
    (hp : s.params a = [("color", .none), ("radius", .num (1 / 5))]) :
    Plain (s.reprAtom str a) ∧ s.attrParam a "index" = none := by
  have hi : s.attrParam a "index" = none := by
    unfold Session.attrParam
    rw [hp]
    rfl
  refine ⟨?_, hi⟩
  unfold Session.reprAtom Session.indexText
  rw [hi, hp]
  have hf : ([("color", PyVal.none), ("radius", PyVal.num (1 / 5))] : PyDict).filter
      (fun p => p.2.truthy) = [("radius", PyVal.num (1 / 5))] := by
    simp [PyVal.truthy]
  rw [hf]
  have he : ", ".intercalate ([("radius", PyVal.num (1 / 5))].map
      fun p : String × PyVal => p.1 ++ "=" ++ str p.2) = "radius=" ++ str (.num (1 / 5)) := by
    apply String.toList_inj.1
    simp
  dsimp only
  rw [he, if_neg (by
    intro h
    have := congrArg String.toList h
    simp at this)]
  have h1 := repr_digits a.index (c := ';') rfl
  have h2 := repr_digits a.index (c := '\n') rfl
  refine ⟨?_, ?_, ?_⟩
  · intro h
    have := congrArg String.toList h
    simp at this
  · have := hstr.2.1
    generalize str _ = t at *
    simp only [String.toList_append, List.mem_append, not_or]
    exact ⟨⟨⟨⟨by decide, ⟨hn.2.1, by decide⟩, by decide, this⟩, by decide⟩, h1⟩, by decide⟩
  · have := hstr.2.2
    generalize str _ = t at *
    simp only [String.toList_append, List.mem_append, not_or]
    exact ⟨⟨⟨⟨by decide, ⟨hn.2.2, by decide⟩, by decide, this⟩, by decide⟩, h2⟩, by decide⟩

/-- Creating the same chain twice in a session and building both with the same arguments gives
lattices that are not equal: the text of an atom ends with its creation number (atom.py 155), and the
second chain has another atom. -/
theorem C109_fresh_fails (env : Env ℝ) (s : Session) {T : Lattice.TextEnv 1 ℝ}
    {str : PyVal → String} (hT : T.atom = Session.reprAtom str) (hstr : Plain (str (.num (1 / 5))))
    (hvec : ∀ v, Plain (T.vec v)) (hconn : ∀ l, Plain (T.conn l)) (hnum : ∀ x, Plain (T.num x)) :
    ∃ (w v : World 1 ℝ) (L M : Lattice 1 ℝ),
      simpleChain env s 1 .none 1 = .ok w ∧ simpleChain env w.session 1 .none 1 = .ok v ∧
      (Lattice.ofWorld w).build env { shape := .size [5] true } = (L, .ok ()) ∧
      (Lattice.ofWorld v).build env { shape := .size [5] true } = (M, .ok ()) ∧
      ((∀ x y, L.dumps T = .ok x → M.dumps T = .ok y → T.md5 x = T.md5 y → x = y) →
        L.eq T M = .ok false) := by
  obtain ⟨w, hw, bw⟩ := (C108_boxes env s 1 (by norm_num) .none).1
  obtain ⟨v, hv, bv⟩ := (C108_boxes env w.session 1 (by norm_num) .none).1
  obtain ⟨L, -, hL, -⟩ := bw (fun _ => 5) true (by intro k; norm_num)
  obtain ⟨M, -, hM, -⟩ := bv (fun _ => 5) true (by intro k; norm_num)
  obtain ⟨a, a1, a2, a3, -, -, -, -, -, a4, a5⟩ := (C84_atoms env s 1 0 .none 1).1 w hw
  obtain ⟨b, b1, b2, b3, -, -, -, -, -, b4, b5⟩ := (C84_atoms env w.session 1 0 .none 1).1 v hv
  have hL' : (Lattice.ofWorld w).build env { shape := .size [5] true } = (L, .ok ()) := hL
  have hM' : (Lattice.ofWorld v).build env { shape := .size [5] true } = (M, .ok ()) := hM
  obtain ⟨-, -, D, lo, hi, -, -, -, -, eL⟩ := Lattice.build_ok rfl hL'
  obtain ⟨-, -, E, lo', hi', -, -, -, -, eM⟩ := Lattice.build_ok rfl hM'
  refine ⟨w, v, L, M, hw, hv, hL', hM', fun hcol => ?_⟩
  have hcw : ∃ c, w.struct.conn = some c := by
    obtain ⟨w', c, e1, -, e2, -⟩ := (C84_answers env s 1 0 0 .none .none 1).1.2.2 (by simp) one_pos
    rw [hw] at e1
    cases e1
    exact ⟨c, e2⟩
  have hcv : ∃ c, v.struct.conn = some c := by
    obtain ⟨w', c, e1, -, e2, -⟩ := (C84_answers env w.session 1 0 0 .none .none 1).1.2.2 (by simp)
      one_pos
    rw [hv] at e1
    cases e1
    exact ⟨c, e2⟩
  obtain ⟨c, hc⟩ := hcw
  obtain ⟨c', hc'⟩ := hcv
  have hA : Plain "A" := by unfold Plain; decide
  have pa := newAtom_plain hstr (a := a) (by rw [a2]; exact hA) a5
  have pb := newAtom_plain hstr (a := b) (by rw [b2]; exact hA) b5
  have wL : L.world = w := by rw [eL]; rfl
  have wM : M.world = v := by rw [eM]; rfl
  have sL : L.struct = w.struct := by unfold Lattice.struct; rw [wL]
  have sM : M.struct = v.struct := by unfold Lattice.struct; rw [wM]
  have pw : PlainTexts T L.world c := ⟨fun i => hvec _, by
    rw [wL, a1, hT]; simpa using pa.1, fun p _ => hvec _, fun i _ => hconn _⟩
  have pv : PlainTexts T M.world c' := ⟨fun i => hvec _, by
    rw [wM, b1, hT]; simpa using pb.1, fun p _ => hvec _, fun i _ => hconn _⟩
  have hcL : L.struct.conn = some c := by rw [sL, hc]
  have hcM : M.struct.conn = some c' := by rw [sM, hc']
  have hsL : L.shape = some fun k => hi k - lo k := by rw [eL]
  have hsM : M.shape = some fun k => hi' k - lo' k := by rw [eM]
  obtain ⟨k1, k2⟩ := C109_lattices_partial hcL hcM hsL hsM pw pv (fun _ => hnum _)
    (fun _ => hnum _) hcol
  refine k2.2 fun h => ?_
  have := C109_atoms hT hcL hcM hsL hsM pw pv (fun _ => hnum _) (fun _ => hnum _) hcol
    (by rw [sL, wL, a1]; simpa using pa.2) (by rw [sM, wM, b1]; simpa using pb.2) (k1.2 h)
  rw [sL, sM, a1, b1] at this
  simp only [List.map_cons, List.map_nil, List.cons.injEq, and_true] at this
  omega

/-- A built chain and the same chain after `set_periodic` are equal, although the neighbours of a
site differ. -/
theorem C109_periodic_fails (env : Env ℝ) (T : Lattice.TextEnv 1 ℝ) :
    ∃ (L L' : Lattice 1 ℝ), L.setPeriodic env (.axes [0]) = (L', .ok ()) ∧
      L.eq T L' = .ok true ∧ (∃ l, L.neighbors 0 none false = .ok l ∧ 5 ∉ l) ∧
      ∃ l, L'.neighbors 0 none false = .ok l ∧ 5 ∈ l := by
  obtain ⟨w, A, L, D, table, h⟩ := exists_isBuiltChain env Nat.one_pos (by norm_num) 5
    (fun _ => true) (by decide)
  obtain ⟨L', E, h1, h2, h3, -, -, h4, -⟩ := C64_ring_partial env (by norm_num) Nat.one_pos h
  have hf := Lattice.setPeriodic_frame env L (.axes [0])
  rw [h1] at hf
  obtain ⟨c, hc, -⟩ := h.conn
  have hL : L.struct.conn ≠ none ∧ L.shape ≠ none := by
    refine ⟨?_, h.shape⟩
    unfold Lattice.struct
    rw [h.world, hc]
    simp
  have hL' : L'.struct.conn ≠ none ∧ L'.shape ≠ none := by
    unfold Lattice.struct
    rw [show L'.world = L.world from hf.1, show L'.shape = L.shape from hf.2.1]
    exact hL
  refine ⟨L, L', h1, ((C72_equality_partial T hL).2 L' hL').2.2.1 ?_, ?_, ?_⟩
  · unfold Lattice.dumps Lattice.struct
    rw [show L'.world = L.world from hf.1, show L'.shape = L.shape from hf.2.1]
  · obtain ⟨l, g1, g2, -⟩ := h.neighbors (i := 0) (by decide)
    refine ⟨l, g1, ?_⟩
    rw [g2.mem_iff]
    decide
  · obtain ⟨l, g1, -, -, g2⟩ := h4 0 (by norm_num)
    exact ⟨l, g1, (g2 5).2 ⟨by norm_num, 1, by norm_num, by norm_num, Or.inr (by norm_num)⟩⟩

/-- Two chains of the same extent are equal, although one of them has a vacancy. -/
theorem C109_sites_fails (env : Env ℝ) (T : Lattice.TextEnv 1 ℝ) :
    ∃ (w : World 1 ℝ) (a b : BuildArgs 1 ℝ) (L M : Lattice 1 ℝ),
      (Lattice.ofWorld w).build env a = (L, .ok ()) ∧
      (Lattice.ofWorld w).build env b = (M, .ok ()) ∧
      L.numSites = 4 ∧ M.numSites = 3 ∧ L.eq T M = .ok true := by
  obtain ⟨w, A, h⟩ := exists_isBuiltChains env Nat.one_pos (nb := 1) (by norm_num)
  obtain ⟨L, D, table, hL⟩ := h 3 (fun _ => true) (by decide)
  obtain ⟨M, E, table', hM⟩ := h 3 (fun i => i != 1) (by decide)
  refine ⟨w, _, _, L, M, hL.build, hM.build, ?_, ?_, ?_⟩
  · unfold Lattice.numSites
    rw [hL.data]
    exact hL.numSites.trans (by decide)
  · unfold Lattice.numSites
    rw [hM.data]
    exact hM.numSites.trans (by decide)
  · obtain ⟨-, -, D', lo, hi, -, -, -, e1, eL⟩ := Lattice.build_ok rfl hL.build
    obtain ⟨-, -, E', lo', hi', -, -, -, e2, eM⟩ := Lattice.build_ok rfl hM.build
    have d1 := hL.data
    have d2 := hM.data
    rw [eL] at d1
    rw [eM] at d2
    cases d1
    cases d2
    have c1 : chainCells 3 (fun _ => true) = [0, 1, 2, 3] := by decide
    have c2 : chainCells 3 (fun i => i != 1) = [0, 2, 3] := by decide
    have p1 := hL.sites
    have p2 := hM.sites
    rw [c1] at p1
    rw [c2] at p2
    unfold LatticeData.getLimits at e1 e2
    rw [p1] at e1
    rw [p2] at e2
    simp only [List.map_cons, List.map_nil, List.foldl_cons, List.foldl_nil, Except.ok.injEq,
      Prod.mk.injEq] at e1 e2
    have hsh : L.shape = M.shape := by
      rw [eL, eM, ← e1.1, ← e1.2, ← e2.1, ← e2.2]
      norm_num
    obtain ⟨c, hc, -⟩ := hL.conn
    have hw : L.struct.conn ≠ none := by
      unfold Lattice.struct
      rw [hL.world, hc]
      simp
    have hw' : M.struct.conn ≠ none := by
      unfold Lattice.struct
      rw [hM.world, hc]
      simp
    refine ((C72_equality_partial T ⟨hw, hL.shape⟩).2 M ⟨hw', hM.shape⟩).2.2.1 ?_
    unfold Lattice.dumps Lattice.struct
    rw [hsh, hL.world, hM.world]

/-! ### examples -/

/-- Texts as numpy prints them for a chain, and an injective hash. -/
noncomputable def exampleText : Lattice.TextEnv 1 ℝ where
  vec v := if v 0 = 0 then "[0.]" else "[1.]"
  atom := Session.reprAtom fun _ => "0.2"
  conn l := if l = [1] then "[1]" else "[0]"
  num x := if x = 5 then "5.0" else "6.0"
  md5 t := Encodable.encode (t.toList.map Char.toNat)

theorem exampleText_plain : (∀ v, Plain (exampleText.vec v)) ∧ (∀ l, Plain (exampleText.conn l)) ∧
    ∀ x, Plain (exampleText.num x) := by
  refine ⟨fun v => ?_, fun l => ?_, fun x => ?_⟩ <;> unfold exampleText Plain <;> dsimp only <;>
    split_ifs <;> decide

theorem exampleText_md5 : Function.Injective exampleText.md5 := by
  intro x y h
  have h := Encodable.encode_injective h
  refine String.toList_inj.1 (List.map_injective_iff.2 (fun a b h => ?_) h)
  exact Char.toNat_inj.1 h

/-- Two chains made by the same calls: the texts are plain and MD5 does not collide, so the lattices
are unequal. -/
example (env : Env ℝ) (s : Session) : ∃ (w v : World 1 ℝ) (L M : Lattice 1 ℝ),
    simpleChain env s 1 .none 1 = .ok w ∧ simpleChain env w.session 1 .none 1 = .ok v ∧
    (Lattice.ofWorld w).build env { shape := .size [5] true } = (L, .ok ()) ∧
    (Lattice.ofWorld v).build env { shape := .size [5] true } = (M, .ok ()) ∧
    L.eq exampleText M = .ok false := by
  obtain ⟨h1, h2, h3⟩ := exampleText_plain
  obtain ⟨w, v, L, M, g1, g2, g3, g4, g5⟩ := C109_fresh_fails env s (T := exampleText)
    (str := fun _ => "0.2") rfl (by unfold Plain; decide) h1 h2 h3
  exact ⟨w, v, L, M, g1, g2, g3, g4, g5 fun x y _ _ h => exampleText_md5 h⟩

/-- Structures: a chain with the atom `Cu` in a session is printed like itself and equal to itself;
a chain with another atom object is not. -/
example (env : Env ℝ) (s : Session) : ∃ (w v : World 1 ℝ) (c c' : ConnMatrix),
    simpleChain env s 1 (.name "Cu") 1 = .ok w ∧
    simpleChain env w.session 1 (.name "Cu") 1 = .ok v ∧
    w.struct.conn = some c ∧ v.struct.conn = some c' ∧
    PlainTexts exampleText w c ∧ PlainTexts exampleText v c' ∧
    w.eq exampleText w = .ok true ∧ w.eq exampleText v = .ok false := by
  obtain ⟨h1, h2, h3⟩ := exampleText_plain
  obtain ⟨w, c, hw, -, hc, -⟩ := (C84_answers env s 1 0 0 (.name "Cu") .none 1).1.2.2 (by simp)
    one_pos
  obtain ⟨v, c', hv, -, hc', -⟩ := (C84_answers env w.session 1 0 0 (.name "Cu") .none 1).1.2.2
    (by simp) one_pos
  obtain ⟨a, a1, a2, a3, -, -, -, -, -, a4, a5⟩ := (C84_atoms env s 1 0 (.name "Cu") 1).1 w hw
  obtain ⟨b, b1, b2, b3, -, -, -, -, -, b4, b5⟩ :=
    (C84_atoms env w.session 1 0 (.name "Cu") 1).1 v hv
  have hA : Plain "Cu" := by unfold Plain; decide
  have hs : Plain ((fun _ : PyVal => "0.2") (.num (1 / 5))) := by unfold Plain; decide
  have pa := newAtom_plain (str := fun _ => "0.2") hs (a := a) (by rw [a2, if_neg (by simp)]; exact hA) a5
  have pb := newAtom_plain (str := fun _ => "0.2") hs (a := b) (by rw [b2, if_neg (by simp)]; exact hA) b5
  have pw : PlainTexts exampleText w c := ⟨fun i => h1 _, by
    rw [a1]
    intro x hx
    rw [List.mem_singleton.1 hx]
    exact pa.1, fun p _ => h1 _, fun i _ => h2 _⟩
  have pv : PlainTexts exampleText v c' := ⟨fun i => h1 _, by
    rw [b1]
    intro x hx
    rw [List.mem_singleton.1 hx]
    exact pb.1, fun p _ => h1 _, fun i _ => h2 _⟩
  refine ⟨w, v, c, c', hw, hv, hc, hc', pw, pv,
    (C109_structures_partial hc hc pw pw fun x y _ _ h => exampleText_md5 h).1.2
      ⟨fun _ => rfl, rfl, rfl, rfl, fun _ _ => rfl⟩,
    (C109_structures_partial hc hc' pw pv fun x y _ _ h => exampleText_md5 h).2.2 fun h => ?_⟩
  have := h.atoms
  rw [a1, b1] at this
  simp only [List.map_cons, List.map_nil, List.cons.injEq, and_true] at this
  have he : w.session.reprAtom (fun _ => "0.2") a = v.session.reprAtom (fun _ => "0.2") b := this
  have := reprAtom_index pa.2 pb.2 he
  omega

end Lattpy
