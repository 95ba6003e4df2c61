import Verif.Model.BaseAtoms
import Verif.Props.FourierPresets

/-!
# C89: the positions of the base atoms by atom
-/

set_option linter.unusedSectionVars false

namespace Lattpy
open Structure Preset
variable {d : ℕ}

/-- What the dictionary should contain: one key for every name, the first atom with it, and under
it the positions of all atoms with the name in the order of the atoms. -/
structure GroupsByName (atoms : List Atom) (positions : List (Vec d ℝ)) (D : AtomDict d ℝ) : Prop where
  names : (D.map fun e => e.1.name).Nodup
  complete : ∀ a ∈ atoms, a.name ∈ D.map fun e => e.1.name
  first : ∀ e ∈ D, atoms.find? (fun a => decide (a.name = e.1.name)) = some e.1
  entries : ∀ e ∈ D, e.2 = (((atoms.zip positions).filter fun x =>
    decide (x.1.name = e.1.name)).map fun x => BaseEntry.pos x.2)

theorem hasName_iff (D : AtomDict d ℝ) (n : String) :
    D.hasName (.str n) = true ↔ n ∈ D.map fun e => e.1.name := by
  simp [AtomDict.hasName, Session.eqStr]

theorem find_names {h : String → ℤ} {s : Session} {D : AtomDict d ℝ} {b : Atom}
    (hD : ∀ e ∈ D, "is_identical" ∉ s.iter e.1) (hb : s.nameAttr b = .str b.name) :
    D.find h s b = .ok (D.findIdx? fun e => decide (e.1.name = b.name)) := by
  unfold AtomDict.find
  apply findFirst_ok
  intro e he
  rw [Session.same_of_no_method (hD e he), hb]
  unfold Session.hash
  by_cases hn : e.1.name = b.name
  · simp [hn]
  · have : e.1 ≠ b := fun h => hn (by rw [h])
    split_ifs
    · simp [hn, this]
    · simp [hn]

theorem groups_step {h : String → ℤ} {s : Session} {strict atleast2d : Bool}
    {atoms : List Atom} {ps : List (Vec d ℝ)} {D : AtomDict d ℝ} (hlen : atoms.length = ps.length)
    (hD : GroupsByName atoms ps D) {a : Atom} {p : Vec d ℝ} (hb : s.nameAttr a = .str a.name)
    (hid : ∀ a ∈ atoms, "is_identical" ∉ s.iter a) (h2 : ¬ (atleast2d = true ∧ d = 1)) :
    ∃ D', atomDictStep h s strict atleast2d D (a, p) = .ok D' ∧
      GroupsByName (atoms ++ [a]) (ps ++ [p]) D' := by
  have he : atomEntry strict atleast2d p = .ok (.pos p) := by
    unfold atomEntry
    rw [if_neg (by simpa using h2)]
  have hzip : (atoms ++ [a]).zip (ps ++ [p]) = atoms.zip ps ++ [(a, p)] := by
    rw [List.zip_append hlen]
    rfl
  have hid' : ∀ e ∈ D, "is_identical" ∉ s.iter e.1 := fun e he =>
    hid _ (List.mem_of_find?_eq_some (hD.first e he))
  unfold atomDictStep
  rw [he]
  dsimp only
  rw [hb]
  by_cases hin : a.name ∈ D.map fun e => e.1.name
  · rw [if_pos ((hasName_iff D _).2 hin)]
    unfold AtomDict.append
    rw [find_names hid' hb]
    cases hf : D.findIdx? fun e => decide (e.1.name = a.name) with
    | none =>
      rw [List.findIdx?_eq_none_iff] at hf
      obtain ⟨e, he, hn⟩ := List.mem_map.1 hin
      simpa [hn] using hf e he
    | some i =>
      rw [List.findIdx?_eq_some_iff_getElem] at hf
      obtain ⟨hi, hn, -⟩ := hf
      have hn : D[i].1.name = a.name := by simpa using hn
      refine ⟨_, rfl, ?_⟩
      set D' := D.modify i fun e => (e.1, e.2 ++ [BaseEntry.pos p]) with hD'
      have hget : ∀ j : ℕ, D'[j]? =
          (D[j]?).map fun e => if i = j then (e.1, e.2 ++ [BaseEntry.pos p]) else e := by
        intro j
        rw [hD', List.getElem?_modify]
        rfl
      have hnames : (D'.map fun e => e.1.name) = D.map fun e => e.1.name := by
        apply List.ext_getElem?
        intro j
        rw [List.getElem?_map, List.getElem?_map, hget, Option.map_map]
        congr 1
        funext e
        simp only [Function.comp_apply]
        split_ifs <;> rfl
      have hcase : ∀ e' ∈ D', (∃ e ∈ D, e.1.name = a.name ∧ e' = (e.1, e.2 ++ [BaseEntry.pos p])) ∨
          (e' ∈ D ∧ e'.1.name ≠ a.name) := by
        intro e' he'
        obtain ⟨j, hj⟩ := List.getElem?_of_mem he'
        rw [hget] at hj
        obtain ⟨e, hej, rfl⟩ := Option.map_eq_some_iff.1 hj
        have hmem := List.mem_of_getElem? hej
        by_cases hij : i = j
        · subst hij
          left
          refine ⟨e, hmem, ?_, by rw [if_pos rfl]⟩
          rw [List.getElem?_eq_getElem hi] at hej
          cases hej
          exact hn
        · right
          rw [if_neg hij]
          refine ⟨hmem, fun hne => hij ?_⟩
          obtain ⟨hjl, hje⟩ := List.getElem?_eq_some_iff.1 hej
          have h1 : (D.map fun e => e.1.name)[i]'(by simpa using hi) =
              (D.map fun e => e.1.name)[j]'(by simpa using hjl) := by
            simp [hn, hje, hne]
          exact (hD.names.getElem_inj_iff).1 h1
      refine ⟨?_, ?_, ?_, ?_⟩
      · rw [hnames]
        exact hD.names
      · intro b hb'
        rw [hnames]
        rcases List.mem_append.1 hb' with hb' | hb'
        · exact hD.complete b hb'
        · rw [List.mem_singleton.1 hb']
          exact hin
      · intro e' he'
        rcases hcase e' he' with ⟨e, hem, hen, rfl⟩ | ⟨hem, -⟩
        · rw [List.find?_append, hD.first e hem]
          rfl
        · rw [List.find?_append, hD.first e' hem]
          rfl
      · intro e' he'
        rw [hzip, List.filter_append, List.map_append]
        rcases hcase e' he' with ⟨e, hem, hen, rfl⟩ | ⟨hem, hen⟩
        · dsimp only
          rw [hD.entries e hem]
          simp [hen]
        · rw [← hD.entries e' hem]
          simp [Ne.symm hen]
  · rw [if_neg (by rw [hasName_iff]; exact hin)]
    have hno : ∀ e ∈ D, e.1.name ≠ a.name := by
      intro e he hn
      exact hin (List.mem_map.2 ⟨e, he, hn⟩)
    have hass : D.assign h s a (.pos p) = .ok (D ++ [(a, [.pos p])]) := by
      unfold AtomDict.assign
      rw [find_names hid' hb, List.findIdx?_eq_none_iff.2 (by intro e he; simpa using hno e he)]
    have hnot : ∀ b ∈ atoms, b.name ≠ a.name := by
      intro b hb' hn
      exact hin (hn ▸ hD.complete b hb')
    rw [hass]
    refine ⟨_, rfl, ?_⟩
    refine ⟨?_, ?_, ?_, ?_⟩
    · rw [List.map_append, List.nodup_append]
      refine ⟨hD.names, by simp, ?_⟩
      intro n hn m hm
      rw [List.map_singleton, List.mem_singleton] at hm
      rintro rfl
      exact hin (hm ▸ hn)
    · intro b hb'
      rw [List.map_append]
      rcases List.mem_append.1 hb' with hb' | hb'
      · exact List.mem_append_left _ (hD.complete b hb')
      · rw [List.mem_singleton.1 hb']
        simp
    · intro e he
      rw [List.find?_append]
      rcases List.mem_append.1 he with he | he
      · rw [hD.first e he]
        rfl
      · rw [List.mem_singleton.1 he]
        have : atoms.find? (fun x => decide (x.name = a.name)) = none := by
          rw [List.find?_eq_none]
          intro b hb'
          simpa using hnot b hb'
        dsimp only
        rw [this]
        simp
    · intro e he
      rw [hzip, List.filter_append, List.map_append]
      rcases List.mem_append.1 he with he | he
      · rw [← hD.entries e he]
        simp [Ne.symm (hno e he)]
      · rw [List.mem_singleton.1 he]
        have : (atoms.zip ps).filter (fun x => decide (x.1.name = a.name)) = [] := by
          rw [List.filter_eq_nil_iff]
          intro x hx
          simpa using hnot x.1 (List.of_mem_zip hx).1
        dsimp only
        rw [this]
        simp

theorem groups_all (h : String → ℤ) (s : Session) (strict atleast2d : Bool) (atoms : List Atom)
    (ps : List (Vec d ℝ)) (hlen : atoms.length = ps.length)
    (hname : ∀ a ∈ atoms, s.nameAttr a = .str a.name)
    (hid : ∀ a ∈ atoms, "is_identical" ∉ s.iter a) (h2 : ¬ (atleast2d = true ∧ d = 1)) :
    ∃ D, (atoms.zip ps).foldlM (atomDictStep h s strict atleast2d) [] = .ok D ∧
      GroupsByName atoms ps D := by
  induction atoms using List.reverseRecOn generalizing ps with
  | nil =>
    refine ⟨[], rfl, ?_⟩
    constructor <;> simp
  | append_singleton atoms a ih =>
    obtain ⟨ps, p, rfl⟩ : ∃ ps' p, ps = ps' ++ [p] := by
      have : ps ≠ [] := by
        rintro rfl
        simp at hlen
      exact ⟨ps.dropLast, ps.getLast this, (List.dropLast_append_getLast this).symm⟩
    have hl : atoms.length = ps.length := by simpa using hlen
    obtain ⟨D, h3, h4⟩ := ih ps hl (fun a ha => hname a (List.mem_append_left _ ha))
      fun a ha => hid a (List.mem_append_left _ ha)
    obtain ⟨D', h5, h6⟩ := groups_step (h := h) (strict := strict) (p := p) hl h4
      (hname a (by simp)) (fun a ha => hid a (List.mem_append_left _ ha)) h2
    refine ⟨D', ?_, h6⟩
    rw [List.zip_append hl, List.foldlM_append, h3]
    change List.foldlM (atomDictStep h s strict atleast2d) D [(a, p)] = _
    rw [List.foldlM_cons, h5]
    rfl

/-- C89 for atoms without a parameter called `name` or `is_identical`, in two and more dimensions or without
`atleast2d`.  The atoms of the cell are those with a position. -/
theorem C89_groups_partial (hd : 0 < d) {env : Env ℝ} {w : World d ℝ} (hr : Reachable env w)
    (h : String → ℤ) (strict atleast2d : Bool)
    (hname : ∀ a ∈ w.struct.atoms, w.session.nameAttr a = .str a.name)
    (hid : ∀ a ∈ w.struct.atoms, "is_identical" ∉ w.session.iter a)
    (h2 : ¬ (atleast2d = true ∧ d = 1)) :
    ∃ D, w.struct.baseAtomDict h w.session strict atleast2d = .ok D ∧
      GroupsByName (w.struct.atoms.take w.struct.positions.length) w.struct.positions D := by
  have hS := hr.good hd
  have hge := hS.atoms_ge
  rw [← hS.positions_length] at hge
  have hz : w.struct.atoms.zip w.struct.positions =
      (w.struct.atoms.take w.struct.positions.length).zip w.struct.positions := by
    conv_lhs => rw [← List.take_append_drop w.struct.positions.length w.struct.atoms]
    conv_lhs => rw [← List.append_nil w.struct.positions]
    rw [List.zip_append (by simp [hge])]
    simp
  unfold baseAtomDict
  rw [hz]
  refine groups_all h w.session strict atleast2d _ _ (by simp [hge]) ?_ ?_ h2
  · exact fun a ha => hname a (List.mem_of_mem_take ha)
  · exact fun a ha => hid a (List.mem_of_mem_take ha)

/-- The hypotheses are met, and both atoms of the honeycomb lattice are under one key. -/
example (env : Env ℝ) (h : String → ℤ) (a : Atom) : ∃ (w : World 2 ℝ) (D : AtomDict 2 ℝ),
    Reachable env w ∧ w.struct.atoms = [a, a] ∧
    w.struct.baseAtomDict h w.session true true = .ok D ∧
    D = [(a, [.pos ![0, 0], .pos ![1, 0]])] := by
  obtain ⟨b, hb⟩ := (LatticeBasis.init_eq_ok_iff (1 : Matrix (Fin 2) (Fin 2) ℝ)).2 (by simp)
  obtain ⟨w, c, cells, A, h1, hC, hat, hses, -⟩ := configure_pair two_pos env ⟨0, [], []⟩ hb
    a a (p1 := ![0, 0]) (p2 := ![1, 0])
    (by intro h; have := congrFun h 0; simp at this)
    (atomPos_two b 0 0) (atomPos_two b 1 0) (.num 0) (.num 1) (by intro S _; exact ⟨rfl, rfl⟩)
  have hr := configure_reachable h1
  obtain ⟨D, h2, h3⟩ := C89_groups_partial two_pos hr h true true (by
    intro a _
    rw [hses]
    rfl) (by
    intro a _
    rw [hses]
    simp [Session.iter, Session.params, PyDict.keys]) (by simp)
  refine ⟨w, D, hr, hat, h2, ?_⟩
  rw [hat, hC.positions] at h3
  obtain ⟨e, he, hn⟩ := List.mem_map.1 (h3.complete a (by simp))
  have hall : ∀ e ∈ D, e = (a, [.pos ![0, 0], .pos ![1, 0]]) := by
    intro e he
    have h4 := h3.first e he
    have h5 := h3.entries e he
    have hname : a.name = e.1.name ∧ a = e.1 := by
      simp [List.find?_cons] at h4
      split at h4
      · rename_i hh
        cases h4
        simp
      · simp at h4
    rw [← hname.2] at h5
    ext1
    · exact hname.2.symm
    · simpa using h5
  match D, hall, he, h3.names with
  | [x], hall, _, _ => rw [hall x (by simp)]
  | x :: y :: D, hall, _, hnd =>
    rw [hall x (by simp), hall y (by simp)] at hnd
    simp at hnd

/-- C89 fails in one dimension with the default arguments: `np.array([pos, 0])` is ragged because
`pos` is already an array (structure.py 908-909).  NumPy 1.24 and later raise a `ValueError` for
every lattice with at least one atom; with older versions no entry is a vector of two numbers. -/
theorem C89_one_dimension_fails (env : Env ℝ) (h : String → ℤ) (s : Session) :
    ∃ w : World 1 ℝ, Reachable env w ∧ w.struct.positions = [0] ∧
      w.struct.baseAtomDict h w.session true true = .error .value ∧
      ∃ a, w.struct.baseAtomDict h w.session false true = .ok [(a, [.ragged 0])] := by
  obtain ⟨b, hb⟩ := (LatticeBasis.init_eq_ok_iff (1 : Matrix (Fin 1) (Fin 1) ℝ)).2 (by simp)
  obtain ⟨w, c, cells, A, h1, hC, -⟩ := configure_oneAtom Nat.one_pos env s hb .none one_pos
  have hr := configure_reachable h1
  have hS := hr.good Nat.one_pos
  have hp : w.struct.positions = [0] := hC.positions
  have hlen : 1 ≤ w.struct.atoms.length := by
    have := hS.atoms_ge
    rw [← hS.positions_length, hp] at this
    exact this
  obtain ⟨a, as, ha⟩ := List.exists_cons_of_length_pos hlen
  have hz : w.struct.atoms.zip w.struct.positions = [(a, 0)] := by
    rw [ha, hp]
    simp
  refine ⟨w, hr, hp, ?_, a, ?_⟩
  · unfold baseAtomDict
    rw [hz]
    rfl
  · unfold baseAtomDict
    rw [hz]
    cases hv : w.session.nameAttr a <;>
      simp [atomDictStep, atomEntry, hv, AtomDict.hasName, AtomDict.assign, AtomDict.find,
        findFirst]

/-- C89 fails if an atom has a parameter called `name`: the membership test of line 911 uses the
attribute `atom.name`, which answers with the parameter, the access of line 912 uses the name the
atom was created with.  With the atoms `A` and `B` and `B["name"] = "A"` the call raises a
`KeyError`. -/
theorem C89_name_parameter_fails (env : Env ℝ) :
    ∃ (w : World 2 ℝ) (a b : Atom), Reachable env w ∧ w.struct.atoms = [a, b] ∧ a.name = "A" ∧
      b.name = "B" ∧ w.struct.positions = [![0, 0], ![1, 0]] ∧
      ∀ (h : String → ℤ) (strict atleast2d : Bool), h "A" ≠ h "B" →
        w.struct.baseAtomDict h w.session strict atleast2d = .error .key := by
  obtain ⟨b, hb⟩ := (LatticeBasis.init_eq_ok_iff (1 : Matrix (Fin 2) (Fin 2) ℝ)).2 (by simp)
  set s : Session := ⟨2, [[], [("name", .str "A")]], []⟩ with hs
  obtain ⟨w, c, cells, A, h1, hC, hat, hses, -⟩ := configure_pair two_pos env s hb
    ⟨0, "A", .num 1, 0⟩ ⟨1, "B", .num 1, 1⟩ (p1 := ![0, 0]) (p2 := ![1, 0])
    (by intro h; have := congrFun h 0; simp at this)
    (atomPos_two b 0 0) (atomPos_two b 1 0) (.num 0) (.num 1) (by intro S _; exact ⟨rfl, rfl⟩)
  refine ⟨w, _, _, configure_reachable h1, hat, rfl, rfl, hC.positions, ?_⟩
  intro h strict atleast2d hh
  have hp := hC.positions
  have e1 : ∀ p, atomEntry strict atleast2d (p : Vec 2 ℝ) = .ok (.pos p) := by
    intro p
    simp [atomEntry]
  have s1 : atomDictStep h s strict atleast2d [] (⟨0, "A", .num 1, 0⟩, (![0, 0] : Vec 2 ℝ)) =
      .ok [(⟨0, "A", .num 1, 0⟩, [.pos ![0, 0]])] := by
    unfold atomDictStep
    rw [e1]
    rfl
  have s2 : atomDictStep h s strict atleast2d [(⟨0, "A", .num 1, 0⟩, [.pos ![0, 0]])]
      (⟨1, "B", .num 1, 1⟩, (![1, 0] : Vec 2 ℝ)) = .error .key := by
    unfold atomDictStep
    rw [e1]
    dsimp only
    rw [if_pos (by rfl)]
    unfold AtomDict.append AtomDict.find
    simp [Session.hash, hh, findFirst]
  unfold baseAtomDict
  rw [hp, hat, hses]
  change List.foldlM (atomDictStep h s strict atleast2d) [] [(_, _), (_, _)] = _
  rw [List.foldlM_cons, s1]
  change List.foldlM (atomDictStep h s strict atleast2d) _ [(_, _)] = _
  rw [List.foldlM_cons, s2]
  rfl

end Lattpy
