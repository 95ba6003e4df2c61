import Verif.Lemmas.Atom

/-!
# Properties C24-C26: atoms

`run ops` is the state of a session after an arbitrary history of creating, copying and
modifying atoms.
-/

set_option autoImplicit false

namespace Lattpy

open Session

/-! ## C24 equality and hashing -/

/-- C24, restricted to atoms without a parameter called `name` or `is_identical`: comparing never
raises, equality is reflexive, symmetric, transitive and implies equal hashes (for every hash function
of strings). -/
theorem C24_atom_equality_partial (s : Session) (a b c : Atom)
    (ha : "name" ∉ s.iter a) (hb : "name" ∉ s.iter b) (hc : "name" ∉ s.iter c)
    (ha' : "is_identical" ∉ s.iter a) (hb' : "is_identical" ∉ s.iter b) :
    s.eq a a = .ok true ∧ (∃ r, s.eq a b = .ok r) ∧ s.eq a b = s.eq b a ∧
    (s.eq a b = .ok true → s.eq b c = .ok true → s.eq a c = .ok true) ∧
    ∀ h : String → ℤ, s.eq a b = .ok true → Session.hash h a = Session.hash h b := by
  have key : ∀ x : Atom, "name" ∉ s.iter x → s.nameAttr x = .str x.name := by
    intro x hx
    unfold iter at hx
    rw [PyDict.mem_keys] at hx
    unfold nameAttr
    cases h : (s.params x).get? "name" with
    | none => rfl
    | some v => simp [h] at hx
  simp only [eq_of_no_method ha', eq_of_no_method hb', key a ha, key b hb, key c hc, PyVal.str.injEq,
    Except.ok.injEq, decide_eq_true_eq, true_and]
  refine ⟨⟨_, rfl⟩, by simp [eq_comm], fun h1 h2 => h1.trans h2, ?_⟩
  intro h e
  simp [Session.hash, e]

/-- C24: an atom equals exactly the strings that are its name, and then has their hash. -/
theorem C24_atom_equals_name (h : String → ℤ) (a : Atom) (n : String) :
    (eqStr a n = true ↔ a.name = n) ∧ (eqStr a n = true → Session.hash h a = h n) := by
  constructor
  · simp [eqStr]
  · intro e
    simp [eqStr] at e
    simp [Session.hash, e]

example : "name" ∉ (run [.create (some "B") .none .none (.num 1) []]).iter ⟨0, "B", .num 1, 0⟩ ∧
    "is_identical" ∉ (run [.create (some "B") .none .none (.num 1) []]).iter ⟨0, "B", .num 1, 0⟩ := by
  decide +kernel

/-- C24 fails with a parameter called `name`: after `b["name"] = "A"` the atoms `A` and `B`
satisfy `a == b` but not `b == a`, nor `b == b`, and their hashes differ for every hash
function distinguishing the two names. -/
theorem C24_atom_equality_fails :
    ∃ (s : Session) (a b : Atom), s = run [.create (some "A") .none .none (.num 1) [],
        .create (some "B") .none .none (.num 1) [], .setItem 1 "name" (.str "A")] ∧
      s.atoms = [a, b] ∧ s.eq a b = .ok true ∧ s.eq b a = .ok false ∧ s.eq b b = .ok false ∧
      ∀ h : String → ℤ, h "A" ≠ h "B" → Session.hash h a ≠ Session.hash h b :=
  ⟨_, ⟨0, "A", .num 1, 0⟩, ⟨1, "B", .num 1, 1⟩, rfl, by decide +kernel, by rfl, by rfl, by rfl,
    fun _ hh => hh⟩

/-- C24 fails with a parameter called `is_identical`: it hides the method that compares the names
(atom.py 146), so comparing the atom with any atom, also with itself, raises `TypeError`. -/
theorem C24_method_fails (v : PyVal) :
    ∃ (s : Session) (a : Atom), s = run [.create (some "A") .none .none (.num 1) [],
        .setItem 0 "is_identical" v] ∧ s.atoms = [a] ∧ ∀ b, s.eq a b = .error .type :=
  ⟨_, ⟨0, "A", .num 1, 0⟩, rfl, rfl, fun _ => rfl⟩

/-! ## C25 parameters -/

/-- C25: after setting a parameter of an atom, in any reachable session: it reads back as item,
and via `get` unless a parameter called `get` hides that method; no other parameter of this
and no parameter of any other atom changes; a new key comes last in the iteration, an
existing one keeps its place. -/
theorem C25_set_item (ops : List Op) (a : Atom) (ha : a ∈ (run ops).atoms) (key : String)
    (v : PyVal) :
    let s := run ops
    let t := s.setItem a key v
    t.getItem a key = .ok v ∧
    (∀ default, t.attrParam a "get" = none → t.get a key default = .ok v) ∧
    (∀ key', key' ≠ key → t.getItem a key' = s.getItem a key') ∧
    (∀ b ∈ s.atoms, b ≠ a → t.params b = s.params b) ∧
    t.iter a = (if key ∈ s.iter a then s.iter a else s.iter a ++ [key]) ∧
    t.atoms = s.atoms := by
  intro s t
  have hw := wf_run ops
  have hp : t.params a = (s.params a).set key v := params_setParams hw ha _
  have h1 : t.getItem a key = .ok v := by
    simp [getItem, hp, PyDict.get?_set_self]
  refine ⟨h1, ?_, ?_, ?_, ?_, rfl⟩
  · intro default hg
    simp [Session.get, hg, h1]
  · intro key' hne
    simp only [getItem, hp, PyDict.get?_set_ne _ _ _ _ hne]
  · intro b hb hba
    exact params_setParams_ne hw ha hb hba _
  · simp only [iter, hp, PyDict.keys_set]
    by_cases h : key ∈ (s.params a).keys <;> simp [h]

/-- C25, restricted to keys not starting with an underscore: a parameter that was set also
reads back as attribute, and an existing parameter can be set by attribute. -/
theorem C25_attribute_partial (ops : List Op) (a : Atom) (ha : a ∈ (run ops).atoms) (key : String)
    (v : PyVal) (hkey : isPrivate key = false) :
    ((run ops).setItem a key v).attrParam a key = some v ∧
    (key ∈ (run ops).iter a → (run ops).setAttr a key v = .ok ((run ops).setItem a key v)) ∧
    (key ∉ (run ops).iter a → (run ops).setAttr a key v = .error .attribute) := by
  have hp : ((run ops).setItem a key v).params a = ((run ops).params a).set key v :=
    params_setParams (wf_run ops) ha _
  refine ⟨?_, ?_, ?_⟩
  · simp [attrParam, hkey, hp, PyDict.get?_set_self]
  · intro h
    rw [iter, PyDict.mem_keys] at h
    simp [setAttr, hkey, h]
  · intro h
    rw [iter, PyDict.mem_keys] at h
    simp only [setAttr, hkey, h]
    rfl

/-- C25 fails for keys starting with an underscore: `a["_x"] = 1` is not visible as
attribute. -/
theorem C25_attribute_fails (s : Session) (a : Atom) (v : PyVal) :
    (s.setItem a "_x" v).attrParam a "_x" = none := by
  have : isPrivate "_x" = true := by decide +kernel
  simp [attrParam, this]

/-- C25: deleting removes exactly that key: reading it afterwards raises `KeyError` and `get`
returns the default, the other keys keep value and order; deleting a missing key raises
`KeyError`. -/
theorem C25_delete (ops : List Op) (a : Atom) (ha : a ∈ (run ops).atoms) (key : String) :
    let s := run ops
    (key ∉ s.iter a → s.delItem a key = .error .key) ∧
    (key ∈ s.iter a → ∃ t, s.delItem a key = .ok t ∧
      t.getItem a key = .error .key ∧
      (∀ default, t.attrParam a "get" = none → t.get a key default = .ok default) ∧
      (∀ key', key' ≠ key → t.getItem a key' = s.getItem a key') ∧
      (∀ b ∈ s.atoms, b ≠ a → t.params b = s.params b) ∧
      t.iter a = (s.iter a).filter (fun k => decide (k ≠ key))) := by
  intro s
  have hw := wf_run ops
  constructor
  · intro h
    rw [iter, PyDict.mem_keys] at h
    simp [delItem, PyDict.del, h]
  · intro h
    rw [iter, PyDict.mem_keys] at h
    refine ⟨s.setParams a ((s.params a).filter fun p => decide (p.1 ≠ key)), ?_, ?_⟩
    · simp [delItem, PyDict.del, h]
    have hp : (s.setParams a ((s.params a).filter fun p => decide (p.1 ≠ key))).params a =
        (s.params a).filter fun p => decide (p.1 ≠ key) := params_setParams hw ha _
    have hf := PyDict.get?_filter (s.params a) (fun k => decide (k ≠ key))
    have h1 : (s.setParams a ((s.params a).filter fun p => decide (p.1 ≠ key))).getItem a key =
        .error .key := by
      rw [getItem, hp, hf]; simp
    refine ⟨h1, ?_, ?_, ?_, ?_⟩
    · intro default hg
      simp only [Session.get, hg, h1]
    · intro key' hne
      rw [getItem, hp, hf, getItem]
      simp [hne]
    · intro b hb hba
      exact params_setParams_ne hw ha hb hba _
    · rw [iter, hp, iter]
      exact PyDict.keys_filter (s.params a) (fun k => decide (k ≠ key))

/-- C25: iteration lists every key exactly once, `len` counts them, and a key is listed iff it
can be read. -/
theorem C25_iteration (ops : List Op) (a : Atom) (key : String) :
    let s := run ops
    (s.iter a).Nodup ∧ s.len a = (s.iter a).length ∧
    (key ∈ s.iter a ↔ ∃ v, s.getItem a key = .ok v) := by
  intro s
  refine ⟨nodup_params (wf_run ops) a, by simp [len, iter, PyDict.keys], ?_⟩
  rw [iter, PyDict.mem_keys, getItem]
  cases (s.params a).get? key <;> simp

example : ⟨0, "B", .num 1, 0⟩ ∈ (run [.create (some "B") .none .none (.num 1) [("x", .num 2)],
    .setItem 0 "y" (.num 3)]).atoms := by decide +kernel
example : (run [.create (some "B") .none .none (.num 1) [("x", .num 2)],
    .setItem 0 "y" (.num 3), .delItem 0 "radius"]).iter ⟨0, "B", .num 1, 0⟩ =
      ["color", "x", "y"] := by decide +kernel

/-! ## C26 copies and index numbers -/

/-- C26: in any session the index numbers of all atoms are pairwise different. -/
theorem C26_indices_distinct (ops : List Op) : ((run ops).atoms.map Atom.index).Nodup := by
  have hw := wf_run ops
  have : (run ops).atoms.map Atom.index = List.range (run ops).atoms.length := by
    apply List.ext_getElem?
    intro i
    rw [List.getElem?_map]
    by_cases hi : i < (run ops).atoms.length
    · rw [List.getElem?_eq_getElem hi, List.getElem?_range hi]
      simp [(hw.atom i _ (List.getElem?_eq_getElem hi)).1]
    · rw [List.getElem?_eq_none (by omega), List.getElem?_eq_none (by simp; omega)]
      rfl
  rw [this]
  exact List.nodup_range

/-- C26, restricted to atoms that still have `radius` and `color` and no parameter called
`self`, `name`, `weight` or `copy`: copying succeeds, adds one new atom with a new index number and
the same name, weight and parameters, and changes no other atom; later changes of the copy
do not affect the original (and vice versa). -/
theorem C26_copy_partial (ops : List Op) (a : Atom) (ha : a ∈ (run ops).atoms)
    (h1 : "radius" ∈ (run ops).iter a) (h2 : "color" ∈ (run ops).iter a)
    (h3 : ∀ k ∈ ["self", "name", "weight", "copy"], k ∉ (run ops).iter a) :
    ∃ t b, (run ops).copy a = .ok t ∧ t.atoms = (run ops).atoms ++ [b] ∧
      b.name = a.name ∧ b.weight = a.weight ∧ (∀ c ∈ (run ops).atoms, b.index ≠ c.index) ∧
      (∀ key, t.getItem b key = (run ops).getItem a key) ∧
      (∀ c ∈ (run ops).atoms, t.params c = (run ops).params c) ∧
      (∀ key v, (t.setItem b key v).params a = t.params a ∧
        (t.setItem a key v).params b = t.params b) := by
  have hw := wf_run ops
  generalize run ops = s at *
  have hk : ∀ key, key ∈ s.iter a ↔ ((s.params a).get? key).isSome = true := fun key =>
    PyDict.mem_keys _ _
  have e0 : s.attrParam a "copy" = none := attrParam_none (h3 "copy" (by simp))
  have hn : ∀ k ∈ ["self", "name", "weight", "copy"], (s.params a).get? k = none := by
    intro k hkm
    have := h3 k hkm
    rw [hk] at this
    simpa using this
  have e1 := hn "self" (by simp)
  have e2 := hn "name" (by simp)
  have e3 := hn "weight" (by simp)
  obtain ⟨rad, hrad⟩ := Option.isSome_iff_exists.1 ((hk _).1 h1)
  obtain ⟨col, hcol⟩ := Option.isSome_iff_exists.1 ((hk _).1 h2)
  obtain ⟨i, hi, hia⟩ := List.mem_iff_getElem.1 ha
  have hname : a.name ≠ "" := (hw.atom i a (by rw [List.getElem?_eq_getElem hi, hia])).2.2
  set rest : PyDict := (s.params a).filter fun q => decide (q.1 ∉ ["radius", "color"]) with hrest
  have hrestk : rest.keys = (s.params a).keys.filter fun k => decide (k ∉ ["radius", "color"]) :=
    PyDict.keys_filter (s.params a) (fun k => decide (k ∉ ["radius", "color"]))
  have hrestg : ∀ key, rest.get? key =
      if decide (key ∉ ["radius", "color"]) then (s.params a).get? key else none :=
    PyDict.get?_filter (s.params a) (fun k => decide (k ∉ ["radius", "color"]))
  have hvalid : (rest.keys.any (fun k => decide (k ∈ reserved)) || decide (¬ rest.keys.Nodup))
      = false := by
    rw [Bool.or_eq_false_iff]
    constructor
    · rw [List.any_eq_false]
      intro k hkr
      rw [hrestk, List.mem_filter] at hkr
      simp only [decide_eq_true_eq, List.mem_cons, List.not_mem_nil, or_false, not_or] at hkr
      simp only [reserved, List.mem_cons, List.not_mem_nil, or_false, decide_eq_true_eq]
      rintro (rfl | rfl | rfl | rfl | rfl)
      · exact h3 _ (by simp) hkr.1
      · exact h3 _ (by simp) hkr.1
      · exact hkr.2.1 rfl
      · exact hkr.2.2 rfl
      · exact h3 _ (by simp) hkr.1
    · simp only [decide_eq_false_iff_not, not_not]
      rw [hrestk]
      exact (nodup_params hw a).filter _
  set b : Atom := ⟨s.counter, a.name, a.weight, s.dicts.length⟩ with hb
  set t : Session := ⟨s.counter + 1, s.dicts ++ [("color", col) :: ("radius", rad) :: rest],
    s.atoms ++ [b]⟩ with ht
  have hcopy : s.copy a = .ok t := by
    unfold copy
    simp only [e0, e1, e2, e3, hrad, hcol, Option.getD_some]
    unfold create
    rw [← hrest, hvalid]
    simp [hname, ht, hb]
  have hwt : WF t := by
    have := hcopy
    unfold copy at this
    dsimp only at this
    split_ifs at this
    exact wf_create hw this
  have hold : ∀ c ∈ s.atoms, t.params c = s.params c := by
    intro c hc
    obtain ⟨j, hj, rfl⟩ := List.mem_iff_getElem.1 hc
    have := (hw.atom j _ (List.getElem?_eq_getElem hj)).2.1
    have hlt : (s.atoms[j]).ref < s.dicts.length := by rw [this, hw.dicts]; exact hj
    simp only [params, ht]
    rw [List.getElem?_append_left hlt]
  have hidx : ∀ c ∈ s.atoms, b.index ≠ c.index := by
    intro c hc
    obtain ⟨j, hj, rfl⟩ := List.mem_iff_getElem.1 hc
    have := (hw.atom j _ (List.getElem?_eq_getElem hj)).1
    rw [this]
    simp only [hb, hw.counter]
    omega
  have hat : a ∈ t.atoms := by simp [ht, ha]
  have hbt : b ∈ t.atoms := by simp [ht]
  have hne : a ≠ b := fun e => hidx a ha (by rw [e])
  refine ⟨t, b, hcopy, rfl, rfl, rfl, hidx, ?_, hold, ?_⟩
  · intro key
    have hpb : t.params b = ("color", col) :: ("radius", rad) :: rest := by
      simp [params, ht, hb]
    rw [getItem, getItem, hpb, PyDict.get?_cons, PyDict.get?_cons, hrestg]
    by_cases hkc : key = "color"
    · subst hkc; simp [hcol]
    · by_cases hkr : key = "radius"
      · subst hkr; simp [hrad]
      · simp [hkc, hkr]
  · intro key v
    exact ⟨params_setParams_ne hwt hbt hat hne _, params_setParams_ne hwt hat hbt hne.symm _⟩

example : "radius" ∈ (run [.create (some "B") (.num 1) .none (.num 1) [("x", .num 2)]]).iter
      ⟨0, "B", .num 1, 0⟩ ∧
    "color" ∈ (run [.create (some "B") (.num 1) .none (.num 1) [("x", .num 2)]]).iter
      ⟨0, "B", .num 1, 0⟩ ∧
    ∀ k ∈ ["self", "name", "weight", "copy"],
      k ∉ (run [.create (some "B") (.num 1) .none (.num 1) [("x", .num 2)]]).iter
        ⟨0, "B", .num 1, 0⟩ := by decide +kernel

/-- C26 fails: an atom with a parameter called `name`, or `copy`, cannot be copied (`TypeError`), and
the copy of an atom whose `radius` was deleted has the radius 0.2 again. -/
theorem C26_copy_fails :
    (∃ s a, s = run [.create (some "A") (.num 1) .none (.num 1) [], .setItem 0 "name" (.str "B")] ∧
      s.atoms = [a] ∧ s.copy a = .error .type) ∧
    (∃ s a, s = run [.create (some "A") (.num 1) .none (.num 1) [], .setItem 0 "copy" (.str "B")] ∧
      s.atoms = [a] ∧ s.copy a = .error .type) ∧
    (∃ s a t b, s = run [.create (some "A") (.num 1) .none (.num 1) [], .delItem 0 "radius"] ∧
      s.atoms = [a] ∧ s.copy a = .ok t ∧ t.atoms = [a, b] ∧
      s.getItem a "radius" = .error .key ∧ t.getItem b "radius" = .ok (.num (1 / 5))) := by
  refine ⟨⟨_, ⟨0, "A", .num 1, 0⟩, rfl, by decide +kernel, by rfl⟩,
    ⟨_, ⟨0, "A", .num 1, 0⟩, rfl, by decide +kernel, by rfl⟩,
    ⟨_, ⟨0, "A", .num 1, 0⟩, _, ⟨1, "A", .num 1, 1⟩, rfl, by decide +kernel, by rfl, by rfl, by rfl, by rfl⟩⟩

/-! ## C79 creating an atom -/

/-- C79: creating an atom in any reachable session adds one atom behind the existing ones. Its
name is the given one, or `A` if no name or an empty name was given; its weight is the given one;
its parameters are the colour, the radius and the further keyword arguments, in this order; its
index number is new. No other atom changes. -/
theorem C79_create (ops : List Op) (name : Option String) (radius color weight : PyVal)
    (kwargs : PyDict) (hnd : (kwargs.map Prod.fst).Nodup)
    (hres : ∀ k ∈ ["self", "name", "radius", "color", "weight"], k ∉ kwargs.map Prod.fst) :
    ∃ t a, (run ops).create name radius color weight kwargs = .ok t ∧
      t.atoms = (run ops).atoms ++ [a] ∧
      (∀ n, name = some n → n ≠ "" → a.name = n) ∧
      ((name = none ∨ name = some "") → a.name = "A") ∧
      a.weight = weight ∧ t.iter a = "color" :: "radius" :: kwargs.map Prod.fst ∧
      t.getItem a "color" = .ok color ∧ t.getItem a "radius" = .ok radius ∧
      (∀ kv ∈ kwargs, t.getItem a kv.1 = .ok kv.2) ∧
      (∀ b ∈ (run ops).atoms, b.index ≠ a.index ∧ t.params b = (run ops).params b) := by
  have hw := wf_run ops
  generalize run ops = s at *
  have hk : (kwargs.keys.any (fun k => decide (k ∈ reserved)) ||
      decide (¬ kwargs.keys.Nodup)) = false := by
    rw [Bool.or_eq_false_iff]
    constructor
    · rw [List.any_eq_false]
      intro k hk hc
      exact hres k (by simpa [reserved] using hc) hk
    · rw [decide_eq_false_iff_not, not_not]
      exact hnd
  have hlook : ∀ (d : PyDict), (d.map Prod.fst).Nodup → ∀ kv ∈ d, d.get? kv.1 = some kv.2 := by
    intro d
    induction d with
    | nil => simp
    | cons x d ih =>
      intro hn kv hkv
      rw [List.map_cons, List.nodup_cons] at hn
      rw [PyDict.get?_cons]
      rcases List.mem_cons.1 hkv with rfl | hkv
      · simp
      · have hne : kv.1 ≠ x.1 := fun e => hn.1 (e ▸ List.mem_map_of_mem hkv)
        simp [hne, ih hn.2 kv hkv]
  obtain ⟨nm, hnm⟩ : ∃ nm : String, nm = (match name with
      | none => "A"
      | some n => if n = "" then "A" else n) := ⟨_, rfl⟩
  have hp : ((s.dicts ++ [("color", color) :: ("radius", radius) :: kwargs])[s.dicts.length]?).getD
      [] = ("color", color) :: ("radius", radius) :: kwargs := by simp
  refine ⟨{
      counter := s.counter + 1
      dicts := s.dicts ++ [("color", color) :: ("radius", radius) :: kwargs]
      atoms := s.atoms ++ [⟨s.counter, nm, weight, s.dicts.length⟩] },
    ⟨s.counter, nm, weight, s.dicts.length⟩, ?_, rfl, ?_, ?_, rfl, ?_, ?_, ?_, ?_, ?_⟩
  · unfold create
    rw [hk, hnm]
    rfl
  · rintro n rfl hn
    simp [hnm, hn]
  · rintro (rfl | rfl) <;> simp [hnm]
  · simp only [iter, params, hp]
    rfl
  · simp only [getItem, params, hp, PyDict.get?_cons]
    simp
  · simp only [getItem, params, hp, PyDict.get?_cons]
    simp
  · intro kv hkv
    have hm := List.mem_map_of_mem (f := Prod.fst) hkv
    have h1 : kv.1 ≠ "color" := fun e => hres "color" (by simp) (e ▸ hm)
    have h2 : kv.1 ≠ "radius" := fun e => hres "radius" (by simp) (e ▸ hm)
    simp only [getItem, params, hp, PyDict.get?_cons]
    simp [h1, h2, hlook kwargs hnd kv hkv]
  · intro b hb
    obtain ⟨i, hi, rfl⟩ := List.mem_iff_getElem.1 hb
    obtain ⟨h1, h2, -⟩ := hw.atom i _ (List.getElem?_eq_getElem hi)
    have hd := hw.dicts
    have hc := hw.counter
    refine ⟨?_, ?_⟩
    · dsimp only
      omega
    · simp only [params, h2]
      rw [List.getElem?_append_left (by omega)]

/-- C79: keyword arguments named like a parameter of the constructor raise `TypeError`. -/
theorem C79_create_reserved (ops : List Op) (name : Option String) (radius color weight : PyVal)
    (kwargs : PyDict) (k : String) (hk : k ∈ ["self", "name", "radius", "color", "weight"])
    (hmem : k ∈ kwargs.map Prod.fst) :
    (run ops).create name radius color weight kwargs = .error .type := by
  have h : kwargs.keys.any (fun k => decide (k ∈ reserved)) = true := by
    rw [List.any_eq_true]
    exact ⟨k, hmem, by simpa [reserved] using hk⟩
  unfold create
  rw [h]
  rfl

/-- Keyword arguments that meet the hypotheses, and an atom without a name. -/
example : (([("spin", .num 2), ("u", .num 3)] : PyDict).map Prod.fst).Nodup ∧
    ∀ k ∈ ["self", "name", "radius", "color", "weight"],
      k ∉ ([("spin", .num 2), ("u", .num 3)] : PyDict).map Prod.fst := by decide +kernel
example : (run [.create (some "") .none .none (.num 1) [], .create none .none .none (.num 1) [],
    .create (some "B") .none .none (.num 1) []]).atoms.map Atom.name = ["A", "A", "B"] := by
  decide +kernel

/-! ## C104 the data of an atom -/

/-- Lookup in a dictionary updated with the items of another one. -/
theorem get?_update (l : PyDict) (hnd : l.keys.Nodup) (d : PyDict) (key : String) :
    (l.foldl (fun d p => PyDict.set d p.1 p.2) d).get? key =
      if key ∈ l.keys then l.get? key else d.get? key := by
  induction l generalizing d with
  | nil => simp [PyDict.keys]
  | cons p l ih =>
    obtain ⟨k, v⟩ := p
    have hk : PyDict.keys ((k, v) :: l) = k :: PyDict.keys l := rfl
    rw [hk, List.nodup_cons] at hnd
    rw [List.foldl_cons, ih hnd.2, hk, PyDict.get?_cons]
    by_cases h1 : key = k
    · subst h1
      rw [if_neg hnd.1]
      simp [PyDict.get?_set_self]
    · simp [h1, PyDict.get?_set_ne _ _ _ _ h1]

theorem keys_update (l : PyDict) (hnd : l.keys.Nodup) (d : PyDict) :
    (l.foldl (fun d p => PyDict.set d p.1 p.2) d).keys =
      d.keys ++ l.keys.filter fun k => decide (k ∉ d.keys) := by
  induction l generalizing d with
  | nil => simp [PyDict.keys]
  | cons p l ih =>
    obtain ⟨k, v⟩ := p
    have hk : PyDict.keys ((k, v) :: l) = k :: PyDict.keys l := rfl
    rw [hk, List.nodup_cons] at hnd
    rw [List.foldl_cons, ih hnd.2, hk, PyDict.keys_set]
    by_cases h1 : k ∈ d.keys
    · simp [h1]
    · rw [if_neg h1, List.filter_cons_of_pos (by simpa using h1), List.append_assoc]
      congr 1
      rw [List.singleton_append]
      congr 1
      apply List.filter_congr
      intro x hx
      have : x ≠ k := by rintro rfl; exact hnd.1 hx
      simp [this]

/-- C104: in any reachable session, unless a parameter called `dict` hides the method, `atom.dict()` has
the keys `index` and `name` followed by the
other parameters in their order.  Every parameter is shown with its value; `index` is the number and
`name` the name of the atom unless a parameter is called so. -/
theorem C104_dict_partial (ops : List Op) (a : Atom) (hdict : "dict" ∉ (run ops).iter a) :
    ∃ D, (run ops).dict a = .ok D ∧ D.keys =
      "index" :: "name" :: ((run ops).iter a).filter (fun k => decide (k ∉ ["index", "name"])) ∧
    (∀ key v, (run ops).getItem a key = .ok v → D.get? key = some v) ∧
    ("index" ∉ (run ops).iter a → D.get? "index" = some (.num a.index)) ∧
    ("name" ∉ (run ops).iter a → D.get? "name" = some (.str a.name)) := by
  have hnd := nodup_params (wf_run ops) a
  refine ⟨_, by unfold Session.dict; rw [attrParam_none hdict], ?_⟩
  refine ⟨?_, ?_, ?_, ?_⟩
  · rw [keys_update _ hnd]
    rfl
  · intro key v hv
    rw [get?_update _ hnd]
    unfold getItem at hv
    split at hv
    · rename_i x hx
      cases hv
      rw [if_pos ((PyDict.mem_keys _ _).2 (by rw [hx]; rfl)), hx]
    · cases hv
  · intro hk
    unfold Session.iter at hk
    rw [get?_update _ hnd, if_neg hk]
    rfl
  · intro hk
    unfold Session.iter at hk
    rw [get?_update _ hnd, if_neg hk]
    rfl

theorem atoms_step (s : Session) (op : Op) : ∃ l, (s.step op).atoms = s.atoms ++ l := by
  have hc : ∀ n r c w k t, s.create n r c w k = .ok t → ∃ l, t.atoms = s.atoms ++ l := by
    intro n r c w k t h
    unfold create at h
    split at h
    · cases h
    · cases h
      exact ⟨_, rfl⟩
  unfold step
  split
  · split
    · rename_i h; exact hc _ _ _ _ _ _ h
    · exact ⟨[], by simp⟩
  · split
    · split
      · rename_i h
        unfold copy at h
        dsimp only at h
        split at h
        · cases h
        · exact hc _ _ _ _ _ _ h
      · exact ⟨[], by simp⟩
    · exact ⟨[], by simp⟩
  · split
    · exact ⟨[], by simp [setItem, setParams]⟩
    · exact ⟨[], by simp⟩
  · split
    · split
      · rename_i h
        unfold delItem at h
        split at h
        · cases h; exact ⟨[], by simp [setParams]⟩
        · cases h
      · exact ⟨[], by simp⟩
    · exact ⟨[], by simp⟩
  · split
    · split
      · rename_i h
        unfold setAttr at h
        split at h
        · cases h; exact ⟨[], by simp [setItem, setParams]⟩
        · cases h
      · exact ⟨[], by simp⟩
    · exact ⟨[], by simp⟩

/-- C104, number, name and weight last: whatever is done later to this or other atoms, an atom keeps
its number, name and weight, and `atom.weight` and `atom.name` answer with them as long as no
parameter is called so. -/
theorem C104_slots (ops more : List Op) (i : ℕ) (a : Atom) (h : (run ops).atoms[i]? = some a) :
    (run (ops ++ more)).atoms[i]? = some a ∧
      ("weight" ∉ (run (ops ++ more)).iter a → (run (ops ++ more)).weightAttr a = a.weight) ∧
      ("name" ∉ (run (ops ++ more)).iter a → (run (ops ++ more)).nameAttr a = .str a.name) := by
  have key : ∀ (more : List Op) (s : Session), ∃ l, (more.foldl step s).atoms = s.atoms ++ l := by
    intro more
    induction more with
    | nil => exact fun s => ⟨[], by simp⟩
    | cons op more ih =>
      intro s
      obtain ⟨l, hl⟩ := ih (s.step op)
      obtain ⟨l', hl'⟩ := atoms_step s op
      exact ⟨l' ++ l, by rw [List.foldl_cons, hl, hl', List.append_assoc]⟩
  refine ⟨?_, ?_, ?_⟩
  · obtain ⟨l, hl⟩ := key more (run ops)
    have e : run (ops ++ more) = more.foldl step (run ops) := by
      unfold run; rw [List.foldl_append]
    rw [e, hl, List.getElem?_append_left (List.getElem?_eq_some_iff.1 h).1, h]
  · intro hk
    unfold iter at hk
    rw [PyDict.mem_keys] at hk
    unfold weightAttr
    cases hg : ((run (ops ++ more)).params a).get? "weight" with
    | none => rfl
    | some v => simp [hg] at hk
  · intro hk
    unfold iter at hk
    rw [PyDict.mem_keys] at hk
    unfold nameAttr
    cases hg : ((run (ops ++ more)).params a).get? "name" with
    | none => rfl
    | some v => simp [hg] at hk

/-- An atom with a further parameter: its dictionary. -/
example : (run [.create (some "B") (.num 1) .none (.num 1) [("x", .num 2)]]).dict
      ⟨0, "B", .num 1, 0⟩ = .ok
    [("index", .num 0), ("name", .str "B"), ("color", .none), ("radius", .num 1), ("x", .num 2)] := rfl

/-- C104 fails if a parameter is called `dict`: it hides the method, and `atom.dict()` raises
`TypeError`. -/
theorem C104_method_fails (v : PyVal) :
    ∃ (s : Session) (a : Atom), s = run [.create (some "A") .none .none (.num 1) [],
        .setItem 0 "dict" v] ∧ s.atoms = [a] ∧ s.dict a = .error .type :=
  ⟨_, ⟨0, "A", .num 1, 0⟩, rfl, rfl, rfl⟩

example : (run [.create (some "B") (.num 1) .none (.num 3) []]).atoms[0]? =
      some ⟨0, "B", .num 3, 0⟩ ∧
    "weight" ∉ (run ([.create (some "B") (.num 1) .none (.num 3) []] ++ [.setItem 0 "x" (.num 2)])).iter
      ⟨0, "B", .num 3, 0⟩ := by decide +kernel

/-- C104 fails for the weight: two atoms with different weights have the same dictionary apart from
their numbers. -/
theorem C104_weight_fails : ∃ (s : Session) (a b : Atom) (D E : PyDict),
    s = run [.create (some "A") (.num 1) .none (.num 1) [], .create (some "A") (.num 1) .none (.num 2) []] ∧
      s.atoms = [a, b] ∧ s.weightAttr a = .num 1 ∧ s.weightAttr b = .num 2 ∧
      s.dict a = .ok D ∧ s.dict b = .ok E ∧ D.drop 1 = E.drop 1 ∧ D.get? "weight" = none :=
  ⟨_, ⟨0, "A", .num 1, 0⟩, ⟨1, "A", .num 2, 1⟩, _, _, rfl, by decide +kernel, by decide +kernel,
    by decide +kernel, rfl, rfl, rfl, rfl⟩

/-- C104 fails for the name: a parameter called `name` hides the name. -/
theorem C104_name_fails : ∃ (s : Session) (a : Atom) (D : PyDict),
    s = run [.create (some "A") (.num 1) .none (.num 1) [], .setItem 0 "name" (.str "B")] ∧
      s.atoms = [a] ∧ Session.eqStr a "A" = true ∧ s.dict a = .ok D ∧ D.get? "name" = some (.str "B") :=
  ⟨_, ⟨0, "A", .num 1, 0⟩, _, rfl, by decide +kernel, by decide +kernel, rfl, rfl⟩

end Lattpy
