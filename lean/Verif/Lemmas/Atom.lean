import Verif.Model.Atom

/-!
# Lemmas about the atom model
-/

set_option autoImplicit false

namespace Lattpy

namespace PyDict

theorem get?_cons (k : String) (w : PyVal) (d : PyDict) (key : String) :
    get? ((k, w) :: d) key = if key = k then some w else get? d key := by
  unfold get?
  rw [List.lookup_cons]
  by_cases h : key = k
  · simp [h]
  · have : (key == k) = false := by simpa using h
    simp [h, this]

theorem get?_nil (key : String) : get? [] key = none := rfl

theorem get?_set_self (d : PyDict) (key : String) (v : PyVal) : (d.set key v).get? key = some v := by
  induction d with
  | nil => simp [set, get?_cons]
  | cons p d ih =>
    obtain ⟨k, w⟩ := p
    unfold set
    split_ifs with h
    · simp [get?_cons, h]
    · rw [get?_cons, if_neg (fun e => h e.symm), ih]

theorem get?_set_ne (d : PyDict) (key key' : String) (v : PyVal) (h : key' ≠ key) :
    (d.set key v).get? key' = d.get? key' := by
  induction d with
  | nil => simp [set, get?_cons, h]
  | cons p d ih =>
    obtain ⟨k, w⟩ := p
    unfold set
    split_ifs with h'
    · subst h'; simp [get?_cons, h]
    · rw [get?_cons, get?_cons, ih]

theorem mem_keys (d : PyDict) (key : String) : key ∈ d.keys ↔ (d.get? key).isSome = true := by
  induction d with
  | nil => simp [keys, get?_nil]
  | cons p d ih =>
    obtain ⟨k, w⟩ := p
    rw [get?_cons]
    simp only [keys, List.map_cons, List.mem_cons] at ih ⊢
    split_ifs with h
    · simp [h]
    · simp only [h, false_or]; exact ih

theorem keys_set (d : PyDict) (key : String) (v : PyVal) :
    (d.set key v).keys = if key ∈ d.keys then d.keys else d.keys ++ [key] := by
  induction d with
  | nil => simp [set, keys]
  | cons p d ih =>
    obtain ⟨k, w⟩ := p
    unfold set
    by_cases h : k = key
    · subst h; simp [keys]
    · simp only [if_neg h]
      simp only [keys, List.map_cons] at ih ⊢
      rw [ih]
      by_cases h2 : key ∈ d.map Prod.fst
      · simp [h2]
      · have : key ≠ k := fun e => h e.symm
        simp [h2, this]

theorem nodup_keys_set (d : PyDict) (key : String) (v : PyVal) (h : d.keys.Nodup) :
    (d.set key v).keys.Nodup := by
  rw [keys_set]
  split_ifs with h2
  · exact h
  · rw [List.nodup_append]
    refine ⟨h, by simp, ?_⟩
    intro a ha b hb
    simp at hb
    subst hb
    exact fun e => h2 (e ▸ ha)

theorem keys_filter (d : PyDict) (p : String → Bool) :
    keys (d.filter fun q => p q.1) = d.keys.filter p := by
  unfold keys
  rw [List.filter_map]
  rfl

theorem get?_filter (d : PyDict) (p : String → Bool) (key : String) :
    get? (d.filter fun q => p q.1) key = if p key then d.get? key else none := by
  induction d with
  | nil => simp [get?_nil]
  | cons q d ih =>
    obtain ⟨k, w⟩ := q
    rw [List.filter_cons]
    by_cases hk : p k
    · simp only [hk, if_true]
      rw [get?_cons, get?_cons, ih]
      split_ifs with h1 h2 <;> first | rfl | (subst h1; exact absurd hk h2)
    · simp only [hk]
      rw [get?_cons]
      simp only [Bool.false_eq_true, if_false]
      rw [ih]
      split_ifs with h1 h2 <;> first | rfl | (subst h2; exact absurd h1 hk)

end PyDict

namespace Session

/-- Invariant of every reachable session. -/
structure WF (s : Session) : Prop where
  counter : s.counter = s.atoms.length
  dicts : s.dicts.length = s.atoms.length
  atom : ∀ (i : ℕ) (a : Atom), s.atoms[i]? = some a → a.index = i ∧ a.ref = i ∧ a.name ≠ ""
  nodup : ∀ d ∈ s.dicts, (PyDict.keys d).Nodup

theorem attrParam_none {s : Session} {a : Atom} {key : String} (h : key ∉ s.iter a) :
    s.attrParam a key = none := by
  unfold iter at h
  rw [PyDict.mem_keys] at h
  unfold attrParam
  rw [if_neg (by simp [h])]

theorem eq_of_no_method {s : Session} {a : Atom} (h : "is_identical" ∉ s.iter a) (b : Atom) :
    s.eq a b = .ok (decide (PyVal.str a.name = s.nameAttr b)) := by
  unfold eq
  rw [attrParam_none h]

theorem same_of_no_method {s : Session} {a : Atom} (h : "is_identical" ∉ s.iter a) (b : Atom) :
    s.same a b = .ok (decide (a = b) || decide (PyVal.str a.name = s.nameAttr b)) := by
  unfold same
  rw [eq_of_no_method h]
  by_cases e : a = b
  · rw [if_pos e]
    simp [e]
  · rw [if_neg e]
    simp [e]

theorem wf_empty : WF empty := ⟨rfl, rfl, by simp [empty], by simp [empty]⟩

theorem wf_create {s t : Session} (h : WF s) {n r c w k} (ht : s.create n r c w k = .ok t) :
    WF t := by
  unfold create at ht
  split_ifs at ht with hk
  simp only [Except.ok.injEq] at ht
  subst ht
  simp only [Bool.or_eq_true, List.any_eq_true, decide_eq_true_eq, not_or, not_exists, not_and,
    not_not] at hk
  refine ⟨by simp [h.counter], by simp [h.dicts], ?_, ?_⟩
  · intro i a ha
    rw [List.getElem?_append] at ha
    split_ifs at ha with hi
    · exact h.atom i a ha
    · have hi' : i = s.atoms.length := by
        by_contra hne
        rw [List.getElem?_eq_none (by simp; omega)] at ha
        cases ha
      subst hi'
      simp only [Nat.sub_self, List.getElem?_cons_zero, Option.some.injEq] at ha
      subst ha
      refine ⟨h.counter, h.dicts, ?_⟩
      dsimp only
      split
      · simp
      · split_ifs with hn
        · simp
        · exact hn
  · intro d hd
    rw [List.mem_append] at hd
    rcases hd with hd | hd
    · exact h.nodup d hd
    · simp only [List.mem_singleton] at hd
      subst hd
      have h1 : "color" ∉ PyDict.keys k := fun hc => hk.1 _ hc (by simp [reserved])
      have h2 : "radius" ∉ PyDict.keys k := fun hc => hk.1 _ hc (by simp [reserved])
      simp only [PyDict.keys, List.map_cons] at h1 h2 hk ⊢
      rw [List.nodup_cons, List.nodup_cons]
      refine ⟨?_, h2, hk.2⟩
      simp only [List.mem_cons, not_or]
      exact ⟨by decide, h1⟩

theorem wf_setParams {s : Session} (h : WF s) (a : Atom) (d : PyDict) (hd : d.keys.Nodup) :
    WF (s.setParams a d) := by
  refine ⟨h.counter, by simp [setParams, h.dicts], h.atom, ?_⟩
  intro e he
  rcases List.mem_or_eq_of_mem_set he with he | rfl
  · exact h.nodup e he
  · exact hd

theorem nodup_params {s : Session} (h : WF s) (a : Atom) : (s.params a).keys.Nodup := by
  unfold params
  cases hd : s.dicts[a.ref]? with
  | none => simp [PyDict.keys]
  | some d => exact h.nodup d (List.mem_of_getElem? hd)

theorem wf_setItem {s : Session} (h : WF s) (a : Atom) (key : String) (v : PyVal) :
    WF (s.setItem a key v) :=
  wf_setParams h a _ (PyDict.nodup_keys_set _ _ _ (nodup_params h a))

theorem wf_step {s : Session} (h : WF s) (op : Op) : WF (s.step op) := by
  cases op with
  | create n r c w k =>
    unfold step
    dsimp only
    split
    · rename_i t ht; exact wf_create h ht
    · exact h
  | copy i =>
    unfold step
    dsimp only
    split
    · rename_i a _
      split
      · rename_i t ht
        unfold copy at ht
        dsimp only at ht
        split_ifs at ht
        exact wf_create h ht
      · exact h
    · exact h
  | setItem i key v =>
    unfold step
    dsimp only
    split
    · exact wf_setItem h _ _ _
    · exact h
  | delItem i key =>
    unfold step
    dsimp only
    split
    · rename_i a _
      split
      · rename_i t ht
        unfold delItem PyDict.del at ht
        split_ifs at ht
        · simp only [Except.ok.injEq] at ht
          subst ht
          refine wf_setParams h _ _ ?_
          have := PyDict.keys_filter (s.params a) (fun k => decide (k ≠ key))
          rw [this]
          exact (nodup_params h a).filter _
      · exact h
    · exact h
  | setAttr i key v =>
    unfold step
    dsimp only
    split
    · rename_i a _
      split
      · rename_i t ht
        unfold setAttr at ht
        split_ifs at ht
        simp only [Except.ok.injEq] at ht
        subst ht
        exact wf_setItem h _ _ _
      · exact h
    · exact h

theorem wf_run (ops : List Op) : WF (run ops) := by
  unfold run
  suffices ∀ s, WF s → WF (ops.foldl step s) from this _ wf_empty
  induction ops with
  | nil => exact fun s h => h
  | cons op ops ih => exact fun s h => ih _ (wf_step h op)

theorem params_setParams {s : Session} (h : WF s) {a : Atom} (ha : a ∈ s.atoms) (d : PyDict) :
    (s.setParams a d).params a = d := by
  obtain ⟨i, hi, rfl⟩ := List.mem_iff_getElem.1 ha
  have := h.atom i _ (List.getElem?_eq_getElem hi)
  have hlt : (s.atoms[i]).ref < s.dicts.length := by rw [this.2.1, h.dicts]; exact hi
  simp [params, setParams, hlt]

theorem params_setParams_ne {s : Session} (h : WF s) {a b : Atom} (ha : a ∈ s.atoms)
    (hb : b ∈ s.atoms) (hab : b ≠ a) (d : PyDict) :
    (s.setParams a d).params b = s.params b := by
  obtain ⟨i, hi, rfl⟩ := List.mem_iff_getElem.1 ha
  obtain ⟨j, hj, rfl⟩ := List.mem_iff_getElem.1 hb
  have h1 := h.atom i _ (List.getElem?_eq_getElem hi)
  have h2 := h.atom j _ (List.getElem?_eq_getElem hj)
  have hne : (s.atoms[i]).ref ≠ (s.atoms[j]).ref := by
    rw [h1.2.1, h2.2.1]
    rintro rfl
    exact hab rfl
  simp [params, setParams, hne]

end Session

/-- A search whose test never raises. -/
theorem findFirst_ok {α : Type*} {p : α → Except PyErr Bool} {q : α → Bool} :
    ∀ {l : List α}, (∀ x ∈ l, p x = .ok (q x)) → findFirst p l = .ok (l.findIdx? q)
  | [], _ => rfl
  | x :: xs, h => by
    have ih := findFirst_ok (l := xs) fun y hy => h y (List.mem_cons_of_mem _ hy)
    unfold findFirst
    rw [h x (by simp), ih, List.findIdx?_cons]
    cases q x <;> rfl

/-- A search that succeeds at place `k`. -/
theorem findFirst_some {α : Type*} {p : α → Except PyErr Bool} : ∀ {l : List α} {k : ℕ} {x : α},
    l[k]? = some x → p x = .ok true → (∀ j < k, ∀ y, l[j]? = some y → p y = .ok false) →
    findFirst p l = .ok (some k)
  | [], _, _, h, _, _ => by simp at h
  | y :: l, 0, x, h, hx, _ => by
    have : y = x := by simpa using h
    subst this
    unfold findFirst
    rw [hx]
  | y :: l, k + 1, x, h, hx, hlt => by
    have ih := findFirst_some (l := l) (k := k) (x := x) (by simpa using h) hx
      fun j hj z hz => hlt (j + 1) (by omega) z (by simpa using hz)
    unfold findFirst
    rw [hlt 0 (by omega) y (by simp), ih]
    rfl

end Lattpy
