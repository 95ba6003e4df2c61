import Verif.Props.Stale

/-!
# C116: the order of the configuration calls

Small specification: which atoms a reference means (`Means`), which pairs a call of
`add_connection` joins (`Connect.Joins`).
-/

set_option autoImplicit false

namespace Lattpy

open Structure

variable {d : ℕ}

/-- Atom `i` of the unit cell is meant by the reference: by its number, counted from the end if it is
negative; by its name; or because it is the first atom that is the given object or equal to it. -/
def Means (s : Session) (atoms : List Atom) : AtomRef → ℕ → Prop
  | .num z, i => i < atoms.length ∧ (z = i ∨ z = (i : ℤ) - atoms.length)
  | .name n, i => ∃ a, atoms[i]? = some a ∧ s.nameAttr a = .str n
  | .obj b, i => ∃ a, atoms[i]? = some a ∧ s.same a b = .ok true ∧
      ∀ j < i, ∀ a', atoms[j]? = some a' → s.same a' b = .ok false

/-- Numbers and objects have to mean an atom of the cell; a name may mean none. -/
def ValidRef (s : Session) (atoms : List Atom) : AtomRef → Prop
  | .name _ => True
  | r => ∃ i, Means s atoms r i

/-- A call of `add_connection`. -/
structure Connect where
  atom1 : AtomRef
  atom2 : AtomRef
  num : ℕ
  doAnalyze : Bool

namespace Connect

/-- The call as an operation on a structure. -/
def op (c : Connect) : World.Op ℝ := .addConnection c.atom1 c.atom2 c.num c.doAnalyze

/-- Both references are valid. -/
def Valid (s : Session) (atoms : List Atom) (c : Connect) : Prop :=
  ValidRef s atoms c.atom1 ∧ ValidRef s atoms c.atom2

/-- The call joins the atoms `i` and `j`. -/
def Joins (s : Session) (atoms : List Atom) (c : Connect) (i j : ℕ) : Prop :=
  (Means s atoms c.atom1 i ∧ Means s atoms c.atom2 j) ∨
    (Means s atoms c.atom1 j ∧ Means s atoms c.atom2 i)

end Connect

theorem pyIdx_means {n : ℕ} {z : ℤ} {i : ℕ} :
    pyIdx n z = some i ↔ i < n ∧ (z = i ∨ z = (i : ℤ) - n) := by
  unfold pyIdx
  split
  · simp only [Option.some.injEq]
    omega
  · split
    · simp only [Option.some.injEq]
      omega
    · simp only [reduceCtorEq, false_iff]
      omega

theorem pyIdx_natCast {n i : ℕ} (h : i < n) : pyIdx n (i : ℤ) = some i :=
  pyIdx_means.2 ⟨h, Or.inl rfl⟩

theorem getAlpha_means (s : Session) (S : Structure d ℝ) (r : AtomRef) (hr : ValidRef s S.atoms r) :
    ∃ l, S.getAlpha s r = .ok l ∧ (∀ z ∈ l, ∃ i, pyIdx S.atoms.length z = some i) ∧
      ∀ i, Means s S.atoms r i ↔ ∃ z ∈ l, pyIdx S.atoms.length z = some i := by
  cases r with
  | num z =>
    obtain ⟨i, hi⟩ := hr
    refine ⟨[z], rfl, ?_, ?_⟩
    · intro y hy
      rw [List.mem_singleton.1 hy]
      exact ⟨i, pyIdx_means.2 hi⟩
    · intro j
      simp only [List.mem_singleton, exists_eq_left]
      exact pyIdx_means.symm
  | name n =>
    refine ⟨_, rfl, ?_, ?_⟩
    · intro z hz
      obtain ⟨i, hi, rfl⟩ := List.mem_map.1 hz
      obtain ⟨a, ha, -⟩ := mem_whereIdx.1 hi
      exact ⟨i, pyIdx_natCast (List.getElem?_eq_some_iff.1 ha).1⟩
    · intro i
      constructor
      · rintro ⟨a, ha, hn⟩
        exact ⟨i, List.mem_map.2 ⟨i, mem_whereIdx.2 ⟨a, ha, by simp [hn]⟩, rfl⟩,
          pyIdx_natCast (List.getElem?_eq_some_iff.1 ha).1⟩
      · rintro ⟨z, hz, hi⟩
        obtain ⟨k, hk, rfl⟩ := List.mem_map.1 hz
        obtain ⟨a, ha, hn⟩ := mem_whereIdx.1 hk
        rw [pyIdx_natCast (List.getElem?_eq_some_iff.1 ha).1] at hi
        cases hi
        exact ⟨a, ha, by simpa [eq_comm] using hn⟩
  | obj b =>
    obtain ⟨i, a, ha, hab, hbefore⟩ := hr
    have hf : findFirst (fun at' => s.same at' b) S.atoms = .ok (some i) :=
      findFirst_some ha hab hbefore
    have hi := (List.getElem?_eq_some_iff.1 ha).1
    refine ⟨[(i : ℤ)], by simp [getAlpha, hf], ?_, ?_⟩
    · intro z hz
      rw [List.mem_singleton.1 hz]
      exact ⟨i, pyIdx_natCast hi⟩
    · intro j
      simp only [List.mem_singleton, exists_eq_left, pyIdx_natCast hi, Option.some.injEq]
      constructor
      · rintro ⟨a', ha', hab', hbefore'⟩
        rcases lt_trichotomy i j with h | h | h
        · rw [hbefore' i h a ha] at hab
          cases hab
        · exact h
        · rw [hbefore j h a' ha'] at hab'
          cases hab'
      · rintro rfl
        exact ⟨a, ha, hab, hbefore⟩

theorem connectPairs_ok (n : ℕ) : ∀ (ps : List (ℤ × ℤ)) (c : ConnMatrix),
    (∀ p ∈ ps, ∃ k l, pyIdx c.size p.1 = some k ∧ pyIdx c.size p.2 = some l) →
    ∃ c', connectPairs n (some c) ps = .ok (some c')
  | [], c, _ => ⟨c, rfl⟩
  | (p1, p2) :: ps, c, h => by
    obtain ⟨k, l, h1, h2⟩ := h (p1, p2) (by simp)
    obtain ⟨c', hc'⟩ := connectPairs_ok n ps (c.setPair k l n) fun q hq => h q (by simp [hq])
    refine ⟨c', ?_⟩
    simp only at h1 h2
    simp [connectPairs, h1, h2, hc']

/-- One valid call: exactly the joined pairs get the number, nothing else changes. -/
theorem connect_step (hd : 0 < d) (env : Env ℝ) {w : World d ℝ} (h : w.struct.Good)
    {c : ConnMatrix} (hc : w.struct.conn = some c) (hlen : w.struct.atoms.length = c.size)
    (k : Connect) (hk : k.Valid w.session w.struct.atoms) :
    ∃ c', (w.call env k.op).1.struct.conn = some c' ∧ c'.size = c.size ∧
      (∀ i j, k.Joins w.session w.struct.atoms i j → c'.entry i j = k.num) ∧
      ∀ i j, ¬ k.Joins w.session w.struct.atoms i j → c'.entry i j = c.entry i j := by
  obtain ⟨as, e1, has, hm1⟩ := getAlpha_means w.session w.struct k.atom1 hk.1
  obtain ⟨bs, e2, hbs, hm2⟩ := getAlpha_means w.session w.struct k.atom2 hk.2
  rw [hlen] at has hbs hm1 hm2
  obtain ⟨c', hc'⟩ := connectPairs_ok k.num (as.flatMap fun i => bs.map fun j => (i, j)) c (by
    intro p hp
    obtain ⟨x, hx, hp⟩ := List.mem_flatMap.1 hp
    obtain ⟨y, hy, rfl⟩ := List.mem_map.1 hp
    obtain ⟨i, hi⟩ := has x hx
    obtain ⟨j, hj⟩ := hbs y hy
    exact ⟨i, j, hi, hj⟩)
  obtain ⟨h1, h2, h3⟩ := connectPairs_spec k.num _ c c' hc' (h.conn_symm c hc)
  have hS : Good { w.struct with conn := some c' } :=
    h.setConn c' (by rw [h1]; exact (h.conn_size c hc).1) (h.conn_size c hc).2 h2
  have hcall : (w.call env k.op).1.struct.conn = some c' := by
    change (w.struct.addConnection env w.session k.atom1 k.atom2 k.num k.doAnalyze).1.conn = _
    unfold addConnection
    rw [e1, e2, hc]
    dsimp only
    rw [hc']
    dsimp only
    cases k.doAnalyze with
    | false => rfl
    | true => exact (analyze_frame hd env hS).2.2.2.2
  have hJ : ∀ i j, (∃ p ∈ as.flatMap fun i => bs.map fun j => (i, j),
      (pyIdx c.size p.1 = some i ∧ pyIdx c.size p.2 = some j) ∨
        (pyIdx c.size p.1 = some j ∧ pyIdx c.size p.2 = some i)) ↔
      k.Joins w.session w.struct.atoms i j := by
    intro i j
    unfold Connect.Joins
    rw [hm1 i, hm1 j, hm2 i, hm2 j]
    constructor
    · rintro ⟨p, hp, hor⟩
      obtain ⟨x, hx, hp⟩ := List.mem_flatMap.1 hp
      obtain ⟨y, hy, rfl⟩ := List.mem_map.1 hp
      rcases hor with ⟨a, b⟩ | ⟨a, b⟩
      · exact Or.inl ⟨⟨x, hx, a⟩, ⟨y, hy, b⟩⟩
      · exact Or.inr ⟨⟨x, hx, a⟩, ⟨y, hy, b⟩⟩
    · rintro (⟨⟨x, hx, a⟩, ⟨y, hy, b⟩⟩ | ⟨⟨x, hx, a⟩, ⟨y, hy, b⟩⟩)
      · exact ⟨(x, y), List.mem_flatMap.2 ⟨x, hx, List.mem_map.2 ⟨y, hy, rfl⟩⟩, Or.inl ⟨a, b⟩⟩
      · exact ⟨(x, y), List.mem_flatMap.2 ⟨x, hx, List.mem_map.2 ⟨y, hy, rfl⟩⟩, Or.inr ⟨a, b⟩⟩
  refine ⟨c', hcall, h1, fun i j hij => ?_, fun i j hij => ?_⟩
  · rw [h3, if_pos ((hJ i j).2 hij)]
  · rw [h3, if_neg (mt (hJ i j).1 hij)]

/-- The state after several calls: the cell is the same, the connections follow the last call for
each pair. -/
theorem connect_run (hd : 0 < d) (env : Env ℝ) : ∀ (ks : List Connect) {w : World d ℝ},
    w.struct.Good → ∀ {c : ConnMatrix}, w.struct.conn = some c → w.struct.atoms.length = c.size →
    (∀ k ∈ ks, k.Valid w.session w.struct.atoms) →
    ∃ c', (w.run env (ks.map Connect.op)).struct.conn = some c' ∧ c'.size = c.size ∧
      (w.run env (ks.map Connect.op)).session = w.session ∧
      (w.run env (ks.map Connect.op)).struct.atoms = w.struct.atoms ∧
      (w.run env (ks.map Connect.op)).struct.positions = w.struct.positions ∧
      (w.run env (ks.map Connect.op)).struct.numBase = w.struct.numBase ∧
      (w.run env (ks.map Connect.op)).struct.basis = w.struct.basis ∧
      ∀ i j, (∀ pre k post, ks = pre ++ k :: post → k.Joins w.session w.struct.atoms i j →
          (∀ k' ∈ post, ¬ k'.Joins w.session w.struct.atoms i j) → c'.entry i j = k.num) ∧
        ((∀ k ∈ ks, ¬ k.Joins w.session w.struct.atoms i j) → c'.entry i j = c.entry i j)
  | [], w, _, c, hc, _, _ => ⟨c, hc, rfl, rfl, rfl, rfl, rfl, rfl, fun i j =>
      ⟨fun pre k post he => by simp at he, fun _ => rfl⟩⟩
  | k :: ks, w, h, c, hc, hlen, hv => by
    obtain ⟨c1, h1, h2, h3, h4⟩ := connect_step hd env h hc hlen k (hv k (by simp))
    obtain ⟨hG, ha, hp, hn, hb⟩ :=
      addConnection_good hd env w.session h k.atom1 k.atom2 k.num k.doAnalyze
    have hs : (w.call env k.op).1.session = w.session := rfl
    have ha' : (w.call env k.op).1.struct.atoms = w.struct.atoms := ha
    obtain ⟨c', g1, g2, g3, g4, g5, g6, g7, g8⟩ := connect_run hd env ks (w := (w.call env k.op).1)
      hG h1 (by rw [h2, ha']; exact hlen) (by
        intro k' hk'
        rw [hs, ha']
        exact hv k' (by simp [hk']))
    rw [hs, ha'] at g8
    refine ⟨c', g1, g2.trans h2, g3, g4.trans ha, g5.trans hp, g6.trans hn, g7.trans hb, ?_⟩
    intro i j
    obtain ⟨q1, q2⟩ := g8 i j
    refine ⟨?_, ?_⟩
    · intro pre k' post he hj hpost
      cases pre with
      | nil =>
        obtain ⟨rfl, rfl⟩ := List.cons.inj he
        rw [q2 hpost, h3 i j hj]
      | cons p pre =>
        obtain ⟨rfl, rfl⟩ := List.cons.inj he
        exact q1 pre k' post rfl hj hpost
    · intro hno
      rw [q2 fun k' hk' => hno k' (by simp [hk']), h4 i j (hno k (by simp))]

/-- C116: after any number of valid calls of `add_connection` the number of distances of the atoms
`i` and `j` is the one given by the last call that joins them, and the former one if no call does;
atoms, positions and vectors are those before.  (`atoms.length = numBase` holds as long as no
`add_atom` raised an `AttributeError`, C29.) -/
theorem C116_last_call (hd : 0 < d) {env : Env ℝ} {w : World d ℝ} (h : Reachable env w)
    {c : ConnMatrix} (hc : w.struct.conn = some c)
    (hlen : w.struct.atoms.length = w.struct.numBase) (ks : List Connect)
    (hv : ∀ k ∈ ks, k.Valid w.session w.struct.atoms) :
    ∃ c', (w.run env (ks.map Connect.op)).struct.conn = some c' ∧ c'.size = c.size ∧
      (w.run env (ks.map Connect.op)).struct.atoms = w.struct.atoms ∧
      (w.run env (ks.map Connect.op)).struct.positions = w.struct.positions ∧
      (w.run env (ks.map Connect.op)).struct.basis = w.struct.basis ∧
      ∀ i j, (∀ pre k post, ks = pre ++ k :: post → k.Joins w.session w.struct.atoms i j →
          (∀ k' ∈ post, ¬ k'.Joins w.session w.struct.atoms i j) → c'.entry i j = k.num) ∧
        ((∀ k ∈ ks, ¬ k.Joins w.session w.struct.atoms i j) → c'.entry i j = c.entry i j) := by
  have hG := h.good hd
  obtain ⟨c', g1, g2, -, g4, g5, -, g7, g8⟩ := connect_run hd env ks hG hc
    (by rw [hlen, (hG.conn_size c hc).1]) hv
  exact ⟨c', g1, g2, g4, g5, g7, g8⟩

/-- The last element with a property. -/
theorem exists_last {α : Type*} (p : α → Prop) : ∀ l : List α, (∃ x ∈ l, p x) →
    ∃ pre x post, l = pre ++ x :: post ∧ p x ∧ ∀ y ∈ post, ¬ p y
  | [], h => by obtain ⟨x, hx, -⟩ := h; cases hx
  | a :: l, h => by
    by_cases hl : ∃ x ∈ l, p x
    · obtain ⟨pre, x, post, rfl, hx, hpost⟩ := exists_last p l hl
      exact ⟨a :: pre, x, post, rfl, hx, hpost⟩
    · obtain ⟨x, hx, hp⟩ := h
      rcases List.mem_cons.1 hx with rfl | hx
      · exact ⟨[], x, l, rfl, hp, fun y hy hpy => hl ⟨y, hy, hpy⟩⟩
      · exact absurd ⟨x, hx, hp⟩ hl

/-- The connections asked for by a list of calls, without regard to their order. -/
def SameConnections (ks ks' : List Connect) : Prop :=
  ∀ a b n, (∃ k ∈ ks, k.atom1 = a ∧ k.atom2 = b ∧ k.num = n) ↔
    ∃ k ∈ ks', k.atom1 = a ∧ k.atom2 = b ∧ k.num = n

/-- C116 (restricted to calls of `add_connection`): two lists of valid calls that ask for the same
connections, in any order, repeated or not and with or without `analyze`, lead to the same
configuration, if they never ask for different numbers for the same pair; a following `analyze` has
the same outcome and finds the same neighbours. -/
theorem C116_order_partial (hd : 0 < d) {env : Env ℝ} {w : World d ℝ} (h : Reachable env w)
    {c : ConnMatrix} (hc : w.struct.conn = some c)
    (hlen : w.struct.atoms.length = w.struct.numBase) (ks ks' : List Connect)
    (hv : ∀ k ∈ ks, k.Valid w.session w.struct.atoms) (hsame : SameConnections ks ks')
    (hdet : ∀ k ∈ ks, ∀ k' ∈ ks, ∀ i j, k.Joins w.session w.struct.atoms i j →
      k'.Joins w.session w.struct.atoms i j → k.num = k'.num) :
    let S := (w.run env (ks.map Connect.op)).struct
    let S' := (w.run env (ks'.map Connect.op)).struct
    S.conn = S'.conn ∧ S.atoms = S'.atoms ∧ S.positions = S'.positions ∧ S.basis = S'.basis ∧
    (S.analyze env).2 = (S'.analyze env).2 ∧
    ((S.analyze env).2 = .ok () → (S.analyze env).1.analysis = (S'.analyze env).1.analysis) := by
  intro S S'
  have hG := h.good hd
  have hcs : w.struct.atoms.length = c.size := by rw [hlen, (hG.conn_size c hc).1]
  have hto : ∀ k' ∈ ks', ∃ k ∈ ks, k.num = k'.num ∧ ∀ i j,
      k.Joins w.session w.struct.atoms i j ↔ k'.Joins w.session w.struct.atoms i j := by
    intro k' hk'
    obtain ⟨k, hk, e1, e2, e3⟩ := (hsame k'.atom1 k'.atom2 k'.num).2 ⟨k', hk', rfl, rfl, rfl⟩
    exact ⟨k, hk, e3, fun i j => by unfold Connect.Joins; rw [e1, e2]⟩
  have hfrom : ∀ k ∈ ks, ∃ k' ∈ ks', k'.num = k.num ∧ ∀ i j,
      k'.Joins w.session w.struct.atoms i j ↔ k.Joins w.session w.struct.atoms i j := by
    intro k hk
    obtain ⟨k', hk', e1, e2, e3⟩ := (hsame k.atom1 k.atom2 k.num).1 ⟨k, hk, rfl, rfl, rfl⟩
    exact ⟨k', hk', e3, fun i j => by unfold Connect.Joins; rw [e1, e2]⟩
  have hv' : ∀ k ∈ ks', k.Valid w.session w.struct.atoms := by
    intro k' hk'
    obtain ⟨k, hk, e1, e2, -⟩ := (hsame k'.atom1 k'.atom2 k'.num).2 ⟨k', hk', rfl, rfl, rfl⟩
    have := hv k hk
    unfold Connect.Valid at this ⊢
    rwa [e1, e2] at this
  obtain ⟨c1, a1, a2, -, a4, a5, a6, a7, a8⟩ := connect_run hd env ks hG hc hcs hv
  obtain ⟨c2, b1, b2, -, b4, b5, b6, b7, b8⟩ := connect_run hd env ks' hG hc hcs hv'
  have hent : c1 = c2 := by
    obtain ⟨n1, f1⟩ := c1
    obtain ⟨n2, f2⟩ := c2
    dsimp only at a2 b2 a8 b8
    rw [a2, b2]
    congr 1
    funext i j
    by_cases hj : ∃ k ∈ ks, k.Joins w.session w.struct.atoms i j
    · have hj' : ∃ k ∈ ks', k.Joins w.session w.struct.atoms i j := by
        obtain ⟨k, hk, hkj⟩ := hj
        obtain ⟨k', hk', -, e⟩ := hfrom k hk
        exact ⟨k', hk', (e i j).2 hkj⟩
      obtain ⟨pre, k, post, e, hk, hpost⟩ := exists_last _ ks hj
      obtain ⟨pre', k', post', e', hk', hpost'⟩ := exists_last _ ks' hj'
      rw [(a8 i j).1 pre k post e hk hpost, (b8 i j).1 pre' k' post' e' hk' hpost']
      obtain ⟨k2, hk2, e2, e3⟩ := hto k' (by rw [e']; simp)
      rw [← e2]
      exact hdet k (by rw [e]; simp) k2 hk2 i j hk ((e3 i j).2 hk')
    · have hj' : ∀ k ∈ ks', ¬ k.Joins w.session w.struct.atoms i j := by
        intro k' hk' hkj
        obtain ⟨k, hk, -, e⟩ := hto k' hk'
        exact hj ⟨k, hk, (e i j).2 hkj⟩
      rw [(a8 i j).2 fun k hk hkj => hj ⟨k, hk, hkj⟩, (b8 i j).2 hj']
  subst hent
  have e1 : S.conn = S'.conn := a1.trans b1.symm
  have e2 : S.atoms = S'.atoms := a4.trans b4.symm
  have e3 : S.positions = S'.positions := a5.trans b5.symm
  have e4 : S.basis = S'.basis := a7.trans b7.symm
  have := C83_analyze_partial env S S' e4 e2 e3 (a6.trans b6.symm) e1
  exact ⟨e1, e2, e3, e4, this.1, fun hok => (this.2 hok).1⟩

/-! ## Two atoms on a line -/

/-- The atoms of the examples. -/
def atomA : Atom := ⟨0, "A", .none, 0⟩
def atomB : Atom := ⟨1, "B", .none, 1⟩

/-- The chain with the atom `A` at the origin. -/
noncomputable def lineA : World 1 ℝ :=
  ⟨Session.empty, { ofBasis (chainBasis 1) with
    atoms := [atomA], positions := [0], numBase := 1, conn := some (ConnMatrix.zeros 1) }⟩

/-- The call that adds the atom `B` in the middle of the cell. -/
noncomputable def addB : World.Op ℝ := .addAtom (some [1 / 2]) (.obj atomB) false 0

theorem addB_run (env : Env ℝ) (c : ConnMatrix) :
    ({ lineA with struct := { lineA.struct with conn := some c } } : World 1 ℝ).call env addB =
      (⟨Session.empty, { ofBasis (chainBasis 1) with
        atoms := [atomA, atomB], positions := [0, fun _ => 1 / 2], numBase := 2,
        conn := some (ConnMatrix.zeros 2) }⟩, .ok ()) := by
  have hv : (Structure.toVec [1 / 2] : Option (Vec 1 ℝ)) = some fun _ => 1 / 2 := by
    unfold Structure.toVec
    rw [dif_pos (by simp)]
    congr 1
    funext i
    have : i = 0 := Subsingleton.elim _ _
    subst this
    rfl
  have hp : (fun _ => 1 / 2 : Vec 1 ℝ) ∉ ([0] : List (Vec 1 ℝ)) := by
    rw [List.mem_singleton]
    intro h
    have := congrFun h 0
    norm_num at this
  simp only [World.call, addB, World.addAtom, Structure.atomPos, hv, Bool.false_eq_true, if_false]
  rw [if_neg (by exact hp)]
  simp [addAtomAt, lineA, ofBasis]

theorem lineA_reachable (env : Env ℝ) : Reachable env lineA := by
  refine ⟨chainRows 1, chainBasis 1, Session.empty, [.addAtom none (.obj atomA) false 0],
    chain_init one_pos, ?_⟩
  simp only [World.run, List.foldl_cons, List.foldl_nil, World.call, World.addAtom,
    Structure.atomPos]
  rw [if_neg (by simp [ofBasis])]
  simp [addAtomAt, lineA, ofBasis]

/-- The chain with the atoms `A` and `B`. -/
noncomputable def lineAB (env : Env ℝ) : World 1 ℝ := (lineA.call env addB).1

theorem lineAB_eq (env : Env ℝ) : lineAB env = ⟨Session.empty, { ofBasis (chainBasis 1) with
    atoms := [atomA, atomB], positions := [0, fun _ => 1 / 2], numBase := 2,
    conn := some (ConnMatrix.zeros 2) }⟩ :=
  congrArg Prod.fst (addB_run env (ConnMatrix.zeros 1))

/-- `add_connection(0, 0, 1)`. -/
def connectAA : Connect := ⟨.num 0, .num 0, 1, false⟩

/-- C116 fails when an atom is added after a connection: `add_atom` resets all connections
(structure.py 264).  `add_connection(0, 0, 1)` followed by `add_atom` leaves the atom `A` without
connections, the same calls in the other order connect it.  All calls succeed. -/
theorem C116_atom_fails (env : Env ℝ) :
    ∃ (w : World 1 ℝ) (c c' : ConnMatrix), Reachable env w ∧
      (w.call env connectAA.op).2 = .ok () ∧ ((w.call env connectAA.op).1.call env addB).2 = .ok () ∧
      (w.call env addB).2 = .ok () ∧ ((w.call env addB).1.call env connectAA.op).2 = .ok () ∧
      (w.run env [connectAA.op, addB]).struct.conn = some c ∧ c.entry 0 0 = 0 ∧
      (w.run env [addB, connectAA.op]).struct.conn = some c' ∧ c'.entry 0 0 = 1 := by
  have e1 : lineA.call env connectAA.op =
      ({ lineA with struct := { lineA.struct with conn := some ((ConnMatrix.zeros 1).setPair 0 0 1) } },
        .ok ()) := rfl
  have e2 : (lineAB env).call env connectAA.op =
      (⟨(lineAB env).session,
        { (lineAB env).struct with conn := some ((ConnMatrix.zeros 2).setPair 0 0 1) }⟩,
        .ok ()) := by
    rw [lineAB_eq]
    rfl
  have e3 := addB_run env ((ConnMatrix.zeros 1).setPair 0 0 1)
  refine ⟨lineA, ConnMatrix.zeros 2, (ConnMatrix.zeros 2).setPair 0 0 1, lineA_reachable env,
    by rw [e1], by rw [e1, e3], ?_, ?_, ?_, rfl, ?_, rfl⟩
  · exact congrArg Prod.snd (addB_run env (ConnMatrix.zeros 1))
  · exact congrArg Prod.snd e2
  · change ((lineA.call env connectAA.op).1.call env addB).1.struct.conn = _
    rw [e1, e3]
  · exact congrArg (fun r => r.1.struct.conn) e2

/-- Calls that meet the conditions of `C116_order_partial`: `A` with `A` by name and `A` with `B` by
numbers (one of them negative), in both orders. -/
example (env : Env ℝ) : ∃ (w : World 1 ℝ) (c : ConnMatrix) (ks ks' : List Connect),
    Reachable env w ∧ w.struct.conn = some c ∧ w.struct.atoms.length = w.struct.numBase ∧
    ks.length = 2 ∧ ks' = ks.reverse ∧ (∀ k ∈ ks, k.Valid w.session w.struct.atoms) ∧
    SameConnections ks ks' ∧
    (∀ k ∈ ks, ∀ k' ∈ ks, ∀ i j, k.Joins w.session w.struct.atoms i j →
      k'.Joins w.session w.struct.atoms i j → k.num = k'.num) ∧
    ∃ k ∈ ks, k.Joins w.session w.struct.atoms 0 0 := by
  have hA : ∀ i, Means Session.empty [atomA, atomB] (.name "A") i ↔ i = 0 := by
    intro i
    constructor
    · rintro ⟨a, ha, hn⟩
      match i with
      | 0 => rfl
      | 1 =>
        cases ha
        exact absurd hn (by decide)
      | i + 2 => simp at ha
    · rintro rfl
      exact ⟨atomA, rfl, by decide⟩
  refine ⟨lineAB env, ConnMatrix.zeros 2, [⟨.name "A", .name "A", 2, false⟩,
    ⟨.num 0, .num (-1), 1, true⟩], _, (lineA_reachable env).call addB, ?_, ?_, rfl, rfl, ?_, ?_, ?_, ?_⟩
  · rw [lineAB_eq]
  · rw [lineAB_eq]; rfl
  · rw [lineAB_eq]
    intro k hk
    rcases List.mem_cons.1 hk with rfl | hk
    · exact ⟨trivial, trivial⟩
    · rw [List.mem_singleton.1 hk]
      exact ⟨⟨0, by decide, Or.inl rfl⟩, ⟨1, by decide, Or.inr rfl⟩⟩
  · intro a b n
    simp only [List.mem_reverse]
  · rw [lineAB_eq]
    intro k hk k' hk' i j
    simp only [List.mem_cons, List.not_mem_nil, or_false] at hk hk'
    have h0 : ∀ i, Means Session.empty [atomA, atomB] (.num 0) i ↔ i = 0 := by
      intro i
      simp only [Means, List.length_cons, List.length_nil]
      omega
    have h1 : ∀ i, Means Session.empty [atomA, atomB] (.num (-1)) i ↔ i = 1 := by
      intro i
      simp only [Means, List.length_cons, List.length_nil]
      omega
    intro hj hj'
    unfold Connect.Joins at hj hj'
    rcases hk with rfl | rfl <;> rcases hk' with rfl | rfl
    · rfl
    · have h2 := hj.elim And.left And.right
      have h3 := hj.elim And.right And.left
      rw [hA] at h2 h3
      rw [h0, h0, h1, h1] at hj'
      omega
    · have h2 := hj'.elim And.left And.right
      have h3 := hj'.elim And.right And.left
      rw [hA] at h2 h3
      rw [h0, h0, h1, h1] at hj
      omega
    · rfl
  · rw [lineAB_eq]
    exact ⟨_, List.mem_cons_self, Or.inl ⟨(hA 0).2 rfl, (hA 0).2 rfl⟩⟩

end Lattpy
