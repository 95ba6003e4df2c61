import Verif.Props.PresetBuild
import Verif.Props.TorusPresets
import Verif.Props.LatticeDimer
import Verif.Props.Translate

/-!
# C120: a finite lattice is a part of the infinite structure
-/

set_option autoImplicit false

namespace Lattpy

open Structure World Preset

variable {d : ℕ}

/-! ## spec -/

/-- The neighbours of every site of the built lattice are those neighbours of the site in the
infinite structure (`get_neighbors` of the structure, nearest level) that are part of the lattice. -/
def PartOfStructure (S : Structure d ℝ) (L : Lattice d ℝ) (D : LatticeData d ℝ) : Prop :=
  ∀ (i : ℕ) (a : Idx d), D.indices[i]? = some a → ∃ l inf, L.neighbors i none false = .ok l ∧
    S.getNeighbors a.cell a.alpha 0 = .ok inf ∧ l.Nodup ∧ inf.Nodup ∧
    ∀ j, j ∈ l ↔ ∃ b : Idx d, D.indices[j]? = some b ∧ b ∈ inf

/-- The number of neighbours of a site: at most as many as in the infinite structure, and as many if
and only if all of them are part of the lattice (a site of the bulk). -/
def BulkCount (S : Structure d ℝ) (L : Lattice d ℝ) (D : LatticeData d ℝ) : Prop :=
  ∀ (i : ℕ) (a : Idx d), D.indices[i]? = some a → ∃ l inf, L.neighbors i none false = .ok l ∧
    S.getNeighbors a.cell a.alpha 0 = .ok inf ∧ l.length ≤ inf.length ∧
    (l.length = inf.length ↔ ∀ b ∈ inf, b ∈ D.indices)

/-! ## lemmas -/

theorem PartOfStructure.bulk {S : Structure d ℝ} {L : Lattice d ℝ} {D : LatticeData d ℝ}
    (hn : D.indices.Nodup) (h : PartOfStructure S L D) : BulkCount S L D := by
  intro i a hi
  obtain ⟨l, inf, h1, h2, hl, hinf, hm⟩ := h i a hi
  refine ⟨l, inf, h1, h2, ?_⟩
  have hlt : ∀ j ∈ l, j < D.indices.length := fun j hj => by
    obtain ⟨b, hb, -⟩ := (hm j).1 hj
    exact (List.getElem?_eq_some_iff.1 hb).1
  have hmap : (l.filterMap fun j => D.indices[j]?).length = l.length := by
    clear hm hl h1
    induction l with
    | nil => rfl
    | cons j l ih =>
      have hj := hlt j (by simp)
      rw [List.filterMap_cons_some (List.getElem?_eq_getElem hj), List.length_cons, List.length_cons,
        ih fun j' hj' => hlt j' (by simp [hj'])]
  have hmem : ∀ b, b ∈ (l.filterMap fun j => D.indices[j]?) ↔ b ∈ inf ∧ b ∈ D.indices := by
    intro b
    rw [List.mem_filterMap]
    constructor
    · rintro ⟨j, hj, hb⟩
      obtain ⟨b', hb', hi'⟩ := (hm j).1 hj
      rw [hb] at hb'
      cases hb'
      exact ⟨hi', List.mem_of_getElem? hb⟩
    · rintro ⟨hb, hb'⟩
      obtain ⟨j, hj⟩ := List.getElem?_of_mem hb'
      exact ⟨j, (hm j).2 ⟨b, hj, hb⟩, hj⟩
  have hnd : (l.filterMap fun j => D.indices[j]?).Nodup := by
    refine List.Nodup.filterMap ?_ hl
    intro j j' b hb hb'
    obtain ⟨h3, h4⟩ := List.getElem?_eq_some_iff.1 hb
    obtain ⟨h5, h6⟩ := List.getElem?_eq_some_iff.1 hb'
    exact (List.Nodup.getElem_inj_iff hn).1 (h4.trans h6.symm)
  have hperm : (l.filterMap fun j => D.indices[j]?).Perm (inf.filter fun b => decide (b ∈ D.indices)) := by
    rw [List.perm_ext_iff_of_nodup hnd (hinf.filter _)]
    intro b
    rw [hmem, List.mem_filter, decide_eq_true_eq]
  rw [← hmap, hperm.length_eq]
  refine ⟨List.length_filter_le _ _, ?_⟩
  rw [List.length_filter_eq_length_iff]
  simp

/-- The nearest neighbours of a site in the infinite structure. -/
theorem NearestOnly.query {w : World d ℝ} {r : ℝ} {N : ℕ → Set (Idx d)} (h : NearestOnly w r N)
    (hd : 0 < d) {env : Env ℝ} (hr : Reachable env w) {α : ℕ} (hα : α < w.struct.numBase)
    (hne : (N α).Nonempty) (n : Fin d → ℤ) :
    ∃ l, w.struct.getNeighbors n α 0 = .ok l ∧ l.Nodup ∧
      ∀ b : Idx d, b ∈ l ↔ Idx.mk (b.cell - n) b.alpha ∈ N α := by
  obtain ⟨A, hA, hl⟩ := h.listed α hα
  obtain ⟨cells, m, c, -, -, -, -, -, hI⟩ := (hr.good hd).analysis A hA
  obtain ⟨i0, hi0⟩ := hne
  obtain ⟨Dn, xs, hb, hx, hi⟩ := (hl _ _).2 ⟨rfl, hi0⟩
  obtain ⟨⟨hkeys, hwf⟩, -, -⟩ := hI.base α Dn hb
  have hall : ∀ p ∈ Dn, p.1 = npRound 6 r := by
    rintro ⟨y, ys⟩ hp
    obtain ⟨i, hi⟩ := List.exists_mem_of_ne_nil _ (hwf _ hp)
    exact ((hl y i).1 ⟨Dn, ys, hb, hp, hi⟩).1
  have hone : Dn = [(npRound 6 r, xs)] := by
    match Dn, hkeys, hall, hx with
    | [p], _, _, hx =>
      rw [List.mem_singleton.1 hx]
    | p :: q :: t, hkeys, hall, _ =>
      exfalso
      have h1 := hall p (by simp)
      have h2 := hall q (by simp)
      simp [NDict.keys, h1, h2] at hkeys
  have hq : w.struct.getNeighbors n α 0 = .ok (xs.map (Structure.shiftIdx n)) := by
    unfold Structure.getNeighbors
    rw [hA]
    dsimp only
    rw [pyGet_eq_some.2 ⟨α, Or.inl rfl, hb⟩, hone]
    simp [NDict.sortedKeys, NDict.keys, pyGet, NDict.get?]
  obtain ⟨-, -, -, -, -, -, -, -, -, -, -, -, hnd, -⟩ := getNeighbors_info (hr.good hd) hq
  refine ⟨_, hq, hnd, fun b => ?_⟩
  have hxs : ∀ i, i ∈ xs ↔ i ∈ N α := by
    intro i
    constructor
    · intro hi
      exact ((hl _ i).1 ⟨Dn, xs, hb, hx, hi⟩).2
    · intro hi
      obtain ⟨Dn', xs', hb', hx', hi'⟩ := (hl _ _).2 ⟨rfl, hi⟩
      rw [hb] at hb'
      cases hb'
      rw [hone, List.mem_singleton] at hx'
      cases hx'
      exact hi'
  rw [List.mem_map]
  constructor
  · rintro ⟨i, hi, rfl⟩
    unfold Structure.shiftIdx
    rw [Idx.cell_mk, Idx.alpha_mk]
    have : (fun k => i.cell k + n k) - n = i.cell := by
      funext k
      simp
    rw [this, Idx.mk_cell_alpha]
    exact (hxs i).1 hi
  · intro hb'
    refine ⟨_, (hxs _).2 hb', ?_⟩
    unfold Structure.shiftIdx
    rw [Idx.cell_mk, Idx.alpha_mk]
    have : (fun k => (b.cell - n) k + n k) = b.cell := by
      funext k
      simp
    rw [this, Idx.mk_cell_alpha]

/-- The sites `N` are the sites at the nearest distance. -/
theorem NearestOnly.distance_iff {w : World d ℝ} {r : ℝ} {N : ℕ → Set (Idx d)} (h : NearestOnly w r N)
    (hd : 0 < d) {env : Env ℝ} (hr : Reachable env w) {a b : Idx d} {p q : Vec d ℝ}
    (hp : IsSitePos w.struct a p) (hq : IsSitePos w.struct b q) {α : ℕ} (hα : a.alpha = α) :
    distance q p = r ↔ Idx.mk (b.cell - a.cell) b.alpha ∈ N α := by
  have hr0 := h.pos
  have hαn : α < w.struct.numBase := by
    obtain ⟨α', ra, h1, h2, -⟩ := hp
    have : α' = α := by omega
    subst this
    rw [← (hr.good hd).positions_length]
    exact (List.getElem?_eq_some_iff.1 h2).1
  constructor
  · intro e
    have hab : a ≠ b := by
      rintro rfl
      obtain ⟨-, hp1⟩ := (isSitePos_iff (hr.good hd).positions_length _ _).1 hp
      obtain ⟨-, hq1⟩ := (isSitePos_iff (hr.good hd).positions_length _ _).1 hq
      rw [hp1, hq1, distance_self] at e
      linarith
    obtain ⟨α', β, e1, e2, ⟨-, h1⟩ | h1⟩ := h.sites hp hq hab
    · have : α' = α := by omega
      subst this
      rw [e2]
      exact h1
    · rw [e] at h1
      linarith
  · intro hN
    obtain ⟨A, hA, hl⟩ := h.listed α hαn
    obtain ⟨cells, m, c, -, -, -, -, -, hI⟩ := (hr.good hd).analysis A hA
    obtain ⟨-, β, hβ, n, -, e, hx, -⟩ := (listed_iff hI _ _ _).1 ((hl _ _).2 ⟨rfl, hN⟩)
    rw [Idx.mk_inj] at e
    obtain ⟨e1, e2⟩ := e
    have hdist : npRound 6 (distance q p) = npRound 6 r := by
      obtain ⟨α', ra, f1, f2, rfl⟩ := hp
      obtain ⟨β', rb, g1, g2, rfl⟩ := hq
      have h1 : α' = α := by omega
      have h2 : β' = β := by omega
      subst h1 h2
      rw [hx]
      unfold siteDist
      rw [posOf_eq f2, posOf_eq g2, ← e1, ← distance_translate _ _ a.cell]
      unfold distance
      dsimp only
      congr 1
      rw [LatticeBasis.translate_eq, LatticeBasis.translate_eq]
      simp
    have h1 := abs_npRound_sub_le 6 (distance q p)
    have h2 := h.round
    rw [hdist] at h1
    have hres := h.resolved
    rw [abs_le] at h1 h2
    norm_num at h1 h2 hres
    have hab : a ≠ b := by
      rintro rfl
      obtain ⟨-, hp1⟩ := (isSitePos_iff (hr.good hd).positions_length _ _).1 hp
      obtain ⟨-, hq1⟩ := (isSitePos_iff (hr.good hd).positions_length _ _).1 hq
      rw [hp1, hq1, distance_self] at h1
      linarith
    obtain ⟨-, -, -, -, ⟨e, -⟩ | e⟩ := h.sites hp hq hab
    · exact e
    · exfalso
      linarith

/-! ## C120 -/

/-- C120 for every structure whose connections are those between nearest sites, if every atom has
neighbours: after every successful build (any shape, position and callback; no `min_neighbors` and
periodic axes) the lattice is a part of the infinite structure. -/
theorem C120_restrict_partial (hd : 0 < d) {env : Env ℝ} {L L' : Lattice d ℝ}
    (hr : Reachable env L.world) {r : ℝ} {N : ℕ → Set (Idx d)} (h : NearestOnly L.world r N)
    (hne : ∀ α < L.struct.numBase, (N α).Nonempty)
    {a : BuildArgs d ℝ} (hm : a.minNeighbors = none) (hp : a.periodic = none) (hb : a.bits = none)
    (hok : L.build env a = (L', .ok ())) :
    ∃ D, L'.data = some D ∧ PartOfStructure L.struct L' D ∧ BulkCount L.struct L' D := by
  obtain ⟨D, hD, hs, hn, -, hnn, -⟩ := C59_nearest_only_partial hd hr h hm hp hb hok
  have key : PartOfStructure L.struct L' D := by
    intro i x hi
    have hi' : i < D.numSites := (List.getElem?_eq_some_iff.1 hi).1
    obtain ⟨l, hl, hln, hlm⟩ := hnn i hi'
    have hget : ∀ (j : ℕ) (b : Idx d), D.indices[j]? = some b → ∃ q, D.positions[j]? = some q ∧
        IsSitePos L.struct b q := by
      intro j b hj
      obtain ⟨h1, rfl⟩ := List.getElem?_eq_some_iff.1 hj
      have h2 : j < D.positions.length := by rw [← hs.length_eq]; exact h1
      exact ⟨_, List.getElem?_eq_getElem h2, by simpa using hs.get h1 h2⟩
    obtain ⟨p, hpi, hsp⟩ := hget i x hi
    obtain ⟨α, ra, hα, hra, -⟩ := id hsp
    have hαn : α < L.struct.numBase := by
      exact lt_of_lt_of_eq (List.getElem?_eq_some_iff.1 hra).1 (hr.good hd).positions_length
    obtain ⟨inf, hq, hnd, hmem⟩ := h.query hd hr hαn (hne α hαn) x.cell
    refine ⟨l, inf, hl, by rw [hα]; exact hq, hln, hnd, fun j => ?_⟩
    rw [hlm]
    constructor
    · rintro ⟨p', q, hp', hq', e⟩
      rw [hpi] at hp'
      cases hp'
      have h2 : j < D.indices.length := by
        rw [hs.length_eq]
        exact (List.getElem?_eq_some_iff.1 hq').1
      obtain ⟨q', hq'', hsq⟩ := hget j _ (List.getElem?_eq_getElem h2)
      rw [hq'] at hq''
      cases hq''
      exact ⟨_, List.getElem?_eq_getElem h2, (hmem _).2 ((h.distance_iff hd hr hsp hsq hα).1 e)⟩
    · rintro ⟨b, hj, hb⟩
      obtain ⟨q, hq', hsq⟩ := hget j b hj
      exact ⟨p, q, hpi, hq', (h.distance_iff hd hr hsp hsq hα).2 ((hmem _).1 hb)⟩
  exact ⟨D, hD, key, key.bulk hn⟩

/-- Every successful build of a finite lattice (without `min_neighbors`, periodic boundary conditions
and an explicit index type) from the configured structure `w` makes a part of the infinite structure,
where every site has `z` nearest neighbours. -/
def BuildsPart (env : Env ℝ) (w : World d ℝ) (z : ℕ) : Prop :=
  (∀ (n : Fin d → ℤ) (α : ℕ), α < w.struct.numBase →
    ∃ inf, w.struct.getNeighbors n α 0 = .ok inf ∧ inf.length = z) ∧
  ∀ (L L' : Lattice d ℝ) (a : BuildArgs d ℝ), L.world = w → a.minNeighbors = none →
    a.periodic = none → a.bits = none → L.build env a = (L', .ok ()) →
    ∃ D, L'.data = some D ∧ PartOfStructure w.struct L' D ∧ BulkCount w.struct L' D

theorem NearestOnly.part {w : World d ℝ} {r : ℝ} {N : ℕ → Set (Idx d)} (h : NearestOnly w r N)
    (hd : 0 < d) {env : Env ℝ} (hr : Reachable env w) {z : ℕ} (hz : z ≠ 0)
    (hc : ∀ α, (N α).ncard = z) : BuildsPart env w z := by
  have hne : ∀ α, (N α).Nonempty := fun α => by
    rw [← Set.ncard_pos (Set.finite_of_ncard_ne_zero (by rw [hc]; exact hz)), hc]
    omega
  refine ⟨fun n α hα => ?_, ?_⟩
  · obtain ⟨l, hl, hn, hm⟩ := h.query hd hr hα (hne α) n
    refine ⟨l, hl, ?_⟩
    have : N α = (fun b : Idx d => Idx.mk (b.cell - n) b.alpha) '' (l.toFinset : Set (Idx d)) := by
      ext x
      simp only [List.coe_toFinset, Set.mem_image, Set.mem_ofPred_eq]
      constructor
      · intro hx
        have e : Idx.mk ((Idx.mk (x.cell + n) x.alpha).cell - n) (Idx.mk (x.cell + n) x.alpha).alpha = x := by
          rw [Idx.cell_mk, Idx.alpha_mk, add_sub_cancel_right, Idx.mk_cell_alpha]
        exact ⟨Idx.mk (x.cell + n) x.alpha, (hm _).2 (by rw [e]; exact hx), e⟩
      · rintro ⟨b, hb, rfl⟩
        exact (hm b).1 hb
    rw [← hc α, this, Set.ncard_image_of_injective, Set.ncard_coe_finset, List.toFinset_card_of_nodup hn]
    intro b b' e
    rw [Idx.mk_inj] at e
    rw [Idx.ext_iff]
    exact ⟨sub_left_injective e.1, e.2⟩
  · rintro L L' a rfl hm hp hb hok
    exact C120_restrict_partial hd hr h (fun α _ => hne α) hm hp hb hok

theorem axis_ncard (d : ℕ) : {idx : Idx d | ∃ n ∈ axisCells d, idx = Idx.mk n 0}.ncard = 2 * d := by
  have e : {idx : Idx d | ∃ n ∈ axisCells d, idx = Idx.mk n 0} =
      (fun p : Fin d × Bool => Idx.mk (Pi.single p.1 (if p.2 then (1 : ℤ) else -1)) 0) '' Set.univ := by
    ext x
    simp only [Set.mem_ofPred_eq, Set.image_univ, Set.mem_range, Prod.exists, Bool.exists_bool, axisCells]
    constructor
    · rintro ⟨n, ⟨i, rfl | rfl⟩, rfl⟩
      · exact ⟨i, Or.inr rfl⟩
      · exact ⟨i, Or.inl rfl⟩
    · rintro ⟨i, rfl | rfl⟩
      · exact ⟨_, ⟨i, Or.inr rfl⟩, rfl⟩
      · exact ⟨_, ⟨i, Or.inl rfl⟩, rfl⟩
  rw [e, Set.ncard_image_of_injective, Set.ncard_univ, Nat.card_prod, Nat.card_eq_fintype_card,
    Nat.card_eq_fintype_card, Fintype.card_fin, Fintype.card_bool, mul_comm]
  rintro ⟨i, s⟩ ⟨j, t⟩ h
  dsimp only at h
  rw [Idx.mk_inj] at h
  have h1 := congrFun h.1 i
  rw [Pi.single_eq_same] at h1
  have hij : i = j := by
    by_contra hne
    rw [Pi.single_eq_of_ne hne] at h1
    split_ifs at h1
    omega
  subst hij
  rw [Pi.single_eq_same] at h1
  cases s <;> cases t <;> simp at h1 ⊢

theorem cubic_part (hd : 0 < d) (env : Env ℝ) (s : Session) {a : ℝ} (ha : 1 / 10 ^ 5 ≤ |a|)
    (atom : AtomSpec) {rows : Matrix (Fin d) (Fin d) ℝ}
    (hrows : rows = a • (1 : Matrix (Fin d) (Fin d) ℝ)) :
    ∃ w, configure env s (LatticeBasis.init rows) (oneAtom atom 1) = .ok w ∧
      BuildsPart env w (2 * d) := by
  obtain ⟨w, h1, h2, -, h3⟩ := cubic_nearest hd env s ha atom hrows
  have hr := configure_reachable h1
  exact ⟨w, h1, (cubic_only ha hd hr ((configure_vectors h1).trans hrows) h2 h3).part hd hr (by omega)
    fun _ => axis_ncard d⟩

/-- C120 for the preset lattices with one shell of neighbours and any lattice constant resolved by the
rounding of distances: all finite lattices built from them, with any shape, position and callback, are
parts of the infinite lattice, and a site has all of its `2 d` (hypercubic), 6 (hexagonal) or 3
(honeycomb) neighbours if and only if all of these are part of the lattice. -/
theorem C120_presets (env : Env ℝ) (s : Session) (a : ℝ) (ha : 1 / 10 ^ 5 ≤ |a|) (atom : AtomSpec) :
    (∃ w, simpleChain env s a atom 1 = .ok w ∧ BuildsPart env w 2) ∧
    (∃ w, simpleSquare env s a atom 1 = .ok w ∧ BuildsPart env w 4) ∧
    (∃ w, simpleCubic env s a atom 1 = .ok w ∧ BuildsPart env w 6) ∧
    (∀ d, 0 < d → ∃ w : World d ℝ,
      configure env s (LatticeBasis.hypercubic d a) (oneAtom atom 1) = .ok w ∧
      BuildsPart env w (2 * d)) ∧
    (∃ w, simpleHexagonal env s a atom 1 = .ok w ∧ BuildsPart env w 6) ∧
    (∃ w, honeycomb env s a atom = .ok w ∧ BuildsPart env w 3) ∧
    (∃ w, graphene env s a = .ok w ∧ BuildsPart env w 3) := by
  refine ⟨?_, ?_, ?_, ?_, ?_, ?_, ?_⟩
  · exact cubic_part one_pos env s ha atom (rows := !![a]) (by
      ext i j; fin_cases i; fin_cases j; simp)
  · exact cubic_part two_pos env s ha atom rfl
  · exact cubic_part three_pos env s ha atom rfl
  · intro d hd
    exact cubic_part hd env s ha atom rfl
  · obtain ⟨w, h1, h2, h3⟩ := C84_hexagonal_partial env s a ha atom
    have hr := configure_reachable h1
    exact ⟨w, h1, (hex_only ha hr (configure_vectors h1) h2 h3).part two_pos hr (by omega)
      fun _ => hexSet_ncard⟩
  · obtain ⟨w, at', h1, -, -, h2, h3, h4⟩ := C84_honeycomb_partial env s a ha atom
    obtain ⟨s', ops, hc⟩ := honeycomb_configure h1
    have hr := configure_reachable hc
    exact ⟨w, h1, (honey_only ha hr (configure_vectors hc) h2 h3 h4).part two_pos hr (by omega)
      honeySets_ncard⟩
  · obtain ⟨w, h1, -, h2, h3, h4⟩ := C84_graphene_partial env s a ha
    obtain ⟨s', ops, hc⟩ := graphene_configure h1
    have hr := configure_reachable hc
    exact ⟨w, h1, (honey_only ha hr (configure_vectors hc) h2 h3 h4).part two_pos hr (by omega)
      honeySets_ncard⟩

/-- Lattices that meet the hypotheses: graphene in a box of the size 10 × 20 can be built
(`C108_boxes`). -/
example (env : Env ℝ) (s : Session) : ∃ w L D, graphene env s 1 = .ok w ∧
    (Lattice.ofWorld w).build env { shape := .size (List.ofFn ![10, 20]) true } = (L, .ok ()) ∧
    L.data = some D ∧ PartOfStructure w.struct L D ∧ BulkCount w.struct L D := by
  obtain ⟨-, -, -, -, -, -, w, h1, -, h2⟩ := C120_presets env s 1 (by norm_num) .none
  obtain ⟨-, -, -, -, -, -, w', h1', h2'⟩ := C108_boxes env s 1 (by norm_num) .none
  cases h1.symm.trans h1'
  obtain ⟨L, D, b, e, -⟩ := h2' ![10, 20] true (by intro k; fin_cases k <;> norm_num)
  obtain ⟨D', e', h3, h4⟩ := h2 _ L _ rfl rfl rfl rfl b
  exact ⟨w, L, D', h1, b, e', h3, h4⟩

/-- C120 fails for several shells: the chain with lattice constant 10 and atoms at 0 and 3 has the
neighbour at 10 of the atom at 0 in the second level of distances, but in the lattice of two cells (sites
at 0, 3, 10, 13), which contains this neighbour as site 2, the neighbours of site 0 only are `[1]`. -/
theorem C120_two_atoms_fails (env : Env ℝ) :
    ∃ (w : World 1 ℝ) (L : Lattice 1 ℝ) (D : LatticeData 1 ℝ) (k : ℤ) (inf : List (Idx 1)),
      Reachable env w ∧ w.struct.basis.vectors 0 0 = 10 ∧
      w.struct.positions = [fun _ => 0, fun _ => 3] ∧
      (Lattice.ofWorld w).build env (dimerArgs 1 fun _ => true) = (L, .ok ()) ∧ L.data = some D ∧
      D.positions = [fun _ => 0, fun _ => 3, fun _ => 10, fun _ => 13] ∧
      w.struct.getNeighbors 0 0 k = .ok inf ∧ Idx.mk (fun _ => 1) 0 ∈ inf ∧
      D.indices[2]? = some (Idx.mk (fun _ => 1) 0) ∧ L.neighbors 0 none false = .ok [1] := by
  obtain ⟨w, A, h⟩ := exists_dimer env
  obtain ⟨L, D, h1, h2, h3, hc, -, h4⟩ := dimer_two_cells h
  have hr := h.reach
  obtain ⟨shape, D', hsh, hD', hb⟩ := built_sites rfl rfl h1
  cases h2.symm.trans hD'
  have hi : D.indices = [dimerIdx (0, 0), dimerIdx (0, 1), dimerIdx (1, 0), dimerIdx (1, 1)] := by
    cases hsh
    have := dimer_buildIndices h 1 fun _ => true
    have e := this.symm.trans hb
    simp only [Except.ok.injEq, Prod.mk.injEq] at e
    exact e.1.symm
  obtain ⟨cells, m, c, hcells, -, -, -, -, hI⟩ := (hr.good Nat.one_pos).analysis A h.analysis
  have hsd : ∀ n : Fin 1 → ℤ, w.struct.siteDist 0 0 n = ((n 0 * 10).natAbs : ℝ) := by
    intro n
    have hp : w.struct.positions[0]? = some fun _ => (0 : ℝ) := by rw [h.positions]; rfl
    rw [siteDist_eq hp hp, distance_some, distance_one, Fin.sum_univ_one, h.basis, chain_vectors,
      ← npRound_natCast (n 0 * 10).natAbs]
    refine congrArg (npRound (K := ℝ) 6) ?_
    rw [Nat.cast_natAbs]
    push_cast
    simp
  obtain ⟨-, -, q1, q2, q3⟩ := hI.configured.1 hc
  obtain ⟨-, n, hn, hxn⟩ := mem_levels.1 (List.mem_of_mem_take q3)
  have hone : (fun _ => 1 : Fin 1 → ℤ) ∈ cells := by
    have hn0 : (n 0 * 10).natAbs = 10 := by
      have e := hsd n
      simp only [Int.toNat_zero] at hxn
      rw [← hxn] at e
      exact_mod_cast e.symm
    have : n 0 = 1 ∨ n 0 = -1 := by omega
    rcases this with e | e
    · have : n = fun _ => 1 := by funext k; rw [Subsingleton.elim k 0, e]
      rwa [this] at hn
    · have : -n = fun _ => 1 := by funext k; rw [Subsingleton.elim k 0, Pi.neg_apply, e]; rfl
      have h5 := cells_neg hcells hn
      rwa [this] at h5
  have hlist : Listed A 0 10 (Idx.mk (fun _ => 1) 0) :=
    (listed_iff hI _ _ _).2 ⟨q1, 0, q2, _, hone, rfl, by rw [hsd]; norm_num, q3⟩
  obtain ⟨Dn, xs, hb0, hx, hmem⟩ := hlist
  obtain ⟨⟨hkeys, -⟩, -, -⟩ := hI.base 0 Dn hb0
  have hkey : (10 : ℝ) ∈ Dn.sortedKeys := by
    unfold NDict.sortedKeys
    rw [List.mem_insertionSort]
    exact List.mem_map.2 ⟨_, hx, rfl⟩
  obtain ⟨k, hk⟩ := List.getElem?_of_mem hkey
  refine ⟨w, L, D, (k : ℤ), xs.map (Structure.shiftIdx 0), hr, by rw [h.basis, chain_vectors],
    h.positions, h1, h2, h3, ?_, ?_, by rw [hi]; rfl, h4⟩
  · unfold Structure.getNeighbors
    rw [h.analysis]
    dsimp only
    rw [show pyGet A.base 0 = some Dn from pyGet_eq_some.2 ⟨0, Or.inl rfl, hb0⟩]
    dsimp only
    rw [pyGet_eq_some.2 ⟨k, Or.inl rfl, hk⟩]
    dsimp only
    rw [(NDict.get?_eq_some hkeys).2 hx]
  · refine List.mem_map.2 ⟨_, hmem, ?_⟩
    unfold Structure.shiftIdx
    rw [Idx.cell_mk, Idx.alpha_mk]
    congr 1

end Lattpy
