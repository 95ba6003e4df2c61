import Verif.Props.LatticeDimer
import Verif.Props.PresetBuild

/-!
# C117: lattices built from the same structure agree on their common sites
-/

set_option autoImplicit false

namespace Lattpy

open Structure World Preset

variable {d : ℕ}

/-- Two sites that belong to both lattices are neighbours in the one iff they are in the other. -/
def AgreeOnCommonSites (L1 : Lattice d ℝ) (D1 : LatticeData d ℝ) (L2 : Lattice d ℝ)
    (D2 : LatticeData d ℝ) : Prop :=
  ∀ (i1 j1 i2 j2 : ℕ) (p q : Vec d ℝ), D1.positions[i1]? = some p → D1.positions[j1]? = some q →
    D2.positions[i2]? = some p → D2.positions[j2]? = some q →
    ∃ l1 l2, L1.neighbors i1 none false = .ok l1 ∧ L2.neighbors i2 none false = .ok l2 ∧
      (j1 ∈ l1 ↔ j2 ∈ l2)

/-- The table is padded, has at most 256 different distances and all connected pairs are among the
nearest sites requested from the tree. -/
def WellResolved (A : Analysis d ℝ) (D : LatticeData d ℝ) : Prop :=
  ⊤ ∈ D.distvals ∧ D.distvals.length ≤ 256 ∧
  ∀ (i j : ℕ) (p q : Vec d ℝ), ShouldLink A D i j → D.positions[i]? = some p →
    D.positions[j]? = some q → closer D.positions p q ≤ (A.rawNum.map List.sum).sum + 1

/-- C117 for all structures, with the conditions under which a lattice has its neighbours (C59): two
lattices built from the same structure, with any shapes and callbacks, agree on their common
sites. -/
theorem C117_overlap_partial (hd : 0 < d) {env : Env ℝ} {L L1 L2 : Lattice d ℝ}
    (h : Reachable env L.world) (hS : SitesDistinct L.struct) {a1 a2 : BuildArgs d ℝ}
    (hm1 : a1.minNeighbors = none) (hp1 : a1.periodic = none) (hb1 : a1.bits = none)
    (hok1 : L.build env a1 = (L1, .ok ()))
    (hm2 : a2.minNeighbors = none) (hp2 : a2.periodic = none) (hb2 : a2.bits = none)
    (hok2 : L.build env a2 = (L2, .ok ())) :
    ∃ A D1 D2, L.struct.analysis = some A ∧ L1.data = some D1 ∧ L2.data = some D2 ∧
      ((∀ y, RawDistance A y → 5 / 10 ^ 6 < y) → WellResolved A D1 → WellResolved A D2 →
        AgreeOnCommonSites L1 D1 L2 D2) := by
  obtain ⟨A, D1, hA, hD1, hs1, hn1, hnb1⟩ := C59_neighbors_partial hd h hS hm1 hp1 hb1 hok1
  obtain ⟨A', D2, hA', hD2, hs2, hn2, hnb2⟩ := C59_neighbors_partial hd h hS hm2 hp2 hb2 hok2
  rw [hA] at hA'
  cases hA'
  refine ⟨A, D1, D2, hA, hD1, hD2, ?_⟩
  rintro hraw ⟨t1, c1, w1⟩ ⟨t2, c2, w2⟩ i1 j1 i2 j2 p q hi1 hj1 hi2 hj2
  -- the index of a position
  have hidx : ∀ (D D' : LatticeData d ℝ), List.Forall₂ (IsSitePos L.struct) D.indices D.positions →
      List.Forall₂ (IsSitePos L.struct) D'.indices D'.positions → ∀ (i i' : ℕ) (x : Vec d ℝ),
      D.positions[i]? = some x → D'.positions[i']? = some x →
      ∃ a : Idx d, D.indices[i]? = some a ∧ D'.indices[i']? = some a := by
    intro D D' hf hf' i i' x hx hx'
    have get : ∀ (D : LatticeData d ℝ), List.Forall₂ (IsSitePos L.struct) D.indices D.positions →
        ∀ i : ℕ, D.positions[i]? = some x →
          ∃ a : Idx d, D.indices[i]? = some a ∧ IsSitePos L.struct a x := by
      intro D hf i hx
      obtain ⟨hi, rfl⟩ := List.getElem?_eq_some_iff.1 hx
      have hi' : i < D.indices.length := by rw [hf.length_eq]; exact hi
      exact ⟨_, List.getElem?_eq_getElem hi', List.forall₂_iff_get.1 hf |>.2 i hi' hi⟩
    obtain ⟨a, e1, f1⟩ := get D hf i hx
    obtain ⟨b, e2, f2⟩ := get D' hf' i' hx'
    have : a = b := hS a b x f1 f2
    exact ⟨a, e1, by rw [this]; exact e2⟩
  obtain ⟨a, ha1, ha2⟩ := hidx D1 D2 hs1 hs2 i1 i2 p hi1 hi2
  obtain ⟨b, hb1', hb2'⟩ := hidx D1 D2 hs1 hs2 j1 j2 q hj1 hj2
  have hl : ∀ (D : LatticeData d ℝ), List.Forall₂ (IsSitePos L.struct) D.indices D.positions →
      ∀ i : ℕ, D.positions[i]? = some p → i < D.numSites := by
    intro D hf i hi
    have := (List.getElem?_eq_some_iff.1 hi).1
    rw [← hf.length_eq] at this
    exact this
  obtain ⟨l1, e1, -, s1, m1, -⟩ := hnb1 t1 c1 i1 (hl D1 hs1 i1 hi1)
  obtain ⟨l2, e2, -, s2, m2, -⟩ := hnb2 t2 c2 i2 (hl D2 hs2 i2 hi2)
  have pn1 := positions_nodup hS hs1 hn1
  have pn2 := positions_nodup hS hs2 hn2
  have hne : i1 = j1 ↔ i2 = j2 := by
    have key : ∀ (D : LatticeData d ℝ), D.positions.Nodup → ∀ i j : ℕ, D.positions[i]? = some p →
        D.positions[j]? = some q → (i = j ↔ p = q) := by
      intro D hnd i j hi hj
      constructor
      · rintro rfl
        rw [hi] at hj
        exact Option.some.inj hj
      · rintro rfl
        exact (List.getElem?_inj (List.getElem?_eq_some_iff.1 hi).1 hnd).1 (hi.trans hj.symm)
    rw [key D1 pn1 i1 j1 hi1 hj1, key D2 pn2 i2 j2 hi2 hj2]
  have hsl : ShouldLink A D1 i1 j1 ↔ ShouldLink A D2 i2 j2 := by
    have key : ∀ (D : LatticeData d ℝ) (i j : ℕ), D.positions[i]? = some p →
        D.positions[j]? = some q → D.indices[i]? = some a → D.indices[j]? = some b →
        (ShouldLink A D i j ↔ i ≠ j ∧ Configured A (Idx.alpha a) (Idx.alpha b) (distance q p (some 6))) := by
      intro D i j f1 f2 f3 f4
      unfold ShouldLink
      rw [f1, f2, f3, f4]
      constructor
      · rintro ⟨g0, p', q', a', b', g1, g2, g3, g4, g5⟩
        cases g1; cases g2; cases g3; cases g4
        exact ⟨g0, g5⟩
      · rintro ⟨g0, g5⟩
        exact ⟨g0, p, q, a, b, rfl, rfl, rfl, rfl, g5⟩
    rw [key D1 i1 j1 hi1 hj1 ha1 hb1', key D2 i2 j2 hi2 hj2 ha2 hb2', Ne, Ne, hne]
  refine ⟨l1, l2, e1, e2, ?_, ?_⟩
  · intro hj
    have := hsl.1 (s1 j1 hj)
    exact m2 hraw j2 p q this hi2 hj2 (w2 i2 j2 p q this hi2 hj2)
  · intro hj
    have := hsl.2 (s2 j2 hj)
    exact m1 hraw j1 p q this hi1 hj1 (w1 i1 j1 p q this hi1 hj1)

theorem NearestOnly.wellResolved (hd : 0 < d) {env : Env ℝ} {L L' : Lattice d ℝ}
    (hr : Reachable env L.world) {r : ℝ} {N : ℕ → Set (Idx d)} (h : NearestOnly L.world r N)
    {A : Analysis d ℝ} (hA : L.struct.analysis = some A) {a : BuildArgs d ℝ}
    (hm : a.minNeighbors = none) (hp : a.periodic = none) (hb : a.bits = none)
    (hok : L.build env a = (L', .ok ())) {D : LatticeData d ℝ} (hD : L'.data = some D) :
    WellResolved A D := by
  obtain ⟨A', D', table, hA', hD', -, hsites, hnd, hcomp, hset⟩ := build_table hd hr hm hp hb hok
  rw [hA] at hA'
  cases hA'
  rw [hD] at hD'
  cases hD'
  obtain ⟨hpn, htl, hlink, -⟩ := h.table hd hr hA hsites hnd hcomp
  obtain ⟨row, hrow, -⟩ := set_nonempty hset
  have h0 : 0 < D.positions.length := by rw [← htl]; exact List.length_pos_of_mem hrow
  obtain ⟨D', hset', -, -, htop, h256, hx⟩ := h.data hd hr hA hsites hnd h0 hcomp
  rw [hset] at hset'
  cases hset'
  refine ⟨htop, h256, ?_⟩
  rintro i j p q ⟨hij, p', q', x, y, e1, e2, e3, e4, hcf⟩ hpi hqj
  rw [hpi] at e1
  rw [hqj] at e2
  cases e1
  cases e2
  have get : ∀ (i : ℕ) (a : Idx d) (p : Vec d ℝ), D.indices[i]? = some a → D.positions[i]? = some p →
      IsSitePos L.struct a p := by
    intro i a p h1 h2
    obtain ⟨i1, e1⟩ := List.getElem?_eq_some_iff.1 h1
    obtain ⟨i2, e2⟩ := List.getElem?_eq_some_iff.1 h2
    have := hsites.get i1 i2
    simp only [List.get_eq_getElem, e1, e2] at this
    exact this
  have hxy : x ≠ y := by
    rintro rfl
    exact hij ((List.getElem?_inj (List.getElem?_eq_some_iff.1 e3).1 hnd).1 (e3.trans e4.symm))
  refine h.closer_le hd hr hA hsites hnd hpi ?_
  obtain ⟨α, β, -, -, ⟨hc, -⟩ | hc⟩ := h.sites (get i x p e3 hpi) (get j y q e4 hqj) hxy
  · exact hc
  · exfalso
    have hres := h.resolved
    have hrd := abs_le.1 h.round
    have h1 := abs_le.1 (abs_npRound_sub_le 6 (distance q p))
    have hx0 := h.configured hd hr hA hcf
    rw [distance_some] at hx0
    rw [hx0] at h1
    norm_num at h1 hrd hres
    linarith

/-- The hypotheses of C117_overlap_partial are met by graphene sheets of the sizes 10 × 20 and
30 × 7. -/
example (env : Env ℝ) (s : Session) : ∃ w L1 L2 A D1 D2, graphene env s 1 = .ok w ∧
    Reachable env w ∧ SitesDistinct w.struct ∧ w.struct.analysis = some A ∧
    (Lattice.ofWorld w).build env { shape := .size [10, 20] true } = (L1, .ok ()) ∧
    (Lattice.ofWorld w).build env { shape := .size [30, 7] true } = (L2, .ok ()) ∧
    L1.data = some D1 ∧ L2.data = some D2 ∧ (∀ y, RawDistance A y → 5 / 10 ^ 6 < y) ∧
    WellResolved A D1 ∧ WellResolved A D2 := by
  obtain ⟨w, h1, -, h2, h3, h4⟩ := C84_graphene_partial env s 1 (by norm_num)
  obtain ⟨s', ops, hc⟩ := graphene_configure h1
  have hr := configure_reachable hc
  have hN : NearestOnly w 1 honeySets := by
    simpa using honey_only (by norm_num) hr (configure_vectors hc) h2 h3 h4
  obtain ⟨-, -, -, -, -, -, w', h1', h2'⟩ := C108_boxes env s 1 (by norm_num) .none
  cases h1.symm.trans h1'
  obtain ⟨L1, D1, b1, d1, -⟩ := h2' ![10, 20] true (by intro k; fin_cases k <;> norm_num)
  obtain ⟨L2, D2, b2, d2, -⟩ := h2' ![30, 7] true (by intro k; fin_cases k <;> norm_num)
  obtain ⟨A, D, hA, -⟩ := C59_neighbors_partial (L := Lattice.ofWorld w) two_pos hr hN.distinct rfl rfl rfl b1
  exact ⟨w, L1, L2, A, D1, D2, h1, hr, hN.distinct, hA, by simpa using b1, by simpa using b2, d1, d2,
    hN.raw two_pos hr hA, hN.wellResolved (L := Lattice.ofWorld w) two_pos hr hA rfl rfl rfl b1 d1,
    hN.wellResolved (L := Lattice.ofWorld w) two_pos hr hA rfl rfl rfl b2 d2⟩

/-- All finite lattices built from the configured structure `w` agree on their common sites. -/
def BuildsAgree (env : Env ℝ) (w : World d ℝ) : Prop :=
  ∀ (L L1 L2 : Lattice d ℝ) (a1 a2 : BuildArgs d ℝ), L.world = w →
    a1.minNeighbors = none → a1.periodic = none → a1.bits = none → L.build env a1 = (L1, .ok ()) →
    a2.minNeighbors = none → a2.periodic = none → a2.bits = none → L.build env a2 = (L2, .ok ()) →
    ∃ D1 D2, L1.data = some D1 ∧ L2.data = some D2 ∧ AgreeOnCommonSites L1 D1 L2 D2

theorem BuildsNearest.agree {env : Env ℝ} {w : World d ℝ} {r : ℝ} (h : BuildsNearest env w r) :
    BuildsAgree env w := by
  intro L L1 L2 a1 a2 hw hm1 hp1 hb1 hok1 hm2 hp2 hb2 hok2
  obtain ⟨D1, hD1, hs1, -, -, h1⟩ := h L L1 a1 hw hm1 hp1 hb1 hok1
  obtain ⟨D2, hD2, hs2, -, -, h2⟩ := h L L2 a2 hw hm2 hp2 hb2 hok2
  refine ⟨D1, D2, hD1, hD2, ?_⟩
  intro i1 j1 i2 j2 p q hi1 hj1 hi2 hj2
  have hl : ∀ (D : LatticeData d ℝ), List.Forall₂ (IsSitePos w.struct) D.indices D.positions →
      ∀ i : ℕ, D.positions[i]? = some p → i < D.numSites := by
    intro D hf i hi
    have := (List.getElem?_eq_some_iff.1 hi).1
    rw [← hf.length_eq] at this
    exact this
  obtain ⟨l1, e1, -, m1⟩ := h1 i1 (hl D1 hs1 i1 hi1)
  obtain ⟨l2, e2, -, m2⟩ := h2 i2 (hl D2 hs2 i2 hi2)
  refine ⟨l1, l2, e1, e2, ?_⟩
  rw [m1, m2, hi1, hj1, hi2, hj2]

/-- C117 for structures whose connections are those between nearest sites. -/
theorem C117_nearest_partial (hd : 0 < d) {env : Env ℝ} {w : World d ℝ} (hr : Reachable env w)
    {r : ℝ} {N : ℕ → Set (Idx d)} (h : NearestOnly w r N) : BuildsAgree env w :=
  (h.builds hd hr).agree

/-- C117 for the preset lattices with one shell of neighbours and any lattice constant resolved by
the rounding of distances: all finite lattices built from them, with any shapes, positions and
callbacks, agree on their common sites. -/
theorem C117_presets (env : Env ℝ) (s : Session) (a : ℝ) (ha : 1 / 10 ^ 5 ≤ |a|)
    (atom : AtomSpec) :
    (∃ w, simpleChain env s a atom 1 = .ok w ∧ BuildsAgree env w) ∧
    (∃ w, simpleSquare env s a atom 1 = .ok w ∧ BuildsAgree env w) ∧
    (∃ w, simpleCubic env s a atom 1 = .ok w ∧ BuildsAgree env w) ∧
    (∀ d, 0 < d → ∃ w : World d ℝ,
      configure env s (LatticeBasis.hypercubic d a) (oneAtom atom 1) = .ok w ∧
      BuildsAgree env w) ∧
    (∃ w, simpleHexagonal env s a atom 1 = .ok w ∧ BuildsAgree env w) ∧
    (∃ w, honeycomb env s a atom = .ok w ∧ BuildsAgree env w) ∧
    (∃ w, graphene env s a = .ok w ∧ BuildsAgree env w) := by
  obtain ⟨⟨w1, e1, b1⟩, ⟨w2, e2, b2⟩, ⟨w3, e3, b3⟩, h4, ⟨w5, e5, b5⟩, ⟨w6, e6, b6⟩, w7, e7, b7⟩ :=
    C108_any_shape env s a ha atom
  refine ⟨⟨w1, e1, b1.agree⟩, ⟨w2, e2, b2.agree⟩, ⟨w3, e3, b3.agree⟩, fun d hd => ?_,
    ⟨w5, e5, b5.agree⟩, ⟨w6, e6, b6.agree⟩, w7, e7, b7.agree⟩
  obtain ⟨w, e, b⟩ := h4 d hd
  exact ⟨w, e, b.agree⟩

/-- Graphene sheets of the sizes 10 × 20 and 30 × 7 agree on their common sites; the site of atom 0
in the home cell is one of them. -/
example (env : Env ℝ) (s : Session) : ∃ w L1 L2 D1 D2, graphene env s 1 = .ok w ∧
    (Lattice.ofWorld w).build env { shape := .size [10, 20] true } = (L1, .ok ()) ∧
    (Lattice.ofWorld w).build env { shape := .size [30, 7] true } = (L2, .ok ()) ∧
    L1.data = some D1 ∧ L2.data = some D2 ∧ Idx.mk 0 0 ∈ D1.indices ∧ Idx.mk 0 0 ∈ D2.indices ∧
    AgreeOnCommonSites L1 D1 L2 D2 := by
  obtain ⟨-, -, -, -, -, -, w, h1, h2⟩ := C108_boxes env s 1 (by norm_num) .none
  obtain ⟨-, -, -, -, -, -, w', h1', hag⟩ := C117_presets env s 1 (by norm_num) .none
  cases h1.symm.trans h1'
  obtain ⟨L1, D1, h3, h4, m1, -⟩ := h2 ![10, 20] true (by intro k; fin_cases k <;> norm_num)
  obtain ⟨L2, D2, h5, h6, m2, -⟩ := h2 ![30, 7] true (by intro k; fin_cases k <;> norm_num)
  obtain ⟨D1', D2', e1, e2, h⟩ := hag _ L1 L2 _ _ rfl rfl rfl rfl h3 rfl rfl rfl h5
  rw [h4] at e1
  rw [h6] at e2
  cases e1
  cases e2
  exact ⟨w, L1, L2, D1, D2, h1, by simpa using h3, by simpa using h5, h4, h6, m1, m2, h⟩

/-- C117 for the chain with lattice constant 1 and any number of shells that fits in a byte: finite
chains of any lengths with any sites dropped by callbacks agree on their common sites. -/
theorem C117_chain_shells (env : Env ℝ) {nb : ℕ} (hnb : 0 < nb) (h255 : nb ≤ 255) :
    ∃ (w : World 1 ℝ) (c : ConnMatrix), Reachable env w ∧ w.struct.positions = [0] ∧
      w.struct.conn = some c ∧ c.entry 0 0 = nb ∧
      ∀ (N N' : ℕ) (keep keep' : ℕ → Bool), 0 < (chainCells N keep).length →
        0 < (chainCells N' keep').length → ∃ L1 L2 D1 D2,
        (Lattice.ofWorld w).build env (chainArgs N keep) = (L1, .ok ()) ∧
        (Lattice.ofWorld w).build env (chainArgs N' keep') = (L2, .ok ()) ∧
        L1.data = some D1 ∧ L2.data = some D2 ∧
        D1.positions = (chainCells N keep).map (fun i : ℕ => fun _ => (i : ℝ)) ∧
        D2.positions = (chainCells N' keep').map (fun i : ℕ => fun _ => (i : ℝ)) ∧
        AgreeOnCommonSites L1 D1 L2 D2 := by
  obtain ⟨w, A, c, h⟩ := exists_built_chains env hnb h255
  obtain ⟨_, _, _, -, hr, hb, hp, hc, -, hc1, -⟩ := h 0 (fun _ => true) (by decide)
  refine ⟨w, c, hr, hp, hc, hc1, ?_⟩
  have key : ∀ (N : ℕ) (keep : ℕ → Bool), 0 < (chainCells N keep).length → ∃ L D,
      (Lattice.ofWorld w).build env (chainArgs N keep) = (L, .ok ()) ∧ L.data = some D ∧
      D.positions = (chainCells N keep).map (fun i : ℕ => fun _ => (i : ℝ)) ∧
      ∀ (i j : ℕ) (p q : Vec 1 ℝ), D.positions[i]? = some p → D.positions[j]? = some q → ∃ l,
        L.neighbors i none false = .ok l ∧
        (j ∈ l ↔ ∃ a b : ℕ, p = (fun _ => (a : ℝ)) ∧ q = (fun _ => (b : ℝ)) ∧ a ≠ b ∧
          b ≤ a + nb ∧ a ≤ b + nb) := by
    intro N keep h0
    obtain ⟨L, D, table, -, -, -, -, -, hcs, -, hA, hok, hw, hD, -, -, -, hi, hpos, hcomp, hset, htl, hlink,
      htop, h256, -⟩ := h N keep h0
    refine ⟨L, D, hok, hD, hpos, ?_⟩
    intro i j p q hip hjq
    have hit : i < table.length := by
      rw [htl]
      have := (List.getElem?_eq_some_iff.1 hip).1
      rwa [hpos, List.length_map] at this
    have hpn : D.positions.Nodup := by
      rw [hpos]
      refine (List.nodup_range.filter _).map ?_
      intro a b hab
      have : (a : ℝ) = b := congrFun hab 0
      exact_mod_cast this
    obtain ⟨width, hrows⟩ := C45_rows one_pos hr hA D.indices D.positions (by
      rw [hi, hpos, List.length_map, List.length_map]) hpn hcomp
    obtain ⟨-, -, -, -, r5⟩ := hrows i _ (List.getElem?_eq_getElem hit)
    obtain ⟨l, hl, -, hlm, -⟩ := neighbors_of_links hset htop h256 hit r5
    refine ⟨l, by unfold Lattice.neighbors; rw [hD]; exact hl, ?_⟩
    rw [hlm]
    rw [hpos, List.getElem?_map, Option.map_eq_some_iff] at hip hjq
    obtain ⟨a, ha, rfl⟩ := hip
    obtain ⟨b, hb, rfl⟩ := hjq
    constructor
    · rintro ⟨x, hx⟩
      obtain ⟨a', b', e1, e2, h1, -, h2, h3⟩ := (hlink i j x).1 hx
      rw [ha] at e1
      rw [hb] at e2
      cases e1
      cases e2
      exact ⟨a, b, rfl, rfl, h1, h2, h3⟩
    · rintro ⟨a', b', e1, e2, h1, h2, h3⟩
      have e1 : a = a' := by exact_mod_cast congrFun e1 0
      have e2 : b = b' := by exact_mod_cast congrFun e2 0
      subst e1
      subst e2
      exact ⟨_, (hlink i j _).2 ⟨a, b, ha, hb, h1, rfl, h2, h3⟩⟩
  intro N N' keep keep' h0 h0'
  obtain ⟨L1, D1, b1, d1, p1, n1⟩ := key N keep h0
  obtain ⟨L2, D2, b2, d2, p2, n2⟩ := key N' keep' h0'
  refine ⟨L1, L2, D1, D2, b1, b2, d1, d2, p1, p2, ?_⟩
  intro i1 j1 i2 j2 p q hi1 hj1 hi2 hj2
  obtain ⟨l1, e1, m1⟩ := n1 i1 j1 p q hi1 hj1
  obtain ⟨l2, e2, m2⟩ := n2 i2 j2 p q hi2 hj2
  exact ⟨l1, l2, e1, e2, m1.trans m2.symm⟩

/-- Two chains with 3 shells: cells 0 … 9, and the even cells up to 20. -/
example : 0 < 3 ∧ 3 ≤ 255 ∧ chainCells 9 (fun _ => true) = List.range 10 ∧
    chainCells 20 (fun i => i % 2 == 0) = [0, 2, 4, 6, 8, 10, 12, 14, 16, 18, 20] := by decide

/-- The callback that drops the second atom of cell 1. -/
def dropLast : ℕ × ℕ → Bool := fun s => decide (s ≠ (1, 1))

/-- The dimerised chain of two cells without its last site. -/
theorem dimer_three_sites {env : Env ℝ} {w : World 1 ℝ} {A : Analysis 1 ℝ} (h : IsDimer env w A) :
    ∃ (L : Lattice 1 ℝ) (D : LatticeData 1 ℝ),
      (Lattice.ofWorld w).build env (dimerArgs 1 dropLast) = (L, .ok ()) ∧
      L.data = some D ∧ D.positions = [fun _ => 0, fun _ => 3, fun _ => 10] ∧
      ∃ l, L.neighbors 0 none false = .ok l ∧ l.Perm [1, 2] := by
  obtain ⟨table, width, hcomp, htl, hw, hrnd, hlink, hW⟩ := dimer_table h
    [(0, 0), (0, 1), (1, 0)] (by decide) (by decide) (by decide)
  have hbi := dimer_buildIndices h 1 dropLast
  have hs3 : ((List.range (1 + 1)).flatMap fun n => [(n, 0), (n, 1)]).filter dropLast =
      [(0, 0), (0, 1), (1, 0)] := by decide
  rw [hs3] at hbi
  have hE : ∀ i j, (∃ x, Linked table i j x) ↔ (i, j) ∈ [(0, 1), (0, 2), (1, 0), (2, 0)] := by
    intro i j
    constructor
    · rintro ⟨x, hx⟩
      obtain ⟨s, t, hs, ht, hij, -, hl⟩ := (hlink i j x).1 hx
      have hi : i < 3 := (List.getElem?_eq_some_iff.1 hs).1
      have hj : j < 3 := (List.getElem?_eq_some_iff.1 ht).1
      interval_cases i <;> interval_cases j <;>
        simp only [List.getElem?_cons_zero, List.getElem?_cons_succ, Option.some_inj] at hs ht <;>
        subst hs <;> subst ht <;> revert hl hij <;> decide
    · intro hm
      simp only [List.mem_cons, Prod.mk.injEq, List.not_mem_nil, or_false] at hm
      rcases hm with ⟨rfl, rfl⟩ | ⟨rfl, rfl⟩ | ⟨rfl, rfl⟩ | ⟨rfl, rfl⟩ <;>
      exact ⟨_, (hlink _ _ _).2 ⟨_, _, rfl, rfl, by decide, rfl, by decide⟩⟩
  have hmemrow : ∀ (i : ℕ) (row : List (ℕ × WithTop ℝ)), table[i]? = some row → ∀ j,
      j ∈ (row.filter isLink).map Prod.fst ↔ ∃ x, Linked table i j x := by
    intro i row hrow j
    rw [List.mem_map]
    constructor
    · rintro ⟨⟨j', y⟩, he, rfl⟩
      obtain ⟨he1, he2⟩ := List.mem_filter.1 he
      obtain ⟨x, rfl⟩ := WithTop.ne_top_iff_exists.1 (of_decide_eq_true he2)
      exact ⟨x, _, hrow, he1⟩
    · rintro ⟨x, row', hrow', he⟩
      rw [hrow] at hrow'
      cases hrow'
      exact ⟨_, List.mem_filter.2 ⟨he, by simp [isLink]⟩, rfl⟩
  have h0 : (0 : ℕ) < table.length := by rw [htl]; decide
  have h1 : (1 : ℕ) < table.length := by rw [htl]; decide
  have hcount : ∀ (i : ℕ) (hi : i < table.length) (l : List ℕ), l.Nodup →
      (∀ j, j ∈ l ↔ (i, j) ∈ [(0, 1), (0, 2), (1, 0), (2, 0)]) →
      (table[i].filter isLink).length = l.length := by
    intro i hi l hl hm
    have : ((table[i].filter isLink).map Prod.fst).Perm l := by
      rw [List.perm_ext_iff_of_nodup (hrnd _ (List.getElem_mem hi)) hl]
      intro j
      rw [hmemrow i _ (List.getElem?_eq_getElem hi), hE, hm]
    rw [← this.length_eq, List.length_map]
  have hc0 := hcount 0 h0 [1, 2] (by decide) (by intro j; simp)
  have hc1 := hcount 1 h1 [0] (by decide) (by intro j; simp)
  -- row 1 is padded
  obtain ⟨e, he, hetop⟩ : ∃ e ∈ table[1], e.2 = ⊤ := by
    by_contra hno
    have hf : table[1].filter isLink = table[1] := List.filter_eq_self.2 fun e he => by
      simp only [isLink, decide_eq_true_eq]
      exact fun h => hno ⟨e, he, h⟩
    rw [hf, hw _ (List.getElem_mem h1), ← hw _ (List.getElem_mem h0)] at hc1
    have := List.length_filter_le isLink table[0]
    simp only [List.length_cons, List.length_nil] at hc0 hc1
    omega
  have hentry : ∀ row ∈ table, ∀ e ∈ row, e.2 = ((3 : ℝ) : WithTop ℝ) ∨
      e.2 = ((10 : ℝ) : WithTop ℝ) ∨ e.2 = ⊤ := by
    rintro row hrow ⟨j, y⟩ he
    obtain ⟨i, hi⟩ := List.mem_iff_getElem?.1 hrow
    by_cases hy : y = ⊤
    · exact Or.inr (Or.inr hy)
    · obtain ⟨x, rfl⟩ := WithTop.ne_top_iff_exists.1 hy
      obtain ⟨s, t, -, -, -, rfl, hl⟩ := (hlink i j x).1 ⟨row, hi, he⟩
      unfold dimerLink at hl
      rw [hl]
      split_ifs
      · right; left; norm_num
      · left; norm_num
  have htopmem : (⊤ : WithTop ℝ) ∈ (table.map fun r => r.map Prod.snd).flatten :=
    List.mem_flatten.2 ⟨_, List.mem_map.2 ⟨_, List.getElem_mem h1, rfl⟩,
      List.mem_map.2 ⟨_, he, hetop⟩⟩
  obtain ⟨D, hset, hDi, hDp, hnd⟩ : ∃ D, LatticeData.set ([(0, 0), (0, 1), (1, 0)].map dimerIdx)
      ([(0, 0), (0, 1), (1, 0)].map dimerVec) (table.map fun r => r.map Prod.fst)
      (table.map fun r => r.map Prod.snd) = .ok D ∧ D.indices = [(0, 0), (0, 1), (1, 0)].map dimerIdx ∧
      D.positions = [(0, 0), (0, 1), (1, 0)].map dimerVec ∧ D.distvals.Nodup := by
    rcases set_cases ([(0, 0), (0, 1), (1, 0)].map dimerIdx)
        ([(0, 0), (0, 1), (1, 0)].map dimerVec) (table.map fun r => r.map Prod.fst)
        (table.map fun r => r.map Prod.snd) with ⟨hf, -⟩ | ⟨-, D, h1, h2, h3, -, h8, -⟩
    · rw [hf] at htopmem
      cases htopmem
    · refine ⟨D, h1, h2, h3, ?_⟩
      rw [h8]
      exact (npUnique_pairwise_lt _).imp fun h => ne_of_lt h
  have hmd := fun x => mem_distvals hset x
  have hdv : D.distvals.length ≤ 256 := by
    have : D.distvals ⊆ [((3 : ℝ) : WithTop ℝ), ((10 : ℝ) : WithTop ℝ), ⊤] := by
      intro x hx
      obtain ⟨row, hrow, e, he, rfl⟩ := (hmd x).1 hx
      simpa using hentry row hrow e he
    exact ((hnd.subperm this).length_le).trans (by norm_num)
  obtain ⟨lo, hi, hlim⟩ := Lattice.getLimits_ok (D := D) (by rw [hDp]; decide)
  obtain ⟨c, hc, hcs, hce⟩ := h.conn
  obtain ⟨l, hl, hlnd, hlm, -⟩ := neighbors_of_links hset
    ((hmd ⊤).2 ⟨_, List.getElem_mem h1, e, he, hetop⟩) hdv h0 (hrnd _ (List.getElem_mem h0))
  refine ⟨_, D,
    Lattice.build_of (L := Lattice.ofWorld w) (a := dimerArgs 1 dropLast) h.analysis ?_ rfl hbi
      hcomp rfl hset hlim rfl, rfl, ?_, l, hl, ?_⟩
  · intro c' hc'
    have hc' : w.struct.conn = some c' := hc'
    rw [hc] at hc'
    cases hc'
    by_contra hz
    rw [Bool.not_eq_false, ConnMatrix.allZero_iff] at hz
    have h1 := hz 0 (by omega) 0 (by omega)
    have h2 := hce 0 0 (by norm_num) (by norm_num)
    omega
  · rw [hDp]
    simp only [List.map_cons, List.map_nil]
    unfold dimerVec dimerPos
    norm_num
  · rw [List.perm_ext_iff_of_nodup hlnd (by decide)]
    intro j
    rw [hlm, hE]
    simp

/-- C117 fails for the chain with lattice constant 10 and atoms at 0 and 3: in the lattice of two
cells (sites at 0, 3, 10, 13) the site at 10 is no neighbour of the site at 0, in the same lattice
without the last site it is. -/
theorem C117_two_atoms_fails (env : Env ℝ) :
    ∃ (w : World 1 ℝ) (L1 L2 : Lattice 1 ℝ) (D1 D2 : LatticeData 1 ℝ), Reachable env w ∧
      w.struct.basis.vectors 0 0 = 10 ∧ w.struct.positions = [fun _ => 0, fun _ => 3] ∧
      (Lattice.ofWorld w).build env (dimerArgs 1 fun _ => true) = (L1, .ok ()) ∧
      (Lattice.ofWorld w).build env (dimerArgs 1 dropLast) = (L2, .ok ()) ∧
      L1.data = some D1 ∧ L2.data = some D2 ∧
      D1.positions = [fun _ => 0, fun _ => 3, fun _ => 10, fun _ => 13] ∧
      D2.positions = [fun _ => 0, fun _ => 3, fun _ => 10] ∧
      L1.neighbors 0 none false = .ok [1] ∧
      (∃ l, L2.neighbors 0 none false = .ok l ∧ l.Perm [1, 2]) ∧ ¬ AgreeOnCommonSites L1 D1 L2 D2 := by
  obtain ⟨w, A, h⟩ := exists_dimer env
  obtain ⟨L1, D1, b1, d1, p1, -, -, n1⟩ := dimer_two_cells h
  obtain ⟨L2, D2, b2, d2, p2, l, n2, hl⟩ := dimer_three_sites h
  refine ⟨w, L1, L2, D1, D2, h.reach, by rw [h.basis, chain_vectors], h.positions, b1, b2, d1, d2, p1,
    p2, n1, ⟨l, n2, hl⟩, ?_⟩
  intro hagree
  obtain ⟨l1, l2, e1, e2, hm⟩ := hagree 0 2 0 2 (fun _ => 0) (fun _ => 10) (by rw [p1]; rfl)
    (by rw [p1]; rfl) (by rw [p2]; rfl) (by rw [p2]; rfl)
  rw [n1] at e1
  rw [n2] at e2
  cases e1
  cases e2
  have := hm.2 (hl.mem_iff.2 (by decide))
  simp at this

end Lattpy
