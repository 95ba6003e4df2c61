import Verif.Props.FourierPresets
import Verif.Props.LatticeCubic

/-!
# Built lattices with connections between nearest sites (C59, C108)
-/

set_option autoImplicit false
set_option linter.unusedSectionVars false

namespace Lattpy

open Structure World Preset

variable {d : ℕ}

/-! ## spec -/

/-- The connections of a structure are those between nearest sites: the neighbours of atom `α` in
the home cell are the sites `N α`, these are at the distance `D`, and all other sites are farther by
a factor of at least `√2`. -/
structure NearestOnly (w : World d ℝ) (D : ℝ) (N : ℕ → Set (Idx d)) : Prop where
  /-- the distance is resolved by the rounding to six decimals -/
  resolved : 1 / 10 ^ 5 ≤ D
  nonempty : ∃ α < w.struct.numBase, (N α).Nonempty
  listed : ∀ α < w.struct.numBase, NeighborsAre w α (npRound 6 D) (N α)
  gap : ∀ (α β : ℕ) (ra rb : Vec d ℝ) (n : Fin d → ℤ), w.struct.positions[α]? = some ra →
    w.struct.positions[β]? = some rb → (α = β ∧ n = 0) ∨
      (shiftSq w.struct.basis (rb - ra) n = D ^ 2 ∧ Idx.mk n (β : ℤ) ∈ N α) ∨
      2 * D ^ 2 ≤ shiftSq w.struct.basis (rb - ra) n

/-- In the built lattice the neighbours of a site are exactly the sites at distance `r`. -/
def NearestNeighbors (L : Lattice d ℝ) (D : LatticeData d ℝ) (r : ℝ) : Prop :=
  ∀ i < D.numSites, ∃ l, L.neighbors i none false = .ok l ∧ l.Nodup ∧
    ∀ j, j ∈ l ↔ ∃ p q, D.positions[i]? = some p ∧ D.positions[j]? = some q ∧ distance q p = r

/-! ## lemmas -/

/-- The distance of two sites. -/
theorem site_distance {S : Structure d ℝ} {a b : Idx d} {p q : Vec d ℝ} (hp : IsSitePos S a p)
    (hq : IsSitePos S b q) : ∃ (α β : ℕ) (ra rb : Vec d ℝ), a.alpha = α ∧ b.alpha = β ∧
      S.positions[α]? = some ra ∧ S.positions[β]? = some rb ∧
      distance q p = Real.sqrt (shiftSq S.basis (rb - ra) (b.cell - a.cell)) := by
  obtain ⟨α, ra, h1, h2, rfl⟩ := hp
  obtain ⟨β, rb, h3, h4, rfl⟩ := hq
  refine ⟨α, β, ra, rb, h1, h3, h2, h4, ?_⟩
  unfold distance shiftSq
  simp only [hasSqrt_real]
  congr 1
  refine Finset.sum_congr rfl fun k _ => ?_
  simp only [Pi.sub_apply, Int.cast_sub, sub_mul, Finset.sum_sub_distrib]
  ring

theorem entry_le_max {c : ConnMatrix} {n m : ℕ} (hs : c.size = n) (hm : c.max? = .ok m) :
    ∀ i < n, ∀ j < n, c.entry i j ≤ m := by
  subst hs
  intro i hi j hj
  by_cases hz : c.allZero = false
  · obtain ⟨m', h1, -, h2, -⟩ := ConnMatrix.max?_ok hz
    rw [hm] at h1
    cases h1
    exact h2 i hi j hj
  · rw [Bool.not_eq_false, ConnMatrix.allZero_iff] at hz
    rw [hz i hi j hj]
    exact Nat.zero_le _

theorem raw_of_configured (hd : 0 < d) {env : Env ℝ} {w : World d ℝ} (hr : Reachable env w)
    {A : Analysis d ℝ} (hA : w.struct.analysis = some A) {a b : ℤ} {x : ℝ}
    (hx : Structure.Configured A a b x) : RawDistance A x := by
  obtain ⟨cells, m, c, -, hcs, -, hcm, -, hI⟩ := (hr.good hd).analysis A hA
  obtain ⟨-, -, h1, h2, h3⟩ := hI.configured.1 hx
  exact hI.mem_raw.2 ⟨_, h1, _, h2,
    (List.take_subset_take_left _ (entry_le_max hcs hcm _ h1 _ h2)) h3⟩

namespace NearestOnly

variable {w : World d ℝ} {D : ℝ} {N : ℕ → Set (Idx d)}

theorem pos (h : NearestOnly w D N) : 0 < D := lt_of_lt_of_le (by positivity) h.resolved

/-- Two different sites are at the distance `D` or farther by a factor of `√2`. -/
theorem sites (h : NearestOnly w D N) {a b : Idx d} {p q : Vec d ℝ} (hp : IsSitePos w.struct a p)
    (hq : IsSitePos w.struct b q) (hab : a ≠ b) : ∃ α β : ℕ, a.alpha = α ∧ b.alpha = β ∧
      ((distance q p = D ∧ Idx.mk (b.cell - a.cell) (β : ℤ) ∈ N α) ∨ 14 / 10 * D < distance q p) := by
  obtain ⟨α, β, ra, rb, h1, h2, h3, h4, h5⟩ := site_distance hp hq
  refine ⟨α, β, h1, h2, ?_⟩
  rcases h.gap α β ra rb (b.cell - a.cell) h3 h4 with ⟨e, e0⟩ | ⟨e, e0⟩ | e
  · exfalso
    apply hab
    rw [← Idx.mk_cell_alpha a, ← Idx.mk_cell_alpha b, h1, h2, e, sub_eq_zero.1 e0]
  · left
    exact ⟨by rw [h5, e, Real.sqrt_sq h.pos.le], e0⟩
  · right
    rw [h5]
    have := h.pos
    rw [Real.lt_sqrt (by positivity)]
    nlinarith

theorem distinct (h : NearestOnly w D N) : SitesDistinct w.struct := by
  intro x y p hx hy
  by_contra hne
  obtain ⟨α, β, -, -, h1 | h1⟩ := h.sites hx hy hne
  · rw [distance_self] at h1
    exact h.pos.ne h1.1
  · rw [distance_self] at h1
    have := h.pos
    linarith

theorem round (_h : NearestOnly w D N) : |npRound 6 D - D| ≤ 1 / 10 ^ 6 := by
  have := abs_npRound_sub_le 6 D
  refine this.trans ?_
  norm_num

theorem configured (hd : 0 < d) {env : Env ℝ} (hr : Reachable env w) (h : NearestOnly w D N)
    {A : Analysis d ℝ} (hA : w.struct.analysis = some A) {a b : ℤ} {x : ℝ}
    (hx : Structure.Configured A a b x) : x = npRound 6 D := by
  obtain ⟨cells, m, c, -, -, -, -, -, hI⟩ := (hr.good hd).analysis A hA
  obtain ⟨-, -, h1, h2, h3⟩ := hI.configured.1 hx
  obtain ⟨-, n, hn, hxn⟩ := mem_levels.1 (List.mem_of_mem_take h3)
  obtain ⟨A', hA', hl⟩ := h.listed _ h1
  rw [hA] at hA'
  cases hA'
  exact ((hl x _).1 ((listed_iff hI _ _ _).2 ⟨h1, _, h2, n, hn, rfl, hxn, h3⟩)).1

theorem configured_of (hd : 0 < d) {env : Env ℝ} (hr : Reachable env w) (h : NearestOnly w D N)
    {A : Analysis d ℝ} (hA : w.struct.analysis = some A) {α β : ℕ} (hα : α < w.struct.numBase)
    {n : Fin d → ℤ} (hn : Idx.mk n (β : ℤ) ∈ N α) : Structure.Configured A α β (npRound 6 D) := by
  obtain ⟨cells, m, c, -, -, -, -, -, hI⟩ := (hr.good hd).analysis A hA
  obtain ⟨A', hA', hl⟩ := h.listed _ hα
  rw [hA] at hA'
  cases hA'
  obtain ⟨-, b, hb, n', -, he, -, hm⟩ := (listed_iff hI _ _ _).1 ((hl _ _).2 ⟨rfl, hn⟩)
  rw [Idx.mk_inj] at he
  have hb' : β = b := by omega
  subst hb'
  exact hI.configured.2 ⟨by positivity, by positivity, by simpa using hα, by simpa using hb, by
    simpa using hm⟩

theorem exists_configured (hd : 0 < d) {env : Env ℝ} (hr : Reachable env w)
    (h : NearestOnly w D N) {A : Analysis d ℝ} (hA : w.struct.analysis = some A) :
    ∃ a b, Structure.Configured A a b (npRound 6 D) := by
  obtain ⟨α, hα, idx, hidx⟩ := h.nonempty
  obtain ⟨cells, m, c, -, -, -, -, -, hI⟩ := (hr.good hd).analysis A hA
  obtain ⟨A', hA', hlist⟩ := h.listed _ hα
  rw [hA] at hA'
  cases hA'
  obtain ⟨b, -, n, rfl, -⟩ := listed_split hI ((hlist _ _).2 ⟨rfl, hidx⟩)
  exact ⟨α, b, h.configured_of hd hr hA hα hidx⟩

/-- The number of sites which are not farther from a site of the lattice than a neighbour. -/
theorem closer_site (hd : 0 < d) {env : Env ℝ} (hr : Reachable env w) (h : NearestOnly w D N)
    {A : Analysis d ℝ} (hA : w.struct.analysis = some A) {indices : List (Idx d)}
    {positions : List (Vec d ℝ)} (hsites : List.Forall₂ (IsSitePos w.struct) indices positions)
    (hnd : indices.Nodup) {a : Idx d} {p q : Vec d ℝ} (hsi : IsSitePos w.struct a p)
    (hq : distance q p = D) : closer positions p q ≤ (A.rawNum.map List.sum).sum + 1 := by
  obtain ⟨cells, m, c, -, hcs, -, hcm, -, hI⟩ := (hr.good hd).analysis A hA
  have hcm' : ∀ i < w.struct.numBase, ∀ j < w.struct.numBase, c.entry i j ≤ m :=
    entry_le_max hcs hcm
  have hlen := hsites.length_eq
  have hget : ∀ l < positions.length, indices[l]? = .some (indices.getD l 0) ∧
      positions[l]? = .some (positions.getD l 0) ∧
      IsSitePos w.struct (indices.getD l 0) (positions.getD l 0) := by
    intro l hl
    have hl' : l < indices.length := by omega
    have := hsites.get hl' hl
    simp only [List.get_eq_getElem] at this
    refine ⟨by simp [hl'], by simp [hl], by simpa [hl, hl'] using this⟩
  set Z := (List.range positions.length).filter fun l => decide
    (distance (positions.getD l 0) p ≤ distance q p) with hZ
  have hZl : closer positions p q = Z.length :=
    (filter_range_getD positions fun r => decide (distance r p ≤ distance q p)).symm
  obtain ⟨α, ra, hα, hra, -⟩ := id hsi
  have hαn : α < w.struct.numBase := by
    rw [← (hr.good hd).positions_length]; exact (List.getElem?_eq_some_iff.1 hra).1
  set F : ℕ → ℕ × (Fin d → ℤ) := fun l =>
    ((indices.getD l 0).alpha.toNat, (indices.getD l 0).cell - a.cell) with hF
  set T : List (ℕ × (Fin d → ℤ)) := (List.range w.struct.numBase).flatMap fun b =>
    (cells.filter fun n => decide (w.struct.siteDist α b n ∈
      (w.struct.levels cells α b).take m)).map fun n => (b, n) with hT
  have hTl : T.length ≤ (A.rawNum.map List.sum).sum := by
    rw [hI.rawNum, List.map_map]
    refine le_trans ?_ (List.single_le_sum (by simp) _
      (List.mem_map.2 ⟨α, List.mem_range.2 hαn, rfl⟩))
    rw [hT, List.length_flatMap]
    simp
  have hsub : (Z.filter fun l => decide (a ≠ indices.getD l 0)).map F ⊆ T := by
    intro y hy
    obtain ⟨l, hl, rfl⟩ := List.mem_map.1 hy
    obtain ⟨hl1, hl2⟩ := List.mem_filter.1 hl
    obtain ⟨hl3, hl4⟩ := List.mem_filter.1 hl1
    have hl5 := List.mem_range.1 hl3
    simp only [decide_eq_true_eq] at hl2 hl4
    obtain ⟨-, -, hsl⟩ := hget l hl5
    obtain ⟨α', β, e1, e2, hc | hc⟩ := h.sites hsi hsl hl2
    · have : α' = α := by omega
      subst this
      obtain ⟨A', hA', hlist⟩ := h.listed _ hαn
      rw [hA] at hA'
      cases hA'
      obtain ⟨-, b, hb, n, hn, e, e3, hlev⟩ := (listed_iff hI _ _ _).1 ((hlist _ _).2 ⟨rfl, hc.2⟩)
      rw [Idx.mk_inj] at e
      have hb' : β = b := by omega
      subst hb'
      rw [hT, List.mem_flatMap]
      refine ⟨β, List.mem_range.2 hb, List.mem_map.2 ⟨n, List.mem_filter.2 ⟨hn, ?_⟩, ?_⟩⟩
      · rw [decide_eq_true_eq, ← e3]
        exact (List.take_subset_take_left _ (hcm' _ hαn _ hb)) hlev
      · refine Prod.ext ?_ e.1.symm
        change β = (indices.getD l 0).alpha.toNat
        rw [e2]
        rfl
    · exfalso
      rw [hq] at hl4
      have := h.pos
      linarith
  have hnd2 : ((Z.filter fun l => decide (a ≠ indices.getD l 0)).map F).Nodup := by
    refine List.Nodup.map_on ?_ ((List.nodup_range.filter _).filter _)
    intro l hl l' hl' he
    have hl1 := List.mem_range.1 (List.mem_filter.1 (List.mem_filter.1 hl).1).1
    have hl1' := List.mem_range.1 (List.mem_filter.1 (List.mem_filter.1 hl').1).1
    obtain ⟨g1, -, s1⟩ := hget l hl1
    obtain ⟨g2, -, s2⟩ := hget l' hl1'
    obtain ⟨b1, -, f1, -⟩ := s1
    obtain ⟨b2, -, f2, -⟩ := s2
    rw [hF, Prod.mk.injEq] at he
    have e1 : (indices.getD l 0).alpha = (indices.getD l' 0).alpha := by
      have := he.1
      omega
    have e2 : (indices.getD l 0).cell = (indices.getD l' 0).cell := by
      have := congrArg (· + a.cell) he.2
      simpa using this
    have e3 : indices.getD l 0 = indices.getD l' 0 := by
      rw [← Idx.mk_cell_alpha (indices.getD l 0), e1, e2, Idx.mk_cell_alpha]
    rw [e3, ← g2] at g1
    exact (List.getElem?_inj (by omega) hnd).1 g1
  have h5 := (hnd2.subperm hsub).length_le
  rw [List.length_map] at h5
  have h6 : Z.length ≤ (Z.filter fun l => decide (a ≠ indices.getD l 0)).length + 1 := by
    have hZnd : Z.Nodup := List.nodup_range.filter _
    by_cases hex : ∃ i ∈ Z, a = indices.getD i 0
    · obtain ⟨i, hi, hai⟩ := hex
      have : Z ⊆ i :: Z.filter fun l => decide (a ≠ indices.getD l 0) := by
        intro l hl
        by_cases hli : a = indices.getD l 0
        · obtain ⟨g1, -⟩ := hget l (List.mem_range.1 (List.mem_filter.1 hl).1)
          obtain ⟨g2, -⟩ := hget i (List.mem_range.1 (List.mem_filter.1 hi).1)
          rw [← hli, hai, ← g2] at g1
          have := (List.getElem?_inj (by
            rw [g2] at g1
            exact (List.getElem?_eq_some_iff.1 g1).1) hnd).1 g1
          rw [this]
          exact List.mem_cons_self
        · exact List.mem_cons_of_mem _ (List.mem_filter.2 ⟨hl, by simpa using hli⟩)
      simpa using (hZnd.subperm this).length_le
    · rw [List.filter_eq_self.2 fun l hl => by
        rw [decide_eq_true_eq]
        exact fun e => hex ⟨l, hl, e⟩]
      exact Nat.le_succ _
  rw [hZl]
  omega

/-- The number of sites which are not farther than a neighbour. -/
theorem closer_le (hd : 0 < d) {env : Env ℝ} (hr : Reachable env w) (h : NearestOnly w D N)
    {A : Analysis d ℝ} (hA : w.struct.analysis = some A) {indices : List (Idx d)}
    {positions : List (Vec d ℝ)} (hsites : List.Forall₂ (IsSitePos w.struct) indices positions)
    (hnd : indices.Nodup) {i : ℕ} {p q : Vec d ℝ} (hp : positions[i]? = some p)
    (hq : distance q p = D) : closer positions p q ≤ (A.rawNum.map List.sum).sum + 1 := by
  obtain ⟨i2, e2⟩ := List.getElem?_eq_some_iff.1 hp
  have i1 : i < indices.length := by rw [hsites.length_eq]; exact i2
  have := hsites.get i1 i2
  simp only [List.get_eq_getElem, e2] at this
  exact h.closer_site hd hr hA hsites hnd this hq

/-- The raw distances of the analysis are not rounded to zero. -/
theorem raw (hd : 0 < d) {env : Env ℝ} (hr : Reachable env w) (h : NearestOnly w D N)
    {A : Analysis d ℝ} (hA : w.struct.analysis = some A) :
    ∀ y, RawDistance A y → 5 / 10 ^ 6 < y := by
  have hpos := h.pos
  have hD := h.resolved
  have hrd := abs_le.1 h.round
  obtain ⟨cells, m, c, -, -, -, -, -, hI⟩ := (hr.good hd).analysis A hA
  intro y hy
  obtain ⟨a, ha, b, hb, hyl⟩ := hI.mem_raw.1 hy
  obtain ⟨hy0, n, -, hyn⟩ := mem_levels.1 (List.mem_of_mem_take hyl)
  obtain ⟨ra, hra⟩ : ∃ ra, w.struct.positions[a]? = some ra :=
    ⟨_, exists_pos (hr.good hd) ha⟩
  obtain ⟨rb, hrb⟩ : ∃ rb, w.struct.positions[b]? = some rb :=
    ⟨_, exists_pos (hr.good hd) hb⟩
  rw [siteDist_sqrt hra hrb] at hyn
  have hge : D ≤ Real.sqrt (shiftSq w.struct.basis (rb - ra) n) := by
    rcases h.gap a b ra rb n hra hrb with ⟨rfl, rfl⟩ | ⟨e, -⟩ | e
    · exfalso
      have : shiftSq w.struct.basis (rb - ra) 0 = 0 := by
        rw [Option.some_inj.1 (hra.symm.trans hrb)]
        simp [shiftSq]
      rw [this, Real.sqrt_zero, npRound_zero] at hyn
      linarith
    · rw [e, Real.sqrt_sq hpos.le]
    · apply Real.le_sqrt_of_sq_le
      nlinarith
  have := npRound_mono (n := 6) hge
  rw [← hyn] at this
  norm_num at hrd hD ⊢
  linarith

/-- The table of `compute_neighbors` for sites of the lattice. -/
theorem table (hd : 0 < d) {env : Env ℝ} (hr : Reachable env w) (h : NearestOnly w D N)
    {A : Analysis d ℝ} (hA : w.struct.analysis = some A) {indices : List (Idx d)}
    {positions : List (Vec d ℝ)} (hsites : List.Forall₂ (IsSitePos w.struct) indices positions)
    (hnd : indices.Nodup) {table : List (List (ℕ × WithTop ℝ))}
    (hcomp : computeNeighbors env w.struct indices positions = .ok table) :
    positions.Nodup ∧ table.length = positions.length ∧
    (∀ i j x, Linked table i j x ↔ x = npRound 6 D ∧ ∃ p q, positions[i]? = some p ∧
      positions[j]? = some q ∧ distance q p = D) ∧
    (0 < positions.length → ∃ row ∈ table, ∃ e ∈ row, e.2 = ⊤) := by
  have hlen := hsites.length_eq
  have hpn := positions_nodup h.distinct hsites hnd
  have hal := alpha_range hd hr hsites
  have hget : ∀ (i : ℕ) (a : Idx d) (p : Vec d ℝ), indices[i]? = some a → positions[i]? = some p →
      IsSitePos w.struct a p := by
    intro i a p h1 h2
    obtain ⟨i1, e1⟩ := List.getElem?_eq_some_iff.1 h1
    obtain ⟨i2, e2⟩ := List.getElem?_eq_some_iff.1 h2
    have := hsites.get i1 i2
    simp only [List.get_eq_getElem, e1, e2] at this
    exact this
  have hpos := h.pos
  have hD := h.resolved
  have hrd := abs_le.1 h.round
  have hne : ∀ {i j : ℕ} {a b : Idx d}, i ≠ j → indices[i]? = some a → indices[j]? = some b →
      a ≠ b := by
    intro i j a b hij ha hb hab
    rw [hab, ← hb] at ha
    obtain ⟨hj, -⟩ := List.getElem?_eq_some_iff.1 hb
    exact hij ((List.getElem?_inj hj hnd).1 ha.symm).symm
  have hnb : ∀ {α : ℕ} {a : Idx d} {i : ℕ}, indices[i]? = some a → a.alpha = α →
      α < w.struct.numBase := by
    intro α a i ha hα
    have := (hal a (List.mem_of_getElem? ha)).2
    omega
  obtain ⟨htl, hsound, hcompl⟩ := C44_neighbors_partial hd hr hA indices positions hlen hpn hal hcomp
  have hraw := h.raw hd hr hA
  refine ⟨hpn, htl, ?_, ?_⟩
  · intro i j x
    constructor
    · intro hl
      obtain ⟨p, q, a, b, hp, hq, ha, hb, hij, hx, hcf⟩ := hsound i j x hl
      have hx0 := h.configured hd hr hA hcf
      refine ⟨hx0, p, q, hp, hq, ?_⟩
      obtain ⟨α, β, -, -, ⟨hc, -⟩ | hc⟩ := h.sites (hget i a p ha hp) (hget j b q hb hq)
        (hne hij ha hb)
      · exact hc
      · exfalso
        have h1 := abs_le.1 (abs_npRound_sub_le 6 (distance q p))
        rw [distance_some] at hx
        rw [← hx, hx0] at h1
        norm_num at h1 hrd hD
        linarith
    · rintro ⟨rfl, p, q, hp, hq, hdist⟩
      have hij : i ≠ j := by
        rintro rfl
        rw [hp] at hq
        cases hq
        rw [distance_self] at hdist
        exact hpos.ne hdist
      have ha : indices[i]? = some (indices[i]'(by
          rw [hlen]; exact (List.getElem?_eq_some_iff.1 hp).1)) := List.getElem?_eq_getElem _
      have hb : indices[j]? = some (indices[j]'(by
          rw [hlen]; exact (List.getElem?_eq_some_iff.1 hq).1)) := List.getElem?_eq_getElem _
      have hd6 : distance q p (some 6) = npRound 6 D := by rw [distance_some, hdist]
      rw [← hd6]
      refine hcompl hraw i j p q _ _ hp hq ha hb hij ?_ (h.closer_le hd hr hA hsites hnd hp hdist)
      obtain ⟨α, β, e1, e2, ⟨-, hc⟩ | hc⟩ := h.sites (hget i _ p ha hp) (hget j _ q hb hq)
        (hne hij ha hb)
      · rw [e1, e2, hd6]
        exact h.configured_of hd hr hA (hnb ha e1) hc
      · linarith
  · intro h0
    obtain ⟨M, y, hM, hmax, hy, hmin, hpad⟩ := padded_sites hd hr hA hsites hpn h0 hcomp
    obtain ⟨a0, b0, hc0⟩ := h.exists_configured hd hr hA
    have hMx : M = npRound 6 D := by
      rcases hM with hM | ⟨a, b, hab⟩
      · have := hmax _ _ _ hc0
        norm_num at hrd hD
        linarith
      · exact h.configured hd hr hA hab
    have hyx : y ≤ npRound 6 D := hmin _ (raw_of_configured hd hr hA hc0)
    apply hpad
    intro i j p q a b hij hp hq ha hb hdist
    obtain ⟨α, β, e1, e2, ⟨hc, hN⟩ | hc⟩ := h.sites (hget i a p ha hp) (hget j b q hb hq)
      (hne hij ha hb)
    · rw [e1, e2, distance_some, hc]
      exact h.configured_of hd hr hA (hnb ha e1) hN
    · exfalso
      rw [hMx] at hdist
      norm_num at hrd hD hdist
      linarith

/-- The data made of such a table. -/
theorem data (hd : 0 < d) {env : Env ℝ} (hr : Reachable env w) (h : NearestOnly w D N)
    {A : Analysis d ℝ} (hA : w.struct.analysis = some A) {indices : List (Idx d)}
    {positions : List (Vec d ℝ)} (hsites : List.Forall₂ (IsSitePos w.struct) indices positions)
    (hnd : indices.Nodup) (h0 : 0 < positions.length) {table : List (List (ℕ × WithTop ℝ))}
    (hcomp : computeNeighbors env w.struct indices positions = .ok table) :
    ∃ data, LatticeData.set indices positions (table.map fun r => r.map Prod.fst)
        (table.map fun r => r.map Prod.snd) = .ok data ∧ data.indices = indices ∧
      data.positions = positions ∧ ⊤ ∈ data.distvals ∧ data.distvals.length ≤ 256 ∧
      ∀ x : ℝ, (x : WithTop ℝ) ∈ data.distvals → x = npRound 6 D := by
  obtain ⟨hpn, htl, hlink, htop⟩ := h.table hd hr hA hsites hnd hcomp
  have htop := htop h0
  obtain ⟨data, hset, hDi, hDp, hdn⟩ : ∃ data, LatticeData.set indices positions
      (table.map fun r => r.map Prod.fst) (table.map fun r => r.map Prod.snd) = .ok data ∧
      data.indices = indices ∧ data.positions = positions ∧ data.distvals.Nodup := by
    rcases set_cases indices positions (table.map fun r => r.map Prod.fst)
        (table.map fun r => r.map Prod.snd) with ⟨hf, -⟩ | ⟨-, D, h1, h2, h3, -, h8, -⟩
    · obtain ⟨row, hrow, e, he, -⟩ := htop
      have : e.2 ∈ (table.map fun r => r.map Prod.snd).flatten :=
        List.mem_flatten.2 ⟨_, List.mem_map.2 ⟨row, hrow, rfl⟩, List.mem_map.2 ⟨e, he, rfl⟩⟩
      rw [hf] at this
      cases this
    · exact ⟨D, h1, h2, h3, by rw [h8]; exact (npUnique_pairwise_lt _).imp fun h => ne_of_lt h⟩
  have hx : ∀ x : ℝ, (x : WithTop ℝ) ∈ data.distvals → x = npRound 6 D := by
    intro x hx
    obtain ⟨row, hrow, ⟨j, y⟩, he, hy⟩ := (mem_distvals hset _).1 hx
    obtain ⟨i, hi⟩ := List.mem_iff_getElem?.1 hrow
    dsimp only at hy
    subst hy
    exact ((hlink i j x).1 ⟨_, hi, he⟩).1
  refine ⟨data, hset, hDi, hDp, (mem_distvals hset ⊤).2 htop, ?_, hx⟩
  have hsub : data.distvals ⊆ [((npRound 6 D : ℝ) : WithTop ℝ), ⊤] := by
    intro y hy
    rcases eq_or_ne y ⊤ with rfl | hne
    · simp
    · obtain ⟨z, rfl⟩ := WithTop.ne_top_iff_exists.1 hne
      rw [hx z hy]
      simp
  have := (hdn.subperm hsub).length_le
  simp only [List.length_cons, List.length_nil] at this
  omega

end NearestOnly

/-! ## C59 -/

/-- C59 holds for every structure whose connections are those between nearest sites: after every
successful build (any shape and callback), `neighbors(i)` lists, each once, exactly the sites at the
nearest distance from site `i`, and the only finite stored distance is this one. -/
theorem C59_nearest_only_partial (hd : 0 < d) {env : Env ℝ} {L L' : Lattice d ℝ}
    (hr : Reachable env L.world) {r : ℝ} {N : ℕ → Set (Idx d)} (h : NearestOnly L.world r N)
    {a : BuildArgs d ℝ} (hm : a.minNeighbors = none) (hp : a.periodic = none) (hb : a.bits = none)
    (hok : L.build env a = (L', .ok ())) :
    ∃ D, L'.data = some D ∧ List.Forall₂ (IsSitePos L.struct) D.indices D.positions ∧
      D.indices.Nodup ∧ D.positions.Nodup ∧ NearestNeighbors L' D r ∧
      ∀ x : ℝ, (x : WithTop ℝ) ∈ D.distvals → x = npRound 6 r := by
  obtain ⟨A, D, table, hA, hD, -, hsites, hnd, hcomp, hset⟩ := build_table hd hr hm hp hb hok
  obtain ⟨hpn, htl, hlink, -⟩ := h.table hd hr hA hsites hnd hcomp
  obtain ⟨row, hrow, -⟩ := set_nonempty hset
  have h0 : 0 < D.positions.length := by rw [← htl]; exact List.length_pos_of_mem hrow
  obtain ⟨D', hset', -, -, htop, h256, hx⟩ := h.data hd hr hA hsites hnd h0 hcomp
  rw [hset] at hset'
  cases hset'
  refine ⟨D, hD, hsites, hnd, hpn, ?_, hx⟩
  intro i hi
  have hi' : i < table.length := by rw [htl, ← hsites.length_eq]; exact hi
  obtain ⟨width, hrows⟩ := C45_rows hd hr hA D.indices D.positions hsites.length_eq hpn hcomp
  obtain ⟨-, -, -, -, r5⟩ := hrows i _ (List.getElem?_eq_getElem hi')
  obtain ⟨l, hl, hln, hlm, -⟩ := neighbors_of_links hset htop h256 hi' r5
  refine ⟨l, by unfold Lattice.neighbors; rw [hD]; exact hl, hln, ?_⟩
  intro j
  rw [hlm]
  constructor
  · rintro ⟨x, hx⟩
    exact ((hlink i j x).1 hx).2
  · intro hj
    exact ⟨_, (hlink i j _).2 ⟨rfl, hj⟩⟩

/-- C59, the build does succeed for such a structure whenever the region (after the callback)
contains a site, if there are connections and the analysis found the raw distances of all pairs of atoms. -/
theorem C59_nearest_only_builds_partial (hd : 0 < d) {env : Env ℝ} {L : Lattice d ℝ}
    (hr : Reachable env L.world) {r : ℝ} {N : ℕ → Set (Idx d)} (h : NearestOnly L.world r N)
    {A : Analysis d ℝ} (hA : L.struct.analysis = some A)
    (hc : ∀ c, L.struct.conn = some c → c.allZero = false)
    (hraw : ∃ n, ∀ row ∈ A.rawDistances, ∀ l ∈ row, l.length = n)
    {a : BuildArgs d ℝ} (hm : a.minNeighbors = none) (hp : a.periodic = none) (hb : a.bits = none)
    {shape : AShape d ℝ} (hsh : Lattice.buildShape L.struct a = .ok shape)
    {indices : List (Idx d)} {positions : List (Vec d ℝ)}
    (hbi : L.struct.buildIndices (.shape shape) a.primitive a.pos a.check a.callback none =
      .ok (indices, positions)) (hne : positions ≠ []) :
    ∃ L' D, L.build env a = (L', .ok ()) ∧ L'.data = some D ∧ D.indices = indices ∧
      D.positions = positions := by
  obtain ⟨cells, m, c, -, -, -, -, -, hI⟩ := (hr.good hd).analysis A hA
  obtain ⟨a0, b0, hc0⟩ := h.exists_configured hd hr hA
  have hq : ∃ k md, queryParams A = .ok (k, md) := by
    have h1 := hI.mem_distances hc0
    obtain ⟨row, hrow, l, hl, hx⟩ := raw_of_configured hd hr hA hc0
    have h2 : npRound 6 r ∈ A.rawDistances.flatten.flatten :=
      List.mem_flatten.2 ⟨l, List.mem_flatten.2 ⟨row, hrow, hl⟩, hx⟩
    obtain ⟨n, hn⟩ := hraw
    have h3 : ∀ k ∈ A.rawDistances.flatten.map List.length, k = n := by
      intro k hk
      obtain ⟨l, hl, rfl⟩ := List.mem_map.1 hk
      obtain ⟨row, hrow, hl⟩ := List.mem_flatten.1 hl
      exact hn row hrow l hl
    unfold queryParams
    cases hd1 : A.distances.flatten with
    | nil => rw [hd1] at h1; cases h1
    | cons x xs =>
    cases hr1 : A.rawDistances.flatten.flatten with
    | nil => rw [hr1] at h2; cases h2
    | cons y ys =>
    dsimp only
    refine ⟨_, _, if_pos ?_⟩
    rw [List.all_eq_true]
    intro k hk
    rw [decide_eq_true_eq]
    cases hl1 : A.rawDistances.flatten.map List.length with
    | nil => rw [hl1] at hk; cases hk
    | cons k0 ks => rw [List.head?_cons, h3 k hk, h3 k0 (by rw [hl1]; simp)]
  obtain ⟨k, md, hq⟩ := hq
  obtain ⟨h5, h6⟩ := buildIndices_sites hd hr hbi
  have h0 : 0 < positions.length := List.length_pos_of_ne_nil hne
  obtain ⟨table, hcomp, -⟩ := computeNeighbors_rows env hI hA hq indices positions h5.length_eq
    (positions_nodup h.distinct h5 (h6 rfl))
  obtain ⟨D, hset, hDi, hDp, -⟩ := h.data hd hr hA h5 (h6 rfl) h0 hcomp
  obtain ⟨lo, hi, hlim⟩ := Lattice.getLimits_ok (D := D) (by rw [hDp]; exact h0)
  exact ⟨_, D, Lattice.build_of hA hc hsh (by rw [hb]; exact hbi) hcomp (by rw [hm]; rfl) hset hlim
    hp, rfl, hDi, hDp⟩

/-! ## presets -/

/-- One atom, one shell: the raw distances are complete. -/
theorem raw_one {w : World d ℝ} {D : ℝ} {N : ℕ → Set (Idx d)} (h : NearestOnly w D N)
    {b : LatticeBasis d ℝ} {ps : List (Vec d ℝ)} {c cells A}
    (hC : Preset.Configured w b ps c 1 cells A) {n : Fin d → ℤ} (hn : n ∈ cells) (hn0 : n ≠ 0) :
    ∃ k, ∀ row ∈ A.rawDistances, ∀ l ∈ row, l.length = k := by
  refine ⟨1, ?_⟩
  intro row hrow l hl
  rw [hC.isAnalysis.rawDistances] at hrow
  obtain ⟨α, hα, rfl⟩ := List.mem_map.1 hrow
  obtain ⟨β, hβ, rfl⟩ := List.mem_map.1 hl
  rw [List.mem_range] at hα hβ
  rw [List.length_take]
  suffices hpos : 0 < (w.struct.levels cells α β).length by omega
  rw [List.length_pos_iff_exists_mem]
  have hra := exists_pos hC.good hα
  have hrb := exists_pos hC.good hβ
  refine ⟨_, mem_levels.2 ⟨?_, n, hn, rfl⟩⟩
  rw [siteDist_sqrt hra hrb]
  have hge : D ≤ Real.sqrt (shiftSq w.struct.basis (w.struct.posOf β - w.struct.posOf α) n) := by
    have := h.pos
    rcases h.gap α β _ _ n hra hrb with ⟨-, e⟩ | ⟨e, -⟩ | e
    · exact absurd e hn0
    · rw [e, Real.sqrt_sq h.pos.le]
    · apply Real.le_sqrt_of_sq_le
      nlinarith
  have h1 := npRound_mono (n := 6) hge
  have h2 := abs_le.1 h.round
  have h3 := h.resolved
  norm_num at h2 h3
  linarith

theorem cubic_only {w : World d ℝ} {a : ℝ} (ha : 1 / 10 ^ 5 ≤ |a|) (hd : 0 < d) {env : Env ℝ}
    (hr : Reachable env w)
    (hv : w.struct.basis.vectors = a • (1 : Matrix (Fin d) (Fin d) ℝ))
    (hp : w.struct.positions = [0])
    (hN : NeighborsAre w 0 (npRound 6 |a|) {idx | ∃ n ∈ axisCells d, idx = Idx.mk n 0}) :
    NearestOnly w |a| fun _ => {idx | ∃ n ∈ axisCells d, idx = Idx.mk n 0} := by
  have hn1 : w.struct.numBase = 1 := by rw [← (hr.good hd).positions_length, hp]; rfl
  refine ⟨ha, ⟨0, by omega, _, Pi.single ⟨0, hd⟩ 1, ⟨⟨0, hd⟩, Or.inl rfl⟩, rfl⟩, ?_, ?_⟩
  · intro α hα
    have : α = 0 := by omega
    subst this
    exact hN
  · intro α β ra rb n h1 h2
    rw [hp, List.getElem?_singleton] at h1 h2
    split_ifs at h1 h2 with e1 e2
    cases h1
    cases h2
    subst e1 e2
    rw [sub_self, cubic_shiftSq hv, sq_abs]
    have h3 : 0 ≤ ∑ i, n i ^ 2 := Finset.sum_nonneg fun _ _ => sq_nonneg _
    by_cases h0 : ∑ i, n i ^ 2 = 0
    · left
      refine ⟨rfl, ?_⟩
      funext i
      have := (Finset.sum_eq_zero_iff_of_nonneg fun _ _ => sq_nonneg _).1 h0 i (Finset.mem_univ i)
      simpa using this
    · right
      by_cases h1 : ∑ i, n i ^ 2 = 1
      · left
        exact ⟨by rw [h1]; simp, n, (sum_sq_one_iff n).1 h1, rfl⟩
      · right
        have h2 : (2 : ℤ) ≤ ∑ i, n i ^ 2 := by omega
        have h2' : (2 : ℝ) ≤ ((∑ i, n i ^ 2 : ℤ) : ℝ) := by exact_mod_cast h2
        nlinarith [sq_nonneg a]

theorem hex_shiftSq {b : LatticeBasis 2 ℝ} {a : ℝ}
    (hv : b.vectors = (a / 2) • !![3, Real.sqrt 3; 3, -Real.sqrt 3]) (r : Vec 2 ℝ) (n : Fin 2 → ℤ) :
    shiftSq b r n = (r 0 + a / 2 * (3 * (n 0 + n 1))) ^ 2 +
      (r 1 + a / 2 * (Real.sqrt 3 * (n 0 - n 1))) ^ 2 := by
  unfold shiftSq
  rw [hv]
  simp [Fin.sum_univ_two]
  ring

theorem hex_shiftSq_zero {b : LatticeBasis 2 ℝ} {a : ℝ}
    (hv : b.vectors = (a / 2) • !![3, Real.sqrt 3; 3, -Real.sqrt 3]) (n : Fin 2 → ℤ) :
    shiftSq b 0 n = 3 * a ^ 2 * ((n 0 ^ 2 + n 0 * n 1 + n 1 ^ 2 : ℤ) : ℝ) := by
  rw [hex_shiftSq hv]
  push_cast
  simp only [Pi.zero_apply]
  linear_combination (a ^ 2 / 4 * ((n 0 : ℝ) - n 1) ^ 2) * sqrt3_sq

theorem hex_form_nonneg (n : Fin 2 → ℤ) : 0 ≤ n 0 ^ 2 + n 0 * n 1 + n 1 ^ 2 := by
  nlinarith [sq_nonneg (n 0 + n 1), sq_nonneg (n 0), sq_nonneg (n 1)]

theorem hex_form_zero {n : Fin 2 → ℤ} (h : n 0 ^ 2 + n 0 * n 1 + n 1 ^ 2 = 0) : n = 0 := by
  have h1 : n 0 = 0 := by nlinarith [sq_nonneg (n 0 + 2 * n 1), sq_nonneg (n 0)]
  have h2 : n 1 = 0 := by nlinarith [sq_nonneg (2 * n 0 + n 1), sq_nonneg (n 1)]
  funext i
  fin_cases i
  · exact h1
  · exact h2

theorem hex_only {w : World 2 ℝ} {a : ℝ} (ha : 1 / 10 ^ 5 ≤ |a|) {env : Env ℝ}
    (hr : Reachable env w)
    (hv : w.struct.basis.vectors = (a / 2) • !![3, Real.sqrt 3; 3, -Real.sqrt 3])
    (hp : w.struct.positions = [0])
    (hN : NeighborsAre w 0 (npRound 6 (Real.sqrt 3 * |a|))
        {Idx.mk ![1, 0] 0, Idx.mk ![-1, 0] 0, Idx.mk ![0, 1] 0, Idx.mk ![0, -1] 0,
          Idx.mk ![1, -1] 0, Idx.mk ![-1, 1] 0}) :
    NearestOnly w (Real.sqrt 3 * |a|) fun _ =>
        {Idx.mk ![1, 0] 0, Idx.mk ![-1, 0] 0, Idx.mk ![0, 1] 0, Idx.mk ![0, -1] 0,
          Idx.mk ![1, -1] 0, Idx.mk ![-1, 1] 0} := by
  have hn1 : w.struct.numBase = 1 := by rw [← (hr.good two_pos).positions_length, hp]; rfl
  have hD2 : (Real.sqrt 3 * |a|) ^ 2 = 3 * a ^ 2 := by rw [mul_pow, sqrt3_sq, sq_abs]
  refine ⟨?_, ⟨0, by omega, Idx.mk ![1, 0] 0, by simp⟩, ?_, ?_⟩
  · have : 1 ≤ Real.sqrt 3 := by rw [Real.one_le_sqrt]; norm_num
    nlinarith [abs_nonneg a]
  · intro α hα
    have : α = 0 := by omega
    subst this
    exact hN
  · intro α β ra rb n h1 h2
    rw [hp, List.getElem?_singleton] at h1 h2
    split_ifs at h1 h2 with e1 e2
    cases h1
    cases h2
    subst e1 e2
    rw [sub_self, hex_shiftSq_zero hv, hD2]
    by_cases h0 : n 0 ^ 2 + n 0 * n 1 + n 1 ^ 2 = 0
    · left
      exact ⟨rfl, hex_form_zero h0⟩
    · right
      by_cases h1 : n 0 ^ 2 + n 0 * n 1 + n 1 ^ 2 = 1
      · left
        refine ⟨by rw [h1]; simp, ?_⟩
        have b1 : -1 ≤ n 0 := by nlinarith [sq_nonneg (n 0 + 2 * n 1)]
        have b2 : n 0 ≤ 1 := by nlinarith [sq_nonneg (n 0 + 2 * n 1)]
        have b3 : -1 ≤ n 1 := by nlinarith [sq_nonneg (2 * n 0 + n 1)]
        have b4 : n 1 ≤ 1 := by nlinarith [sq_nonneg (2 * n 0 + n 1)]
        have hn2 : n = ![n 0, n 1] := by ext i; fin_cases i <;> rfl
        generalize n 0 = p at *
        generalize n 1 = q at *
        subst hn2
        interval_cases p <;> interval_cases q <;> simp_all
      · right
        have h3 := hex_form_nonneg n
        have h2 : (2 : ℤ) ≤ n 0 ^ 2 + n 0 * n 1 + n 1 ^ 2 := by omega
        have h2' : (2 : ℝ) ≤ ((n 0 ^ 2 + n 0 * n 1 + n 1 ^ 2 : ℤ) : ℝ) := by exact_mod_cast h2
        nlinarith [sq_nonneg a]

/-- The neighbours in `honeycomb` and `graphene`. -/
def honeySets (α : ℕ) : Set (Idx 2) :=
  if α = 0 then {Idx.mk ![0, 0] 1, Idx.mk ![-1, 0] 1, Idx.mk ![0, -1] 1}
  else {Idx.mk ![0, 0] 0, Idx.mk ![1, 0] 0, Idx.mk ![0, 1] 0}

theorem honey_form_nonneg (n : Fin 2 → ℤ) : 0 ≤ n 0 ^ 2 + n 0 * n 1 + n 1 ^ 2 + n 0 + n 1 := by
  have h1 : 0 < (n 0 + n 1 + 1) ^ 2 + n 0 ^ 2 + n 1 ^ 2 := by
    by_cases h : n 0 = 0 ∧ n 1 = 0
    · rw [h.1, h.2]; norm_num
    · rcases not_and_or.1 h with h | h
      · have := sq_pos_of_ne_zero h
        nlinarith [sq_nonneg (n 0 + n 1 + 1), sq_nonneg (n 1)]
      · have := sq_pos_of_ne_zero h
        nlinarith [sq_nonneg (n 0 + n 1 + 1), sq_nonneg (n 0)]
  nlinarith

theorem honey_form_zero {n : Fin 2 → ℤ} (hn : n 0 ^ 2 + n 0 * n 1 + n 1 ^ 2 + n 0 + n 1 = 0) :
    n = ![0, 0] ∨ n = ![-1, 0] ∨ n = ![0, -1] := by
  have b1 : -1 ≤ n 0 := by nlinarith [sq_nonneg (n 0 + n 1 + 1), sq_nonneg (n 1)]
  have b2 : n 0 ≤ 1 := by nlinarith [sq_nonneg (n 0 + n 1 + 1), sq_nonneg (n 1)]
  have b3 : -1 ≤ n 1 := by nlinarith [sq_nonneg (n 0 + n 1 + 1), sq_nonneg (n 0)]
  have b4 : n 1 ≤ 1 := by nlinarith [sq_nonneg (n 0 + n 1 + 1), sq_nonneg (n 0)]
  have hn2 : n = ![n 0, n 1] := by ext i; fin_cases i <;> rfl
  generalize n 0 = p at *
  generalize n 1 = q at *
  subst hn2
  interval_cases p <;> interval_cases q <;> simp_all

theorem honey_only {w : World 2 ℝ} {a : ℝ} (ha : 1 / 10 ^ 5 ≤ |a|) {env : Env ℝ}
    (hr : Reachable env w)
    (hv : w.struct.basis.vectors = (a / 2) • !![3, Real.sqrt 3; 3, -Real.sqrt 3])
    (hp : w.struct.positions = [![0, 0], ![a, 0]])
    (hN0 : NeighborsAre w 0 (npRound 6 |a|)
      {Idx.mk ![0, 0] 1, Idx.mk ![-1, 0] 1, Idx.mk ![0, -1] 1})
    (hN1 : NeighborsAre w 1 (npRound 6 |a|)
      {Idx.mk ![0, 0] 0, Idx.mk ![1, 0] 0, Idx.mk ![0, 1] 0}) :
    NearestOnly w |a| honeySets := by
  have hn1 : w.struct.numBase = 2 := by rw [← (hr.good two_pos).positions_length, hp]; rfl
  have hq1 : ∀ n : Fin 2 → ℤ, shiftSq w.struct.basis (![a, 0] - ![0, 0]) n =
      a ^ 2 * (1 + 3 * ((n 0 ^ 2 + n 0 * n 1 + n 1 ^ 2 + n 0 + n 1 : ℤ) : ℝ)) := by
    intro n
    rw [hex_shiftSq hv]
    push_cast
    simp only [Pi.sub_apply, Matrix.cons_val_zero, Matrix.cons_val_one]
    linear_combination (a ^ 2 / 4 * ((n 0 : ℝ) - n 1) ^ 2) * sqrt3_sq
  have hq2 : ∀ n : Fin 2 → ℤ, shiftSq w.struct.basis (![0, 0] - ![a, 0]) n =
      shiftSq w.struct.basis (![a, 0] - ![0, 0]) (-n) := by
    intro n
    rw [hex_shiftSq hv, hex_shiftSq hv]
    simp only [Pi.sub_apply, Pi.neg_apply, Matrix.cons_val_zero, Matrix.cons_val_one]
    push_cast
    ring
  have hsame : ∀ (α : ℕ) (n : Fin 2 → ℤ), (α = α ∧ n = 0) ∨
      (shiftSq w.struct.basis 0 n = |a| ^ 2 ∧ Idx.mk n (α : ℤ) ∈ honeySets α) ∨
      2 * |a| ^ 2 ≤ shiftSq w.struct.basis 0 n := by
    intro α n
    by_cases h0 : n 0 ^ 2 + n 0 * n 1 + n 1 ^ 2 = 0
    · exact Or.inl ⟨rfl, hex_form_zero h0⟩
    · right
      right
      rw [hex_shiftSq_zero hv, sq_abs]
      have h3 := hex_form_nonneg n
      have h2 : (1 : ℤ) ≤ n 0 ^ 2 + n 0 * n 1 + n 1 ^ 2 := by omega
      have h2' : (1 : ℝ) ≤ ((n 0 ^ 2 + n 0 * n 1 + n 1 ^ 2 : ℤ) : ℝ) := by exact_mod_cast h2
      nlinarith [sq_nonneg a]
  have hother : ∀ n : Fin 2 → ℤ, (shiftSq w.struct.basis (![a, 0] - ![0, 0]) n = |a| ^ 2 ∧
      (n = ![0, 0] ∨ n = ![-1, 0] ∨ n = ![0, -1])) ∨
      2 * |a| ^ 2 ≤ shiftSq w.struct.basis (![a, 0] - ![0, 0]) n := by
    intro n
    rw [hq1, sq_abs]
    by_cases h0 : n 0 ^ 2 + n 0 * n 1 + n 1 ^ 2 + n 0 + n 1 = 0
    · left
      exact ⟨by rw [h0]; simp, honey_form_zero h0⟩
    · right
      have h3 := honey_form_nonneg n
      have h2 : (1 : ℤ) ≤ n 0 ^ 2 + n 0 * n 1 + n 1 ^ 2 + n 0 + n 1 := by omega
      have h2' : (1 : ℝ) ≤ ((n 0 ^ 2 + n 0 * n 1 + n 1 ^ 2 + n 0 + n 1 : ℤ) : ℝ) := by
        exact_mod_cast h2
      nlinarith [sq_nonneg a]
  refine ⟨ha, ⟨0, by omega, Idx.mk ![0, 0] 1, by simp [honeySets]⟩, ?_, ?_⟩
  · intro α hα
    have : α = 0 ∨ α = 1 := by omega
    rcases this with rfl | rfl
    · exact hN0
    · exact hN1
  · intro α β ra rb n h1 h2
    have hcase : ∀ (α : ℕ) (ra : Vec 2 ℝ), w.struct.positions[α]? = some ra →
        (α = 0 ∧ ra = ![0, 0]) ∨ (α = 1 ∧ ra = ![a, 0]) := by
      intro α ra h
      rw [hp] at h
      match α, h with
      | 0, h => exact Or.inl ⟨rfl, (Option.some_inj.1 h).symm⟩
      | 1, h => exact Or.inr ⟨rfl, (Option.some_inj.1 h).symm⟩
    rcases hcase α ra h1 with ⟨rfl, rfl⟩ | ⟨rfl, rfl⟩ <;>
      rcases hcase β rb h2 with ⟨rfl, rfl⟩ | ⟨rfl, rfl⟩
    · rw [sub_self]
      exact hsame 0 n
    · right
      rcases hother n with ⟨e, h | h | h⟩ | e
      · left; exact ⟨e, by rw [h]; simp [honeySets]⟩
      · left; exact ⟨e, by rw [h]; simp [honeySets]⟩
      · left; exact ⟨e, by rw [h]; simp [honeySets]⟩
      · right; exact e
    · right
      rw [hq2]
      have hneg : n = - -n := (neg_neg n).symm
      rcases hother (-n) with ⟨e, h | h | h⟩ | e
      · left; exact ⟨e, by rw [hneg, h]; simp [honeySets]⟩
      · left; exact ⟨e, by rw [hneg, h]; simp [honeySets]⟩
      · left; exact ⟨e, by rw [hneg, h]; simp [honeySets]⟩
      · right; exact e
    · rw [sub_self]
      exact hsame 1 n

/-- The hypothesis of C59_nearest_only_partial is met by graphene (a build that succeeds is at the end
of this file). -/
example (env : Env ℝ) (s : Session) :
    ∃ w, graphene env s 1 = .ok w ∧ Reachable env w ∧ NearestOnly w 1 honeySets := by
  obtain ⟨w, h1, -, h2, h3, h4⟩ := C84_graphene_partial env s 1 (by norm_num)
  obtain ⟨s', ops, hc⟩ := graphene_configure h1
  have hr := configure_reachable hc
  exact ⟨w, h1, hr, by
    simpa using honey_only (by norm_num) hr (configure_vectors hc) h2 h3 h4⟩

/-- Every successful build of a finite lattice (without `min_neighbors`, periodic boundary
conditions and an explicit index type) from the configured structure `w` makes a lattice where the
neighbours of a site are exactly the sites at the distance `r`. -/
def BuildsNearest (env : Env ℝ) (w : World d ℝ) (r : ℝ) : Prop :=
  ∀ (L L' : Lattice d ℝ) (a : BuildArgs d ℝ), L.world = w → a.minNeighbors = none →
    a.periodic = none → a.bits = none → L.build env a = (L', .ok ()) →
    ∃ D, L'.data = some D ∧ List.Forall₂ (IsSitePos w.struct) D.indices D.positions ∧
      D.indices.Nodup ∧ D.positions.Nodup ∧ NearestNeighbors L' D r

theorem NearestOnly.builds {w : World d ℝ} {r : ℝ} {N : ℕ → Set (Idx d)} (h : NearestOnly w r N)
    (hd : 0 < d) {env : Env ℝ} (hr : Reachable env w) : BuildsNearest env w r := by
  rintro L L' a rfl hm hp hb hok
  obtain ⟨D, h1, h2, h3, h4, h5, -⟩ := C59_nearest_only_partial hd hr h hm hp hb hok
  exact ⟨D, h1, h2, h3, h4, h5⟩

theorem cubic_builds (hd : 0 < d) (env : Env ℝ) (s : Session) {a : ℝ} (ha : 1 / 10 ^ 5 ≤ |a|)
    (atom : AtomSpec) {rows : Matrix (Fin d) (Fin d) ℝ}
    (hrows : rows = a • (1 : Matrix (Fin d) (Fin d) ℝ)) :
    ∃ w, configure env s (LatticeBasis.init rows) (oneAtom atom 1) = .ok w ∧
      BuildsNearest env w |a| := by
  obtain ⟨w, h1, h2, -, h3⟩ := cubic_nearest hd env s ha atom hrows
  have hr := configure_reachable h1
  exact ⟨w, h1, (cubic_only ha hd hr ((configure_vectors h1).trans hrows) h2 h3).builds hd hr⟩

/-- C108 for every successful build: for one shell (`neighbors=1`) and any lattice constant that is
resolved by the rounding of distances: in every finite lattice built from `simple_chain`, `simple_square`,
`simple_cubic`, the lattice of `finite_hypercubic`, `simple_hexagonal`, `honeycomb` and `graphene`,
with any shape, position and callback, the neighbours of a site are exactly the sites at the
distance `|a|` (`√3 |a|` for the hexagonal lattice). -/
theorem C108_any_shape (env : Env ℝ) (s : Session) (a : ℝ) (ha : 1 / 10 ^ 5 ≤ |a|)
    (atom : AtomSpec) :
    (∃ w, simpleChain env s a atom 1 = .ok w ∧ BuildsNearest env w |a|) ∧
    (∃ w, simpleSquare env s a atom 1 = .ok w ∧ BuildsNearest env w |a|) ∧
    (∃ w, simpleCubic env s a atom 1 = .ok w ∧ BuildsNearest env w |a|) ∧
    (∀ d, 0 < d → ∃ w : World d ℝ,
      configure env s (LatticeBasis.hypercubic d a) (oneAtom atom 1) = .ok w ∧
      BuildsNearest env w |a|) ∧
    (∃ w, simpleHexagonal env s a atom 1 = .ok w ∧ BuildsNearest env w (Real.sqrt 3 * |a|)) ∧
    (∃ w, honeycomb env s a atom = .ok w ∧ BuildsNearest env w |a|) ∧
    (∃ w, graphene env s a = .ok w ∧ BuildsNearest env w |a|) := by
  refine ⟨?_, ?_, ?_, ?_, ?_, ?_, ?_⟩
  · exact cubic_builds one_pos env s ha atom (rows := !![a]) (by
      ext i j; fin_cases i; fin_cases j; simp)
  · exact cubic_builds two_pos env s ha atom rfl
  · exact cubic_builds three_pos env s ha atom rfl
  · intro d hd
    exact cubic_builds hd env s ha atom rfl
  · obtain ⟨w, h1, h2, h3⟩ := C84_hexagonal_partial env s a ha atom
    have hr := configure_reachable h1
    exact ⟨w, h1, (hex_only ha hr (configure_vectors h1) h2 h3).builds two_pos hr⟩
  · obtain ⟨w, at', h1, -, -, h2, h3, h4⟩ := C84_honeycomb_partial env s a ha atom
    obtain ⟨s', ops, hc⟩ := honeycomb_configure h1
    have hr := configure_reachable hc
    exact ⟨w, h1, (honey_only ha hr (configure_vectors hc) h2 h3 h4).builds two_pos hr⟩
  · obtain ⟨w, h1, -, h2, h3, h4⟩ := C84_graphene_partial env s a ha
    obtain ⟨s', ops, hc⟩ := graphene_configure h1
    have hr := configure_reachable hc
    exact ⟨w, h1, (honey_only ha hr (configure_vectors hc) h2 h3 h4).builds two_pos hr⟩

/-! ## boxes at the origin -/

/-- Some cell other than the home cell is searched. -/
theorem exists_searched (hd : 0 < d) {b : LatticeBasis d ℝ} {cells : List (Fin d → ℤ)}
    (hcells : b.getNeighborCells (2 * 1) true (fun x y => decide (x ≤ y)) = .ok cells) :
    ∃ n ∈ cells, n ≠ 0 := by
  set F : Finset (Fin d → ℤ) := (Fintype.piFinset fun _ => Finset.Icc (-3 : ℤ) 3).erase 0 with hF
  have hmem : ∀ n : Fin d → ℤ, n ∈ F ↔ n ≠ 0 ∧ ∀ k, |n k| ≤ 2 * ((1 : ℕ) : ℤ) + 1 := by
    intro n
    rw [hF, Finset.mem_erase, Fintype.mem_piFinset]
    refine and_congr_right fun _ => forall_congr' fun k => ?_
    rw [Finset.mem_Icc, abs_le]
    norm_num
  have hne : F.Nonempty := by
    refine ⟨Pi.single ⟨0, hd⟩ 1, (hmem _).2 ⟨by simp, fun k => ?_⟩⟩
    by_cases hk : k = ⟨0, hd⟩
    · rw [hk, Pi.single_eq_same]; norm_num
    · rw [Pi.single_eq_of_ne hk]; norm_num
  obtain ⟨n, hn, hmin⟩ := F.exists_min_image (shiftSq b 0) hne
  obtain ⟨h0, hbox⟩ := (hmem n).1 hn
  refine ⟨n, mem_cells_few hd hcells hbox {0} (by simp) ?_, h0⟩
  intro n' hn' hlt
  by_cases e : n' = 0
  · rw [e]
    simp [shiftSq]
  · exact absurd (hmin n' ((hmem n').2 ⟨e, hn'⟩)) (not_le.2 hlt)

theorem vindices_zero {limits : Fin d → ℤ × ℤ} (h : ∀ k, (limits k).1 ≤ 0 ∧ 0 < (limits k).2)
    (ax : Fin d) : ∃ nv, vindices limits (some ax) none = .ok nv ∧ 0 ∈ nv := by
  unfold vindices
  dsimp only
  rw [if_neg (by
    simp only [List.any_eq_true, List.mem_finRange, true_and, decide_eq_true_eq, not_exists, not_lt]
    intro k
    have := h k
    omega)]
  refine ⟨_, rfl, ?_⟩
  rw [(stableSortBy_perm _ _).mem_iff, List.mem_map]
  refine ⟨fun k => -(limits k).1, ?_, by funext k; simp⟩
  rw [mem_boxList]
  intro k
  rw [List.mem_map]
  obtain ⟨h1, h2⟩ := h k
  refine ⟨(-(limits k).1).toNat, List.mem_range.2 (by omega), ?_⟩
  rw [Int.toNat_of_nonneg (by omega)]
  unfold indexWrap
  dsimp only
  cases ht : minDtype ((List.finRange d).flatMap fun k => [(limits k).1, (limits k).2]) true with
  | none => rfl
  | some t =>
    dsimp only
    obtain ⟨hb, -, hm⟩ := minDtype_signed ht
    refine wrapSigned_of_lt hb (by omega) ?_
    have h3 := hm (limits k).1 (List.mem_flatMap.2 ⟨k, List.mem_finRange k, by simp⟩)
    have := neg_abs_le (limits k).1
    omega

/-- The sites of a box at the origin contain the site at the origin. -/
theorem origin_kept (hd : 0 < d) {S : Structure d ℝ} (hS : S.Good) (hp : S.positions[0]? = some 0)
    (hV : ∀ k, ∃ j, 0 ≤ S.basis.Vinv k j) {size : Vec d ℝ} (hsize : ∀ k, 0 ≤ size k) :
    ∃ indices positions,
      S.buildIndices (.shape (.box size 0 none)) false none true none none =
        .ok (indices, positions) ∧ Idx.mk 0 0 ∈ indices ∧ positions ≠ [] := by
  have h0 : 0 < S.numBase := by
    rw [← hS.positions_length]
    exact (List.getElem?_eq_some_iff.1 hp).1
  have hpos : S.sitePos (Idx.mk 0 0) = 0 := by
    unfold sitePos
    rw [Idx.alpha_mk, Idx.cell_mk]
    have : S.posOf 0 = 0 := by
      have := exists_pos hS h0
      rw [hp] at this
      injection this with this
      exact this.symm
    rw [Int.toNat_zero, this]
    unfold LatticeBasis.translate
    have e : (fun i => (((0 : Fin d → ℤ) i : ℤ) : ℝ)) = 0 := by funext i; simp
    rw [e, Matrix.mulVec_zero, add_zero]
  obtain ⟨l, hl, hm⟩ := AShape.minMax_spec (AShape.corners size 0 none) (AShape.corners_ne _ _ _)
  have hl1 : ∀ k, (l k).1 = 0 := by
    intro k
    obtain ⟨⟨⟨v, hv, e⟩, hle⟩, -⟩ := hm k
    apply le_antisymm
    · exact hle ⟨0, (AShape.mem_corners_none _ _ _).2 fun _ => Or.inl rfl, rfl⟩
    · rw [e]
      rcases (AShape.mem_corners_none _ _ _).1 hv k with h | h <;> rw [h]
      · exact le_refl _
      · simpa using hsize k
  have hl2 : ∀ k, 0 ≤ (l k).2 := by
    intro k
    exact (hm k).2.2 ⟨0, (AShape.mem_corners_none _ _ _).2 fun _ => Or.inl rfl, rfl⟩
  obtain ⟨nv, hnv, h0nv⟩ := vindices_zero (limits := S.searchLimits (fun k => (l k).1)
      (fun k => (l k).2 - (l k).1)) (by
    intro k
    refine window_covers (p := 0) (c := 0) ?_ (Or.inr ⟨fun j => by rw [hl1], hV k⟩)
      ⟨le_refl _, by norm_num⟩ (by simp [LatticeBasis.itransform])
    intro j
    rw [hl1]
    simpa using hl2 j) ⟨0, hd⟩
  have hkeep : Idx.mk 0 0 ∈ (siteList S.numBase nv).filter (fun idx =>
      !true || S.accepts (.shape (.box size 0 none)) false none (1 / 1000) (S.sitePos idx)) := by
    rw [List.mem_filter, mem_siteList, hpos]
    refine ⟨⟨by rwa [Idx.cell_mk], 0, h0, by rw [Idx.alpha_mk]; rfl⟩, ?_⟩
    unfold accepts AShape.contains
    simp only [Bool.not_true, Bool.false_or, decide_eq_true_eq, Pi.zero_apply]
    intro k
    have := hsize k
    constructor <;> linarith
  refine ⟨_, _, buildIndices_none hS.positions_length h0 (nvecs := nv) ?_ ?_, hkeep, ?_⟩
  · rw [buildTranslationVectors_eq _ hd]
    unfold buildRegion
    have hlim : (AShape.box size 0 none).limits = .ok l := hl
    dsimp only
    rw [hlim]
    simpa using hnv
  · intro points
    unfold checkError checkPoints
    rw [if_pos rfl]
    dsimp only
    rw [mapM_ok (fun p => (AShape.box size 0 none).contains p (1 / 1000)) (fun p => decide (∀ k, (0 : Vec d ℝ) k - 1 / 1000 ≤ p k ∧
      p k ≤ (0 : Vec d ℝ) k + size k + 1 / 1000)) points fun p _ => rfl]
  · intro e
    rw [List.map_eq_nil_iff] at e
    rw [e] at hkeep
    cases hkeep

/-- `build(size)` of a box at the origin succeeds for every size, keeps the site at the origin, and
the neighbours of a site are exactly the sites at the distance `r`. -/
def BoxesBuild (env : Env ℝ) (w : World d ℝ) (r : ℝ) : Prop :=
  ∀ (size : Vec d ℝ) (isInt : Bool), (∀ k, 0 ≤ size k) →
    ∃ L D, (Lattice.ofWorld w).build env { shape := .size (List.ofFn size) isInt } = (L, .ok ()) ∧
      L.data = some D ∧ Idx.mk 0 0 ∈ D.indices ∧ NearestNeighbors L D r

theorem NearestOnly.boxes {w : World d ℝ} {r : ℝ} {N : ℕ → Set (Idx d)} (h : NearestOnly w r N)
    (hd : 0 < d) {env : Env ℝ} (hr : Reachable env w) {b : LatticeBasis d ℝ} {ps : List (Vec d ℝ)}
    {c cells A} (hC : Preset.Configured w b (0 :: ps) c 1 cells A)
    (hz : ∃ i < c.size, ∃ j < c.size, c.entry i j ≠ 0) (hV : ∀ k, ∃ j, 0 ≤ b.Vinv k j) :
    BoxesBuild env w r := by
  intro size isInt hsize
  obtain ⟨n, hn, hn0⟩ := exists_searched hd hC.searched
  obtain ⟨indices, positions, hbi, h0, hne⟩ := origin_kept hd hC.good
    (by rw [hC.positions]; rfl) (by rw [hC.basis]; exact hV) hsize
  have hz' : c.allZero = false := by
    by_contra hz'
    rw [Bool.not_eq_false, ConnMatrix.allZero_iff] at hz'
    obtain ⟨i, hi, j, hj, hij⟩ := hz
    exact hij (hz' i hi j hj)
  have hsh : Lattice.buildShape (Lattice.ofWorld w).struct
      ({ shape := .size (List.ofFn size) isInt } : BuildArgs d ℝ) = .ok (.box size 0 none) := by
    unfold Lattice.buildShape
    dsimp only
    rw [toVec_ofFn]
    rfl
  obtain ⟨L, D, h1, h2, h3, -⟩ := C59_nearest_only_builds_partial (L := Lattice.ofWorld w) hd hr h
    hC.analysis (fun c' hc' => by cases hC.conn.symm.trans hc'; exact hz') (raw_one h hC hn hn0)
    (a := { shape := .size (List.ofFn size) isInt }) rfl rfl rfl hsh hbi hne
  obtain ⟨D', h4, -, -, -, h5, -⟩ := C59_nearest_only_partial (L := Lattice.ofWorld w) hd hr h
    (a := { shape := .size (List.ofFn size) isInt }) rfl rfl rfl h1
  cases h2.symm.trans h4
  exact ⟨L, D, h1, h2, by rw [h3]; exact h0, h5⟩

theorem cubic_boxes (hd : 0 < d) (env : Env ℝ) (s : Session) {a : ℝ} (ha : 1 / 10 ^ 5 ≤ a)
    (atom : AtomSpec) {rows : Matrix (Fin d) (Fin d) ℝ}
    (hrows : rows = a • (1 : Matrix (Fin d) (Fin d) ℝ)) :
    ∃ w, configure env s (LatticeBasis.init rows) (oneAtom atom 1) = .ok w ∧ BoxesBuild env w a := by
  have ha0 : 0 < a := lt_of_lt_of_le (by positivity) ha
  have habs : |a| = a := abs_of_pos ha0
  obtain ⟨w, h1, h2, -, h3⟩ := cubic_nearest hd env s (a := a) (by rwa [habs]) atom hrows
  have hr := configure_reachable h1
  have hN := cubic_only (by rwa [habs]) hd hr ((configure_vectors h1).trans hrows) h2 h3
  obtain ⟨b, hb⟩ := (LatticeBasis.init_eq_ok_iff rows).2 (by
    rw [hrows, Matrix.det_smul, Matrix.det_one, mul_one]
    exact pow_ne_zero _ ha0.ne')
  obtain ⟨w', c, cells, A, h1', hC, he⟩ := configure_oneAtom hd env s hb atom one_pos
  cases h1.symm.trans h1'
  rw [habs] at hN
  have hs : 0 < c.size := by rw [hC.size]; exact Nat.one_pos
  refine ⟨w, h1, hN.boxes hd hr hC ⟨0, hs, 0, hs, by omega⟩ fun k => ⟨k, ?_⟩⟩
  obtain ⟨e1, -, -, e2⟩ := LatticeBasis.init_ok hb
  rw [e1, hrows] at e2
  have e3 := congrFun (congrFun e2 k) k
  simp only [Matrix.transpose_smul, Matrix.transpose_one, Matrix.mul_smul, Matrix.mul_one,
    Matrix.smul_apply, Matrix.one_apply_eq, smul_eq_mul] at e3
  by_contra hneg
  push Not at hneg
  nlinarith

/-- The lattice coordinates of the hexagonal basis grow along the first axis. -/
theorem hex_Vinv {a : ℝ} (ha : 0 < a) {b : LatticeBasis 2 ℝ} (hb : LatticeBasis.hexagonal a = .ok b) :
    ∀ k, ∃ j, 0 ≤ b.Vinv k j := by
  obtain ⟨e1, -, -, e2⟩ := LatticeBasis.init_ok hb
  rw [e1] at e2
  have e : ∀ k : Fin 2, b.Vinv k 0 * (3 * a) = 1 := by
    intro k
    have h0 := congrFun (congrFun e2 k) 0
    have h1 := congrFun (congrFun e2 k) 1
    simp [Matrix.mul_apply, Fin.sum_univ_two] at h0 h1
    fin_cases k
    · simp [Matrix.one_apply] at h0 h1 ⊢
      linarith
    · simp [Matrix.one_apply] at h0 h1 ⊢
      linarith
  intro k
  refine ⟨0, ?_⟩
  have := e k
  by_contra hneg
  push Not at hneg
  nlinarith

theorem honey_boxes {env : Env ℝ} {w : World 2 ℝ} {a : ℝ} (ha : 1 / 10 ^ 5 ≤ a)
    (hr : Reachable env w) {b : LatticeBasis 2 ℝ} (hb : LatticeBasis.hexagonal a = .ok b)
    (hN : NearestOnly w |a| honeySets) {c cells A}
    (hC : Preset.Configured w b [![0, 0], ![a, 0]] c 1 cells A) (he : c.entry 0 1 = 1) :
    BoxesBuild env w a := by
  have ha0 : 0 < a := lt_of_lt_of_le (by positivity) ha
  rw [abs_of_pos ha0] at hN
  have h0 : (![0, 0] : Vec 2 ℝ) = 0 := by funext k; fin_cases k <;> rfl
  rw [h0] at hC
  have hs : c.size = 2 := by rw [hC.size]; rfl
  exact hN.boxes two_pos hr hC ⟨0, by omega, 1, by omega, by omega⟩ (hex_Vinv ha0 hb)

/-- C108 for boxes: `build` of any box at the origin does not fail,
whatever its size, the lattice contains the site at the origin, and the neighbours of a site are
exactly the sites at the distance `a` (`√3 a` for the hexagonal lattice). -/
theorem C108_boxes (env : Env ℝ) (s : Session) (a : ℝ) (ha : 1 / 10 ^ 5 ≤ a)
    (atom : AtomSpec) :
    (∃ w, simpleChain env s a atom 1 = .ok w ∧ BoxesBuild env w a) ∧
    (∃ w, simpleSquare env s a atom 1 = .ok w ∧ BoxesBuild env w a) ∧
    (∃ w, simpleCubic env s a atom 1 = .ok w ∧ BoxesBuild env w a) ∧
    (∀ d, 0 < d → ∃ w : World d ℝ,
      configure env s (LatticeBasis.hypercubic d a) (oneAtom atom 1) = .ok w ∧
      BoxesBuild env w a) ∧
    (∃ w, simpleHexagonal env s a atom 1 = .ok w ∧ BoxesBuild env w (Real.sqrt 3 * a)) ∧
    (∃ w, honeycomb env s a atom = .ok w ∧ BoxesBuild env w a) ∧
    (∃ w, graphene env s a = .ok w ∧ BoxesBuild env w a) := by
  have ha0 : 0 < a := lt_of_lt_of_le (by positivity) ha
  have habs : |a| = a := abs_of_pos ha0
  have ha' : 1 / 10 ^ 5 ≤ |a| := by rwa [habs]
  refine ⟨?_, ?_, ?_, ?_, ?_, ?_, ?_⟩
  · exact cubic_boxes one_pos env s ha atom (rows := !![a]) (by
      ext i j; fin_cases i; fin_cases j; simp)
  · exact cubic_boxes two_pos env s ha atom rfl
  · exact cubic_boxes three_pos env s ha atom rfl
  · intro d hd
    exact cubic_boxes hd env s ha atom rfl
  · obtain ⟨w, h1, h2, h3⟩ := C84_hexagonal_partial env s a ha' atom
    have hr := configure_reachable h1
    have hN := hex_only ha' hr (configure_vectors h1) h2 h3
    obtain ⟨b, hb, -⟩ := hex_init ha0.ne'
    obtain ⟨w', c, cells, A, h1', hC, he⟩ := configure_oneAtom two_pos env s hb atom one_pos
    cases h1.symm.trans h1'
    rw [habs] at hN
    have hs : 0 < c.size := by rw [hC.size]; exact Nat.one_pos
    exact ⟨w, h1, hN.boxes two_pos hr hC ⟨0, hs, 0, hs, by omega⟩ (hex_Vinv ha0 hb)⟩
  · obtain ⟨w, at', h1, -, -, h2, h3, h4⟩ := C84_honeycomb_partial env s a ha' atom
    obtain ⟨s', ops, hc⟩ := honeycomb_configure h1
    have hr := configure_reachable hc
    obtain ⟨w', -, b, c, cells, A, hb, h1', hC, -, -, -, he, -⟩ := honeycomb_pair env s ha0.ne' atom
    cases h1.symm.trans h1'
    exact ⟨w, h1, honey_boxes ha hr hb (honey_only ha' hr (configure_vectors hc) h2 h3 h4) hC he⟩
  · obtain ⟨w, h1, -, h2, h3, h4⟩ := C84_graphene_partial env s a ha'
    obtain ⟨s', ops, hc⟩ := graphene_configure h1
    have hr := configure_reachable hc
    obtain ⟨w', b, c, cells, A, hb, h1', hC, -, -, he, -⟩ := graphene_pair env s ha0.ne'
    cases h1.symm.trans h1'
    exact ⟨w, h1, honey_boxes ha hr hb (honey_only ha' hr (configure_vectors hc) h2 h3 h4) hC he⟩

/-- A graphene sheet of size 10 × 20 with the lattice constant 1. -/
example (env : Env ℝ) (s : Session) : ∃ w L D, graphene env s 1 = .ok w ∧
    (Lattice.ofWorld w).build env { shape := .size [10, 20] true } = (L, .ok ()) ∧
    L.data = some D ∧ NearestNeighbors L D 1 := by
  obtain ⟨-, -, -, -, -, -, w, h1, h2⟩ := C108_boxes env s 1 (by norm_num) .none
  obtain ⟨L, D, h3, h4, -, h5⟩ := h2 ![10, 20] true (by intro k; fin_cases k <;> norm_num)
  exact ⟨w, L, D, h1, by simpa using h3, h4, h5⟩

end Lattpy
