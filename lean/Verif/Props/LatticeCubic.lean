import Verif.Props.LatticeBuild

/-!
# Built hypercubic lattices (C59)
-/

set_option autoImplicit false
set_option linter.unusedSectionVars false

namespace Lattpy

open Structure World

variable {d : ℕ}

/-- Sites of a hypercubic lattice with one atom are at different positions. -/
theorem cubic_distinct {S : Structure d ℝ} {p0 : Vec d ℝ} (hp0 : S.positions = [p0])
    (hbas : S.basis.vectors = 1) : SitesDistinct S := by
  rintro x y p ⟨b, r, h1, h2, h3⟩ ⟨b', r', h1', h2', h3'⟩
  rw [hp0] at h2 h2'
  obtain ⟨hn, hr⟩ := List.getElem?_eq_some_iff.1 h2
  obtain ⟨hn', hr'⟩ := List.getElem?_eq_some_iff.1 h2'
  have hn0 : b = 0 := by simpa using hn
  have hn0' : b' = 0 := by simpa using hn'
  subst hn0 hn0'
  simp only [List.getElem_cons_zero] at hr hr'
  subst hr hr'
  rw [← Idx.mk_cell_alpha x, ← Idx.mk_cell_alpha y, h1, h1']
  congr 1
  funext k
  rw [h3] at h3'
  have := congrFun h3' k
  rw [hbas] at this
  simp only [Matrix.one_apply, mul_ite, mul_one, mul_zero, Finset.sum_ite_eq', Finset.mem_univ,
    if_true] at this
  exact_mod_cast add_left_cancel this

/-- The configured distances of a hypercubic lattice. -/
theorem cubic_configured (hd : 0 < d) {env : Env ℝ} {w : World d ℝ} (h : Reachable env w)
    {p0 : Vec d ℝ} (hp0 : w.struct.positions = [p0]) {c : ConnMatrix} (hc : w.struct.conn = some c)
    (hbas : w.struct.basis.vectors = 1) (hk : d * (2 * c.entry 0 0 + 1) ^ 2 ≤ 10 ^ 10)
    {S' : Structure d ℝ} (han : w.struct.analyze env = (S', .ok ())) :
    ∃ A, S'.analysis = some A ∧ (∀ x, Configured A 0 0 x ↔ IsShell w.struct 0 0 (c.entry 0 0) x) ∧
      (∀ x, Configured A 0 0 x → RawDistance A x) ∧ IsShell w.struct 0 0 (c.entry 0 0) 1 := by
  obtain ⟨A, hA, hcompl⟩ := C34_hypercubic_partial hd h hp0 hc hbas hk han
  obtain ⟨-, hfp, hfn, hfb, hfc⟩ := analyze_frame hd env (h.good hd)
  have hw' : Reachable env (w.call env .analyze).1 := h.call .analyze
  have hws : (w.call env .analyze).1.struct = S' := by
    change (w.struct.analyze env).1 = S'
    rw [han]
  rw [han] at hfp hfn hfb hfc
  dsimp only at hfp hfn hfb hfc
  have hG' := hw'.good hd
  rw [hws] at hG'
  obtain ⟨cells, m, c', hcells, hcs', -, hcm, hn0, hI⟩ := hG'.analysis A hA
  have hnum : S'.numBase = 1 := by rw [← hG'.positions_length, hfp, hp0]; rfl
  have hconf : ∀ x, Configured A 0 0 x ↔ IsShell w.struct 0 0 (c.entry 0 0) x := by
    intro x
    constructor
    · intro hx
      obtain ⟨-, -, -, -, hlv⟩ := hI.configured.1 hx
      obtain ⟨-, n, hn, hxn⟩ := mem_levels.1 (List.mem_of_mem_take hlv)
      exact ((hcompl x n).1 ((listed_iff hI 0 x _).2 ⟨hn0, 0, hn0, n, hn, rfl, hxn, hlv⟩)).2
    · intro hx
      obtain ⟨⟨-, ra, rb, n, h1, h2, hxn⟩, -⟩ := id hx
      have hx2 : x = npRound 6 (Real.sqrt (∑ i, (n i : ℝ) ^ 2)) := by
        rw [h1] at h2
        cases h2
        rw [hxn, distance_some]
        congr 1
        rw [distance_eq_dist, dist_eq_norm, EuclideanSpace.norm_eq]
        refine congrArg Real.sqrt (Finset.sum_congr rfl fun k _ => ?_)
        simp [hbas, Matrix.one_apply]
      obtain ⟨-, b, hb, n', hn', he, -, hlv⟩ := (listed_iff hI _ _ _).1 ((hcompl x n).2 ⟨hx2, hx⟩)
      have hb0 : b = 0 := by omega
      subst hb0
      exact hI.configured.2 ⟨le_rfl, le_rfl, hn0, hn0, hlv⟩
  have hraw : ∀ x, Configured A 0 0 x → RawDistance A x := by
    intro x hx
    obtain ⟨-, -, -, -, hlv⟩ := hI.configured.1 hx
    have hsz : c'.size = 1 := by rw [hcs', hnum]
    have hent : c'.entries = [c'.entry 0 0] := by simp [ConnMatrix.entries, hsz]
    have hKm : c'.entry 0 0 ≤ m := by
      unfold ConnMatrix.max? at hcm
      rw [hent] at hcm
      simp at hcm
      omega
    exact hI.mem_raw.2 ⟨0, hn0, 0, hn0, (List.take_subset_take_left _ hKm) hlv⟩
  refine ⟨A, hA, hconf, hraw, ?_⟩
  -- the smallest level is 1
  have hc1 : 0 < c.entry 0 0 := by
    rcases analyze_cases hd env (h.good hd) with ⟨he, -⟩ | ⟨c2, -, -, he⟩ |
      ⟨c2, cells2, m2, A2, hc2, hz, -⟩
    · rw [han] at he; simp at he
    · rw [han] at he; simp at he
    · rw [hc] at hc2
      cases hc2
      by_contra h0
      have : c.allZero = true := by
        rw [ConnMatrix.allZero_iff]
        intro i hi j hj
        have hsz := ((h.good hd).conn_size c hc).1
        rw [← hfn, hnum] at hsz
        have hi0 : i = 0 := by omega
        have hj0 : j = 0 := by omega
        subst hi0 hj0
        omega
      rw [hz] at this
      cases this
  have hr1 : npRound 6 (1 : ℝ) = 1 := by exact_mod_cast npRound_natCast 1
  have hpos0 : w.struct.positions[0]? = some p0 := by rw [hp0]; rfl
  have hdist : ∀ n : Fin d → ℤ, distance (fun k => p0 k + ∑ i, (n i : ℝ) * w.struct.basis.vectors i k)
      p0 = Real.sqrt (∑ i, (n i : ℝ) ^ 2) := by
    intro n
    rw [distance_eq_dist, dist_eq_norm, EuclideanSpace.norm_eq]
    refine congrArg Real.sqrt (Finset.sum_congr rfl fun k _ => ?_)
    simp [hbas, Matrix.one_apply]
  refine ⟨⟨one_pos, p0, p0, Pi.single ⟨0, hd⟩ 1, hpos0, hpos0, ?_⟩, ?_⟩
  · rw [distance_some, hdist,
      Finset.sum_eq_single ⟨0, hd⟩ (by intro j _ hj; simp [hj]) (by simp)]
    simp [hr1]
  · have : {y | IsLevel w.struct 0 0 y ∧ y < 1} = ∅ := by
      ext y
      simp only [Set.mem_empty_iff_false, iff_false]
      rintro ⟨⟨hy0, ra, rb, n, h1, h2, hy⟩, hlt⟩
      rw [hpos0] at h1 h2
      cases h1
      cases h2
      rw [distance_some, hdist] at hy
      by_cases hn : n = 0
      · subst hn
        simp [npRound_zero] at hy
        linarith
      · obtain ⟨k, hnk⟩ := Function.ne_iff.1 hn
        have hnk : n k ≠ 0 := by simpa using hnk
        have h1 : (n k : ℝ) ^ 2 ≤ ∑ i, (n i : ℝ) ^ 2 :=
          Finset.single_le_sum (f := fun i => (n i : ℝ) ^ 2) (fun j _ => sq_nonneg _)
            (Finset.mem_univ k)
        have h2 : (1 : ℤ) ≤ (n k) ^ 2 := by
          have : 0 < (n k) ^ 2 := by positivity
          omega
        have h3 : (1 : ℝ) ≤ (n k : ℝ) ^ 2 := by exact_mod_cast h2
        have h4 := npRound_mono (n := 6) (Real.one_le_sqrt.2 (h3.trans h1))
        rw [hr1, ← hy] at h4
        linarith
    rw [this]
    simpa using hc1

theorem cubic_latNorm {S : Structure d ℝ} (hbas : S.basis.vectors = 1) (n : Fin d → ℤ) :
    latNorm S.basis n = Real.sqrt (∑ i, (n i : ℝ) ^ 2) := by
  unfold latNorm norm2
  rw [hasSqrt_real, hbas]
  refine congrArg Real.sqrt (Finset.sum_congr rfl fun k _ => ?_)
  simp [Matrix.one_apply, sq]

theorem one_le_latNorm {S : Structure d ℝ} (hbas : S.basis.vectors = 1) {n : Fin d → ℤ}
    (hn : n ≠ 0) : 1 ≤ latNorm S.basis n := by
  rw [cubic_latNorm hbas, Real.one_le_sqrt]
  obtain ⟨k, hnk⟩ := Function.ne_iff.1 hn
  have hnk : n k ≠ 0 := by simpa using hnk
  have h1 : (n k : ℝ) ^ 2 ≤ ∑ i, (n i : ℝ) ^ 2 :=
    Finset.single_le_sum (f := fun i => (n i : ℝ) ^ 2) (fun j _ => sq_nonneg _)
      (Finset.mem_univ k)
  have h2 : (1 : ℤ) ≤ (n k) ^ 2 := by
    have : 0 < (n k) ^ 2 := by positivity
    omega
  have h3 : (1 : ℝ) ≤ (n k : ℝ) ^ 2 := by exact_mod_cast h2
  linarith

theorem shells_card {S : Structure d ℝ} {a b K : ℕ} (F : Finset ℝ)
    (hF : ∀ x ∈ F, IsShell S a b K x) : F.card ≤ K := by
  rcases F.eq_empty_or_nonempty with rfl | hne
  · simp
  obtain ⟨M, hM, hmax⟩ := Finset.exists_max_image F id hne
  have hsub : (↑(F.erase M) : Set ℝ) ⊆ {y | IsLevel S a b y ∧ y < M} := by
    intro y hy
    have hy : y ∈ F.erase M := hy
    exact ⟨(hF y (Finset.mem_of_mem_erase hy)).1,
      lt_of_le_of_ne (hmax y (Finset.mem_of_mem_erase hy)) (Finset.ne_of_mem_erase hy)⟩
  have h1 := lt_of_le_of_lt (Set.encard_le_encard hsub) (hF M hM).2
  rw [Set.encard_coe_eq_coe_finsetCard] at h1
  have h2 : (F.erase M).card < K := by exact_mod_cast h1
  rw [Finset.card_erase_of_mem hM] at h2
  omega

/-- There is no distance of the infinite lattice less than a tenth above the configured ones. -/
def NoNearbyShell (S : Structure d ℝ) (K : ℕ) : Prop :=
  ∀ x y, IsShell S 0 0 K y → IsLevel S 0 0 x → x ≤ y + 1 / 10 + 1 / 10 ^ 6 → IsShell S 0 0 K x

/-- The data computed for sites of a hypercubic lattice. -/
theorem cubic_sites (hd : 0 < d) {env : Env ℝ} {w : World d ℝ} (h : Reachable env w)
    {p0 : Vec d ℝ} (hp0 : w.struct.positions = [p0]) {c : ConnMatrix} (hc : w.struct.conn = some c)
    (hbas : w.struct.basis.vectors = 1) (hk : d * (2 * c.entry 0 0 + 1) ^ 2 ≤ 10 ^ 10)
    (hgap : NoNearbyShell w.struct (c.entry 0 0)) (h255 : c.entry 0 0 ≤ 255)
    {S' : Structure d ℝ} (han : w.struct.analyze env = (S', .ok ()))
    {indices : List (Idx d)} {positions : List (Vec d ℝ)}
    (hsites' : List.Forall₂ (IsSitePos w.struct) indices positions) (hnd : indices.Nodup)
    (h0 : 0 < positions.length) :
    ∃ D table, positions.Nodup ∧ computeNeighbors env S' indices positions = .ok table ∧
      LatticeData.set indices positions (table.map fun r => r.map Prod.fst)
        (table.map fun r => r.map Prod.snd) = .ok D ∧ D.indices = indices ∧
      D.positions = positions ∧ table.length = positions.length ∧
      (∀ i j x, Linked table i j x ↔ i ≠ j ∧ SiteDistance D i j x ∧
        IsShell w.struct 0 0 (c.entry 0 0) x) ∧
      ⊤ ∈ D.distvals ∧ D.distvals.length ≤ 256 := by
  have hr : Reachable env (w.call env .analyze).1 := h.call .analyze
  have hS' : (w.call env .analyze).1.struct = S' := by
    change (w.struct.analyze env).1 = S'
    rw [han]
  obtain ⟨-, hfp, hfn, hfb, hfc⟩ := analyze_frame hd env (h.good hd)
  rw [han] at hfp hfn hfb hfc
  dsimp only at hfp hfn hfb hfc
  have hsp : ∀ a p, IsSitePos S' a p ↔ IsSitePos w.struct a p := by
    intro a p
    unfold IsSitePos
    rw [hfp, hfb]
  have hS : SitesDistinct S' := cubic_distinct (hfp.trans hp0) (by rw [hfb, hbas])
  have hsites : List.Forall₂ (IsSitePos S') indices positions :=
    hsites'.imp fun a p => (hsp a p).2
  have hpn := positions_nodup hS hsites hnd
  have hlen := hsites.length_eq
  have hget : ∀ (i : ℕ) (a : Idx d) (p : Vec d ℝ), indices[i]? = some a →
      positions[i]? = some p → IsSitePos w.struct a p := by
    intro i a p h1 h2
    obtain ⟨i1, e1⟩ := List.getElem?_eq_some_iff.1 h1
    obtain ⟨i2, e2⟩ := List.getElem?_eq_some_iff.1 h2
    have := hsites'.get i1 i2
    simp only [List.get_eq_getElem, e1, e2] at this
    exact this
  obtain ⟨table, hcomp, htl, hlink⟩ := C44_hypercubic_partial hd h hp0 hc hbas hk han indices
    positions hlen hnd hget
  obtain ⟨A, hA, hconf, hraw, hone⟩ := cubic_configured hd h hp0 hc hbas hk han
  have hA' : (w.call env .analyze).1.struct.analysis = some A := by rw [hS', hA]
  have htop : ∃ row ∈ table, ∃ e ∈ row, e.2 = ⊤ := by
    obtain ⟨M, y, hM, hmax, hy, hmin, hpad⟩ := padded_sites hd hr hA' (by rw [hS']; exact hsites) hpn
      h0 (by rw [hS']; exact hcomp)
    have h1M : 1 ≤ M := hmax 0 0 1 ((hconf 1).2 hone)
    have hy1 : y ≤ 1 := hmin 1 (hraw 1 ((hconf 1).2 hone))
    have hMs : IsShell w.struct 0 0 (c.entry 0 0) M := by
      rcases hM with rfl | ⟨a, b, hab⟩
      · linarith
      · have hnum : (w.call env .analyze).1.struct.numBase = 1 := by
          rw [hS', hfn, ← (h.good hd).positions_length, hp0]; rfl
        obtain ⟨cells, m, c', -, -, -, -, -, hI⟩ := (hr.good hd).analysis A hA'
        obtain ⟨ha0, hb0, ha1, hb1, -⟩ := hI.configured.1 hab
        have ha : a = 0 := by omega
        have hb : b = 0 := by omega
        subst ha hb
        exact (hconf M).1 hab
    apply hpad
    intro i j p q ia ib hij hp' hq' hia hib hdist
    have hs1 := hget i ia p hia hp'
    have hs2 := hget j ib q hib hq'
    obtain ⟨a1, a2, hdn⟩ := one_atom_dist hp0 hs1 hs2
    rw [a1, a2, hconf]
    have hne : ib.cell - ia.cell ≠ 0 := by
      intro h0
      have hcell : ib.cell = ia.cell := sub_eq_zero.1 h0
      have : ib = ia := by
        rw [← Idx.mk_cell_alpha ia, ← Idx.mk_cell_alpha ib, hcell, a1, a2]
      rw [this, ← hia] at hib
      exact hij ((List.getElem?_inj (List.getElem?_eq_some_iff.1 hia).1 hnd).1 hib.symm)
    have hpos0 : w.struct.positions[0]? = some p0 := by rw [hp0]; rfl
    have hd6 : distance q p (some 6) = distance (fun k => p0 k +
        ∑ i, (((ib.cell - ia.cell) i : ℤ) : ℝ) * w.struct.basis.vectors i k) p0 (some 6) := by
      rw [distance_some, distance_some, hdn]
      congr 1
      unfold latNorm
      rw [distance_eq_dist, dist_eq_norm, norm2_eq_norm]
      congr 1
      ext k
      simp
    have hr1 : npRound 6 (1 : ℝ) = 1 := by exact_mod_cast npRound_natCast 1
    have hge : 1 ≤ distance q p := by
      rw [hdn]
      exact one_le_latNorm hbas hne
    refine hgap _ M hMs ⟨?_, p0, p0, _, hpos0, hpos0, hd6⟩ ?_
    · have := npRound_mono (n := 6) hge
      rw [hr1] at this
      rw [distance_some]
      linarith
    · rw [distance_some]
      have := abs_le.1 (abs_npRound_sub_le 6 (distance q p))
      norm_num at this ⊢
      linarith
  obtain ⟨D, hset, hDi, hDp⟩ : ∃ D, LatticeData.set indices positions
      (table.map fun r => r.map Prod.fst) (table.map fun r => r.map Prod.snd) = .ok D ∧
      D.indices = indices ∧ D.positions = positions := by
    rcases set_cases indices positions (table.map fun r => r.map Prod.fst)
        (table.map fun r => r.map Prod.snd) with ⟨hf, -⟩ | ⟨-, D, h1, h2, h3, -⟩
    · obtain ⟨row, hrow, e, he, -⟩ := htop
      have : e.2 ∈ (table.map fun r => r.map Prod.snd).flatten :=
        List.mem_flatten.2 ⟨_, List.mem_map.2 ⟨row, hrow, rfl⟩, List.mem_map.2 ⟨e, he, rfl⟩⟩
      rw [hf] at this
      cases this
    · exact ⟨D, h1, h2, h3⟩
  have hlink' : ∀ i j x, Linked table i j x ↔ i ≠ j ∧ SiteDistance D i j x ∧
        IsShell w.struct 0 0 (c.entry 0 0) x := by
    intro i j x
    rw [hlink]
    refine and_congr_right fun _ => ?_
    unfold SiteDistance
    rw [hDp]
    constructor
    · rintro ⟨p, q, h1, h2, h3, h4⟩; exact ⟨⟨p, q, h1, h2, h3⟩, h4⟩
    · rintro ⟨⟨p, q, h1, h2, h3⟩, h4⟩; exact ⟨p, q, h1, h2, h3, h4⟩
  refine ⟨D, table, hpn, hcomp, hset, hDi, hDp, htl, hlink', (mem_distvals hset ⊤).2 htop, ?_⟩
  · have hmd := fun x => mem_distvals hset x
    have hsh : ∀ x : ℝ, (x : WithTop ℝ) ∈ D.distvals → IsShell w.struct 0 0 (c.entry 0 0) x := by
      intro x hx
      obtain ⟨row, hrow, ⟨j, y⟩, he, hy⟩ := (hmd _).1 hx
      obtain ⟨i, hi⟩ := List.mem_iff_getElem?.1 hrow
      dsimp only at hy
      subst hy
      exact ((hlink' i j x).1 ⟨_, hi, he⟩).2.2
    have hnd' : D.distvals.Nodup := by
      rcases set_cases indices positions (table.map fun r => r.map Prod.fst)
          (table.map fun r => r.map Prod.snd) with ⟨-, h⟩ | ⟨-, D', h, -, -, -, h8, -⟩
      · rw [hset] at h; cases h
      · rw [hset] at h
        cases h
        rw [h8]
        exact (npUnique_pairwise_lt _).imp fun h => ne_of_lt h
    have hcard : (D.distvals.toFinset.erase ⊤).card ≤ c.entry 0 0 := by
      have : (D.distvals.toFinset.erase ⊤) =
          ((D.distvals.toFinset.erase ⊤).image fun x => x.untopD 0).image
            (fun x : ℝ => (x : WithTop ℝ)) := by
        ext x
        simp only [Finset.mem_image, Finset.mem_erase, List.mem_toFinset, exists_exists_and_eq_and]
        constructor
        · rintro ⟨h1, h2⟩
          obtain ⟨z, rfl⟩ := WithTop.ne_top_iff_exists.1 h1
          exact ⟨_, ⟨h1, h2⟩, by simp⟩
        · rintro ⟨y, ⟨h1, h2⟩, rfl⟩
          obtain ⟨z, rfl⟩ := WithTop.ne_top_iff_exists.1 h1
          exact ⟨by simp, by simpa using h2⟩
      rw [this]
      refine le_trans Finset.card_image_le (shells_card (S := w.struct) (a := 0) (b := 0) _ ?_)
      intro x hx
      obtain ⟨y, hy, rfl⟩ := Finset.mem_image.1 hx
      obtain ⟨h1, h2⟩ := Finset.mem_erase.1 hy
      obtain ⟨z, rfl⟩ := WithTop.ne_top_iff_exists.1 h1
      exact hsh _ (by simpa using h2)
    have h1 := Finset.pred_card_le_card_erase (s := D.distvals.toFinset) (a := ⊤)
    rw [List.toFinset_card_of_nodup hnd'] at h1
    omega

/-- The table of a built hypercubic lattice. -/
theorem cubic_table (hd : 0 < d) {env : Env ℝ} {w : World d ℝ} (h : Reachable env w)
    {p0 : Vec d ℝ} (hp0 : w.struct.positions = [p0]) {c : ConnMatrix} (hc : w.struct.conn = some c)
    (hbas : w.struct.basis.vectors = 1) (hk : d * (2 * c.entry 0 0 + 1) ^ 2 ≤ 10 ^ 10)
    (hgap : NoNearbyShell w.struct (c.entry 0 0)) (h255 : c.entry 0 0 ≤ 255)
    {L L' : Lattice d ℝ} (hL : L.world = (w.call env .analyze).1)
    (han : w.struct.analyze env = (L.struct, .ok ()))
    {a : BuildArgs d ℝ} (hm : a.minNeighbors = none) (hp : a.periodic = none) (hb : a.bits = none)
    (hok : L.build env a = (L', .ok ())) :
    ∃ D table, L'.data = some D ∧ L'.world = L.world ∧
      List.Forall₂ (IsSitePos w.struct) D.indices D.positions ∧ D.indices.Nodup ∧
      D.positions.Nodup ∧ computeNeighbors env L.struct D.indices D.positions = .ok table ∧
      LatticeData.set D.indices D.positions (table.map fun r => r.map Prod.fst)
        (table.map fun r => r.map Prod.snd) = .ok D ∧ table.length = D.positions.length ∧
      (∀ i j x, Linked table i j x ↔ i ≠ j ∧ SiteDistance D i j x ∧
        IsShell w.struct 0 0 (c.entry 0 0) x) ∧
      ⊤ ∈ D.distvals ∧ D.distvals.length ≤ 256 := by
  have hr : Reachable env L.world := by rw [hL]; exact h.call .analyze
  obtain ⟨-, hfp, hfn, hfb, hfc⟩ := analyze_frame hd env (h.good hd)
  rw [han] at hfp hfn hfb hfc
  dsimp only at hfp hfn hfb hfc
  obtain ⟨A, D, table, hA, hD, hw, hsites, hnd, hcomp, hset⟩ := build_table hd hr hm hp hb hok
  have hsites' : List.Forall₂ (IsSitePos w.struct) D.indices D.positions := by
    refine hsites.imp fun a p h => ?_
    unfold IsSitePos at h ⊢
    rwa [hfp, hfb] at h
  obtain ⟨row, hrow, -⟩ := set_nonempty hset
  have hS : SitesDistinct L.struct := cubic_distinct (hfp.trans hp0) (by rw [hfb, hbas])
  obtain ⟨htl, -⟩ := C44_neighbors_partial hd hr hA D.indices D.positions hsites.length_eq
    (positions_nodup hS hsites hnd) (alpha_range hd hr hsites) hcomp
  obtain ⟨D', table', hpn, hcomp', hset', hDi, hDp, htl', hlink, htop, h256⟩ := cubic_sites hd h hp0
    hc hbas hk hgap h255 han hsites' hnd (by rw [← htl]; exact List.length_pos_of_mem hrow)
  rw [hcomp] at hcomp'
  cases hcomp'
  rw [hset] at hset'
  cases hset'
  exact ⟨D, table, hD, hw, hsites', hnd, hpn, hcomp, hset, htl, hlink, htop, h256⟩

/-- What the accessors return for the data of a padded table. -/
theorem neighbors_of_links {indices : List (Idx d)} {positions : List (Vec d ℝ)}
    {table : List (List (ℕ × WithTop ℝ))} {D : LatticeData d ℝ}
    (hset : LatticeData.set indices positions (table.map fun r => r.map Prod.fst)
        (table.map fun r => r.map Prod.snd) = .ok D) (htop : ⊤ ∈ D.distvals)
    (h256 : D.distvals.length ≤ 256) {i : ℕ} (hi : i < table.length)
    (hnd : ((table[i].filter isLink).map Prod.fst).Nodup) :
    ∃ l, D.getNeighbors i none none false = .ok l ∧ l.Nodup ∧
      (∀ j, j ∈ l ↔ ∃ x, Linked table i j x) ∧
      ∀ (n : ℕ) (x : ℝ), D.distvals[n]? = some (x : WithTop ℝ) →
        ∃ ln, D.getNeighbors i (some n) none false = .ok ln ∧ ln.Nodup ∧
          ∀ j, j ∈ ln ↔ Linked table i j x := by
  obtain ⟨-, -, -, -, -, -, -, hget⟩ := set_table indices positions table ⊤
    ((mem_distvals hset ⊤).1 htop) (fun _ _ _ _ => le_top) hset h256
  obtain ⟨-, -, g1, g2, -⟩ := hget i _ (List.getElem?_eq_getElem hi)
  have hnd' : ((table[i].filter fun e => decide (e.2 ≠ ⊤)).map Prod.fst).Nodup := hnd
  refine ⟨_, g1, hnd', ?_, ?_⟩
  · intro j
    rw [List.mem_map]
    constructor
    · rintro ⟨⟨j', y⟩, he, rfl⟩
      obtain ⟨he1, he2⟩ := List.mem_filter.1 he
      obtain ⟨x, rfl⟩ := WithTop.ne_top_iff_exists.1 (by simpa using he2)
      exact ⟨x, _, List.getElem?_eq_getElem hi, he1⟩
    · rintro ⟨x, row, hrow, he⟩
      rw [List.getElem?_eq_getElem hi] at hrow
      cases hrow
      exact ⟨_, List.mem_filter.2 ⟨he, by simp⟩, rfl⟩
  · intro n x hx
    refine ⟨_, g2 n _ hx, ?_, ?_⟩
    · refine hnd'.sublist ((List.monotone_filter_right _ ?_).map _)
      intro e he
      rw [decide_eq_true_eq] at he ⊢
      rw [he]
      exact WithTop.coe_ne_top
    · intro j
      rw [List.mem_map]
      constructor
      · rintro ⟨⟨j', y⟩, he, rfl⟩
        obtain ⟨he1, he2⟩ := List.mem_filter.1 he
        have he2 : y = (x : WithTop ℝ) := by simpa using he2
        subst he2
        exact ⟨_, List.getElem?_eq_getElem hi, he1⟩
      · rintro ⟨row, hrow, he⟩
        rw [List.getElem?_eq_getElem hi] at hrow
        cases hrow
        exact ⟨_, List.mem_filter.2 ⟨he, by simp⟩, rfl⟩

/-- C59 holds for the hypercubic lattice with lattice constant 1 in every dimension and every number
of connected shells (at most 255, with no further shell less than a tenth above): after every
successful build (any shape and callback), `neighbors(i)` lists exactly the other sites at the
configured smallest distances of the infinite lattice, and with a level exactly those at its
distance. -/
theorem C59_hypercubic_partial (hd : 0 < d) {env : Env ℝ} {w : World d ℝ} (h : Reachable env w)
    {p0 : Vec d ℝ} (hp0 : w.struct.positions = [p0]) {c : ConnMatrix} (hc : w.struct.conn = some c)
    (hbas : w.struct.basis.vectors = 1) (hk : d * (2 * c.entry 0 0 + 1) ^ 2 ≤ 10 ^ 10)
    (hgap : NoNearbyShell w.struct (c.entry 0 0)) (h255 : c.entry 0 0 ≤ 255)
    {L L' : Lattice d ℝ} (hL : L.world = (w.call env .analyze).1)
    (han : w.struct.analyze env = (L.struct, .ok ()))
    {a : BuildArgs d ℝ} (hm : a.minNeighbors = none) (hp : a.periodic = none) (hb : a.bits = none)
    (hok : L.build env a = (L', .ok ())) :
    ∃ D, L'.data = some D ∧ List.Forall₂ (IsSitePos w.struct) D.indices D.positions ∧
      D.indices.Nodup ∧ ∀ i < D.numSites, ∃ l, L'.neighbors i none false = .ok l ∧ l.Nodup ∧
        (∀ j, j ∈ l ↔ i ≠ j ∧ ∃ x, SiteDistance D i j x ∧
          IsShell w.struct 0 0 (c.entry 0 0) x) ∧
        ∀ (n : ℕ) (x : ℝ), D.distvals[n]? = some (x : WithTop ℝ) →
          ∃ ln, L'.neighbors i (some n) false = .ok ln ∧ ln.Nodup ∧
            ∀ j, j ∈ ln ↔ j ∈ l ∧ SiteDistance D i j x := by
  have hr : Reachable env L.world := by rw [hL]; exact h.call .analyze
  obtain ⟨D, table, hD, -, hsites, hnd, hpn, hcomp, hset, htl, hlink, htop, h256⟩ :=
    cubic_table hd h hp0 hc hbas hk hgap h255 hL han hm hp hb hok
  refine ⟨D, hD, hsites, hnd, ?_⟩
  intro i hi
  have hlen := hsites.length_eq
  have hi' : i < table.length := by rw [htl, ← hlen]; exact hi
  obtain ⟨A, -, -, hA, -⟩ := build_table hd hr hm hp hb hok
  obtain ⟨width, hrows⟩ := C45_rows hd hr hA D.indices D.positions hlen hpn hcomp
  obtain ⟨-, -, -, -, r5⟩ := hrows i _ (List.getElem?_eq_getElem hi')
  obtain ⟨l, hl, hln, hlm, hlv⟩ := neighbors_of_links hset htop h256 hi' r5
  have hneigh : ∀ n, L'.neighbors i n false = D.getNeighbors i n none false := by
    intro n
    unfold Lattice.neighbors
    rw [hD]
  refine ⟨l, by rw [hneigh, hl], hln, ?_, ?_⟩
  · intro j
    rw [hlm]
    constructor
    · rintro ⟨x, hx⟩
      obtain ⟨h1, h2, h3⟩ := (hlink i j x).1 hx
      exact ⟨h1, x, h2, h3⟩
    · rintro ⟨h1, x, h2, h3⟩
      exact ⟨x, (hlink i j x).2 ⟨h1, h2, h3⟩⟩
  · intro n x hx
    obtain ⟨ln, g1, g2, g3⟩ := hlv n x hx
    refine ⟨ln, by rw [hneigh, g1], g2, ?_⟩
    intro j
    rw [g3, hlm]
    constructor
    · intro h
      exact ⟨⟨x, h⟩, ((hlink i j x).1 h).2.1⟩
    · rintro ⟨⟨y, hy⟩, p, q, e1, e2, rfl⟩
      obtain ⟨-, ⟨p', q', e1', e2', rfl⟩, -⟩ := (hlink i j y).1 hy
      rw [e1] at e1'
      rw [e2] at e2'
      cases e1'
      cases e2'
      exact hy

/-- C59, the build does succeed for such a lattice whenever the region (after the callback) contains
a site. -/
theorem C59_hypercubic_builds_partial (hd : 0 < d) {env : Env ℝ} {w : World d ℝ}
    (h : Reachable env w) {p0 : Vec d ℝ} (hp0 : w.struct.positions = [p0]) {c : ConnMatrix}
    (hc : w.struct.conn = some c) (hbas : w.struct.basis.vectors = 1)
    (hk : d * (2 * c.entry 0 0 + 1) ^ 2 ≤ 10 ^ 10)
    (hgap : NoNearbyShell w.struct (c.entry 0 0)) (h255 : c.entry 0 0 ≤ 255)
    {L : Lattice d ℝ} (hL : L.world = (w.call env .analyze).1)
    (han : w.struct.analyze env = (L.struct, .ok ()))
    {a : BuildArgs d ℝ} (hm : a.minNeighbors = none) (hp : a.periodic = none) (hb : a.bits = none)
    {shape : AShape d ℝ} (hsh : Lattice.buildShape L.struct a = .ok shape)
    {indices : List (Idx d)} {positions : List (Vec d ℝ)}
    (hbi : L.struct.buildIndices (.shape shape) a.primitive a.pos a.check a.callback none =
      .ok (indices, positions)) (hne : positions ≠ []) :
    ∃ L', L.build env a = (L', .ok ()) := by
  have hr : Reachable env L.world := by rw [hL]; exact h.call .analyze
  obtain ⟨-, hfp, hfn, hfb, hfc⟩ := analyze_frame hd env (h.good hd)
  rw [han] at hfp hfn hfb hfc
  dsimp only at hfp hfn hfb hfc
  obtain ⟨h5, h6⟩ := buildIndices_sites hd hr hbi
  have hsites' : List.Forall₂ (IsSitePos w.struct) indices positions := by
    refine h5.imp fun a p h => ?_
    unfold IsSitePos at h ⊢
    rwa [show L.world.struct = L.struct from rfl, hfp, hfb] at h
  have h0 : 0 < positions.length := List.length_pos_of_ne_nil hne
  obtain ⟨D, table, hpn, hcomp, hset, hDi, hDp, -⟩ := cubic_sites hd h hp0 hc hbas hk hgap h255 han
    hsites' (h6 rfl) h0
  obtain ⟨lo, hi, hlim⟩ := Lattice.getLimits_ok (D := D) (by rw [hDp]; exact h0)
  obtain ⟨A, hA, -, -, hone⟩ := cubic_configured hd h hp0 hc hbas hk han
  refine ⟨_, Lattice.build_of hA ?_ hsh (by rw [hb]; exact hbi) hcomp (by rw [hm]; rfl) hset hlim hp⟩
  intro c' hc'
  rw [hfc, hc] at hc'
  cases hc'
  by_contra hz
  rw [Bool.not_eq_false, ConnMatrix.allZero_iff] at hz
  have hsz : 0 < c.size := by
    have := (h.good hd).conn_size c hc
    rw [this.1, ← (h.good hd).positions_length, hp0]
    exact Nat.one_pos
  have h1 := hz 0 hsz 0 hsz
  have h2 := hone.2
  rw [h1] at h2
  simp at h2

/-- C59 for nearest neighbours on the hypercubic lattice, in every dimension: the neighbours of a
site are exactly the sites whose cells differ by one in exactly one coordinate. -/
theorem C59_nearest_partial (hd : 0 < d) {env : Env ℝ} {w : World d ℝ} (h : Reachable env w)
    {p0 : Vec d ℝ} (hp0 : w.struct.positions = [p0]) {c : ConnMatrix} (hc : w.struct.conn = some c)
    (hbas : w.struct.basis.vectors = 1) (hc1 : c.entry 0 0 = 1) (hdim : d ≤ 10 ^ 9)
    {L L' : Lattice d ℝ} (hL : L.world = (w.call env .analyze).1)
    (han : w.struct.analyze env = (L.struct, .ok ()))
    {a : BuildArgs d ℝ} (hm : a.minNeighbors = none) (hp : a.periodic = none) (hb : a.bits = none)
    (hok : L.build env a = (L', .ok ())) :
    ∃ D, L'.data = some D ∧ List.Forall₂ (IsSitePos w.struct) D.indices D.positions ∧
      D.indices.Nodup ∧ ∀ i < D.numSites, ∃ l, L'.neighbors i none false = .ok l ∧ l.Nodup ∧
        ∀ j, j ∈ l ↔ ∃ x y : Idx d, D.indices[i]? = some x ∧ D.indices[j]? = some y ∧
          ∑ k, |y.cell k - x.cell k| = 1 := by
  have hpos0 : w.struct.positions[0]? = some p0 := by rw [hp0]; rfl
  have hsq : ∀ n : Fin d → ℤ, (∑ i, (n i : ℝ) ^ 2) = ((∑ i, n i ^ 2 : ℤ) : ℝ) := by
    intro n; push_cast; rfl
  -- the rounded norm is 1 only for norm 1
  have hround : ∀ n : Fin d → ℤ, npRound 6 (latNorm w.struct.basis n) ≤ 1 + 1 / 10 + 1 / 10 ^ 6 →
      ∑ i, n i ^ 2 ≤ 1 := by
    intro n hn
    rw [cubic_latNorm hbas, hsq] at hn
    have h1 := abs_le.1 (abs_npRound_sub_le 6 (Real.sqrt ((∑ i, n i ^ 2 : ℤ) : ℝ)))
    have h2 : Real.sqrt ((∑ i, n i ^ 2 : ℤ) : ℝ) ≤ 12 / 10 := by
      norm_num at h1 hn ⊢
      linarith
    have h3 := (Real.sqrt_le_left (by norm_num)).1 h2
    have h4 : ((∑ i, n i ^ 2 : ℤ) : ℝ) < ((2 : ℤ) : ℝ) := by
      refine lt_of_le_of_lt h3 ?_
      norm_num
    have h5 : (∑ i, n i ^ 2 : ℤ) < 2 := by exact_mod_cast h4
    omega
  have hr1 : npRound 6 (1 : ℝ) = 1 := by exact_mod_cast npRound_natCast 1
  have hlat : ∀ n : Fin d → ℤ, distance (fun k => p0 k + ∑ i, (n i : ℝ) * w.struct.basis.vectors i k)
      p0 (some 6) = npRound 6 (latNorm w.struct.basis n) := by
    intro n
    rw [distance_some]
    congr 1
    unfold latNorm
    rw [distance_eq_dist, dist_eq_norm, norm2_eq_norm]
    congr 1
    ext k
    simp
  have hlev : ∀ x, IsLevel w.struct 0 0 x → ∃ n : Fin d → ℤ, n ≠ 0 ∧
      x = npRound 6 (latNorm w.struct.basis n) := by
    rintro x ⟨hx0, ra, rb, n, h1, h2, hx⟩
    rw [hpos0] at h1 h2
    cases h1
    cases h2
    rw [hlat] at hx
    refine ⟨n, ?_, hx⟩
    rintro rfl
    rw [cubic_latNorm hbas] at hx
    simp [npRound_zero] at hx
    linarith
  have hone : ∀ x, IsLevel w.struct 0 0 x → 1 ≤ x := by
    intro x hx
    obtain ⟨n, hn, rfl⟩ := hlev x hx
    rw [← hr1]
    exact npRound_mono (one_le_latNorm hbas hn)
  have hlev1 : ∀ x, IsLevel w.struct 0 0 x → x ≤ 1 + 1 / 10 + 1 / 10 ^ 6 → x = 1 := by
    intro x hx hle
    obtain ⟨n, hn, rfl⟩ := hlev x hx
    have h1 := hround n hle
    have h2 : latNorm w.struct.basis n ≤ 1 := by
      rw [cubic_latNorm hbas, hsq, Real.sqrt_le_one]
      exact_mod_cast h1
    rw [le_antisymm h2 (one_le_latNorm hbas hn), hr1]
  have hshell : ∀ x, IsShell w.struct 0 0 (c.entry 0 0) x ↔ x = 1 ∧ IsLevel w.struct 0 0 1 := by
    have hL1 : IsLevel w.struct 0 0 1 := by
      refine ⟨one_pos, p0, p0, Pi.single ⟨0, hd⟩ 1, hpos0, hpos0, ?_⟩
      rw [hlat, cubic_latNorm hbas,
        Finset.sum_eq_single ⟨0, hd⟩ (by intro j _ hj; simp [hj]) (by simp)]
      simp [hr1]
    intro x
    rw [hc1]
    constructor
    · rintro ⟨hx, hcard⟩
      refine ⟨?_, hL1⟩
      by_contra hne
      have h1x : 1 < x := lt_of_le_of_ne (hone x hx) (Ne.symm hne)
      have : ({1} : Set ℝ) ⊆ {y | IsLevel w.struct 0 0 y ∧ y < x} := by
        rintro y rfl
        exact ⟨hL1, h1x⟩
      have := lt_of_le_of_lt (Set.encard_le_encard this) hcard
      simp at this
    · rintro ⟨rfl, -⟩
      refine ⟨hL1, ?_⟩
      have : {y | IsLevel w.struct 0 0 y ∧ y < 1} = ∅ := by
        ext y
        simp only [Set.mem_empty_iff_false, iff_false]
        rintro ⟨h1, h2⟩
        have : y < 1 := h2
        linarith [hone y h1]
      rw [this]
      simp
  obtain ⟨D, hD, hsites, hnd, hnb⟩ := C59_hypercubic_partial hd h hp0 hc hbas
    (by rw [hc1]; norm_num; omega) (by
      intro x y hy hx hxy
      rw [hshell] at hy ⊢
      rw [hy.1] at hxy
      exact ⟨hlev1 x hx hxy, hy.2⟩) (by omega) hL han hm hp hb hok
  refine ⟨D, hD, hsites, hnd, ?_⟩
  intro i hi
  obtain ⟨l, hl, hln, hlm, -⟩ := hnb i hi
  refine ⟨l, hl, hln, ?_⟩
  intro j
  rw [hlm]
  have hlen := hsites.length_eq
  have hget : ∀ (i : ℕ) (p : Vec d ℝ), D.positions[i]? = some p → ∃ a : Idx d,
      D.indices[i]? = some a ∧ IsSitePos w.struct a p := by
    intro i p h2
    obtain ⟨i2, e2⟩ := List.getElem?_eq_some_iff.1 h2
    have i1 : i < D.indices.length := by rw [hlen]; exact i2
    have := hsites.get i1 i2
    simp only [List.get_eq_getElem, e2] at this
    exact ⟨_, List.getElem?_eq_getElem i1, this⟩
  have hget' : ∀ (i : ℕ) (a : Idx d), D.indices[i]? = some a → ∃ p : Vec d ℝ,
      D.positions[i]? = some p ∧ IsSitePos w.struct a p := by
    intro i a h1
    obtain ⟨i1, e1⟩ := List.getElem?_eq_some_iff.1 h1
    have i2 : i < D.positions.length := by rw [← hlen]; exact i1
    have := hsites.get i1 i2
    simp only [List.get_eq_getElem, e1] at this
    exact ⟨_, List.getElem?_eq_getElem i2, this⟩
  -- sums of squares and of absolute values
  have habs : ∀ n : Fin d → ℤ, ∑ k, n k ^ 2 = 1 ↔ ∑ k, |n k| = 1 := by
    intro n
    have h1 : ∀ k, |n k| ≤ n k ^ 2 := fun k => by
      rw [← sq_abs]
      rcases eq_or_lt_of_le (abs_nonneg (n k)) with h | h
      · rw [← h]; norm_num
      · nlinarith
    constructor
    · intro h
      have h2 : ∑ k, |n k| ≤ 1 := h ▸ Finset.sum_le_sum fun k _ => h1 k
      have h3 : 0 ≤ ∑ k, |n k| := Finset.sum_nonneg fun k _ => abs_nonneg _
      rcases eq_or_lt_of_le h3 with h4 | h4
      · have h5 := (Finset.sum_eq_zero_iff_of_nonneg fun k _ => abs_nonneg (n k)).1 h4.symm
        have : ∑ k, n k ^ 2 = 0 := Finset.sum_eq_zero fun k hk => by
          rw [abs_eq_zero.1 (h5 k hk)]; norm_num
        omega
      · omega
    · intro h
      have h2 : ∀ k, n k ^ 2 = |n k| := by
        intro k
        have h3 : |n k| ≤ 1 := h ▸ Finset.single_le_sum (f := fun k => |n k|)
          (fun k _ => abs_nonneg _) (Finset.mem_univ k)
        rw [← sq_abs]
        have := abs_nonneg (n k)
        have : |n k| = 0 ∨ |n k| = 1 := by omega
        rcases this with h | h <;> rw [h] <;> norm_num
      rw [← h]
      exact Finset.sum_congr rfl fun k _ => h2 k
  constructor
  · rintro ⟨hij, x, ⟨p, q, hp', hq', rfl⟩, hsh⟩
    obtain ⟨ia, hia, hs1⟩ := hget i p hp'
    obtain ⟨ib, hib, hs2⟩ := hget j q hq'
    obtain ⟨a1, a2, hdn⟩ := one_atom_dist hp0 hs1 hs2
    refine ⟨ia, ib, hia, hib, (habs fun k => ib.cell k - ia.cell k).1 ?_⟩
    have h1 := ((hshell _).1 hsh).1
    rw [distance_some, hdn] at h1
    have h2 := hround _ (by rw [h1]; norm_num)
    have h3 : 0 < ∑ i, (ib.cell - ia.cell) i ^ 2 := by
      rcases eq_or_lt_of_le (Finset.sum_nonneg fun i _ => sq_nonneg ((ib.cell - ia.cell) i)) with
        h4 | h4
      · rw [cubic_latNorm hbas, hsq, ← h4] at h1
        simp [npRound_zero] at h1
      · exact h4
    simp only [Pi.sub_apply] at h2 h3
    omega
  · rintro ⟨ia, ib, hia, hib, hsum⟩
    obtain ⟨p, hp', hs1⟩ := hget' i ia hia
    obtain ⟨q, hq', hs2⟩ := hget' j ib hib
    obtain ⟨a1, a2, hdn⟩ := one_atom_dist hp0 hs1 hs2
    have h1 : distance q p (some 6) = 1 := by
      rw [distance_some, hdn, cubic_latNorm hbas, hsq]
      have := (habs fun k => ib.cell k - ia.cell k).2 hsum
      simp only [Pi.sub_apply]
      rw [this]
      simp [hr1]
    have hne : i ≠ j := by
      rintro rfl
      rw [hia] at hib
      cases hib
      simp at hsum
    refine ⟨hne, _, ⟨p, q, hp', hq', rfl⟩, ?_⟩
    rw [h1, hshell]
    refine ⟨rfl, one_pos, p0, p0, Pi.single ⟨0, hd⟩ 1, hpos0, hpos0, ?_⟩
    rw [hlat, cubic_latNorm hbas,
      Finset.sum_eq_single ⟨0, hd⟩ (by intro j _ hj; simp [hj]) (by simp)]
    simp [hr1]

end Lattpy
