import Verif.Lemmas.Ring
import Verif.Lemmas.Nearest
import Verif.Props.Build
import Verif.Props.LatticeCubic
import Verif.Props.Periodic
import Verif.Props.PeriodicVectors

/-!
# Finite hypercubic lattices
-/

set_option autoImplicit false
set_option linter.unusedSectionVars false

namespace Lattpy

open Structure

variable {d : ℕ}

/-- Rounded square roots of integers. -/
theorem round_sqrt_one (z : ℤ) : npRound 6 (Real.sqrt (z : ℝ)) = 1 ↔ z = 1 := by
  have hr1 : npRound 6 (1 : ℝ) = 1 := by exact_mod_cast npRound_natCast 1
  constructor
  · intro h
    have h1 := abs_le.1 (abs_npRound_sub_le 6 (Real.sqrt (z : ℝ)))
    rw [h] at h1
    norm_num at h1
    have h2 : Real.sqrt (z : ℝ) ≤ 12 / 10 := by linarith
    have h3 := (Real.sqrt_le_left (by norm_num)).1 h2
    have h4 : (z : ℝ) < ((2 : ℤ) : ℝ) := by push_cast; linarith
    have h5 : z < 2 := by exact_mod_cast h4
    by_contra hne
    have h6 : z ≤ 0 := by omega
    rw [Real.sqrt_eq_zero_of_nonpos (by exact_mod_cast h6), npRound_zero] at h
    norm_num at h
  · rintro rfl
    simp [hr1]

/-- Integer vectors of length one. -/
theorem sum_sq_one (n : Fin d → ℤ) : ∑ k, n k ^ 2 = 1 ↔ ∑ k, |n k| = 1 := by
  have h1 : ∀ k, |n k| ≤ n k ^ 2 := fun k => by
    rw [← sq_abs]
    rcases eq_or_lt_of_le (abs_nonneg (n k)) with h | h
    · rw [← h]; norm_num
    · nlinarith
  constructor
  · intro h
    have h2 : ∑ k, |n k| ≤ 1 := h ▸ Finset.sum_le_sum fun k _ => h1 k
    have h3 : 0 ≤ ∑ k, |n k| := Finset.sum_nonneg fun k _ => abs_nonneg _
    rcases eq_or_lt_of_le h3 with h4 | h4
    · have h5 := (Finset.sum_eq_zero_iff_of_nonneg fun k _ => abs_nonneg (n k)).1 h4.symm
      have : ∑ k, n k ^ 2 = 0 := Finset.sum_eq_zero fun k hk => by
        rw [abs_eq_zero.1 (h5 k hk)]; norm_num
      omega
    · omega
  · intro h
    have h2 : ∀ k, n k ^ 2 = |n k| := by
      intro k
      have h3 : |n k| ≤ 1 := h ▸ Finset.single_le_sum (f := fun k => |n k|)
        (fun k _ => abs_nonneg _) (Finset.mem_univ k)
      rw [← sq_abs]
      have := abs_nonneg (n k)
      have : |n k| = 0 ∨ |n k| = 1 := by omega
      rcases this with h | h <;> rw [h] <;> norm_num
    rw [← h]
    exact Finset.sum_congr rfl fun k _ => h2 k

/-- One step along one axis. -/
theorem sum_abs_one (n : Fin d → ℤ) :
    ∑ k, |n k| = 1 ↔ ∃ k, |n k| = 1 ∧ ∀ m, m ≠ k → n m = 0 := by
  constructor
  · intro h
    have : ∃ k, n k ≠ 0 := by
      by_contra hne
      push Not at hne
      rw [Finset.sum_eq_zero fun k _ => by rw [hne k]; rfl] at h
      omega
    obtain ⟨k, hk⟩ := this
    rw [← Finset.add_sum_erase _ _ (Finset.mem_univ k)] at h
    have h1 : 0 ≤ ∑ m ∈ Finset.univ.erase k, |n m| := Finset.sum_nonneg fun m _ => abs_nonneg _
    have h2 : 0 < |n k| := abs_pos.2 hk
    refine ⟨k, by omega, fun m hm => ?_⟩
    have h3 : ∑ m ∈ Finset.univ.erase k, |n m| = 0 := by omega
    exact abs_eq_zero.1 ((Finset.sum_eq_zero_iff_of_nonneg fun m _ => abs_nonneg (n m)).1 h3 m
      (Finset.mem_erase.2 ⟨hm, Finset.mem_univ m⟩))
  · rintro ⟨k, hk, h⟩
    rw [Finset.sum_eq_single k (fun m _ hm => by rw [h m hm]; rfl) (by simp), hk]

/-- The levels of the hypercubic lattice. -/
theorem cubic_level {S : Structure d ℝ} {p0 : Vec d ℝ} (hp0 : S.positions = [p0])
    (hbas : S.basis.vectors = 1) (x : ℝ) : IsLevel S 0 0 x ↔
      ∃ n : Fin d → ℤ, n ≠ 0 ∧ x = npRound 6 (Real.sqrt ((∑ i, n i ^ 2 : ℤ) : ℝ)) := by
  have hpos0 : S.positions[0]? = some p0 := by rw [hp0]; rfl
  have hlat : ∀ n : Fin d → ℤ, distance (fun k => p0 k + ∑ i, (n i : ℝ) * S.basis.vectors i k)
      p0 (some 6) = npRound 6 (Real.sqrt ((∑ i, n i ^ 2 : ℤ) : ℝ)) := by
    intro n
    rw [distance_some]
    congr 1
    rw [distance_eq_dist, dist_eq_norm, EuclideanSpace.norm_eq]
    push_cast
    refine congrArg Real.sqrt (Finset.sum_congr rfl fun k _ => ?_)
    simp [hbas, Matrix.one_apply]
  constructor
  · rintro ⟨hx0, ra, rb, n, h1, h2, hx⟩
    rw [hpos0] at h1 h2
    cases h1
    cases h2
    rw [hlat] at hx
    refine ⟨n, ?_, hx⟩
    rintro rfl
    simp [npRound_zero] at hx
    linarith
  · rintro ⟨n, hn, rfl⟩
    refine ⟨?_, p0, p0, n, hpos0, hpos0, (hlat n).symm⟩
    obtain ⟨k, hnk⟩ := Function.ne_iff.1 hn
    have hnk : n k ≠ 0 := by simpa using hnk
    have h1 : n k ^ 2 ≤ ∑ i, n i ^ 2 :=
      Finset.single_le_sum (f := fun i => n i ^ 2) (fun j _ => sq_nonneg _) (Finset.mem_univ k)
    have h2 : 0 < n k ^ 2 := by positivity
    have h3 : (1 : ℝ) ≤ ((∑ i, n i ^ 2 : ℤ) : ℝ) := by exact_mod_cast (by omega : 1 ≤ ∑ i, n i ^ 2)
    have h4 := npRound_mono (n := 6) (Real.one_le_sqrt.2 h3)
    have hr1 : npRound 6 (1 : ℝ) = 1 := by exact_mod_cast npRound_natCast 1
    rw [hr1] at h4
    linarith

theorem cubic_level_one (hd : 0 < d) {S : Structure d ℝ} {p0 : Vec d ℝ}
    (hp0 : S.positions = [p0]) (hbas : S.basis.vectors = 1) : IsLevel S 0 0 1 ∧
      (∀ x, IsLevel S 0 0 x → 1 ≤ x) ∧ ∀ x, IsLevel S 0 0 x → x ≤ 1 + 1 / 10 + 1 / 10 ^ 6 → x = 1 := by
  have hr1 : npRound 6 (1 : ℝ) = 1 := by exact_mod_cast npRound_natCast 1
  have hpos : ∀ n : Fin d → ℤ, n ≠ 0 → 1 ≤ ∑ i, n i ^ 2 := by
    intro n hn
    obtain ⟨k, hnk⟩ := Function.ne_iff.1 hn
    have hnk : n k ≠ 0 := by simpa using hnk
    have h1 : n k ^ 2 ≤ ∑ i, n i ^ 2 :=
      Finset.single_le_sum (f := fun i => n i ^ 2) (fun j _ => sq_nonneg _) (Finset.mem_univ k)
    have h2 : 0 < n k ^ 2 := by positivity
    omega
  refine ⟨?_, ?_, ?_⟩
  · rw [cubic_level hp0 hbas]
    refine ⟨Pi.single ⟨0, hd⟩ 1, by simp, ?_⟩
    rw [Finset.sum_eq_single ⟨0, hd⟩ (by intro j _ hj; simp [hj]) (by simp)]
    simp [hr1]
  · intro x hx
    obtain ⟨n, hn, rfl⟩ := (cubic_level hp0 hbas x).1 hx
    rw [← hr1]
    exact npRound_mono (Real.one_le_sqrt.2 (by exact_mod_cast hpos n hn))
  · intro x hx hle
    obtain ⟨n, hn, rfl⟩ := (cubic_level hp0 hbas x).1 hx
    rw [round_sqrt_one]
    have h1 := abs_le.1 (abs_npRound_sub_le 6 (Real.sqrt ((∑ i, n i ^ 2 : ℤ) : ℝ)))
    have h2 : Real.sqrt ((∑ i, n i ^ 2 : ℤ) : ℝ) ≤ 12 / 10 := by
      norm_num at h1 hle ⊢
      linarith
    have h3 := (Real.sqrt_le_left (by norm_num)).1 h2
    have h4 : ((∑ i, n i ^ 2 : ℤ) : ℝ) < ((2 : ℤ) : ℝ) := by
      refine lt_of_le_of_lt h3 ?_
      norm_num
    have h5 : (∑ i, n i ^ 2 : ℤ) < 2 := by exact_mod_cast h4
    have := hpos n hn
    omega

/-- The first shell of the hypercubic lattice. -/
theorem cubic_shell (hd : 0 < d) {S : Structure d ℝ} {p0 : Vec d ℝ} (hp0 : S.positions = [p0])
    (hbas : S.basis.vectors = 1) (x : ℝ) : IsShell S 0 0 1 x ↔ x = 1 := by
  obtain ⟨hL1, hone, -⟩ := cubic_level_one hd hp0 hbas
  constructor
  · rintro ⟨hx, hcard⟩
    by_contra hne
    have h1x : 1 < x := lt_of_le_of_ne (hone x hx) (Ne.symm hne)
    have : ({1} : Set ℝ) ⊆ {y | IsLevel S 0 0 y ∧ y < x} := by
      rintro y rfl
      exact ⟨hL1, h1x⟩
    have := lt_of_le_of_lt (Set.encard_le_encard this) hcard
    simp at this
  · rintro rfl
    refine ⟨hL1, ?_⟩
    have : {y | IsLevel S 0 0 y ∧ y < 1} = ∅ := by
      ext y
      simp only [Set.mem_empty_iff_false, iff_false]
      rintro ⟨h1, h2⟩
      have : y < 1 := h2
      linarith [hone y h1]
    rw [this]
    simp

theorem cubic_gap (hd : 0 < d) {S : Structure d ℝ} {p0 : Vec d ℝ} (hp0 : S.positions = [p0])
    (hbas : S.basis.vectors = 1) : NoNearbyShell S 1 := by
  intro x y hy hx hxy
  rw [cubic_shell hd hp0 hbas] at hy ⊢
  subst hy
  exact (cubic_level_one hd hp0 hbas).2.2 x hx hxy

/-- A finite hypercubic lattice with cells from 0 below `size` in each direction. -/
structure IsGrid (env : Env ℝ) (size : Fin d → ℕ) (L : Lattice d ℝ) (A : Analysis d ℝ)
    (D : LatticeData d ℝ) (table : List (List (ℕ × WithTop ℝ))) : Prop where
  reach : Reachable env L.world
  analysis : L.struct.analysis = some A
  vectors : L.struct.basis.vectors = 1
  numBase : L.struct.numBase = 1
  data : L.data = some D
  shape : L.shape ≠ none
  primitive : L.primitive = some true
  periodicAxes : L.periodicAxes = []
  alpha : ∀ x : Idx d, x ∈ D.indices → x.alpha = 0
  sites : List.Forall₂ (fun (x : Idx d) p => p = fun k => (x.cell k : ℝ)) D.indices D.positions
  mem : ∀ n : Fin d → ℤ, Idx.mk n 0 ∈ D.indices ↔ ∀ k, 0 ≤ n k ∧ n k < size k
  nodup : D.indices.Nodup
  sitesNodup : D.positions.Nodup
  comp : computeNeighbors env L.struct D.indices D.positions = .ok table
  set : LatticeData.set D.indices D.positions (table.map fun r => r.map Prod.fst)
        (table.map fun r => r.map Prod.snd) = .ok D
  length : table.length = D.positions.length
  links : ∀ i j x, Linked table i j x ↔ x = 1 ∧ ∃ a b : Idx d, D.indices[i]? = some a ∧
    D.indices[j]? = some b ∧ ∑ k, |b.cell k - a.cell k| = 1
  top : ⊤ ∈ D.distvals
  levels : D.distvals.length ≤ 256
  configured : ∀ x, Configured A 0 0 x ↔ x = 1
  rect : ∃ width, D.Rect width ∧ D.Valid

/-- `finite_hypercubic` without periodic axes. -/
theorem exists_grid (hd : 0 < d) (hdim : d ≤ 10 ^ 9) (env : Env ℝ) (s : Session)
    (atom : AtomSpec) (size : Fin d → ℕ) (hs : ∀ k, 0 < size k) (isInt : Bool) :
    ∃ w L A D table,
      Preset.configure env s (LatticeBasis.hypercubic d 1) (Preset.oneAtom atom 1) = .ok w ∧
      (Lattice.ofWorld w).build env
        { shape := .size (List.ofFn fun k => (size k : ℝ)) isInt
          primitive := true } = (L, .ok ()) ∧ IsGrid env size L A D table := by
  obtain ⟨b, hb⟩ := (LatticeBasis.init_eq_ok_iff ((1 : ℝ) • (1 : Matrix (Fin d) (Fin d) ℝ))).2
    (by simp)
  have hb1 : LatticeBasis.hypercubic d 1 = .ok b := hb
  obtain ⟨w1, at1, h1, hg, hf, hbas, hpos, -, hconn, hnum, -⟩ := Preset.addAtom_ok hd env
    (w := ⟨s, ofBasis b⟩) (good_ofBasis hb) rfl (pos := none) (Preset.atomPos_none _)
    (by simp [ofBasis]) atom
  have hpos' : w1.struct.positions = [0] := by simpa [ofBasis] using hpos
  have hnum1 : w1.struct.numBase = 1 := by rw [← hg.positions_length, hpos']; rfl
  have hr1 : Reachable env w1 := by
    have h0 : Reachable env (⟨s, ofBasis b⟩ : World d ℝ) := ⟨_, b, s, [], hb, rfl⟩
    have := h0.call (.addAtom none atom.arg false 0)
    rwa [h1] at this
  set c0 := (ConnMatrix.zeros ((⟨s, ofBasis b⟩ : World d ℝ).struct.numBase + 1)).fill 0 with hc0
  set w0 : World d ℝ := ⟨w1.session, { w1.struct with conn := some (c0.fill 1) }⟩ with hw0
  have hr0 : Reachable env w0 := by
    have := hr1.call (.addConnections 1 false)
    have e : (w1.call env (.addConnections 1 false)).1 = w0 := by
      change (⟨w1.session, (w1.struct.addConnections env 1 false).1⟩ : World d ℝ) = w0
      simp [addConnections, hconn, hw0]
    rwa [e] at this
  have hG0 := hr0.good hd
  have hcs : (c0.fill 1).size = 1 := by
    rw [(hG0.conn_size _ rfl).1]; exact hnum1
  have hc1 : (c0.fill 1).entry 0 0 = 1 := by
    have h : c0.size = 1 := hcs
    simp [ConnMatrix.fill, h]
  obtain ⟨S', cells, m, A, a1, a2, a3, a4, a5, a6, a7, a8, -⟩ := Preset.analyze_ok hd env hG0
    (c := c0.fill 1) rfl (i := 0) (j := 0) (by rw [hcs]; norm_num) (by rw [hcs]; norm_num)
    (by rw [hc1]; norm_num)
  set w : World d ℝ := ⟨w1.session, S'⟩ with hw
  have hcall : w1.call env (.addConnections 1 true) = (w, .ok ()) := by
    change ((⟨w1.session, (w1.struct.addConnections env 1 true).1⟩ : World d ℝ),
      (w1.struct.addConnections env 1 true).2) = _
    have : w1.struct.addConnections env 1 true = w0.struct.analyze env := by
      simp [addConnections, hconn, hw0]
    rw [this, a1]
  have hconf : Preset.configure env s (LatticeBasis.hypercubic d 1) (Preset.oneAtom atom 1) =
      .ok w := by
    rw [hb1]
    unfold Preset.configure
    dsimp only
    rw [Preset.oneAtom, Preset.calls_cons h1, Preset.calls_cons hcall, Preset.calls]
  have hr : Reachable env w := by
    have := hr1.call (.addConnections 1 true)
    rwa [hcall] at this
  have hp0 : w0.struct.positions = [0] := hpos'
  have hv0 : w0.struct.basis.vectors = 1 := by
    change w1.struct.basis.vectors = 1
    rw [hbas]
    change b.vectors = 1
    rw [LatticeBasis.init_vectors hb]
    simp
  have hv : w.struct.basis.vectors = 1 := by
    change S'.basis.vectors = 1
    rw [a3, hv0]
  have hp : w.struct.positions = [0] := a4.trans hp0
  -- the sites
  obtain ⟨⟨indices, positions⟩, hbi, hmem⟩ := C43_unit_partial hd hr
    (by intro i j; rw [hv, Matrix.one_apply]) hp size hs
  obtain ⟨hsites, hnd⟩ := buildIndices_sites hd hr hbi
  have hnd := hnd rfl
  have hsites0 : List.Forall₂ (IsSitePos w0.struct) indices positions := by
    refine hsites.imp fun x p h => ?_
    unfold IsSitePos at h ⊢
    rw [show w.struct.positions = w0.struct.positions from a4,
      show w.struct.basis = w0.struct.basis from a3] at h
    exact h
  have h0 : 0 < positions.length := by
    rw [← hsites.length_eq]
    exact List.length_pos_of_mem ((hmem 0).2 fun k => ⟨le_rfl, by simpa using hs k⟩)
  obtain ⟨D, table, hpn, hcomp, hset, hDi, hDp, htl, hlink, htop, h256⟩ := cubic_sites hd hr0 hp0
    (c := c0.fill 1) rfl hv0 (by rw [hc1]; norm_num; omega)
    (by rw [hc1]; exact cubic_gap hd hp0 hv0) (by omega) a1 hsites0 hnd h0
  obtain ⟨A', hA', hcfg, -⟩ := cubic_configured hd hr0 hp0 (c := c0.fill 1) rfl hv0
    (by rw [hc1]; norm_num; omega) a1
  rw [a8] at hA'
  cases hA'
  obtain ⟨lo, hi, hlim⟩ := Lattice.getLimits_ok (D := D) (by rw [hDp]; exact h0)
  set args : BuildArgs d ℝ :=
    { shape := .size (List.ofFn fun k => (size k : ℝ)) isInt
      primitive := true } with hargs
  have hbuild := Lattice.build_of (env := env) (L := Lattice.ofWorld w) (a := args)
    (A := A) a8
    (by
      intro c hc
      have : c = c0.fill 1 := by
        have h : S'.conn = some c := hc
        rw [a7] at h
        cases h
        rfl
      subst this
      by_contra hz
      rw [Bool.not_eq_false, ConnMatrix.allZero_iff] at hz
      have := hz 0 (by rw [hcs]; norm_num) 0 (by rw [hcs]; norm_num)
      omega)
    (shape := .box (fun k => (size k : ℝ)) 0 (some w.struct.basis.vectors))
    (by
      unfold Lattice.buildShape
      rw [hargs]
      dsimp only
      rw [toVec_ofFn]
      rfl)
    hbi hcomp (indices' := indices) (positions' := positions) (table' := table) rfl hset hlim rfl
  have hsq : ∀ (n : Fin d → ℤ), (∑ i, (n i : ℝ) ^ 2) = ((∑ i, n i ^ 2 : ℤ) : ℝ) := by
    intro n; push_cast; rfl
  have hsite : ∀ (x : Idx d) p, IsSitePos w0.struct x p →
      x.alpha = 0 ∧ p = fun k => (x.cell k : ℝ) := by
    rintro x p ⟨b', r', g1, g2, g3⟩
    rw [hp0] at g2
    obtain ⟨hn, hr'⟩ := List.getElem?_eq_some_iff.1 g2
    have hn0 : b' = 0 := by simpa using hn
    subst hn0
    simp only [List.getElem_cons_zero] at hr'
    subst hr'
    refine ⟨g1, ?_⟩
    rw [g3]
    funext k
    rw [hv0]
    simp [Matrix.one_apply]
  refine ⟨w, _, A, D, table, hconf, hbuild, ?_⟩
  have hsites1 : List.Forall₂ (fun (x : Idx d) p => p = fun k => (x.cell k : ℝ))
      D.indices D.positions := by
    rw [hDi, hDp]
    exact hsites0.imp fun x p h => (hsite x p h).2
  have hal : ∀ x : Idx d, x ∈ D.indices → x.alpha = 0 := by
    intro x hx
    rw [hDi] at hx
    obtain ⟨i, hi1, rfl⟩ := List.mem_iff_getElem.1 hx
    have h := hsites0.get hi1 (by rw [← hsites0.length_eq]; exact hi1)
    exact (hsite _ _ h).1
  refine ⟨hr, a8, hv, ?_, rfl, by simp, rfl, rfl, hal, hsites1, ?_, ?_, ?_, ?_, ?_, ?_, ?_, htop,
    h256, ?_, ?_⟩
  · change S'.numBase = 1
    rw [a5]; exact hnum1
  · rw [hDi]; exact hmem
  · rw [hDi]; exact hnd
  · rw [hDp]; exact hpn
  · rw [hDi, hDp]; exact hcomp
  · rw [hDi, hDp]; exact hset
  · rw [hDp]; exact htl
  · intro i j x
    rw [hlink, hc1, cubic_shell hd hp0 hv0]
    have hlen := hsites1.length_eq
    have hpt : ∀ (i : ℕ) p, D.positions[i]? = some p ↔
        ∃ a : Idx d, D.indices[i]? = some a ∧ p = fun k => (a.cell k : ℝ) := by
      intro i p
      constructor
      · intro h2
        obtain ⟨i2, e2⟩ := List.getElem?_eq_some_iff.1 h2
        have i1 : i < D.indices.length := by rw [hlen]; exact i2
        have := hsites1.get i1 i2
        simp only [List.get_eq_getElem, e2] at this
        exact ⟨_, List.getElem?_eq_getElem i1, this⟩
      · rintro ⟨a, h2, rfl⟩
        obtain ⟨i1, e1⟩ := List.getElem?_eq_some_iff.1 h2
        have i2 : i < D.positions.length := by rw [← hlen]; exact i1
        have := hsites1.get i1 i2
        simp only [List.get_eq_getElem, e1] at this
        rw [List.getElem?_eq_getElem i2, this]
    have hdist : ∀ a b : Idx d, distance (fun k => (b.cell k : ℝ)) (fun k => (a.cell k : ℝ))
        (some 6) = npRound 6 (Real.sqrt ((∑ k, (b.cell k - a.cell k) ^ 2 : ℤ) : ℝ)) := by
      intro a b
      rw [distance_some]
      congr 1
      rw [distance_eq_dist, dist_eq_norm, EuclideanSpace.norm_eq]
      push_cast
      refine congrArg Real.sqrt (Finset.sum_congr rfl fun k _ => ?_)
      simp
    constructor
    · rintro ⟨-, ⟨p, q, g1, g2, g3⟩, rfl⟩
      obtain ⟨a, e1, rfl⟩ := (hpt i p).1 g1
      obtain ⟨b', e2, rfl⟩ := (hpt j q).1 g2
      rw [hdist] at g3
      exact ⟨rfl, a, b', e1, e2, (sum_sq_one _).1 ((round_sqrt_one _).1 g3.symm)⟩
    · rintro ⟨rfl, a, b', e1, e2, h⟩
      refine ⟨?_, ⟨_, _, (hpt i _).2 ⟨a, e1, rfl⟩, (hpt j _).2 ⟨b', e2, rfl⟩, ?_⟩, rfl⟩
      · rintro rfl
        rw [e1] at e2
        cases e2
        simp at h
      · rw [hdist]
        exact ((round_sqrt_one _).2 ((sum_sq_one _).2 h)).symm
  · intro x
    rw [hcfg, hc1, cubic_shell hd hp0 hv0]
  · obtain ⟨D', hD', h⟩ := build_rect hd (L := Lattice.ofWorld w) hr (cubic_distinct hp hv)
      (a := args) rfl rfl rfl hbuild
    cases hD'
    exact h htop h256

end Lattpy
