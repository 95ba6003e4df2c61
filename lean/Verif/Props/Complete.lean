import Verif.Props.Analysis

/-!
# Completeness of the neighbour analysis and independence of the unit of length (C34, C39)
-/

set_option autoImplicit false
set_option linter.unusedSectionVars false

namespace Lattpy

open Structure World

variable {d : ℕ}

/-! ## C34 -/

/-- C34, conditional form: if the cells searched for the pair `(a, b)` contain every site within a
distance up to which there are at least `connections[a][b]` levels, then the listed sites are
exactly the sites of the `connections[a][b]` smallest levels of the infinite lattice. -/
theorem C34_window_partial (hd : 0 < d) {env : Env ℝ} {w : World d ℝ} (h : Reachable env w)
    {S' : Structure d ℝ} (hok : w.struct.analyze env = (S', .ok ())) :
    ∃ c cells A m, w.struct.conn = some c ∧ c.max? = .ok m ∧
      w.struct.basis.getNeighborCells (2 * m) true (fun x y => decide (x ≤ y)) = .ok cells ∧
      S'.analysis = some A ∧
      ∀ (a b : ℕ) (ra rb : Vec d ℝ) (R : ℝ), w.struct.positions[a]? = some ra →
        w.struct.positions[b]? = some rb →
        (∀ n : Fin d → ℤ,
          distance (fun k => rb k + ∑ i, (n i : ℝ) * w.struct.basis.vectors i k) ra (some 6) ≤ R →
          n ∈ cells) →
        (c.entry a b : ℕ∞) ≤ {y | IsLevel w.struct a b y ∧ y ≤ R}.encard →
        ∀ (x : ℝ) (n : Fin d → ℤ), Listed A a x (Idx.mk n (b : ℤ)) ↔
          x = distance (fun k => rb k + ∑ i, (n i : ℝ) * w.struct.basis.vectors i k) ra (some 6) ∧
          IsShell w.struct a b (c.entry a b) x := by
  obtain ⟨c, cells, m, A, -, hc, hA, hm, -, hcells, hI, hG, hbas, hpos, hnum⟩ :=
    call_analyze_ok hd h hok
  rw [hbas] at hcells
  refine ⟨c, cells, A, m, hc, hm, hcells, hA, ?_⟩
  intro a b ra rb R hra hrb hwin hk x n
  have hS := h.good hd
  have ha : a < w.struct.numBase := by
    rw [← hS.positions_length]; exact (List.getElem?_eq_some_iff.1 hra).1
  have hb : b < w.struct.numBase := by
    rw [← hS.positions_length]; exact (List.getElem?_eq_some_iff.1 hrb).1
  have hI' : IsAnalysis w.struct cells m c A := hI.congr hbas.symm hpos.symm hnum.symm
  have hcomp := complete_of_window hS ha hb (cells := cells) (R := R) (k := c.entry a b)
    (fun n hn => hwin n (by rw [← siteDist_eq hra hrb]; exact hn)) hk n
  rw [← siteDist_eq hra hrb, listed_iff hI']
  constructor
  · rintro ⟨-, b', hb', n', hn', e, hx, hlev⟩
    rw [Idx.mk_inj] at e
    obtain ⟨rfl, e⟩ := e
    have : b = b' := by exact_mod_cast e
    subst this
    rw [hx] at hlev ⊢
    exact ⟨rfl, hcomp.1 ⟨hn', hlev⟩⟩
  · rintro ⟨rfl, hsh⟩
    obtain ⟨h1, h2⟩ := hcomp.2 hsh
    exact ⟨ha, b, hb, n, h1, rfl, rfl, h2⟩

/-- There are as many levels as values of an injective list of levels. -/
theorem le_encard_of_levels {S : Structure d ℝ} {a b k : ℕ} {R : ℝ} (f : ℕ → ℝ)
    (hinj : ∀ i j, i < k → j < k → f i = f j → i = j)
    (hf : ∀ j < k, IsLevel S a b (f j) ∧ f j ≤ R) :
    (k : ℕ∞) ≤ {y | IsLevel S a b y ∧ y ≤ R}.encard := by
  have h1 : ((Finset.range k).image f : Set ℝ) ⊆ {y | IsLevel S a b y ∧ y ≤ R} := by
    intro y hy
    simp only [Finset.coe_image, Set.mem_image, Finset.mem_coe, Finset.mem_range] at hy
    obtain ⟨j, hj, rfl⟩ := hy
    exact hf j hj
  have h2 : ((Finset.range k).image f).card = k := by
    rw [Finset.card_image_of_injOn, Finset.card_range]
    intro i hi j hj hij
    simp only [Finset.coe_range, Set.mem_Iio] at hi hj
    exact hinj i j hi hj hij
  calc (k : ℕ∞) = (((Finset.range k).image f : Finset ℝ) : Set ℝ).encard := by
        rw [Set.encard_coe_eq_coe_finsetCard, h2]
    _ ≤ _ := Set.encard_le_encard h1

theorem inj_of_lt {k : ℕ} {f : ℕ → ℝ} (h : ∀ i j, i < j → f i < f j) :
    ∀ i j, i < k → j < k → f i = f j → i = j := by
  intro i j _ _ hij
  rcases lt_trichotomy i j with h' | h' | h'
  · exact absurd hij (h i j h').ne
  · exact h'
  · exact absurd hij (h j i h').ne'

/-- C34 holds in one dimension, for any number of atoms less than a lattice constant apart (and a
lattice constant above `1e-6`): the listed sites are exactly those of the smallest levels of the
infinite lattice. -/
theorem C34_chain_partial {env : Env ℝ} {w : World 1 ℝ} (h : Reachable env w) {l : ℝ}
    (hl : 1 / 10 ^ 6 < l) (hbas : w.struct.basis = chainBasis l)
    (hcell : ∀ p ∈ w.struct.positions, ∀ q ∈ w.struct.positions, |p 0 - q 0| < l)
    {S' : Structure 1 ℝ} (hok : w.struct.analyze env = (S', .ok ())) :
    ∃ c A, w.struct.conn = some c ∧ S'.analysis = some A ∧
      ∀ (a b : ℕ) (ra rb : Vec 1 ℝ), w.struct.positions[a]? = some ra →
        w.struct.positions[b]? = some rb → ∀ (x : ℝ) (n : Fin 1 → ℤ),
        Listed A a x (Idx.mk n (b : ℤ)) ↔
          x = npRound 6 |rb 0 + n 0 * l - ra 0| ∧ IsShell w.struct a b (c.entry a b) x := by
  obtain ⟨c, cells, A, m, hc, hm, hcells, hA, hwin⟩ := C34_window_partial Nat.one_pos h hok
  have hl0 : 0 < l := lt_trans (by positivity) hl
  have hS := h.good Nat.one_pos
  rw [hbas] at hcells
  have hcm := (chain_cells hl0 _ cells hcells).2
  have hm' : 0 < m ∧ ∀ i < c.size, ∀ j < c.size, c.entry i j ≤ m := by
    have hz : c.allZero = false := by
      rcases analyze_cases Nat.one_pos env hS with ⟨h1, -⟩ | ⟨c', hc', hz, h1⟩ |
        ⟨c', -, -, -, hc', hz, -⟩
      · rw [h1] at hok; cases hok
      · rw [h1] at hok; cases hok
      · rw [hc] at hc'; cases hc'; exact hz
    obtain ⟨m', h1, h2, h3, -⟩ := ConnMatrix.max?_ok hz
    rw [hm] at h1
    cases h1
    exact ⟨h2, h3⟩
  have hdist : ∀ (ra rb : Vec 1 ℝ) (n : Fin 1 → ℤ),
      distance (fun k => rb k + ∑ i, (n i : ℝ) * w.struct.basis.vectors i k) ra (some 6) =
        npRound 6 |rb 0 + n 0 * l - ra 0| := by
    intro ra rb n
    rw [distance_some, distance_one, hbas]
    simp [chain_vectors]
  refine ⟨c, A, hc, hA, ?_⟩
  intro a b ra rb hra hrb x n
  have hd : |rb 0 - ra 0| < l := hcell _ (List.mem_of_getElem? hrb) _ (List.mem_of_getElem? hra)
  have ha : a < w.struct.numBase := by
    rw [← hS.positions_length]; exact (List.getElem?_eq_some_iff.1 hra).1
  have hb : b < w.struct.numBase := by
    rw [← hS.positions_length]; exact (List.getElem?_eq_some_iff.1 hrb).1
  have hcm2 : c.entry a b ≤ m := by
    have := (hS.conn_size c hc).1
    exact hm'.2 a (by omega) b (by omega)
  set δ := rb 0 - ra 0 with hδ
  have key := hwin a b ra rb (npRound 6 ((m : ℝ) * l + |δ|)) hra hrb ?_ ?_ x n
  · rw [key, hdist]
  · intro n hn
    rw [hdist, show rb 0 + n 0 * l - ra 0 = δ + n 0 * l by rw [hδ]; ring] at hn
    have h1 : |δ + n 0 * l| ≤ (m : ℝ) * l + |δ| + 1 / 10 ^ 6 := by
      by_contra hlt
      push Not at hlt
      exact absurd hn (not_le.2 (npRound_lt hlt))
    rw [hcm]
    have h2 : |(n 0 : ℝ)| * l ≤ |δ + n 0 * l| + |δ| := by
      calc |(n 0 : ℝ)| * l = |(n 0 : ℝ) * l| := by rw [abs_mul, abs_of_pos hl0]
        _ ≤ |δ + n 0 * l| + |-δ| := by
          have := abs_add_le (δ + (n 0 : ℝ) * l) (-δ)
          rwa [show δ + (n 0 : ℝ) * l + -δ = (n 0 : ℝ) * l by ring] at this
        _ = _ := by rw [abs_neg]
    have h3 : |(n 0 : ℝ)| * l < ((m : ℝ) + 3) * l := by nlinarith
    have h4 : |(n 0 : ℝ)| < (m : ℝ) + 3 := lt_of_mul_lt_mul_right h3 hl0.le
    have h5 : |n 0| < (m : ℤ) + 3 := by exact_mod_cast h4
    push_cast
    omega
  · refine le_encard_of_levels (fun j => npRound 6 (((j + 1 : ℕ) : ℝ) * l + |δ|)) ?_ ?_
    · apply inj_of_lt
      intro i j hij
      apply npRound_lt
      have : ((i + 1 : ℕ) : ℝ) + 1 ≤ ((j + 1 : ℕ) : ℝ) := by exact_mod_cast (by omega : i + 1 + 1 ≤ j + 1)
      nlinarith
    · intro j hj
      have hjm : ((j + 1 : ℕ) : ℝ) ≤ m := by exact_mod_cast (by omega : j + 1 ≤ m)
      refine ⟨⟨?_, ra, rb, fun _ => if 0 ≤ δ then ((j + 1 : ℕ) : ℤ) else -((j + 1 : ℕ) : ℤ),
        hra, hrb, ?_⟩, npRound_mono (by nlinarith)⟩
      · have h0 : npRound 6 (0 : ℝ) < npRound 6 (((j + 1 : ℕ) : ℝ) * l + |δ|) := by
          apply npRound_lt
          have : (1 : ℝ) ≤ ((j + 1 : ℕ) : ℝ) := by exact_mod_cast (by omega : 1 ≤ j + 1)
          nlinarith [abs_nonneg δ]
        rwa [npRound_zero] at h0
      · rw [hdist]
        congr 1
        have hjp : (0 : ℝ) ≤ ((j + 1 : ℕ) : ℝ) * l := by positivity
        rw [show ∀ z : ℝ, rb 0 + z * l - ra 0 = δ + z * l by intro z; rw [hδ]; ring]
        split_ifs with h0
        · rw [abs_of_nonneg h0, abs_of_nonneg (by push_cast at hjp ⊢; linarith)]
          push_cast; ring
        · push Not at h0
          rw [abs_of_neg h0, abs_of_neg (by push_cast at hjp ⊢; linarith)]
          push_cast; ring

/-- A chain with atoms at 0 and 1/4 and lattice constant 1. -/
example (env : Env ℝ) : ∃ w : World 1 ℝ, Reachable env w ∧ w.struct.basis = chainBasis 1 ∧
    w.struct.positions = [fun _ => 0, fun _ => 1 / 4] ∧
    ∃ S', w.struct.analyze env = (S', .ok ()) := by
  obtain ⟨w, A, cells, c, hr, hb, hp, hn, hat, hc, hcs, hce, hA, -⟩ :=
    exists_structure Nat.one_pos env (chain_init one_pos) [fun _ => (0 : ℝ), fun _ => (1 : ℝ) / 4]
    (by
      simp only [List.nodup_cons, List.mem_singleton, List.not_mem_nil, not_false_eq_true,
        List.nodup_nil, and_true]
      intro h
      have := congrFun h 0
      norm_num at this) (by simp) Nat.one_pos
  refine ⟨w, hr, hb, hp, ?_⟩
  rcases analyze_cases Nat.one_pos env (hr.good Nat.one_pos) with ⟨-, h⟩ | ⟨c', hc', hz, -⟩ |
      ⟨c', -, -, A', -, -, -, -, -, h, -⟩
  · rw [hc] at h; cases h
  · rw [hc] at hc'
    cases hc'
    have := ConnMatrix.allZero_iff.1 hz 0 (by rw [hcs]; simp) 0 (by rw [hcs]; simp)
    rw [hce 0 0 (by simp) (by simp)] at this
    omega
  · exact ⟨_, h⟩

/-- Norm of a lattice vector. -/
noncomputable def latNorm (b : LatticeBasis d ℝ) (n : Fin d → ℤ) : ℝ :=
  norm2 fun k => ∑ i, (n i : ℝ) * b.vectors i k

theorem latNorm_eq (b : LatticeBasis d ℝ) (n : Fin d → ℤ) :
    norm2 (b.translate n 0) = latNorm b n := by
  unfold latNorm
  rw [LatticeBasis.translate_eq]
  simp

theorem latNorm_single (b : LatticeBasis d ℝ) (i : Fin d) (c : ℕ) :
    latNorm b (Pi.single i (c : ℤ)) = (c : ℝ) * norm2 (b.vectors i) := by
  rw [← latNorm_eq, LatticeBasis.translate_single, LatticeBasis.norm2_smul]
  simp

/-- C34 holds for lattices with one atom whose basis is not too skewed — the coordinate `n_i` of a
lattice vector is at most twice its length in units of one of the basis vectors (`hskew`) — and
whose distances are resolved by the rounding to 6 decimals in the searched box (`hres`). -/
theorem C34_one_atom_partial (hd : 0 < d) {env : Env ℝ} {w : World d ℝ} (h : Reachable env w)
    {p : Vec d ℝ} (hp : w.struct.positions = [p]) {c : ConnMatrix} (hc : w.struct.conn = some c)
    (i0 : Fin d) (hlen : 1 / 10 ^ 6 < norm2 (w.struct.basis.vectors i0))
    (hskew : ∀ (n : Fin d → ℤ) (i : Fin d),
      |(n i : ℝ)| * norm2 (w.struct.basis.vectors i0) ≤ 2 * latNorm w.struct.basis n)
    (hres : ∀ n n' : Fin d → ℤ, (∀ i, |n i| ≤ 2 * (c.entry 0 0 : ℤ) + 1) →
      (∀ i, |n' i| ≤ 2 * (c.entry 0 0 : ℤ) + 1) →
      npRound 6 (latNorm w.struct.basis n) = npRound 6 (latNorm w.struct.basis n') →
      latNorm w.struct.basis n = latNorm w.struct.basis n')
    {S' : Structure d ℝ} (hok : w.struct.analyze env = (S', .ok ())) :
    ∃ A, S'.analysis = some A ∧ ∀ (x : ℝ) (n : Fin d → ℤ),
      Listed A 0 x (Idx.mk n ((0 : ℕ) : ℤ)) ↔
        x = npRound 6 (latNorm w.struct.basis n) ∧ IsShell w.struct 0 0 (c.entry 0 0) x := by
  obtain ⟨c', cells, A, m, hc', hm, hcells, hA, hwin⟩ := C34_window_partial hd h hok
  rw [hc] at hc'
  cases hc'
  have hS := h.good hd
  obtain ⟨rows, hb⟩ := hS.basis
  have hnum : w.struct.numBase = 1 := by rw [← hS.positions_length, hp]; rfl
  have hsz : c.size = 1 := by rw [(hS.conn_size c hc).1, hnum]
  have hm1 : m = c.entry 0 0 := by
    have : c.entries = [c.entry 0 0] := by simp [ConnMatrix.entries, hsz]
    unfold ConnMatrix.max? at hm
    rw [this] at hm
    simpa using hm.symm
  set b := w.struct.basis with hbdef
  set l := norm2 (b.vectors i0) with hl
  have hl0 : 0 < l := lt_trans (by positivity) hlen
  have h0 : w.struct.positions[0]? = some p := by rw [hp]; rfl
  have hdist : ∀ n : Fin d → ℤ,
      distance (fun k => p k + ∑ i, (n i : ℝ) * b.vectors i k) p (some 6) =
        npRound 6 (latNorm b n) := by
    intro n
    rw [distance_some]
    congr 1
    unfold latNorm
    rw [distance_eq_dist, dist_eq_norm, norm2_eq_norm]
    congr 1
    ext k
    simp
  obtain ⟨M, hM, -, hz0, hmem⟩ := b.neighborCells_spec _ _ _ _ hcells
  simp only [latNorm_eq, decide_eq_true_eq] at hM hmem
  set P := npUnique ((LatticeBasis.factors d (2 * m)).map fun n => latNorm b n) with hP
  have hPsort : P.Pairwise (· < ·) := npUnique_pairwise_lt _
  have hPmem : ∀ x, x ∈ P ↔ ∃ n : Fin d → ℤ, (∀ i, |n i| ≤ 2 * (m : ℤ) + 1) ∧ latNorm b n = x := by
    intro x
    rw [hP, mem_npUnique, List.mem_map]
    simp only [LatticeBasis.mem_factors]
    push_cast
    rfl
  have hMP : M ∈ P := List.mem_of_getElem? hM
  obtain ⟨nM, hnM, hnMM⟩ := (hPmem M).1 hMP
  have hres' : ∀ n n' : Fin d → ℤ, (∀ i, |n i| ≤ 2 * (m : ℤ) + 1) →
      (∀ i, |n' i| ≤ 2 * (m : ℤ) + 1) → latNorm b n < latNorm b n' →
      npRound 6 (latNorm b n) < npRound 6 (latNorm b n') := by
    intro n n' hn hn' hlt
    refine lt_of_le_of_ne (npRound_mono hlt.le) ?_
    intro he
    exact hlt.ne (hres n n' (by rw [← hm1]; exact hn) (by rw [← hm1]; exact hn') he)
  have hlev : ∀ n : Fin d → ℤ, 0 < npRound 6 (latNorm b n) →
      IsLevel w.struct 0 0 (npRound 6 (latNorm b n)) := by
    intro n hn
    exact ⟨hn, p, p, n, h0, h0, (hdist n).symm⟩
  -- the levels found up to the smaller of the two radii
  have key := fun x n => hwin 0 0 p p (min (npRound 6 ((m : ℝ) * l)) (npRound 6 M)) h0 h0 ?_ ?_ x n
  · refine ⟨A, hA, ?_⟩
    intro x n
    rw [key, hdist]
  · intro n hn
    rw [hdist] at hn
    by_cases hn0 : n = 0
    · rw [hn0]; exact hz0.2 rfl
    rw [hmem n hn0]
    have h1 : latNorm b n ≤ (m : ℝ) * l + 1 / 10 ^ 6 := by
      by_contra hlt
      push Not at hlt
      exact absurd (hn.trans (min_le_left _ _)) (not_le.2 (npRound_lt hlt))
    have hbox : ∀ i, |n i| ≤ 2 * (m : ℤ) + 1 := by
      intro i
      have h2 := hskew n i
      have h3 : |(n i : ℝ)| * l < (2 * (m : ℝ) + 2) * l := by nlinarith
      have h4 : |(n i : ℝ)| < 2 * (m : ℝ) + 2 := lt_of_mul_lt_mul_right h3 hl0.le
      have h5 : |n i| < 2 * (m : ℤ) + 2 := by exact_mod_cast h4
      omega
    refine ⟨by push_cast; exact hbox, ?_⟩
    by_contra hlt
    push Not at hlt
    rw [← hnMM] at hlt
    have := hres' nM n hnM hbox hlt
    rw [hnMM] at this
    exact absurd (hn.trans (min_le_right _ _)) (not_le.2 this)
  · rw [← hm1]
    rcases le_total (npRound 6 ((m : ℝ) * l)) (npRound 6 M) with hle | hle
    · rw [min_eq_left hle]
      refine le_encard_of_levels (fun j => npRound 6 (((j + 1 : ℕ) : ℝ) * l)) ?_ ?_
      · apply inj_of_lt
        intro i j hij
        exact chain_round hlen.le (by omega)
      · intro j hj
        have h1 := hlev (Pi.single i0 ((j + 1 : ℕ) : ℤ)) (by
          rw [latNorm_single]
          have := chain_round hlen.le (Nat.succ_pos j)
          simpa [npRound_zero] using this)
        rw [latNorm_single] at h1
        refine ⟨h1, npRound_mono ?_⟩
        have : ((j + 1 : ℕ) : ℝ) ≤ m := by exact_mod_cast (by omega : j + 1 ≤ m)
        exact mul_le_mul_of_nonneg_right this hl0.le
    · rw [min_eq_right hle]
      -- the norms of rank 1, ..., m
      obtain ⟨hMlt, hMe⟩ := List.getElem?_eq_some_iff.1 hM
      have hget : ∀ j, j < m → ∃ n : Fin d → ℤ, (∀ i, |n i| ≤ 2 * (m : ℤ) + 1) ∧
          P[j + 1]? = some (latNorm b n) := by
        intro j hj
        have hjl : j + 1 < P.length := by omega
        obtain ⟨n, h1, h2⟩ := (hPmem _).1 (List.getElem_mem hjl)
        exact ⟨n, h1, by rw [List.getElem?_eq_getElem hjl, h2]⟩
      have hlt : ∀ (i j : ℕ) (x y : ℝ), P[i]? = some x → P[j]? = some y → i < j → x < y := by
        intro i j x y hx hy hij
        obtain ⟨hi, rfl⟩ := List.getElem?_eq_some_iff.1 hx
        obtain ⟨hj, rfl⟩ := List.getElem?_eq_some_iff.1 hy
        exact List.pairwise_iff_getElem.1 hPsort i j hi hj hij
      refine le_encard_of_levels (fun j => npRound 6 ((P[j + 1]?).getD 0)) ?_ ?_
      · intro i j hi hj hij
        obtain ⟨n, h1, h2⟩ := hget i hi
        obtain ⟨n', h1', h2'⟩ := hget j hj
        simp only [h2, h2', Option.getD_some] at hij
        have := hres n n' (by rw [← hm1]; exact h1) (by rw [← hm1]; exact h1') hij
        rcases lt_trichotomy i j with h' | h' | h'
        · exact absurd this (hlt _ _ _ _ h2 h2' (by omega)).ne
        · exact h'
        · exact absurd this (hlt _ _ _ _ h2' h2 (by omega)).ne'
      · intro j hj
        obtain ⟨n, h1, h2⟩ := hget j hj
        simp only [h2, Option.getD_some]
        have h3 : latNorm b n ≤ M := by
          exact (hlt _ _ _ _ h2 hM (by omega)).le
        refine ⟨hlev n ?_, npRound_mono h3⟩
        have hP0 : ∃ x, P[0]? = some x := ⟨_, List.getElem?_eq_getElem (by omega)⟩
        obtain ⟨x, hx⟩ := hP0
        obtain ⟨n', h1', h2'⟩ := (hPmem x).1 (List.mem_of_getElem? hx)
        have h4 : x < latNorm b n := hlt _ _ _ _ hx h2 (by omega)
        rw [← h2'] at h4
        have h5 := hres' n' n h1' h1 h4
        refine lt_of_le_of_lt ?_ h5
        have : 0 ≤ latNorm b n' := by unfold latNorm; rw [norm2_eq_norm]; exact norm_nonneg _
        have := npRound_mono (n := 6) this
        rwa [npRound_zero] at this

/-! ### hypercubic lattices -/

/-- Rounding to 6 decimals separates the square roots of natural numbers up to `10^10`. -/
theorem sqrt_resolved {N N' : ℕ} (h : N' ≤ 10 ^ 10) (hlt : N < N') :
    npRound 6 (Real.sqrt N) < npRound 6 (Real.sqrt N') := by
  apply npRound_lt
  have h1 : Real.sqrt N' ≤ 10 ^ 5 := by
    rw [show (10 : ℝ) ^ 5 = Real.sqrt ((10 ^ 5) ^ 2) from (Real.sqrt_sq (by positivity)).symm]
    apply Real.sqrt_le_sqrt
    have : (N' : ℝ) ≤ ((10 ^ 10 : ℕ) : ℝ) := by exact_mod_cast h
    push_cast at this
    linarith
  have h2 : Real.sqrt N < Real.sqrt N' := Real.sqrt_lt_sqrt (by positivity) (by exact_mod_cast hlt)
  have h3 : Real.sqrt N ^ 2 = N := Real.sq_sqrt (by positivity)
  have h4 : Real.sqrt N' ^ 2 = N' := Real.sq_sqrt (by positivity)
  have h5 : (N : ℝ) + 1 ≤ N' := by exact_mod_cast hlt
  have h6 : 0 ≤ Real.sqrt N := Real.sqrt_nonneg _
  by_contra hn
  push Not at hn
  have h7 : Real.sqrt N' - Real.sqrt N ≤ 1 / 10 ^ 6 := by linarith
  have h8 : (Real.sqrt N' - Real.sqrt N) * (Real.sqrt N' + Real.sqrt N) ≤
      1 / 10 ^ 6 * (2 * 10 ^ 5) :=
    mul_le_mul h7 (by linarith) (by linarith) (by positivity)
  nlinarith

/-- C34 holds for the hypercubic lattices with lattice constant 1 and one atom, in every dimension
and for every number of shells `k` with `d (2k+1)² ≤ 10^10`. -/
theorem C34_hypercubic_partial (hd : 0 < d) {env : Env ℝ} {w : World d ℝ} (h : Reachable env w)
    {p : Vec d ℝ} (hp : w.struct.positions = [p]) {c : ConnMatrix} (hc : w.struct.conn = some c)
    (hbas : w.struct.basis.vectors = 1) (hk : d * (2 * c.entry 0 0 + 1) ^ 2 ≤ 10 ^ 10)
    {S' : Structure d ℝ} (hok : w.struct.analyze env = (S', .ok ())) :
    ∃ A, S'.analysis = some A ∧ ∀ (x : ℝ) (n : Fin d → ℤ),
      Listed A 0 x (Idx.mk n ((0 : ℕ) : ℤ)) ↔
        x = npRound 6 (Real.sqrt (∑ i, (n i : ℝ) ^ 2)) ∧
        IsShell w.struct 0 0 (c.entry 0 0) x := by
  have hnorm : ∀ n : Fin d → ℤ, latNorm w.struct.basis n = Real.sqrt (∑ i, (n i : ℝ) ^ 2) := by
    intro n
    unfold latNorm norm2
    rw [hasSqrt_real, hbas]
    congr 1
    refine Finset.sum_congr rfl fun k _ => ?_
    simp [Matrix.one_apply, sq]
  have hone : ∀ i, norm2 (w.struct.basis.vectors i) = 1 := by
    intro i
    have h1 := latNorm_single w.struct.basis i 1
    rw [hnorm] at h1
    simp only [Nat.cast_one, one_mul] at h1
    rw [← h1]
    rw [Finset.sum_eq_single i (by intro j _ hj; simp [hj]) (by simp)]
    simp
  have hnat : ∀ n : Fin d → ℤ, (∑ i, (n i : ℝ) ^ 2) = ((∑ i, (n i).natAbs ^ 2 : ℕ) : ℝ) := by
    intro n
    push_cast
    refine Finset.sum_congr rfl fun i _ => ?_
    rw [Nat.cast_natAbs, Int.cast_abs, sq_abs]
  have hbox : ∀ n : Fin d → ℤ, (∀ i, |n i| ≤ 2 * (c.entry 0 0 : ℤ) + 1) →
      (∑ i, (n i).natAbs ^ 2) ≤ 10 ^ 10 := by
    intro n hn
    refine le_trans ?_ hk
    calc (∑ i, (n i).natAbs ^ 2) ≤ ∑ _i : Fin d, (2 * c.entry 0 0 + 1) ^ 2 := by
          refine Finset.sum_le_sum fun i _ => Nat.pow_le_pow_left ?_ 2
          have := hn i
          rw [Int.abs_eq_natAbs] at this
          omega
      _ = _ := by simp
  obtain ⟨A, hA, hl⟩ := C34_one_atom_partial hd h hp hc ⟨0, hd⟩ (by rw [hone]; norm_num) (by
      intro n i
      rw [hone, hnorm, mul_one]
      have h1 : (n i : ℝ) ^ 2 ≤ ∑ i, (n i : ℝ) ^ 2 :=
        Finset.single_le_sum (f := fun i => (n i : ℝ) ^ 2) (fun j _ => sq_nonneg _)
          (Finset.mem_univ i)
      have h2 : |(n i : ℝ)| ≤ Real.sqrt (∑ i, (n i : ℝ) ^ 2) := by
        rw [← Real.sqrt_sq_eq_abs]; exact Real.sqrt_le_sqrt h1
      linarith [abs_nonneg (n i : ℝ)]) (by
      intro n n' hn hn' he
      rw [hnorm, hnorm, hnat, hnat] at he ⊢
      rcases lt_trichotomy (∑ i, (n i).natAbs ^ 2) (∑ i, (n' i).natAbs ^ 2) with h' | h' | h'
      · exact absurd he (sqrt_resolved (hbox n' hn') h').ne
      · rw [h']
      · exact absurd he (sqrt_resolved (hbox n hn) h').ne') hok
  refine ⟨A, hA, ?_⟩
  intro x n
  rw [hl, hnorm]

/-- Analysing again a structure that has been analysed succeeds. -/
theorem analyze_again (hd : 0 < d) {env : Env ℝ} {w : World d ℝ} (hr : Reachable env w)
    {c : ConnMatrix} (hc : w.struct.conn = some c) {i j : ℕ} (hi : i < c.size) (hj : j < c.size)
    (hne : c.entry i j ≠ 0) : ∃ S', w.struct.analyze env = (S', .ok ()) := by
  rcases analyze_cases hd env (hr.good hd) with ⟨-, h⟩ | ⟨c', hc', hz, -⟩ |
      ⟨c', -, -, A', -, -, -, -, -, h, -⟩
  · rw [hc] at h; cases h
  · rw [hc] at hc'
    cases hc'
    exact absurd (ConnMatrix.allZero_iff.1 hz i hi j hj) hne
  · exact ⟨_, h⟩

/-- The cubic lattice with five shells. -/
example (env : Env ℝ) : ∃ (w : World 3 ℝ) (c : ConnMatrix) (S' : Structure 3 ℝ), Reachable env w ∧
    w.struct.positions = [0] ∧ w.struct.conn = some c ∧ w.struct.basis.vectors = 1 ∧
    c.entry 0 0 = 5 ∧ 3 * (2 * c.entry 0 0 + 1) ^ 2 ≤ 10 ^ 10 ∧
    w.struct.analyze env = (S', .ok ()) := by
  obtain ⟨b, hb⟩ := (LatticeBasis.init_eq_ok_iff (1 : Matrix (Fin 3) (Fin 3) ℝ)).2 (by simp)
  obtain ⟨w, A, cells, c, hr, hbas, hp, hn, hat, hc, hcs, hce, -⟩ :=
    exists_structure (by norm_num) env hb [0] (by simp) (by simp) (nb := 5) (by norm_num)
  have he := hce 0 0 (by simp) (by simp)
  obtain ⟨S', hS'⟩ := analyze_again (by norm_num) hr hc (i := 0) (j := 0) (by rw [hcs]; simp)
    (by rw [hcs]; simp) (by rw [he]; norm_num)
  exact ⟨w, c, S', hr, hp, hc, by rw [hbas, LatticeBasis.init_vectors hb], he, by rw [he]; norm_num,
    hS'⟩

/-! ### the search window is too small -/

/-- If `k + 1` different elements of a sorted list are at most `B`, so is the element number `k`. -/
theorem getElem?_le_of_subset {P Q : List ℝ} (hP : P.Pairwise (· < ·)) {k : ℕ} {M B : ℝ}
    (hM : P[k]? = some M) (hQ : Q.Nodup) (hlen : k < Q.length) (hQP : ∀ q ∈ Q, q ∈ P ∧ q ≤ B) :
    M ≤ B := by
  by_contra hB
  push Not at hB
  obtain ⟨hk, hMk⟩ := List.getElem?_eq_some_iff.1 hM
  have hsub : Q ⊆ P.take k := by
    intro q hq
    obtain ⟨h1, h2⟩ := hQP q hq
    obtain ⟨i, hi, rfl⟩ := List.getElem_of_mem h1
    have hik : i < k := by
      by_contra hge
      push Not at hge
      rcases hge.lt_or_eq with h' | h'
      · have := List.pairwise_iff_getElem.1 hP k i hk hi h'
        linarith [hMk ▸ this]
      · subst h'
        linarith [hMk ▸ h2]
    exact List.mem_take_iff_getElem.2 ⟨i, by omega, rfl⟩
  have := (List.subperm_of_subset hQ hsub).length_le
  rw [List.length_take] at this
  omega

/-- The rows of the rectangular lattice with lattice constants 1 and 10. -/
noncomputable def rectRows : Matrix (Fin 2) (Fin 2) ℝ := !![1, 0; 0, 10]

theorem rect_dist (n : Fin 2 → ℤ) :
    distance (fun k => (![1 / 2, 5] : Vec 2 ℝ) k + ∑ i, (n i : ℝ) * rectRows i k) ![0, 0] =
      Real.sqrt ((1 / 2 + n 0) ^ 2 + (5 + 10 * n 1) ^ 2) := by
  unfold distance
  rw [hasSqrt_real]
  refine congrArg Real.sqrt ?_
  simp [Fin.sum_univ_two, rectRows]
  ring

theorem rect_norm {b : LatticeBasis 2 ℝ} (hv : b.vectors = rectRows) (n : Fin 2 → ℤ) :
    norm2 (b.translate n 0) = Real.sqrt ((n 0 : ℝ) ^ 2 + (10 * n 1) ^ 2) := by
  rw [latNorm_eq]
  unfold latNorm norm2
  rw [hasSqrt_real, hv]
  refine congrArg Real.sqrt ?_
  simp [Fin.sum_univ_two, rectRows]
  ring

theorem rect_norms {b : LatticeBasis 2 ℝ} (hv : b.vectors = rectRows) :
    npUnique b.norms = [1, 10] := by
  refine npUnique_eq (by norm_num) ?_
  intro x
  rw [LatticeBasis.mem_norms, hv]
  have e1 : norm2 (rectRows 0) = 1 := by
    unfold norm2; rw [hasSqrt_real]; simp [Fin.sum_univ_two, rectRows]
  have e2 : norm2 (rectRows 1) = 10 := by
    unfold norm2; rw [hasSqrt_real]
    simp only [Fin.sum_univ_two, rectRows]
    simp
  simp only [Fin.exists_fin_two, e1, e2, List.mem_cons, List.not_mem_nil, or_false]

theorem int_mul_succ_nonneg (z : ℤ) : (0 : ℝ) ≤ (z : ℝ) * (z + 1) := by
  have : (0 : ℤ) ≤ z * (z + 1) := by
    rcases le_or_gt 0 z with h | h
    · positivity
    · nlinarith
  exact_mod_cast this

/-- Rectangular lattice with lattice constants 1 and 10 and atoms at (0,0) and (1/2,5), all
connected to one shell: of the four sites of the second atom nearest to the first one (all at
distance √25.25), `(0,0)` is listed as a neighbour, but `(-1,-1)` is not, since the searched cells
reach only up to distance 10. -/
theorem C34_window_fails (env : Env ℝ) :
    ∃ (w : World 2 ℝ) (S' : Structure 2 ℝ) (A : Analysis 2 ℝ) (x : ℝ), Reachable env w ∧
      w.struct.basis.vectors = rectRows ∧ w.struct.positions = [![0, 0], ![1 / 2, 5]] ∧
      w.struct.analyze env = (S', .ok ()) ∧ S'.analysis = some A ∧
      IsShell w.struct 0 1 1 x ∧
      x = distance (fun k => (![1 / 2, 5] : Vec 2 ℝ) k +
        ∑ i, ((![-1, -1] : Fin 2 → ℤ) i : ℝ) * w.struct.basis.vectors i k) ![0, 0] (some 6) ∧
      Listed A 0 x (Idx.mk ![0, 0] 1) ∧ ∀ y, ¬ Listed A 0 y (Idx.mk ![-1, -1] 1) := by
  obtain ⟨b, hb⟩ := (LatticeBasis.init_eq_ok_iff rectRows).2 (by
    rw [rectRows, Matrix.det_fin_two_of]; norm_num)
  have hv := LatticeBasis.init_vectors hb
  obtain ⟨w, A0, cells0, c, hr, hbas, hp, hn, hat, hc, hcs, hce, -, -, -⟩ :=
    exists_structure (by norm_num) env hb [![0, 0], ![1 / 2, 5]] (by
      simp only [List.nodup_cons, List.mem_singleton, List.not_mem_nil, not_false_eq_true,
        List.nodup_nil, and_true]
      intro h
      have := congrFun h 0
      norm_num at this) (by simp) Nat.one_pos
  obtain ⟨S', hS'⟩ := analyze_again (by norm_num) hr hc (i := 0) (j := 0) (by rw [hcs]; simp)
    (by rw [hcs]; simp) (by rw [hce 0 0 (by simp) (by simp)]; norm_num)
  obtain ⟨c', cells, m, A, -, hc', hA, hm, hm0, hcells, hI, hG, hbas', hpos', hnum'⟩ :=
    call_analyze_ok (by norm_num) hr hS'
  rw [hc] at hc'
  cases hc'
  have hm1 : m = 1 := by
    have h1 : c.entries = [1, 1, 1, 1] := by
      simp [ConnMatrix.entries, hcs, List.range_succ, hce]
    unfold ConnMatrix.max? at hm
    rw [h1] at hm
    simpa using hm.symm
  subst hm1
  have hGw := hr.good (by norm_num)
  have hI' : IsAnalysis w.struct cells 1 c A := hI.congr hbas'.symm hpos'.symm hnum'.symm
  have hra : w.struct.positions[0]? = some ![0, 0] := by rw [hp]; rfl
  have hrb : w.struct.positions[1]? = some ![1 / 2, 5] := by rw [hp]; rfl
  have h0 : 0 < w.struct.numBase := by rw [hn]; simp
  have h1 : 1 < w.struct.numBase := by rw [hn]; simp
  have hdist : ∀ n : Fin 2 → ℤ, w.struct.siteDist 0 1 n =
      npRound 6 (Real.sqrt ((1 / 2 + n 0) ^ 2 + (5 + 10 * n 1) ^ 2)) := by
    intro n
    rw [siteDist_eq hra hrb, distance_some, hbas, hv, rect_dist]
  have hmin : ∀ n : Fin 2 → ℤ, npRound 6 (Real.sqrt (1 / 4 + 25)) ≤ w.struct.siteDist 0 1 n := by
    intro n
    rw [hdist]
    apply npRound_mono
    apply Real.sqrt_le_sqrt
    have e1 := int_mul_succ_nonneg (n 0)
    have e2 := int_mul_succ_nonneg (n 1)
    nlinarith
  have hx0 : w.struct.siteDist 0 1 ![0, 0] = npRound 6 (Real.sqrt (1 / 4 + 25)) := by
    rw [hdist]; norm_num
  have hx1 : w.struct.siteDist 0 1 ![-1, -1] = npRound 6 (Real.sqrt (1 / 4 + 25)) := by
    rw [hdist]; norm_num
  have hxpos : 0 < npRound 6 (Real.sqrt (1 / 4 + 25)) := by
    have h2 : (1 : ℝ) ≤ Real.sqrt (1 / 4 + 25) := by
      rw [show (1 : ℝ) = Real.sqrt 1 by simp]
      exact Real.sqrt_le_sqrt (by norm_num)
    have := npRound_lt (n := 6) (x := 0) (y := Real.sqrt (1 / 4 + 25)) (by norm_num at h2 ⊢; linarith)
    rwa [npRound_zero] at this
  -- the searched cells
  obtain ⟨M, hM, -, hz0, hmem⟩ := LatticeBasis.neighborCells_spec _ _ _ _ _ hcells
  rw [hbas', hbas] at hM hmem
  have hnorm := rect_norm hv
  have hnorms := rect_norms hv
  have hM10 : M ≤ 10 := by
    rw [hnorms] at hM
    refine getElem?_le_of_subset (Q := [0, 1, 2, 3, 10]) (npUnique_pairwise_lt _) hM ?_ ?_ ?_
    · norm_num
    · simp
    · intro q hq
      have key : ∀ (n : Fin 2 → ℤ) (z : ℝ), (∀ k, |n k| ≤ 3) → 0 ≤ z →
          ((n 0 : ℝ) ^ 2 + (10 * n 1) ^ 2) = z ^ 2 →
          z ∈ npUnique ((LatticeBasis.factors 2 (2 * 1)).map fun n => norm2 (b.translate n 0)) := by
        intro n z hn hz hzz
        rw [mem_npUnique, List.mem_map]
        refine ⟨n, (LatticeBasis.mem_factors _ _ _).2 (by intro k; have := hn k; push_cast; omega), ?_⟩
        rw [hnorm, hzz, Real.sqrt_sq hz]
      simp only [List.mem_cons, List.not_mem_nil, or_false] at hq
      rcases hq with rfl | rfl | rfl | rfl | rfl
      · exact ⟨key ![0, 0] 0 (by decide) (by norm_num) (by norm_num), by norm_num⟩
      · exact ⟨key ![1, 0] 1 (by decide) (by norm_num) (by norm_num), by norm_num⟩
      · exact ⟨key ![2, 0] 2 (by decide) (by norm_num) (by norm_num), by norm_num⟩
      · exact ⟨key ![3, 0] 3 (by decide) (by norm_num) (by norm_num), by norm_num⟩
      · exact ⟨key ![0, 1] 10 (by decide) (by norm_num) (by norm_num), by norm_num⟩
  have hnot : (![-1, -1] : Fin 2 → ℤ) ∉ cells := by
    rw [hmem _ (by intro h; have := congrFun h 0; simp at this)]
    rintro ⟨-, h⟩
    rw [decide_eq_true_eq, hnorm] at h
    have h2 : (10 : ℝ) < Real.sqrt (((![-1, -1] : Fin 2 → ℤ) 0 : ℝ) ^ 2 +
        (10 * ((![-1, -1] : Fin 2 → ℤ) 1 : ℤ)) ^ 2) := by
      apply Real.lt_sqrt_of_sq_lt
      norm_num
    linarith
  have h00 : (![0, 0] : Fin 2 → ℤ) ∈ cells := by
    have : (![0, 0] : Fin 2 → ℤ) = 0 := by decide
    rw [this]; exact hz0.2 rfl
  have hIsLevel := isLevel_iff hGw h0 h1
  refine ⟨w, S', A, npRound 6 (Real.sqrt (1 / 4 + 25)), hr, by rw [hbas, hv], hp, hS', hA,
    ⟨(hIsLevel _).2 ⟨hxpos, ![0, 0], hx0.symm⟩, ?_⟩, ?_, ?_, ?_⟩
  · have : {y | IsLevel w.struct 0 1 y ∧ y < npRound 6 (Real.sqrt (1 / 4 + 25))} = ∅ := by
      ext y
      simp only [Set.mem_empty_iff_false, iff_false]
      rintro ⟨hy, hlt⟩
      obtain ⟨-, n, rfl⟩ := (hIsLevel y).1 hy
      exact absurd (hmin n) (not_le.2 hlt)
    rw [this]
    simp
  · rw [← siteDist_eq hra hrb, hx1]
  · refine (listed_iff hI' _ _ _).2 ⟨h0, 1, h1, ![0, 0], h00, rfl, hx0.symm, ?_⟩
    rw [hce 0 1 (by simp) (by simp)]
    refine (mem_take_sorted (npUnique_pairwise_lt _) _ _).2 ⟨mem_levels.2 ⟨hxpos, _, h00, hx0.symm⟩, ?_⟩
    rw [List.filter_eq_nil_iff.2]
    · simp
    · intro y hy
      obtain ⟨-, n, -, rfl⟩ := mem_levels.1 hy
      simpa using hmin n
  · intro y hy
    obtain ⟨-, b', -, n, hn, e, -⟩ := (listed_iff hI' _ _ _).1 hy
    rw [Idx.mk_inj] at e
    rw [← e.1] at hn
    exact hnot hn

/-! ## C39 -/

/-- C39 for chains with a lattice constant of at least `1e-6`: atom 0 has exactly the neighbours
`±1, ..., ±nb`, at the rounded distances `j a`. -/
theorem C39_chain_partial {env : Env ℝ} {w : World 1 ℝ} (h : Reachable env w) {a p : ℝ}
    (ha : 1 / 10 ^ 6 ≤ a) (hb : w.struct.basis = chainBasis a)
    (hp : w.struct.positions = [fun _ => p]) {c : ConnMatrix} (hc : w.struct.conn = some c)
    {S' : Structure 1 ℝ} (hok : w.struct.analyze env = (S', .ok ())) :
    ∃ A, S'.analysis = some A ∧ ∀ (x : ℝ) (idx : Idx 1), Listed A 0 x idx ↔
      ∃ j : ℕ, 1 ≤ j ∧ j ≤ c.entry 0 0 ∧ x = npRound 6 ((j : ℝ) * a) ∧
        (idx = Idx.mk (fun _ => (j : ℤ)) 0 ∨ idx = Idx.mk (fun _ => -(j : ℤ)) 0) := by
  have ha0 : 0 < a := lt_of_lt_of_le (by positivity) ha
  obtain ⟨c', cells, m, A, -, hc', hA, hm, hm0, hcells, hI, hG, hbas', hpos', hnum'⟩ :=
    call_analyze_ok Nat.one_pos h hok
  rw [hc] at hc'
  cases hc'
  have hn : S'.numBase = 1 := by rw [← hG.positions_length, hpos', hp]; rfl
  have hsz : c.size = 1 := by
    rw [((h.good Nat.one_pos).conn_size c hc).1, ← hnum', hn]
  have hm1 : m = c.entry 0 0 := by
    have : c.entries = [c.entry 0 0] := by simp [ConnMatrix.entries, hsz]
    unfold ConnMatrix.max? at hm
    rw [this] at hm
    simpa using hm.symm
  rw [hbas', hb] at hcells
  have hcm := (chain_cells ha0 _ cells hcells).2
  obtain ⟨D, hD, -, -, hpairs⟩ := chain_base ha (hbas'.trans hb) (hpos'.trans hp) hn rfl
    (fun n => by rw [hcm n, hm1]; push_cast; rfl) hI
  refine ⟨A, hA, ?_⟩
  intro x idx
  rw [← hpairs]
  constructor
  · rintro ⟨D', xs, h1, h2, h3⟩
    rw [hD] at h1
    cases h1
    exact NDict.mem_pairs.2 ⟨xs, h2, h3⟩
  · intro h1
    obtain ⟨xs, h2, h3⟩ := NDict.mem_pairs.1 h1
    exact ⟨D, xs, by rw [hD]; rfl, h2, h3⟩

example (env : Env ℝ) : ∃ (w : World 1 ℝ) (c : ConnMatrix) (S' : Structure 1 ℝ), Reachable env w ∧
    w.struct.basis = chainBasis (1 / 1000) ∧ w.struct.positions = [fun _ => 0] ∧
    w.struct.conn = some c ∧ c.entry 0 0 = 2 ∧ w.struct.analyze env = (S', .ok ()) := by
  obtain ⟨w, A, cells, c, hr, hb, hp, hn, -, hc, hcs, hce, -⟩ :=
    exists_chain env (a := 1 / 1000) (by norm_num) 0 (nb := 2) (by norm_num)
  obtain ⟨S', hS'⟩ := analyze_again Nat.one_pos hr hc (i := 0) (j := 0) (by omega) (by omega)
    (by rw [hce]; norm_num)
  exact ⟨w, c, S', hr, hb, hp, hc, hce, hS'⟩

/-- A chain with lattice constant `1e-7` and nearest neighbours: `analyze` succeeds and finds no
neighbours at all, since all distances are rounded to 0. -/
theorem C39_small_fails (env : Env ℝ) :
    ∃ (w : World 1 ℝ) (c : ConnMatrix) (S' : Structure 1 ℝ) (A : Analysis 1 ℝ), Reachable env w ∧
      w.struct.basis = chainBasis (1 / 10 ^ 7) ∧ w.struct.positions = [fun _ => 0] ∧
      w.struct.conn = some c ∧ c.entry 0 0 = 1 ∧ w.struct.analyze env = (S', .ok ()) ∧
      S'.analysis = some A ∧ A.numNeighbors = [0] ∧ ∀ a x idx, ¬ Listed A a x idx := by
  have ha : (0 : ℝ) < 1 / 10 ^ 7 := by norm_num
  obtain ⟨w, A0, cells0, c, hr, hb, hp, hn, -, hc, hcs, hce, -⟩ :=
    exists_chain env ha 0 (nb := 1) Nat.one_pos
  obtain ⟨S', hS'⟩ := analyze_again Nat.one_pos hr hc (i := 0) (j := 0) (by omega) (by omega)
    (by rw [hce]; norm_num)
  obtain ⟨c', cells, m, A, -, hc', hA, hm, hm0, hcells, hI, hG, hbas', hpos', hnum'⟩ :=
    call_analyze_ok Nat.one_pos hr hS'
  rw [hc] at hc'
  cases hc'
  have hm1 : m = 1 := by
    have : c.entries = [c.entry 0 0] := by simp [ConnMatrix.entries, hcs]
    unfold ConnMatrix.max? at hm
    rw [this, hce] at hm
    simpa using hm.symm
  subst hm1
  rw [hbas', hb] at hcells
  have hcm := (chain_cells ha _ cells hcells).2
  have hno : ∀ a x idx, ¬ Listed A a x idx := by
    intro a x idx hl
    obtain ⟨h1, b, h2, n, hn', -, hx, hlev⟩ := (listed_iff hI a x idx).1 hl
    have hpos := (mem_levels.1 (List.mem_of_mem_take hlev)).1
    rw [hnum', hn] at h1 h2
    have e1 : a = 0 := by omega
    have e2 : b = 0 := by omega
    subst e1 e2
    rw [hcm, Int.abs_eq_natAbs] at hn'
    rw [hx, chain_siteDist ha (hbas'.trans hb) (hpos'.trans hp)] at hpos
    have h3 : ((n 0).natAbs : ℝ) ≤ 3 := by exact_mod_cast (by omega : (n 0).natAbs ≤ 3)
    have h4 : npRound 6 (((n 0).natAbs : ℝ) * (1 / 10 ^ 7)) ≤ npRound 6 (3 / 10 ^ 7) :=
      npRound_mono (by linarith)
    have h5 : npRound 6 ((3 : ℝ) / 10 ^ 7) = 0 := by
      unfold npRound
      have : rint ((3 : ℝ) / 10 ^ 7 * 10 ^ 6) = 0 := by
        have h6 := abs_le.1 (abs_rint_sub_le ((3 : ℝ) / 10 ^ 7 * 10 ^ 6))
        have h7 : (rint ((3 : ℝ) / 10 ^ 7 * 10 ^ 6) : ℝ) < 1 := by
          have := h6.2; norm_num at this ⊢; linarith
        have h8 : (-1 : ℝ) < (rint ((3 : ℝ) / 10 ^ 7 * 10 ^ 6) : ℝ) := by
          have := h6.1; norm_num at this ⊢; linarith
        have h9 : rint ((3 : ℝ) / 10 ^ 7 * 10 ^ 6) < 1 := by exact_mod_cast h7
        have h10 : -1 < rint ((3 : ℝ) / 10 ^ 7 * 10 ^ 6) := by exact_mod_cast h8
        omega
      rw [this]
      simp
    linarith
  refine ⟨w, c, S', A, hr, hb, hp, hc, hce, hS', hA, ?_, hno⟩
  have hlen := hI.base_length
  rw [hnum', hn] at hlen
  obtain ⟨D, hD⟩ := List.length_eq_one_iff.1 hlen
  rw [hI.numNeighbors, hD]
  have : D.pairs = [] := by
    rw [List.eq_nil_iff_forall_not_mem]
    rintro ⟨x, idx⟩ h1
    obtain ⟨xs, h2, h3⟩ := NDict.mem_pairs.1 h1
    exact hno 0 x idx ⟨D, xs, by rw [hD]; rfl, h2, h3⟩
  simp [this, wrapSigned]

/-! ### scaling -/

theorem card_image_le_of_eq {ι : Type*} (F : Finset ι) (f g : ι → ℝ)
    (h : ∀ n ∈ F, ∀ n' ∈ F, g n = g n' → f n = f n') :
    (F.image f).card ≤ (F.image g).card := by
  classical
  set φ : ℝ → ℝ := fun y => if hy : ∃ n ∈ F, g n = y then f hy.choose else 0 with hφ
  have : F.image f ⊆ (F.image g).image φ := by
    intro x hx
    obtain ⟨n, hn, rfl⟩ := Finset.mem_image.1 hx
    refine Finset.mem_image.2 ⟨g n, Finset.mem_image_of_mem g hn, ?_⟩
    have hy : ∃ n' ∈ F, g n' = g n := ⟨n, hn, rfl⟩
    rw [hφ]
    dsimp only
    rw [dif_pos hy]
    exact h _ hy.choose_spec.1 _ hn hy.choose_spec.2
  exact (Finset.card_le_card this).trans Finset.card_image_le

/-- Which values belong to the `k` smallest positive ones depends only on their order. -/
theorem mem_take_congr {ι : Type*} [DecidableEq ι] (cells : List ι) (f g : ι → ℝ)
    (hf : ∀ n ∈ cells, 0 ≤ f n) (hg : ∀ n ∈ cells, 0 ≤ g n)
    (hz : ∀ n ∈ cells, f n = 0 ↔ g n = 0)
    (hlt : ∀ n ∈ cells, ∀ n' ∈ cells, f n < f n' ↔ g n < g n') (k : ℕ) {n : ι} (hn : n ∈ cells) :
    f n ∈ (npUnique ((cells.map f).filter fun x => decide (x ≠ 0))).take k ↔
      g n ∈ (npUnique ((cells.map g).filter fun x => decide (x ≠ 0))).take k := by
  have key : ∀ (f : ι → ℝ), (∀ n ∈ cells, 0 ≤ f n) →
      (f n ∈ (npUnique ((cells.map f).filter fun x => decide (x ≠ 0))).take k ↔ f n ≠ 0 ∧
        (((cells.toFinset.filter fun i => f i ≠ 0 ∧ f i < f n).image f).card < k)) := by
    intro f hf
    rw [mem_take_sorted (npUnique_pairwise_lt _), mem_npUnique, List.mem_filter, List.mem_map]
    have hc : ((npUnique ((cells.map f).filter fun x => decide (x ≠ 0))).filter
        fun y => decide (y < f n)).length =
        ((cells.toFinset.filter fun i => f i ≠ 0 ∧ f i < f n).image f).card := by
      rw [← List.toFinset_card_of_nodup ((npUnique_nodup _).filter _)]
      congr 1
      ext y
      simp only [List.mem_toFinset, List.mem_filter, mem_npUnique, List.mem_map,
        decide_eq_true_eq, Finset.mem_image, Finset.mem_filter]
      constructor
      · rintro ⟨⟨⟨i, hi, rfl⟩, h1⟩, h2⟩; exact ⟨i, ⟨hi, h1, h2⟩, rfl⟩
      · rintro ⟨i, ⟨hi, h1, h2⟩, rfl⟩; exact ⟨⟨⟨i, hi, rfl⟩, h1⟩, h2⟩
    rw [hc, decide_eq_true_eq]
    constructor
    · rintro ⟨⟨-, h1⟩, h2⟩; exact ⟨h1, h2⟩
    · rintro ⟨h1, h2⟩; exact ⟨⟨⟨n, hn, rfl⟩, h1⟩, h2⟩
  rw [key f hf, key g hg, ne_eq, ne_eq, hz n hn]
  have hF : (cells.toFinset.filter fun i => f i ≠ 0 ∧ f i < f n) =
      cells.toFinset.filter fun i => g i ≠ 0 ∧ g i < g n := by
    ext i
    simp only [Finset.mem_filter, List.mem_toFinset]
    constructor
    · rintro ⟨h1, h2, h3⟩
      exact ⟨h1, fun h => h2 ((hz i h1).2 h), (hlt i h1 n hn).1 h3⟩
    · rintro ⟨h1, h2, h3⟩
      exact ⟨h1, fun h => h2 ((hz i h1).1 h), (hlt i h1 n hn).2 h3⟩
  have heq : ∀ i ∈ cells, ∀ j ∈ cells, f i = f j ↔ g i = g j := by
    intro i hi j hj
    have h1 := hlt i hi j hj
    have h2 := hlt j hj i hi
    constructor
    · intro h
      exact le_antisymm (not_lt.1 fun h' => absurd (h2.2 h') (by rw [h]; exact lt_irrefl _))
        (not_lt.1 fun h' => absurd (h1.2 h') (by rw [h]; exact lt_irrefl _))
    · intro h
      exact le_antisymm (not_lt.1 fun h' => absurd (h2.1 h') (by rw [h]; exact lt_irrefl _))
        (not_lt.1 fun h' => absurd (h1.1 h') (by rw [h]; exact lt_irrefl _))
  have hcard : ((cells.toFinset.filter fun i => g i ≠ 0 ∧ g i < g n).image f).card =
      ((cells.toFinset.filter fun i => g i ≠ 0 ∧ g i < g n).image g).card := by
    have hin : ∀ i ∈ (cells.toFinset.filter fun i => g i ≠ 0 ∧ g i < g n), i ∈ cells := by
      intro i hi
      exact List.mem_toFinset.1 (Finset.mem_filter.1 hi).1
    refine le_antisymm (card_image_le_of_eq _ _ _ ?_) (card_image_le_of_eq _ _ _ ?_)
    · intro i hi j hj h; exact (heq i (hin i hi) j (hin j hj)).2 h
    · intro i hi j hj h; exact (heq i (hin i hi) j (hin j hj)).1 h
  rw [hF, hcard]

theorem npUnique_map_mul {s : ℝ} (hs : 0 < s) (l : List ℝ) :
    npUnique (l.map (s * ·)) = (npUnique l).map (s * ·) := by
  refine npUnique_eq ?_ ?_
  · rw [List.pairwise_map]
    exact (npUnique_pairwise_lt l).imp fun h => mul_lt_mul_of_pos_left h hs
  · intro x
    simp only [List.mem_map, mem_npUnique]

/-- Scaling the basis vectors does not change the searched cells. -/
theorem cells_scale {b b' : LatticeBasis d ℝ} {s : ℝ} (hs : 0 < s)
    (hb : ∀ i k, b'.vectors i k = s * b.vectors i k) {D : ℕ} {cells cells' : List (Fin d → ℤ)}
    (h : b.getNeighborCells D true (fun x y => decide (x ≤ y)) = .ok cells)
    (h' : b'.getNeighborCells D true (fun x y => decide (x ≤ y)) = .ok cells') (n : Fin d → ℤ) :
    n ∈ cells' ↔ n ∈ cells := by
  have hn : ∀ n, latNorm b' n = s * latNorm b n := by
    intro n
    unfold latNorm
    rw [show s * norm2 (fun k => ∑ i, (n i : ℝ) * b.vectors i k) =
      |s| * norm2 (fun k => ∑ i, (n i : ℝ) * b.vectors i k) by rw [abs_of_pos hs],
      ← LatticeBasis.norm2_smul]
    congr 1
    funext k
    rw [Finset.mul_sum]
    refine Finset.sum_congr rfl fun i _ => ?_
    rw [hb]; ring
  have hnorms : b'.norms = b.norms.map (s * ·) := by
    unfold LatticeBasis.norms
    rw [List.map_map]
    refine List.map_congr_left fun i _ => ?_
    have h1 : b'.vectors i = fun k => s * b.vectors i k := funext (hb i)
    simp only [Function.comp]
    rw [h1, LatticeBasis.norm2_smul, abs_of_pos hs]
  obtain ⟨M, hM, -, hz, hmem⟩ := LatticeBasis.neighborCells_spec _ _ _ _ _ h
  obtain ⟨M', hM', -, hz', hmem'⟩ := LatticeBasis.neighborCells_spec _ _ _ _ _ h'
  have hMM : M' = s * M := by
    simp only [latNorm_eq, hn] at hM'
    simp only [latNorm_eq] at hM
    rw [hnorms, npUnique_map_mul hs, List.length_map] at hM'
    have : (LatticeBasis.factors d D).map (fun n => s * latNorm b n) =
        ((LatticeBasis.factors d D).map fun n => latNorm b n).map (s * ·) := by
      rw [List.map_map]; rfl
    rw [this, npUnique_map_mul hs, List.getElem?_map, hM] at hM'
    simpa using hM'.symm
  by_cases h0 : n = 0
  · subst h0; rw [hz, hz']
  · rw [hmem n h0, hmem' n h0]
    simp only [latNorm_eq, hn, hMM, decide_eq_true_eq, mul_le_mul_iff_right₀ hs]

/-- C39: let all lengths of a structure be scaled by `s`.  If rounding to 6 decimals keeps the order
of the distances within the searched box of cells at both scales (`hord`), the same sites are
listed as neighbours, and their distances are scaled up to the rounding. -/
theorem C39_scaling_partial (hd : 0 < d) {env : Env ℝ} {w w' : World d ℝ} (h : Reachable env w)
    (h' : Reachable env w') {s : ℝ} (hs : 0 < s)
    (hb : ∀ i k, w'.struct.basis.vectors i k = s * w.struct.basis.vectors i k)
    (hp : w'.struct.positions = w.struct.positions.map fun r k => s * r k)
    {c c' : ConnMatrix} {m : ℕ} (hc : w.struct.conn = some c) (hc' : w'.struct.conn = some c')
    (hsz : c'.size = c.size) (hent : ∀ i < c.size, ∀ j < c.size, c'.entry i j = c.entry i j)
    (hm : c.max? = .ok m)
    (hord : ∀ t, t = 1 ∨ t = s → ∀ ra ∈ w.struct.positions, ∀ rb ∈ w.struct.positions,
      ∀ n n' : Fin d → ℤ, (∀ i, |n i| ≤ 2 * (m : ℤ) + 1) → (∀ i, |n' i| ≤ 2 * (m : ℤ) + 1) →
      ∀ D D', D = distance (fun k => rb k + ∑ i, (n i : ℝ) * w.struct.basis.vectors i k) ra →
      (D' = distance (fun k => rb k + ∑ i, (n' i : ℝ) * w.struct.basis.vectors i k) ra ∨ D' = 0) →
      (D < D' ↔ npRound 6 (t * D) < npRound 6 (t * D')) ∧
      (D' < D ↔ npRound 6 (t * D') < npRound 6 (t * D)))
    {S S' : Structure d ℝ} (hok : w.struct.analyze env = (S, .ok ()))
    (hok' : w'.struct.analyze env = (S', .ok ())) :
    ∃ A A', S.analysis = some A ∧ S'.analysis = some A' ∧ ∀ (a : ℕ) (idx : Idx d),
      ((∃ x, Listed A a x idx) ↔ ∃ x, Listed A' a x idx) ∧
      ∀ x x', Listed A a x idx → Listed A' a x' idx → |x' - s * x| ≤ (1 + s) / 2 / 10 ^ 6 := by
  obtain ⟨c1, cells, m1, A, -, hc1, hA, hm1, -, hcells, hI, hG, hbas, hpos, hnum⟩ :=
    call_analyze_ok hd h hok
  obtain ⟨c2, cells', m2, A', -, hc2, hA', hm2, -, hcells', hI', hG', hbas', hpos', hnum'⟩ :=
    call_analyze_ok hd h' hok'
  rw [hc] at hc1
  cases hc1
  rw [hc'] at hc2
  cases hc2
  have hentries : c'.entries = c.entries := by
    unfold ConnMatrix.entries
    rw [hsz]
    refine List.flatMap_congr fun i hi => List.map_congr_left fun j hj => ?_
    exact hent i (List.mem_range.1 hi) j (List.mem_range.1 hj)
  have hmm : c'.max? = c.max? := by unfold ConnMatrix.max?; rw [hentries]
  rw [hmm] at hm2
  rw [hm] at hm1 hm2
  cases hm1
  cases hm2
  rw [hbas] at hcells
  rw [hbas'] at hcells'
  have hcc := cells_scale hs hb hcells hcells'
  have hGw := h.good hd
  have hGw' := h'.good hd
  have hnn : S'.numBase = S.numBase := by
    rw [← hG'.positions_length, ← hG.positions_length, hpos', hpos, hp, List.length_map]
  have hbox : ∀ n ∈ cells, ∀ i, |n i| ≤ 2 * (m : ℤ) + 1 := by
    intro n hn i
    obtain ⟨M, -, -, -, hmem⟩ := LatticeBasis.neighborCells_spec _ _ _ _ _ hcells
    by_cases h0 : n = 0
    · subst h0; simp; omega
    · have := ((hmem n h0).1 hn).1 i
      push_cast at this
      exact this
  -- raw distances
  set raw : ℕ → ℕ → (Fin d → ℤ) → ℝ := fun a b n =>
    distance (fun k => S.posOf b k + ∑ i, (n i : ℝ) * w.struct.basis.vectors i k) (S.posOf a)
    with hraw
  have hpo : ∀ a < S.numBase, w.struct.positions[a]? = some (S.posOf a) := by
    intro a ha; rw [← hpos]; exact exists_pos hG ha
  have hpo' : ∀ a < S.numBase, S'.positions[a]? = some fun k => s * S.posOf a k := by
    intro a ha
    rw [hpos', hp, List.getElem?_map, hpo a ha]; rfl
  have hd1 : ∀ a b, a < S.numBase → b < S.numBase → ∀ n, S.siteDist a b n = npRound 6 (raw a b n) := by
    intro a b ha hb' n
    rw [siteDist_eq (exists_pos hG ha) (exists_pos hG hb'), distance_some, hbas]
  have hd2 : ∀ a b, a < S.numBase → b < S.numBase → ∀ n,
      S'.siteDist a b n = npRound 6 (s * raw a b n) := by
    intro a b ha hb' n
    rw [siteDist_eq (hpo' a ha) (hpo' b hb'), distance_some, hbas']
    congr 1
    rw [hraw]
    dsimp only
    have hsm : ∀ x y : Vec d ℝ, distance (fun k => s * x k) (fun k => s * y k) = s * distance x y := by
      intro x y
      unfold distance
      simp only [hasSqrt_real]
      rw [show s * Real.sqrt (∑ k, (x k - y k) * (x k - y k)) =
        Real.sqrt (s ^ 2) * Real.sqrt (∑ k, (x k - y k) * (x k - y k)) by rw [Real.sqrt_sq hs.le],
        ← Real.sqrt_mul (by positivity), Finset.mul_sum]
      congr 1
      refine Finset.sum_congr rfl fun k _ => ?_
      ring
    rw [← hsm]
    congr 1
    funext k
    rw [mul_add, Finset.mul_sum]
    congr 1
    refine Finset.sum_congr rfl fun i _ => ?_
    rw [hb]; ring
  have hord' : ∀ a b, a < S.numBase → b < S.numBase → ∀ t, t = 1 ∨ t = s →
      (∀ n ∈ cells, ∀ n' ∈ cells, raw a b n < raw a b n' ↔
        npRound 6 (t * raw a b n) < npRound 6 (t * raw a b n')) ∧
      (∀ n ∈ cells, 0 < raw a b n ↔ 0 < npRound 6 (t * raw a b n)) := by
    intro a b ha hb' t ht
    have hra := List.mem_of_getElem? (hpo a ha)
    have hrb := List.mem_of_getElem? (hpo b hb')
    constructor
    · intro n hn n' hn'
      exact (hord t ht _ hra _ hrb n n' (hbox n hn) (hbox n' hn') _ _ rfl (Or.inl rfl)).1
    · intro n hn
      have := (hord t ht _ hra _ hrb n n (hbox n hn) (hbox n hn) _ 0 rfl (Or.inr rfl)).2
      rwa [mul_zero, npRound_zero] at this
  have hnn0 : ∀ a b n, 0 ≤ raw a b n := fun a b n => distance_nonneg _ _
  refine ⟨A, A', hA, hA', ?_⟩
  intro a idx
  constructor
  · have key : ∀ b, a < S.numBase → b < S.numBase → ∀ n ∈ cells,
        (S.siteDist a b n ∈ (S.levels cells a b).take (c.entry a b) ↔
          S'.siteDist a b n ∈ (S'.levels cells' a b).take (c'.entry a b)) := by
      intro b ha hb' n hn
      have hcs := (hGw.conn_size c hc).1
      rw [hent a (by omega) b (by omega)]
      have hL : S'.levels cells' a b = S'.levels cells a b := by
        refine eq_of_pairwise_lt (npUnique_pairwise_lt _) (npUnique_pairwise_lt _) ?_
        intro x
        have h1 := mem_levels (S := S') (cells := cells') (a := a) (b := b) (x := x)
        have h2 := mem_levels (S := S') (cells := cells) (a := a) (b := b) (x := x)
        rw [h1, h2]
        simp only [hcc]
      rw [hL]
      obtain ⟨o1, o2⟩ := hord' a b ha hb' 1 (Or.inl rfl)
      obtain ⟨o3, o4⟩ := hord' a b ha hb' s (Or.inr rfl)
      simp only [one_mul] at o1 o2
      unfold levels
      refine mem_take_congr cells _ _ (fun n _ => siteDist_nonneg _ _ _ _)
        (fun n _ => siteDist_nonneg _ _ _ _) ?_ ?_ _ hn
      · intro n hn
        have e1 := siteDist_nonneg S a b n
        have e2 := siteDist_nonneg S' a b n
        have e3 : 0 < S.siteDist a b n ↔ 0 < S'.siteDist a b n := by
          rw [hd1 a b ha hb', hd2 a b ha hb', ← o2 n hn, ← o4 n hn]
        constructor
        · intro e; exact le_antisymm (not_lt.1 fun e' => absurd (e3.2 e') (by rw [e]; exact lt_irrefl _)) e2
        · intro e; exact le_antisymm (not_lt.1 fun e' => absurd (e3.1 e') (by rw [e]; exact lt_irrefl _)) e1
      · intro n hn n' hn'
        rw [hd1 a b ha hb', hd1 a b ha hb', hd2 a b ha hb', hd2 a b ha hb', ← o1 n hn n' hn',
          ← o3 n hn n' hn']
    constructor
    · rintro ⟨x, hl⟩
      obtain ⟨ha, b, hb', n, hn, e, hx, hlev⟩ := (listed_iff hI _ _ _).1 hl
      rw [hx] at hlev
      exact ⟨_, (listed_iff hI' _ _ _).2 ⟨by omega, b, by omega, n, (hcc n).2 hn, e, rfl,
        (key b ha hb' n hn).1 hlev⟩⟩
    · rintro ⟨x, hl⟩
      obtain ⟨ha, b, hb', n, hn, e, hx, hlev⟩ := (listed_iff hI' _ _ _).1 hl
      rw [hx] at hlev
      rw [hnn] at ha hb'
      have hn2 := (hcc n).1 hn
      exact ⟨_, (listed_iff hI _ _ _).2 ⟨ha, b, hb', n, hn2, e, rfl, (key b ha hb' n hn2).2 hlev⟩⟩
  · intro x x' hl hl'
    obtain ⟨ha, b, hb', n, hn, e, hx, -⟩ := (listed_iff hI _ _ _).1 hl
    obtain ⟨-, b2, -, n2, -, e', hx', -⟩ := (listed_iff hI' _ _ _).1 hl'
    rw [e, Idx.mk_inj] at e'
    obtain ⟨rfl, e'⟩ := e'
    have : b = b2 := by exact_mod_cast e'
    subst this
    rw [hx, hx', hd1 a b ha hb', hd2 a b ha hb']
    have e1 := abs_le.1 (abs_npRound_sub_le 6 (raw a b n))
    have e2 := abs_le.1 (abs_npRound_sub_le 6 (s * raw a b n))
    rw [abs_le]
    have e3 : (1 + s) / 2 / 10 ^ 6 = 1 / 2 / 10 ^ 6 + s * (1 / 2 / 10 ^ 6) := by ring
    have e4 := mul_le_mul_of_nonneg_left e1.1 hs.le
    have e5 := mul_le_mul_of_nonneg_left e1.2 hs.le
    constructor
    · linarith [e2.1, e2.2]
    · linarith [e2.1, e2.2]

/-- The chains with lattice constants 1 and 3 meet the hypotheses of `C39_scaling_partial`. -/
example (env : Env ℝ) : ∃ (w w' : World 1 ℝ) (c c' : ConnMatrix), Reachable env w ∧ Reachable env w' ∧
    (∀ i k, w'.struct.basis.vectors i k = 3 * w.struct.basis.vectors i k) ∧
    w'.struct.positions = (w.struct.positions.map fun r k => 3 * r k) ∧
    w.struct.conn = some c ∧ w'.struct.conn = some c' ∧ c'.size = c.size ∧
    (∀ i < c.size, ∀ j < c.size, c'.entry i j = c.entry i j) ∧ c.max? = .ok 2 ∧
    (∀ t : ℝ, t = 1 ∨ t = 3 → ∀ ra ∈ w.struct.positions, ∀ rb ∈ w.struct.positions,
      ∀ n n' : Fin 1 → ℤ, ∀ D D' : ℝ,
      D = distance (fun k => rb k + ∑ i, (n i : ℝ) * w.struct.basis.vectors i k) ra →
      (D' = distance (fun k => rb k + ∑ i, (n' i : ℝ) * w.struct.basis.vectors i k) ra ∨ D' = 0) →
      (D < D' ↔ npRound 6 (t * D) < npRound 6 (t * D')) ∧
      (D' < D ↔ npRound 6 (t * D') < npRound 6 (t * D))) := by
  obtain ⟨w, A, cells, c, hr, hb, hp, hn, -, hc, hcs, hce, -⟩ :=
    exists_chain env (a := 1) one_pos 0 (nb := 2) (by norm_num)
  obtain ⟨w', A', cells', c', hr', hb', hp', hn', -, hc', hcs', hce', -⟩ :=
    exists_chain env (a := 3) (by norm_num) 0 (nb := 2) (by norm_num)
  refine ⟨w, w', c, c', hr, hr', ?_, ?_, hc, hc', by rw [hcs, hcs'], ?_, ?_, ?_⟩
  · intro i k; rw [hb, hb', chain_vectors, chain_vectors]; norm_num
  · rw [hp, hp']; simp
  · intro i hi j hj
    rw [hcs] at hi hj
    obtain rfl : i = 0 := by omega
    obtain rfl : j = 0 := by omega
    rw [hce, hce']
  · simp [ConnMatrix.max?, ConnMatrix.entries, hcs, hce]
  · intro t ht ra hra rb hrb n n' D D' hD hD'
    rw [hp, List.mem_singleton] at hra hrb
    have hint : ∀ n : Fin 1 → ℤ, distance (fun k => rb k + ∑ i, (n i : ℝ) *
        w.struct.basis.vectors i k) ra = (((n 0).natAbs : ℕ) : ℝ) := by
      intro n
      rw [distance_one, hra, hrb, hb]
      simp [chain_vectors, Nat.cast_natAbs]
    obtain ⟨i, hi⟩ : ∃ i : ℕ, D = i := ⟨_, hD.trans (hint n)⟩
    obtain ⟨j, hj⟩ : ∃ j : ℕ, D' = j := by
      rcases hD' with h | h
      · exact ⟨_, h.trans (hint n')⟩
      · exact ⟨0, by simpa using h⟩
    have ht' : (1 : ℝ) / 10 ^ 6 ≤ t := by rcases ht with rfl | rfl <;> norm_num
    have key : ∀ i j : ℕ, (i : ℝ) < j ↔ npRound 6 (t * (i : ℝ)) < npRound 6 (t * (j : ℝ)) := by
      intro i j
      rw [mul_comm t, mul_comm t]
      constructor
      · intro h; exact chain_round ht' (by exact_mod_cast h)
      · intro h
        by_contra hle
        push Not at hle
        have : npRound 6 ((j : ℝ) * t) ≤ npRound 6 ((i : ℝ) * t) :=
          npRound_mono (mul_le_mul_of_nonneg_right hle (le_trans (by positivity) ht'))
        linarith
    rw [hi, hj]
    exact ⟨key i j, key j i⟩

end Lattpy
