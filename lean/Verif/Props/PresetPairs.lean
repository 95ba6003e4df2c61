import Verif.Props.PresetLattices

/-! # Properties C84 – C85 (the two-atom presets, `simple_rectangular` and the lattice constants) -/

set_option autoImplicit false

namespace Lattpy

open Structure Preset Matrix

variable {d : ℕ}

/-- The neighbours of kind `β` listed for atom `α` are those in the cells `N`, all of them at the
distance `x`. -/
def NeighborsFrom (w : World d ℝ) (α β : ℕ) (x : ℝ) (N : Set (Fin d → ℤ)) : Prop :=
  ∃ A, w.struct.analysis = some A ∧
    ∀ (y : ℝ) (n : Fin d → ℤ), Listed A α y (Idx.mk n (β : ℤ)) ↔ y = x ∧ n ∈ N

theorem neighborsFrom_of {w : World d ℝ} {b : LatticeBasis d ℝ} {ps c cells A}
    (h : Configured w b ps c 1 cells A) {α β : ℕ} {ra rb : Vec d ℝ} (ha : ps[α]? = some ra)
    (hb : ps[β]? = some rb) (he : c.entry α β = 1) {D : ℝ} (hD : 1 / 10 ^ 5 ≤ D)
    (N : Set (Fin d → ℤ)) (hne : N.Nonempty)
    (hN : ∀ n ∈ N, n ∈ cells ∧ shiftSq b (rb - ra) n = D ^ 2)
    (hgap : ∀ n, n ∉ N → shiftSq b (rb - ra) n = 0 ∨ 2 * D ^ 2 ≤ shiftSq b (rb - ra) n) :
    NeighborsFrom w α β (npRound 6 D) N :=
  ⟨A, h.analysis, listed_nearest h.isAnalysis (by rw [h.positions]; exact ha)
    (by rw [h.positions]; exact hb) h.length he hD N hne (by rw [h.basis]; exact hN)
    (by rw [h.basis]; exact hgap)⟩

theorem shiftSq_neg (b : LatticeBasis d ℝ) (r : Vec d ℝ) (n : Fin d → ℤ) :
    shiftSq b (-r) n = shiftSq b r (-n) := by
  unfold shiftSq
  refine Finset.sum_congr rfl fun k _ => ?_
  have : ∑ i, (((-n) i : ℤ) : ℝ) * b.vectors i k = -∑ i, (n i : ℝ) * b.vectors i k := by
    rw [← Finset.sum_neg_distrib]
    exact Finset.sum_congr rfl fun i _ => by simp
  rw [this, Pi.neg_apply]
  ring

/-! ## alternating chain -/

theorem atomPos_one (b : LatticeBasis 1 ℝ) (x : ℝ) : atomPos b (some [x]) false = .ok ![x] := by
  have h : (toVec [x] : Option (Vec 1 ℝ)) = some ![x] := by
    unfold toVec
    rw [dif_pos (by rfl)]
    congr 1
    ext i
    fin_cases i
    rfl
  unfold atomPos
  simp only [h, Bool.false_eq_true, if_false]

/-- C84 for `alternating_chain` with `neighbors=1`: the atoms of the two kinds alternate at the
distance `a / 2`, but each atom has four neighbours: besides the two of the other kind, which are
the nearest ones, also the next two of its own kind at the distance `a`. -/
theorem C84_alternating_partial (env : Env ℝ) (s : Session) (a : ℝ) (ha : 2 / 10 ^ 5 ≤ |a|)
    (atom1 atom2 : AtomSpec) (x0 : ℝ) :
    ∃ w, alternatingChain env s a atom1 atom2 x0 1 = .ok w ∧
      w.struct.positions = [![(0 + x0) * a], ![(1 / 2 + x0) * a]] ∧
      NeighborsFrom w 0 1 (npRound 6 (|a| / 2)) {![0], ![-1]} ∧
      NeighborsFrom w 1 0 (npRound 6 (|a| / 2)) {![0], ![1]} ∧
      NeighborsFrom w 0 0 (npRound 6 |a|) {![1], ![-1]} ∧
      NeighborsFrom w 1 1 (npRound 6 |a|) {![1], ![-1]} := by
  have ha0 : 0 < |a| := lt_of_lt_of_le (by positivity) ha
  have ha2 : 0 < a ^ 2 := by rw [← sq_abs]; positivity
  obtain ⟨b, hb, hv⟩ := LatticeBasis.init_of_det (rows := !![a]) (by
    rw [det_fin_one]; simpa using abs_pos.1 ha0)
  have hsq : ∀ (r : Vec 1 ℝ) (n : Fin 1 → ℤ), shiftSq b r n = (r 0 + n 0 * a) ^ 2 := by
    intro r n
    unfold shiftSq
    rw [hv]
    simp
  obtain ⟨w, c, cells, A, h1, hC, he⟩ := configure_twoAtoms one_pos env s hb atom1 atom2
    (p1 := ![(0 + x0) * a]) (p2 := ![(1 / 2 + x0) * a]) (by
      intro h
      have := congrFun h 0
      simp at this
      exact abs_pos.1 ha0 this) (atomPos_one b _) (atomPos_one b _) one_pos
  have hcell : ∀ n : Fin 1 → ℤ, |n 0| ≤ 1 → n ∈ cells := by
    intro n hn
    refine mem_cells_few one_pos hC.searched ?_ {0} (by simp) ?_
    · intro k
      fin_cases k
      exact hn.trans (by norm_num)
    · intro n' _ hlt
      rw [hsq, hsq] at hlt
      have h3 : (a ^ 2) * ((n' 0 ^ 2 : ℤ) : ℝ) < a ^ 2 * ((n 0 ^ 2 : ℤ) : ℝ) := by
        push_cast
        simp only [Pi.zero_apply] at hlt
        linarith
      have h4 := lt_of_mul_lt_mul_left h3 ha2.le
      have h5 : n' 0 ^ 2 < n 0 ^ 2 := by exact_mod_cast h4
      have h6 : n 0 ^ 2 ≤ 1 := by rw [← sq_abs]; nlinarith [abs_nonneg (n 0)]
      have h7 : n' 0 ^ 2 = 0 := by have := sq_nonneg (n' 0); omega
      have h8 : n' 0 = 0 := pow_eq_zero_iff two_ne_zero |>.1 h7
      rw [hsq, h8]
      simp
  have hfun : ∀ (n : Fin 1 → ℤ) (z : ℤ), n = ![z] ↔ n 0 = z := by
    intro n z
    constructor
    · rintro rfl; rfl
    · intro h
      ext i
      fin_cases i
      exact h
  have hD1 : (1 : ℝ) / 10 ^ 5 ≤ |a| / 2 := by linarith
  have hD2 : (1 : ℝ) / 10 ^ 5 ≤ |a| := by linarith
  have hdiff : (![(1 / 2 + x0) * a] - ![(0 + x0) * a] : Vec 1 ℝ) = ![a / 2] := by
    ext i
    fin_cases i
    simp
    ring
  have hq : ∀ n : Fin 1 → ℤ, shiftSq b ![a / 2] n = a ^ 2 / 4 * (((1 + 2 * n 0) ^ 2 : ℤ) : ℝ) := by
    intro n
    rw [hsq]
    push_cast
    ring
  have hq0 : ∀ n : Fin 1 → ℤ, shiftSq b 0 n = a ^ 2 * ((n 0 ^ 2 : ℤ) : ℝ) := by
    intro n
    rw [hsq]
    push_cast
    simp
    ring
  have hsame : ∀ (α : ℕ) (p : Vec 1 ℝ),
      [![(0 + x0) * a], ![(1 / 2 + x0) * a]][α]? = some p → c.entry α α = 1 →
      NeighborsFrom w α α (npRound 6 |a|) {![1], ![-1]} := by
    intro α p hp hα
    refine neighborsFrom_of hC hp hp hα hD2 _ ⟨![1], Or.inl rfl⟩ ?_ ?_
    · intro n hn
      have hn' : n 0 = 1 ∨ n 0 = -1 := by
        rcases hn with rfl | rfl
        · left; rfl
        · right; rfl
      refine ⟨hcell n (by rcases hn' with h | h <;> simp [h]), ?_⟩
      rw [sub_self, hq0, sq_abs]
      rcases hn' with h | h <;> simp [h]
    · intro n hn
      rw [sub_self, hq0, sq_abs]
      have hn1 : n 0 ≠ 1 := fun h => hn (Or.inl ((hfun _ _).2 h))
      have hn2 : n 0 ≠ -1 := fun h => hn (Or.inr ((hfun _ _).2 h))
      by_cases h0 : n 0 = 0
      · left; simp [h0]
      · right
        have h2 : (2 : ℤ) ≤ n 0 ^ 2 := by
          rcases lt_or_gt_of_ne h0 with h | h
          · nlinarith [show n 0 ≤ -2 by omega]
          · nlinarith [show 2 ≤ n 0 by omega]
        have h2' : (2 : ℝ) ≤ ((n 0 ^ 2 : ℤ) : ℝ) := by exact_mod_cast h2
        nlinarith
  refine ⟨w, h1, hC.positions, ?_, ?_, hsame 0 _ rfl (he 0 0 (by simp) (by simp)),
    hsame 1 _ rfl (he 1 1 (by simp) (by simp))⟩
  · refine neighborsFrom_of hC (α := 0) (β := 1) rfl rfl (he 0 1 (by simp) (by simp)) hD1 _
      ⟨![0], Or.inl rfl⟩ ?_ ?_
    · intro n hn
      have hn' : n 0 = 0 ∨ n 0 = -1 := by
        rcases hn with rfl | rfl
        · left; rfl
        · right; rfl
      refine ⟨hcell n (by rcases hn' with h | h <;> simp [h]), ?_⟩
      rw [hdiff, hq, div_pow, sq_abs]
      rcases hn' with h | h <;> simp [h] <;> norm_num
    · intro n hn
      right
      rw [hdiff, hq, div_pow, sq_abs]
      have hn1 : n 0 ≠ 0 := fun h => hn (Or.inl ((hfun _ _).2 h))
      have hn2 : n 0 ≠ -1 := fun h => hn (Or.inr ((hfun _ _).2 h))
      have h2 : (2 : ℤ) ≤ (1 + 2 * n 0) ^ 2 := by
        rcases lt_or_gt_of_ne hn1 with h | h
        · nlinarith [show n 0 ≤ -2 by omega]
        · nlinarith [show 1 ≤ n 0 by omega]
      have h2' : (2 : ℝ) ≤ (((1 + 2 * n 0) ^ 2 : ℤ) : ℝ) := by exact_mod_cast h2
      nlinarith
  · have hdiff' : (![(0 + x0) * a] - ![(1 / 2 + x0) * a] : Vec 1 ℝ) = -![a / 2] := by
      rw [← hdiff, neg_sub]
    refine neighborsFrom_of hC (α := 1) (β := 0) rfl rfl (he 1 0 (by simp) (by simp)) hD1 _
      ⟨![0], Or.inl rfl⟩ ?_ ?_
    · intro n hn
      have hn' : n 0 = 0 ∨ n 0 = 1 := by
        rcases hn with rfl | rfl
        · left; rfl
        · right; rfl
      refine ⟨hcell n (by rcases hn' with h | h <;> simp [h]), ?_⟩
      rw [hdiff', shiftSq_neg, hq, div_pow, sq_abs]
      rcases hn' with h | h <;> simp [h] <;> norm_num
    · intro n hn
      right
      rw [hdiff', shiftSq_neg, hq, div_pow, sq_abs]
      have hn1 : n 0 ≠ 0 := fun h => hn (Or.inl ((hfun _ _).2 h))
      have hn2 : n 0 ≠ 1 := fun h => hn (Or.inr ((hfun _ _).2 h))
      have h2 : (2 : ℤ) ≤ (1 + 2 * (-n) 0) ^ 2 := by
        rw [Pi.neg_apply]
        rcases lt_or_gt_of_ne hn1 with h | h
        · nlinarith [show n 0 ≤ -1 by omega]
        · nlinarith [show 2 ≤ n 0 by omega]
      have h2' : (2 : ℝ) ≤ (((1 + 2 * (-n) 0) ^ 2 : ℤ) : ℝ) := by exact_mod_cast h2
      nlinarith

/-! ## NaCl -/

theorem atomPos_three (b : LatticeBasis 3 ℝ) (x y z : ℝ) :
    atomPos b (some [x, y, z]) false = .ok ![x, y, z] := by
  have h : (toVec [x, y, z] : Option (Vec 3 ℝ)) = some ![x, y, z] := by
    unfold toVec
    rw [dif_pos (by rfl)]
    congr 1
    ext i
    fin_cases i <;> rfl
  unfold atomPos
  simp only [h, Bool.false_eq_true, if_false]

/-- Squared length in units of half the lattice constant. -/
def fccQ (n : Fin 3 → ℤ) : ℤ := (n 0 + n 1) ^ 2 + (n 0 + n 2) ^ 2 + (n 1 + n 2) ^ 2

/-- Squared distance of the other kind in units of half the lattice constant. -/
def naclQ (n : Fin 3 → ℤ) : ℤ :=
  (1 + n 0 + n 1) ^ 2 + (1 + n 0 + n 2) ^ 2 + (1 + n 1 + n 2) ^ 2

theorem fccQ_even (n : Fin 3 → ℤ) : fccQ n % 2 = 0 := by
  unfold fccQ
  have : (n 0 + n 1) ^ 2 + (n 0 + n 2) ^ 2 + (n 1 + n 2) ^ 2 =
      2 * (n 0 ^ 2 + n 1 ^ 2 + n 2 ^ 2 + n 0 * n 1 + n 0 * n 2 + n 1 * n 2) := by ring
  omega

theorem naclQ_odd (n : Fin 3 → ℤ) : naclQ n % 2 = 1 := by
  unfold naclQ
  have : (1 + n 0 + n 1) ^ 2 + (1 + n 0 + n 2) ^ 2 + (1 + n 1 + n 2) ^ 2 =
      2 * (n 0 ^ 2 + n 1 ^ 2 + n 2 ^ 2 + n 0 * n 1 + n 0 * n 2 + n 1 * n 2 +
        2 * (n 0 + n 1 + n 2) + 1) + 1 := by ring
  omega

theorem sq_le_bounds {z k : ℤ} (h : z ^ 2 ≤ k) (hk : k ≤ 3) : -1 ≤ z ∧ z ≤ 1 := by
  constructor <;> nlinarith

theorem vec3_eta (n : Fin 3 → ℤ) : n = ![n 0, n 1, n 2] := by ext i; fin_cases i <;> rfl

theorem fccQ_two_iff (n : Fin 3 → ℤ) : fccQ n = 2 ↔ n ∈ ({![1, 0, 0], ![-1, 0, 0], ![0, 1, 0],
    ![0, -1, 0], ![0, 0, 1], ![0, 0, -1], ![1, -1, 0], ![-1, 1, 0], ![1, 0, -1], ![-1, 0, 1],
    ![0, 1, -1], ![0, -1, 1]} : Set (Fin 3 → ℤ)) := by
  constructor
  · intro h
    unfold fccQ at h
    have e1 := sq_nonneg (n 0 + n 1)
    have e2 := sq_nonneg (n 0 + n 2)
    have e3 := sq_nonneg (n 1 + n 2)
    have b1 := sq_le_bounds (z := n 0 + n 1) (k := 2) (by omega) (by norm_num)
    have b2 := sq_le_bounds (z := n 0 + n 2) (k := 2) (by omega) (by norm_num)
    have b3 := sq_le_bounds (z := n 1 + n 2) (k := 2) (by omega) (by norm_num)
    have c1 : -1 ≤ n 0 ∧ n 0 ≤ 1 := by omega
    have c2 : -1 ≤ n 1 ∧ n 1 ≤ 1 := by omega
    have c3 : -1 ≤ n 2 ∧ n 2 ≤ 1 := by omega
    rw [vec3_eta n]
    clear b1 b2 b3 e1 e2 e3
    obtain ⟨c1, c1'⟩ := c1
    obtain ⟨c2, c2'⟩ := c2
    obtain ⟨c3, c3'⟩ := c3
    generalize n 0 = p at *
    generalize n 1 = q at *
    generalize n 2 = r at *
    interval_cases p <;> interval_cases q <;> interval_cases r <;> simp_all
  · rintro (rfl | rfl | rfl | rfl | rfl | rfl | rfl | rfl | rfl | rfl | rfl | rfl) <;> rfl

theorem naclQ_one_iff (n : Fin 3 → ℤ) : naclQ n = 1 ↔ n ∈ ({![-1, 0, 0], ![0, -1, 0], ![0, 0, -1],
    ![-1, -1, 0], ![-1, 0, -1], ![0, -1, -1]} : Set (Fin 3 → ℤ)) := by
  constructor
  · intro h
    unfold naclQ at h
    have e1 := sq_nonneg (1 + n 0 + n 1)
    have e2 := sq_nonneg (1 + n 0 + n 2)
    have e3 := sq_nonneg (1 + n 1 + n 2)
    have b1 := sq_le_bounds (z := 1 + n 0 + n 1) (k := 2) (by omega) (by norm_num)
    have b2 := sq_le_bounds (z := 1 + n 0 + n 2) (k := 2) (by omega) (by norm_num)
    have b3 := sq_le_bounds (z := 1 + n 1 + n 2) (k := 2) (by omega) (by norm_num)
    have c1 : -2 ≤ n 0 ∧ n 0 ≤ 1 := by omega
    have c2 : -2 ≤ n 1 ∧ n 1 ≤ 1 := by omega
    have c3 : -2 ≤ n 2 ∧ n 2 ≤ 1 := by omega
    rw [vec3_eta n]
    clear b1 b2 b3 e1 e2 e3
    obtain ⟨c1, c1'⟩ := c1
    obtain ⟨c2, c2'⟩ := c2
    obtain ⟨c3, c3'⟩ := c3
    generalize n 0 = p at *
    generalize n 1 = q at *
    generalize n 2 = r at *
    interval_cases p <;> interval_cases q <;> interval_cases r <;> simp_all
  · rintro (rfl | rfl | rfl | rfl | rfl | rfl) <;> rfl

/-- C84 for `nacl_structure` with `neighbors=1`: each atom has the six nearest ones of the other
kind at the distance `a / 2`, but also the twelve of its own kind at the distance `a / √2`. -/
theorem C84_nacl_partial (env : Env ℝ) (s : Session) (a : ℝ) (ha : 2 / 10 ^ 5 ≤ |a|)
    (atom1 atom2 : AtomSpec) :
    ∃ w, naclStructure env s a atom1 atom2 1 = .ok w ∧
      w.struct.positions = [![0, 0, 0], ![a / 2, a / 2, a / 2]] ∧
      NeighborsFrom w 0 1 (npRound 6 (|a| / 2)) {![-1, 0, 0], ![0, -1, 0], ![0, 0, -1],
        ![-1, -1, 0], ![-1, 0, -1], ![0, -1, -1]} ∧
      NeighborsFrom w 1 0 (npRound 6 (|a| / 2)) {![1, 0, 0], ![0, 1, 0], ![0, 0, 1],
        ![1, 1, 0], ![1, 0, 1], ![0, 1, 1]} ∧
      ∀ α < 2, NeighborsFrom w α α (npRound 6 (|a| / Real.sqrt 2)) {![1, 0, 0], ![-1, 0, 0],
        ![0, 1, 0], ![0, -1, 0], ![0, 0, 1], ![0, 0, -1], ![1, -1, 0], ![-1, 1, 0], ![1, 0, -1],
        ![-1, 0, 1], ![0, 1, -1], ![0, -1, 1]} := by
  have ha0 : 0 < |a| := lt_of_lt_of_le (by positivity) ha
  have ha2 : 0 < a ^ 2 := by rw [← sq_abs]; positivity
  obtain ⟨b, hb, hv⟩ := LatticeBasis.init_of_det
    (rows := (a / 2) • !![(1 : ℝ), 1, 0; 1, 0, 1; 0, 1, 1]) (by
      rw [det_smul, det_fin_three]
      refine mul_ne_zero (pow_ne_zero _ (by simpa using abs_pos.1 ha0)) ?_
      simp
      norm_num)
  have hq0 : ∀ n : Fin 3 → ℤ, shiftSq b 0 n = a ^ 2 / 4 * ((fccQ n : ℤ) : ℝ) := by
    intro n
    unfold shiftSq fccQ
    rw [hv]
    simp [Fin.sum_univ_three]
    ring
  have hq : ∀ n : Fin 3 → ℤ,
      shiftSq b ![a / 2, a / 2, a / 2] n = a ^ 2 / 4 * ((naclQ n : ℤ) : ℝ) := by
    intro n
    unfold shiftSq naclQ
    rw [hv]
    simp [Fin.sum_univ_three]
    ring
  obtain ⟨w, c, cells, A, h1, hC, he⟩ := configure_twoAtoms three_pos env s hb atom1 atom2
    (p1 := ![0, 0, 0]) (p2 := ![a / 2, a / 2, a / 2]) (by
      intro h
      have := congrFun h 0
      simp at this
      exact abs_pos.1 ha0 (by linarith)) (atomPos_three b _ _ _) (atomPos_three b _ _ _) one_pos
  have hcell : ∀ n : Fin 3 → ℤ, (∀ k, |n k| ≤ 1) → fccQ n ≤ 6 → n ∈ cells := by
    intro n hbox hn
    refine mem_cells_few three_pos hC.searched (fun k => (hbox k).trans (by norm_num))
      {a ^ 2 / 4 * 0, a ^ 2 / 4 * 2, a ^ 2 / 4 * 4} Finset.card_le_three ?_
    intro n' _ hlt
    rw [hq0, hq0] at hlt
    have h4 := lt_of_mul_lt_mul_left hlt (by positivity)
    have h5 : fccQ n' < fccQ n := by exact_mod_cast h4
    have h6 : 0 ≤ fccQ n' := by unfold fccQ; positivity
    have h7 := fccQ_even n'
    have h8 : fccQ n' = 0 ∨ fccQ n' = 2 ∨ fccQ n' = 4 := by omega
    rw [hq0]
    rcases h8 with h | h | h <;> rw [h] <;> simp
  have hD1 : (1 : ℝ) / 10 ^ 5 ≤ |a| / 2 := by linarith
  have hs2 : Real.sqrt 2 ^ 2 = 2 := Real.sq_sqrt (by norm_num)
  have hs0 : 0 < Real.sqrt 2 := by positivity
  have hD2 : (1 : ℝ) / 10 ^ 5 ≤ |a| / Real.sqrt 2 := by
    have : Real.sqrt 2 ≤ 2 := by nlinarith
    exact hD1.trans (div_le_div_of_nonneg_left ha0.le hs0 this)
  have hz : (![0, 0, 0] : Vec 3 ℝ) = 0 := by ext i; fin_cases i <;> rfl
  have hgapq : ∀ n, naclQ n ≠ 1 → 2 * (|a| / 2) ^ 2 ≤ a ^ 2 / 4 * ((naclQ n : ℤ) : ℝ) := by
    intro n hn
    rw [div_pow, sq_abs]
    have h7 := naclQ_odd n
    have h6 : 0 ≤ naclQ n := by unfold naclQ; positivity
    have h2 : (2 : ℝ) ≤ ((naclQ n : ℤ) : ℝ) := by exact_mod_cast (by omega : 2 ≤ naclQ n)
    nlinarith
  refine ⟨w, h1, hC.positions, ?_, ?_, ?_⟩
  · refine neighborsFrom_of hC (α := 0) (β := 1) rfl rfl (he 0 1 (by simp) (by simp)) hD1 _
      ⟨![-1, 0, 0], Or.inl rfl⟩ ?_ ?_
    · intro n hn
      have h1 := (naclQ_one_iff n).2 hn
      refine ⟨?_, by rw [hz, sub_zero, hq, h1, div_pow, sq_abs]; norm_num⟩
      rcases hn with rfl | rfl | rfl | rfl | rfl | rfl <;> exact hcell _ (by decide) (by decide)
    · intro n hn
      rw [← naclQ_one_iff] at hn
      right
      rw [hz, sub_zero, hq]
      exact hgapq n hn
  · have hneg : ∀ n : Fin 3 → ℤ, n ∈ ({![1, 0, 0], ![0, 1, 0], ![0, 0, 1], ![1, 1, 0], ![1, 0, 1],
        ![0, 1, 1]} : Set (Fin 3 → ℤ)) ↔ naclQ (-n) = 1 := by
      intro n
      rw [naclQ_one_iff]
      simp only [Set.mem_insert_iff, Set.mem_singleton_iff, neg_eq_iff_eq_neg]
      simp
    refine neighborsFrom_of hC (α := 1) (β := 0) rfl rfl (he 1 0 (by simp) (by simp)) hD1 _
      ⟨![1, 0, 0], Or.inl rfl⟩ ?_ ?_
    · intro n hn
      have h1 := (hneg n).1 hn
      refine ⟨?_, by rw [hz, zero_sub, shiftSq_neg, hq, h1, div_pow, sq_abs]; norm_num⟩
      rcases hn with rfl | rfl | rfl | rfl | rfl | rfl <;> exact hcell _ (by decide) (by decide)
    · intro n hn
      rw [hneg] at hn
      right
      rw [hz, zero_sub, shiftSq_neg, hq]
      exact hgapq _ hn
  · intro α hα
    have hp : ∃ p, [![0, 0, 0], ![a / 2, a / 2, a / 2]][α]? = some p :=
      ⟨_, List.getElem?_eq_getElem (by simpa using hα)⟩
    obtain ⟨p, hp⟩ := hp
    refine neighborsFrom_of hC hp hp (he α α hα hα) hD2 _ ⟨![1, 0, 0], Or.inl rfl⟩ ?_ ?_
    · intro n hn
      have h1 := (fccQ_two_iff n).2 hn
      refine ⟨?_, by rw [sub_self, hq0, h1, div_pow, sq_abs, hs2]; norm_num; ring⟩
      rcases hn with rfl | rfl | rfl | rfl | rfl | rfl | rfl | rfl | rfl | rfl | rfl | rfl <;>
        exact hcell _ (by decide) (by decide)
    · intro n hn
      rw [← fccQ_two_iff] at hn
      rw [sub_self, hq0, div_pow, sq_abs, hs2]
      have h7 := fccQ_even n
      have h6 : 0 ≤ fccQ n := by unfold fccQ; positivity
      by_cases h0 : fccQ n = 0
      · left; rw [h0]; simp
      · right
        have h2 : (4 : ℝ) ≤ ((fccQ n : ℤ) : ℝ) := by exact_mod_cast (by omega : 4 ≤ fccQ n)
        nlinarith

/-! ## the default of `neighbors` -/

/-- C84 fails for the presets with two atoms: with `neighbors=1`, documented as "only nearest
neighbors", `alternating_chain()` and `nacl_structure()` link every atom also to atoms farther away
than its nearest neighbours, namely to those of its own kind, since distances are counted for each
pair of atoms of the unit cell separately. -/
theorem C84_two_atoms_fails (env : Env ℝ) (s : Session) (x0 : ℝ) :
    (∃ w A, alternatingChain env s 1 .none .none x0 1 = .ok w ∧ w.struct.analysis = some A ∧
      Listed A 0 (npRound 6 (1 / 2)) (Idx.mk ![0] 1) ∧ Listed A 0 (npRound 6 1) (Idx.mk ![1] 0)) ∧
    ∃ w A, naclStructure env s 1 (.name "Na") (.name "Cl") 1 = .ok w ∧
      w.struct.analysis = some A ∧ Listed A 0 (npRound 6 (1 / 2)) (Idx.mk ![-1, 0, 0] 1) ∧
      Listed A 0 (npRound 6 (1 / Real.sqrt 2)) (Idx.mk ![1, 0, 0] 0) := by
  constructor
  · obtain ⟨w, h1, -, ⟨A, hA, h2⟩, -, ⟨A', hA', h3⟩, -⟩ :=
      C84_alternating_partial env s 1 (by norm_num) .none .none x0
    rw [hA] at hA'
    cases hA'
    simp only [abs_one] at h2 h3
    exact ⟨w, A, h1, hA, (h2 _ _).2 ⟨rfl, Or.inl rfl⟩, (h3 _ _).2 ⟨rfl, Or.inl rfl⟩⟩
  · obtain ⟨w, h1, -, ⟨A, hA, h2⟩, -, h4⟩ :=
      C84_nacl_partial env s 1 (by norm_num) (.name "Na") (.name "Cl")
    obtain ⟨A', hA', h3⟩ := h4 0 two_pos
    rw [hA] at hA'
    cases hA'
    simp only [abs_one] at h2 h3
    exact ⟨w, A, h1, hA, (h2 _ _).2 ⟨rfl, Or.inl rfl⟩, (h3 _ _).2 ⟨rfl, Or.inl rfl⟩⟩

/-- C84 holds for `simple_rectangular` with `neighbors=1`, if one constant is clearly the larger one:
the neighbours are the two atoms along the shorter direction. -/
theorem C84_rectangular_partial (env : Env ℝ) (s : Session) (a1 a2 : ℝ) (ha : 1 / 10 ^ 5 ≤ |a2|)
    (h12 : 2 * a2 ^ 2 ≤ a1 ^ 2) (atom : AtomSpec) :
    ∃ w, simpleRectangular env s a1 a2 atom 1 = .ok w ∧ w.struct.positions = [0] ∧
      NeighborsAre w 0 (npRound 6 |a2|) {Idx.mk ![0, 1] 0, Idx.mk ![0, -1] 0} := by
  have ha0 : 0 < |a2| := lt_of_lt_of_le (by positivity) ha
  have ha2 : 0 < a2 ^ 2 := by rw [← sq_abs]; positivity
  have ha1 : 0 < a1 ^ 2 := by linarith
  obtain ⟨b, hb, hv⟩ := LatticeBasis.init_of_det (rows := !![a1, 0; 0, a2]) (by
    rw [det_fin_two_of]
    simp only [mul_zero, sub_zero]
    refine mul_ne_zero ?_ (abs_pos.1 ha0)
    rintro rfl
    simp at ha1)
  have hsq : ∀ n : Fin 2 → ℤ, shiftSq b 0 n =
      a1 ^ 2 * ((n 0 ^ 2 : ℤ) : ℝ) + a2 ^ 2 * ((n 1 ^ 2 : ℤ) : ℝ) := by
    intro n
    unfold shiftSq
    rw [hv]
    simp [Fin.sum_univ_two]
    ring
  have hsmall : ∀ n : Fin 2 → ℤ, shiftSq b 0 n < 2 * a2 ^ 2 → n 0 = 0 ∧ (n 1 = 0 ∨ n 1 = 1 ∨
      n 1 = -1) := by
    intro n hn
    rw [hsq] at hn
    have e0 : (0 : ℝ) ≤ ((n 0 ^ 2 : ℤ) : ℝ) := by exact_mod_cast sq_nonneg (n 0)
    have e1 : (0 : ℝ) ≤ ((n 1 ^ 2 : ℤ) : ℝ) := by exact_mod_cast sq_nonneg (n 1)
    have f0 : ((n 0 ^ 2 : ℤ) : ℝ) < 1 := by
      by_contra h
      push Not at h
      nlinarith
    have f1 : ((n 1 ^ 2 : ℤ) : ℝ) < 2 := by
      by_contra h
      push Not at h
      nlinarith
    have g0 : n 0 ^ 2 < 1 := by exact_mod_cast f0
    have g1 : n 1 ^ 2 < 2 := by exact_mod_cast f1
    have k0 := sq_nonneg (n 0)
    have hn0 : n 0 = 0 := pow_eq_zero_iff two_ne_zero |>.1 (by omega : n 0 ^ 2 = 0)
    have b1 : -1 ≤ n 1 := by nlinarith
    have b2 : n 1 ≤ 1 := by nlinarith
    exact ⟨hn0, by omega⟩
  obtain ⟨w, c, cells, A, h1, hC, he⟩ := configure_oneAtom two_pos env s hb atom one_pos
  refine ⟨w, h1, hC.positions, ?_⟩
  have hN : ∀ n ∈ ({![0, 1], ![0, -1]} : Set (Fin 2 → ℤ)),
      n ∈ cells ∧ shiftSq b 0 n = |a2| ^ 2 := by
    intro n hn
    have hlen : shiftSq b 0 n = a2 ^ 2 := by
      rw [hsq]
      rcases hn with rfl | rfl <;> simp
    refine ⟨mem_cells_few two_pos hC.searched ?_ {0} (by simp) ?_, by rw [hlen, sq_abs]⟩
    · rcases hn with rfl | rfl <;> decide
    · intro n' _ hlt
      rw [hlen] at hlt
      obtain ⟨g0, g1⟩ := hsmall n' (by linarith)
      rw [hsq, g0] at hlt ⊢
      rcases g1 with g | g | g <;> rw [g] at hlt ⊢ <;> simp at hlt ⊢
  have hgap : ∀ n, n ∉ ({![0, 1], ![0, -1]} : Set (Fin 2 → ℤ)) →
      shiftSq b 0 n = 0 ∨ 2 * |a2| ^ 2 ≤ shiftSq b 0 n := by
    intro n hn
    rw [sq_abs]
    by_contra hc
    push Not at hc
    obtain ⟨g0, g1⟩ := hsmall n hc.2
    have hn2 : n = ![n 0, n 1] := by ext i; fin_cases i <;> rfl
    rcases g1 with g | g | g
    · apply hc.1
      rw [hsq, g0, g]
      simp
    · exact hn (Or.inl (by rw [hn2, g0, g]))
    · exact hn (Or.inr (by rw [hn2, g0, g]; rfl))
  have key := nearest_one hC he ha _ ⟨![0, 1], Or.inl rfl⟩ hN hgap
  convert key using 1
  ext idx
  simp

/-- The hypotheses of C84 are met by the default constants. -/
example (env : Env ℝ) (s : Session) : ∃ w, simpleRectangular env s (3 / 2) 1 .none 1 = .ok w := by
  obtain ⟨w, h, -⟩ := C84_rectangular_partial env s (3 / 2) 1 (by norm_num) (by norm_num) .none
  exact ⟨w, h⟩

/-- C84 fails for the default `neighbors=2` of `simple_rectangular`, documented as "nearest
neighbors (2)": with the constants 3 and 1 the two levels are both taken along the shorter
direction, so that an atom is linked to its second-nearest atoms at the distance 2, and to none along
the other direction. -/
theorem C84_rectangular_fails (env : Env ℝ) (s : Session) :
    ∃ w A, simpleRectangular env s 3 1 .none 2 = .ok w ∧ w.struct.analysis = some A ∧
      Listed A 0 (npRound 6 2) (Idx.mk ![0, 2] 0) ∧
      ∀ x, ¬ Listed A 0 x (Idx.mk ![1, 0] 0) := by
  obtain ⟨b, hb, hv⟩ := LatticeBasis.init_of_det (rows := !![(3 : ℝ), 0; 0, 1]) (by
    rw [det_fin_two_of]; norm_num)
  have hsq : ∀ n : Fin 2 → ℤ, shiftSq b 0 n = ((9 * n 0 ^ 2 + n 1 ^ 2 : ℤ) : ℝ) := by
    intro n
    unfold shiftSq
    rw [hv]
    simp [Fin.sum_univ_two]
    ring
  obtain ⟨w, c, cells, A, h1, hC, he⟩ :=
    configure_oneAtom two_pos env s hb .none (nb := 2) two_pos
  have hp : w.struct.positions[0]? = some 0 := by rw [hC.positions]; rfl
  have hd : ∀ n, w.struct.siteDist 0 0 n =
      npRound 6 (Real.sqrt ((9 * n 0 ^ 2 + n 1 ^ 2 : ℤ) : ℝ)) := by
    intro n
    rw [siteDist_sqrt hp hp, sub_self, hC.basis, hsq]
  have hsmall : ∀ n : Fin 2 → ℤ, 9 * n 0 ^ 2 + n 1 ^ 2 < 4 → n 0 = 0 ∧ (n 1 = 0 ∨ n 1 = 1 ∨
      n 1 = -1) := by
    intro n hn
    have k0 := sq_nonneg (n 0)
    have k1 := sq_nonneg (n 1)
    have hn0 : n 0 = 0 := pow_eq_zero_iff two_ne_zero |>.1 (by omega : n 0 ^ 2 = 0)
    have b1 : -1 ≤ n 1 := by nlinarith
    have b2 : n 1 ≤ 1 := by nlinarith
    exact ⟨hn0, by omega⟩
  have hcell : ∀ k : ℤ, k = 1 ∨ k = 2 → ![0, k] ∈ cells := by
    intro k hk
    refine mem_cells_few two_pos hC.searched ?_ {0, 1} (by simp) ?_
    · rcases hk with rfl | rfl <;> decide
    · intro n' _ hlt
      rw [hsq, hsq] at hlt
      have hlt' : 9 * n' 0 ^ 2 + n' 1 ^ 2 < 4 := by
        have : 9 * n' 0 ^ 2 + n' 1 ^ 2 < 9 * (![0, k] : Fin 2 → ℤ) 0 ^ 2 +
            (![0, k] : Fin 2 → ℤ) 1 ^ 2 := by exact_mod_cast hlt
        rcases hk with rfl | rfl <;> simp at this <;> omega
      obtain ⟨g0, g1⟩ := hsmall n' hlt'
      rw [hsq, g0]
      rcases g1 with g | g | g <;> rw [g] <;> simp
  have hd1 : w.struct.siteDist 0 0 ![0, 1] = npRound 6 1 := by
    rw [hd]; simp
  have hd2 : w.struct.siteDist 0 0 ![0, 2] = npRound 6 2 := by
    rw [hd]
    congr 1
    rw [show ((9 * (![0, 2] : Fin 2 → ℤ) 0 ^ 2 + (![0, 2] : Fin 2 → ℤ) 1 ^ 2 : ℤ) : ℝ) = 2 ^ 2 by
      simp; norm_num]
    exact Real.sqrt_sq (by norm_num)
  have hd3 : w.struct.siteDist 0 0 ![1, 0] = npRound 6 3 := by
    rw [hd]
    congr 1
    rw [show ((9 * (![1, 0] : Fin 2 → ℤ) 0 ^ 2 + (![1, 0] : Fin 2 → ℤ) 1 ^ 2 : ℤ) : ℝ) = 3 ^ 2 by
      simp; norm_num]
    exact Real.sqrt_sq (by norm_num)
  have r01 : (0 : ℝ) < npRound 6 1 := by
    have := npRound_lt (n := 6) (x := (0 : ℝ)) (y := 1) (by norm_num)
    rwa [npRound_zero] at this
  have r12 : npRound 6 (1 : ℝ) < npRound 6 2 := npRound_lt (by norm_num)
  have r23 : npRound 6 (2 : ℝ) < npRound 6 3 := npRound_lt (by norm_num)
  have hs : (w.struct.levels cells 0 0).Pairwise (· < ·) := npUnique_pairwise_lt _
  have m1 : npRound 6 (1 : ℝ) ∈ w.struct.levels cells 0 0 :=
    mem_levels.2 ⟨r01, _, hcell 1 (Or.inl rfl), hd1.symm⟩
  have m2 : npRound 6 (2 : ℝ) ∈ w.struct.levels cells 0 0 :=
    mem_levels.2 ⟨r01.trans r12, _, hcell 2 (Or.inr rfl), hd2.symm⟩
  have hn1 : w.struct.numBase = 1 := by rw [← hC.length, hC.positions]; rfl
  refine ⟨w, A, h1, hC.analysis, ?_, ?_⟩
  · rw [listed_iff hC.isAnalysis]
    refine ⟨by omega, 0, by omega, _, hcell 2 (Or.inr rfl), rfl, hd2.symm, ?_⟩
    rw [he, mem_take_sorted hs]
    refine ⟨m2, ?_⟩
    have hsub : ((w.struct.levels cells 0 0).filter fun y => decide (y < npRound 6 2)).toFinset ⊆
        {npRound 6 (1 : ℝ)} := by
      intro y hy
      rw [List.mem_toFinset, List.mem_filter, mem_levels, decide_eq_true_eq] at hy
      obtain ⟨⟨hy0, n, -, rfl⟩, hlt⟩ := hy
      rw [hd] at hy0 hlt ⊢
      have h4 : 9 * n 0 ^ 2 + n 1 ^ 2 < 4 := by
        by_contra hc
        push Not at hc
        have hc' : (4 : ℝ) ≤ ((9 * n 0 ^ 2 + n 1 ^ 2 : ℤ) : ℝ) := by exact_mod_cast hc
        have : (2 : ℝ) ≤ Real.sqrt ((9 * n 0 ^ 2 + n 1 ^ 2 : ℤ) : ℝ) :=
          Real.le_sqrt_of_sq_le (by linarith)
        exact absurd (npRound_mono (n := 6) this) (not_le.2 hlt)
      obtain ⟨g0, g1⟩ := hsmall n h4
      rw [g0] at hy0 ⊢
      rcases g1 with g | g | g <;> rw [g] at hy0 ⊢
      · simp [npRound_zero] at hy0
      · simp
      · simp
    have hnd : ((w.struct.levels cells 0 0).filter fun y => decide (y < npRound 6 2)).Nodup :=
      (npUnique_nodup _).filter _
    have := Finset.card_le_card hsub
    rw [List.toFinset_card_of_nodup hnd] at this
    simp at this
    simpa using Nat.lt_succ_of_le this
  · intro x hx
    obtain ⟨-, b', hb', n, -, hidx, hx1, hx2⟩ := (listed_iff hC.isAnalysis _ _ _).1 hx
    have hb0 : b' = 0 := by omega
    subst hb0
    have hn : ![1, 0] = n := by
      have := congrArg Idx.cell hidx
      simpa using this
    subst hn
    rw [hd3] at hx1
    subst hx1
    rw [he, mem_take_sorted hs] at hx2
    have h2 := hx2.2
    have hsub : ({npRound 6 (1 : ℝ), npRound 6 2} : Finset ℝ) ⊆
        ((w.struct.levels cells 0 0).filter fun y => decide (y < npRound 6 3)).toFinset := by
      intro y hy
      rw [List.mem_toFinset, List.mem_filter, decide_eq_true_eq]
      rcases Finset.mem_insert.1 hy with rfl | hy
      · exact ⟨m1, r12.trans r23⟩
      · rw [Finset.mem_singleton] at hy
        subst hy
        exact ⟨m2, r23⟩
    have h3 := Finset.card_le_card hsub
    rw [Finset.card_pair r12.ne] at h3
    have := List.toFinset_card_le
      ((w.struct.levels cells 0 0).filter fun y => decide (y < npRound 6 3))
    omega

/-- `add_connections(0)` on a structure with atoms raises `NoConnectionsError`. -/
theorem connections_zero {d : ℕ} (env : Env ℝ) {w : World d ℝ} (hw : w.struct.Good)
    (hf : w.struct.frozen = false) (hne : w.struct.positions ≠ []) :
    ∃ w', w.call env (.addConnections 0 true) = (w', .error .noConnections) := by
  have hpl := List.length_pos_iff.2 hne
  cases hc : w.struct.conn with
  | none =>
    have := (hw.conn_none hc).1
    rw [← hw.positions_length] at this
    omega
  | some c0 =>
    have hat : w.struct.atoms.isEmpty = false := by
      have := hw.atoms_of_not_frozen hf
      rw [← hw.positions_length] at this
      cases hl : w.struct.atoms with
      | nil => rw [hl, List.length_nil] at this; omega
      | cons x xs => rfl
    have hz : (c0.fill 0).allZero = true := by
      rw [ConnMatrix.allZero_iff]
      intro i _ j _
      simp [ConnMatrix.fill]
    have : w.struct.addConnections env 0 true =
        ({ w.struct with conn := some (c0.fill 0) }, .error .noConnections) := by
      simp [addConnections, hc, analyze, hat, hz]
    refine ⟨⟨w.session, { w.struct with conn := some (c0.fill 0) }⟩, ?_⟩
    change ((⟨w.session, (w.struct.addConnections env 0 true).1⟩ : World d ℝ),
      (w.struct.addConnections env 0 true).2) = _
    rw [this]

/-- The answer of a preset whose basis vectors are the rows of `rows` for `neighbors = nb`:
dependent vectors raise `LinAlgError`, no neighbours raise `NoConnectionsError`, otherwise all `n`
atoms are connected up to the distance number `nb`. -/
def PresetAnswer {d : ℕ} (rows : Matrix (Fin d) (Fin d) ℝ) (n nb : ℕ)
    (r : Except PyErr (World d ℝ)) : Prop :=
  (rows.det = 0 → r = .error .linalg) ∧ (rows.det ≠ 0 → nb = 0 → r = .error .noConnections) ∧
  (rows.det ≠ 0 → 0 < nb → ∃ w c, r = .ok w ∧ w.struct.basis.vectors = rows ∧
    w.struct.conn = some c ∧ c.size = n ∧ (∀ i j, i < n → j < n → c.entry i j = nb) ∧
    ∃ A, w.struct.analysis = some A)

theorem oneAtom_answer {d : ℕ} (hd : 0 < d) (env : Env ℝ) (s : Session)
    (rows : Matrix (Fin d) (Fin d) ℝ) (atom : AtomSpec) (nb : ℕ) :
    PresetAnswer rows 1 nb (configure env s (LatticeBasis.init rows) (oneAtom atom nb)) := by
  refine ⟨fun h => ?_, fun h h0 => ?_, fun h h0 => ?_⟩
  · rw [(LatticeBasis.init_error_iff rows).2 h]
    rfl
  · subst h0
    obtain ⟨b, hb⟩ := (LatticeBasis.init_eq_ok_iff rows).2 h
    obtain ⟨w1, at1, h1, hg, hf, hbas, hpos, -⟩ := addAtom_ok hd env (w := ⟨s, ofBasis b⟩)
      (good_ofBasis hb) rfl (pos := none) (atomPos_none _) (by simp [ofBasis]) atom
    have hpos' : w1.struct.positions = [0] := by simpa [ofBasis] using hpos
    obtain ⟨w2, h2⟩ := connections_zero env hg hf (by simp [hpos'])
    rw [hb]
    unfold configure
    dsimp only
    rw [oneAtom, calls_cons h1, calls, h2]
  · obtain ⟨b, hb⟩ := (LatticeBasis.init_eq_ok_iff rows).2 h
    obtain ⟨w, c, cells, A, h1, hC, he⟩ := configure_oneAtom hd env s hb atom h0
    refine ⟨w, c, h1, by rw [hC.basis]; exact LatticeBasis.init_vectors hb, hC.conn, hC.size, ?_, A,
      hC.analysis⟩
    intro i j hi hj
    obtain rfl : i = 0 := by omega
    obtain rfl : j = 0 := by omega
    exact he

theorem twoAtoms_answer {d : ℕ} (hd : 0 < d) (env : Env ℝ) (s : Session)
    (rows : Matrix (Fin d) (Fin d) ℝ) (atom1 atom2 : AtomSpec) {p1 p2 : Vec d ℝ} {l1 l2 : List ℝ}
    (hne : rows.det ≠ 0 → p1 ≠ p2)
    (hl1 : ∀ b : LatticeBasis d ℝ, atomPos b (some l1) false = .ok p1)
    (hl2 : ∀ b : LatticeBasis d ℝ, atomPos b (some l2) false = .ok p2) (nb : ℕ) :
    PresetAnswer rows 2 nb (configure env s (LatticeBasis.init rows)
      [.addAtom (some l1) atom1.arg false 0, .addAtom (some l2) atom2.arg false 0,
        .addConnections nb true]) := by
  refine ⟨fun h => ?_, fun h h0 => ?_, fun h h0 => ?_⟩
  · rw [(LatticeBasis.init_error_iff rows).2 h]
    rfl
  · subst h0
    obtain ⟨b, hb⟩ := (LatticeBasis.init_eq_ok_iff rows).2 h
    obtain ⟨w1, at1, h1, hg, hf, hbas, hpos, -⟩ := addAtom_ok hd env (w := ⟨s, ofBasis b⟩)
      (good_ofBasis hb) rfl (hl1 b) (by simp [ofBasis]) atom1
    have hpos1 : w1.struct.positions = [p1] := by simpa [ofBasis] using hpos
    obtain ⟨w2, at2, h2, hg2, hf2, -, hpos2, -⟩ := addAtom_ok hd env hg hf (hl2 _)
      (by simpa [hpos1] using (hne h).symm) atom2
    obtain ⟨w3, h3⟩ := connections_zero env hg2 hf2 (by simp [hpos2])
    rw [hb]
    unfold configure
    dsimp only
    rw [calls_cons h1, calls_cons h2, calls, h3]
  · obtain ⟨b, hb⟩ := (LatticeBasis.init_eq_ok_iff rows).2 h
    obtain ⟨w, c, cells, A, h1, hC, he⟩ := configure_twoAtoms hd env s hb atom1 atom2 (hne h)
      (hl1 b) (hl2 b) h0
    exact ⟨w, c, h1, by rw [hC.basis]; exact LatticeBasis.init_vectors hb, hC.conn, hC.size, he, A,
      hC.analysis⟩

/-- C84: for every lattice constant and number of neighbour shells the presets raise `LinAlgError` if
the constant is zero, `NoConnectionsError` for zero shells, and otherwise return a lattice in which
all atoms are connected up to the given number of distances. -/
theorem C84_answers (env : Env ℝ) (s : Session) (a a2 x0 : ℝ) (atom atom2 : AtomSpec) (nb : ℕ) :
    PresetAnswer !![a] 1 nb (simpleChain env s a atom nb) ∧
    PresetAnswer !![a, 0; 0, a] 1 nb (simpleSquare env s a atom nb) ∧
    PresetAnswer !![a, 0; 0, a2] 1 nb (simpleRectangular env s a a2 atom nb) ∧
    PresetAnswer !![3 / 2 * a, Real.sqrt 3 / 2 * a; 3 / 2 * a, -(Real.sqrt 3 / 2) * a] 1 nb
      (simpleHexagonal env s a atom nb) ∧
    PresetAnswer !![a, 0, 0; 0, a, 0; 0, 0, a] 1 nb (simpleCubic env s a atom nb) ∧
    PresetAnswer !![a] 2 nb (alternatingChain env s a atom atom2 x0 nb) ∧
    PresetAnswer !![a / 2, a / 2, 0; a / 2, 0, a / 2; 0, a / 2, a / 2] 2 nb
      (naclStructure env s a atom atom2 nb) := by
  refine ⟨oneAtom_answer one_pos env s _ atom nb, ?_, oneAtom_answer two_pos env s _ atom nb, ?_, ?_,
    ?_, ?_⟩
  · have := oneAtom_answer two_pos env s (a • (1 : Matrix (Fin 2) (Fin 2) ℝ)) atom nb
    convert this using 1
    · ext i j
      fin_cases i <;> fin_cases j <;> simp
    · rfl
  · have := oneAtom_answer two_pos env s ((a / 2) • !![3, Real.sqrt 3; 3, -Real.sqrt 3]) atom nb
    convert this using 1
    · ext i j
      fin_cases i <;> fin_cases j <;> simp <;> ring
    · rfl
  · have := oneAtom_answer three_pos env s (a • (1 : Matrix (Fin 3) (Fin 3) ℝ)) atom nb
    convert this using 1
    · ext i j
      fin_cases i <;> fin_cases j <;> simp
    · rfl
  · refine twoAtoms_answer one_pos env s _ atom atom2 (p1 := ![(0 + x0) * a])
      (p2 := ![(1 / 2 + x0) * a]) ?_ (fun b => atomPos_one b _) (fun b => atomPos_one b _) nb
    intro h h'
    have := congrFun h' 0
    simp at this
    rw [det_fin_one] at h
    exact h (by simpa using this)
  · have := twoAtoms_answer three_pos env s ((a / 2) • !![(1 : ℝ), 1, 0; 1, 0, 1; 0, 1, 1]) atom atom2
      (p1 := ![0, 0, 0]) (p2 := ![a / 2, a / 2, a / 2]) ?_ (fun b => atomPos_three b _ _ _)
      (fun b => atomPos_three b _ _ _) nb
    · convert this using 1
      · ext i j
        fin_cases i <;> fin_cases j <;> simp
      · rfl
    · intro h h'
      have := congrFun h' 0
      simp at this
      apply h
      rw [det_smul, ← this]
      simp

/-- Both raising cases occur, and a square lattice with three shells is configured. -/
example (env : Env ℝ) (s : Session) : simpleSquare env s 0 .none 1 = .error .linalg ∧
    simpleSquare env s 1 .none 0 = .error .noConnections ∧
    ∃ w c, simpleSquare env s 1 .none 3 = .ok w ∧ w.struct.conn = some c ∧ c.entry 0 0 = 3 := by
  refine ⟨(C84_answers env s 0 0 0 .none .none 1).2.1.1 (by simp),
    (C84_answers env s 1 0 0 .none .none 0).2.1.2.1 (by simp) rfl, ?_⟩
  obtain ⟨w, c, h1, -, h2, -, h3, -⟩ := (C84_answers env s 1 0 0 .none .none 3).2.1.2.2 (by simp)
    (by norm_num)
  exact ⟨w, c, h1, h2, h3 0 0 (by norm_num) (by norm_num)⟩

/-- The only atom of `w` is the one asked for: the given object, without any change of the atoms that
exist already, or a new one with the given name (`A` if there is none), weight 1, radius 0.2 and no
colour. -/
def AtomAsked {d : ℕ} (s : Session) (w : World d ℝ) : AtomSpec → Prop
  | .obj a => w.struct.atoms = [a] ∧ w.session = s
  | .none => NewAtom s w "A"
  | .name n => NewAtom s w (if n = "" then "A" else n)
where
  /-- A new atom. -/
  NewAtom (s : Session) (w : World d ℝ) (n : String) : Prop :=
    ∃ at' : Atom, w.struct.atoms = [at'] ∧ at'.name = n ∧ at'.index = s.counter ∧
      at'.weight = .num 1 ∧ w.session.getItem at' "radius" = .ok (.num (1 / 5)) ∧
      w.session.getItem at' "color" = .ok .none ∧ w.session.len at' = 2 ∧
      w.session.atoms = s.atoms ++ [at'] ∧ w.session.counter = s.counter + 1 ∧
      w.session.params at' = [("color", .none), ("radius", .num (1 / 5))]

theorem addConnections_frame {d : ℕ} (hd : 0 < d) (env : Env ℝ) {w w' : World d ℝ} {nb : ℕ}
    (hw : w.struct.Good) (h : w.call env (.addConnections nb true) = (w', .ok ())) :
    w'.session = w.session ∧ w'.struct.atoms = w.struct.atoms := by
  have h : ((⟨w.session, (w.struct.addConnections env nb true).1⟩ : World d ℝ),
      (w.struct.addConnections env nb true).2) = (w', .ok ()) := h
  obtain ⟨h1, h2⟩ := Prod.mk.inj h
  subst h1
  refine ⟨rfl, ?_⟩
  cases hc : w.struct.conn with
  | none =>
    simp [addConnections, hc] at h2
  | some c0 =>
    have hsz := hw.conn_size c0 hc
    have hG : Good ({ w.struct with conn := some (c0.fill nb) } : Structure d ℝ) :=
      hw.setConn (c0.fill nb) hsz.1 hsz.2 (ConnMatrix.fill_symm _ _)
    have := (analyze_frame hd env hG).1
    simpa [addConnections, hc] using this

/-- The name of a new atom. -/
def givenName : Option String → String
  | none => "A"
  | some n => if n = "" then "A" else n

theorem oneAtom_asked {d : ℕ} (hd : 0 < d) {env : Env ℝ} {s : Session}
    {rows : Matrix (Fin d) (Fin d) ℝ} {atom : AtomSpec} {nb : ℕ} {w : World d ℝ}
    (h : configure env s (LatticeBasis.init rows) (oneAtom atom nb) = .ok w) :
    AtomAsked s w atom := by
  cases hb : LatticeBasis.init rows with
  | error e =>
    rw [hb] at h
    cases h
  | ok b =>
    rw [hb] at h
    unfold configure oneAtom at h
    dsimp only at h
    obtain ⟨w1, at1, h1, hg, -, -, -, hat, -, -, hobj⟩ := addAtom_ok hd env (w := ⟨s, ofBasis b⟩)
      (good_ofBasis hb) rfl (pos := none) (atomPos_none _) (by simp [ofBasis]) atom
    have hat : w1.struct.atoms = [at1] := by simpa [ofBasis] using hat
    rw [calls_cons h1, calls] at h
    split at h
    · rename_i w2 hcall
      rw [calls] at h
      cases h
      obtain ⟨k1, k2⟩ := addConnections_frame hd env hg hcall
      have hnew : ∀ (n : Option String), atom.arg = .new n (.num (1 / 5)) .none (.num 1) [] →
          AtomAsked.NewAtom s w (givenName n) := by
        intro n harg
        have h1 : (⟨s, ofBasis b⟩ : World d ℝ).addAtom env none atom.arg false 0 = (w1, .ok ()) := h1
        unfold World.addAtom at h1
        rw [harg] at h1
        have hpos : atomPos (⟨s, ofBasis b⟩ : World d ℝ).struct.basis none false = .ok 0 :=
          atomPos_none b
        rw [hpos] at h1
        dsimp only at h1
        rw [if_neg (by simp [ofBasis])] at h1
        unfold Session.create at h1
        rw [if_neg (by simp [PyDict.keys])] at h1
        dsimp only at h1
        rw [List.getLast?_concat] at h1
        dsimp only at h1
        obtain ⟨e1, -⟩ := Prod.mk.inj h1
        have hs : w1.session = { counter := s.counter + 1
                                 dicts := s.dicts ++ [[("color", .none), ("radius", .num (1 / 5))]]
                                 atoms := s.atoms ++
                                  [⟨s.counter, givenName n, .num 1, s.dicts.length⟩] } := by
          rw [← e1]
          cases n <;> rfl
        have ha : w1.struct.atoms = [⟨s.counter, givenName n, .num 1, s.dicts.length⟩] := by
          rw [← e1]
          dsimp only
          rw [(addAtomAt_ok hd env (good_ofBasis hb) 0 (by simp [ofBasis]) _ 0 rfl).2.2.1]
          cases n <;> rfl
        have hpar : w.session.params ⟨s.counter, givenName n, .num 1, s.dicts.length⟩ =
            [("color", .none), ("radius", .num (1 / 5))] := by
          rw [k1, hs]
          simp [Session.params]
        refine ⟨_, k2.trans ha, rfl, rfl, rfl, ?_, ?_, ?_, by rw [k1, hs], by rw [k1, hs], hpar⟩
        · unfold Session.getItem
          rw [hpar]
          rfl
        · unfold Session.getItem
          rw [hpar]
          rfl
        · unfold Session.len
          rw [hpar]
          rfl
      cases atom with
      | obj a =>
        obtain ⟨o1, o2⟩ := hobj a rfl
        exact ⟨by rw [k2, hat, o1], by rw [k1, o2]⟩
      | none => exact hnew none rfl
      | name n => exact hnew (some n) rfl
    · cases h

/-- C84: whenever one of the presets with one atom returns a lattice, its atom is the one asked for:
the given object or a new one with the given name, radius 0.2, weight 1 and no colour. -/
theorem C84_atoms (env : Env ℝ) (s : Session) (a a2 : ℝ) (atom : AtomSpec) (nb : ℕ) :
    (∀ w, simpleChain env s a atom nb = .ok w → AtomAsked s w atom) ∧
    (∀ w, simpleSquare env s a atom nb = .ok w → AtomAsked s w atom) ∧
    (∀ w, simpleRectangular env s a a2 atom nb = .ok w → AtomAsked s w atom) ∧
    (∀ w, simpleHexagonal env s a atom nb = .ok w → AtomAsked s w atom) ∧
    (∀ w, simpleCubic env s a atom nb = .ok w → AtomAsked s w atom) :=
  ⟨fun _ => oneAtom_asked one_pos, fun _ => oneAtom_asked two_pos, fun _ => oneAtom_asked two_pos,
    fun _ => oneAtom_asked two_pos, fun _ => oneAtom_asked three_pos⟩

/-- A cubic lattice of atoms `Cu`. -/
example (env : Env ℝ) (s : Session) : ∃ w at', simpleCubic env s 3 (.name "Cu") 1 = .ok w ∧
    w.struct.atoms = [at'] ∧ at'.name = "Cu" ∧
    w.session.getItem at' "radius" = .ok (.num (1 / 5)) := by
  obtain ⟨w, -, h1, -⟩ := (C84_answers env s 3 0 0 (.name "Cu") .none 1).2.2.2.2.1.2.2
    (by simp [det_fin_three]) one_pos
  obtain ⟨at', h2, h3, -, -, h4, -⟩ := (C84_atoms env s 3 0 (.name "Cu") 1).2.2.2.2 w h1
  exact ⟨w, at', h1, h2, by simpa using h3, h4⟩

end Lattpy
