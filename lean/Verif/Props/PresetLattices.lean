import Verif.Lemmas.Nearest
import Verif.Props.Presets

/-! # Properties C84 – C85 (the preset lattices of `__init__.py`) -/

set_option autoImplicit false

namespace Lattpy

open Structure Preset Matrix

variable {d : ℕ}

/-- The neighbours listed for atom `α` are the sites `N`, all of them at the distance `x`. -/
def NeighborsAre (w : World d ℝ) (α : ℕ) (x : ℝ) (N : Set (Idx d)) : Prop :=
  ∃ A, w.struct.analysis = some A ∧ ∀ (y : ℝ) (idx : Idx d), Listed A α y idx ↔ y = x ∧ idx ∈ N

theorem Preset.Configured.length {w : World d ℝ} {b ps c m cells A}
    (h : Configured w b ps c m cells A) : w.struct.positions.length = w.struct.numBase :=
  h.good.positions_length

/-- One atom and one shell. -/
theorem nearest_one {w : World d ℝ} {b : LatticeBasis d ℝ} {c cells A}
    (h : Configured w b [0] c 1 cells A) (hc : c.entry 0 0 = 1) {D : ℝ} (hD : 1 / 10 ^ 5 ≤ D)
    (N : Set (Fin d → ℤ)) (hne : N.Nonempty) (hN : ∀ n ∈ N, n ∈ cells ∧ shiftSq b 0 n = D ^ 2)
    (hgap : ∀ n, n ∉ N → shiftSq b 0 n = 0 ∨ 2 * D ^ 2 ≤ shiftSq b 0 n) :
    NeighborsAre w 0 (npRound 6 D) {idx | ∃ n ∈ N, idx = Idx.mk n 0} := by
  have h0 : w.struct.positions[0]? = some 0 := by rw [h.positions]; rfl
  have key := listed_nearest h.isAnalysis h0 h0 h.length hc hD N hne
    (by rw [h.basis, sub_self]; exact hN) (by rw [h.basis, sub_self]; exact hgap)
  refine ⟨A, h.analysis, ?_⟩
  intro y idx
  have hn1 : w.struct.numBase = 1 := by rw [← h.length, h.positions]; rfl
  constructor
  · intro hl
    obtain ⟨b', hb', n, rfl, -⟩ := listed_split h.isAnalysis hl
    have : b' = 0 := by omega
    subst this
    obtain ⟨h1, h2⟩ := (key y n).1 hl
    exact ⟨h1, n, h2, by simp⟩
  · rintro ⟨h1, n, h2, rfl⟩
    exact (key y n).2 ⟨h1, h2⟩

/-! ## hypercubic presets -/

theorem cubic_shiftSq {b : LatticeBasis d ℝ} {a : ℝ}
    (hv : b.vectors = a • (1 : Matrix (Fin d) (Fin d) ℝ)) (n : Fin d → ℤ) :
    shiftSq b 0 n = a ^ 2 * ((∑ i, n i ^ 2 : ℤ) : ℝ) := by
  unfold shiftSq
  push_cast
  rw [Finset.mul_sum]
  refine Finset.sum_congr rfl fun k _ => ?_
  rw [hv, Finset.sum_eq_single k (by intro i _ hi; simp [hi]) (by simp)]
  simp
  ring

theorem sq_eq_one_or {z : ℤ} (h : z ^ 2 = 1) : z = 1 ∨ z = -1 := by
  have : (z - 1) * (z + 1) = 0 := by linear_combination h
  rcases mul_eq_zero.1 this with h | h
  · left; omega
  · right; omega

theorem sum_sq_one_iff (n : Fin d → ℤ) :
    ∑ i, n i ^ 2 = 1 ↔ ∃ i, n = Pi.single i 1 ∨ n = Pi.single i (-1) := by
  constructor
  · intro h
    have hne : ∃ i, n i ≠ 0 := by
      by_contra hc
      push Not at hc
      rw [Finset.sum_eq_zero (by intro i _; simp [hc i])] at h
      omega
    obtain ⟨i, hi⟩ := hne
    have hsplit := Finset.add_sum_erase Finset.univ (fun i => n i ^ 2) (Finset.mem_univ i)
    have hrest : 0 ≤ ∑ j ∈ Finset.univ.erase i, n j ^ 2 := Finset.sum_nonneg fun _ _ => sq_nonneg _
    have hi1 : 1 ≤ n i ^ 2 := by
      have := sq_nonneg (n i)
      have h2 : n i ^ 2 ≠ 0 := pow_ne_zero _ hi
      omega
    have hz : ∑ j ∈ Finset.univ.erase i, n j ^ 2 = 0 := by omega
    have hz' := (Finset.sum_eq_zero_iff_of_nonneg fun _ _ => sq_nonneg _).1 hz
    have hsq : n i ^ 2 = 1 := by omega
    refine ⟨i, ?_⟩
    have hother : ∀ j, j ≠ i → n j = 0 := by
      intro j hj
      exact pow_eq_zero_iff (two_ne_zero) |>.1 (hz' j (by simp [hj]))
    rcases (sq_eq_one_or hsq) with h1 | h1
    · left
      funext j
      by_cases hj : j = i
      · subst hj; simp [h1]
      · simp [hj, hother j hj]
    · right
      funext j
      by_cases hj : j = i
      · subst hj; simp [h1]
      · simp [hj, hother j hj]
  · rintro ⟨i, rfl | rfl⟩ <;>
      rw [Finset.sum_eq_single i (by intro j _ hj; simp [hj]) (by simp)] <;> simp

/-- The neighbouring cells along the axes. -/
def axisCells (d : ℕ) : Set (Fin d → ℤ) := {n | ∃ i, n = Pi.single i 1 ∨ n = Pi.single i (-1)}

theorem cubic_nearest (hd : 0 < d) (env : Env ℝ) (s : Session) {a : ℝ} (ha : 1 / 10 ^ 5 ≤ |a|)
    (atom : AtomSpec) {rows : Matrix (Fin d) (Fin d) ℝ}
    (hrows : rows = a • (1 : Matrix (Fin d) (Fin d) ℝ)) :
    ∃ w, configure env s (LatticeBasis.init rows) (oneAtom atom 1) = .ok w ∧
      w.struct.positions = [0] ∧ w.struct.atoms.length = 1 ∧
      NeighborsAre w 0 (npRound 6 |a|) {idx | ∃ n ∈ axisCells d, idx = Idx.mk n 0} := by
  have ha0 : 0 < |a| := lt_of_lt_of_le (by positivity) ha
  have hdet : rows.det ≠ 0 := by
    rw [hrows, det_smul, det_one, mul_one]
    exact pow_ne_zero _ (abs_pos.1 ha0)
  obtain ⟨b, hb⟩ := (LatticeBasis.init_eq_ok_iff rows).2 hdet
  have hv : b.vectors = a • (1 : Matrix (Fin d) (Fin d) ℝ) := by
    rw [LatticeBasis.init_vectors hb, hrows]
  obtain ⟨w, c, cells, A, h1, hC, he⟩ := configure_oneAtom hd env s hb atom one_pos
  refine ⟨w, h1, hC.positions, hC.atoms, ?_⟩
  have hsq := cubic_shiftSq hv
  have ha2 : 0 < a ^ 2 := by rw [← sq_abs]; positivity
  refine nearest_one hC he ha (axisCells d) ⟨Pi.single ⟨0, hd⟩ 1, ⟨0, hd⟩, Or.inl rfl⟩ ?_ ?_
  · intro n hn
    have h1 := (sum_sq_one_iff n).2 hn
    refine ⟨mem_cells_few hd hC.searched ?_ {0} (by simp) ?_, by rw [hsq, h1, sq_abs]; simp⟩
    · intro k
      obtain ⟨i, rfl | rfl⟩ := hn <;> by_cases hk : k = i <;> simp [hk]
    · intro n' _ hlt
      rw [hsq, hsq, h1] at hlt
      have h2 : ((∑ i, n' i ^ 2 : ℤ) : ℝ) < ((1 : ℤ) : ℝ) := lt_of_mul_lt_mul_left hlt ha2.le
      have h3 : 0 ≤ ∑ i, n' i ^ 2 := Finset.sum_nonneg fun _ _ => sq_nonneg _
      have h4 : ∑ i, n' i ^ 2 < 1 := by exact_mod_cast h2
      have h5 : ∑ i, n' i ^ 2 = 0 := by omega
      rw [hsq, h5]
      simp
  · intro n hn
    rw [hsq, sq_abs]
    have h1 : ∑ i, n i ^ 2 ≠ 1 := fun h => hn ((sum_sq_one_iff n).1 h)
    have h3 : 0 ≤ ∑ i, n i ^ 2 := Finset.sum_nonneg fun _ _ => sq_nonneg _
    by_cases h0 : ∑ i, n i ^ 2 = 0
    · left; rw [h0]; simp
    · right
      have h2 : (2 : ℤ) ≤ ∑ i, n i ^ 2 := by omega
      have h2' : (2 : ℝ) ≤ ((∑ i, n i ^ 2 : ℤ) : ℝ) := by exact_mod_cast h2
      nlinarith

theorem exists_fin_three {p : Fin 3 → Prop} : (∃ i, p i) ↔ p 0 ∨ p 1 ∨ p 2 := by
  constructor
  · rintro ⟨i, hi⟩
    fin_cases i
    · exact Or.inl hi
    · exact Or.inr (Or.inl hi)
    · exact Or.inr (Or.inr hi)
  · rintro (h | h | h)
    exacts [⟨_, h⟩, ⟨_, h⟩, ⟨_, h⟩]

/-- C84 for the cubic presets: for every lattice constant that is resolved by the rounding of
distances to six decimals, every `atom` argument and every session, `simple_chain`,
`simple_square`, `simple_cubic` and the lattice of `finite_hypercubic` with `neighbors=1` have one
atom at the origin, whose neighbours are the `2 d` atoms of the next cells along the axes, all of
them one lattice constant away. -/
theorem C84_cubic_partial (env : Env ℝ) (s : Session) (a : ℝ) (ha : 1 / 10 ^ 5 ≤ |a|)
    (atom : AtomSpec) :
    (∃ w, simpleChain env s a atom 1 = .ok w ∧ w.struct.positions = [0] ∧
      NeighborsAre w 0 (npRound 6 |a|) {Idx.mk ![1] 0, Idx.mk ![-1] 0}) ∧
    (∃ w, simpleSquare env s a atom 1 = .ok w ∧ w.struct.positions = [0] ∧
      NeighborsAre w 0 (npRound 6 |a|)
        {Idx.mk ![1, 0] 0, Idx.mk ![-1, 0] 0, Idx.mk ![0, 1] 0, Idx.mk ![0, -1] 0}) ∧
    (∃ w, simpleCubic env s a atom 1 = .ok w ∧ w.struct.positions = [0] ∧
      NeighborsAre w 0 (npRound 6 |a|)
        {Idx.mk ![1, 0, 0] 0, Idx.mk ![-1, 0, 0] 0, Idx.mk ![0, 1, 0] 0, Idx.mk ![0, -1, 0] 0,
          Idx.mk ![0, 0, 1] 0, Idx.mk ![0, 0, -1] 0}) ∧
    (∀ d, 0 < d → ∃ w : World d ℝ,
      configure env s (LatticeBasis.hypercubic d a) (oneAtom atom 1) = .ok w ∧
      w.struct.positions = [0] ∧ NeighborsAre w 0 (npRound 6 |a|)
        {idx | ∃ i, idx = Idx.mk (Pi.single i 1) 0 ∨ idx = Idx.mk (Pi.single i (-1)) 0}) := by
  have hset : ∀ d, {idx : Idx d | ∃ n ∈ axisCells d, idx = Idx.mk n 0} =
      {idx | ∃ i, idx = Idx.mk (Pi.single i 1) 0 ∨ idx = Idx.mk (Pi.single i (-1)) 0} := by
    intro d
    ext idx
    constructor
    · rintro ⟨n, ⟨i, rfl | rfl⟩, rfl⟩
      · exact ⟨i, Or.inl rfl⟩
      · exact ⟨i, Or.inr rfl⟩
    · rintro ⟨i, rfl | rfl⟩
      · exact ⟨_, ⟨i, Or.inl rfl⟩, rfl⟩
      · exact ⟨_, ⟨i, Or.inr rfl⟩, rfl⟩
  refine ⟨?_, ?_, ?_, ?_⟩
  · obtain ⟨w, h1, h2, -, h3⟩ := cubic_nearest one_pos env s ha atom (rows := !![a]) (by
      ext i j; fin_cases i; fin_cases j; simp)
    refine ⟨w, h1, h2, ?_⟩
    rw [hset] at h3
    convert h3 using 1
    ext idx
    have e1 : (Pi.single 0 1 : Fin 1 → ℤ) = ![1] := by ext i; fin_cases i; rfl
    have e2 : (Pi.single 0 (-1) : Fin 1 → ℤ) = ![-1] := by ext i; fin_cases i; rfl
    simp [e1, e2]
  · obtain ⟨w, h1, h2, -, h3⟩ := cubic_nearest two_pos env s ha atom rfl
    refine ⟨w, h1, h2, ?_⟩
    rw [hset] at h3
    convert h3 using 1
    ext idx
    have e1 : ∀ z, (Pi.single 0 z : Fin 2 → ℤ) = ![z, 0] := by
      intro z; ext i; fin_cases i <;> rfl
    have e2 : ∀ z, (Pi.single 1 z : Fin 2 → ℤ) = ![0, z] := by
      intro z; ext i; fin_cases i <;> rfl
    simp [Fin.exists_fin_two, e1, e2, or_assoc]
  · obtain ⟨w, h1, h2, -, h3⟩ := cubic_nearest three_pos env s ha atom rfl
    refine ⟨w, h1, h2, ?_⟩
    rw [hset] at h3
    convert h3 using 1
    ext idx
    have e1 : ∀ z, (Pi.single 0 z : Fin 3 → ℤ) = ![z, 0, 0] := by
      intro z; ext i; fin_cases i <;> rfl
    have e2 : ∀ z, (Pi.single 1 z : Fin 3 → ℤ) = ![0, z, 0] := by
      intro z; ext i; fin_cases i <;> rfl
    have e3 : ∀ z, (Pi.single 2 z : Fin 3 → ℤ) = ![0, 0, z] := by
      intro z; ext i; fin_cases i <;> rfl
    simp [exists_fin_three, e1, e2, e3, or_assoc]
  · intro d hd
    obtain ⟨w, h1, h2, -, h3⟩ := cubic_nearest hd env s ha atom rfl
    rw [hset] at h3
    exact ⟨w, h1, h2, h3⟩

/-- The hypotheses of C84 are met, e.g. by the default constant and by a negative one. -/
example (env : Env ℝ) (s : Session) :
    (∃ w, simpleSquare env s 1 .none 1 = .ok w ∧ NeighborsAre w 0 (npRound 6 |1|)
      {Idx.mk ![1, 0] 0, Idx.mk ![-1, 0] 0, Idx.mk ![0, 1] 0, Idx.mk ![0, -1] 0}) ∧
    ∃ w, simpleChain env s (-2) (.name "B") 1 = .ok w ∧ NeighborsAre w 0 (npRound 6 |-2|)
      {Idx.mk ![1] 0, Idx.mk ![-1] 0} := by
  obtain ⟨w, h1, -, h2⟩ := (C84_cubic_partial env s 1 (by norm_num) .none).2.1
  obtain ⟨w', h3, -, h4⟩ := (C84_cubic_partial env s (-2) (by norm_num) (.name "B")).1
  exact ⟨⟨w, h1, h2⟩, w', h3, h4⟩

/-! ## hexagonal presets -/

theorem sqrt3_sq : Real.sqrt 3 ^ 2 = 3 := Real.sq_sqrt (by norm_num)

theorem hex_init {a : ℝ} (ha : a ≠ 0) :
    ∃ b, LatticeBasis.init ((a / 2) • !![3, Real.sqrt 3; 3, -Real.sqrt 3]) = .ok b ∧
      ∀ (r : Vec 2 ℝ) (n : Fin 2 → ℤ), shiftSq b r n =
        (r 0 + a / 2 * (3 * (n 0 + n 1))) ^ 2 + (r 1 + a / 2 * (Real.sqrt 3 * (n 0 - n 1))) ^ 2 := by
  have h0 : Real.sqrt 3 ≠ 0 := by positivity
  obtain ⟨b, hb, hv⟩ := LatticeBasis.init_of_det (rows := (a / 2) • !![3, Real.sqrt 3; 3, -Real.sqrt 3]) (by
    rw [det_smul, det_fin_two_of]
    refine mul_ne_zero (pow_ne_zero _ (by simpa using ha)) ?_
    intro h
    apply h0
    linarith)
  refine ⟨b, hb, ?_⟩
  intro r n
  unfold shiftSq
  rw [hv]
  simp [Fin.sum_univ_two]
  ring

/-- C84 for `simple_hexagonal` with `neighbors=1`: one atom at the origin with six neighbours at
the distance `√3 a`. -/
theorem C84_hexagonal_partial (env : Env ℝ) (s : Session) (a : ℝ) (ha : 1 / 10 ^ 5 ≤ |a|)
    (atom : AtomSpec) :
    ∃ w, simpleHexagonal env s a atom 1 = .ok w ∧ w.struct.positions = [0] ∧
      NeighborsAre w 0 (npRound 6 (Real.sqrt 3 * |a|))
        {Idx.mk ![1, 0] 0, Idx.mk ![-1, 0] 0, Idx.mk ![0, 1] 0, Idx.mk ![0, -1] 0,
          Idx.mk ![1, -1] 0, Idx.mk ![-1, 1] 0} := by
  have ha0 : 0 < |a| := lt_of_lt_of_le (by positivity) ha
  have ha2 : 0 < a ^ 2 := by rw [← sq_abs]; positivity
  obtain ⟨b, hb, hsq⟩ := hex_init (abs_pos.1 ha0)
  have hsq' : ∀ n : Fin 2 → ℤ, shiftSq b 0 n =
      3 * a ^ 2 * ((n 0 ^ 2 + n 0 * n 1 + n 1 ^ 2 : ℤ) : ℝ) := by
    intro n
    rw [hsq]
    push_cast
    simp only [Pi.zero_apply]
    linear_combination (a ^ 2 / 4 * ((n 0 : ℝ) - n 1) ^ 2) * sqrt3_sq
  have hq : ∀ n : Fin 2 → ℤ, 0 ≤ n 0 ^ 2 + n 0 * n 1 + n 1 ^ 2 := by
    intro n; nlinarith [sq_nonneg (n 0 + n 1), sq_nonneg (n 0), sq_nonneg (n 1)]
  have hD : 1 / 10 ^ 5 ≤ Real.sqrt 3 * |a| := by
    have : 1 ≤ Real.sqrt 3 := by rw [Real.one_le_sqrt]; norm_num
    nlinarith
  have hD2 : (Real.sqrt 3 * |a|) ^ 2 = 3 * a ^ 2 := by rw [mul_pow, sqrt3_sq, sq_abs]
  obtain ⟨w, c, cells, A, h1, hC, he⟩ := configure_oneAtom two_pos env s hb atom one_pos
  refine ⟨w, h1, hC.positions, ?_⟩
  have key := nearest_one hC he hD {n | n 0 ^ 2 + n 0 * n 1 + n 1 ^ 2 = 1} ⟨![1, 0], by simp⟩ ?_ ?_
  · convert key using 1
    ext idx
    constructor
    · rintro (rfl | rfl | rfl | rfl | rfl | rfl) <;> exact ⟨_, by simp, rfl⟩
    · rintro ⟨n, hn, rfl⟩
      have hn' : n 0 ^ 2 + n 0 * n 1 + n 1 ^ 2 = 1 := hn
      have b1 : -1 ≤ n 0 := by nlinarith [sq_nonneg (n 0 + 2 * n 1)]
      have b2 : n 0 ≤ 1 := by nlinarith [sq_nonneg (n 0 + 2 * n 1)]
      have b3 : -1 ≤ n 1 := by nlinarith [sq_nonneg (2 * n 0 + n 1)]
      have b4 : n 1 ≤ 1 := by nlinarith [sq_nonneg (2 * n 0 + n 1)]
      have hn2 : n = ![n 0, n 1] := by ext i; fin_cases i <;> rfl
      generalize n 0 = p at *
      generalize n 1 = q at *
      subst hn2
      interval_cases p <;> interval_cases q <;> simp_all
  · intro n hn
    have hn' : n 0 ^ 2 + n 0 * n 1 + n 1 ^ 2 = 1 := hn
    refine ⟨mem_cells_few two_pos hC.searched ?_ {0} (by simp) ?_, by rw [hsq', hn', hD2]; simp⟩
    · intro k
      have b1 : -1 ≤ n 0 := by nlinarith [sq_nonneg (n 0 + 2 * n 1)]
      have b2 : n 0 ≤ 1 := by nlinarith [sq_nonneg (n 0 + 2 * n 1)]
      have b3 : -1 ≤ n 1 := by nlinarith [sq_nonneg (2 * n 0 + n 1)]
      have b4 : n 1 ≤ 1 := by nlinarith [sq_nonneg (2 * n 0 + n 1)]
      have h4 : |n k| ≤ 1 := by
        fin_cases k
        · exact abs_le.2 ⟨b1, b2⟩
        · exact abs_le.2 ⟨b3, b4⟩
      exact h4.trans (by norm_num)
    · intro n' _ hlt
      rw [hsq', hsq', hn'] at hlt
      have h2 := lt_of_mul_lt_mul_left hlt (by positivity)
      have h4 : n' 0 ^ 2 + n' 0 * n' 1 + n' 1 ^ 2 < 1 := by exact_mod_cast h2
      have h5 : n' 0 ^ 2 + n' 0 * n' 1 + n' 1 ^ 2 = 0 := by have := hq n'; omega
      rw [hsq', h5]
      simp
  · intro n hn
    rw [hsq', hD2]
    have h3 := hq n
    have hn' : n 0 ^ 2 + n 0 * n 1 + n 1 ^ 2 ≠ 1 := hn
    by_cases h0 : n 0 ^ 2 + n 0 * n 1 + n 1 ^ 2 = 0
    · left; rw [h0]; simp
    · right
      have h2 : (2 : ℤ) ≤ n 0 ^ 2 + n 0 * n 1 + n 1 ^ 2 := by omega
      have h2' : (2 : ℝ) ≤ ((n 0 ^ 2 + n 0 * n 1 + n 1 ^ 2 : ℤ) : ℝ) := by exact_mod_cast h2
      nlinarith

/-- The hypothesis of C84 is met by the default constant. -/
example (env : Env ℝ) (s : Session) : ∃ w, simpleHexagonal env s 1 .none 1 = .ok w := by
  obtain ⟨w, h, -⟩ := C84_hexagonal_partial env s 1 (by norm_num) .none
  exact ⟨w, h⟩

/-- Two atoms, connected only to each other by one shell. -/
theorem nearest_pair {w : World d ℝ} {b : LatticeBasis d ℝ} {p1 p2 : Vec d ℝ} {c cells A}
    (h : Configured w b [p1, p2] c 1 cells A) (h00 : c.entry 0 0 = 0) (h01 : c.entry 0 1 = 1)
    (h10 : c.entry 1 0 = 1) (h11 : c.entry 1 1 = 0) {D : ℝ} (hD : 1 / 10 ^ 5 ≤ D)
    (N : Set (Fin d → ℤ)) (hne : N.Nonempty)
    (hN : ∀ n ∈ N, n ∈ cells ∧ -n ∈ cells ∧ shiftSq b (p2 - p1) n = D ^ 2)
    (hgap : ∀ n, n ∉ N → shiftSq b (p2 - p1) n = 0 ∨ 2 * D ^ 2 ≤ shiftSq b (p2 - p1) n) :
    NeighborsAre w 0 (npRound 6 D) {idx | ∃ n ∈ N, idx = Idx.mk n 1} ∧
    NeighborsAre w 1 (npRound 6 D) {idx | ∃ n ∈ N, idx = Idx.mk (-n) 0} := by
  have e0 : w.struct.positions[0]? = some p1 := by rw [h.positions]; rfl
  have e1 : w.struct.positions[1]? = some p2 := by rw [h.positions]; rfl
  have hneg : ∀ n, shiftSq b (p1 - p2) n = shiftSq b (p2 - p1) (-n) := by
    intro n
    unfold shiftSq
    refine Finset.sum_congr rfl fun k _ => ?_
    simp only [Pi.sub_apply, Pi.neg_apply, Int.cast_neg, neg_mul, Finset.sum_neg_distrib]
    ring
  have k0 := listed_nearest h.isAnalysis e0 e1 h.length h01 hD N hne
    (by rw [h.basis]; exact fun n hn => ⟨(hN n hn).1, (hN n hn).2.2⟩) (by rw [h.basis]; exact hgap)
  have k1 := listed_nearest h.isAnalysis e1 e0 h.length h10 hD {n | -n ∈ N}
    (by obtain ⟨n, hn⟩ := hne; exact ⟨-n, by simpa using hn⟩)
    (by
      rw [h.basis]
      intro n hn
      have := hN (-n) hn
      exact ⟨by simpa using this.2.1, by rw [hneg]; exact this.2.2⟩)
    (by rw [h.basis]; intro n hn; rw [hneg]; exact hgap (-n) hn)
  have hn2 : w.struct.numBase = 2 := by rw [← h.length, h.positions]; rfl
  refine ⟨⟨A, h.analysis, ?_⟩, ⟨A, h.analysis, ?_⟩⟩
  · intro y idx
    constructor
    · intro hl
      obtain ⟨b', hb', n, rfl, hpos⟩ := listed_split h.isAnalysis hl
      have : b' = 1 := by
        by_contra hb1
        have : b' = 0 := by omega
        subst this
        omega
      subst this
      obtain ⟨g1, g2⟩ := (k0 y n).1 hl
      exact ⟨g1, n, g2, by simp⟩
    · rintro ⟨g1, n, g2, rfl⟩
      exact (k0 y n).2 ⟨g1, g2⟩
  · intro y idx
    constructor
    · intro hl
      obtain ⟨b', hb', n, rfl, hpos⟩ := listed_split h.isAnalysis hl
      have : b' = 0 := by
        by_contra hb1
        have : b' = 1 := by omega
        subst this
        omega
      subst this
      obtain ⟨g1, g2⟩ := (k1 y n).1 hl
      exact ⟨g1, -n, g2, by simp⟩
    · rintro ⟨g1, n, g2, rfl⟩
      exact (k1 y (-n)).2 ⟨g1, by simpa using g2⟩

/-- The geometry of `honeycomb` and `graphene`. -/
theorem honeycomb_nearest {a : ℝ} (ha : 1 / 10 ^ 5 ≤ |a|) {w : World 2 ℝ} {b : LatticeBasis 2 ℝ}
    (hsq : ∀ (r : Vec 2 ℝ) (n : Fin 2 → ℤ), shiftSq b r n =
      (r 0 + a / 2 * (3 * (n 0 + n 1))) ^ 2 + (r 1 + a / 2 * (Real.sqrt 3 * (n 0 - n 1))) ^ 2)
    {c cells A} (h : Configured w b [![0, 0], ![a, 0]] c 1 cells A) (h00 : c.entry 0 0 = 0)
    (h01 : c.entry 0 1 = 1) (h10 : c.entry 1 0 = 1) (h11 : c.entry 1 1 = 0) :
    NeighborsAre w 0 (npRound 6 |a|) {Idx.mk ![0, 0] 1, Idx.mk ![-1, 0] 1, Idx.mk ![0, -1] 1} ∧
    NeighborsAre w 1 (npRound 6 |a|) {Idx.mk ![0, 0] 0, Idx.mk ![1, 0] 0, Idx.mk ![0, 1] 0} := by
  have ha0 : 0 < |a| := lt_of_lt_of_le (by positivity) ha
  have ha2 : 0 < a ^ 2 := by rw [← sq_abs]; positivity
  have hq0 : ∀ n : Fin 2 → ℤ, shiftSq b 0 n =
      3 * a ^ 2 * ((n 0 ^ 2 + n 0 * n 1 + n 1 ^ 2 : ℤ) : ℝ) := by
    intro n
    rw [hsq]
    push_cast
    simp only [Pi.zero_apply]
    linear_combination (a ^ 2 / 4 * ((n 0 : ℝ) - n 1) ^ 2) * sqrt3_sq
  have hq1 : ∀ n : Fin 2 → ℤ, shiftSq b (![a, 0] - ![0, 0]) n =
      a ^ 2 * (1 + 3 * ((n 0 ^ 2 + n 0 * n 1 + n 1 ^ 2 + n 0 + n 1 : ℤ) : ℝ)) := by
    intro n
    rw [hsq]
    push_cast
    simp only [Pi.sub_apply, Matrix.cons_val_zero, Matrix.cons_val_one]
    linear_combination (a ^ 2 / 4 * ((n 0 : ℝ) - n 1) ^ 2) * sqrt3_sq
  have ht : ∀ n : Fin 2 → ℤ, 0 ≤ n 0 ^ 2 + n 0 * n 1 + n 1 ^ 2 + n 0 + n 1 := by
    intro n
    have h1 : 0 < (n 0 + n 1 + 1) ^ 2 + n 0 ^ 2 + n 1 ^ 2 := by
      by_cases h : n 0 = 0 ∧ n 1 = 0
      · rw [h.1, h.2]; norm_num
      · rcases not_and_or.1 h with h | h
        · have := sq_pos_of_ne_zero h
          nlinarith [sq_nonneg (n 0 + n 1 + 1), sq_nonneg (n 1)]
        · have := sq_pos_of_ne_zero h
          nlinarith [sq_nonneg (n 0 + n 1 + 1), sq_nonneg (n 0)]
    nlinarith
  have hN : ∀ n : Fin 2 → ℤ, n 0 ^ 2 + n 0 * n 1 + n 1 ^ 2 + n 0 + n 1 = 0 ↔
      n = ![0, 0] ∨ n = ![-1, 0] ∨ n = ![0, -1] := by
    intro n
    constructor
    · intro hn
      have b1 : -1 ≤ n 0 := by nlinarith [sq_nonneg (n 0 + n 1 + 1), sq_nonneg (n 1)]
      have b2 : n 0 ≤ 1 := by nlinarith [sq_nonneg (n 0 + n 1 + 1), sq_nonneg (n 1)]
      have b3 : -1 ≤ n 1 := by nlinarith [sq_nonneg (n 0 + n 1 + 1), sq_nonneg (n 0)]
      have b4 : n 1 ≤ 1 := by nlinarith [sq_nonneg (n 0 + n 1 + 1), sq_nonneg (n 0)]
      have hn2 : n = ![n 0, n 1] := by ext i; fin_cases i <;> rfl
      generalize n 0 = p at *
      generalize n 1 = q at *
      subst hn2
      interval_cases p <;> interval_cases q <;> simp_all
    · rintro (rfl | rfl | rfl) <;> simp
  have hcell : ∀ n : Fin 2 → ℤ, n 0 ^ 2 + n 0 * n 1 + n 1 ^ 2 ≤ 1 → (∀ k, |n k| ≤ 1) →
      n ∈ cells := by
    intro n hn hk
    refine mem_cells_few two_pos h.searched (fun k => (hk k).trans (by norm_num)) {0} (by simp) ?_
    intro n' _ hlt
    rw [hq0, hq0] at hlt
    have h2 := lt_of_mul_lt_mul_left hlt (by positivity)
    have h4 : n' 0 ^ 2 + n' 0 * n' 1 + n' 1 ^ 2 < n 0 ^ 2 + n 0 * n 1 + n 1 ^ 2 := by
      exact_mod_cast h2
    have h3 : 0 ≤ n' 0 ^ 2 + n' 0 * n' 1 + n' 1 ^ 2 := by
      nlinarith [sq_nonneg (n' 0 + n' 1), sq_nonneg (n' 0), sq_nonneg (n' 1)]
    have h5 : n' 0 ^ 2 + n' 0 * n' 1 + n' 1 ^ 2 = 0 := by omega
    rw [hq0, h5]
    simp
  have hh1 : ∀ n ∈ {n : Fin 2 → ℤ | n = ![0, 0] ∨ n = ![-1, 0] ∨ n = ![0, -1]},
      n ∈ cells ∧ -n ∈ cells ∧ shiftSq b (![a, 0] - ![0, 0]) n = |a| ^ 2 := by
    intro n hn
    refine ⟨?_, ?_, by rw [hq1, (hN n).2 hn, sq_abs]; simp⟩
    · rcases hn with rfl | rfl | rfl <;> refine hcell _ (by simp) ?_ <;> intro k <;>
        fin_cases k <;> simp
    · rcases hn with rfl | rfl | rfl <;> refine hcell _ (by simp) ?_ <;> intro k <;>
        fin_cases k <;> simp
  have hh2 : ∀ n, n ∉ {n : Fin 2 → ℤ | n = ![0, 0] ∨ n = ![-1, 0] ∨ n = ![0, -1]} →
      shiftSq b (![a, 0] - ![0, 0]) n = 0 ∨
        2 * |a| ^ 2 ≤ shiftSq b (![a, 0] - ![0, 0]) n := by
    intro n hn
    right
    rw [hq1, sq_abs]
    have h1 := ht n
    have h2 : n 0 ^ 2 + n 0 * n 1 + n 1 ^ 2 + n 0 + n 1 ≠ 0 := fun h => hn ((hN n).1 h)
    have h3 : (1 : ℤ) ≤ n 0 ^ 2 + n 0 * n 1 + n 1 ^ 2 + n 0 + n 1 := by omega
    have h3' : (1 : ℝ) ≤ ((n 0 ^ 2 + n 0 * n 1 + n 1 ^ 2 + n 0 + n 1 : ℤ) : ℝ) := by
      exact_mod_cast h3
    nlinarith
  obtain ⟨g0, g1⟩ := nearest_pair h h00 h01 h10 h11 ha
    {n | n = ![0, 0] ∨ n = ![-1, 0] ∨ n = ![0, -1]} ⟨![0, 0], Or.inl rfl⟩ hh1 hh2
  constructor
  · convert g0 using 1
    ext idx
    constructor
    · rintro (rfl | rfl | rfl) <;> exact ⟨_, by simp, rfl⟩
    · rintro ⟨n, rfl | rfl | rfl, rfl⟩ <;> simp
  · convert g1 using 1
    ext idx
    constructor
    · rintro (rfl | rfl | rfl)
      · exact ⟨![0, 0], by simp, by simp⟩
      · exact ⟨![-1, 0], by simp, by simp⟩
      · exact ⟨![0, -1], by simp, by simp⟩
    · rintro ⟨n, rfl | rfl | rfl, rfl⟩ <;> simp

theorem atomPos_two (b : LatticeBasis 2 ℝ) (x y : ℝ) :
    atomPos b (some [x, y]) false = .ok ![x, y] := by
  have h : (toVec [x, y] : Option (Vec 2 ℝ)) = some ![x, y] := by
    unfold toVec
    rw [dif_pos (by rfl)]
    congr 1
    ext i
    fin_cases i <;> rfl
  unfold atomPos
  simp only [h, Bool.false_eq_true, if_false]

theorem create_plain (s : Session) (name : Option String) (color : PyVal) :
    ∃ s' at', s.create name (.num (1 / 5)) color (.num 1) [] = .ok s' ∧
      s'.atoms.getLast? = some at' := by
  have h : s.create name (.num (1 / 5)) color (.num 1) [] = .ok
      ⟨s.counter + 1, s.dicts ++ [[("color", color), ("radius", .num (1 / 5))]],
        s.atoms ++ [⟨s.counter, (match name with
          | none => "A"
          | some n => if n = "" then "A" else n), .num 1, s.dicts.length⟩]⟩ := by
    unfold Session.create
    rw [if_neg (by simp [PyDict.keys])]
    rfl
  exact ⟨_, _, h, List.getLast?_concat⟩

/-- The configuration of `honeycomb`. -/
theorem honeycomb_pair (env : Env ℝ) (s : Session) {a : ℝ} (ha : a ≠ 0) (atom : AtomSpec) :
    ∃ w at' b c cells A, LatticeBasis.hexagonal a = .ok b ∧ honeycomb env s a atom = .ok w ∧
      Configured w b [![0, 0], ![a, 0]] c 1 cells A ∧ w.struct.atoms = [at', at'] ∧
      (∀ x, atom = .obj x → at' = x) ∧ c.entry 0 0 = 0 ∧ c.entry 0 1 = 1 ∧ c.entry 1 0 = 1 ∧
      c.entry 1 1 = 0 := by
  obtain ⟨b, hb, -⟩ := hex_init ha
  have hne : (![0, 0] : Vec 2 ℝ) ≠ ![a, 0] := by
    intro h
    have := congrFun h 0
    simp at this
    exact ha this.symm
  have key : ∀ (s' : Session) (at' : Atom), ∃ w c cells A,
      configure env s' (LatticeBasis.hexagonal a) (honeycombOps a at') = .ok w ∧
      Configured w b [![0, 0], ![a, 0]] c 1 cells A ∧ w.struct.atoms = [at', at'] ∧
      c.entry 0 0 = 0 ∧ c.entry 0 1 = 1 ∧ c.entry 1 0 = 1 ∧ c.entry 1 1 = 0 := by
    intro s' at'
    obtain ⟨w, c, cells, A, h1, hC, hat, -, g⟩ := configure_pair two_pos env s' hb at' at'
      hne (atomPos_two b 0 0) (atomPos_two b a 0) (.num 0) (.num 1) (by
        intro S _
        exact ⟨rfl, rfl⟩)
    exact ⟨w, c, cells, A, h1, hC, hat, g⟩
  have hnew : ∀ other : AtomSpec, (∀ x, other ≠ .obj x) → ∃ (s' : Session) (at' : Atom),
      honeycomb env s a other = configure env s' (LatticeBasis.hexagonal a) (honeycombOps a at') := by
    intro other ho
    obtain ⟨s', at', hc, hl⟩ := create_plain s (honeycombName other) (.str "C0")
    refine ⟨s', at', ?_⟩
    cases other with
    | obj x => exact absurd rfl (ho x)
    | none => unfold honeycomb; dsimp only; rw [hc]; dsimp only; rw [hl]
    | name n => unfold honeycomb; dsimp only; rw [hc]; dsimp only; rw [hl]
  by_cases ho : ∃ x, atom = .obj x
  · obtain ⟨x, rfl⟩ := ho
    obtain ⟨w, c, cells, A, h1, h2, h3, h4⟩ := key s x
    exact ⟨w, x, b, c, cells, A, hb, h1, h2, h3, by intro y hy; cases hy; rfl, h4⟩
  · push Not at ho
    obtain ⟨s', at', he⟩ := hnew atom ho
    obtain ⟨w, c, cells, A, h1, h2, h3, h4⟩ := key s' at'
    exact ⟨w, at', b, c, cells, A, hb, he.trans h1, h2, h3, fun x hx => absurd hx (ho x), h4⟩

/-- C84 for `honeycomb`: two sites holding the same atom, each with three neighbours, which are of
the other site and at the distance `a`. -/
theorem C84_honeycomb_partial (env : Env ℝ) (s : Session) (a : ℝ) (ha : 1 / 10 ^ 5 ≤ |a|)
    (atom : AtomSpec) :
    ∃ w at', honeycomb env s a atom = .ok w ∧ w.struct.atoms = [at', at'] ∧
      (∀ x, atom = .obj x → at' = x) ∧ w.struct.positions = [![0, 0], ![a, 0]] ∧
      NeighborsAre w 0 (npRound 6 |a|) {Idx.mk ![0, 0] 1, Idx.mk ![-1, 0] 1, Idx.mk ![0, -1] 1} ∧
      NeighborsAre w 1 (npRound 6 |a|) {Idx.mk ![0, 0] 0, Idx.mk ![1, 0] 0, Idx.mk ![0, 1] 0} := by
  have ha0 : 0 < |a| := lt_of_lt_of_le (by positivity) ha
  obtain ⟨b, hb, hsq⟩ := hex_init (abs_pos.1 ha0)
  obtain ⟨w, at', b', c, cells, A, hb', h1, hC, h2, h3, g1, g2, g3, g4⟩ :=
    honeycomb_pair env s (abs_pos.1 ha0) atom
  cases hb.symm.trans hb'
  obtain ⟨k1, k2⟩ := honeycomb_nearest ha hsq hC g1 g2 g3 g4
  exact ⟨w, at', h1, h2, h3, hC.positions, k1, k2⟩

/-- The hypothesis of C84 is met by the default constant, with and without an atom. -/
example (env : Env ℝ) (s : Session) (x : Atom) : (∃ w, honeycomb env s 1 .none = .ok w) ∧
    ∃ w, honeycomb env s 1 (.obj x) = .ok w ∧ w.struct.atoms = [x, x] := by
  obtain ⟨w, _, h, -⟩ := C84_honeycomb_partial env s 1 (by norm_num) .none
  obtain ⟨w', at', h', h1, h2, -⟩ := C84_honeycomb_partial env s 1 (by norm_num) (.obj x)
  exact ⟨⟨w, h⟩, w', h', by rw [h1, h2 x rfl]⟩

/-- The configuration of `graphene`. -/
theorem graphene_pair (env : Env ℝ) (s : Session) {a : ℝ} (ha : a ≠ 0) :
    ∃ w b c cells A, LatticeBasis.hexagonal a = .ok b ∧ graphene env s a = .ok w ∧
      Configured w b [![0, 0], ![a, 0]] c 1 cells A ∧
      w.struct.atoms.map Atom.name = ["C1", "C2"] ∧ c.entry 0 0 = 0 ∧ c.entry 0 1 = 1 ∧
      c.entry 1 0 = 1 ∧ c.entry 1 1 = 0 := by
  obtain ⟨b, hb, -⟩ := hex_init ha
  have hne : (![0, 0] : Vec 2 ℝ) ≠ ![a, 0] := by
    intro h
    have := congrFun h 0
    simp at this
    exact ha this.symm
  set dict : PyDict := [("color", .none), ("radius", .num (1 / 5))] with hdict
  set at1 : Atom := ⟨s.counter, "C1", .num 1, s.dicts.length⟩ with hat1
  set at2 : Atom := ⟨s.counter + 1, "C2", .num 1, s.dicts.length + 1⟩ with hat2
  set s2 : Session := ⟨s.counter + 1 + 1, s.dicts ++ [dict] ++ [dict], s.atoms ++ [at1] ++ [at2]⟩
    with hs2
  have hgr : graphene env s a =
      configure env s2 (LatticeBasis.hexagonal a) (grapheneOps a at1 at2) := by
    unfold graphene Session.create
    rw [if_neg (by simp [PyDict.keys])]
    dsimp only
    rw [if_neg (by simp [PyDict.keys])]
    dsimp only
    simp only [List.getLast?_concat, List.length_append, List.length_singleton]
    rfl
  have hp2 : s2.nameAttr at2 = .str "C2" := by
    simp [Session.nameAttr, Session.params, hs2, hat2, hdict, PyDict.get?, List.lookup]
  obtain ⟨w, c, cells, A, h1, hC, hat, -, g1, g2, g3, g4⟩ := configure_pair two_pos env s2 hb at1 at2
    hne (atomPos_two b 0 0) (atomPos_two b a 0) (.obj at1) (.obj at2) (by
      intro S hS
      unfold getAlpha
      rw [hS]
      constructor
      · have : findFirst (fun at' => s2.same at' at1) [at1, at2] = .ok (some 0) :=
          findFirst_some (x := at1) rfl (if_pos rfl) (by omega)
        simp [this]
      · suffices this : findFirst (fun at' => s2.same at' at2) [at1, at2] = .ok (some 1) by
          simp [this]
        refine findFirst_some (x := at2) rfl (if_pos rfl) ?_
        intro j hj y hy
        obtain rfl : j = 0 := by omega
        cases hy
        rw [Session.same_of_no_method (by
          simp [Session.iter, Session.params, hs2, hat1, hdict, PyDict.keys])]
        rw [hp2]
        simp [hat1, hat2])
  exact ⟨w, b, c, cells, A, hb, hgr.trans h1, hC, by rw [hat]; rfl, g1, g2, g3, g4⟩

/-- C84 for `graphene`: two sites with atoms named `C1` and `C2`, each with three neighbours, which
are of the other kind and at the distance `a`. -/
theorem C84_graphene_partial (env : Env ℝ) (s : Session) (a : ℝ) (ha : 1 / 10 ^ 5 ≤ |a|) :
    ∃ w, graphene env s a = .ok w ∧ w.struct.atoms.map Atom.name = ["C1", "C2"] ∧
      w.struct.positions = [![0, 0], ![a, 0]] ∧
      NeighborsAre w 0 (npRound 6 |a|) {Idx.mk ![0, 0] 1, Idx.mk ![-1, 0] 1, Idx.mk ![0, -1] 1} ∧
      NeighborsAre w 1 (npRound 6 |a|) {Idx.mk ![0, 0] 0, Idx.mk ![1, 0] 0, Idx.mk ![0, 1] 0} := by
  have ha0 : 0 < |a| := lt_of_lt_of_le (by positivity) ha
  obtain ⟨b, hb, hsq⟩ := hex_init (abs_pos.1 ha0)
  obtain ⟨w, b', c, cells, A, hb', h1, hC, h2, g1, g2, g3, g4⟩ :=
    graphene_pair env s (abs_pos.1 ha0)
  cases hb.symm.trans hb'
  obtain ⟨k1, k2⟩ := honeycomb_nearest ha hsq hC g1 g2 g3 g4
  exact ⟨w, h1, h2, hC.positions, k1, k2⟩

/-- The hypothesis of C84 is met by the default constant. -/
example (env : Env ℝ) (s : Session) : ∃ w, graphene env s 1 = .ok w := by
  obtain ⟨w, h, -⟩ := C84_graphene_partial env s 1 (by norm_num)
  exact ⟨w, h⟩

end Lattpy
