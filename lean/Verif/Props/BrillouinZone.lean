import Verif.Props.WignerSeitz3

/-! C87: the first Brillouin zone of a basis. -/

set_option autoImplicit false

namespace Lattpy

open Matrix LatticeBasis

variable {d : ℕ}

/-- `G` is a vector of the reciprocal lattice of the basis `rows`. -/
def IsReciprocal (rows : Matrix (Fin d) (Fin d) ℝ) (G : Vec d ℝ) : Prop :=
  ∀ i, ∃ m : ℤ, rows i ⬝ᵥ G = 2 * Real.pi * m

/-- The answers `f` describe the first Brillouin zone: accepted wave vectors are at least as close
to zero as to every vector of the reciprocal lattice, and wave vectors strictly closer to zero than
to all others are accepted. -/
def IsZone (rows : Matrix (Fin d) (Fin d) ℝ) (f : Vec d ℝ → Bool) : Prop :=
  ∀ k, (f k = true → ∀ G, IsReciprocal rows G → distance k 0 ≤ distance k G) ∧
    ((∀ G, G ≠ 0 → IsReciprocal rows G → distance k 0 < distance k G) → f k = true)

theorem dual_unique {A R R' : Matrix (Fin d) (Fin d) ℝ} (hA : A.det ≠ 0)
    (h : ∀ i j, A i ⬝ᵥ R j = if i = j then 2 * Real.pi else 0)
    (h' : ∀ i j, A i ⬝ᵥ R' j = if i = j then 2 * Real.pi else 0) : R = R' := by
  have e : A * Rᵀ = A * R'ᵀ := by rw [dual_matrix h, dual_matrix h']
  have hu : IsUnit A.det := isUnit_iff_ne_zero.2 hA
  have := congrArg (fun M => A⁻¹ * M) e
  simp only [Matrix.nonsing_inv_mul_cancel_left _ _ hu] at this
  exact transpose_injective this

theorem dual_det {A R : Matrix (Fin d) (Fin d) ℝ}
    (h : ∀ i j, A i ⬝ᵥ R j = if i = j then 2 * Real.pi else 0) : R.det ≠ 0 := by
  intro hc
  have h3 := congrArg Matrix.det (dual_matrix h)
  rw [det_mul, det_transpose, hc, mul_zero, det_smul, det_one, mul_one] at h3
  exact absurd h3.symm (pow_ne_zero _ (by positivity))

/-- The reciprocal vectors are the integer combinations of the dual basis. -/
theorem isReciprocal_iff {A R : Matrix (Fin d) (Fin d) ℝ} (hA : A.det ≠ 0)
    (h : ∀ i j, A i ⬝ᵥ R j = if i = j then 2 * Real.pi else 0) (G : Vec d ℝ) :
    IsReciprocal A G ↔ ∃ n, G = latPoint R n := by
  have hdot : ∀ (n : Fin d → ℤ) i, A i ⬝ᵥ latPoint R n = 2 * Real.pi * n i := by
    intro n i
    have : A i ⬝ᵥ latPoint R n = ∑ j, (n j : ℝ) * (A i ⬝ᵥ R j) := by
      unfold latPoint
      simp only [dotProduct, Finset.mul_sum]
      rw [Finset.sum_comm]
      exact Finset.sum_congr rfl fun j _ => Finset.sum_congr rfl fun k _ => by ring
    rw [this, Finset.sum_eq_single i]
    · rw [h, if_pos rfl]; ring
    · intro j _ hj; rw [h, if_neg (Ne.symm hj), mul_zero]
    · simp
  constructor
  · intro hG
    choose n hn using hG
    refine ⟨n, ?_⟩
    rw [← sub_eq_zero]
    refine eq_zero_of_mulVec_eq_zero hA ?_
    funext i
    change A i ⬝ᵥ (G - latPoint R n) = 0
    rw [dotProduct_sub, hn, hdot, sub_self]
  · rintro ⟨n, rfl⟩ i
    exact ⟨n i, hdot n i⟩

/-- The zone is the Wigner-Seitz cell of the dual basis. -/
theorem brillouinZone_eq (hd : 1 ≤ d ∧ d ≤ 3) {rows : Matrix (Fin d) (Fin d) ℝ}
    {b : LatticeBasis d ℝ} (hb : LatticeBasis.init rows = .ok b) (minNegative : Bool)
    {R : Matrix (Fin d) (Fin d) ℝ}
    (h : ∀ i j, rows i ⬝ᵥ R j = if i = j then 2 * Real.pi else 0) :
    ∃ rb, LatticeBasis.init R = .ok rb ∧
      ∀ q : Qhull d, b.brillouinZone q minNegative = rb.wignerSeitzCell q := by
  obtain ⟨rb, h1, h2⟩ := C06_reciprocal_lattice hd rows b hb minNegative
  have hdet := (init_eq_ok_iff rows).1 ⟨b, hb⟩
  have hR : rb.vectors = R := dual_unique hdet h2 h
  refine ⟨rb, ?_, fun q => by rw [brillouinZone, h1]⟩
  have hrec := h1
  unfold reciprocalLattice at hrec
  split at hrec
  · rename_i r _
    have := init_vectors hrec
    rw [← hR, this]
    exact hrec
  · cases hrec

theorem isZone_of_isCell {rows R : Matrix (Fin d) (Fin d) ℝ} (hA : rows.det ≠ 0)
    (h : ∀ i j, rows i ⬝ᵥ R j = if i = j then 2 * Real.pi else 0) {rb : LatticeBasis d ℝ}
    (hrb : LatticeBasis.init R = .ok rb) {f : Vec d ℝ → Bool} (hf : IsCell R f) :
    IsZone rows f := by
  intro k
  refine ⟨fun hk G hG => ?_, fun hk => (hf k).2 fun n hn => hk _ ?_ ?_⟩
  · obtain ⟨n, rfl⟩ := (isReciprocal_iff hA h G).1 hG
    exact (hf k).1 hk n
  · rwa [Ne, latPoint_eq_zero hrb]
  · exact (isReciprocal_iff hA h _).2 ⟨n, rfl⟩

/-- C87, what holds for every basis: in one, two and three dimensions the call raises only if the
points used lie in a hyperplane, and every wave vector strictly closer to zero than to all other
vectors of the reciprocal lattice is accepted; in more dimensions the call raises. -/
theorem C87_general_partial (hd : 1 ≤ d) (q : Qhull d) (env : Env ℝ)
    (rows : Matrix (Fin d) (Fin d) ℝ) (b : LatticeBasis d ℝ)
    (hb : LatticeBasis.init rows = .ok b) (minNegative : Bool) :
    (d ≤ 3 → (b.brillouinZone q minNegative = .error .qhull ∨
        ∃ w, b.brillouinZone q minNegative = .ok w) ∧
      ∀ w, b.brillouinZone q minNegative = .ok w → ∀ k,
        (∀ G, G ≠ 0 → IsReciprocal rows G → distance k 0 < distance k G) →
          w.check env k = true) ∧
    (3 < d → b.brillouinZone q minNegative = .error .value) := by
  constructor
  · intro hd3
    obtain ⟨rb, h1, h2⟩ := C06_reciprocal_lattice ⟨hd, hd3⟩ rows b hb minNegative
    obtain ⟨rb', hrb, hz⟩ := brillouinZone_eq ⟨hd, hd3⟩ hb minNegative h2
    obtain ⟨g1, g2⟩ := C86_general_partial q env _ rb' hrb
    have hdet := (init_eq_ok_iff rows).1 ⟨b, hb⟩
    rw [hz]
    refine ⟨g1, fun w hw k hk => ((g2 w hw).2.2 k).1 fun n hn => hk _ ?_ ?_⟩
    · rwa [Ne, latPoint_eq_zero hrb]
    · exact (isReciprocal_iff hdet h2 _).2 ⟨n, rfl⟩
  · intro hd3
    rw [brillouinZone, reciprocalLattice, (C06_unchecked b _ false).2 hd3]

example : (LatticeBasis.init (1 : Matrix (Fin 2) (Fin 2) ℝ)).isOk = true := by
  simp [LatticeBasis.init, Except.isOk, Except.toBool]

/-- C87 for hypercubic lattices in one, two and three dimensions: the zone is the cube
`|k_i| ≤ π / |a|`. -/
theorem C87_cubic_partial (hd : 1 ≤ d ∧ d ≤ 3) (q : Qhull d) (env : Env ℝ) (a : ℝ) (ha : a ≠ 0)
    (minNegative : Bool) :
    ∃ b w, hypercubic d a = .ok b ∧ b.brillouinZone q minNegative = .ok w ∧
      IsZone (a • (1 : Matrix (Fin d) (Fin d) ℝ)) (w.check env) ∧
      (∀ x, (w.check env x = true → ∀ k, |x k| ≤ Real.pi / |a|) ∧
        ((∀ k, |x k| < Real.pi / |a|) → w.check env x = true)) ∧
      (1 / 10 ^ 7 ≤ 2 * Real.pi / |a| → ∀ v, v ∈ w.vertices ↔ ∀ k, |v k| = Real.pi / |a|) := by
  have hdet : (a • (1 : Matrix (Fin d) (Fin d) ℝ)).det ≠ 0 := by
    rw [det_smul, det_one, mul_one]; exact pow_ne_zero _ ha
  obtain ⟨b, hb⟩ := (init_eq_ok_iff (a • (1 : Matrix (Fin d) (Fin d) ℝ))).2 hdet
  have hdual : ∀ i j, (a • (1 : Matrix (Fin d) (Fin d) ℝ)) i ⬝ᵥ
      ((2 * Real.pi / a) • (1 : Matrix (Fin d) (Fin d) ℝ)) j =
        if i = j then 2 * Real.pi else 0 := by
    intro i j
    have e : ((2 * Real.pi / a) • (1 : Matrix (Fin d) (Fin d) ℝ)) j =
        Pi.single j (2 * Real.pi / a) := by
      funext k
      by_cases hk : k = j
      · subst hk; simp
      · simp [Ne.symm hk]
    rw [e, dotProduct_single]
    by_cases hij : i = j
    · subst hij
      simp
      field_simp
    · simp [hij]
  obtain ⟨rb, hrb, hz⟩ := brillouinZone_eq hd hb minNegative hdual
  have ha' : 2 * Real.pi / a ≠ 0 := div_ne_zero (by positivity) ha
  have habs : |2 * Real.pi / a| / 2 = Real.pi / |a| := by
    rw [abs_div, abs_of_pos (by positivity)]; ring
  obtain ⟨rb', w, hrb', hw, hcell, hx⟩ := C86_cubic_partial hd.1 q env (2 * Real.pi / a) ha'
  have hrr : LatticeBasis.init ((2 * Real.pi / a) • (1 : Matrix (Fin d) (Fin d) ℝ)) = .ok rb' := hrb'
  obtain rfl : rb = rb' := by rw [hrb] at hrr; exact Except.ok.inj hrr
  refine ⟨b, w, hb, by rw [hz, hw], isZone_of_isCell hdet hdual hrb hcell, ?_, ?_⟩
  · intro x
    rw [← habs]
    exact hx x
  · intro hsmall v
    obtain ⟨rb', w', hrb', hw', hv, -⟩ := C86_cubic_vertices_partial hd.1 q (2 * Real.pi / a) (by
      rw [abs_div, abs_of_pos (by positivity)]; exact hsmall)
    have hrr' : LatticeBasis.init ((2 * Real.pi / a) • (1 : Matrix (Fin d) (Fin d) ℝ)) = .ok rb' :=
      hrb'
    obtain rfl : rb = rb' := by rw [hrb] at hrr'; exact Except.ok.inj hrr'
    obtain rfl : w = w' := by rw [hw] at hw'; exact Except.ok.inj hw'
    rw [hv v, habs]

example : ∃ b w, hypercubic 2 1 = .ok b ∧ b.brillouinZone (Qhull.exact 2) false = .ok w ∧
    w.check (Env.brute ℝ) ![1, -3 / 2] = true ∧ w.check (Env.brute ℝ) ![5, 0] = false := by
  obtain ⟨b, w, h1, h2, -, h3, -⟩ := C87_cubic_partial (d := 2) (by norm_num) (Qhull.exact 2)
    (Env.brute ℝ) 1 (by norm_num) false
  have hpi := Real.two_le_pi
  have hpi4 := Real.pi_le_four
  refine ⟨b, w, h1, h2, (h3 _).2 fun k => ?_, ?_⟩
  · fin_cases k <;> simp [abs_div] <;> linarith
  · by_contra hne
    have := (h3 _).1 (by simpa using hne) 0
    simp at this
    linarith

/-- C87 for the hexagonal lattice. -/
theorem C87_hexagonal_partial (q : Qhull 2) (env : Env ℝ) (a : ℝ) (ha : a ≠ 0)
    (minNegative : Bool) :
    ∃ b w, hexagonal a = .ok b ∧ b.brillouinZone q minNegative = .ok w ∧
      IsZone ((a / 2) • !![3, Real.sqrt 3; 3, -Real.sqrt 3]) (w.check env) := by
  obtain ⟨b, hb, -⟩ := C80_hexagonal a ha
  have hdet := (init_eq_ok_iff _).1 ⟨b, hb⟩
  have h32 : Real.sqrt 3 ^ 2 = 3 := Real.sq_sqrt (by norm_num)
  set R : Matrix (Fin 2) (Fin 2) ℝ := (2 * Real.pi / (3 * a)) • !![1, Real.sqrt 3; 1, -Real.sqrt 3]
    with hR
  have hdual : ∀ i j, ((a / 2) • !![3, Real.sqrt 3; 3, -Real.sqrt 3]) i ⬝ᵥ R j =
      if i = j then 2 * Real.pi else 0 := by
    intro i j
    fin_cases i <;> fin_cases j <;> simp [hR, dotProduct, Fin.sum_univ_two] <;> field_simp <;>
      rw [h32] <;> ring
  obtain ⟨rb, hrb, hz⟩ := brillouinZone_eq (by norm_num) hb minNegative hdual
  have hpi := Real.pi_pos
  have hl : (4 * Real.pi / (3 * |a|)) ^ 2 = 16 * Real.pi ^ 2 / (9 * a ^ 2) := by
    rw [div_pow, mul_pow, mul_pow, sq_abs]; norm_num
  obtain ⟨w, hw, hcell⟩ := isCell_hex hrb q env (ℓ := 4 * Real.pi / (3 * |a|)) (σ := -1)
    (by positivity) (.inr rfl) (by
      rw [hl]
      simp [hR, dotProduct, Fin.sum_univ_two]
      field_simp
      rw [h32]
      ring) (by
      rw [hl]
      simp [hR, dotProduct, Fin.sum_univ_two]
      field_simp
      rw [h32]
      ring) (by
      rw [hl]
      simp [hR, dotProduct, Fin.sum_univ_two]
      field_simp
      rw [h32]
      ring)
  exact ⟨b, w, hb, by rw [hz, hw], isZone_of_isCell hdet hdual hrb hcell⟩

/-- C87 for the body-centred cubic lattice (its reciprocal lattice is face-centred). -/
theorem C87_bcc_partial (q : Qhull 3) (env : Env ℝ) (a : ℝ) (ha : a ≠ 0) (minNegative : Bool) :
    ∃ b w, bcc a = .ok b ∧ b.brillouinZone q minNegative = .ok w ∧
      IsZone ((a / 2) • !![1, 1, 1; 1, -1, 1; -1, 1, 1]) (w.check env) := by
  obtain ⟨b, hb, -⟩ := C81_bcc a ha
  have hdet := (init_eq_ok_iff _).1 ⟨b, hb⟩
  set R : Matrix (Fin 3) (Fin 3) ℝ := (2 * Real.pi / a) • !![1, 1, 0; 0, -1, 1; -1, 0, 1] with hR
  have hdual : ∀ i j, ((a / 2) • !![(1 : ℝ), 1, 1; 1, -1, 1; -1, 1, 1]) i ⬝ᵥ R j =
      if i = j then 2 * Real.pi else 0 := by
    intro i j
    fin_cases i <;> fin_cases j <;> simp [hR, dotProduct, Fin.sum_univ_three] <;> field_simp <;>
      norm_num
  obtain ⟨rb, hrb, hz⟩ := brillouinZone_eq (by norm_num) hb minNegative hdual
  have hlat : ∀ n k, latPoint R n k =
      2 * Real.pi / a * (![n 0 - n 2, n 0 - n 1, n 1 + n 2] k : ℤ) := by
    intro n k
    rw [latPoint, Fin.sum_univ_three]
    fin_cases k <;> simp [hR] <;> ring
  obtain ⟨w, hw, hcell⟩ := isCell_fcc hrb q env (c := 2 * Real.pi / a)
    (div_ne_zero (by positivity) ha) (by
    intro i
    fin_cases i <;> simp [hR, dotProduct, Fin.sum_univ_three] <;> ring) (by
    intro n
    refine ⟨![n 0 - n 2, n 0 - n 1, n 1 + n 2], ⟨n 0, by simp; ring⟩, funext fun k => hlat n k⟩) (by
    have hex : ∀ y ∈ shortFcc, ∃ n ∈ ([![1, 0, 0], ![0, 1, -1], ![1, 1, 0], ![0, 0, -1],
        ![1, 0, 1], ![0, -1, 0]] : List (Fin 3 → ℤ)), (∀ k, |n k| ≤ 1) ∧
        ![n 0 - n 2, n 0 - n 1, n 1 + n 2] = y := by decide +kernel
    intro y hy
    obtain ⟨n, -, h1, rfl⟩ := hex y hy
    exact ⟨n, h1, funext fun k => hlat n k⟩)
  exact ⟨b, w, hb, by rw [hz, hw], isZone_of_isCell hdet hdual hrb hcell⟩

example : ∃ b w, hexagonal 1 = .ok b ∧ b.brillouinZone (Qhull.exact 2) true = .ok w :=
  (C87_hexagonal_partial _ (Env.brute ℝ) 1 one_ne_zero true).imp fun _ ⟨w, h1, h2, _⟩ => ⟨w, h1, h2⟩
example : ∃ b w, bcc (-3) = .ok b ∧ b.brillouinZone (Qhull.exact 3) false = .ok w :=
  (C87_bcc_partial _ (Env.brute ℝ) (-3) (by norm_num) false).imp
    fun _ ⟨w, h1, h2, _⟩ => ⟨w, h1, h2⟩

/-- C87 fails for the face-centred cubic lattice with `a = 1`: the wave vector `2π (6/5, 0, 0)` is
accepted though the reciprocal lattice vector `2π (2, 0, 0)` is closer to it than zero. -/
theorem C87_zone_fails (q : Qhull 3) (env : Env ℝ) (minNegative : Bool) :
    ∃ b w, fcc 1 = .ok b ∧ b.brillouinZone q minNegative = .ok w ∧
      w.check env ![12 / 5 * Real.pi, 0, 0] = true ∧
      IsReciprocal (((1 : ℝ) / 2) • !![(1 : ℝ), 1, 0; 1, 0, 1; 0, 1, 1]) ![4 * Real.pi, 0, 0] ∧
      distance ![12 / 5 * Real.pi, 0, 0] (![4 * Real.pi, 0, 0] : Vec 3 ℝ) <
        distance ![12 / 5 * Real.pi, 0, 0] (0 : Vec 3 ℝ) := by
  obtain ⟨b, hb, -⟩ := C81_fcc 1 one_ne_zero
  have hdet := (init_eq_ok_iff _).1 ⟨b, hb⟩
  set R : Matrix (Fin 3) (Fin 3) ℝ := (2 * Real.pi) • !![1, 1, -1; 1, -1, 1; -1, 1, 1] with hR
  have hdual : ∀ i j, (((1 : ℝ) / 2) • !![(1 : ℝ), 1, 0; 1, 0, 1; 0, 1, 1]) i ⬝ᵥ R j =
      if i = j then 2 * Real.pi else 0 := by
    intro i j
    fin_cases i <;> fin_cases j <;> simp [hR, dotProduct, Fin.sum_univ_three] <;> ring
  obtain ⟨rb, hrb, hz⟩ := brillouinZone_eq (by norm_num) hb minNegative hdual
  have hlat : ∀ n k, latPoint R n k =
      2 * Real.pi * (![n 0 + n 1 - n 2, n 0 - n 1 + n 2, -n 0 + n 1 + n 2] k : ℤ) := by
    intro n k
    rw [latPoint, Fin.sum_univ_three]
    fin_cases k <;> simp [hR] <;> ring
  have hn1 : latPoint R ![1, 1, 0] = ![2 * (2 * Real.pi), 0, 0] := by
    funext k
    rw [hlat]
    fin_cases k <;> simp
    ring
  have hpi := Real.two_le_pi
  obtain ⟨w, hw, h1, h2⟩ := bcc_wrong hrb q env (c := 2 * Real.pi) (by norm_num; linarith) (by
    intro i
    fin_cases i <;> simp [hR, dotProduct, Fin.sum_univ_three] <;> ring) (by
    intro n
    refine ⟨![n 0 + n 1 - n 2, n 0 - n 1 + n 2, -n 0 + n 1 + n 2], ⟨n 1 - n 2, by simp; ring⟩,
      ⟨n 0 - n 1, by simp; ring⟩, ?_⟩
    funext k
    exact hlat n k) hn1
  have hrec : IsReciprocal (((1 : ℝ) / 2) • !![(1 : ℝ), 1, 0; 1, 0, 1; 0, 1, 1])
      (latPoint R ![1, 1, 0]) := (isReciprocal_iff hdet hdual _).2 ⟨_, rfl⟩
  rw [hn1] at h2 hrec
  rw [show 6 / 5 * (2 * Real.pi) = 12 / 5 * Real.pi by ring] at h1 h2
  rw [show 2 * (2 * Real.pi) = 4 * Real.pi by ring] at h2 hrec
  exact ⟨b, w, hb, by rw [hz, hw], h1, hrec, h2⟩

end Lattpy
