import Verif.Lemmas.WignerSeitz

/-! C86: the Wigner-Seitz cell of a basis. -/

set_option autoImplicit false

namespace Lattpy

open Matrix LatticeBasis

variable {d : ℕ}

/-- The answers `f` describe the cell of the origin in the lattice with the given basis vectors:
accepted points are at least as close to the origin as to every lattice point, and points strictly
closer to the origin than to all other lattice points are accepted. -/
def IsCell (rows : Matrix (Fin d) (Fin d) ℝ) (f : Vec d ℝ → Bool) : Prop :=
  ∀ x, (f x = true → ∀ n, distance x 0 ≤ distance x (latPoint rows n)) ∧
    ((∀ n, n ≠ 0 → distance x 0 < distance x (latPoint rows n)) → f x = true)

/-- C86, what holds for every basis: the call raises only if the points used lie in a hyperplane
(`QhullError`), the points used are lattice points with the origin among them, every point strictly
closer to the origin than to all other lattice points is accepted, and an accepted point is at
least as close to the origin as to every point used.  (Not every accepted point is closest to the
origin, see `C86_cell_fails`.) -/
theorem C86_general_partial (q : Qhull d) (env : Env ℝ) (rows : Matrix (Fin d) (Fin d) ℝ)
    (b : LatticeBasis d ℝ) (hb : LatticeBasis.init rows = .ok b) :
    (b.wignerSeitzCell q = .error .qhull ∨ ∃ w, b.wignerSeitzCell q = .ok w) ∧
    ∀ w, b.wignerSeitzCell q = .ok w → 0 ∈ w.points ∧
      (∀ p ∈ w.points, ∃ n, p = latPoint rows n) ∧
      ∀ x, ((∀ n, n ≠ 0 → distance x 0 < distance x (latPoint rows n)) → w.check env x = true) ∧
        (w.check env x = true → ∀ p ∈ w.points, distance x 0 ≤ distance x p) := by
  obtain ⟨r, hr, h0, hnd, hmake⟩ := wsCell_spec hb q
  rw [hmake]
  refine ⟨?_, fun w hw => ?_⟩
  · rcases WSCell.make_cases q (r.map (latPoint rows)) with h | h
    · exact .inr h
    · exact .inl h.1
  · have hp := WSCell.make_points hw
    have h0' : (0 : Vec d ℝ) ∈ w.points := by
      rw [hp]; exact List.mem_map.2 ⟨0, h0, latPoint_zero rows⟩
    have hlat : ∀ p ∈ w.points, ∃ n, p = latPoint rows n := by
      intro p h
      rw [hp] at h
      obtain ⟨n, -, rfl⟩ := List.mem_map.1 h
      exact ⟨n, rfl⟩
    refine ⟨h0', hlat, fun x => ?_⟩
    obtain ⟨h1, h2⟩ := C18_check_partial env w (by rw [hp]; exact hnd) h0' x
    refine ⟨fun h => h2 fun p h' hne => ?_, h1⟩
    obtain ⟨n, rfl⟩ := hlat p h'
    exact h n fun hn => hne (by rw [hn, latPoint_zero])

/-- If the shortest lattice vectors with factors up to one decide about the cell, `check` is
right. -/
theorem isCell_of (hd : 1 ≤ d) {rows : Matrix (Fin d) (Fin d) ℝ} {b : LatticeBasis d ℝ}
    (hb : LatticeBasis.init rows = .ok b) (q : Qhull d) (env : Env ℝ) {ℓ : ℝ} (hl : 0 < ℓ)
    (hrow : ∀ i, rows i ⬝ᵥ rows i = ℓ ^ 2)
    (hmin : ∀ n, n ≠ 0 → ℓ ^ 2 ≤ latPoint rows n ⬝ᵥ latPoint rows n)
    (hsuff : ∀ x, (∀ n : Fin d → ℤ, (∀ k, |n k| ≤ 1) →
        latPoint rows n ⬝ᵥ latPoint rows n = ℓ ^ 2 → 2 * (x ⬝ᵥ latPoint rows n) ≤ ℓ ^ 2) →
      ∀ n, 2 * (x ⬝ᵥ latPoint rows n) ≤ latPoint rows n ⬝ᵥ latPoint rows n) :
    ∃ w, b.wignerSeitzCell q = .ok w ∧ IsCell rows (w.check env) := by
  obtain ⟨w, hw, hnd, h0, -, -, hmem⟩ := wsCell_equal hd hb q hl.le hrow hmin
  refine ⟨w, hw, fun x => ⟨fun hx n => ?_, ?_⟩⟩
  · rw [closer_iff]
    refine hsuff x (fun n hn e => ?_) n
    rw [← e, ← closer_iff]
    refine (C18_check_partial env w hnd h0 x).1 hx _ ((hmem _ ?_).2 ⟨n, rfl, hn, ?_⟩)
    · intro hz
      rw [hz, dotProduct_zero] at e
      exact absurd e.symm (pow_ne_zero _ hl.ne')
    · rw [(norm2_eq_iff _ hl.le).2 e, isclose]
      simp
      positivity
  · exact ((C86_general_partial q env rows b hb).2 w hw).2.2 x |>.1

/-! ## hypercubic lattices -/

theorem int_abs_le_sq (n : ℤ) : |n| ≤ n ^ 2 := by
  rw [← sq_abs]
  rcases (abs_nonneg n).eq_or_lt with h | h
  · rw [← h]; norm_num
  · nlinarith

theorem latPoint_cubic (a : ℝ) (n : Fin d → ℤ) :
    latPoint (a • (1 : Matrix (Fin d) (Fin d) ℝ)) n = fun k => n k * a := by
  funext k
  unfold latPoint
  rw [Finset.sum_eq_single k]
  · simp
  · intro j _ hj; simp [hj]
  · simp

theorem cubic_row (a : ℝ) (i : Fin d) : (a • (1 : Matrix (Fin d) (Fin d) ℝ)) i ⬝ᵥ
    (a • (1 : Matrix (Fin d) (Fin d) ℝ)) i = |a| ^ 2 := by
  rw [sq_abs, dotProduct, Finset.sum_eq_single i]
  · simp [sq]
  · intro j _ hj; simp [hj.symm]
  · simp

theorem cubic_dot (a : ℝ) (n : Fin d → ℤ) :
    latPoint (a • (1 : Matrix (Fin d) (Fin d) ℝ)) n ⬝ᵥ
      latPoint (a • (1 : Matrix (Fin d) (Fin d) ℝ)) n = a ^ 2 * ((∑ k, n k ^ 2 : ℤ) : ℝ) := by
  rw [latPoint_cubic, dotProduct]
  push_cast
  rw [Finset.mul_sum]
  exact Finset.sum_congr rfl fun k _ => by ring

theorem cubic_min (a : ℝ) (n : Fin d → ℤ) (hn : n ≠ 0) :
    |a| ^ 2 ≤ latPoint (a • (1 : Matrix (Fin d) (Fin d) ℝ)) n ⬝ᵥ
      latPoint (a • (1 : Matrix (Fin d) (Fin d) ℝ)) n := by
  obtain ⟨k, hk⟩ := Function.ne_iff.1 hn
  have h1 : (1 : ℤ) ≤ ∑ k, n k ^ 2 :=
    le_trans (by have := sq_pos_of_ne_zero (show n k ≠ 0 from hk); omega)
      (Finset.single_le_sum (f := fun k => n k ^ 2) (fun _ _ => sq_nonneg _) (Finset.mem_univ k))
  rw [cubic_dot, sq_abs]
  have h2 : (1 : ℝ) ≤ ((∑ k, n k ^ 2 : ℤ) : ℝ) := by exact_mod_cast h1
  nlinarith [sq_nonneg a]

/-- C86 for hypercubic lattices of every dimension: the Wigner-Seitz cell exists and contains the
points closest to the origin, the cube of edge `|a|` around the origin. -/
theorem C86_cubic_partial (hd : 1 ≤ d) (q : Qhull d) (env : Env ℝ) (a : ℝ) (ha : a ≠ 0) :
    ∃ b w, hypercubic d a = .ok b ∧ b.wignerSeitzCell q = .ok w ∧
      IsCell (a • (1 : Matrix (Fin d) (Fin d) ℝ)) (w.check env) ∧
      ∀ x, (w.check env x = true → ∀ k, |x k| ≤ |a| / 2) ∧
        ((∀ k, |x k| < |a| / 2) → w.check env x = true) := by
  obtain ⟨b, hb⟩ := (init_eq_ok_iff (a • (1 : Matrix (Fin d) (Fin d) ℝ))).2 (by
    rw [det_smul, det_one, mul_one]; exact pow_ne_zero _ ha)
  have hpos : 0 < |a| := abs_pos.2 ha
  have haa : |a| * |a| = a * a := abs_mul_abs_self a
  have hbox : ∀ x : Vec d ℝ, (∀ n : Fin d → ℤ, (∀ k, |n k| ≤ 1) →
      latPoint (a • (1 : Matrix (Fin d) (Fin d) ℝ)) n ⬝ᵥ
        latPoint (a • (1 : Matrix (Fin d) (Fin d) ℝ)) n = |a| ^ 2 →
      2 * (x ⬝ᵥ latPoint (a • (1 : Matrix (Fin d) (Fin d) ℝ)) n) ≤ |a| ^ 2) →
      ∀ k, |x k| ≤ |a| / 2 := by
    intro x hx k
    have key : ∀ s : ℤ, |s| = 1 → 2 * (x k * (s * a)) ≤ |a| ^ 2 := by
      intro s hs
      have hs2 : s ^ 2 = 1 := by rw [← sq_abs, hs]; rfl
      have e : latPoint (a • (1 : Matrix (Fin d) (Fin d) ℝ)) (Pi.single k s) =
          Pi.single k ((s : ℝ) * a) := by
        rw [latPoint_cubic]
        funext j
        by_cases hj : j = k
        · subst hj; simp
        · simp [Pi.single_eq_of_ne hj]
      have := hx (Pi.single k s) (fun j => by
        by_cases hj : j = k
        · subst hj; simp [hs]
        · simp [Pi.single_eq_of_ne hj]) (by
        rw [e]
        simp only [dotProduct_single, Pi.single_eq_same, sq_abs]
        have : (s : ℝ) ^ 2 = 1 := by exact_mod_cast hs2
        linear_combination a ^ 2 * this)
      rwa [e, dotProduct_single] at this
    have k1 := key 1 rfl
    have k2 := key (-1) rfl
    push_cast at k1 k2
    have k3 : |x k * a| ≤ |a| ^ 2 / 2 := abs_le.2 ⟨by linarith, by linarith⟩
    rw [abs_mul] at k3
    by_contra hlt
    push Not at hlt
    nlinarith
  obtain ⟨w, hw, hcell⟩ := isCell_of hd hb q env hpos (cubic_row a) (cubic_min a) (by
    intro x hx n
    have hk := hbox x hx
    rw [cubic_dot, latPoint_cubic, dotProduct]
    push_cast
    rw [Finset.mul_sum, Finset.mul_sum]
    refine Finset.sum_le_sum fun k _ => ?_
    have h1 : x k * (n k * a) ≤ |x k| * (|(n k : ℝ)| * |a|) := by
      rw [← abs_mul, ← abs_mul]; exact le_abs_self _
    have h2 : |(n k : ℝ)| ≤ (n k : ℝ) ^ 2 := by
      have : |n k| ≤ n k ^ 2 := int_abs_le_sq _
      exact_mod_cast this
    have h3 : |x k| * (|(n k : ℝ)| * |a|) ≤ |a| / 2 * ((n k : ℝ) ^ 2 * |a|) :=
      mul_le_mul (hk k) (mul_le_mul_of_nonneg_right h2 hpos.le) (by positivity) (by positivity)
    nlinarith)
  refine ⟨b, w, hb, hw, hcell, fun x => ⟨fun h k => ?_, fun h => ?_⟩⟩
  · refine hbox x (fun n _ e => ?_) k
    rw [← e, ← closer_iff]
    exact (hcell x).1 h n
  · refine (hcell x).2 fun n hn => ?_
    obtain ⟨j, hj⟩ := Function.ne_iff.1 hn
    rw [closer_lt_iff, cubic_dot, latPoint_cubic, dotProduct]
    push_cast
    rw [Finset.mul_sum, Finset.mul_sum]
    have hle : ∀ k, 2 * (x k * (n k * a)) ≤ 2 * (|x k| * (n k ^ 2 * |a|)) := by
      intro k
      have h1 : x k * (n k * a) ≤ |x k| * (|(n k : ℝ)| * |a|) := by
        rw [← abs_mul, ← abs_mul]; exact le_abs_self _
      have h2 : |(n k : ℝ)| ≤ (n k : ℝ) ^ 2 := by
        have : |n k| ≤ n k ^ 2 := int_abs_le_sq _
        exact_mod_cast this
      have h3 : |x k| * (|(n k : ℝ)| * |a|) ≤ |x k| * ((n k : ℝ) ^ 2 * |a|) :=
        mul_le_mul_of_nonneg_left (mul_le_mul_of_nonneg_right h2 hpos.le) (abs_nonneg _)
      linarith
    refine Finset.sum_lt_sum (fun k _ => ?_) ⟨j, Finset.mem_univ j, ?_⟩
    · refine (hle k).trans ?_
      have h4 : |x k| * ((n k : ℝ) ^ 2 * |a|) ≤ |a| / 2 * ((n k : ℝ) ^ 2 * |a|) :=
        mul_le_mul_of_nonneg_right (h k).le (by positivity)
      nlinarith
    · refine (hle j).trans_lt ?_
      have hnj : 0 < (n j : ℝ) ^ 2 := by
        have : (n j : ℝ) ≠ 0 := by exact_mod_cast hj
        positivity
      have h4 : |x j| * ((n j : ℝ) ^ 2 * |a|) < |a| / 2 * ((n j : ℝ) ^ 2 * |a|) :=
        mul_lt_mul_of_pos_right (h j) (by positivity)
      nlinarith

example : ∃ b w, hypercubic 3 (-2) = .ok b ∧ b.wignerSeitzCell (Qhull.exact 3) = .ok w ∧
    w.check (Env.brute ℝ) ![1 / 2, -1 / 2, 0] = true ∧
    w.check (Env.brute ℝ) ![1 / 2, 3, 0] = false := by
  obtain ⟨b, w, h1, h2, -, h3⟩ := C86_cubic_partial (d := 3) (by norm_num) (Qhull.exact 3)
    (Env.brute ℝ) (-2) (by norm_num)
  refine ⟨b, w, h1, h2, (h3 _).2 fun k => ?_, ?_⟩
  · fin_cases k <;> norm_num [abs_lt]
  · by_contra hne
    have := (h3 _).1 (by simpa using hne) 1
    norm_num at this

/-- The points used for a hypercubic lattice: the origin and its `2 d` nearest lattice points. -/
theorem cubic_points {a : ℝ} (ha : 1 / 10 ^ 7 ≤ |a|) {p : Vec d ℝ} (hp : p ≠ 0) :
    (∃ n : Fin d → ℤ, p = latPoint (a • (1 : Matrix (Fin d) (Fin d) ℝ)) n ∧ (∀ k, |n k| ≤ 1) ∧
      isclose (norm2 p) |a| = true) ↔ ∃ k, ∃ s : ℝ, |s| = |a| ∧ p = Pi.single k s := by
  have hpos : 0 < |a| := lt_of_lt_of_le (by norm_num) ha
  constructor
  · rintro ⟨n, rfl, hn, hc⟩
    have hn0 : n ≠ 0 := by rintro rfl; exact hp (latPoint_zero _)
    obtain ⟨j, hj⟩ := Function.ne_iff.1 hn0
    have hlt : ∑ k, n k ^ 2 < 2 := by
      by_contra hge
      push Not at hge
      have hge' : (2 : ℝ) ≤ ((∑ k, n k ^ 2 : ℤ) : ℝ) := by exact_mod_cast hge
      have hsq := norm2_sq (latPoint (a • (1 : Matrix (Fin d) (Fin d) ℝ)) n)
      rw [cubic_dot] at hsq
      have hnn := norm2_nonneg (latPoint (a • (1 : Matrix (Fin d) (Fin d) ℝ)) n)
      generalize norm2 (latPoint (a • (1 : Matrix (Fin d) (Fin d) ℝ)) n) = t at hsq hnn hc
      simp only [isclose, abs_abs, decide_eq_true_eq] at hc
      have h1 := (abs_le.1 hc).2
      have h2 : t ≤ 7 / 5 * |a| := by norm_num at h1 ha ⊢; linarith
      have h3 : t ^ 2 ≤ (7 / 5 * |a|) ^ 2 := pow_le_pow_left₀ hnn h2 2
      rw [mul_pow, sq_abs] at h3
      have : 0 < a ^ 2 := by rw [← sq_abs]; positivity
      nlinarith
    have hsingle : ∀ k, k ≠ j → n k = 0 := by
      intro k hk
      by_contra hne
      have h1 : n k ^ 2 + n j ^ 2 ≤ ∑ k, n k ^ 2 := by
        rw [← Finset.sum_pair (f := fun k => n k ^ 2) hk]
        exact Finset.sum_le_sum_of_subset_of_nonneg (Finset.subset_univ _)
          fun _ _ _ => sq_nonneg _
      have h2 := sq_pos_of_ne_zero hne
      have h3 := sq_pos_of_ne_zero (show n j ≠ 0 from hj)
      omega
    refine ⟨j, n j * a, ?_, ?_⟩
    · rw [abs_mul]
      have h1 : |n j| = 1 := by
        have := hn j
        have := abs_pos.2 (show n j ≠ 0 from hj)
        omega
      have h2 : |(n j : ℝ)| = 1 := by exact_mod_cast h1
      rw [h2, one_mul]
    · rw [latPoint_cubic]
      funext k
      by_cases hk : k = j
      · subst hk; simp
      · simp [Pi.single_eq_of_ne hk, hsingle k hk]
  · rintro ⟨k, s, hs, rfl⟩
    have ha0 : a ≠ 0 := abs_pos.1 hpos
    obtain ⟨t, ht, rfl⟩ : ∃ t : ℤ, |t| = 1 ∧ s = t * a := by
      rcases abs_eq_abs.1 hs with h | h
      · exact ⟨1, rfl, by rw [h]; simp⟩
      · exact ⟨-1, rfl, by rw [h]; simp⟩
    refine ⟨Pi.single k t, ?_, fun j => ?_, ?_⟩
    · rw [latPoint_cubic]
      funext j
      by_cases hj : j = k
      · subst hj; simp
      · simp [Pi.single_eq_of_ne hj]
    · by_cases hj : j = k
      · subst hj; simp [ht]
      · simp [Pi.single_eq_of_ne hj]
    · have : norm2 (Pi.single k ((t : ℝ) * a)) = |a| := by
        rw [norm2_eq_iff _ (abs_nonneg _), dotProduct_single, Pi.single_eq_same, ← hs, sq_abs, sq]
      rw [this, isclose]
      simp
      positivity

/-- The Voronoi vertices of the origin and the points `± a e_k` are the corners of the cube. -/
theorem cubic_vertex {a : ℝ} (ha : 0 < |a|) {ps : List (Vec d ℝ)} (h0 : 0 ∈ ps)
    (hps : ∀ p, p ≠ 0 → (p ∈ ps ↔ ∃ k, ∃ s : ℝ, |s| = |a| ∧ p = Pi.single k s)) (v : Vec d ℝ) :
    IsVoronoiVertex ps v ↔ ∀ k, |v k| = |a| / 2 := by
  have hne : ∀ k (s : ℝ), |s| = |a| → (Pi.single k s : Vec d ℝ) ≠ 0 := by
    intro k s hs h
    have := congrFun h k
    simp only [Pi.single_eq_same, Pi.zero_apply] at this
    rw [this, abs_zero] at hs
    exact ha.ne hs
  have hin : ∀ k (s : ℝ), |s| = |a| → (Pi.single k s : Vec d ℝ) ∈ ps := fun k s hs =>
    (hps _ (hne k s hs)).2 ⟨k, s, hs, rfl⟩
  have hdist : ∀ k (s : ℝ), |s| = |a| →
      distance v (Pi.single k s) ^ 2 = distance v 0 ^ 2 + |a| ^ 2 - 2 * (v k * s) := by
    intro k s hs
    rw [distance_sq, distance_sq, dotProduct_single, dotProduct_single, Pi.single_eq_same, ← hs,
      sq_abs]
    simp
    ring
  constructor
  · rintro ⟨ρ, h1, h2⟩
    intro k
    have hk : (Pi.single k 1 : Vec d ℝ) ≠ 0 := by
      intro h
      have := congrFun h k
      simp at this
    have hρ0 : 0 ≤ ρ := by
      obtain ⟨p, -, e, -⟩ := h2 (Pi.single k 1) 0 hk
      rw [← e]; exact distance_nonneg _ _
    have hD : distance v 0 = ρ := by
      by_contra hne'
      have hlt : ρ < distance v 0 := lt_of_le_of_ne (h1 0 h0) (Ne.symm hne')
      have hlt2 : ρ ^ 2 < distance v 0 ^ 2 := pow_lt_pow_left₀ hlt hρ0 two_ne_zero
      have key : ∀ p ∈ ps, distance v p = ρ →
          v ⬝ᵥ p = (distance v 0 ^ 2 + |a| ^ 2 - ρ ^ 2) / 2 := by
        intro p hp e
        have hp0 : p ≠ 0 := fun h => hne' (by rw [← h]; exact e)
        obtain ⟨k', s, hs, rfl⟩ := (hps p hp0).1 hp
        have := hdist k' s hs
        rw [e] at this
        rw [dotProduct_single]
        linarith
      by_cases hv : v = 0
      · obtain ⟨p, hp, e, -⟩ := h2 (Pi.single k 1) 0 hk
        have h3 := key p hp e
        have h4 : v ⬝ᵥ p = 0 := by rw [hv, zero_dotProduct]
        have : 0 < |a| ^ 2 := by positivity
        linarith
      · obtain ⟨p, hp, e, hne2⟩ := h2 v ((distance v 0 ^ 2 + |a| ^ 2 - ρ ^ 2) / 2) hv
        exact hne2 (key p hp e)
    obtain ⟨p, hp, e, hpk⟩ := h2 (Pi.single k 1) 0 hk
    have hp0 : p ≠ 0 := by rintro rfl; simp at hpk
    obtain ⟨k', s, hs, rfl⟩ := (hps p hp0).1 hp
    have hkk : k' = k := by
      by_contra hne'
      apply hpk
      rw [dotProduct_single, Pi.single_eq_of_ne hne', zero_mul]
    subst hkk
    have h3 := hdist k' s hs
    rw [e, hD] at h3
    have h4 : |v k' * s| = |a| ^ 2 / 2 := by
      rw [show v k' * s = |a| ^ 2 / 2 by linarith]
      exact abs_of_pos (by positivity)
    rw [abs_mul, hs] at h4
    have h5 : (|v k'| - |a| / 2) * |a| = 0 := by linear_combination h4
    linarith [(mul_eq_zero.1 h5).resolve_right ha.ne']
  · intro hv
    refine ⟨distance v 0, fun p hp => ?_, fun c t hc => ?_⟩
    · by_cases hp0 : p = 0
      · rw [hp0]
      · obtain ⟨k, s, hs, rfl⟩ := (hps p hp0).1 hp
        rw [← sq_le_sq₀ (distance_nonneg _ _) (distance_nonneg _ _), hdist k s hs]
        have h1 : v k * s ≤ |v k| * |s| := by rw [← abs_mul]; exact le_abs_self _
        rw [hv k, hs] at h1
        nlinarith
    · by_contra hall
      push Not at hall
      have ht := hall 0 h0 rfl
      rw [dotProduct_zero] at ht
      apply hc
      funext k
      have hs : |2 * v k| = |a| := by rw [abs_mul, hv k]; norm_num; ring
      have h1 := hall _ (hin k (2 * v k) hs) (by
        rw [← sq_eq_sq₀ (distance_nonneg _ _) (distance_nonneg _ _), hdist k _ hs, ← hs, sq_abs]
        ring)
      rw [dotProduct_single, ← ht] at h1
      have h2 : 2 * v k ≠ 0 := fun h => by rw [h, abs_zero] at hs; exact ha.ne hs
      exact (mul_eq_zero.1 h1).resolve_right h2

/-- C86 for hypercubic lattices with a lattice constant of at least `1e-7` (the absolute tolerance
of `np.isclose` is `1e-8`): the vertices of the cell are exactly the corners `(±a/2, …, ±a/2)` and
the limits are `±|a|/2` on every axis. -/
theorem C86_cubic_vertices_partial (hd : 1 ≤ d) (q : Qhull d) (a : ℝ) (ha : 1 / 10 ^ 7 ≤ |a|) :
    ∃ b w, hypercubic d a = .ok b ∧ b.wignerSeitzCell q = .ok w ∧
      (∀ v, v ∈ w.vertices ↔ ∀ k, |v k| = |a| / 2) ∧
      w.limits = .ok fun _ => (-(|a| / 2), |a| / 2) := by
  have hpos : 0 < |a| := lt_of_lt_of_le (by norm_num) ha
  obtain ⟨b, hb⟩ := (init_eq_ok_iff (a • (1 : Matrix (Fin d) (Fin d) ℝ))).2 (by
    rw [det_smul, det_one, mul_one]; exact pow_ne_zero _ (abs_pos.1 hpos))
  obtain ⟨w, hw, -, h0, hmake, hspan, hmem⟩ := wsCell_equal hd hb q hpos.le (cubic_row a)
    (cubic_min a)
  have hps : ∀ p, p ≠ 0 → (p ∈ w.points ↔ ∃ k, ∃ s : ℝ, |s| = |a| ∧ p = Pi.single k s) :=
    fun p hp => (hmem p hp).trans (cubic_points ha hp)
  have hvert : ∀ v, v ∈ w.vertices ↔ ∀ k, |v k| = |a| / 2 := by
    intro v
    unfold WSCell.make at hmake
    split_ifs at hmake with h1
    · subst h1
      have e : w.vertices = voronoiVertices1 w.points := by
        have := congrArg (fun r => match r with
          | .ok w => WSCell.vertices w
          | .error _ => w.vertices) hmake
        exact this.symm
      rw [e, voronoiVertices1, List.mem_filter, List.mem_map, decide_eq_true_eq]
      constructor
      · rintro ⟨⟨p, hp, rfl⟩, hne⟩ k
        have hp0 : p ≠ 0 := by
          rintro rfl
          exact hne (by funext k; simp)
        obtain ⟨k', s, hs, rfl⟩ := (hps p hp0).1 hp
        rw [Subsingleton.elim k k']
        simp [abs_div, hs]
      · intro hv
        have hs : |2 * v 0| = |a| := by rw [abs_mul, hv 0]; norm_num; ring
        have hne : (Pi.single 0 (2 * v 0) : Vec 1 ℝ) ≠ 0 := by
          intro h
          have := congrFun h 0
          simp only [Pi.single_eq_same, Pi.zero_apply] at this
          rw [this, abs_zero] at hs
          exact hpos.ne hs
        refine ⟨⟨Pi.single 0 (2 * v 0), (hps _ hne).2 ⟨0, _, hs, rfl⟩, ?_⟩, ?_⟩
        · funext k
          rw [Subsingleton.elim k 0]
          simp
        · rintro rfl
          have := hv 0
          simp only [Pi.zero_apply, abs_zero] at this
          linarith
    · obtain ⟨vs, hvs, hiff⟩ := q.full _ hspan
      rw [hvs] at hmake
      have e : vs = w.vertices := by
        have := congrArg (fun r => match r with
          | .ok w => WSCell.vertices w
          | .error _ => vs) hmake
        exact this
      rw [← e, hiff, cubic_vertex hpos h0 hps]
  refine ⟨b, w, hb, hw, hvert, ?_⟩
  have hin : ∀ s : ℝ, |s| = |a| / 2 → (fun _ => s) ∈ w.vertices := fun s hs =>
    (hvert _).2 fun _ => hs
  have hhalf : |(|a| / 2)| = |a| / 2 := abs_of_pos (by positivity)
  obtain ⟨l, hl, hext⟩ := (C18_limits w).2 (List.ne_nil_of_mem (hin (|a| / 2) hhalf))
  rw [hl]
  congr 1
  funext k
  refine Prod.ext ?_ ?_
  · refine (hext k).1.unique ⟨⟨_, hin (-(|a| / 2)) (by rw [abs_neg, hhalf]), rfl⟩, ?_⟩
    rintro t ⟨v, hv, rfl⟩
    have := (hvert v).1 hv k
    rw [← this]
    exact neg_abs_le _
  · refine (hext k).2.unique ⟨⟨_, hin (|a| / 2) hhalf, rfl⟩, ?_⟩
    rintro t ⟨v, hv, rfl⟩
    have := (hvert v).1 hv k
    rw [← this]
    exact le_abs_self _

example : ∃ b w, hypercubic 2 (-1) = .ok b ∧ b.wignerSeitzCell (Qhull.exact 2) = .ok w ∧
    ![1 / 2, -1 / 2] ∈ w.vertices := by
  obtain ⟨b, w, h1, h2, h3, -⟩ := C86_cubic_vertices_partial (d := 2) (by norm_num)
    (Qhull.exact 2) (-1) (by norm_num)
  refine ⟨b, w, h1, h2, (h3 _).2 fun k => ?_⟩
  fin_cases k <;> norm_num [abs_div]

/-! ## hexagonal lattices -/

theorem latPoint_two (rows : Matrix (Fin 2) (Fin 2) ℝ) (n : Fin 2 → ℤ) :
    latPoint rows n = fun k => n 0 * rows 0 k + n 1 * rows 1 k := by
  funext k
  simp [latPoint, Fin.sum_univ_two]

theorem hex_dot {rows : Matrix (Fin 2) (Fin 2) ℝ} {L σ : ℝ} (h0 : rows 0 ⬝ᵥ rows 0 = L)
    (h1 : rows 1 ⬝ᵥ rows 1 = L) (h01 : rows 0 ⬝ᵥ rows 1 = σ * L / 2) (n : Fin 2 → ℤ) :
    latPoint rows n ⬝ᵥ latPoint rows n =
      L * ((n 0 : ℝ) ^ 2 + σ * (n 0 * n 1) + (n 1 : ℝ) ^ 2) := by
  rw [latPoint_two]
  simp only [dotProduct, Fin.sum_univ_two] at *
  linear_combination (n 0 : ℝ) ^ 2 * h0 + (n 1 : ℝ) ^ 2 * h1 + 2 * (n 0 * n 1 : ℝ) * h01

/-- The six nearest points decide. -/
theorem hex_six {α β : ℝ} (h1 : |α| ≤ 1) (h2 : |β| ≤ 1) (h3 : |α - β| ≤ 1) (m n : ℤ) :
    m * α + n * β ≤ (m : ℝ) ^ 2 + m * n + (n : ℝ) ^ 2 := by
  obtain ⟨a1, a2⟩ := abs_le.1 h1
  obtain ⟨b1, b2⟩ := abs_le.1 h2
  obtain ⟨c1, c2⟩ := abs_le.1 h3
  have sq : ∀ k : ℤ, |(k : ℝ)| ≤ (k : ℝ) ^ 2 := by
    intro k
    have := int_abs_le_sq k
    exact_mod_cast this
  have le : ∀ k : ℤ, ∀ t : ℝ, |t| ≤ 1 → (k : ℝ) * t ≤ (k : ℝ) ^ 2 := by
    intro k t ht
    calc (k : ℝ) * t ≤ |(k : ℝ)| * |t| := by rw [← abs_mul]; exact le_abs_self _
      _ ≤ |(k : ℝ)| * 1 := mul_le_mul_of_nonneg_left ht (abs_nonneg _)
      _ ≤ (k : ℝ) ^ 2 := by rw [mul_one]; exact sq k
  have hm := le m α h1
  have hn := le n β h2
  by_cases hmn : 0 ≤ m * n
  · have : (0 : ℝ) ≤ (m : ℝ) * n := by exact_mod_cast hmn
    linarith
  · -- opposite signs: `m α + n β = (m + n) α - n (α - β) = (m + n) β + m (α - β)`
    push Not at hmn
    have e1 := le (m + n) α h1
    have e2 := le (m + n) β h2
    have e3 := le (-n) (α - β) h3
    have e4 := le m (α - β) h3
    push_cast at e1 e2 e3
    have hcase : -(m * n) ≥ n ^ 2 ∨ -(m * n) ≥ m ^ 2 := by
      rcases le_total |m| |n| with h | h
      · right
        have : -(m * n) = |m| * |n| := by rw [← abs_mul, abs_of_neg hmn]
        rw [this, ← sq_abs m]
        nlinarith [abs_nonneg m]
      · left
        have : -(m * n) = |m| * |n| := by rw [← abs_mul, abs_of_neg hmn]
        rw [this, ← sq_abs n]
        nlinarith [abs_nonneg n]
    rcases hcase with h | h
    · have h' : -((m : ℝ) * n) ≥ (n : ℝ) ^ 2 := by exact_mod_cast h
      nlinarith
    · have h' : -((m : ℝ) * n) ≥ (m : ℝ) ^ 2 := by exact_mod_cast h
      nlinarith

/-- C86 for bases of two vectors of equal length at 60° or 120°. -/
theorem isCell_hex {rows : Matrix (Fin 2) (Fin 2) ℝ} {b : LatticeBasis 2 ℝ}
    (hb : LatticeBasis.init rows = .ok b) (q : Qhull 2) (env : Env ℝ) {ℓ σ : ℝ} (hl : 0 < ℓ)
    (hσ : σ = 1 ∨ σ = -1) (h0 : rows 0 ⬝ᵥ rows 0 = ℓ ^ 2) (h1 : rows 1 ⬝ᵥ rows 1 = ℓ ^ 2)
    (h01 : rows 0 ⬝ᵥ rows 1 = σ * ℓ ^ 2 / 2) :
    ∃ w, b.wignerSeitzCell q = .ok w ∧ IsCell rows (w.check env) := by
  have hdot := hex_dot h0 h1 h01
  have hl2 : 0 < ℓ ^ 2 := by positivity
  obtain ⟨s, rfl, hs⟩ : ∃ s : ℤ, σ = s ∧ (s = 1 ∨ s = -1) := by
    rcases hσ with rfl | rfl
    · exact ⟨1, by simp, by simp⟩
    · exact ⟨-1, by simp, by simp⟩
  have hQ : ∀ n : Fin 2 → ℤ, n ≠ 0 → 1 ≤ n 0 ^ 2 + s * (n 0 * n 1) + n 1 ^ 2 := by
    intro n hn
    have hne : n 0 ≠ 0 ∨ n 1 ≠ 0 := by
      by_contra h
      push Not at h
      exact hn (by funext k; fin_cases k <;> simp [h.1, h.2])
    have hs2 : s * s = 1 := by rcases hs with rfl | rfl <;> rfl
    have hpos : 0 < 4 * (n 0 ^ 2 + s * (n 0 * n 1) + n 1 ^ 2) := by
      rcases hne with h | h
      · have := sq_pos_of_ne_zero h
        nlinarith [sq_nonneg (2 * n 1 + s * n 0)]
      · have := sq_pos_of_ne_zero h
        nlinarith [sq_nonneg (2 * n 0 + s * n 1)]
    omega
  refine isCell_of (by norm_num) hb q env hl ?_ ?_ ?_
  · intro i
    fin_cases i
    · exact h0
    · exact h1
  · intro n hn
    rw [hdot]
    have : (1 : ℝ) ≤ (n 0 : ℝ) ^ 2 + s * (n 0 * n 1) + (n 1 : ℝ) ^ 2 := by exact_mod_cast hQ n hn
    nlinarith
  · intro x hx n
    have hxd : ∀ n : Fin 2 → ℤ, x ⬝ᵥ latPoint rows n = n 0 * (x ⬝ᵥ rows 0) + n 1 * (x ⬝ᵥ rows 1) := by
      intro n
      rw [latPoint_two]
      simp only [dotProduct, Fin.sum_univ_two]
      ring
    have key : ∀ n : Fin 2 → ℤ, (∀ k, |n k| ≤ 1) → n 0 ^ 2 + s * (n 0 * n 1) + n 1 ^ 2 = 1 →
        n 0 * (2 * (x ⬝ᵥ rows 0) / ℓ ^ 2) + n 1 * (2 * (x ⬝ᵥ rows 1) / ℓ ^ 2) ≤ 1 := by
      intro n hn e
      have e' : (n 0 : ℝ) ^ 2 + s * (n 0 * n 1) + (n 1 : ℝ) ^ 2 = 1 := by exact_mod_cast e
      have := hx n hn (by rw [hdot, e', mul_one])
      rw [hxd] at this
      have h2 : (n 0 * (2 * (x ⬝ᵥ rows 0) / ℓ ^ 2) + n 1 * (2 * (x ⬝ᵥ rows 1) / ℓ ^ 2)) =
          2 * (n 0 * (x ⬝ᵥ rows 0) + n 1 * (x ⬝ᵥ rows 1)) / ℓ ^ 2 := by ring
      rw [h2, div_le_one hl2]
      exact this
    rw [hxd, hdot]
    have hα : x ⬝ᵥ rows 0 = 2 * (x ⬝ᵥ rows 0) / ℓ ^ 2 * (ℓ ^ 2 / 2) := by field_simp
    have hβ : x ⬝ᵥ rows 1 = 2 * (x ⬝ᵥ rows 1) / ℓ ^ 2 * (ℓ ^ 2 / 2) := by field_simp
    generalize 2 * (x ⬝ᵥ rows 0) / ℓ ^ 2 = α at *
    generalize 2 * (x ⬝ᵥ rows 1) / ℓ ^ 2 = β at *
    rw [hα, hβ]
    have hs2 : (s : ℝ) * s = 1 := by rcases hs with rfl | rfl <;> norm_num
    have k1 := key ![1, 0] (by decide) (by simp)
    have k2 := key ![-1, 0] (by decide) (by simp)
    have k3 := key ![0, 1] (by decide) (by simp)
    have k4 := key ![0, -1] (by decide) (by simp)
    have k5 := key ![1, -s] (by rcases hs with rfl | rfl <;> decide) (by
      rcases hs with rfl | rfl <;> norm_num)
    have k6 := key ![-1, s] (by rcases hs with rfl | rfl <;> decide) (by
      rcases hs with rfl | rfl <;> norm_num)
    simp at k1 k2 k3 k4 k5 k6
    have hbs : |(s : ℝ) * β| ≤ 1 := by
      rcases hs with rfl | rfl <;> simp <;> exact abs_le.2 ⟨by linarith, by linarith⟩
    have := hex_six (α := α) (β := s * β) (abs_le.2 ⟨by linarith, k1⟩) hbs
      (abs_le.2 ⟨by linarith, by linarith⟩) (n 0) (s * n 1)
    push_cast at this
    have e : ((s : ℝ) * n 1) * (s * β) = n 1 * β := by linear_combination (n 1 : ℝ) * β * hs2
    have e2 : ((s : ℝ) * n 1) ^ 2 = (n 1 : ℝ) ^ 2 := by linear_combination (n 1 : ℝ) ^ 2 * hs2
    rw [e, e2] at this
    nlinarith

/-- C86 for the hexagonal lattice. -/
theorem C86_hexagonal_partial (q : Qhull 2) (env : Env ℝ) (a : ℝ) (ha : a ≠ 0) :
    ∃ b w, hexagonal a = .ok b ∧ b.wignerSeitzCell q = .ok w ∧
      IsCell ((a / 2) • !![3, Real.sqrt 3; 3, -Real.sqrt 3]) (w.check env) := by
  obtain ⟨b, hb, h0, h1, h01⟩ := C80_hexagonal a ha
  have hv := init_vectors hb
  rw [hv] at h0 h1 h01
  have h3 : Real.sqrt 3 ^ 2 = 3 := Real.sq_sqrt (by norm_num)
  have e : 3 * a ^ 2 = (Real.sqrt 3 * |a|) ^ 2 := by rw [mul_pow, h3, sq_abs]
  rw [Real.cos_pi_div_three] at h01
  rw [e] at h0 h1 h01
  obtain ⟨w, hw, hcell⟩ := isCell_hex hb q env (ℓ := Real.sqrt 3 * |a|) (σ := 1) (by positivity)
    (.inl rfl) h0 h1 (by rw [h01]; ring)
  exact ⟨b, w, hb, hw, hcell⟩

example : ∃ b w, hexagonal 1 = .ok b ∧ b.wignerSeitzCell (Qhull.exact 2) = .ok w ∧
    w.check (Env.brute ℝ) ![2, 0] = false := by
  obtain ⟨b, w, h1, h2, h3⟩ := C86_hexagonal_partial (Qhull.exact 2) (Env.brute ℝ) 1 (by norm_num)
  refine ⟨b, w, h1, h2, ?_⟩
  by_contra hne
  have h4 := (h3 _).1 (by simpa using hne) ![1, 0]
  rw [closer_iff, latPoint_two] at h4
  have h5 : Real.sqrt 3 * Real.sqrt 3 = 3 := Real.mul_self_sqrt (by norm_num)
  simp [dotProduct, Fin.sum_univ_two] at h4
  nlinarith

end Lattpy
