import Verif.Props.WignerSeitz

/-! C86 for centred cubic lattices, and where it fails. -/

set_option autoImplicit false

namespace Lattpy

open Matrix LatticeBasis

/-! ## face-centred cubic lattices -/

theorem fcc_core_aux {X0 X1 X2 : ℝ} {s0 s1 s2 : ℤ} (hs0 : 0 ≤ s0) (hs1 : 0 ≤ s1) (hs2 : 0 ≤ s2)
    (he : Even (s0 + s1 + s2)) (h1 : 1 ≤ X0) (h01 : X0 + X1 ≤ 2) (h02 : X0 + X2 ≤ 2)
    (hX1 : 0 ≤ X1) :
    X0 * s0 + X1 * s1 + X2 * s2 ≤ (s0 : ℝ) ^ 2 + (s1 : ℝ) ^ 2 + (s2 : ℝ) ^ 2 := by
  have r0 : (0 : ℝ) ≤ s0 := by exact_mod_cast hs0
  have r1 : (0 : ℝ) ≤ s1 := by exact_mod_cast hs1
  have r2 : (0 : ℝ) ≤ s2 := by exact_mod_cast hs2
  have a1 : X1 * s1 ≤ (2 - X0) * s1 := mul_le_mul_of_nonneg_right (by linarith) r1
  have a2 : X2 * s2 ≤ (2 - X0) * s2 := mul_le_mul_of_nonneg_right (by linarith) r2
  have b1 : s0 + s1 + s2 ≤ s0 ^ 2 + s1 ^ 2 + s2 ^ 2 := by
    have g0 := int_abs_le_sq s0
    have g1 := int_abs_le_sq s1
    have g2 := int_abs_le_sq s2
    rw [abs_of_nonneg hs0] at g0
    rw [abs_of_nonneg hs1] at g1
    rw [abs_of_nonneg hs2] at g2
    linarith
  have b2 : 2 * s0 ≤ s0 ^ 2 + s1 ^ 2 + s2 ^ 2 := by
    by_cases h : 2 ≤ s0
    · nlinarith [sq_nonneg s1, sq_nonneg s2]
    · by_cases h0 : s0 = 0
      · subst h0; nlinarith [sq_nonneg s1, sq_nonneg s2]
      · obtain rfl : s0 = 1 := by omega
        obtain ⟨m, hm⟩ := he
        have : 1 ≤ s1 + s2 := by omega
        have g1 := int_abs_le_sq s1
        have g2 := int_abs_le_sq s2
        rw [abs_of_nonneg hs1] at g1
        rw [abs_of_nonneg hs2] at g2
        linarith
  have b1' : (s0 : ℝ) + s1 + s2 ≤ (s0 : ℝ) ^ 2 + (s1 : ℝ) ^ 2 + (s2 : ℝ) ^ 2 := by exact_mod_cast b1
  have b2' : 2 * (s0 : ℝ) ≤ (s0 : ℝ) ^ 2 + (s1 : ℝ) ^ 2 + (s2 : ℝ) ^ 2 := by exact_mod_cast b2
  have hle : X0 ≤ 2 := by linarith
  have c1 := mul_le_mul_of_nonneg_left b1' (show 0 ≤ 2 - X0 by linarith)
  have c2 := mul_le_mul_of_nonneg_left b2' (show 0 ≤ X0 - 1 by linarith)
  nlinarith

/-- The twelve nearest points decide. -/
theorem fcc_core {X : Fin 3 → ℝ} {s : Fin 3 → ℤ} (hs : ∀ k, 0 ≤ s k)
    (he : Even (s 0 + s 1 + s 2)) (hX : ∀ k, 0 ≤ X k)
    (hpair : X 0 + X 1 ≤ 2 ∧ X 0 + X 2 ≤ 2 ∧ X 1 + X 2 ≤ 2) :
    X 0 * s 0 + X 1 * s 1 + X 2 * s 2 ≤ (s 0 : ℝ) ^ 2 + (s 1 : ℝ) ^ 2 + (s 2 : ℝ) ^ 2 := by
  obtain ⟨h01, h02, h12⟩ := hpair
  by_cases h0 : 1 ≤ X 0
  · exact fcc_core_aux (hs 0) (hs 1) (hs 2) he h0 h01 h02 (hX 1)
  by_cases h1 : 1 ≤ X 1
  · have := fcc_core_aux (X0 := X 1) (X1 := X 0) (X2 := X 2) (hs 1) (hs 0) (hs 2)
      (by rwa [add_comm (s 1)]) h1 (by linarith) h12 (hX 0)
    linarith
  by_cases h2 : 1 ≤ X 2
  · have := fcc_core_aux (X0 := X 2) (X1 := X 0) (X2 := X 1) (hs 2) (hs 0) (hs 1)
      (by rwa [add_assoc, add_comm]) h2 (by linarith) (by linarith) (hX 0)
    linarith
  push Not at h0 h1 h2
  have key : ∀ k, X k ≤ 1 → X k * s k ≤ (s k : ℝ) ^ 2 := by
    intro k hk
    have g := int_abs_le_sq (s k)
    rw [abs_of_nonneg (hs k)] at g
    have g' : (s k : ℝ) ≤ (s k : ℝ) ^ 2 := by exact_mod_cast g
    have hr : (0 : ℝ) ≤ s k := by exact_mod_cast hs k
    nlinarith
  linarith [key 0 h0.le, key 1 h1.le, key 2 h2.le]

/-- The shortest vectors of the face-centred cubic lattice up to sign. -/
def shortFcc : List (Fin 3 → ℤ) :=
  [![1, 1, 0], ![1, -1, 0], ![1, 0, 1], ![1, 0, -1], ![0, 1, 1], ![0, 1, -1]]

theorem latPoint_neg {d : ℕ} (rows : Matrix (Fin d) (Fin d) ℝ) (n : Fin d → ℤ) :
    latPoint rows (-n) = -latPoint rows n := by
  funext k
  simp [latPoint]

/-- C86 for every basis of a face-centred cubic lattice whose vectors are shortest lattice vectors
and that reaches the twelve shortest ones with factors up to one. -/
theorem isCell_fcc {rows : Matrix (Fin 3) (Fin 3) ℝ} {b : LatticeBasis 3 ℝ}
    (hb : LatticeBasis.init rows = .ok b) (q : Qhull 3) (env : Env ℝ) {c : ℝ} (hc : c ≠ 0)
    (hrow : ∀ i, rows i ⬝ᵥ rows i = 2 * c ^ 2)
    (hA : ∀ n, ∃ z : Fin 3 → ℤ, Even (z 0 + z 1 + z 2) ∧ latPoint rows n = fun k => c * z k)
    (hB : ∀ y ∈ shortFcc, ∃ n : Fin 3 → ℤ, (∀ k, |n k| ≤ 1) ∧ latPoint rows n = fun k => c * y k) :
    ∃ w, b.wignerSeitzCell q = .ok w ∧ IsCell rows (w.check env) := by
  have hl : (Real.sqrt 2 * |c|) ^ 2 = 2 * c ^ 2 := by
    rw [mul_pow, Real.sq_sqrt (by norm_num), sq_abs]
  have hc2 : 0 < c ^ 2 := by positivity
  have hdot : ∀ z : Fin 3 → ℤ, (fun k => c * (z k : ℝ)) ⬝ᵥ (fun k => c * (z k : ℝ)) =
      c ^ 2 * ((z 0 : ℝ) ^ 2 + (z 1 : ℝ) ^ 2 + (z 2 : ℝ) ^ 2) := by
    intro z
    simp only [dotProduct, Fin.sum_univ_three]
    ring
  refine isCell_of (by norm_num) hb q env (ℓ := Real.sqrt 2 * |c|) (by positivity) ?_ ?_ ?_
  · intro i; rw [hrow, hl]
  · intro n hn
    obtain ⟨z, he, hz⟩ := hA n
    rw [hl, hz, hdot]
    have hz0 : ¬ (z 0 = 0 ∧ z 1 = 0 ∧ z 2 = 0) := by
      rintro ⟨e0, e1, e2⟩
      apply hn
      rw [← latPoint_eq_zero hb, hz]
      funext k
      fin_cases k <;> simp [e0, e1, e2]
    have h2 : 2 ≤ z 0 ^ 2 + z 1 ^ 2 + z 2 ^ 2 := by
      obtain ⟨m, hm⟩ := he
      have g : ∀ t : ℤ, ∃ u, t ^ 2 = t + 2 * u ∧ (t ≠ 0 → 1 ≤ t ^ 2) ∧ 0 ≤ t ^ 2 := by
        intro t
        obtain ⟨u, hu⟩ := Int.even_mul_pred_self t
        refine ⟨u, by linear_combination hu, fun h => ?_, sq_nonneg t⟩
        have := sq_pos_of_ne_zero h
        omega
      obtain ⟨u0, g0, p0, q0⟩ := g (z 0)
      obtain ⟨u1, g1, p1, q1⟩ := g (z 1)
      obtain ⟨u2, g2, p2, q2⟩ := g (z 2)
      by_cases e0 : z 0 = 0
      · by_cases e1 : z 1 = 0
        · have e2 : z 2 ≠ 0 := fun h => hz0 ⟨e0, e1, h⟩
          have := p2 e2
          omega
        · have := p1 e1
          omega
      · have := p0 e0
        omega
    have h2' : (2 : ℝ) ≤ (z 0 : ℝ) ^ 2 + (z 1 : ℝ) ^ 2 + (z 2 : ℝ) ^ 2 := by exact_mod_cast h2
    nlinarith
  · intro x hx n
    obtain ⟨z, he, hz⟩ := hA n
    have key : ∀ y ∈ shortFcc, |∑ k, 2 * x k / c * (y k : ℝ)| ≤ 2 := by
      intro y hy
      obtain ⟨m, hm, e⟩ := hB y hy
      have hyy : (y 0 : ℝ) ^ 2 + (y 1 : ℝ) ^ 2 + (y 2 : ℝ) ^ 2 = 2 := by
        have : ∀ y ∈ shortFcc, y 0 ^ 2 + y 1 ^ 2 + y 2 ^ 2 = 2 := by decide +kernel
        exact_mod_cast this y hy
      have e2 : latPoint rows m ⬝ᵥ latPoint rows m = (Real.sqrt 2 * |c|) ^ 2 := by
        rw [e, hdot, hyy, hl]; ring
      have k1 := hx m hm e2
      have k2 := hx (-m) (by simpa using hm) (by rw [latPoint_neg, neg_dotProduct_neg, e2])
      rw [latPoint_neg, dotProduct_neg, hl, e] at k2
      rw [hl, e] at k1
      have e3 : x ⬝ᵥ (fun k => c * (y k : ℝ)) =
          c ^ 2 / 2 * ∑ k, 2 * x k / c * (y k : ℝ) := by
        rw [dotProduct, Finset.mul_sum]
        refine Finset.sum_congr rfl fun k _ => ?_
        field_simp
      rw [e3] at k1 k2
      refine abs_le.2 ⟨?_, ?_⟩
      · by_contra hlt
        push Not at hlt
        nlinarith
      · by_contra hlt
        push Not at hlt
        nlinarith
    have e3 : x ⬝ᵥ latPoint rows n = c ^ 2 / 2 * ∑ k, 2 * x k / c * (z k : ℝ) := by
      rw [hz, dotProduct, Finset.mul_sum]
      refine Finset.sum_congr rfl fun k _ => ?_
      field_simp
    rw [e3, hz, hdot]
    have hX : ∃ X : Fin 3 → ℝ, ∀ k, X k = 2 * x k / c := ⟨_, fun _ => rfl⟩
    obtain ⟨X, hX⟩ := hX
    simp only [← hX, Fin.sum_univ_three] at key ⊢
    have m1 := key ![1, 1, 0] (by decide)
    have m2 := key ![1, -1, 0] (by decide)
    have m3 := key ![1, 0, 1] (by decide)
    have m4 := key ![1, 0, -1] (by decide)
    have m5 := key ![0, 1, 1] (by decide)
    have m6 := key ![0, 1, -1] (by decide)
    simp at m1 m2 m3 m4 m5 m6
    have pair : ∀ s t : ℝ, |s + t| ≤ 2 → |s + -t| ≤ 2 → |s| + |t| ≤ 2 := by
      intro s t h1 h2
      obtain ⟨a1, a2⟩ := abs_le.1 h1
      obtain ⟨b1, b2⟩ := abs_le.1 h2
      rcases abs_cases s with ⟨hs, -⟩ | ⟨hs, -⟩ <;> rcases abs_cases t with ⟨ht, -⟩ | ⟨ht, -⟩ <;>
        linarith
    have hcore := fcc_core (X := fun k => |X k|) (s := fun k => |z k|) (fun _ => abs_nonneg _) (by
      obtain ⟨m, hm⟩ := he
      rw [Int.even_add, Int.even_add] at *
      simp only [even_abs]
      have : Even (z 0 + z 1 + z 2) := ⟨m, hm⟩
      rwa [Int.even_add, Int.even_add] at this)
      (fun _ => abs_nonneg _) ⟨pair _ _ m1 m2, pair _ _ m3 m4, pair _ _ m5 m6⟩
    have hle : ∀ k, X k * (z k : ℝ) ≤ |X k| * ((|z k| : ℤ) : ℝ) := by
      intro k
      push_cast
      rw [← abs_mul]
      exact le_abs_self _
    have hsq : ∀ k, (((|z k| : ℤ) : ℝ)) ^ 2 = (z k : ℝ) ^ 2 := by
      intro k
      push_cast
      rw [sq_abs]
    rw [hsq, hsq, hsq] at hcore
    have hsum := (add_le_add (add_le_add (hle 0) (hle 1)) (hle 2)).trans hcore
    nlinarith

/-- C86 for the face-centred cubic lattice. -/
theorem C86_fcc_partial (q : Qhull 3) (env : Env ℝ) (a : ℝ) (ha : a ≠ 0) :
    ∃ b w, fcc a = .ok b ∧ b.wignerSeitzCell q = .ok w ∧
      IsCell ((a / 2) • !![1, 1, 0; 1, 0, 1; 0, 1, 1]) (w.check env) := by
  obtain ⟨b, hb, hpts⟩ := C81_fcc a ha
  have hlat : ∀ n k, latPoint ((a / 2) • !![(1 : ℝ), 1, 0; 1, 0, 1; 0, 1, 1]) n k =
      a / 2 * (![n 0 + n 1, n 0 + n 2, n 1 + n 2] k : ℤ) := by
    intro n k
    rw [latPoint, Fin.sum_univ_three]
    fin_cases k <;> simp <;> ring
  obtain ⟨w, hw, hcell⟩ := isCell_fcc hb q env (c := a / 2) (by simpa using ha) (by
    intro i
    fin_cases i <;> simp [dotProduct, Fin.sum_univ_three] <;> ring) (by
    intro n
    refine ⟨![n 0 + n 1, n 0 + n 2, n 1 + n 2], ⟨n 0 + n 1 + n 2, by simp; ring⟩, ?_⟩
    funext k
    exact hlat n k) (by
    have hex : ∀ y ∈ shortFcc, ∃ n ∈ ([![1, 0, 0], ![0, 1, -1], ![0, 1, 0], ![1, 0, -1],
        ![0, 0, 1], ![1, -1, 0]] : List (Fin 3 → ℤ)), (∀ k, |n k| ≤ 1) ∧
        ![n 0 + n 1, n 0 + n 2, n 1 + n 2] = y := by decide +kernel
    intro y hy
    obtain ⟨n, -, h1, rfl⟩ := hex y hy
    exact ⟨n, h1, funext fun k => hlat n k⟩)
  exact ⟨b, w, hb, hw, hcell⟩

example : ∃ b w, fcc 2 = .ok b ∧ b.wignerSeitzCell (Qhull.exact 3) = .ok w ∧
    w.check (Env.brute ℝ) ![1, 1, 0] = false := by
  obtain ⟨b, w, h1, h2, h3⟩ := C86_fcc_partial (Qhull.exact 3) (Env.brute ℝ) 2 (by norm_num)
  refine ⟨b, w, h1, h2, ?_⟩
  by_contra hne
  have h4 := (h3 _).1 (by simpa using hne) ![1, 0, 0]
  rw [closer_iff] at h4
  simp [latPoint, dotProduct, Fin.sum_univ_three] at h4

/-! ## body-centred cubic lattices -/

/-- For a basis of a body-centred cubic lattice (integer points with coordinates of the same
parity, in units of `c`) whose vectors are shortest lattice vectors, only the eight nearest points
are used, and the point `(6/5, 0, 0) c` is accepted though `(2, 0, 0) c` is closer. -/
theorem bcc_wrong {rows : Matrix (Fin 3) (Fin 3) ℝ} {b : LatticeBasis 3 ℝ}
    (hb : LatticeBasis.init rows = .ok b) (q : Qhull 3) (env : Env ℝ) {c : ℝ} (hc : 1 / 10 ^ 7 ≤ c)
    (hrow : ∀ i, rows i ⬝ᵥ rows i = 3 * c ^ 2)
    (hA : ∀ n, ∃ z : Fin 3 → ℤ, Even (z 0 - z 1) ∧ Even (z 1 - z 2) ∧
      latPoint rows n = fun k => c * z k) {n1 : Fin 3 → ℤ}
    (hn1 : latPoint rows n1 = ![2 * c, 0, 0]) :
    ∃ w, b.wignerSeitzCell q = .ok w ∧ w.check env ![6 / 5 * c, 0, 0] = true ∧
      distance ![6 / 5 * c, 0, 0] (latPoint rows n1) < distance ![6 / 5 * c, 0, 0] 0 := by
  have hpos : 0 < c := lt_of_lt_of_le (by norm_num) hc
  have hl : (Real.sqrt 3 * c) ^ 2 = 3 * c ^ 2 := by rw [mul_pow, Real.sq_sqrt (by norm_num)]
  have hc2 : 0 < c ^ 2 := by positivity
  have hdot : ∀ z : Fin 3 → ℤ, (fun k => c * (z k : ℝ)) ⬝ᵥ (fun k => c * (z k : ℝ)) =
      c ^ 2 * ((z 0 ^ 2 + z 1 ^ 2 + z 2 ^ 2 : ℤ) : ℝ) := by
    intro z
    simp only [dotProduct, Fin.sum_univ_three]
    push_cast
    ring
  have hodd : ∀ z : Fin 3 → ℤ, Even (z 0 - z 1) → Even (z 1 - z 2) → z ≠ 0 →
      3 ≤ z 0 ^ 2 + z 1 ^ 2 + z 2 ^ 2 ∧
      (z 0 ^ 2 + z 1 ^ 2 + z 2 ^ 2 < 4 → z 0 ^ 2 = 1 ∧ z 0 ^ 2 + z 1 ^ 2 + z 2 ^ 2 = 3) := by
    intro z h1 h2 hz
    have hbig : ∀ t : ℤ, Even t → t ≠ 0 → 4 ≤ t ^ 2 := by
      rintro t ⟨m, rfl⟩ h
      have : m ≠ 0 := fun h' => h (by rw [h']; rfl)
      have := sq_pos_of_ne_zero this
      nlinarith
    have h3 : ∀ t : ℤ, ¬ Even t → 1 ≤ t ^ 2 := by
      intro t h
      have : t ≠ 0 := by rintro rfl; exact h (by simp)
      have := sq_pos_of_ne_zero this
      omega
    rw [Int.even_sub] at h1 h2
    have q0 := sq_nonneg (z 0)
    have q1 := sq_nonneg (z 1)
    have q2 := sq_nonneg (z 2)
    by_cases he : Even (z 0)
    · have he1 := h1.1 he
      have he2 := h2.1 he1
      have h4 : 4 ≤ z 0 ^ 2 + z 1 ^ 2 + z 2 ^ 2 := by
        by_cases e0 : z 0 = 0
        · by_cases e1 : z 1 = 0
          · have e2 : z 2 ≠ 0 := by
              intro e2
              exact hz (by funext k; fin_cases k <;> simp [e0, e1, e2])
            have := hbig _ he2 e2
            omega
          · have := hbig _ he1 e1
            omega
        · have := hbig _ he e0
          omega
      omega
    · have g0 := h3 _ he
      have g1 := h3 _ fun h => he (h1.2 h)
      have g2 := h3 _ fun h => he (h1.2 (h2.2 h))
      refine ⟨by omega, fun h => ?_⟩
      omega
  have hz0 : ∀ n, n ≠ 0 → ∃ z : Fin 3 → ℤ, Even (z 0 - z 1) ∧ Even (z 1 - z 2) ∧ z ≠ 0 ∧
      latPoint rows n = fun k => c * z k := by
    intro n hn
    obtain ⟨z, h1, h2, hz⟩ := hA n
    refine ⟨z, h1, h2, ?_, hz⟩
    rintro rfl
    apply hn
    rw [← latPoint_eq_zero hb, hz]
    funext k
    simp
  obtain ⟨w, hw, hnd, h0, -, -, hmem⟩ := wsCell_equal (by norm_num) hb q
    (ℓ := Real.sqrt 3 * c) (by positivity) (fun i => by rw [hrow, hl]) (by
      intro n hn
      obtain ⟨z, h1, h2, hne, hz⟩ := hz0 n hn
      rw [hl, hz, hdot]
      have : (3 : ℝ) ≤ ((z 0 ^ 2 + z 1 ^ 2 + z 2 ^ 2 : ℤ) : ℝ) := by
        exact_mod_cast (hodd z h1 h2 hne).1
      nlinarith)
  refine ⟨w, hw, ?_, ?_⟩
  · refine (C18_check_partial env w hnd h0 _).2 fun p hp hp0 => ?_
    obtain ⟨n, rfl, -, hcl⟩ := (hmem p hp0).1 hp
    have hn : n ≠ 0 := fun h => hp0 (by rw [h, latPoint_zero])
    obtain ⟨z, h1, h2, hne, hz⟩ := hz0 n hn
    rw [closer_lt_iff]
    have hsq := norm2_sq (latPoint rows n)
    rw [hz, hdot] at hsq
    rw [hz] at hcl
    have hnn := norm2_nonneg (fun k => c * (z k : ℝ))
    have hlt : z 0 ^ 2 + z 1 ^ 2 + z 2 ^ 2 < 4 := by
      by_contra hge
      push Not at hge
      have hge' : (4 : ℝ) ≤ ((z 0 ^ 2 + z 1 ^ 2 + z 2 ^ 2 : ℤ) : ℝ) := by exact_mod_cast hge
      generalize norm2 (fun k => c * (z k : ℝ)) = t at hsq hcl hnn
      simp only [isclose, decide_eq_true_eq] at hcl
      have hs : Real.sqrt 3 ≤ 7 / 4 := by
        rw [Real.sqrt_le_left (by norm_num)]; norm_num
      have hs0 := Real.sqrt_nonneg 3
      rw [abs_of_nonneg (by positivity : 0 ≤ Real.sqrt 3 * c)] at hcl
      have k1 := (abs_le.1 hcl).2
      have k2 : Real.sqrt 3 * c ≤ 7 / 4 * c := mul_le_mul_of_nonneg_right hs hpos.le
      have k3 : t ≤ 19 / 10 * c := by norm_num at k1 hc ⊢; linarith
      have k4 : t ^ 2 ≤ (19 / 10 * c) ^ 2 := pow_le_pow_left₀ hnn k3 2
      nlinarith
    obtain ⟨e1, e3⟩ := (hodd z h1 h2 hne).2 hlt
    rw [hz, hdot, e3]
    have hz1 : (z 0 : ℝ) ≤ 1 := by
      have : z 0 ≤ 1 := by nlinarith
      exact_mod_cast this
    simp [dotProduct, Fin.sum_univ_three]
    nlinarith
  · rw [hn1, distance_lt_iff]
    simp [dotProduct, Fin.sum_univ_three]
    nlinarith

/-- C86 fails for the body-centred cubic lattice with `a = 1`: the point `(3/5, 0, 0)` is accepted
though the lattice point `(1, 0, 0)` is closer to it than the origin.  (Only the eight nearest
lattice points are used; the cell is cut off by the next six as well.) -/
theorem C86_cell_fails (q : Qhull 3) (env : Env ℝ) :
    ∃ b w, bcc 1 = .ok b ∧ b.wignerSeitzCell q = .ok w ∧ w.check env ![3 / 5, 0, 0] = true ∧
      b.translate ![1, 0, -1] 0 = ![1, 0, 0] ∧
      distance ![3 / 5, 0, 0] (![1, 0, 0] : Vec 3 ℝ) < distance ![3 / 5, 0, 0] (0 : Vec 3 ℝ) := by
  obtain ⟨b, hb, -⟩ := C81_bcc 1 one_ne_zero
  have hlat : ∀ n k, latPoint (((1 : ℝ) / 2) • !![(1 : ℝ), 1, 1; 1, -1, 1; -1, 1, 1]) n k =
      1 / 2 * (![n 0 + n 1 - n 2, n 0 - n 1 + n 2, n 0 + n 1 + n 2] k : ℤ) := by
    intro n k
    rw [latPoint, Fin.sum_univ_three]
    fin_cases k <;> simp <;> ring
  have hn1 : latPoint (((1 : ℝ) / 2) • !![(1 : ℝ), 1, 1; 1, -1, 1; -1, 1, 1]) ![1, 0, -1] =
      ![2 * (1 / 2), 0, 0] := by
    funext k
    rw [hlat]
    fin_cases k <;> simp [Matrix.cons_val]
  obtain ⟨w, hw, h1, h2⟩ := bcc_wrong hb q env (c := 1 / 2) (by norm_num) (by
    intro i
    fin_cases i <;> simp [dotProduct, Fin.sum_univ_three] <;> norm_num) (by
    intro n
    refine ⟨![n 0 + n 1 - n 2, n 0 - n 1 + n 2, n 0 + n 1 + n 2], ⟨n 1 - n 2, by simp; ring⟩,
      ⟨-n 1, by simp; ring⟩, ?_⟩
    funext k
    exact hlat n k) hn1
  rw [hn1] at h2
  rw [← latPoint_eq hb] at hn1
  norm_num at h1 h2 hn1
  exact ⟨b, w, hb, hw, h1, hn1, h2⟩

/-! ## rectangular lattices -/

/-- C86 fails for the rectangular lattice with the default lattice constants `1.5` and `1`: the
vectors have two different lengths, the second shortest distance is compared, only points on the
first axis are used, and the call raises. -/
theorem C86_rectangular_fails (q : Qhull 2) :
    ∃ b, rectangular (3 / 2) 1 = .ok b ∧ b.wignerSeitzCell q = .error .qhull := by
  obtain ⟨b, hb⟩ := (init_eq_ok_iff (!![3 / 2, 0; 0, 1] : Matrix (Fin 2) (Fin 2) ℝ)).2
    (by norm_num [det_fin_two])
  have hn : ∀ n : Fin 2 → ℤ, norm2 (b.translate n 0) = Real.sqrt (9 / 4 * n 0 ^ 2 + n 1 ^ 2) := by
    intro n
    rw [translate_eq, init_vectors hb, norm2, hasSqrt_real]
    congr 1
    simp [Fin.sum_univ_two]
    ring
  have s4 : Real.sqrt (9 / 4) = 3 / 2 := by
    rw [show (9 / 4 : ℝ) = (3 / 2) ^ 2 by norm_num, Real.sqrt_sq (by norm_num)]
  have hnorms : npUnique b.norms = [1, 3 / 2] := by
    apply npUnique_eq (by norm_num)
    intro x
    have e1 : norm2 (b.vectors 0) = 3 / 2 := by
      rw [init_vectors hb, norm2_eq_iff _ (by norm_num)]
      simp [dotProduct, Fin.sum_univ_two]
      norm_num
    have e2 : norm2 (b.vectors 1) = 1 := by
      rw [init_vectors hb]; simp [norm2, hasSqrt_real, Fin.sum_univ_two]
    simp [norms, List.finRange_succ, e1, e2]
    tauto
  have hL : npUnique ((factors 2 0).map fun n => norm2 (b.translate n 0)) =
      [0, 1, 3 / 2, Real.sqrt (13 / 4)] := by
    have h5 : (3 / 2 : ℝ) < Real.sqrt (13 / 4) := by
      rw [Real.lt_sqrt (by norm_num)]; norm_num
    apply npUnique_eq
    · generalize Real.sqrt (13 / 4) = u at h5
      have h1 : 1 < u := by linarith
      have h0 : 0 < u := by linarith
      simp [h5, h1, h0]
      norm_num
    · intro x
      have hf : factors 2 0 = [![-1, -1], ![-1, 0], ![-1, 1], ![0, -1], ![0, 0], ![0, 1],
        ![1, -1], ![1, 0], ![1, 1]] := by decide +kernel
      rw [hf]
      simp only [hn, List.map_cons, List.map_nil]
      norm_num [s4]
      tauto
  refine ⟨b, hb, ?_⟩
  obtain ⟨r, hr, h0, -, hmake⟩ := wsCell_spec hb q
  obtain ⟨m, hm, -, -, hmem⟩ := neighborCells_spec b 0 true isclose r hr
  rw [hL, hnorms] at hm
  obtain rfl : 3 / 2 = m := by simpa using hm
  rw [hmake]
  rcases WSCell.make_cases q (r.map (latPoint !![3 / 2, 0; 0, 1])) with ⟨w, hw⟩ | ⟨h, -⟩
  · exfalso
    have hflat : ¬ Spans (r.map (latPoint !![3 / 2, 0; 0, 1])) := by
      intro hs
      obtain ⟨p, hp, hne⟩ := hs ![0, 1] 0 (by intro h; simpa using congrFun h 1)
      obtain ⟨n, hn', rfl⟩ := List.mem_map.1 hp
      apply hne
      by_cases hz : n = 0
      · rw [hz, latPoint_zero, dotProduct_zero]
      · obtain ⟨hbox, hc⟩ := (hmem n hz).1 hn'
        have hn1 : n 1 = 0 := by
          by_contra h1
          have b0 := hbox 0
          have b1 := hbox 1
          rw [hn] at hc
          have q1 : n 1 ^ 2 = 1 := by
            rw [← sq_abs]
            have := abs_pos.2 h1
            have : |n 1| = 1 := by push_cast at b1; omega
            rw [this]; rfl
          have q0 : n 0 ^ 2 = 0 ∨ n 0 ^ 2 = 1 := by
            rw [← sq_abs]
            have h2 := abs_nonneg (n 0)
            have : |n 0| = 0 ∨ |n 0| = 1 := by push_cast at b0; omega
            rcases this with h | h <;> rw [h] <;> simp
          have q1' : (n 1 : ℝ) ^ 2 = 1 := by exact_mod_cast q1
          simp only [isclose, decide_eq_true_eq] at hc
          rcases q0 with h | h
          · have h' : (n 0 : ℝ) ^ 2 = 0 := by exact_mod_cast h
            rw [h', q1'] at hc
            norm_num at hc
          · have h' : (n 0 : ℝ) ^ 2 = 1 := by exact_mod_cast h
            rw [h', q1'] at hc
            have h5 : (9 / 5 : ℝ) < Real.sqrt (13 / 4) := by
              rw [Real.lt_sqrt (by norm_num)]; norm_num
            have k := (abs_le.1 hc).2
            norm_num at k h5
            linarith
        simp [latPoint, dotProduct, Fin.sum_univ_two, hn1]
    unfold WSCell.make at hw
    rw [if_neg (by norm_num), q.flat _ hflat] at hw
    exact absurd hw (by simp)
  · exact h

end Lattpy
