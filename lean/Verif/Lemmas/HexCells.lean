import Verif.Props.PresetBuild

/-!
# The cells of primitive builds on the hexagonal basis
-/

set_option autoImplicit false
set_option linter.unusedSectionVars false

namespace Lattpy

open Structure World Preset

variable {d : ℕ}

/-- An index in the range of the type chosen for the limits does not wrap around. -/
theorem indexWrap_of_le (limits : Fin d → ℤ × ℤ) {i : ℤ} (h0 : 0 ≤ i)
    (h : i < 2 ^ 7 ∨ ∃ k, i ≤ (limits k).2) : indexWrap limits none i = i := by
  unfold indexWrap
  dsimp only
  cases ht : minDtype ((List.finRange d).flatMap fun k => [(limits k).1, (limits k).2]) true with
  | none => rfl
  | some t =>
    dsimp only
    obtain ⟨hb, hb8, hm⟩ := minDtype_signed ht
    refine wrapSigned_of_lt hb h0 ?_
    rcases h with h | ⟨k, h⟩
    · have : (2 : ℤ) ^ 7 ≤ 2 ^ (t.bits - 1) := pow_le_pow_right₀ (by norm_num) (by omega)
      omega
    · have h1 := hm (limits k).2 (List.mem_flatMap.2 ⟨k, List.mem_finRange k, by simp⟩)
      have h2 := le_abs_self (limits k).2
      omega

/-- The listed cells contain every cell whose index does not wrap around. -/
theorem vindices_contains (limits : Fin d → ℤ × ℤ) (hle : ∀ k, (limits k).1 ≤ (limits k).2)
    (ax : Fin d) : ∃ r, vindices limits (some ax) none = .ok r ∧ ∀ v : Fin d → ℤ,
      (∀ k, (limits k).1 ≤ v k ∧ v k < (limits k).2 ∧
        indexWrap limits none (v k - (limits k).1) = v k - (limits k).1) → v ∈ r := by
  have hany : (List.finRange d).any (fun k => decide ((limits k).2 - (limits k).1 < 0)) = false := by
    simp only [List.any_eq_false, decide_eq_true_eq, not_lt]
    intro k _
    have := hle k
    omega
  refine ⟨_, by rw [vindices]; simp only [hany]; rfl, ?_⟩
  intro v hv
  rw [(stableSortBy_perm _ _).mem_iff, List.mem_map]
  refine ⟨fun k => v k - (limits k).1, ?_, by funext k; ring⟩
  rw [mem_boxList]
  intro k
  rw [List.mem_map]
  obtain ⟨h1, h2, h3⟩ := hv k
  refine ⟨(v k - (limits k).1).toNat, by rw [List.mem_range]; omega, ?_⟩
  rw [Int.toNat_of_nonneg (by omega), h3]

/-- The sites of a primitive build are those whose lattice coordinates are in the box, if the search
window contains their cells. -/
theorem primitive_cells (hd : 0 < d) {S : Structure d ℝ} (hG : S.Good) (hn : 0 < S.numBase)
    {size start sz : Vec d ℝ}
    (hreg : S.buildRegion (.shape (.box size 0 (some S.basis.vectors))) true none = .ok (start, sz))
    (hle : ∀ k, (S.searchLimits start sz k).1 ≤ (S.searchLimits start sz k).2)
    (hwin : ∀ (n : Fin d → ℤ) (b : ℕ) (p : Vec d ℝ), S.positions[b]? = some p →
      (∀ k, -(1 / 1000) ≤ n k + S.basis.itransform p k ∧
        n k + S.basis.itransform p k ≤ size k + 1 / 1000) →
      ∀ k, (S.searchLimits start sz k).1 ≤ n k ∧ n k < (S.searchLimits start sz k).2 ∧
        indexWrap (S.searchLimits start sz) none (n k - (S.searchLimits start sz k).1) =
          n k - (S.searchLimits start sz k).1) :
    ∃ r, S.buildIndices (.shape (.box size 0 (some S.basis.vectors))) true none true none none =
        .ok r ∧ r.2 = r.1.map S.sitePos ∧
      ∀ x : Idx d, x ∈ r.1 ↔ ∃ (b : ℕ) (p : Vec d ℝ), x.alpha = b ∧ S.positions[b]? = some p ∧
        ∀ k, -(1 / 1000) ≤ Idx.cell x k + S.basis.itransform p k ∧
          Idx.cell x k + S.basis.itransform p k ≤ size k + 1 / 1000 := by
  obtain ⟨rows, hb⟩ := hG.basis
  have hdet : S.basis.vectors.det ≠ 0 := by
    have := (LatticeBasis.init_ok hb).2.1
    rwa [LatticeBasis.vectors, Matrix.det_transpose]
  obtain ⟨nv, hnv, hmem⟩ := vindices_contains (S.searchLimits start sz) hle ⟨0, hd⟩
  have hbtv : S.buildTranslationVectors (.shape (.box size 0 (some S.basis.vectors))) true none
      false none 0 = .ok nv := by
    rw [buildTranslationVectors_eq _ hd, hreg]
    exact hnv
  have hcontains : ∀ p : Vec d ℝ, ∃ b, (AShape.box size 0 (some S.basis.vectors)).contains p
      (1 / 1000) = .ok b ∧ (b = true ↔ ∀ k, -(1 / 1000) ≤ S.basis.itransform p k ∧
        S.basis.itransform p k ≤ size k + 1 / 1000) := by
    intro p
    obtain ⟨b, hb1, hb2⟩ := (C28_basis_box size 0 p S.basis.vectors (1 / 1000)).2 hdet
    refine ⟨b, hb1, hb2.trans ?_⟩
    constructor
    · rintro ⟨c, hc, hck⟩ k
      rw [(isFrac_iff hb p c).1 hc]
      simpa using hck k
    · intro hk
      refine ⟨S.basis.itransform p, (isFrac_iff hb _ _).2 rfl, ?_⟩
      intro k
      simpa using hk k
  have hce : ∀ points : List (Vec d ℝ), S.checkError points
      (.shape (.box size 0 (some S.basis.vectors))) true none true = none := by
    intro points
    unfold checkError checkPoints
    rw [if_pos rfl]
    have : points.mapM (fun p => (AShape.box size 0 (some S.basis.vectors)).contains p (1 / 1000)) =
        .ok (points.map fun p => (hcontains p).choose) :=
      mapM_ok _ _ _ fun p _ => (hcontains p).choose_spec.1
    dsimp only
    rw [this]
  refine ⟨_, buildIndices_none hG.positions_length hn hbtv hce, rfl, ?_⟩
  intro x
  dsimp only
  rw [List.mem_filter, mem_siteList]
  have hacc : ∀ (b : ℕ) (p : Vec d ℝ), x.alpha = b → S.positions[b]? = some p →
      (S.accepts (.shape (.box size 0 (some S.basis.vectors))) true none (1 / 1000) (S.sitePos x) =
        true ↔ ∀ k, -(1 / 1000) ≤ Idx.cell x k + S.basis.itransform p k ∧
          Idx.cell x k + S.basis.itransform p k ≤ size k + 1 / 1000) := by
    intro b p hx hp
    obtain ⟨y, hy1, hy2⟩ := hcontains (S.sitePos x)
    unfold accepts
    dsimp only
    rw [hy1]
    dsimp only
    rw [hy2]
    refine forall_congr' fun k => ?_
    have : S.basis.itransform (S.sitePos x) k = Idx.cell x k + S.basis.itransform p k := by
      unfold sitePos
      rw [hx, posOf_eq (b := ((b : ℤ)).toNat) (p := p) (by simpa using hp),
        LatticeBasis.itransform_translate hb]
      simp [add_comm]
    rw [this]
  simp only [Bool.not_true, Bool.false_or]
  constructor
  · rintro ⟨⟨-, b, hb1, hb2⟩, h2⟩
    have hb1' : b < S.positions.length := by rw [hG.positions_length]; exact hb1
    have hp : S.positions[b]? = some S.positions[b] := List.getElem?_eq_getElem hb1'
    exact ⟨b, _, hb2, hp, (hacc b _ hb2 hp).1 h2⟩
  · rintro ⟨b, p, h1, h2, h3⟩
    refine ⟨⟨hmem _ (hwin _ b p h2 h3), b, ?_, h1⟩, (hacc b p h1 h2).2 h3⟩
    rw [← hG.positions_length]
    exact (List.getElem?_eq_some_iff.1 h2).1

/-! ## the hexagonal basis -/

section hex
variable {S : Structure 2 ℝ} {a : ℝ}

/-- The lattice coordinates. -/
theorem hex_inv {rows : Matrix (Fin 2) (Fin 2) ℝ} {b : LatticeBasis 2 ℝ}
    (hb : LatticeBasis.init rows = .ok b) (ha : a ≠ 0)
    (hv : b.vectors = (a / 2) • !![3, Real.sqrt 3; 3, -Real.sqrt 3]) (x : Vec 2 ℝ) :
    b.itransform x 0 = x 0 / (3 * a) + x 1 / (Real.sqrt 3 * a) ∧
    b.itransform x 1 = x 0 / (3 * a) - x 1 / (Real.sqrt 3 * a) := by
  have h3 : Real.sqrt 3 ≠ 0 := by positivity
  have : IsFrac b x ![x 0 / (3 * a) + x 1 / (Real.sqrt 3 * a),
      x 0 / (3 * a) - x 1 / (Real.sqrt 3 * a)] := by
    intro i
    rw [hv]
    fin_cases i
    · simp [Fin.sum_univ_two]
      field_simp
      ring
    · simp [Fin.sum_univ_two]
      field_simp
      ring
  rw [(isFrac_iff hb _ _).1 this]
  exact ⟨rfl, rfl⟩

theorem hex_maxVector (ha : 0 < a)
    (hv : S.basis.vectors = (a / 2) • !![3, Real.sqrt 3; 3, -Real.sqrt 3]) :
    S.maxVector 0 = 3 / 2 * a ∧ S.maxVector 1 = Real.sqrt 3 / 2 * a := by
  have h3 : 0 < Real.sqrt 3 := by positivity
  unfold maxVector
  rw [hv]
  constructor
  · simp [List.finRange_succ]
    ring
  · simp [List.finRange_succ]
    have : -(a / 2 * Real.sqrt 3) ≤ a / 2 * Real.sqrt 3 := by nlinarith
    rw [max_eq_right this]
    ring

theorem hex_norm (ha : 0 < a)
    (hv : S.basis.vectors = (a / 2) • !![3, Real.sqrt 3; 3, -Real.sqrt 3]) (k : Fin 2) :
    norm2 (S.basis.vectors k) = Real.sqrt 3 * a := by
  have h3 : Real.sqrt 3 * Real.sqrt 3 = 3 := Real.mul_self_sqrt (by norm_num)
  have h30 : 0 < Real.sqrt 3 := by positivity
  unfold norm2
  have h0 : 0 ≤ Real.sqrt 3 * a := by positivity
  rw [hasSqrt_real, hv, ← Real.sqrt_mul_self h0]
  congr 1
  fin_cases k
  · simp [Fin.sum_univ_two]
    linear_combination (-3 / 4 * a ^ 2) * h3
  · simp [Fin.sum_univ_two]
    linear_combination (-3 / 4 * a ^ 2) * h3

/-- The limits of a box of `σ 0` times `σ 1` basis vectors. -/
theorem hex_limits (ha : 0 < a) {σ : Vec 2 ℝ} (hσ : ∀ k, 0 ≤ σ k) :
    ∃ l, (AShape.box σ 0 (some ((a / 2) • !![3, Real.sqrt 3; 3, -Real.sqrt 3]))).limits = .ok l ∧
      l 0 = (0, 3 / 2 * a * (σ 0 + σ 1)) ∧
      l 1 = (-(Real.sqrt 3 / 2 * a * σ 1), Real.sqrt 3 / 2 * a * σ 0) := by
  obtain ⟨l, hl, hk⟩ := AShape.minMax_spec (AShape.corners σ 0
    (some ((a / 2) • !![3, Real.sqrt 3; 3, -Real.sqrt 3]))) (AShape.corners_ne _ _ _)
  have h3 : 0 < Real.sqrt 3 := by positivity
  have p0 := hσ 0
  have p1 := hσ 1
  have hc : ∀ v, v ∈ AShape.corners σ 0 (some ((a / 2) • !![3, Real.sqrt 3; 3, -Real.sqrt 3])) ↔
      ∃ c : Vec 2 ℝ, (∀ k, c k = 0 ∨ c k = σ k) ∧
        v = ![3 / 2 * a * (c 0 + c 1), Real.sqrt 3 / 2 * a * (c 0 - c 1)] := by
    intro v
    have : v ∈ AShape.corners σ 0 (some ((a / 2) • !![3, Real.sqrt 3; 3, -Real.sqrt 3])) ↔
        ∃ c ∈ AShape.corners σ 0 none,
          v = Matrix.vecMul c ((a / 2) • !![3, Real.sqrt 3; 3, -Real.sqrt 3]) := by
      simp [AShape.corners, eq_comm]
    rw [this]
    have hmul : ∀ c : Vec 2 ℝ, Matrix.vecMul c ((a / 2) • !![3, Real.sqrt 3; 3, -Real.sqrt 3]) =
        ![3 / 2 * a * (c 0 + c 1), Real.sqrt 3 / 2 * a * (c 0 - c 1)] := by
      intro c
      funext k
      fin_cases k
      · simp [Matrix.vecMul, dotProduct, Fin.sum_univ_two]; ring
      · simp [Matrix.vecMul, dotProduct, Fin.sum_univ_two]; ring
    simp only [hmul, AShape.mem_corners_none, Pi.zero_apply, zero_add]
  have hle : ∀ c : Vec 2 ℝ, (∀ k, c k = 0 ∨ c k = σ k) → ∀ k, 0 ≤ c k ∧ c k ≤ σ k := by
    intro c h k
    have := hσ k
    rcases h k with h | h <;> rw [h] <;> constructor <;> linarith
  have key : ∀ k lo hi, (∃ c : Vec 2 ℝ, (∀ k, c k = 0 ∨ c k = σ k) ∧
      lo = ![3 / 2 * a * (c 0 + c 1), Real.sqrt 3 / 2 * a * (c 0 - c 1)] k) →
      (∃ c : Vec 2 ℝ, (∀ k, c k = 0 ∨ c k = σ k) ∧
      hi = ![3 / 2 * a * (c 0 + c 1), Real.sqrt 3 / 2 * a * (c 0 - c 1)] k) →
      (∀ c : Vec 2 ℝ, (∀ k, c k = 0 ∨ c k = σ k) →
        lo ≤ ![3 / 2 * a * (c 0 + c 1), Real.sqrt 3 / 2 * a * (c 0 - c 1)] k ∧
        ![3 / 2 * a * (c 0 + c 1), Real.sqrt 3 / 2 * a * (c 0 - c 1)] k ≤ hi) →
      l k = (lo, hi) := by
    rintro k lo hi ⟨c1, hc1, rfl⟩ ⟨c2, hc2, rfl⟩ hall
    obtain ⟨⟨⟨v1, hv1, e1⟩, l1⟩, ⟨v2, hv2, e2⟩, l2⟩ := hk k
    refine Prod.ext (le_antisymm ?_ ?_) (le_antisymm ?_ ?_)
    · exact l1 ⟨_, (hc _).2 ⟨c1, hc1, rfl⟩, rfl⟩
    · obtain ⟨c, h, rfl⟩ := (hc _).1 hv1
      rw [e1]
      exact (hall c h).1
    · obtain ⟨c, h, rfl⟩ := (hc _).1 hv2
      rw [e2]
      exact (hall c h).2
    · exact l2 ⟨_, (hc _).2 ⟨c2, hc2, rfl⟩, rfl⟩
  refine ⟨l, hl, key 0 _ _ ⟨0, fun _ => Or.inl rfl, by simp⟩ ⟨σ, fun _ => Or.inr rfl, by simp⟩ ?_,
    key 1 _ _ ⟨![0, σ 1], fun k => by fin_cases k <;> simp, by simp⟩
      ⟨![σ 0, 0], fun k => by fin_cases k <;> simp, by simp⟩ ?_⟩
  · intro c h
    have h0 := hle c h 0
    have h1 := hle c h 1
    simp only [Matrix.cons_val_zero]
    constructor
    · have : 0 ≤ c 0 + c 1 := by linarith
      positivity
    · have : c 0 + c 1 ≤ σ 0 + σ 1 := by linarith
      gcongr
  · intro c h
    have h0 := hle c h 0
    have h1 := hle c h 1
    simp only [Matrix.cons_val_one, Matrix.cons_val_fin_one]
    have hq : 0 < Real.sqrt 3 / 2 * a := by positivity
    constructor <;> nlinarith

/-- The search window of a primitive build of `σ 0` times `σ 1` cells. -/
theorem hex_region (ha : 0 < a)
    (hv : S.basis.vectors = (a / 2) • !![3, Real.sqrt 3; 3, -Real.sqrt 3]) {σ : Vec 2 ℝ}
    (hσ : ∀ k, 0 ≤ σ k) :
    ∃ start sz, S.buildRegion (.shape (.box σ 0 (some S.basis.vectors))) true none =
        .ok (start, sz) ∧
      start 0 = 0 ∧ start 1 = -(Real.sqrt 3 / 2 * a * σ 1) ∧
      (start 0 + sz 0) / (3 * a) = 3 / 4 * (a * (σ 0 + σ 1)) - Real.sqrt 3 / 30 ∧
      (start 1 + sz 1) / (Real.sqrt 3 * a) =
        -(σ 1 / 2) + Real.sqrt 3 / 4 * (a * (σ 0 + σ 1)) - 1 / 10 := by
  obtain ⟨l, hl, h0, h1⟩ := hex_limits ha hσ
  obtain ⟨m0, m1⟩ := hex_maxVector ha hv
  have h3 : 0 < Real.sqrt 3 := by positivity
  refine ⟨fun k => (l k).1, fun k => ((l k).2 - (l k).1) * S.maxVector k -
    1 / 10 * norm2 (S.basis.vectors k), ?_, by dsimp only; rw [h0],
    by dsimp only; rw [h1], ?_, ?_⟩
  · unfold buildRegion
    dsimp only
    rw [hv, hl]
    simp
  · dsimp only
    rw [h0, m0, hex_norm ha hv]
    field_simp
    ring
  · dsimp only
    rw [h1, m1, hex_norm ha hv]
    field_simp
    ring

/-- The sites of a primitive build on the hexagonal basis are those whose lattice coordinates are in
the requested range. -/
theorem hex_cells (hG : S.Good) (hn : 0 < S.numBase) (ha : 1 ≤ a)
    (hv : S.basis.vectors = (a / 2) • !![3, Real.sqrt 3; 3, -Real.sqrt 3])
    (hp : ∀ p ∈ S.positions, ∀ k, 0 ≤ S.basis.itransform p k ∧ S.basis.itransform p k ≤ 1 / 2)
    {σ : Vec 2 ℝ} (hσ : ∀ k, 0 ≤ σ k ∧ 3 * σ k ≤ 2 * (a * (σ 0 + σ 1)))
    (hS : 6 / 5 ≤ σ 0 + σ 1) :
    ∃ r, S.buildIndices (.shape (.box σ 0 (some S.basis.vectors))) true none true none none =
        .ok r ∧ r.2 = r.1.map S.sitePos ∧
      ∀ x : Idx 2, x ∈ r.1 ↔ ∃ (b : ℕ) (p : Vec 2 ℝ), x.alpha = b ∧ S.positions[b]? = some p ∧
        ∀ k, -(1 / 1000) ≤ Idx.cell x k + S.basis.itransform p k ∧
          Idx.cell x k + S.basis.itransform p k ≤ σ k + 1 / 1000 := by
  have ha0 : 0 < a := by linarith
  obtain ⟨rows, hb⟩ := hG.basis
  obtain ⟨start, sz, hreg, s0, s1, e0, e1⟩ := hex_region ha0 hv (fun k => (hσ k).1)
  have hinv := hex_inv hb ha0.ne' hv
  set A : ℝ := a * (σ 0 + σ 1) with hA
  have q1 : (1732 : ℝ) / 1000 ≤ Real.sqrt 3 := Real.le_sqrt_of_sq_le (by norm_num)
  have q2 : Real.sqrt 3 ≤ (17321 : ℝ) / 10000 := (Real.sqrt_le_left (by norm_num)).2 (by norm_num)
  have hAS : σ 0 + σ 1 ≤ A := by nlinarith
  have hA0 : 6 / 5 ≤ A := by linarith
  have qA1 : (1732 : ℝ) / 1000 * A ≤ Real.sqrt 3 * A := by gcongr
  have qA2 : Real.sqrt 3 * A ≤ (17321 : ℝ) / 10000 * A := by gcongr
  have p0 := hσ 0
  have p1 := hσ 1
  set U : ℝ := 3 / 4 * A - Real.sqrt 3 / 30 with hU
  set W : ℝ := -(σ 1 / 2) + Real.sqrt 3 / 4 * A - 1 / 10 with hW
  have hU0 : 0 ≤ U := by linarith
  have hW0 : 0 ≤ W := by linarith
  have hW1 : W ≤ -(σ 1 / 2) + 44 / 100 * A := by linarith
  have hUW : 118 / 100 * A - σ 1 / 2 - 2 / 10 ≤ U + W := by linarith
  set stop : Vec 2 ℝ := fun k => start k + sz k with hstop
  have es : stop 0 / (3 * a) = U := e0
  have et : stop 1 / (Real.sqrt 3 * a) = W := e1
  have est : start 1 / (Real.sqrt 3 * a) = -(σ 1 / 2) := by
    have : Real.sqrt 3 ≠ 0 := by positivity
    rw [s1]; field_simp
  obtain ⟨b1, b2, b3⟩ := indexRange_bounds S start stop 0
  obtain ⟨c1, c2, c3⟩ := indexRange_bounds S start stop 1
  obtain ⟨⟨g0, hg0, f0⟩, -⟩ := indexRange_attained S start stop 0
  obtain ⟨⟨g1, hg1, f1⟩, -⟩ := indexRange_attained S start stop 1
  have b3' := b3 (fun j => decide (j = 1)) ⟨1, by simp⟩ ⟨0, by simp⟩
  have c3' := c3 (fun j => decide (j = 1)) ⟨1, by simp⟩ ⟨0, by simp⟩
  have c4' := c3 (fun j => decide (j = 0)) ⟨0, by simp⟩ ⟨1, by simp⟩
  rw [(hinv _).1] at b1 b2 b3' f0
  rw [(hinv _).2] at c1 c2 c3' c4' f1
  simp only [decide_eq_true_eq, zero_ne_one, one_ne_zero, if_true, if_false, zero_div, zero_add,
    add_zero, sub_zero, zero_sub, es, et, est, s0] at b1 b2 b3' c3' c4'
  -- the window
  have hlim : ∀ k, S.searchLimits start sz k =
      ((S.indexRange start stop k).1 - 1, (S.indexRange start stop k).2 + 1) := fun k => rfl
  have lo0 : -(σ 1 / 2) - 1 < ((S.indexRange start stop 0).1 : ℝ) := by
    rw [f0]
    refine lt_of_le_of_lt ?_ (Int.sub_one_lt_floor _)
    rcases hg0 with rfl | h
    · rw [s0, est]; simp
    · rcases h 0 with h0 | h0 <;> rcases h 1 with h1 | h1 <;> rw [h0, h1] <;>
        simp only [zero_div, es, et] <;> linarith
  have lo1 : -W - 1 < ((S.indexRange start stop 1).1 : ℝ) := by
    rw [f1]
    refine lt_of_le_of_lt ?_ (Int.sub_one_lt_floor _)
    rcases hg1 with rfl | h
    · rw [s0, est]; simp; linarith
    · rcases h 0 with h0 | h0 <;> rcases h 1 with h1 | h1 <;> rw [h0, h1] <;>
        simp only [zero_div, es, et] <;> linarith
  have lo0' : (S.indexRange start stop 0).1 ≤ 0 :=
    b1.trans (by rw [← Int.floor_zero (R := ℝ)]; exact Int.floor_mono (by linarith))
  have lo1' : (S.indexRange start stop 1).1 ≤ 0 :=
    c4'.1.trans (by rw [← Int.floor_zero (R := ℝ)]; exact Int.floor_mono (by linarith))
  have hi0 : U + W < ((S.indexRange start stop 0).2 : ℝ) + 1 :=
    (Int.lt_floor_add_one _).trans_le (by exact_mod_cast Int.add_le_add_right b2 1)
  have hi0' : U < ((S.indexRange start stop 0).2 : ℝ) + 1 := by linarith
  have hi1 : U < ((S.indexRange start stop 1).2 : ℝ) + 1 :=
    (Int.lt_floor_add_one _).trans_le (by exact_mod_cast Int.add_le_add_right c3'.2 1)
  refine primitive_cells two_pos hG hn hreg ?_ ?_
  · intro k
    rw [hlim]
    dsimp only
    fin_cases k
    · have : (-1 : ℝ) < ((S.indexRange start stop 0).2 : ℝ) := by linarith
      have : -1 < (S.indexRange start stop 0).2 := by exact_mod_cast this
      show (S.indexRange start stop 0).1 - 1 ≤ (S.indexRange start stop 0).2 + 1
      omega
    · have : (-1 : ℝ) < ((S.indexRange start stop 1).2 : ℝ) := by linarith
      have : -1 < (S.indexRange start stop 1).2 := by exact_mod_cast this
      show (S.indexRange start stop 1).1 - 1 ≤ (S.indexRange start stop 1).2 + 1
      omega
  · intro n b p hpb hk
    have hpc := hp p (List.mem_of_getElem? hpb)
    have hn0 : ∀ k, 0 ≤ n k := by
      intro k
      have h1 := (hk k).1
      have h2 := (hpc k).2
      have : (-1 : ℝ) < n k := by linarith
      have : -1 < n k := by exact_mod_cast this
      omega
    have hn1 : ∀ k, (n k : ℝ) ≤ σ k + 1 / 1000 := by
      intro k
      have h1 := (hk k).2
      have h2 := (hpc k).1
      linarith
    have wrap : ∀ i : ℤ, 0 ≤ i → ((i : ℝ) < 128 ∨ (i : ℝ) < 118 / 100 * A - σ 1 / 2 - 2 / 10) →
        indexWrap (S.searchLimits start sz) none i = i := by
      intro i hi0' hi
      refine indexWrap_of_le _ hi0' ?_
      rcases hi with hi | hi
      · left
        have : i < 128 := by exact_mod_cast hi
        omega
      · right
        refine ⟨0, ?_⟩
        rw [hlim]
        dsimp only
        have : (i : ℝ) < (((S.indexRange start stop 0).2 + 1 : ℤ) : ℝ) := by push_cast; linarith
        exact le_of_lt (by exact_mod_cast this)
    intro k
    rw [hlim]
    dsimp only
    have w0 := hn0 k
    have w1 := hn1 k
    fin_cases k
    · simp only [Fin.zero_eta, Fin.isValue] at w0 w1 ⊢
      refine ⟨by omega, ?_, wrap _ (by omega) ?_⟩
      · have : (n 0 : ℝ) < (((S.indexRange start stop 0).2 + 1 : ℤ) : ℝ) := by push_cast; linarith
        exact_mod_cast this
      · push_cast
        rcases le_total A 60 with h | h
        · left; linarith
        · right; linarith
    · simp only [Fin.mk_one, Fin.isValue] at w0 w1 ⊢
      refine ⟨by omega, ?_, wrap _ (by omega) ?_⟩
      · have : (n 1 : ℝ) < (((S.indexRange start stop 1).2 + 1 : ℤ) : ℝ) := by push_cast; linarith
        exact_mod_cast this
      · push_cast
        rcases le_total A 60 with h | h
        · left; linarith
        · right; linarith

end hex

end Lattpy
