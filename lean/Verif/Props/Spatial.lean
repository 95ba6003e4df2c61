import Verif.Lemmas.Distance
import Verif.Lemmas.Env
import Verif.Props.Utils
import Mathlib.LinearAlgebra.Matrix.NonsingularInverse
import Mathlib.Tactic.FinCases

/-! # Properties C04, C05, C11 – C14, C17, C78 (`spatial.py`) -/

set_option autoImplicit false

namespace Lattpy

open Matrix

/-! ## C04 cell volume -/

/-- C04: in every dimension `d ≥ 1` the cell volume is `|det|` of the matrix of basis vectors. -/
theorem C04_cell_volume_eq_det {d : ℕ} (hd : 1 ≤ d) (v : Matrix (Fin d) (Fin d) ℝ) :
    cellVolume v = |v.det| := by
  match d, hd, v with
  | 1, _, v => simp [cellVolume]
  | 2, _, v => simp [cellVolume, Matrix.det_fin_two]
  | 3, _, v =>
    simp [cellVolume, Matrix.det_fin_three, cross_apply, dotProduct, Fin.sum_univ_succ]
    congr 1; ring
  | d + 4, _, v =>
    simp only [cellVolume, hasSqrt_real, Matrix.det_mul, Matrix.det_transpose]
    rw [Real.sqrt_mul_self_eq_abs, abs_abs]

/-- C04: the volume of a cell with linearly independent vectors is positive. -/
theorem C04_cell_volume_pos {d : ℕ} (hd : 1 ≤ d) (v : Matrix (Fin d) (Fin d) ℝ)
    (hv : LinearIndependent ℝ (fun i => v i)) : 0 < cellVolume v := by
  rw [C04_cell_volume_eq_det hd, abs_pos]
  have h : IsUnit v := Matrix.linearIndependent_rows_iff_isUnit.1 hv
  exact ((Matrix.isUnit_iff_isUnit_det v).1 h).ne_zero

/-- C04: the volume does not depend on the choice of basis: replacing the vectors `a_i` by
`∑ j, U i j • a_j` with an integer matrix `U` of determinant `± 1` does not change it. -/
theorem C04_cell_volume_unimodular {d : ℕ} (hd : 1 ≤ d) (v : Matrix (Fin d) (Fin d) ℝ)
    (U : Matrix (Fin d) (Fin d) ℤ) (hU : U.det = 1 ∨ U.det = -1) :
    cellVolume (fun i k => ∑ j, (U i j : ℝ) * v j k) = cellVolume v := by
  have h : (fun i k => ∑ j, (U i j : ℝ) * v j k) = (U.map (Int.cast : ℤ → ℝ)) * v := by
    funext i k
    rw [Matrix.mul_apply]
    rfl
  rw [h, C04_cell_volume_eq_det hd, C04_cell_volume_eq_det hd, Matrix.det_mul, abs_mul]
  have h2 : (U.map (Int.cast : ℤ → ℝ)).det = ((U.det : ℤ) : ℝ) :=
    (RingHom.map_det (Int.castRingHom ℝ) U).symm
  rw [h2]
  rcases hU with h | h <;> rw [h] <;> simp

example : (!![2, 1; 1, 1] : Matrix (Fin 2) (Fin 2) ℤ).det = 1 := by decide +kernel
example : cellVolume (!![1, 2; 0, -3] : Matrix (Fin 2) (Fin 2) ℝ) = 3 := by
  rw [C04_cell_volume_eq_det (by norm_num)]; norm_num [Matrix.det_fin_two]

/-! ## C05 cell size -/

section
variable {K : Type*} [Field K] [LinearOrder K]

/-- C05, restricted to axes on which some basis vector has a non-negative component: the
reported size is `hi - lo` with `hi`, `lo` the largest and smallest of `0` and the components
of all basis vectors. -/
theorem C05_cell_size_partial {d n : ℕ} (vectors : Fin (n + 1) → Vec d K) (k : Fin d)
    (hk : ∃ i, 0 ≤ vectors i k) :
    ∃ hi lo, cellSize vectors k = hi - lo ∧
      IsGreatest ({0} ∪ Set.range fun i => vectors i k) hi ∧
      IsLeast ({0} ∪ Set.range fun i => vectors i k) lo := by
  have hmax := vmax_isGreatest fun i => vectors i k
  have hmin := vmin_isLeast fun i => vectors i k
  obtain ⟨i, hi⟩ := hk
  have h0 : 0 ≤ vmax fun i => vectors i k := hi.trans (hmax.2 ⟨i, rfl⟩)
  refine ⟨_, _, rfl, ⟨Or.inr hmax.1, ?_⟩, ?_⟩
  · rintro x (rfl | hx)
    · exact h0
    · exact hmax.2 hx
  · split_ifs with h
    · refine ⟨Or.inl rfl, ?_⟩
      rintro x (rfl | hx)
      · exact le_rfl
      · exact h.le.trans (hmin.2 hx)
    · refine ⟨Or.inr hmin.1, ?_⟩
      rintro x (rfl | hx)
      · exact not_lt.1 h
      · exact hmin.2 hx

example : ∃ i, (0 : ℚ) ≤ (![![1, 0], ![-1, 2]] : Fin 2 → Vec 2 ℚ) i 0 := ⟨0, by norm_num⟩
example : cellSize (![![1, 0], ![-1, 2]] : Fin 2 → Vec 2 ℚ) = ![2, 2] := by
  decide +kernel

/-- C05 fails on an axis where all components are negative: for the single vector `-1` the
extent of the origin and the vector is 1, the reported size is 0. -/
theorem C05_cell_size_fails :
    cellSize (fun _ _ => (-1 : ℚ) : Fin 1 → Vec 1 ℚ) 0 = 0 ∧
      IsGreatest ({0} ∪ Set.range fun _ : Fin 1 => (-1 : ℚ)) 0 ∧
      IsLeast ({0} ∪ Set.range fun _ : Fin 1 => (-1 : ℚ)) (-1) := by
  refine ⟨by decide +kernel, ⟨Or.inl rfl, ?_⟩, ⟨Or.inr ⟨0, rfl⟩, ?_⟩⟩
  · rintro x (rfl | ⟨i, rfl⟩) <;> norm_num
  · rintro x (rfl | ⟨i, rfl⟩) <;> norm_num

end

/-! ## C11 interweave -/

/-- C11: interweaving `n ≥ 1` arrays of common length `m` succeeds with `n * m` rows, and row
`j * n + i` is row `j` of array `i`; no row of the freshly allocated result stays
uninitialised. -/
theorem C11_interweave {α : Type*} (arrays : List (List α)) (hne : arrays ≠ []) (m : ℕ)
    (hm : ∀ a ∈ arrays, a.length = m) :
    ∃ r, interweave arrays = .ok r ∧ r.length = arrays.length * m ∧ (∀ x ∈ r, x ≠ none) ∧
      ∀ i (hi : i < arrays.length) j (_ : j < m),
        r[j * arrays.length + i]? = some (arrays[i][j]?) := by
  have hsum : (arrays.map List.length).sum = arrays.length * m := by
    have : arrays.map List.length = List.replicate arrays.length m := by
      rw [List.eq_replicate_iff]
      refine ⟨by simp, ?_⟩
      intro b hb
      obtain ⟨a, ha, rfl⟩ := List.mem_map.1 hb
      exact hm a ha
    rw [this]; simp
  obtain ⟨r, h1, h2, h3⟩ := interweaveLoop_spec (n := arrays.length) (m := m) arrays 0
    (List.replicate (arrays.map List.length).sum none) (by simp) hm (by simp [hsum])
  refine ⟨r, ?_, h2, ?_, ?_⟩
  · simp [interweave, hne, ← h1]
  · intro x hx
    obtain ⟨k, hk, hk2⟩ := List.mem_iff_getElem.1 hx
    rw [h2] at hk
    have h4 := h3 k hk
    rw [List.getElem?_eq_getElem (by omega), hk2] at h4
    have hpos : 0 < arrays.length := List.length_pos_iff.2 hne
    have hmod := Nat.mod_lt k hpos
    have hdiv : k / arrays.length < m := Nat.div_lt_of_lt_mul hk
    simp only [zero_le, if_true, Nat.sub_zero, List.getElem?_eq_getElem hmod,
      Option.bind_some, Option.some.injEq] at h4
    rw [h4, List.getElem?_eq_getElem (by rw [hm _ (List.getElem_mem hmod)]; exact hdiv)]
    simp
  · intro i hi j hj
    have hk : j * arrays.length + i < arrays.length * m := by
      calc j * arrays.length + i < j * arrays.length + arrays.length := by omega
        _ = (j + 1) * arrays.length := by ring
        _ ≤ m * arrays.length := Nat.mul_le_mul_right _ hj
        _ = arrays.length * m := by ring
    rw [h3 _ hk]
    have e1 : (j * arrays.length + i) % arrays.length = i := by
      rw [Nat.mul_comm, Nat.mul_add_mod, Nat.mod_eq_of_lt hi]
    have e2 : (j * arrays.length + i) / arrays.length = j := by
      rw [Nat.mul_comm, Nat.mul_add_div (by omega), Nat.div_eq_of_lt hi]; simp
    simp [e1, e2, hi]

/-- C11: an empty sequence is rejected. -/
theorem C11_interweave_empty {α : Type*} : interweave ([] : List (List α)) = .error .index := rfl

example : ([[1, 2], [3, 4], [5, 6]] : List (List ℕ)) ≠ [] ∧
    ∀ a ∈ ([[1, 2], [3, 4], [5, 6]] : List (List ℕ)), a.length = 2 := by decide
example : interweave [[1, 2], [3, 4], [5, 6]] =
    .ok [some 1, some 3, some 5, some 2, some 4, some 6] := by rfl

/-! ## C12, C13 vindices -/

/-- C12: with an index type whose positive range covers the extent on every axis, `vindices`
contains a vector iff it lies in the box, each exactly once, in lexicographic order when
sorted along the first axis (or not at all) and ascending in the sort component otherwise. -/
theorem C12_vindices_box {d : ℕ} (limits : Fin d → ℤ × ℤ)
    (hle : ∀ k, (limits k).1 ≤ (limits k).2) (sortAxis : Option (Fin d)) (w : ℕ) (hw : 0 < w)
    (hspan : ∀ k, (limits k).2 - (limits k).1 ≤ 2 ^ (w - 1)) :
    ∃ r, vindices limits sortAxis (some w) = .ok r ∧
      (∀ v, v ∈ r ↔ ∀ k, (limits k).1 ≤ v k ∧ v k < (limits k).2) ∧ r.Nodup ∧
      (match sortAxis with
        | none => r.Pairwise LexLt
        | some ax => r.Pairwise (fun a b => a ax ≤ b ax) ∧
            ((∀ k, ax ≤ k) → r.Pairwise LexLt)) := by
  apply vindices_spec limits hle
  intro k i h0 h1
  exact wrapSigned_of_lt hw h0 (lt_of_lt_of_le h1 (hspan k))

/-- C12: the box has the expected number of vectors. -/
theorem C12_vindices_length {d : ℕ} (limits : Fin d → ℤ × ℤ)
    (hle : ∀ k, (limits k).1 ≤ (limits k).2) (sortAxis : Option (Fin d)) (bits : Option ℕ) :
    ∃ r, vindices limits sortAxis bits = .ok r ∧
      (r.length : ℤ) = ∏ k, ((limits k).2 - (limits k).1) := by
  have hany : (List.finRange d).any (fun k => decide ((limits k).2 - (limits k).1 < 0)) = false := by
    simp only [List.any_eq_false, decide_eq_true_eq, not_lt]
    intro k _
    have := hle k
    omega
  have hcast : ∀ k, (((limits k).2 - (limits k).1).toNat : ℤ) = (limits k).2 - (limits k).1 := by
    intro k
    have := hle k
    omega
  cases sortAxis with
  | none =>
    refine ⟨_, by simp only [vindices, hany]; rfl, ?_⟩
    rw [List.length_map, length_boxList]
    simp [hcast]
  | some ax =>
    refine ⟨_, by simp only [vindices, hany]; rfl, ?_⟩
    rw [(stableSortBy_perm _ _).length_eq, List.length_map, length_boxList]
    simp [hcast]

/-- C12: an axis with negative extent is rejected. -/
theorem C12_vindices_negative {d : ℕ} (limits : Fin d → ℤ × ℤ) (k : Fin d)
    (hk : (limits k).2 < (limits k).1) (sortAxis : Option (Fin d)) (bits : Option ℕ) :
    vindices limits sortAxis bits = .error .value := by
  have hany : (List.finRange d).any (fun k => decide ((limits k).2 - (limits k).1 < 0)) = true := by
    simp only [List.any_eq_true, decide_eq_true_eq]
    exact ⟨k, List.mem_finRange k, by omega⟩
  simp only [vindices, hany]
  rfl

example : ∀ k, ((![(-2, 3), (0, 5)] : Fin 2 → ℤ × ℤ) k).2 -
    ((![(-2, 3), (0, 5)] : Fin 2 → ℤ × ℤ) k).1 ≤ 2 ^ (8 - 1) := by decide

/-- C13, restricted to limits whose extent on every axis is within the positive range of the
type selected by default: the enumeration is correct. -/
theorem C13_vindices_default_partial {d : ℕ} (limits : Fin d → ℤ × ℤ)
    (hle : ∀ k, (limits k).1 ≤ (limits k).2) (sortAxis : Option (Fin d)) (t : IntType)
    (ht : minDtype ((List.finRange d).flatMap fun k => [(limits k).1, (limits k).2]) true = some t)
    (hspan : ∀ k, (limits k).2 - (limits k).1 ≤ 2 ^ (t.bits - 1)) :
    ∃ r, vindices limits sortAxis none = .ok r ∧
      (∀ v, v ∈ r ↔ ∀ k, (limits k).1 ≤ v k ∧ v k < (limits k).2) ∧ r.Nodup ∧
      (match sortAxis with
        | none => r.Pairwise LexLt
        | some ax => r.Pairwise (fun a b => a ax ≤ b ax) ∧
            ((∀ k, ax ≤ k) → r.Pairwise LexLt)) := by
  apply vindices_spec limits hle
  have hb : 0 < t.bits := by
    have h1 : minScalarType (-(imax (((List.finRange d).flatMap
      fun k => [(limits k).1, (limits k).2]).map fun x => |x|)) - 1) = some t := by
      simpa [minDtype] using ht
    have h2 := (minScalarType_spec h1).1
    simp only [numpyIntTypes, List.mem_cons, List.not_mem_nil, or_false] at h2
    rcases h2 with rfl | rfl | rfl | rfl | rfl | rfl | rfl | rfl <;> simp
  intro k i h0 h1
  simp only [indexWrap, ht]
  exact wrapSigned_of_lt hb h0 (lt_of_lt_of_le h1 (hspan k))

/-- C13 holds in particular whenever no extent exceeds the largest magnitude among the limits
by more than one; so for boxes starting at non-negative indices. -/
theorem C13_vindices_default_nonneg_partial {d : ℕ} (limits : Fin d → ℤ × ℤ)
    (hle : ∀ k, (limits k).1 ≤ (limits k).2) (h0 : ∀ k, 0 ≤ (limits k).1)
    (h64 : ∀ k, (limits k).2 < 2 ^ 63) (sortAxis : Option (Fin d)) :
    ∃ r, vindices limits sortAxis none = .ok r ∧
      (∀ v, v ∈ r ↔ ∀ k, (limits k).1 ≤ v k ∧ v k < (limits k).2) ∧ r.Nodup := by
  cases d with
  | zero =>
    obtain ⟨r, h1, h2, h3, -⟩ := vindices_spec limits hle sortAxis none (fun k => k.elim0)
    exact ⟨r, h1, h2, h3⟩
  | succ d =>
    set L := (List.finRange (d + 1)).flatMap fun k => [(limits k).1, (limits k).2] with hL
    have hmem : ∀ x, x ∈ L ↔ ∃ k, x = (limits k).1 ∨ x = (limits k).2 := by
      intro x; simp [hL]
    obtain ⟨t, ht, -, hold, -, hsgn⟩ := C20_min_dtype_capacity L
      (List.ne_nil_of_mem ((hmem (limits 0).1).2 ⟨0, Or.inl rfl⟩)) true
      (by
        intro x hx
        obtain ⟨k, rfl | rfl⟩ := (hmem x).1 hx
        · rw [abs_of_nonneg (h0 k)]; exact lt_of_le_of_lt (hle k) (h64 k)
        · rw [abs_of_nonneg ((h0 k).trans (hle k))]; exact h64 k)
    obtain ⟨r, h1, h2, h3, -⟩ := C13_vindices_default_partial limits hle sortAxis t ht (by
      intro k
      have h4 := hold _ ((hmem _).2 ⟨k, Or.inr rfl⟩)
      simp only [IntType.holds, IntType.hi, hsgn.2 (Or.inl rfl), if_true] at h4
      have := h0 k
      omega)
    exact ⟨r, h1, h2, h3⟩

example : minDtype ((List.finRange 2).flatMap fun k =>
    [((![(-3, 4), (0, 300)] : Fin 2 → ℤ × ℤ) k).1, ((![(-3, 4), (0, 300)] : Fin 2 → ℤ × ℤ) k).2])
    true = some ⟨true, 16⟩ := by decide +kernel

/-- C13 fails with the default type for the limits `(-65, 65)`: the selected 8-bit type
overflows, the in-range index 63 is missing and the out-of-range index -193 is listed. -/
theorem C13_vindices_default_fails :
    ∃ r, vindices (fun _ : Fin 1 => (-65, 65)) (some 0) none = .ok r ∧
      (fun _ => 63) ∉ r ∧ (fun _ => -193) ∈ r := by
  have ht : minDtype ((List.finRange 1).flatMap fun k =>
    [((fun _ : Fin 1 => ((-65, 65) : ℤ × ℤ)) k).1,
     ((fun _ : Fin 1 => ((-65, 65) : ℤ × ℤ)) k).2]) true = some ⟨true, 8⟩ := by decide +kernel
  refine ⟨_, by simp only [vindices, indexWrap, ht]; rfl, ?_, ?_⟩
  · rw [(stableSortBy_perm _ _).mem_iff]
    simp only [List.mem_map, mem_boxList, List.mem_range]
    rintro ⟨a, ha, h⟩
    obtain ⟨i, h1, h2⟩ := ha 0
    have h3 := congrFun h 0
    rw [← h2] at h3
    simp only [wrapSigned, Int.bmod_def] at h3
    norm_num at h1 h3
    split_ifs at h3 <;> omega
  · rw [(stableSortBy_perm _ _).mem_iff]
    simp only [List.mem_map, mem_boxList, List.mem_range]
    refine ⟨fun _ => -128, fun k => ⟨128, by decide, by rfl⟩, by funext k; norm_num⟩

/-! ## C14 distance -/

/-- C14: `distance` is the Euclidean distance (Mathlib's metric on `EuclideanSpace`); hence
symmetric, zero exactly for equal points, it obeys the triangle inequality, and it is
invariant under translation of both points. -/
theorem C14_distance_metric {d : ℕ} (x y z t : Vec d ℝ) :
    distance x y = dist (WithLp.toLp 2 x) (WithLp.toLp 2 y) ∧
    distance x y = distance y x ∧ (distance x y = 0 ↔ x = y) ∧ 0 ≤ distance x y ∧
    distance x z ≤ distance x y + distance y z ∧
    distance (fun k => x k + t k) (fun k => y k + t k) = distance x y :=
  ⟨distance_eq_dist x y, distance_comm x y none, distance_eq_zero, distance_nonneg x y,
    distance_triangle x y z, distance_add_right x y t none⟩

/-- C14: rounding to `n` decimals gives a multiple of `10⁻ⁿ` that differs from the exact
distance by at most half a unit of the last digit, and it keeps the order of distances. -/
theorem C14_distance_rounding {d : ℕ} (x y x' y' : Vec d ℝ) (n : ℕ) :
    |distance x y (some n) - distance x y| ≤ 1 / 2 * (1 / 10) ^ n ∧
    (∃ z : ℤ, distance x y (some n) * 10 ^ n = z) ∧
    (distance x y ≤ distance x' y' → distance x y (some n) ≤ distance x' y' (some n)) := by
  refine ⟨?_, ?_, ?_⟩
  · have := abs_npRound_sub_le n (distance x y)
    rw [distance_some]
    have e : (1 : ℝ) / 2 * (1 / 10) ^ n = 1 / 2 / 10 ^ n := by rw [one_div_pow]; ring
    rw [e]; exact this
  · refine ⟨rint (distance x y * 10 ^ n), ?_⟩
    rw [distance_some, npRound, div_mul_cancel₀ _ (by positivity)]
  · intro h
    exact npRound_mono h

/-- C14: a distance exactly between two multiples of `10⁻ⁿ` is rounded to the even one. -/
theorem C14_distance_ties {d : ℕ} (x y : Vec d ℝ) (n : ℕ) (z : ℤ)
    (h : distance x y * 10 ^ n = z + 1 / 2) :
    ∃ e : ℤ, Even e ∧ distance x y (some n) * 10 ^ n = e := by
  refine ⟨rint (distance x y * 10 ^ n), ?_, ?_⟩
  · have hf : ⌊(z : ℝ) + 1 / 2⌋ = z := by
      rw [Int.floor_eq_iff]; constructor <;> norm_num
    rw [h]
    unfold rint
    dsimp only
    rw [hf, if_neg (by norm_num), if_neg (by norm_num)]
    split_ifs with a
    · exact Int.even_iff.mpr a
    · exact Int.even_iff.mpr (by omega)
  · rw [distance_some, npRound, div_mul_cancel₀ _ (by positivity)]

/-- The points 0 and 5/2 without decimals: the distance 5/2 lies between 2 and 3. -/
example : ∃ e : ℤ, Even e ∧
    distance (fun _ : Fin 1 => (0 : ℝ)) (fun _ => 5 / 2) (some 0) * 10 ^ 0 = e := by
  refine C14_distance_ties _ _ 0 2 ?_
  rw [distance_eq_dist, EuclideanSpace.dist_eq]
  simp [Real.sqrt_sq_eq_abs]
  norm_num

/-- C14: `distances` is `distance` row by row; a single row is compared with all rows;
otherwise different numbers of rows are rejected. -/
theorem C14_distances_rowwise {d : ℕ} (r1 r2 : List (Vec d ℝ)) (dec : Option ℕ) :
    (r1.length = r2.length → ∃ r, distances r1 r2 dec = .ok r ∧ r.length = r1.length ∧
      ∀ i (h : i < r1.length) (h' : i < r2.length), r[i]? = some (distance r1[i] r2[i] dec)) ∧
    (∀ y, r2 = [y] → r1.length ≠ 1 → distances r1 r2 dec = .ok (r1.map (distance · y dec))) ∧
    (∀ x, r1 = [x] → r2.length ≠ 1 → distances r1 r2 dec = .ok (r2.map (distance x · dec))) ∧
    (r1.length ≠ r2.length → r1.length ≠ 1 → r2.length ≠ 1 →
      distances r1 r2 dec = .error .value) := by
  refine ⟨?_, ?_, ?_, ?_⟩
  · intro h
    refine ⟨List.zipWith (distance · · dec) r1 r2, by unfold distances; rw [if_pos h],
      by simp [h], ?_⟩
    intro i h1 h2
    simp [h1, h2]
  · rintro y rfl hne
    unfold distances; rw [if_neg (by simpa using hne)]
    match r1, hne with
    | [], _ => rfl
    | [x], h => simp at h
    | x :: x' :: l, _ => rfl
  · rintro x rfl hne
    unfold distances; rw [if_neg (by simpa using Ne.symm hne)]
  · intro h h1 h2
    unfold distances; rw [if_neg h]
    match r1, r2, h1, h2 with
    | [], [], _, _ => rfl
    | [], [y], _, h2 => simp at h2
    | [], y :: y' :: l, _, _ => rfl
    | [x], _, h1, _ => simp at h1
    | x :: x' :: l, [], _, _ => rfl
    | x :: x' :: l, [y], _, h2 => simp at h2
    | x :: x' :: l, y :: y' :: l', _, _ => rfl

example : distance (![0, 0] : Vec 2 ℝ) ![3, 4] = 5 := by
  simp only [distance, hasSqrt_real, Fin.sum_univ_two]
  norm_num
  rw [show (25 : ℝ) = 5 ^ 2 by norm_num, Real.sqrt_sq (by norm_num)]

/-! ## C17 neighbour queries -/

/-- C17: for a tree over pairwise distinct points, queried with its own points, `k ≥ 2` and
`max_dist > 0`: the result has one row per point; row `i` consists of a list `sel` of other
points, without repetition and in order of distance, followed by padding with the invalid
index `n` and infinite distance; every listed point is within `max_dist`; at most `k - 1` points
are listed; a point closer than `max_dist` that is not listed implies that the row is full and lists
no farther point, so it is listed if at most `k` points (including point `i` and itself) are as
close.  The reported distances are the rounded distances. -/
theorem C17_query_neighbors {d : ℕ} (env : Env ℝ) (points : List (Vec d ℝ))
    (hnd : points.Nodup) (k : ℕ) (hk : 2 ≤ k) (maxDist : WithTop ℝ) (hpos : 0 < maxDist)
    (decimals : Option ℕ) (compact : Bool) :
    ∃ q, kdTreeQuery env points k maxDist points decimals false compact = .ok q ∧
    ∃ width, ∀ (i : ℕ) (hi : i < points.length), ∃ sel : List ℕ,
      q.neighbors[i]? =
        some (sel ++ List.replicate (width - sel.length) points.length) ∧
      q.dists[i]? = some (sel.map (fun j => ((distance (points.getD j 0) points[i] decimals : ℝ)
          : WithTop ℝ)) ++ List.replicate (width - sel.length) ⊤) ∧
      sel.length ≤ width ∧ sel.Nodup ∧
      (sel.map fun j => distance (points.getD j 0) points[i]).Pairwise (· ≤ ·) ∧
      (∀ j ∈ sel, j ≠ i ∧ j < points.length ∧
        ((distance (points.getD j 0) points[i] : ℝ) : WithTop ℝ) ≤ maxDist) ∧
      sel.length + 1 ≤ k ∧
      (∀ j < points.length, j ≠ i →
        ((distance (points.getD j 0) points[i] : ℝ) : WithTop ℝ) < maxDist → j ∉ sel →
        sel.length + 1 = k ∧ ∀ a ∈ sel,
          distance (points.getD a 0) points[i] ≤ distance (points.getD j 0) points[i]) ∧
      (∀ j < points.length, j ≠ i →
        ((distance (points.getD j 0) points[i] : ℝ) : WithTop ℝ) < maxDist →
        ((List.range points.length).filter fun a => decide
          (distance (points.getD a 0) points[i] ≤ distance (points.getD j 0) points[i])).length ≤ k →
        j ∈ sel) := by
  refine ⟨_, if_neg (by omega), ?_⟩
  obtain ⟨sel, drop, w, hS, hdrop, hw1, -, -, -, hN, hD⟩ :=
    kdQuery_normal env points k (by omega) maxDist points decimals false compact
  have hpd : ∀ q j, j < points.length → pointDist points q j = distance (points.getD j 0) q := by
    intro q j hj
    simp [pointDist, hj]
  have hinj : ∀ i j (hi : i < points.length) (hj : j < points.length),
      points[i] = points[j] → i = j := fun i j hi hj h => (hnd.getElem_inj_iff).1 h
  -- the first selected point is the query point itself
  have hhead : ∀ (i : ℕ) (hi : i < points.length), ∃ l, sel points[i] = i :: l := by
    intro i hi
    have hs := hS points[i]
    have hself : pointDist points points[i] i = 0 := by
      rw [hpd _ _ hi]; simp [hi, distance_self]
    have hzero : ∀ j ∈ sel points[i], pointDist points points[i] j ≤ 0 → j = i := by
      intro j hj h0
      have hjn := (hs.range j hj).1
      rw [hpd _ _ hjn] at h0
      have h1 := le_antisymm h0 (distance_nonneg _ _)
      rw [distance_eq_zero] at h1
      simp [hjn] at h1
      exact hinj j i hjn hi h1
    have hmem : i ∈ sel points[i] := by
      by_contra hc
      obtain ⟨h1, h2⟩ := hs.complete i hi (by rw [hself]; exact hpos) hc
      cases h : sel points[i] with
      | nil => simp [h] at h1; omega
      | cons j l =>
        have hj : j ∈ sel points[i] := by simp [h]
        have h3 := hzero j hj (by rw [← hself]; exact h2 j hj)
        rw [h3] at hj
        exact hc hj
    cases h : sel points[i] with
    | nil => simp [h] at hmem
    | cons j l =>
      refine ⟨l, ?_⟩
      have hj : j ∈ sel points[i] := by simp [h]
      have h3 : pointDist points points[i] j ≤ 0 := by
        have hsort := hs.sorted
        rw [h, List.map_cons, List.pairwise_cons] at hsort
        rw [h, List.mem_cons] at hmem
        rcases hmem with h4 | h4
        · rw [← h4, hself]
        · rw [← hself]; exact hsort.1 _ (List.mem_map.2 ⟨i, h4, rfl⟩)
      rw [hzero j hj h3]
  have hdt : drop = true := by
    rw [hdrop]
    refine ⟨rfl, ?_⟩
    intro q hq
    obtain ⟨i, hi, rfl⟩ := List.mem_iff_getElem.1 hq
    obtain ⟨l, hl⟩ := hhead i hi
    refine ⟨i, by simp [hl], ?_⟩
    rw [hpd _ _ hi]; simp [hi, distance_self]
  subst hdt
  refine ⟨w, ?_⟩
  intro i hi
  obtain ⟨l, hl⟩ := hhead i hi
  have hs := hS points[i]
  have hlsel : (sel points[i]).drop (true).toNat = l := by simp [hl]
  have hil : i ∉ l := by
    have := hs.nodup
    rw [hl, List.nodup_cons] at this
    exact this.1
  have hrange : ∀ j ∈ l, j < points.length := fun j hj => (hs.range j (by simp [hl, hj])).1
  have htrunc : ∀ j < points.length, j ≠ i →
      ((distance (points.getD j 0) points[i] : ℝ) : WithTop ℝ) < maxDist → j ∉ l →
      l.length + 1 = k ∧ ∀ a ∈ l,
        distance (points.getD a 0) points[i] ≤ distance (points.getD j 0) points[i] := by
    intro j hj hji hlt hc
    have hjs : j ∉ sel points[i] := by simp [hl, hji, hc]
    rw [← hpd _ _ hj] at hlt
    obtain ⟨h1, h2⟩ := hs.complete j hj hlt hjs
    rw [hl] at h1 h2
    refine ⟨by simpa using h1, ?_⟩
    intro a ha
    rw [← hpd _ _ hj, ← hpd _ _ (hrange a ha)]
    exact h2 a (by simp [ha])
  refine ⟨l, ?_, ?_, ?_, ?_, ?_, ?_, ?_, ?_, ?_⟩
  · rw [hN]; simp [hi, hl]
  · rw [hD, List.getElem?_map, List.getElem?_eq_getElem hi]
    simp only [Option.map_some, hlsel]
    congr 2
    apply List.map_congr_left
    intro j hj
    rw [hpd _ _ (hrange j hj)]
    cases decimals <;> rfl
  · have := hw1 points[i] (List.getElem_mem hi)
    rwa [hlsel] at this
  · have := hs.nodup
    rw [hl, List.nodup_cons] at this
    exact this.2
  · have hsort := hs.sorted
    rw [hl, List.map_cons, List.pairwise_cons] at hsort
    have e : l.map (pointDist points points[i]) =
        l.map fun j => distance (points.getD j 0) points[i] :=
      List.map_congr_left fun j hj => hpd _ _ (hrange j hj)
    rw [← e]; exact hsort.2
  · intro j hj
    refine ⟨fun h => hil (h ▸ hj), hrange j hj, ?_⟩
    rw [← hpd _ _ (hrange j hj)]
    exact (hs.range j (by simp [hl, hj])).2
  · have := hs.length_le
    rw [hl] at this
    simpa using this
  · exact htrunc
  · intro j hj hji hlt hcount
    by_contra hc
    obtain ⟨h1, h2⟩ := htrunc j hj hji hlt hc
    have hsub : (j :: i :: l) ⊆ (List.range points.length).filter fun a => decide
          (distance (points.getD a 0) points[i] ≤ distance (points.getD j 0) points[i]) := by
      intro a ha
      rw [List.mem_filter, List.mem_range, decide_eq_true_eq]
      rcases List.mem_cons.1 ha with rfl | ha
      · exact ⟨hj, le_rfl⟩
      rcases List.mem_cons.1 ha with rfl | ha
      · refine ⟨hi, ?_⟩
        simp only [List.getD_eq_getElem?_getD, List.getElem?_eq_getElem hi, Option.getD_some,
          distance_self]
        exact distance_nonneg _ _
      · exact ⟨hrange a ha, h2 a ha⟩
    have hnd2 : (j :: i :: l).Nodup := by
      refine List.nodup_cons.2 ⟨by simp [hji, hc], ?_⟩
      rw [← hl]; exact hs.nodup
    have := (hnd2.subperm hsub).length_le
    simp only [List.length_cons] at this
    omega

example : ([![0, 0], ![1, 0], ![0, 2]] : List (Vec 2 ℝ)).Nodup := by
  simp

/-! ## C78 queries with arbitrary points -/

/-- C78: when zero distances are requested, or when some query point is
not in the tree, no column is dropped.  Row `i` then lists at most `k` points of the tree, in
order of distance to query point `i` and without repetition, followed by padding; a point closer
than `max_dist` that is not listed implies that the row is full and lists no farther point. -/
theorem C78_query_points_partial {d : ℕ} (env : Env ℝ) (points x : List (Vec d ℝ)) (k : ℕ) (hk : 1 ≤ k)
    (maxDist : WithTop ℝ) (decimals : Option ℕ) (includeZero compact : Bool)
    (h1 : k = 1 → includeZero = true) (hx : includeZero = true ∨ ∃ q ∈ x, q ∉ points) :
    ∃ q, kdTreeQuery env points k maxDist x decimals includeZero compact = .ok q ∧
    ∃ width, width ≤ k ∧ ∀ (i : ℕ) (hi : i < x.length), ∃ sel : List ℕ,
      q.neighbors[i]? =
        some (sel ++ List.replicate (width - sel.length) points.length) ∧
      q.dists[i]? = some (sel.map (fun j => ((distance (points.getD j 0) x[i] decimals : ℝ)
          : WithTop ℝ)) ++ List.replicate (width - sel.length) ⊤) ∧
      sel.length ≤ width ∧ sel.Nodup ∧
      (sel.map fun j => distance (points.getD j 0) x[i]).Pairwise (· ≤ ·) ∧
      (∀ j ∈ sel, j < points.length ∧
        ((distance (points.getD j 0) x[i] : ℝ) : WithTop ℝ) ≤ maxDist) ∧
      (∀ j < points.length,
        ((distance (points.getD j 0) x[i] : ℝ) : WithTop ℝ) < maxDist → j ∉ sel →
        sel.length = k ∧ ∀ a ∈ sel,
          distance (points.getD a 0) x[i] ≤ distance (points.getD j 0) x[i]) := by
  refine ⟨_, if_neg (by rintro ⟨h, h'⟩; rw [h1 h] at h'; cases h'), ?_⟩
  obtain ⟨sel, drop, w, hS, hdrop, hw1, hw2, -, -, hN, hD⟩ :=
    kdQuery_normal env points k hk maxDist x decimals includeZero compact
  have hpd : ∀ q j, j < points.length → pointDist points q j = distance (points.getD j 0) q := by
    intro q j hj
    simp [pointDist, hj]
  have hdf : drop = false := by
    rw [← Bool.not_eq_true, hdrop]
    rintro ⟨h1, h2⟩
    rcases hx with h | ⟨q, hq, hn⟩
    · simp [h] at h1
    · obtain ⟨j, hj, h0⟩ := h2 q hq
      have hjn := ((hS q).range j (List.mem_of_mem_head? (by simp [hj]))).1
      rw [hpd _ _ hjn, distance_eq_zero] at h0
      apply hn
      rw [← h0]
      simp [hjn]
  subst hdf
  refine ⟨w, by simpa using hw2, ?_⟩
  intro i hi
  have hs := hS x[i]
  have hrange : ∀ j ∈ sel x[i], j < points.length := fun j hj => (hs.range j hj).1
  refine ⟨sel x[i], ?_, ?_, ?_, hs.nodup, ?_, ?_, ?_⟩
  · rw [hN]; simp [hi]
  · rw [hD, List.getElem?_map, List.getElem?_eq_getElem hi]
    simp only [Option.map_some, Bool.toNat_false, List.drop_zero]
    congr 2
    apply List.map_congr_left
    intro j hj
    rw [hpd _ _ (hrange j hj)]
    cases decimals <;> rfl
  · simpa using hw1 x[i] (List.getElem_mem hi)
  · have e : (sel x[i]).map (pointDist points x[i]) =
        (sel x[i]).map fun j => distance (points.getD j 0) x[i] :=
      List.map_congr_left fun j hj => hpd _ _ (hrange j hj)
    rw [← e]; exact hs.sorted
  · intro j hj
    refine ⟨hrange j hj, ?_⟩
    rw [← hpd _ _ (hrange j hj)]
    exact (hs.range j hj).2
  · intro j hj hlt hc
    rw [← hpd _ _ hj] at hlt
    obtain ⟨h1, h2⟩ := hs.complete j hj hlt hc
    refine ⟨h1, fun a ha => ?_⟩
    rw [← hpd _ _ hj, ← hpd _ _ (hrange a ha)]
    exact h2 a ha

/-- The query points 0 and 1/2 for a tree over 0 and 1: the second is not in the tree. -/
example : ∃ q ∈ [(fun _ => 0 : Vec 1 ℝ), fun _ => 1 / 2],
    q ∉ [(fun _ => 0 : Vec 1 ℝ), fun _ => 1] := by
  refine ⟨fun _ => 1 / 2, by simp, ?_⟩
  simp only [List.mem_cons, List.not_mem_nil, or_false, not_or, funext_iff]
  norm_num

/-- C78 fails when a query point is not in the tree: `include_zero=False` removes the first
column only if *all* its distances are zero (spatial.py 347). The tree over 0 and 1, queried with
0 and 1/2, lists the point 0 as a neighbour of itself. -/
theorem C78_zero_kept_fails (env : Env ℝ) (compact : Bool) : ∃ q row,
    kdTreeQuery env [(fun _ => 0 : Vec 1 ℝ), fun _ => 1] 2 ⊤
      [(fun _ => 0 : Vec 1 ℝ), fun _ => 1 / 2] none false compact = .ok q ∧
    q.neighbors[0]? = some row ∧ 0 ∈ row := by
  obtain ⟨q, hq, w, -, h⟩ := C78_query_points_partial env [(fun _ => 0 : Vec 1 ℝ), fun _ => 1]
    [(fun _ => 0 : Vec 1 ℝ), fun _ => 1 / 2] 2 (by norm_num) ⊤ none false compact (by simp) (by
      right
      refine ⟨fun _ => 1 / 2, by simp, ?_⟩
      simp only [List.mem_cons, List.not_mem_nil, or_false, not_or, funext_iff]
      norm_num)
  obtain ⟨sel, h1, -, -, h4, -, h6, h7⟩ := h 0 (by simp)
  refine ⟨q, _, hq, h1, List.mem_append_left _ ?_⟩
  by_contra hc
  obtain ⟨h8, -⟩ := h7 0 (by simp) (WithTop.coe_lt_top _) hc
  have hsub : sel ⊆ [1] := by
    intro j hj
    have h9 := (h6 j hj).1
    simp only [List.length_cons, List.length_nil] at h9
    have h10 : j ≠ 0 := fun e => hc (e ▸ hj)
    simp only [List.mem_singleton]
    omega
  have := (h4.subperm hsub).length_le
  simp only [List.length_singleton] at this
  omega

/-- C78 fails for a tree with the default parameter `k=1`: the library returns one-dimensional arrays
of distances then, and the test for zero distances (`dists[:, 0]`, spatial.py 347) raises
`IndexError`, whatever the points; only `include_zero=True` avoids it. -/
theorem C78_default_fails {d : ℕ} (env : Env ℝ) (points x : List (Vec d ℝ)) (maxDist : WithTop ℝ)
    (decimals : Option ℕ) (compact : Bool) :
    kdTreeQuery env points 1 maxDist x decimals false compact = .error .index :=
  if_pos ⟨rfl, rfl⟩

/-- The tree over 0 and 1 with the default parameters, queried with its own points. -/
example : kdTreeQuery (Env.brute ℝ) [(fun _ => 0 : Vec 1 ℝ), fun _ => 1] 1 ⊤
    [(fun _ => 0 : Vec 1 ℝ), fun _ => 1] none false true = .error .index :=
  C78_default_fails _ _ _ _ _ _

end Lattpy
