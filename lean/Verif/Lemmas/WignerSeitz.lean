import Verif.Model.WignerSeitz
import Verif.Props.Basis
import Verif.Props.Rotation
import Verif.Props.Presets
import Mathlib.Data.Finite.Prod

/-! Helper lemmas about Wigner-Seitz cells: half spaces, Voronoi vertices, and the points used by
`wigner_seitz_cell`. -/

set_option autoImplicit false

namespace Lattpy

open Matrix LatticeBasis

variable {d : ℕ}

theorem distance_sq (x p : Vec d ℝ) : distance x p ^ 2 = x ⬝ᵥ x - 2 * (x ⬝ᵥ p) + p ⬝ᵥ p := by
  unfold distance
  simp only [hasSqrt_real]
  rw [Real.sq_sqrt (Finset.sum_nonneg fun i _ => mul_self_nonneg _)]
  simp only [dotProduct, Finset.mul_sum, ← Finset.sum_sub_distrib, ← Finset.sum_add_distrib]
  exact Finset.sum_congr rfl fun k _ => by ring

theorem distance_le_iff (x p p' : Vec d ℝ) : distance x p ≤ distance x p' ↔
    p ⬝ᵥ p - 2 * (x ⬝ᵥ p) ≤ p' ⬝ᵥ p' - 2 * (x ⬝ᵥ p') := by
  rw [← sq_le_sq₀ (distance_nonneg _ _) (distance_nonneg _ _), distance_sq, distance_sq]
  constructor <;> intro h <;> linarith

theorem distance_lt_iff (x p p' : Vec d ℝ) : distance x p < distance x p' ↔
    p ⬝ᵥ p - 2 * (x ⬝ᵥ p) < p' ⬝ᵥ p' - 2 * (x ⬝ᵥ p') := by
  rw [← not_le, distance_le_iff, not_le]

/-- Being at least as close to the origin as to `p` is a half space. -/
theorem closer_iff (x p : Vec d ℝ) : distance x 0 ≤ distance x p ↔ 2 * (x ⬝ᵥ p) ≤ p ⬝ᵥ p := by
  rw [distance_le_iff]
  simp

theorem closer_lt_iff (x p : Vec d ℝ) : distance x 0 < distance x p ↔ 2 * (x ⬝ᵥ p) < p ⬝ᵥ p := by
  rw [distance_lt_iff]
  simp

theorem norm2_sq (x : Vec d ℝ) : norm2 x ^ 2 = x ⬝ᵥ x := by
  unfold norm2
  rw [hasSqrt_real, Real.sq_sqrt (Finset.sum_nonneg fun i _ => mul_self_nonneg _)]
  rfl

theorem norm2_nonneg (x : Vec d ℝ) : 0 ≤ norm2 x := by
  rw [norm2_eq_norm]; exact norm_nonneg _

theorem dot_self_eq_zero (x : Vec d ℝ) : x ⬝ᵥ x = 0 ↔ x = 0 := by
  rw [← norm2_sq, sq_eq_zero_iff, norm2_eq_norm, norm_eq_zero]
  exact ⟨fun h => WithLp.toLp_injective 2 h, fun h => by rw [h]; rfl⟩

theorem norm2_eq_iff (x : Vec d ℝ) {m : ℝ} (hm : 0 ≤ m) : norm2 x = m ↔ x ⬝ᵥ x = m ^ 2 := by
  rw [← norm2_sq, sq_eq_sq₀ (norm2_nonneg _) hm]

/-- There are finitely many Voronoi vertices. -/
theorem voronoi_finite (ps : List (Vec d ℝ)) : {v | IsVoronoiVertex ps v}.Finite := by
  classical
  have hinj : Set.InjOn (fun v => {p | p ∈ ps ∧ ∀ p' ∈ ps, distance v p ≤ distance v p'})
      {v | IsVoronoiVertex ps v} := by
    rintro v ⟨ρ, h1, h2⟩ w ⟨σ, g1, g2⟩ h
    by_contra hne
    have hc : w - v ≠ 0 := fun h0 => hne (sub_eq_zero.1 h0).symm
    have key : ∀ p ∈ ps, distance v p = ρ → distance w p = σ := by
      intro p hp hv
      have hin : p ∈ {p | p ∈ ps ∧ ∀ p' ∈ ps, distance v p ≤ distance v p'} :=
        ⟨hp, fun p' hp' => by rw [hv]; exact h1 p' hp'⟩
      dsimp only at h
      rw [h] at hin
      obtain ⟨p', hp', e, -⟩ := g2 (w - v) 0 hc
      exact le_antisymm (by rw [← e]; exact hin.2 p' hp') (g1 p hp)
    obtain ⟨p, hp, e, hne'⟩ := h2 (w - v) ((w ⬝ᵥ w - v ⬝ᵥ v + ρ ^ 2 - σ ^ 2) / 2) hc
    apply hne'
    have e1 := distance_sq v p
    have e2 := distance_sq w p
    rw [e] at e1
    rw [key p hp e] at e2
    rw [sub_dotProduct]
    linarith
  refine Set.Finite.of_finite_image ?_ hinj
  refine Set.Finite.subset (List.finite_toSet ps).finite_subsets ?_
  rintro s ⟨v, -, rfl⟩ p hp
  exact hp.1

/-- The contract of Qhull can be met. -/
noncomputable def Qhull.exact (d : ℕ) : Qhull d := by
  classical
  exact
  { voronoi := fun ps => if Spans ps then .ok (voronoi_finite ps).toFinset.toList else .error .qhull
    flat := fun ps h => if_neg h
    full := fun ps h => ⟨_, if_pos h, fun v => by simp⟩ }

theorem WSCell.make_points {q : Qhull d} {ps : List (Vec d ℝ)} {w : WSCell d ℝ}
    (h : WSCell.make q ps = .ok w) : w.points = ps := by
  unfold WSCell.make at h
  split_ifs at h
  · cases h; rfl
  · split at h <;> cases h
    rfl

theorem WSCell.make_cases (q : Qhull d) (ps : List (Vec d ℝ)) :
    (∃ w, WSCell.make q ps = .ok w) ∨ (WSCell.make q ps = .error .qhull ∧ ¬ Spans ps) := by
  unfold WSCell.make
  by_cases h1 : d = 1
  · exact .inl ⟨_, by rw [if_pos h1]⟩
  · by_cases hs : Spans ps
    · obtain ⟨vs, h, -⟩ := q.full ps hs
      exact .inl ⟨_, by rw [if_neg h1, h]⟩
    · exact .inr ⟨by rw [if_neg h1, q.flat ps hs], hs⟩

/-- Every basis has neighbouring cells at the nearest level. -/
theorem neighborCells_exist {rows : Matrix (Fin d) (Fin d) ℝ} {b : LatticeBasis d ℝ}
    (hb : LatticeBasis.init rows = .ok b) (incl : Bool) (cmp : ℝ → ℝ → Bool) :
    ∃ r, b.getNeighborCells 0 incl cmp = .ok r := by
  have hlt : (npUnique b.norms).length <
      (npUnique ((factors d 0).map fun n => norm2 (b.translate n 0))).length := by
    have hsub : (0 :: npUnique b.norms) ⊆
        npUnique ((factors d 0).map fun n => norm2 (b.translate n 0)) := by
      intro x hx
      rw [mem_npUnique, List.mem_map]
      rcases List.mem_cons.1 hx with rfl | hx
      · exact ⟨0, (mem_factors d 0 0).2 (by simp), (norm2_translate_eq_zero hb 0).2 rfl⟩
      · rw [mem_npUnique, norms, List.mem_map] at hx
        obtain ⟨i, -, rfl⟩ := hx
        refine ⟨Pi.single i 1, (mem_factors d 0 _).2 fun k => ?_, ?_⟩
        · by_cases h : k = i
          · subst h; simp
          · simp [Pi.single_eq_of_ne h]
        · congr 1
          funext k
          rw [translate_zero_apply, Finset.sum_eq_single i]
          · simp
          · intro j _ hj; simp [Pi.single_eq_of_ne hj]
          · simp
    have hnd : (0 :: npUnique b.norms).Nodup := by
      refine List.nodup_cons.2 ⟨?_, (npUnique_pairwise_lt _).imp fun h => h.ne⟩
      rw [mem_npUnique, norms, List.mem_map]
      rintro ⟨i, -, h⟩
      rw [norm2_eq_iff _ le_rfl, zero_pow two_ne_zero, dot_self_eq_zero,
        init_vectors hb] at h
      exact (init_eq_ok_iff rows).1 ⟨b, hb⟩ (det_eq_zero_of_row_eq_zero i fun j => congrFun h j)
    have := (hnd.subperm hsub).length_le
    simpa using this
  unfold getNeighborCells
  dsimp only
  rw [zero_add, List.getElem?_eq_getElem hlt]
  exact ⟨_, rfl⟩

/-- The lattice points of a basis given by its rows. -/
def latPoint (rows : Matrix (Fin d) (Fin d) ℝ) (n : Fin d → ℤ) : Vec d ℝ :=
  fun k => ∑ i, (n i : ℝ) * rows i k

theorem latPoint_eq {rows : Matrix (Fin d) (Fin d) ℝ} {b : LatticeBasis d ℝ}
    (hb : LatticeBasis.init rows = .ok b) (n : Fin d → ℤ) :
    b.translate n 0 = latPoint rows n := by
  funext k
  rw [translate_zero_apply, init_vectors hb]
  rfl

theorem latPoint_zero (rows : Matrix (Fin d) (Fin d) ℝ) : latPoint rows 0 = 0 := by
  funext k; simp [latPoint]

theorem latPoint_single (rows : Matrix (Fin d) (Fin d) ℝ) (i : Fin d) :
    latPoint rows (Pi.single i 1) = rows i := by
  funext k
  unfold latPoint
  rw [Finset.sum_eq_single i]
  · simp
  · intro j _ hj; simp [Pi.single_eq_of_ne hj]
  · simp

theorem latPoint_eq_zero {rows : Matrix (Fin d) (Fin d) ℝ} {b : LatticeBasis d ℝ}
    (hb : LatticeBasis.init rows = .ok b) (n : Fin d → ℤ) : latPoint rows n = 0 ↔ n = 0 := by
  rw [← norm2_translate_eq_zero hb n, latPoint_eq hb, norm2_eq_iff _ le_rfl, zero_pow two_ne_zero,
    dot_self_eq_zero]

theorem latPoint_injective {rows : Matrix (Fin d) (Fin d) ℝ} {b : LatticeBasis d ℝ}
    (hb : LatticeBasis.init rows = .ok b) : Function.Injective (latPoint rows) := by
  intro n n' h
  rw [← sub_eq_zero, ← latPoint_eq_zero hb]
  funext k
  have := congrFun h k
  simp only [latPoint] at this ⊢
  simp [sub_mul, this]

/-- The points used by `wigner_seitz_cell`. -/
theorem wsCell_spec {rows : Matrix (Fin d) (Fin d) ℝ} {b : LatticeBasis d ℝ}
    (hb : LatticeBasis.init rows = .ok b) (q : Qhull d) :
    ∃ r : List (Fin d → ℤ), b.getNeighborCells 0 true isclose = .ok r ∧ 0 ∈ r ∧
      (r.map (latPoint rows)).Nodup ∧
      b.wignerSeitzCell q = WSCell.make q (r.map (latPoint rows)) := by
  obtain ⟨r, hr⟩ := neighborCells_exist hb true isclose
  obtain ⟨-, -, h1, h2, -⟩ := neighborCells_spec b 0 true isclose r hr
  refine ⟨r, hr, h2.2 rfl, h1.map (latPoint_injective hb), ?_⟩
  unfold wignerSeitzCell
  rw [hr]
  dsimp only
  congr 2
  funext n
  exact latPoint_eq hb n

/-- For a basis with vectors of equal length that are shortest lattice vectors (length `ℓ`): the
cell exists, and the points used contain all lattice points at the distance `ℓ` that are reached
by factors up to one. -/
theorem wsCell_equal (hd : 1 ≤ d) {rows : Matrix (Fin d) (Fin d) ℝ} {b : LatticeBasis d ℝ}
    (hb : LatticeBasis.init rows = .ok b) (q : Qhull d) {ℓ : ℝ} (hl : 0 ≤ ℓ)
    (hrow : ∀ i, rows i ⬝ᵥ rows i = ℓ ^ 2)
    (hmin : ∀ n, n ≠ 0 → ℓ ^ 2 ≤ latPoint rows n ⬝ᵥ latPoint rows n) :
    ∃ w, b.wignerSeitzCell q = .ok w ∧ w.points.Nodup ∧ 0 ∈ w.points ∧
      (WSCell.make q w.points = .ok w) ∧ Spans w.points ∧
      ∀ p, p ≠ 0 → (p ∈ w.points ↔ ∃ n : Fin d → ℤ, p = latPoint rows n ∧ (∀ k, |n k| ≤ 1) ∧
        isclose (norm2 p) ℓ = true) := by
  have hnorm : ∀ i, norm2 (rows i) = ℓ := fun i => (norm2_eq_iff _ hl).2 (hrow i)
  obtain ⟨r, m, hr, hm, hmem⟩ := C10_neighbor_cells_nearest_partial hd rows b hb
    (fun i j => by rw [hnorm, hnorm]) true isclose
  obtain ⟨r', hr', h0, hnd, hmake⟩ := wsCell_spec hb q
  obtain rfl : r = r' := by rw [hr] at hr'; exact Except.ok.inj hr'
  have hm' : m = ℓ := by
    apply le_antisymm
    · refine hm.2 ⟨Pi.single ⟨0, hd⟩ 1, ?_, fun k => ?_, ?_⟩
      · intro h
        have := congrFun h ⟨0, hd⟩
        simp at this
      · by_cases h : k = ⟨0, hd⟩
        · subst h; simp
        · simp [Pi.single_eq_of_ne h]
      · rw [latPoint_eq hb, latPoint_single, hnorm]
    · obtain ⟨n, hn, -, e⟩ := hm.1
      rw [e, latPoint_eq hb, ← sq_le_sq₀ hl (norm2_nonneg _), norm2_sq]
      exact hmin n hn
  subst hm'
  have hmem' : ∀ p, p ≠ 0 → (p ∈ r.map (latPoint rows) ↔ ∃ n : Fin d → ℤ, p = latPoint rows n ∧
      (∀ k, |n k| ≤ 1) ∧ isclose (norm2 p) m = true) := by
    intro p hp
    rw [List.mem_map]
    constructor
    · rintro ⟨n, hn, rfl⟩
      have hn0 : n ≠ 0 := fun h => hp ((latPoint_eq_zero hb n).2 h)
      obtain ⟨h1, h2⟩ := (hmem n hn0).1 hn
      exact ⟨n, rfl, h1, by rw [← latPoint_eq hb]; exact h2⟩
    · rintro ⟨n, rfl, h1, h2⟩
      have hn0 : n ≠ 0 := fun h => hp ((latPoint_eq_zero hb n).2 h)
      exact ⟨n, (hmem n hn0).2 ⟨h1, by rw [latPoint_eq hb]; exact h2⟩, rfl⟩
  have hrows : ∀ i, rows i ∈ r.map (latPoint rows) := by
    intro i
    have hne : rows i ≠ 0 := by
      rw [← latPoint_single rows i, Ne, latPoint_eq_zero hb]
      intro h
      have := congrFun h i
      simp at this
    rw [hmem' _ hne]
    refine ⟨Pi.single i 1, (latPoint_single rows i).symm, fun k => ?_, ?_⟩
    · by_cases h : k = i
      · subst h; simp
      · simp [Pi.single_eq_of_ne h]
    · rw [hnorm, isclose]
      simp
      positivity
  have hspan : Spans (r.map (latPoint rows)) := by
    intro c t hc
    by_contra hall
    push Not at hall
    have h00 := hall 0 (List.mem_map.2 ⟨0, h0, latPoint_zero rows⟩)
    rw [dotProduct_zero] at h00
    apply hc
    have hmul : rows *ᵥ c = 0 := by
      funext i
      have := hall _ (hrows i)
      rw [← h00, dotProduct_comm] at this
      exact this
    exact eq_zero_of_mulVec_eq_zero ((init_eq_ok_iff rows).1 ⟨b, hb⟩) hmul
  rcases WSCell.make_cases q (r.map (latPoint rows)) with ⟨w, hw⟩ | ⟨-, h⟩
  · have hp := WSCell.make_points hw
    refine ⟨w, by rw [hmake, hw], ?_⟩
    rw [hp]
    exact ⟨hnd, List.mem_map.2 ⟨0, h0, latPoint_zero rows⟩, hw, hspan, hmem'⟩
  · exact absurd hspan h

end Lattpy
