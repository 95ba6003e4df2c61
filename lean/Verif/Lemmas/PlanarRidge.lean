import Verif.Lemmas.SymmetryPoints
import Mathlib.Analysis.Convex.Segment
import Mathlib.Topology.Order.Compact
import Mathlib.Topology.Order.LiminfLimsup
import Mathlib.Topology.Algebra.Order.Field
import Mathlib.Topology.MetricSpace.Bounded
import Mathlib.Topology.Instances.Real.Lemmas

/-! A finite ridge in the plane has two vertices. -/

set_option autoImplicit false

namespace Lattpy

open Matrix

/-- A family of affine constraints on a real number. -/
def affineSet (l : List (ℝ × ℝ)) : Set ℝ := {t | ∀ c ∈ l, 0 ≤ c.1 + c.2 * t}

theorem affine_step (l : List (ℝ × ℝ)) (t : ℝ) (h : t ∈ affineSet l)
    (hs : ∀ c ∈ l, c.1 + c.2 * t = 0 → 0 ≤ c.2) :
    ∃ ε : ℝ, 0 < ε ∧ ∀ δ, 0 ≤ δ → δ ≤ ε → t + δ ∈ affineSet l := by
  induction l with
  | nil => exact ⟨1, one_pos, fun δ _ _ c hc => by simp at hc⟩
  | cons c l ih =>
    obtain ⟨ε, h0, h1⟩ := ih (fun x hx => h x (by simp [hx])) (fun x hx => hs x (by simp [hx]))
    have hc := h c (by simp)
    obtain ⟨η, g0, g1⟩ : ∃ η : ℝ, 0 < η ∧ ∀ δ, 0 ≤ δ → δ ≤ η → 0 ≤ c.1 + c.2 * (t + δ) := by
      by_cases hb : 0 ≤ c.2
      · exact ⟨1, one_pos, fun δ hδ _ => by nlinarith⟩
      · push Not at hb
        have hpos : 0 < c.1 + c.2 * t :=
          lt_of_le_of_ne hc fun h0 => absurd (hs c (by simp) h0.symm) (not_le.2 hb)
        refine ⟨(c.1 + c.2 * t) / (-c.2), div_pos hpos (by linarith), fun δ _ hδ => ?_⟩
        rw [le_div_iff₀ (by linarith)] at hδ
        linarith
    refine ⟨min ε η, lt_min h0 g0, fun δ hδ hle x hx => ?_⟩
    rcases List.mem_cons.1 hx with rfl | hx
    · exact g1 δ hδ (hle.trans (min_le_right _ _))
    · exact h1 δ hδ (hle.trans (min_le_left _ _)) x hx

theorem affine_closed (l : List (ℝ × ℝ)) : IsClosed (affineSet l) := by
  have : affineSet l = ⋂ c ∈ l, {t : ℝ | 0 ≤ c.1 + c.2 * t} := by
    ext t
    simp [affineSet]
  rw [this]
  exact isClosed_biInter fun c _ => isClosed_le continuous_const (by fun_prop)

/-- The largest solution: a constraint that bounds it from above is met with equality. -/
theorem affine_max (l : List (ℝ × ℝ)) (hne : (affineSet l).Nonempty) (hb : BddAbove (affineSet l)) :
    ∃ t, IsGreatest (affineSet l) t ∧ ∃ c ∈ l, c.1 + c.2 * t = 0 ∧ c.2 < 0 := by
  have hmem : sSup (affineSet l) ∈ affineSet l := (affine_closed l).csSup_mem hne hb
  refine ⟨_, ⟨hmem, fun x hx => le_csSup hb hx⟩, ?_⟩
  by_contra hno
  push Not at hno
  obtain ⟨ε, h0, h1⟩ := affine_step l _ hmem hno
  have := le_csSup hb (h1 ε h0.le (le_refl _))
  linarith

theorem affine_neg (l : List (ℝ × ℝ)) (t : ℝ) :
    t ∈ affineSet (l.map fun c => (c.1, -c.2)) ↔ -t ∈ affineSet l := by
  unfold affineSet
  simp only [Set.mem_ofPred_eq, List.mem_map, forall_exists_index, and_imp,
    forall_apply_eq_imp_iff₂]
  exact forall₂_congr fun c _ => by ring_nf

theorem affine_min (l : List (ℝ × ℝ)) (hne : (affineSet l).Nonempty) (hb : BddBelow (affineSet l)) :
    ∃ t, IsLeast (affineSet l) t ∧ ∃ c ∈ l, c.1 + c.2 * t = 0 ∧ 0 < c.2 := by
  obtain ⟨t, ⟨h1, h2⟩, c, hc, h3, h4⟩ := affine_max (l.map fun c => (c.1, -c.2)) (by
    obtain ⟨x, hx⟩ := hne
    exact ⟨-x, by rw [affine_neg, neg_neg]; exact hx⟩) (by
    obtain ⟨M, hM⟩ := hb
    exact ⟨-M, fun x hx => by linarith [hM ((affine_neg l x).1 hx)]⟩)
  obtain ⟨c', hc', rfl⟩ := List.mem_map.1 hc
  refine ⟨-t, ⟨(affine_neg l t).1 h1, fun x hx => ?_⟩, c', hc', by linarith, by simpa using h4⟩
  have := h2 ((affine_neg l (-x)).2 (by rw [neg_neg]; exact hx))
  linarith

/-! ## the line between two points -/

/-- The points at the same distance from `p` and `r`. -/
noncomputable def bisector (p r : Vec 2 ℝ) (t : ℝ) : Vec 2 ℝ :=
  ![(p 0 + r 0) / 2 - t * (p 1 - r 1), (p 1 + r 1) / 2 + t * (p 0 - r 0)]

/-- The constraint of the point `s`. -/
noncomputable def bisectorConstraint (p r s : Vec 2 ℝ) : ℝ × ℝ :=
  (s ⬝ᵥ s - 2 * (bisector p r 0 ⬝ᵥ s) - (p ⬝ᵥ p - 2 * (bisector p r 0 ⬝ᵥ p)),
    2 * ((p 1 - r 1) * (s 0 - p 0) - (p 0 - r 0) * (s 1 - p 1)))

theorem dot_two (x y : Vec 2 ℝ) : x ⬝ᵥ y = x 0 * y 0 + x 1 * y 1 := by
  simp [dotProduct, Fin.sum_univ_two]

theorem bisector_closer (p r s : Vec 2 ℝ) (t : ℝ) :
    distance (bisector p r t) p ≤ distance (bisector p r t) s ↔
      0 ≤ (bisectorConstraint p r s).1 + (bisectorConstraint p r s).2 * t := by
  rw [distance_le_iff]
  simp only [bisectorConstraint, dot_two, bisector]
  simp
  constructor <;> intro h <;> nlinarith

theorem bisector_eq (p r s : Vec 2 ℝ) (t : ℝ) :
    distance (bisector p r t) s = distance (bisector p r t) p ↔
      (bisectorConstraint p r s).1 + (bisectorConstraint p r s).2 * t = 0 := by
  rw [← sq_eq_sq₀ (distance_nonneg _ _) (distance_nonneg _ _), distance_sq, distance_sq]
  simp only [bisectorConstraint, dot_two, bisector]
  simp
  constructor <;> intro h <;> linarith

theorem two_ne_sq {p r : Vec 2 ℝ} (h : p ≠ r) : 0 < (p 0 - r 0) ^ 2 + (p 1 - r 1) ^ 2 := by
  by_contra hno
  apply h
  have h0 : p 0 - r 0 = 0 := by nlinarith [sq_nonneg (p 0 - r 0), sq_nonneg (p 1 - r 1)]
  have h1 : p 1 - r 1 = 0 := by nlinarith [sq_nonneg (p 0 - r 0), sq_nonneg (p 1 - r 1)]
  funext k
  fin_cases k
  · exact sub_eq_zero.1 h0
  · exact sub_eq_zero.1 h1

theorem bisector_of_eq {p r x : Vec 2 ℝ} (hne : p ≠ r) (h : distance x p = distance x r) :
    ∃ t, x = bisector p r t := by
  have hD := two_ne_sq hne
  have e1 := distance_sq x p
  have e2 := distance_sq x r
  rw [h] at e1
  have e : (x 0 - (p 0 + r 0) / 2) * (p 0 - r 0) + (x 1 - (p 1 + r 1) / 2) * (p 1 - r 1) = 0 := by
    rw [e2] at e1
    simp only [dot_two] at e1
    linarith
  refine ⟨((x 1 - (p 1 + r 1) / 2) * (p 0 - r 0) - (x 0 - (p 0 + r 0) / 2) * (p 1 - r 1)) /
    ((p 0 - r 0) ^ 2 + (p 1 - r 1) ^ 2), ?_⟩
  funext k
  fin_cases k
  · simp [bisector]
    field_simp
    linear_combination 2 * (p 0 - r 0) * e
  · simp [bisector]
    field_simp
    linear_combination 2 * (p 1 - r 1) * e

theorem bisector_inj {p r : Vec 2 ℝ} (hne : p ≠ r) {t u : ℝ}
    (h : bisector p r t = bisector p r u) : t = u := by
  have hD := two_ne_sq hne
  have h0 := congrFun h 0
  have h1 := congrFun h 1
  simp [bisector] at h0 h1
  by_contra htu
  have htu' : t - u ≠ 0 := sub_ne_zero.2 htu
  have a0 : (t - u) * (p 1 - r 1) = 0 := by rcases h0 with h | h <;> rw [h] <;> ring
  have a1 : (t - u) * (p 0 - r 0) = 0 := by rcases h1 with h | h <;> rw [h] <;> ring
  rw [(mul_eq_zero.1 a0).resolve_left htu', (mul_eq_zero.1 a1).resolve_left htu'] at hD
  norm_num at hD

/-- The vertices of a finite ridge in the plane are two points. -/
theorem planar_ridge {ps : List (Vec 2 ℝ)} {p r : Vec 2 ℝ} (hf : FullRidge ps p r)
    (hfin : FiniteRidge (ridge ps p r)) :
    ∃ u v, u ≠ v ∧ ridge ps p r = segment ℝ u v ∧ ∀ x, (IsVoronoiVertex ps x ∧ x ∈ ridge ps p r) ↔ x = u ∨ x = v := by
  have hne := hf.2.2.1
  have hD := two_ne_sq hne
  let l := ps.map (bisectorConstraint p r)
  have hpr : ∀ t, distance (bisector p r t) p = distance (bisector p r t) r := by
    intro t
    rw [eq_comm, bisector_eq]
    simp only [bisectorConstraint, dot_two, bisector]
    simp
    ring
  have hT : ∀ t, bisector p r t ∈ ridge ps p r ↔ t ∈ affineSet l := by
    intro t
    unfold ridge affineSet
    simp only [Set.mem_ofPred_eq, l, List.mem_map, forall_exists_index, and_imp,
      forall_apply_eq_imp_iff₂]
    exact ⟨fun h s hs => (bisector_closer p r s t).1 (h.2 s hs),
      fun h => ⟨hpr t, fun s hs => (bisector_closer p r s t).2 (h s hs)⟩⟩
  have hridge : ∀ x ∈ ridge ps p r, ∃ t ∈ affineSet l, x = bisector p r t := by
    intro x hx
    obtain ⟨t, rfl⟩ := bisector_of_eq hne hx.1
    exact ⟨t, (hT t).1 hx, rfl⟩
  obtain ⟨M, hM⟩ := hfin
  have hbound : ∃ C, ∀ t ∈ affineSet l, |t| ≤ C := by
    refine ⟨(|p 0 - r 0| * (M + |(p 1 + r 1) / 2|) + |p 1 - r 1| * (M + |(p 0 + r 0) / 2|)) /
      ((p 0 - r 0) ^ 2 + (p 1 - r 1) ^ 2), fun t ht => ?_⟩
    have h0 := hM _ ((hT t).2 ht) 0
    have h1 := hM _ ((hT t).2 ht) 1
    rw [le_div_iff₀ hD, ← abs_of_pos hD, ← abs_mul]
    have e : t * ((p 0 - r 0) ^ 2 + (p 1 - r 1) ^ 2) =
        (p 0 - r 0) * (bisector p r t 1 - (p 1 + r 1) / 2) -
          (p 1 - r 1) * (bisector p r t 0 - (p 0 + r 0) / 2) := by
      simp [bisector]
      ring
    rw [e]
    refine (abs_sub _ _).trans ?_
    rw [abs_mul, abs_mul]
    gcongr
    · exact (abs_sub _ _).trans (by linarith)
    · exact (abs_sub _ _).trans (by linarith)
  obtain ⟨C, hC⟩ := hbound
  have hnon : (affineSet l).Nonempty := by
    obtain ⟨x, hx⟩ := hf.nonempty (le_refl 2)
    obtain ⟨t, ht, -⟩ := hridge x hx
    exact ⟨t, ht⟩
  obtain ⟨t1, ⟨m1, g1⟩, c1, hc1, e1, s1⟩ :=
    affine_max l hnon ⟨C, fun t ht => (abs_le.1 (hC t ht)).2⟩
  obtain ⟨t0, ⟨m0, g0⟩, c0, hc0, e0, s0⟩ :=
    affine_min l hnon ⟨-C, fun t ht => (abs_le.1 (hC t ht)).1⟩
  have hlt : t0 < t1 := by
    by_contra hge
    push Not at hge
    have hone : ∀ x ∈ ridge ps p r, x = bisector p r t1 := by
      intro x hx
      obtain ⟨t, ht, rfl⟩ := hridge x hx
      rw [le_antisymm (g1 ht) (hge.trans (g0 ht))]
    obtain ⟨s, hs⟩ := hf.2.2.2 ![-(p 1 - r 1), p 0 - r 0] (![-(p 1 - r 1), p 0 - r 0] ⬝ᵥ bisector p r t1)
      fun x hx => by rw [hone x hx]
    have a0 := congrFun hs 0
    have a1 := congrFun hs 1
    simp only [cons_val_zero, cons_val_one, Pi.smul_apply, Pi.sub_apply, smul_eq_mul] at a0 a1
    have : (p 0 - r 0) ^ 2 + (p 1 - r 1) ^ 2 = 0 := by
      linear_combination (p 0 - r 0) * a1 - (p 1 - r 1) * a0
    exact hD.ne' this
  have hvertex : ∀ t ∈ affineSet l, (∃ c ∈ l, c.1 + c.2 * t = 0 ∧ c.2 ≠ 0) →
      IsVoronoiVertex ps (bisector p r t) := by
    rintro t ht ⟨c, hc, hc0, hc2⟩
    obtain ⟨s, hs, rfl⟩ := List.mem_map.1 hc
    refine ⟨distance (bisector p r t) p, ((hT t).2 ht).2, fun c' t' hc' => ?_⟩
    by_contra hall
    push Not at hall
    have b0 := hall p hf.1 rfl
    have b1 := hall r hf.2.1 (hpr t).symm
    have b2 := hall s hs ((bisector_eq p r s t).2 hc0)
    rw [dot_two] at b0 b1 b2
    simp only [bisectorConstraint] at hc2
    have hdet : (p 1 - r 1) * (s 0 - p 0) - (p 0 - r 0) * (s 1 - p 1) ≠ 0 := fun h => hc2 (by
      rw [h, mul_zero])
    apply hc'
    funext k
    fin_cases k
    · refine (mul_eq_zero.1 (?_ : c' 0 * ((p 1 - r 1) * (s 0 - p 0) - (p 0 - r 0) * (s 1 - p 1)) =
        0)).resolve_right hdet
      linear_combination (p 1 - r 1) * (b2 - b0) - (s 1 - p 1) * (b0 - b1)
    · refine (mul_eq_zero.1 (?_ : c' 1 * ((p 1 - r 1) * (s 0 - p 0) - (p 0 - r 0) * (s 1 - p 1)) =
        0)).resolve_right hdet
      linear_combination -(p 0 - r 0) * (b2 - b0) + (s 0 - p 0) * (b0 - b1)
  refine ⟨bisector p r t0, bisector p r t1, fun h => hlt.ne (bisector_inj hne h), ?_, fun x => ?_⟩
  · have haff : ∀ θ : ℝ, (1 - θ) • bisector p r t0 + θ • bisector p r t1 =
        bisector p r ((1 - θ) * t0 + θ * t1) := by
      intro θ
      funext k
      fin_cases k <;> simp [bisector] <;> ring
    rw [segment_eq_image]
    ext x
    constructor
    · intro hx
      obtain ⟨t, ht, rfl⟩ := hridge x hx
      have hpos : 0 < t1 - t0 := sub_pos.2 hlt
      refine ⟨(t - t0) / (t1 - t0), ⟨div_nonneg (sub_nonneg.2 (g0 ht)) hpos.le,
        (div_le_one hpos).2 (by linarith [g1 ht])⟩, ?_⟩
      dsimp only
      rw [haff]
      congr 1
      field_simp
      ring
    · rintro ⟨θ, ⟨hθ0, hθ1⟩, rfl⟩
      dsimp only
      rw [haff, hT]
      intro c hc
      have k0 := m0 c hc
      have k1 := m1 c hc
      nlinarith
  constructor
  · rintro ⟨⟨ρ, h1, h2⟩, hx⟩
    obtain ⟨t, ht, rfl⟩ := hridge x hx
    by_contra hno
    push Not at hno
    have l0 : t0 < t := lt_of_le_of_ne (g0 ht) fun h => hno.1 (by rw [h])
    have l1 : t < t1 := lt_of_le_of_ne (g1 ht) fun h => hno.2 (by rw [h])
    have hc : (![p 1 - r 1, -(p 0 - r 0)] : Vec 2 ℝ) ≠ 0 := by
      intro h
      have a0 := congrFun h 0
      have a1 := congrFun h 1
      simp only [cons_val_zero, cons_val_one, Pi.zero_apply] at a0 a1
      rw [a0, show p 0 - r 0 = 0 by linarith] at hD
      norm_num at hD
    obtain ⟨s, hs, es, hns⟩ := h2 _ ((![p 1 - r 1, -(p 0 - r 0)] : Vec 2 ℝ) ⬝ᵥ p) hc
    have hact := (bisector_eq p r s t).1 (le_antisymm (by rw [es]; exact h1 p hf.1) (hx.2 s hs))
    have hB : (bisectorConstraint p r s).2 ≠ 0 := by
      intro h
      apply hns
      simp only [bisectorConstraint] at h
      rw [dot_two, dot_two]
      simp only [cons_val_zero, cons_val_one]
      linarith
    have hin : bisectorConstraint p r s ∈ l := List.mem_map_of_mem hs
    have k0 := m0 _ hin
    have k1 := m1 _ hin
    apply hB
    nlinarith
  · rintro (rfl | rfl)
    · exact ⟨hvertex t0 m0 ⟨c0, hc0, e0, s0.ne'⟩, (hT t0).2 m0⟩
    · exact ⟨hvertex t1 m1 ⟨c1, hc1, e1, s1.ne⟩, (hT t1).2 m1⟩

end Lattpy
