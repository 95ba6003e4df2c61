import Verif.Props.Fourier
import Verif.Props.PresetLattices

/-!
# C88: Fourier weights of the preset lattices
-/

set_option linter.unusedSectionVars false

open Matrix ComplexConjugate

namespace Lattpy
open Structure Preset
variable {d : ℕ}

theorem calls_run (env : Env ℝ) (ops : List (World.Op ℝ)) (w w' : World d ℝ)
    (h : calls env w ops = .ok w') : w' = World.run env w ops := by
  induction ops generalizing w with
  | nil =>
    rw [calls] at h
    cases h
    rfl
  | cons op ops ih =>
    rw [calls] at h
    split at h
    · rename_i w1 u hc
      rw [ih _ h]
      unfold World.run
      rw [List.foldl_cons, hc]
    · cases h

theorem configure_reachable {env : Env ℝ} {s : Session} {rows : Matrix (Fin d) (Fin d) ℝ}
    {ops : List (World.Op ℝ)} {w : World d ℝ}
    (h : configure env s (LatticeBasis.init rows) ops = .ok w) : Reachable env w := by
  unfold configure at h
  split at h
  · cases h
  · rename_i b hb
    exact ⟨rows, b, s, ops, hb, calls_run env ops _ _ h⟩

/-- The neighbours of an atom with a single shell. -/
theorem neighbors_of_are (hd : 0 < d) {env : Env ℝ} {w : World d ℝ} (h : Reachable env w) {a : ℕ}
    {x : ℝ} {L : List (Idx d)} (hL : L.Nodup) (hne : L ≠ []) {N : Set (Idx d)}
    (hN : ∀ idx, idx ∈ N ↔ idx ∈ L) (hw : NeighborsAre w a x N) :
    ∃ l, w.struct.getNeighbors 0 a 0 = .ok l ∧ l.Perm L := by
  obtain ⟨A, hA, hlist⟩ := hw
  obtain ⟨i, hi⟩ := List.exists_mem_of_ne_nil L hne
  obtain ⟨D, xs, hD, hmem, -⟩ := (hlist x i).2 ⟨rfl, (hN i).2 hi⟩
  have hex : ∃ l, w.struct.getNeighbors 0 (a : ℤ) 0 = .ok l := by
    rw [(C35_errors hd h 0 a 0).2 A hA]
    exact ⟨a, 0, D, hD, Or.inl rfl, List.length_pos_of_mem hmem, Or.inl rfl⟩
  obtain ⟨l, hl⟩ := hex
  obtain ⟨A', a', y, hA', ha', hα, hnd, hm⟩ := getNeighbors_listed hd h hl
  rw [hA] at hA'
  cases hA'
  have : a' = a := by omega
  subst this
  refine ⟨l, hl, (List.perm_ext_iff_of_nodup hnd hL).2 fun idx => ?_⟩
  have hy : y = x := by
    obtain ⟨-, -, -, -, -, -, -, -, -, -, -, -, -, hne', -⟩ := getNeighbors_info (h.good hd) hl
    obtain ⟨i', hi'⟩ := List.exists_mem_of_ne_nil l hne'
    exact ((hlist y i').1 ((hm i').1 hi')).1
  rw [hm, hlist, hN, hy]
  simp

theorem weight_of_are (hd : 0 < d) {env : Env ℝ} {w : World d ℝ} (h : Reachable env w) {a : ℕ}
    {x : ℝ} {L : List (Idx d)} (hL : L.Nodup) (hne : L ≠ []) {N : Set (Idx d)}
    (hN : ∀ idx, idx ∈ N ↔ idx ∈ L) (hw : NeighborsAre w a x N) {p0 : Vec d ℝ}
    (hp0 : w.struct.positions[a]? = some p0) :
    IsWeight w a 0 fun k => (L.map fun idx => phase k (sitePoint w.struct idx) p0).sum := by
  obtain ⟨l, hl, hp⟩ := neighbors_of_are hd h hL hne hN hw
  have := weight_sum hd h hl (pyGet_eq_some.2 ⟨a, Or.inl rfl, hp0⟩)
  intro k
  rw [this k]
  dsimp only
  rw [(hp.map _).sum_eq]

theorem two_cos (t : ℝ) : Complex.exp (Complex.I * (t : ℂ)) + Complex.exp (Complex.I * ((-t : ℝ) : ℂ))
    = ((2 * Real.cos t : ℝ) : ℂ) := by
  push_cast
  rw [Complex.two_cos]
  congr 1 <;> congr 1 <;> ring

/-- The weight of the hypercubic presets is the sum of the doubled cosines of the components. -/
theorem C88_hypercubic_partial (hd : 0 < d) (env : Env ℝ) (s : Session) (a : ℝ)
    (ha : 1 / 10 ^ 5 ≤ |a|) (atom : AtomSpec) :
    ∃ w : World d ℝ, configure env s (LatticeBasis.hypercubic d a) (oneAtom atom 1) = .ok w ∧
      IsWeight w 0 0 fun k => ((∑ i, 2 * Real.cos (k i * a) : ℝ) : ℂ) := by
  obtain ⟨w, hw, hp, hN⟩ := (C84_cubic_partial env s a ha atom).2.2.2 d hd
  refine ⟨w, hw, ?_⟩
  have hr := configure_reachable hw
  have hv := configure_vectors hw
  have := weight_of_are hd hr (L := ((List.finRange d).map fun i => Idx.mk (Pi.single i 1) 0) ++
    ((List.finRange d).map fun i => Idx.mk (Pi.single i (-1)) 0)) ?_ ?_ ?_ hN
    (p0 := 0) (by rw [hp]; rfl)
  · intro k
    refine (this k).trans ?_
    congr 1
    dsimp only
    rw [List.map_append, List.sum_append, List.map_map, List.map_map, ← Fin.sum_univ_def,
      ← Fin.sum_univ_def, ← Finset.sum_add_distrib]
    push_cast
    refine Finset.sum_congr rfl fun i _ => ?_
    have key : ∀ c : ℤ, phase k (sitePoint w.struct (Idx.mk (Pi.single i c) 0)) 0 =
        Complex.exp (Complex.I * (((c : ℝ) * (k i * a) : ℝ) : ℂ)) := by
      intro c
      unfold phase sitePoint
      congr 3
      simp only [Idx.cell_mk, Idx.alpha_mk, hv, posOf, hp]
      simp [Matrix.one_apply, Pi.single_apply]
      ring
    have h2 := two_cos (k i * a)
    rw [Function.comp_apply, Function.comp_apply, key, key]
    push_cast at h2 ⊢
    rw [← h2]
    simp
  · rw [List.nodup_append]
    have inj : ∀ c : ℤ, c ≠ 0 → Function.Injective fun i : Fin d => Idx.mk (Pi.single i c) 0 := by
      intro c hc i j hij
      have := (Idx.mk_inj.1 hij).1
      by_contra hne
      have h1 := congrFun this i
      rw [Pi.single_eq_same, Pi.single_eq_of_ne hne] at h1
      exact hc h1
    refine ⟨(List.nodup_finRange d).map (inj 1 one_ne_zero),
      (List.nodup_finRange d).map (inj (-1) (by norm_num)), ?_⟩
    intro x hx y hy hxy
    obtain ⟨i, -, rfl⟩ := List.mem_map.1 hx
    obtain ⟨j, -, rfl⟩ := List.mem_map.1 hy
    have h1 := congrFun (Idx.mk_inj.1 hxy).1 i
    rw [Pi.single_eq_same, Pi.single_apply] at h1
    split_ifs at h1
    norm_num at h1
  · simp
    omega
  · intro idx
    simp only [Set.mem_ofPred_eq, List.mem_append, List.mem_map, List.mem_finRange, true_and]
    constructor
    · rintro ⟨i, rfl | rfl⟩
      · exact Or.inl ⟨i, rfl⟩
      · exact Or.inr ⟨i, rfl⟩
    · rintro (⟨i, rfl⟩ | ⟨i, rfl⟩)
      · exact ⟨i, Or.inl rfl⟩
      · exact ⟨i, Or.inr rfl⟩

/-- The weight of the hexagonal preset. -/
theorem C88_hexagonal_partial (env : Env ℝ) (s : Session) (a : ℝ) (ha : 1 / 10 ^ 5 ≤ |a|)
    (atom : AtomSpec) :
    ∃ w, simpleHexagonal env s a atom 1 = .ok w ∧
      IsWeight w 0 0 fun k => ((4 * Real.cos (3 * a / 2 * k 0) * Real.cos (Real.sqrt 3 * a / 2 * k 1) +
        2 * Real.cos (Real.sqrt 3 * a * k 1) : ℝ) : ℂ) := by
  obtain ⟨w, hw, hp, hN⟩ := C84_hexagonal_partial env s a ha atom
  refine ⟨w, hw, ?_⟩
  have hr := configure_reachable hw
  have hv := configure_vectors hw
  have := weight_of_are two_pos hr (L := [Idx.mk ![1, 0] 0, Idx.mk ![-1, 0] 0, Idx.mk ![0, 1] 0,
    Idx.mk ![0, -1] 0, Idx.mk ![1, -1] 0, Idx.mk ![-1, 1] 0]) (by simp [Idx.mk_inj]) (by simp)
    (by intro idx; simp) hN (p0 := 0) (by rw [hp]; rfl)
  intro k
  refine (this k).trans ?_
  congr 1
  have key : ∀ m n : ℤ, phase k (sitePoint w.struct (Idx.mk ![m, n] 0)) 0 =
      Complex.exp (Complex.I * (((m : ℝ) * (3 * a / 2 * k 0 + Real.sqrt 3 * a / 2 * k 1) +
        n * (3 * a / 2 * k 0 - Real.sqrt 3 * a / 2 * k 1) : ℝ) : ℂ)) := by
    intro m n
    unfold phase sitePoint
    congr 3
    simp only [Idx.cell_mk, Idx.alpha_mk, hv, posOf, hp, Fin.sum_univ_two]
    simp
    ring
  simp only [List.map_cons, List.map_nil, List.sum_cons, List.sum_nil, key]
  have h1 := two_cos (3 * a / 2 * k 0 + Real.sqrt 3 * a / 2 * k 1)
  have h2 := two_cos (3 * a / 2 * k 0 - Real.sqrt 3 * a / 2 * k 1)
  have h3 := two_cos (Real.sqrt 3 * a * k 1)
  have e : (4 * Real.cos (3 * a / 2 * k 0) * Real.cos (Real.sqrt 3 * a / 2 * k 1) +
        2 * Real.cos (Real.sqrt 3 * a * k 1) : ℝ) =
      2 * Real.cos (3 * a / 2 * k 0 + Real.sqrt 3 * a / 2 * k 1) +
      2 * Real.cos (3 * a / 2 * k 0 - Real.sqrt 3 * a / 2 * k 1) +
      2 * Real.cos (Real.sqrt 3 * a * k 1) := by
    rw [Real.cos_add, Real.cos_sub]
    ring
  rw [e, Complex.ofReal_add (_ + _), Complex.ofReal_add (2 * _), ← h1, ← h2, ← h3]
  ring_nf

theorem honeycomb_configure {env : Env ℝ} {s : Session} {a : ℝ} {atom : AtomSpec} {w : World 2 ℝ}
    (h : honeycomb env s a atom = .ok w) :
    ∃ s' ops, configure env s' (LatticeBasis.hexagonal a) ops = .ok w := by
  unfold honeycomb at h
  split at h
  · exact ⟨_, _, h⟩
  · split at h
    · cases h
    · split at h
      · cases h
      · exact ⟨_, _, h⟩

theorem graphene_configure {env : Env ℝ} {s : Session} {a : ℝ} {w : World 2 ℝ}
    (hw : graphene env s a = .ok w) :
    ∃ s' ops, configure env s' (LatticeBasis.hexagonal a) ops = .ok w := by
  unfold graphene at hw
  split at hw
  · cases hw
  · split at hw
    · cases hw
    · split at hw
      · exact ⟨_, _, hw⟩
      · cases hw

/-- The weight of the first atom of the honeycomb lattice. -/
noncomputable def honeycombWeight (a : ℝ) (k : Vec 2 ℝ) : ℂ :=
  Complex.exp (Complex.I * ((a * k 0 : ℝ) : ℂ)) +
    ((2 * Real.cos (Real.sqrt 3 * a / 2 * k 1) : ℝ) : ℂ) *
      Complex.exp (Complex.I * ((-(a / 2) * k 0 : ℝ) : ℂ))

theorem conj_exp (t : ℝ) : conj (Complex.exp (Complex.I * (t : ℂ))) =
    Complex.exp (Complex.I * ((-t : ℝ) : ℂ)) := by
  rw [← Complex.exp_conj]
  congr 1
  simp

theorem honeycomb_weight {env : Env ℝ} {w : World 2 ℝ} (hr : Reachable env w) {a x : ℝ}
    (hv : w.struct.basis.vectors = (a / 2) • !![3, Real.sqrt 3; 3, -Real.sqrt 3])
    (hp : w.struct.positions = [![0, 0], ![a, 0]])
    (hN0 : NeighborsAre w 0 x {Idx.mk ![0, 0] 1, Idx.mk ![-1, 0] 1, Idx.mk ![0, -1] 1})
    (hN1 : NeighborsAre w 1 x {Idx.mk ![0, 0] 0, Idx.mk ![1, 0] 0, Idx.mk ![0, 1] 0}) :
    IsWeight w 0 0 (honeycombWeight a) ∧ IsWeight w 1 0 fun k => conj (honeycombWeight a k) := by
  have key : ∀ (k p0 : Vec 2 ℝ) (m n α : ℤ) (r : Vec 2 ℝ),
      w.struct.positions[α.toNat]? = some r →
      phase k (sitePoint w.struct (Idx.mk ![m, n] α)) p0 =
      Complex.exp (Complex.I * (((r 0 - p0 0) * k 0 + (r 1 - p0 1) * k 1 +
        ((m : ℝ) * (3 * a / 2 * k 0 + Real.sqrt 3 * a / 2 * k 1) +
        n * (3 * a / 2 * k 0 - Real.sqrt 3 * a / 2 * k 1)) : ℝ) : ℂ)) := by
    intro k p0 m n α r hα
    unfold phase sitePoint
    congr 3
    simp only [Idx.cell_mk, Idx.alpha_mk, hv, posOf_eq hα, Fin.sum_univ_two]
    simp
    ring
  have q0 : w.struct.positions[(0 : ℤ).toNat]? = some ![0, 0] := by rw [hp]; rfl
  have q1 : w.struct.positions[(1 : ℤ).toNat]? = some ![a, 0] := by rw [hp]; rfl
  have f0 := weight_of_are two_pos hr (L := [Idx.mk ![0, 0] 1, Idx.mk ![-1, 0] 1, Idx.mk ![0, -1] 1])
    (by simp [Idx.mk_inj]) (by simp) (by intro idx; simp) hN0 q0
  have f1 := weight_of_are two_pos hr (L := [Idx.mk ![0, 0] 0, Idx.mk ![1, 0] 0, Idx.mk ![0, 1] 0])
    (by simp [Idx.mk_inj]) (by simp) (by intro idx; simp) hN1 q1
  have e : ∀ x y : ℝ, ((2 * Real.cos y : ℝ) : ℂ) * Complex.exp (Complex.I * (x : ℂ)) =
      Complex.exp (Complex.I * ((x - y : ℝ) : ℂ)) + Complex.exp (Complex.I * ((x + y : ℝ) : ℂ)) := by
    intro x y
    rw [← two_cos, add_mul, ← Complex.exp_add, ← Complex.exp_add, add_comm]
    congr 1 <;> congr 1 <;> push_cast <;> ring
  constructor
  · intro k
    refine (f0 k).trans ?_
    congr 1
    dsimp only
    unfold honeycombWeight
    simp only [List.map_cons, List.map_nil, List.sum_cons, List.sum_nil, key _ _ _ _ _ _ q1]
    rw [e, add_zero]
    congr 1
    · congr 3
      simp [mul_comm]
    · congr 1
      · congr 3
        simp
        ring
      · congr 3
        simp
        ring
  · intro k
    refine (f1 k).trans ?_
    congr 1
    dsimp only
    unfold honeycombWeight
    simp only [List.map_cons, List.map_nil, List.sum_cons, List.sum_nil, key _ _ _ _ _ _ q0]
    rw [e, add_zero, map_add, map_add, conj_exp, conj_exp, conj_exp]
    congr 1
    · congr 3
      simp [mul_comm]
    · congr 1
      · congr 3
        simp
        ring
      · congr 3
        simp
        ring

/-- The weights of the honeycomb lattice; that of the second atom is the conjugate of that of the
first. -/
theorem C88_honeycomb_partial (env : Env ℝ) (s : Session) (a : ℝ) (ha : 1 / 10 ^ 5 ≤ |a|)
    (atom : AtomSpec) :
    ∃ w, honeycomb env s a atom = .ok w ∧ IsWeight w 0 0 (honeycombWeight a) ∧
      IsWeight w 1 0 fun k => conj (honeycombWeight a k) := by
  obtain ⟨w, at', hw, -, -, hp, hN0, hN1⟩ := C84_honeycomb_partial env s a ha atom
  obtain ⟨s', ops, hc⟩ := honeycomb_configure hw
  exact ⟨w, hw, honeycomb_weight (configure_reachable hc) (configure_vectors hc) hp hN0 hN1⟩

/-- The weights of graphene. -/
theorem C88_graphene_partial (env : Env ℝ) (s : Session) (a : ℝ) (ha : 1 / 10 ^ 5 ≤ |a|) :
    ∃ w, graphene env s a = .ok w ∧ IsWeight w 0 0 (honeycombWeight a) ∧
      IsWeight w 1 0 fun k => conj (honeycombWeight a k) := by
  obtain ⟨w, hw, -, hp, hN0, hN1⟩ := C84_graphene_partial env s a ha
  obtain ⟨s', ops, hc⟩ := graphene_configure hw
  exact ⟨w, hw, honeycomb_weight (configure_reachable hc) (configure_vectors hc) hp hN0 hN1⟩

/-- The hypotheses of the C88 theorems are met: the square lattice has the weight
`2 cos k_x + 2 cos k_y`, and it is 4 at the zone centre. -/
example (env : Env ℝ) (s : Session) : ∃ w : World 2 ℝ,
    configure env s (LatticeBasis.hypercubic 2 1) (oneAtom .none 1) = .ok w ∧ Reachable env w ∧
    (∃ l, w.struct.getNeighbors 0 0 0 = .ok l) ∧
    w.struct.fourierWeights (.flat [0, 0]) 0 0 = .ok 4 := by
  obtain ⟨w, hw, hf⟩ := C88_hypercubic_partial (d := 2) two_pos env s 1 (by norm_num) .none
  refine ⟨w, hw, configure_reachable hw, ?_, ?_⟩
  · cases hl : w.struct.getNeighbors 0 0 0 with
    | ok l => exact ⟨l, rfl⟩
    | error e =>
      have := (C88_errors two_pos (configure_reachable hw) 0 0).1 e hl (.flat (List.ofFn (0 : Vec 2 ℝ)))
      rw [hf 0] at this
      cases this
  · have := hf 0
    simp only [Pi.zero_apply] at this
    refine (Eq.trans ?_ this).trans ?_
    · rfl
    · simp
      norm_num

/-- The hypotheses on the sublattices are met: the neighbours of the chain are on the sublattice of
the atom, those of the first atom of the honeycomb lattice on the other one. -/
example (env : Env ℝ) (s : Session) :
    (∃ (w : World 1 ℝ) (l : List (Idx 1)) (f : Vec 1 ℝ → ℂ), Reachable env w ∧
      w.struct.positions = [0] ∧ w.struct.getNeighbors 0 0 0 = .ok l ∧ l ≠ [] ∧
      IsWeight w 0 0 f ∧ ∀ idx ∈ l, idx.alpha = (0 : ℕ)) ∧
    ∃ (w : World 2 ℝ) (l : List (Idx 2)) (f : Vec 2 ℝ → ℂ), Reachable env w ∧
      w.struct.positions = [![0, 0], ![1, 0]] ∧ w.struct.getNeighbors 0 0 0 = .ok l ∧ l ≠ [] ∧
      IsWeight w 0 0 f ∧ ∀ idx ∈ l, idx.alpha = (1 : ℕ) := by
  constructor
  · obtain ⟨w, hw, hp, hN⟩ := (C84_cubic_partial env s 1 (by norm_num) .none).1
    have hr := configure_reachable hw
    obtain ⟨l, hl, hperm⟩ := neighbors_of_are Nat.one_pos hr
      (L := [Idx.mk ![1] 0, Idx.mk ![-1] 0]) (by simp [Idx.mk_inj]) (by simp) (by intro idx; simp) hN
    obtain ⟨f, -, -, hf, -⟩ := C88_weight_partial Nat.one_pos hr 0 0 hl
    refine ⟨w, l, f, hr, hp, hl, ?_, hf, ?_⟩
    · rintro rfl
      simp at hperm
    · intro idx hidx
      have := hperm.mem_iff.1 hidx
      rcases (by simpa using this : idx = Idx.mk ![1] 0 ∨ idx = Idx.mk ![-1] 0) with rfl | rfl <;>
        simp
  · obtain ⟨w, at', hw, -, -, hp, hN0, -⟩ := C84_honeycomb_partial env s 1 (by norm_num) .none
    obtain ⟨s', ops, hc⟩ := honeycomb_configure hw
    have hr := configure_reachable hc
    obtain ⟨l, hl, hperm⟩ := neighbors_of_are two_pos hr
      (L := [Idx.mk ![0, 0] 1, Idx.mk ![-1, 0] 1, Idx.mk ![0, -1] 1]) (by simp [Idx.mk_inj])
      (by simp) (by intro idx; simp) hN0
    obtain ⟨f, -, -, hf, -⟩ := C88_weight_partial two_pos hr 0 0 hl
    refine ⟨w, l, f, hr, hp, hl, ?_, hf, ?_⟩
    · rintro rfl
      simp at hperm
    · intro idx hidx
      have := hperm.mem_iff.1 hidx
      rcases (by simpa using this : idx = Idx.mk ![0, 0] 1 ∨ idx = Idx.mk ![-1, 0] 1 ∨
        idx = Idx.mk ![0, -1] 1) with rfl | rfl | rfl <;> simp

/-- C88 fails for several wave vectors at once, although `k` is array-like and the result is declared
an array: `np.sum` adds up the whole array, so the answer for the two wave vectors `(0, 0)` and
`(π, π)` of the square lattice is the single number 0 instead of the two weights 4 and -4. -/
theorem C88_array_fails (env : Env ℝ) (s : Session) : ∃ w : World 2 ℝ,
    configure env s (LatticeBasis.hypercubic 2 1) (oneAtom .none 1) = .ok w ∧
    w.struct.fourierWeights (.flat [0, 0]) 0 0 = .ok 4 ∧
    w.struct.fourierWeights (.flat [Real.pi, Real.pi]) 0 0 = .ok (-4) ∧
    w.struct.fourierWeights (.rows [[0, 0], [Real.pi, Real.pi]]) 0 0 = .ok 0 := by
  obtain ⟨w, hw, hf⟩ := C88_hypercubic_partial (d := 2) two_pos env s 1 (by norm_num) .none
  have h0 : w.struct.fourierWeights (.flat [0, 0]) 0 0 = .ok 4 := by
    have := hf ![0, 0]
    simp only [List.ofFn_succ, List.ofFn_zero, Fin.sum_univ_two] at this
    refine this.trans ?_
    simp
    norm_num
  have h1 : w.struct.fourierWeights (.flat [Real.pi, Real.pi]) 0 0 = .ok (-4) := by
    have := hf ![Real.pi, Real.pi]
    simp only [List.ofFn_succ, List.ofFn_zero, Fin.sum_univ_two] at this
    refine this.trans ?_
    simp
    norm_num
  refine ⟨w, hw, h0, h1, ?_⟩
  have hr := configure_reachable hw
  cases hl : w.struct.getNeighbors 0 0 0 with
  | error e =>
    have := (C88_errors two_pos hr 0 0).1 e hl (.flat [0, 0])
    rw [h0] at this
    cases this
  | ok l =>
    have := C88_rows_partial two_pos hr hl hf [![0, 0], ![Real.pi, Real.pi]]
    refine Eq.trans ?_ (this.trans ?_)
    · simp [List.ofFn_succ]
    · simp

/-- For a number instead of a wave vector the answer is the sum of the weights of the wave vectors
with this number as one component and zeros elsewhere. -/
theorem C88_scalar_partial (hd : 0 < d) {env : Env ℝ} {w : World d ℝ} (h : Reachable env w) {α j : ℤ}
    {l : List (Idx d)} (hl : w.struct.getNeighbors 0 α j = .ok l) {f : Vec d ℝ → ℂ}
    (hf : IsWeight w α j f) (x : ℝ) :
    w.struct.fourierWeights (.scalar x) α j = .ok (∑ i, f (Pi.single i x)) := by
  obtain ⟨ps, p0, -, -, h3⟩ := vectors_explicit hd h α j hl
  have e : ∀ k, f k = ((ps.map fun p => p - p0).map fun v =>
      Complex.exp (Complex.I * ((k ⬝ᵥ v : ℝ) : ℂ))).sum := by
    intro k
    have := (hf k).symm.trans (fourier_flat h3 k)
    simpa using this
  unfold fourierWeights
  rw [h3]
  dsimp only
  unfold npInner
  dsimp only
  congr 1
  simp only [e, single_dotProduct]
  generalize ps.map (fun p => p - p0) = vs
  induction vs with
  | nil => simp
  | cons v vs ih =>
    rw [List.flatMap_cons, List.map_append, List.sum_append, ih]
    simp only [List.map_cons, List.sum_cons, Finset.sum_add_distrib]
    rw [List.map_map, ← Fin.sum_univ_def]
    rfl

/-- In one dimension a number is the wave vector. -/
example {env : Env ℝ} {w : World 1 ℝ} (h : Reachable env w) {l : List (Idx 1)}
    (hl : w.struct.getNeighbors 0 0 0 = .ok l) {f : Vec 1 ℝ → ℂ} (hf : IsWeight w 0 0 f) (x : ℝ) :
    w.struct.fourierWeights (.scalar x) 0 0 = .ok (f fun _ => x) := by
  rw [C88_scalar_partial Nat.one_pos h hl hf]
  congr 1
  rw [Fin.sum_univ_one]
  congr 1
  ext i
  rw [Subsingleton.elim i 0, Pi.single_eq_same]

/-- C88 fails for a number as wave vector in more than one dimension: `np.inner` multiplies every
component, so the answer for `k = 0` on the square lattice is 8, twice the number of neighbours,
instead of a `ValueError` or the weight 4. -/
theorem C88_scalar_fails (env : Env ℝ) (s : Session) : ∃ (w : World 2 ℝ) (l : List (Idx 2)),
    configure env s (LatticeBasis.hypercubic 2 1) (oneAtom .none 1) = .ok w ∧
    w.struct.getNeighbors 0 0 0 = .ok l ∧ l.length = 4 ∧
    w.struct.fourierWeights (.scalar 0) 0 0 = .ok 8 := by
  obtain ⟨w, hw, hf⟩ := C88_hypercubic_partial (d := 2) two_pos env s 1 (by norm_num) .none
  have hr := configure_reachable hw
  have h0 := hf 0
  cases hl : w.struct.getNeighbors 0 0 0 with
  | error e =>
    have := (C88_errors two_pos hr 0 0).1 e hl (.flat (List.ofFn (0 : Vec 2 ℝ)))
    rw [h0] at this
    cases this
  | ok l =>
    refine ⟨w, l, hw, hl, ?_, ?_⟩
    · obtain ⟨g, -, -, hg, -, -, -, h1, -⟩ := C88_weight_partial two_pos hr 0 0 hl
      have := (hf 0).symm.trans (hg 0)
      simp only [Except.ok.injEq] at this
      rw [h1] at this
      simp at this
      norm_num at this
      exact_mod_cast this.symm
    · rw [C88_scalar_partial two_pos hr hl hf]
      congr 1
      simp
      norm_num

end Lattpy
