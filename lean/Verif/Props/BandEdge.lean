import Verif.Props.Connected
import Verif.Props.Bandwidth

/-!
# The ends of the spectrum (C132)

On a connected lattice where every site has `z` neighbours, the energy `eps + z * t` at the end of the
spectrum belongs to the constant vector only.
-/

set_option autoImplicit false
set_option linter.unusedSectionVars false

namespace Lattpy

open Structure World Preset LatticeData DataMap Lattpy.Lattice

variable {d : ℕ}

/-! ## Lemmas -/

/-- A function whose value at every site is the average over the neighbours is constant. -/
theorem harmonic_const {N : ℕ} {nb : ℕ → List ℕ} (hnb : ∀ i < N, ∀ j ∈ nb i, j < N)
    (hc : ∀ i < N, ∀ j < N, Relation.ReflTransGen (fun i j => i < N ∧ j ∈ nb i) i j) {f : ℕ → ℝ}
    (hf : ∀ i < N, ∑ j ∈ Finset.range N, ((nb i).count j : ℝ) * f j = (nb i).length * f i) :
    ∀ i < N, ∀ j < N, f i = f j := by
  intro i0 hi0
  obtain ⟨k, hk, hmax⟩ := Finset.exists_max_image (Finset.range N) f ⟨i0, Finset.mem_range.2 hi0⟩
  have hkN := Finset.mem_range.1 hk
  have step : ∀ i < N, f i = f k → ∀ j ∈ nb i, f j = f k := by
    intro i hi e j hj
    have hz : ∑ j ∈ Finset.range N, ((nb i).count j : ℝ) * (f k - f j) = 0 := by
      simp only [mul_sub, Finset.sum_sub_distrib]
      rw [hf i hi, ← Finset.sum_mul, ← Nat.cast_sum, sum_count_eq (hnb i hi), e, sub_self]
    have h0 := (Finset.sum_eq_zero_iff_of_nonneg (fun j hj => mul_nonneg (Nat.cast_nonneg _)
      (sub_nonneg.2 (hmax j hj)))).1 hz j (Finset.mem_range.2 (hnb i hi j hj))
    rcases mul_eq_zero.1 h0 with h | h
    · have := List.count_pos_iff.2 hj
      have h' : (nb i).count j = 0 := by exact_mod_cast h
      omega
    · exact (sub_eq_zero.1 h).symm
  have all : ∀ j < N, f j = f k := by
    intro j hj
    induction hc k hkN j hj with
    | refl => rfl
    | @tail b c _ hbc ih => exact step b hbc.1 (ih hbc.1) c hbc.2
  intro j hj
  rw [all i0 hi0, all j hj]

theorem edge_unique {N z : ℕ} {H : ℕ → ℕ → ℂ} {eps t σ : ℂ} {φ : ℕ → ℂ} (ht : t ≠ 0) (hσ : σ ≠ 0)
    (hφ : ∀ i, φ i ≠ 0) {nb : ℕ → List ℕ} (h : ∀ i < N, RowOf N H eps t i (nb i) ∧
      (nb i).length = z ∧ ∀ j ∈ nb i, φ j = σ * φ i)
    (hc : ∀ i < N, ∀ j < N, Relation.ReflTransGen (fun i j => i < N ∧ j ∈ nb i) i j) {ψ : ℕ → ℂ}
    (hE : Eigenpair N H (eps + z * (σ * t)) ψ) : ∃ c, c ≠ 0 ∧ ∀ i < N, ψ i = c * φ i := by
  obtain ⟨⟨i0, hi0, hne⟩, hE⟩ := hE
  have avg : ∀ i < N, ∑ j ∈ Finset.range N, ((nb i).count j : ℂ) * (ψ j / φ j) =
      (nb i).length * (ψ i / φ i) := by
    intro i hi
    obtain ⟨hr, hz, hp⟩ := h i hi
    have e := hE i hi
    rw [hr.sum hi, add_mul, add_right_inj] at e
    have : ∀ j ∈ Finset.range N, ((nb i).count j : ℂ) * (ψ j / φ j) =
        (σ * φ i * t)⁻¹ * ((nb i).count j * (t * ψ j)) := by
      intro j _
      by_cases hj : j ∈ nb i
      · rw [hp j hj]
        have := hφ i
        field_simp
      · simp [List.count_eq_zero_of_not_mem hj]
    rw [Finset.sum_congr rfl this, ← Finset.mul_sum, e, hz]
    have := hφ i
    field_simp
  have cre := harmonic_const (fun i hi => (h i hi).1.1) hc (f := fun i => (ψ i / φ i).re) fun i hi => by
    have := congrArg Complex.re (avg i hi)
    simpa [Complex.re_sum] using this
  have cim := harmonic_const (fun i hi => (h i hi).1.1) hc (f := fun i => (ψ i / φ i).im) fun i hi => by
    have := congrArg Complex.im (avg i hi)
    simpa [Complex.im_sum] using this
  refine ⟨ψ i0 / φ i0, div_ne_zero hne (hφ i0), fun i hi => ?_⟩
  have : ψ i0 / φ i0 = ψ i / φ i := Complex.ext (cre i0 hi0 i hi) (cim i0 hi0 i hi)
  rw [this, div_mul_cancel₀ _ (hφ i)]

theorem Hops.path {L : Lattice d ℝ} {N : ℕ} {nb : ℕ → List ℕ}
    (hnb : ∀ i < N, L.neighbors i none false = .ok (nb i)) (hin : ∀ i < N, ∀ j ∈ nb i, j < N)
    {n i j : ℕ} (h : Hops L n i j) (hi : i < N) :
    Relation.ReflTransGen (fun i j => i < N ∧ j ∈ nb i) i j := by
  induction h with
  | refl i => exact .refl
  | @hop n i i' j l hl hi' _ ih =>
    cases hl.symm.trans (hnb i hi)
    exact .head ⟨hi, hi'⟩ (ih (hin i hi i' hi'))

/-! ## The lattices -/

/-- The rows of the matrix of a periodic lattice with one onsite value, and the walks on it. -/
theorem torus_rows (hd : 0 < d) {env : Env ℝ} {w : World d ℝ} {L : Lattice d ℝ}
    (hr : Reachable env w) {r : ℝ} {N : ℕ → Set (Idx d)} (h : NearestOnly w r N)
    (hst : NearSteps N) (hj : CellsJoined w.struct.numBase N) {a : BuildArgs d ℝ}
    (hm : a.minNeighbors = none) (hp : a.periodic = none) (hb : a.bits = none)
    (hok : (Lattice.ofWorld w).build env a = (L, .ok ()))
    (hprim : a.primitive = true ∨ Orthogonal w.struct.basis) {D : LatticeData d ℝ}
    (hD : L.data = some D) {lo : Fin d → ℤ} {size : Fin d → ℕ} (hw : WholeCells w.struct D lo size)
    {axes : List ℕ} (hax : ∀ k ∈ axes, k < d) (h3 : ∀ k : Fin d, k.val ∈ axes → 3 ≤ size k)
    (h128 : w.struct.numBase ≤ 128) {assigns : List (Mask × ℂ)} (hdoc : Documented assigns)
    {eps t : ℂ} (heps : ∀ α < w.struct.numBase, lastValue (ForSite α) assigns = eps)
    (ht : lastValue (ForLink 0) assigns = t) :
    ∃ (L' : Lattice d ℝ) (m : DataMap) (data : List ℂ) (nb : ℕ → List ℕ),
      L.setPeriodic env (.axes axes) = (L', .ok ()) ∧
      (L'.dmap env.argsortNat).2 = .ok m ∧ m.fill assigns = .ok data ∧ 0 < D.numSites ∧
      (∀ i < D.numSites, L'.neighbors i none false = .ok (nb i) ∧
        RowOf D.numSites (m.csrEntry data) eps t i (nb i)) ∧
      ∀ i < D.numSites, ∀ j < D.numSites,
        Relation.ReflTransGen (fun i j => i < D.numSites ∧ j ∈ nb i) i j := by
  have hr' : Reachable env (Lattice.ofWorld w).world := hr
  obtain ⟨L', h1, E, hE, hpos, hcon⟩ := C131_torus_partial (L := Lattice.ofWorld w) hd hr' h hst hj hm hp
    hb hok hprim hD hw hax h3
  obtain ⟨L2, h1', ⟨E', hE', hEi, hEp, hn, -⟩, -⟩ := C111_torus_partial (L := Lattice.ofWorld w) hd hr' h
    hst hm hp hb hok hprim hD hw hax h3
  cases h1.symm.trans h1'
  cases hE.symm.trans hE'
  have hnum : E.numSites = D.numSites := by unfold LatticeData.numSites; rw [hEi]
  rw [hnum] at hpos hcon
  obtain ⟨D', hD', hs, -⟩ := C59_nearest_only_partial (L := Lattice.ofWorld w) hd hr' h hm hp hb hok
  cases hD.symm.trans hD'
  obtain ⟨m, data, k1, k2, -, -, k3⟩ := torus_matrix hd hr h hst hm hp hb hok hD hw h1 h128 hdoc
  choose! nb hnb using hn
  have row : ∀ i < D.numSites, L'.neighbors i none false = .ok (nb i) ∧
      RowOf D.numSites (m.csrEntry data) eps t i (nb i) := by
    intro i hi
    have hx := List.getElem?_eq_getElem (l := D.indices) hi
    refine ⟨(hnb i hi).1, fun j hjm => ?_, fun j => ?_⟩
    · obtain ⟨_, -, p, q, -, hq, -⟩ := ((hnb i hi).2.2 j).1 hjm
      exact lt_of_lt_of_eq (List.getElem?_eq_some_iff.1 hq).1 hs.length_eq.symm
    · have hα := ((hw _).1 (List.mem_of_getElem? hx)).1
      rw [k3 i j _ _ hx (hnb i hi).1, ht, heps _ (by omega)]
  refine ⟨L', m, data, nb, h1, k1, k2, hpos, row, fun i hi j hj' => ?_⟩
  obtain ⟨n, hn⟩ := hcon i hi j hj'
  exact hn.path (fun i hi => (hnb i hi).1) (fun i hi => (row i hi).2.1) hi

theorem edge_iff {N z : ℕ} {H : ℕ → ℕ → ℂ} {eps t σ : ℂ} {φ : ℕ → ℂ} (hN : 0 < N) (ht : t ≠ 0)
    (hσ : σ ≠ 0) (hφ : ∀ i, φ i ≠ 0) {nb : ℕ → List ℕ} (h : ∀ i < N, RowOf N H eps t i (nb i) ∧
      (nb i).length = z ∧ ∀ j ∈ nb i, φ j = σ * φ i)
    (hc : ∀ i < N, ∀ j < N, Relation.ReflTransGen (fun i j => i < N ∧ j ∈ nb i) i j) (ψ : ℕ → ℂ) :
    Eigenpair N H (eps + z * (σ * t)) ψ ↔ ∃ c, c ≠ 0 ∧ ∀ i < N, ψ i = c * φ i := by
  refine ⟨edge_unique ht hσ hφ h hc, ?_⟩
  rintro ⟨c, hc0, hc⟩
  have e := edge_of_rows (z := z) hN hφ fun i hi => ⟨nb i, h i hi⟩
  refine ⟨⟨0, hN, by rw [hc 0 hN]; exact mul_ne_zero hc0 (hφ 0)⟩, fun i hi => ?_⟩
  rw [hc i hi, Finset.sum_congr rfl fun j hj => by
    rw [hc j (Finset.mem_range.1 hj), mul_left_comm], ← Finset.mul_sum, e.2 i hi]
  ring

/-- C132: on a lattice of whole cells with periodic boundaries, where all atoms have the same onsite value
and every site has `z` neighbours, the energy `eps + z * t` belongs to the constant vectors and to no
others.  If the sites have two colours such that neighbours have different ones, the energy
`eps - z * t` belongs to the vectors with opposite values on the two colours and to no others. -/
theorem C132_edge_partial (hd : 0 < d) {env : Env ℝ} {w : World d ℝ} {L : Lattice d ℝ}
    (hr : Reachable env w) {r : ℝ} {N : ℕ → Set (Idx d)} (h : NearestOnly w r N)
    (hst : NearSteps N) (hj : CellsJoined w.struct.numBase N) {a : BuildArgs d ℝ}
    (hm : a.minNeighbors = none) (hp : a.periodic = none) (hb : a.bits = none)
    (hok : (Lattice.ofWorld w).build env a = (L, .ok ()))
    (hprim : a.primitive = true ∨ Orthogonal w.struct.basis) {D : LatticeData d ℝ}
    (hD : L.data = some D) {lo : Fin d → ℤ} {size : Fin d → ℕ} (hw : WholeCells w.struct D lo size)
    {axes : List ℕ} (hax : ∀ k ∈ axes, k < d) (h3 : ∀ k : Fin d, k.val ∈ axes → 3 ≤ size k)
    (h128 : w.struct.numBase ≤ 128) {assigns : List (Mask × ℂ)} (hdoc : Documented assigns)
    {eps t : ℂ} (heps : ∀ α < w.struct.numBase, lastValue (ForSite α) assigns = eps)
    (ht : lastValue (ForLink 0) assigns = t) (ht0 : t ≠ 0) (z : ℕ) :
    ∃ L' m data, L.setPeriodic env (.axes axes) = (L', .ok ()) ∧
      (L'.dmap env.argsortNat).2 = .ok m ∧ m.fill assigns = .ok data ∧
      ((∀ i < D.numSites, ∀ l, L'.neighbors i none false = .ok l → l.length = z) →
        (∀ ψ, Eigenpair D.numSites (m.csrEntry data) (eps + z * t) ψ ↔
          ∃ c, c ≠ 0 ∧ ∀ i < D.numSites, ψ i = c) ∧
        ∀ col : ℕ → Bool, (∀ i < D.numSites, ∀ l, L'.neighbors i none false = .ok l →
            ∀ j ∈ l, col j ≠ col i) →
          ∀ ψ, Eigenpair D.numSites (m.csrEntry data) (eps - z * t) ψ ↔
            ∃ c, c ≠ 0 ∧ ∀ i < D.numSites, ψ i = if col i then c else -c) := by
  obtain ⟨L', m, data, nb, h1, k1, k2, hpos, row, hcon⟩ := torus_rows hd hr h hst hj hm hp hb hok hprim hD
    hw hax h3 h128 hdoc heps ht
  refine ⟨L', m, data, h1, k1, k2, fun hz => ⟨fun ψ => ?_, fun col hcol ψ => ?_⟩⟩
  · have := edge_iff (z := z) (σ := 1) (φ := fun _ => 1) hpos ht0 one_ne_zero (fun _ => one_ne_zero)
      (fun i hi => ⟨(row i hi).2, hz i hi _ (row i hi).1, fun _ _ => (one_mul _).symm⟩) hcon ψ
    simpa only [one_mul, mul_one] using this
  · have := edge_iff (z := z) (σ := -1) (φ := fun i => colourSign (col i)) hpos ht0
      (neg_ne_zero.2 one_ne_zero) (fun i => by unfold colourSign; split <;> norm_num)
      (fun i hi => ⟨(row i hi).2, hz i hi _ (row i hi).1, fun j hj' => by
        rw [neg_one_mul]
        exact colourSign_ne (hcol i hi _ (row i hi).1 j hj')⟩) hcon ψ
    have e : eps - z * t = eps + (z : ℂ) * (-1 * t) := by ring
    rw [e, this]
    refine exists_congr fun c => and_congr_right fun _ => forall₂_congr fun i _ => ?_
    unfold colourSign
    cases col i <;> simp

/-- C132 for graphene with periodic boundaries. -/
theorem C132_graphene_partial (env : Env ℝ) (s : Session) (a : ℝ) (ha : 1 ≤ a)
    {size : Fin 2 → ℕ} {σ : Vec 2 ℝ} (isInt : Bool) (hm : ∀ k, 3 ≤ size k)
    (hσ : ∀ k, (size k : ℝ) - 2 / 3 ≤ σ k ∧ σ k < size k - 1 / 1000 ∧
      3 * σ k ≤ 2 * (a * (σ 0 + σ 1)))
    {assigns : List (Mask × ℂ)} (hdoc : Documented assigns) {eps t : ℂ}
    (h0 : lastValue (ForSite 0) assigns = eps) (h1 : lastValue (ForSite 1) assigns = eps)
    (ht : lastValue (ForLink 0) assigns = t) (ht0 : t ≠ 0) :
    ∃ w L D L' m data, graphene env s a = .ok w ∧
      (Lattice.ofWorld w).build env (primitiveBox σ isInt) = (L, .ok ()) ∧ L.data = some D ∧
      L.setPeriodic env (.axes [0, 1]) = (L', .ok ()) ∧ (L'.dmap env.argsortNat).2 = .ok m ∧
      m.fill assigns = .ok data ∧
      (∀ ψ, Eigenpair D.numSites (m.csrEntry data) (eps + 3 * t) ψ ↔
        ∃ c, c ≠ 0 ∧ ∀ i < D.numSites, ψ i = c) ∧
      ∀ ψ, Eigenpair D.numSites (m.csrEntry data) (eps - 3 * t) ψ ↔
        ∃ c, c ≠ 0 ∧ ∀ (i : ℕ) (x : Idx 2), D.indices[i]? = some x →
          ψ i = if x.alpha = 0 then c else -c := by
  obtain ⟨-, w, L, D, L', g1, g2, g3, hw, g4, ⟨E', hE', hEi, -⟩, E, hE, hN, hz⟩ :=
    C111_honeycomb_partial env s a ha .none size σ isInt hm hσ
  cases hE.symm.trans hE'
  obtain ⟨w', g1', hr, hNO, -, hb, -⟩ := graphene_block env s a ha
  cases g1.symm.trans g1'
  obtain ⟨L2, m, data, k1, k2, k3, k4⟩ := C132_edge_partial two_pos hr hNO
    (nearSteps_planar le_rfl honeySets_steps) (by rw [hb]; exact honeySets_joined) rfl rfl rfl g2
    (Or.inl rfl) g3 hw (axes := [0, 1]) (by simp) (fun k _ => hm k) (by rw [hb]; norm_num) hdoc
    (eps := eps) (by
      rw [hb]
      intro α hα
      interval_cases α
      · exact h0
      · exact h1) ht ht0 3
  cases g4.symm.trans k1
  have hn : E'.numSites = D.numSites := by unfold LatticeData.numSites; rw [hEi]
  obtain ⟨k5, k6⟩ := k4 fun i hi l hl => by
    obtain ⟨l', e1, -, e3⟩ := hz i (by rw [hn]; exact hi)
    cases hl.symm.trans e1
    exact e3
  obtain ⟨c0, hc0⟩ : ∃ c, ColourOf D atomColour c :=
    ⟨fun i => (D.indices[i]?.map atomColour).getD true, fun i a ha => by simp [ha]⟩
  obtain ⟨L2, q1, q2⟩ := C127_torus_partial (L := Lattice.ofWorld w) two_pos hr hNO
    (nearSteps_planar le_rfl honeySets_steps) (honey_colouring w) rfl rfl rfl g2 (Or.inl rfl) g3 hw
    (axes := [0, 1]) (by simp) (fun k _ => hm k) (fun t _ x => by unfold atomColour; rw [Idx.alpha_mk])
  cases g4.symm.trans q1
  obtain ⟨E2, hE2, hcol⟩ := q2 c0 hc0
  cases hE.symm.trans hE2
  refine ⟨w, L, D, L', m, data, g1, g2, g3, g4, k2, k3, fun ψ => by simpa using k5 ψ, fun ψ => ?_⟩
  have := k6 c0 (fun i hi l hl j hjl => by
    obtain ⟨l', e1, e4⟩ := hcol i (by rw [hn]; exact hi)
    cases hl.symm.trans e1
    exact (e4 j hjl).2) ψ
  rw [Nat.cast_ofNat] at this
  rw [this]
  refine exists_congr fun c => and_congr_right fun _ => ⟨fun e i x hx => ?_, fun e i hi => ?_⟩
  · rw [e i (List.getElem?_eq_some_iff.1 hx).1, hc0 i x hx]
    simp [atomColour]
  · have hx := List.getElem?_eq_getElem (l := D.indices) hi
    rw [e i _ hx, hc0 i _ hx]
    simp [atomColour]

/-- Graphene with 10 × 18 cells and the hopping 27/10: the energy 81/10 belongs to the constant vectors. -/
example (env : Env ℝ) (s : Session) : ∃ w L D L' m data, graphene env s 1 = .ok w ∧
    (Lattice.ofWorld w).build env (primitiveBox ![19 / 2, 35 / 2] false) = (L, .ok ()) ∧
    L.data = some D ∧ L.setPeriodic env (.axes [0, 1]) = (L', .ok ()) ∧
    (L'.dmap env.argsortNat).2 = .ok m ∧ m.fill [(.hopping (some 0), (27 / 10 : ℂ))] = .ok data ∧
    ∀ ψ, Eigenpair D.numSites (m.csrEntry data) (81 / 10) ψ ↔
      ∃ c, c ≠ 0 ∧ ∀ i < D.numSites, ψ i = c := by
  obtain ⟨w, L, D, L', m, data, h1, h2, h3, h4, h5, h6, h7, -⟩ := C132_graphene_partial env s 1
    le_rfl (size := ![10, 18]) (σ := ![19 / 2, 35 / 2]) false (by intro k; fin_cases k <;> simp)
    (by intro k; fin_cases k <;> norm_num) (assigns := [(.hopping (some 0), (27 / 10 : ℂ))])
    (by
      intro p hp
      rw [List.mem_singleton] at hp
      subst hp
      exact ⟨nofun, fun a ha => by cases ha; rfl⟩) (eps := 0) (t := 27 / 10)
    (by simp [lastValue, ForSite]) (by simp [lastValue, ForSite]) (by simp [lastValue, ForLink])
    (by norm_num)
  refine ⟨w, L, D, L', m, data, h1, h2, h3, h4, h5, h6, fun ψ => ?_⟩
  have := h7 ψ
  rwa [show (0 + 3 * (27 / 10) : ℂ) = 81 / 10 by norm_num] at this

theorem hexSet_joined : CellsJoined 1 fun _ => ({Idx.mk ![1, 0] 0, Idx.mk ![-1, 0] 0, Idx.mk ![0, 1] 0,
    Idx.mk ![0, -1] 0, Idx.mk ![1, -1] 0, Idx.mk ![-1, 1] 0} : Set (Idx 2)) := by
  constructor
  · intro α hα β hβ
    obtain rfl : α = β := by omega
    exact .refl
  · intro k
    refine ⟨0, by norm_num, 0, by norm_num, ?_⟩
    fin_cases k
    · rw [show (Pi.single (⟨0, by norm_num⟩ : Fin 2) 1 : Fin 2 → ℤ) = ![1, 0] by decide]
      simp
    · rw [show (Pi.single (⟨1, by norm_num⟩ : Fin 2) 1 : Fin 2 → ℤ) = ![0, 1] by decide]
      simp

/-- C131 and C132 for the hexagonal lattice: sheets of whole cells are connected, open and with every choice
of periodic axes, and on the torus the energy `eps + 6 * t` belongs to the constant vectors only. -/
theorem C132_hexagonal_partial (env : Env ℝ) (s : Session) (a : ℝ) (ha : 1 ≤ a) (atom : AtomSpec)
    {size : Fin 2 → ℕ} {σ : Vec 2 ℝ} (isInt : Bool) (hm : ∀ k, 3 ≤ size k)
    (hσ : ∀ k, (size k : ℝ) - 1 ≤ σ k ∧ σ k < size k - 1 / 1000 ∧ 3 * σ k ≤ 2 * (a * (σ 0 + σ 1)))
    {assigns : List (Mask × ℂ)} (hdoc : Documented assigns) {eps t : ℂ}
    (h0 : lastValue (ForSite 0) assigns = eps) (ht : lastValue (ForLink 0) assigns = t) (ht0 : t ≠ 0) :
    ∃ w L D L' m data, simpleHexagonal env s a atom 1 = .ok w ∧
      (Lattice.ofWorld w).build env (primitiveBox σ isInt) = (L, .ok ()) ∧ L.data = some D ∧
      IsConnected L ∧ (∀ axes : List ℕ, (∀ k ∈ axes, k < 2) →
        ∃ M, L.setPeriodic env (.axes axes) = (M, .ok ()) ∧ IsConnected M) ∧
      L.setPeriodic env (.axes [0, 1]) = (L', .ok ()) ∧ (L'.dmap env.argsortNat).2 = .ok m ∧
      m.fill assigns = .ok data ∧ ∀ ψ, Eigenpair D.numSites (m.csrEntry data) (eps + 6 * t) ψ ↔
        ∃ c, c ≠ 0 ∧ ∀ i < D.numSites, ψ i = c := by
  obtain ⟨w, L, D, L', g1, g2, g3, hw, g4, ⟨E', hE', hEi, -⟩, E, hE, hN, hz⟩ :=
    C111_hexagonal_partial env s a ha atom size σ isInt hm hσ
  cases hE.symm.trans hE'
  have ha0 : 0 < a := by linarith
  obtain ⟨w', g1', h2, h3⟩ := C84_hexagonal_partial env s a (by rw [abs_of_pos ha0]; linarith) atom
  cases g1.symm.trans g1'
  have hr := configure_reachable g1
  have hNO := hex_only (by rw [abs_of_pos ha0]; linarith) hr (configure_vectors g1) h2 h3
  have hb : w.struct.numBase = 1 := by rw [← (hr.good two_pos).positions_length, h2]; rfl
  have hst := nearSteps_planar le_rfl fun _ => hexSet_steps
  have hj : CellsJoined w.struct.numBase fun _ => ({Idx.mk ![1, 0] 0, Idx.mk ![-1, 0] 0,
      Idx.mk ![0, 1] 0, Idx.mk ![0, -1] 0, Idx.mk ![1, -1] 0, Idx.mk ![-1, 1] 0} : Set (Idx 2)) := by
    rw [hb]
    exact hexSet_joined
  obtain ⟨L2, m, data, k1, k2, k3, k4⟩ := C132_edge_partial two_pos hr hNO hst hj rfl rfl rfl g2
    (Or.inl rfl) g3 hw (axes := [0, 1]) (by simp) (fun k _ => hm k) (by rw [hb]; norm_num) hdoc
    (eps := eps) (by
      rw [hb]
      intro α hα
      interval_cases α
      exact h0) ht ht0 6
  cases g4.symm.trans k1
  have hn : E'.numSites = D.numSites := by unfold LatticeData.numSites; rw [hEi]
  obtain ⟨k5, -⟩ := k4 fun i hi l hl => by
    obtain ⟨l', e1, -, e3⟩ := hz i (by rw [hn]; exact hi)
    cases hl.symm.trans e1
    exact e3
  exact ⟨w, L, D, L', m, data, g1, g2, g3,
    C131_block_partial (L := Lattice.ofWorld w) two_pos hr hNO hj rfl rfl rfl g2 g3 hw,
    fun axes hax => C131_torus_partial (L := Lattice.ofWorld w) two_pos hr hNO hst hj rfl rfl rfl g2
      (Or.inl rfl) g3 hw hax fun k _ => hm k, g4, k2, k3, fun ψ => by simpa using k5 ψ⟩

/-- The hexagonal lattice with 10 × 18 cells. -/
example (env : Env ℝ) (s : Session) : ∃ w L D L' m data, simpleHexagonal env s 1 .none 1 = .ok w ∧
    (Lattice.ofWorld w).build env (primitiveBox ![9, 17] true) = (L, .ok ()) ∧
    L.data = some D ∧ IsConnected L ∧ L.setPeriodic env (.axes [0, 1]) = (L', .ok ()) ∧
    (L'.dmap env.argsortNat).2 = .ok m ∧ m.fill [(.hopping (some 0), (1 : ℂ))] = .ok data ∧
    ∀ ψ, Eigenpair D.numSites (m.csrEntry data) 6 ψ ↔ ∃ c, c ≠ 0 ∧ ∀ i < D.numSites, ψ i = c := by
  obtain ⟨w, L, D, L', m, data, h1, h2, h3, hc, -, h4, h5, h6, h7⟩ := C132_hexagonal_partial env s 1
    le_rfl .none (size := ![10, 18]) (σ := ![9, 17]) true (by intro k; fin_cases k <;> simp)
    (by intro k; fin_cases k <;> norm_num) (assigns := [(.hopping (some 0), (1 : ℂ))])
    (by
      intro p hp
      rw [List.mem_singleton] at hp
      subst hp
      exact ⟨nofun, fun a ha => by cases ha; rfl⟩) (eps := 0) (t := 1)
    (by simp [lastValue, ForSite]) (by simp [lastValue, ForLink]) one_ne_zero
  refine ⟨w, L, D, L', m, data, h1, h2, h3, hc, h4, h5, h6, fun ψ => ?_⟩
  have := h7 ψ
  rwa [zero_add, mul_one] at this

end Lattpy
