import Verif.Props.Sublattices

/-!
# The width of the spectrum (C129)

The energies of a lattice lie within the sum of the hoppings of a site around its onsite value: with the
hopping `t` to at most `z` nearest neighbours all energies lie within `z * |t|` around the onsite value.
If every site has `z` neighbours (periodic lattices), the constant vector has the energy `eps + z * t`.
-/

set_option autoImplicit false
set_option linter.unusedSectionVars false

namespace Lattpy

open Structure World Preset LatticeData DataMap

variable {d : ℕ}

/-! ## Specification -/

/-- `ψ` is an eigenvector of the matrix with the entries `H i j` on `N` sites, with the energy `E`. -/
def Eigenpair (N : ℕ) (H : ℕ → ℕ → ℂ) (E : ℂ) (ψ : ℕ → ℂ) : Prop :=
  (∃ i < N, ψ i ≠ 0) ∧ ∀ i < N, ∑ j ∈ Finset.range N, H i j * ψ j = E * ψ i

/-! ## Sums over lists of neighbours -/

theorem sum_count_le (l : List ℕ) (N : ℕ) : ∑ j ∈ Finset.range N, l.count j ≤ l.length := by
  induction l with
  | nil => simp
  | cons a l ih =>
    have : ∀ j, (a :: l).count j = l.count j + if j = a then 1 else 0 := by
      intro j
      rw [List.count_cons]
      by_cases h : a = j
      · simp [h]
      · simp [h, Ne.symm h]
    simp only [this, Finset.sum_add_distrib, List.length_cons, Finset.sum_ite_eq']
    split <;> omega

theorem sum_count_eq {l : List ℕ} {N : ℕ} (h : ∀ j ∈ l, j < N) :
    ∑ j ∈ Finset.range N, l.count j = l.length := by
  induction l with
  | nil => simp
  | cons a l ih =>
    have : ∀ j, (a :: l).count j = l.count j + if j = a then 1 else 0 := by
      intro j
      rw [List.count_cons]
      by_cases h : a = j
      · simp [h]
      · simp [h, Ne.symm h]
    have e := ih fun j hj => h j (List.mem_cons_of_mem _ hj)
    simp only [this, Finset.sum_add_distrib, List.length_cons, Finset.sum_ite_eq', e]
    rw [if_pos (Finset.mem_range.2 (h a List.mem_cons_self))]

/-! ## The energies -/

/-- C129, for every history of calls and all values: every energy lies around the onsite value of some
site, at most as far away as the sum of the magnitudes of the hoppings to the neighbours of this site. -/
theorem C129_band_partial (hd : 0 < d) {env : Env ℝ} {w : World d ℝ} (hw : Reachable env w)
    (ops : List (Lattice.Op d ℝ)) {L : Lattice d ℝ}
    (hL : Lattice.run env (Lattice.ofWorld w) ops = L) {D : LatticeData d ℝ} (hD : L.data = some D)
    (h256 : D.distvals.length ≤ 256) (htop : ⊤ ∈ D.distvals)
    (h128 : ∀ x ∈ D.indices, Idx.alpha x < 128) {assigns : List (Mask × ℂ)}
    (hdoc : Documented assigns) :
    ∃ m data, (L.dmap env.argsortNat).2 = .ok m ∧ m.fill assigns = .ok data ∧
      ∀ E ψ, Eigenpair D.numSites (m.csrEntry data) E ψ →
        ∃ (i : ℕ) (x : Idx d) (l : ℕ → List ℕ), D.indices[i]? = some x ∧
          (∀ n, L.neighbors i (some n) false = .ok (l n)) ∧
          ‖E - lastValue (ForSite x.alpha.toNat) assigns‖ ≤
            ∑ n ∈ Finset.range D.invalidDistidx, (l n).length * ‖lastValue (ForLink n) assigns‖ := by
  obtain ⟨m, data, g1, g2, -, -, g4⟩ := C110_history_partial hd hw ops hL hD h256 htop h128 hdoc
  refine ⟨m, data, g1, g2, fun E ψ ⟨⟨i0, hi0, hne⟩, hE⟩ => ?_⟩
  obtain ⟨i, hi, hmax⟩ := Finset.exists_max_image (Finset.range D.numSites) (fun j => ‖ψ j‖)
    ⟨i0, Finset.mem_range.2 hi0⟩
  have hiN := Finset.mem_range.1 hi
  have hpos : 0 < ‖ψ i‖ := lt_of_lt_of_le (norm_pos_iff.2 hne) (hmax i0 (Finset.mem_range.2 hi0))
  obtain ⟨l, h1, h2⟩ := g4 i _ (List.getElem?_eq_getElem hiN)
  refine ⟨i, _, l, List.getElem?_eq_getElem hiN, h1, ?_⟩
  set e := lastValue (ForSite (Idx.alpha (D.indices[i]'hiN)).toNat) assigns with he
  have hrow := hE i hiN
  simp only [h2, add_mul, Finset.sum_add_distrib, ite_mul, zero_mul] at hrow
  rw [Finset.sum_ite_eq, if_pos hi] at hrow
  have hdiff : (E - e) * ψ i = ∑ j ∈ Finset.range D.numSites,
      (∑ n ∈ Finset.range D.invalidDistidx, (l n).count j • lastValue (ForLink n) assigns) * ψ j := by
    rw [sub_mul, ← hrow]
    ring
  have hb : ‖E - e‖ * ‖ψ i‖ ≤ (∑ n ∈ Finset.range D.invalidDistidx,
      (l n).length * ‖lastValue (ForLink n) assigns‖) * ‖ψ i‖ := by
    rw [← norm_mul, hdiff]
    refine (norm_sum_le _ _).trans ?_
    calc _ ≤ ∑ j ∈ Finset.range D.numSites, ∑ n ∈ Finset.range D.invalidDistidx,
          ((l n).count j : ℝ) * ‖lastValue (ForLink n) assigns‖ * ‖ψ i‖ := by
          refine Finset.sum_le_sum fun j hj => ?_
          rw [norm_mul, ← Finset.sum_mul]
          refine mul_le_mul ((norm_sum_le _ _).trans (Finset.sum_le_sum fun n _ => ?_)) (hmax j hj)
            (norm_nonneg _) (Finset.sum_nonneg fun n _ => by positivity)
          rw [nsmul_eq_mul, norm_mul, Complex.norm_natCast]
      _ = ∑ n ∈ Finset.range D.invalidDistidx, ((∑ j ∈ Finset.range D.numSites, (l n).count j : ℕ) : ℝ)
            * ‖lastValue (ForLink n) assigns‖ * ‖ψ i‖ := by
          rw [Finset.sum_comm]
          refine Finset.sum_congr rfl fun n _ => ?_
          push_cast
          rw [Finset.sum_mul, Finset.sum_mul]
      _ ≤ _ := by
          rw [Finset.sum_mul]
          refine Finset.sum_le_sum fun n _ => ?_
          have : ((∑ j ∈ Finset.range D.numSites, (l n).count j : ℕ) : ℝ) ≤ (l n).length :=
            Nat.cast_le.2 (sum_count_le _ _)
          gcongr
  exact le_of_mul_le_mul_right hb hpos

/-- Rows made from lists of neighbours. -/
def RowOf (N : ℕ) (H : ℕ → ℕ → ℂ) (eps t : ℂ) (i : ℕ) (l : List ℕ) : Prop :=
  (∀ j ∈ l, j < N) ∧ ∀ j, H i j = (if i = j then eps else 0) + l.count j • t

theorem RowOf.sum {N : ℕ} {H : ℕ → ℕ → ℂ} {eps t : ℂ} {i : ℕ} {l : List ℕ} (h : RowOf N H eps t i l)
    (hi : i < N) (ψ : ℕ → ℂ) : ∑ j ∈ Finset.range N, H i j * ψ j =
      eps * ψ i + ∑ j ∈ Finset.range N, (l.count j : ℂ) * (t * ψ j) := by
  simp only [h.2, add_mul, Finset.sum_add_distrib, ite_mul, zero_mul]
  rw [Finset.sum_ite_eq, if_pos (Finset.mem_range.2 hi)]
  simp only [nsmul_eq_mul, mul_assoc]

theorem band_of_rows {N z : ℕ} {H : ℕ → ℕ → ℂ} {eps t : ℂ}
    (h : ∀ i < N, ∃ l, RowOf N H eps t i l ∧ l.length ≤ z) {E : ℂ} {ψ : ℕ → ℂ}
    (hE : Eigenpair N H E ψ) : ‖E - eps‖ ≤ z * ‖t‖ := by
  obtain ⟨⟨i0, hi0, hne⟩, hE⟩ := hE
  obtain ⟨i, hi, hmax⟩ := Finset.exists_max_image (Finset.range N) (fun j => ‖ψ j‖)
    ⟨i0, Finset.mem_range.2 hi0⟩
  have hiN := Finset.mem_range.1 hi
  have hpos : 0 < ‖ψ i‖ := lt_of_lt_of_le (norm_pos_iff.2 hne) (hmax i0 (Finset.mem_range.2 hi0))
  obtain ⟨l, hl, hz⟩ := h i hiN
  have hd' : (E - eps) * ψ i = ∑ j ∈ Finset.range N, (l.count j : ℂ) * (t * ψ j) := by
    rw [sub_mul, ← hE i hiN, hl.sum hiN ψ]
    ring
  refine le_of_mul_le_mul_right ?_ hpos
  rw [← norm_mul, hd']
  refine (norm_sum_le _ _).trans ?_
  calc _ ≤ ∑ j ∈ Finset.range N, (l.count j : ℝ) * (‖t‖ * ‖ψ i‖) := by
        refine Finset.sum_le_sum fun j hj => ?_
        rw [norm_mul, norm_mul, Complex.norm_natCast]
        have := hmax j hj
        gcongr
    _ = (l.length : ℝ) * (‖t‖ * ‖ψ i‖) := by
        rw [← Finset.sum_mul, ← Nat.cast_sum, sum_count_eq hl.1]
    _ ≤ z * ‖t‖ * ‖ψ i‖ := by
        rw [mul_assoc]
        have : (l.length : ℝ) ≤ z := Nat.cast_le.2 hz
        gcongr

theorem edge_of_rows {N z : ℕ} {H : ℕ → ℕ → ℂ} {eps t σ : ℂ} {φ : ℕ → ℂ} (hN : 0 < N)
    (hφ : ∀ i, φ i ≠ 0) (h : ∀ i < N, ∃ l, RowOf N H eps t i l ∧ l.length = z ∧
      ∀ j ∈ l, φ j = σ * φ i) : Eigenpair N H (eps + z * (σ * t)) φ := by
  refine ⟨⟨0, hN, hφ 0⟩, fun i hi => ?_⟩
  obtain ⟨l, hl, hz, hc⟩ := h i hi
  rw [hl.sum hi]
  have : ∀ j, (l.count j : ℂ) * (t * φ j) = (l.count j : ℂ) * (t * (σ * φ i)) := by
    intro j
    by_cases hj : j ∈ l
    · rw [hc j hj]
    · simp [List.count_eq_zero_of_not_mem hj]
  simp only [this]
  rw [← Finset.sum_mul, ← Nat.cast_sum, sum_count_eq hl.1, hz]
  ring

/-- C129 for the values of README.md (one onsite value, one hopping to the nearest neighbours): if no site
has more than `z` nearest neighbours, all energies lie within `z * |t|` around the onsite value.  If
every site has `z` nearest neighbours, the energy `eps + z * t` is attained by the constant vector. -/
theorem C129_width_partial (hd : 0 < d) {env : Env ℝ} {w : World d ℝ} (hw : Reachable env w)
    (ops : List (Lattice.Op d ℝ)) {L : Lattice d ℝ}
    (hL : Lattice.run env (Lattice.ofWorld w) ops = L) {D : LatticeData d ℝ} (hD : L.data = some D)
    (h256 : D.distvals.length ≤ 256) (htop : ⊤ ∈ D.distvals) (hlink : ∃ x : ℝ, ↑x ∈ D.distvals)
    (eps t : ℂ) (hone : ∀ x ∈ D.indices, Idx.alpha x = 0)
    (hnn : ∀ i l, L.nearestNeighbors i false = .ok l → l.Nodup ∧ i ∉ l) (z : ℕ) :
    ∃ m data, (L.dmap env.argsortNat).2 = .ok m ∧
      m.fill [(.onsite (some 0), eps), (.hopping (some 0), t)] = .ok data ∧
      ((∀ i l, L.nearestNeighbors i false = .ok l → l.length ≤ z) →
        ∀ E ψ, Eigenpair D.numSites (m.csrEntry data) E ψ → ‖E - eps‖ ≤ z * ‖t‖) ∧
      (0 < D.numSites → (∀ i < D.numSites, ∀ l, L.nearestNeighbors i false = .ok l → l.length = z) →
        Eigenpair D.numSites (m.csrEntry data) (eps + z * t) fun _ => 1) := by
  obtain ⟨m, data, g1, g2, -, g4⟩ := C110_readme_partial hd hw ops hL hD h256 htop hlink eps t hone hnn
  have hrow : ∀ i < D.numSites, ∃ l, L.nearestNeighbors i false = .ok l ∧
      RowOf D.numSites (m.csrEntry data) eps t i l := by
    intro i hi
    obtain ⟨l, h1, h2, h3⟩ := g4 i hi
    obtain ⟨hnd, hni⟩ := hnn i l h1
    refine ⟨l, h1, h2, fun j => ?_⟩
    rw [h3 j]
    unfold loopEntry
    by_cases hij : i = j
    · subst hij
      simp [hni, List.count_eq_zero_of_not_mem hni]
    · by_cases hj : j ∈ l
      · simp [hij, hj, List.count_eq_one_of_mem hnd hj]
      · simp [hij, Ne.symm hij, hj, List.count_eq_zero_of_not_mem hj]
  refine ⟨m, data, g1, g2, fun hz E ψ hE => ?_, fun hN hz => ?_⟩
  · refine band_of_rows (fun i hi => ?_) hE
    obtain ⟨l, h1, h2⟩ := hrow i hi
    exact ⟨l, h2, hz i l h1⟩
  · have := edge_of_rows (z := z) (σ := 1) (φ := fun _ => 1) hN (fun _ => one_ne_zero) fun i hi => by
      obtain ⟨l, h1, h2⟩ := hrow i hi
      exact ⟨l, h2, hz i hi l h1, fun _ _ => (one_mul _).symm⟩
    rwa [one_mul] at this

/-- The chain of five sites of README.md: the energies lie within `2 * |t|` around `eps`. -/
example (env : Env ℝ) (eps t : ℂ) : ∃ (w : World 1 ℝ) (L : Lattice 1 ℝ) (m : DataMap)
    (data : List ℂ), (Lattice.ofWorld w).build env (chainArgs 4 fun _ => true) = (L, .ok ()) ∧
      (L.dmap env.argsortNat).2 = .ok m ∧
      m.fill [(.onsite (some 0), eps), (.hopping (some 0), t)] = .ok data ∧
      ∀ E ψ, Eigenpair 5 (m.csrEntry data) E ψ → ‖E - eps‖ ≤ 2 * ‖t‖ := by
  obtain ⟨w, A, L, D, table, h⟩ := exists_isBuiltChain env (nb := 1) (by norm_num) (by norm_num) 4
    (fun _ => true) (by decide)
  have hns : D.numSites = 5 := by rw [h.numSites, chainCells_true]; rfl
  have hrun : Lattice.run env (Lattice.ofWorld w) [.build (chainArgs 4 fun _ => true)] = L := by
    simp only [Lattice.run, List.foldl_cons, List.foldl_nil, Lattice.call]
    rw [h.build]
  have hdv : ((1 : ℝ) : WithTop ℝ) ∈ D.distvals := by
    refine (h.mem_distvals _).2 ⟨0, ?_, 1, ?_, by omega, by omega, by simp⟩ <;>
      rw [chainCells_true, List.mem_range] <;> omega
  have h00 : D.distvals[0]? = some (((1 : ℕ) : ℝ) : WithTop ℝ) := by
    have hs := h.sorted
    cases hd : D.distvals with
    | nil => rw [hd] at hdv; cases hdv
    | cons y ys =>
      rw [hd] at hdv hs
      rcases List.mem_cons.1 hdv with hy | hy
      · rw [← hy]; simp
      · have hlt := List.rel_of_pairwise_cons hs hy
        obtain ⟨z, rfl⟩ := WithTop.ne_top_iff_exists.1 (ne_of_lt (lt_of_lt_of_le hlt le_top))
        obtain ⟨a, -, b, -, hab, hba, rfl⟩ := (h.mem_distvals z).1 (by rw [hd]; simp)
        have : b = a + 1 := by omega
        rw [this] at hlt
        simp at hlt
  have hnb : ∀ i < 5, ∃ ln, L.nearestNeighbors i false = .ok ln ∧
      ln.Perm (chainAt (List.range 5) 1 i) := by
    intro i hi
    obtain ⟨-, -, -, g⟩ := h.neighbors (i := i) (by rw [chainCells_true]; simpa using hi)
    obtain ⟨ln, g1, g2⟩ := g 0 1 le_rfl one_pos h00
    rw [chainCells_true] at g2
    exact ⟨ln, g1, g2⟩
  have hat : ∀ i < 5, ∀ j, j ∈ chainAt (List.range 5) 1 i ↔ j < 5 ∧ (j = i + 1 ∨ i = j + 1) := by
    intro i hi j
    unfold chainAt
    rw [List.mem_filter, List.mem_range, decide_eq_true_eq, List.length_range]
    refine and_congr_right fun hj => ?_
    simp [List.getD_eq_getElem?_getD, hi, hj]
  have key : ∀ i l, L.nearestNeighbors i false = .ok l → l.Nodup ∧ i ∉ l ∧ l.length ≤ 2 := by
    intro i l hl
    by_cases hi : i < 5
    · obtain ⟨ln, k1, k2⟩ := hnb i hi
      rw [hl] at k1
      cases k1
      have hnd : l.Nodup := k2.nodup_iff.2 (List.nodup_range.filter _)
      refine ⟨hnd, by rw [k2.mem_iff, hat i hi]; omega, ?_⟩
      refine (List.subperm_of_subset (l₂ := [i + 1, i - 1]) hnd fun j hj => ?_).length_le
      have := (hat i hi j).1 (k2.mem_iff.1 hj)
      simp only [List.mem_cons, List.not_mem_nil, or_false]
      omega
    · exfalso
      obtain ⟨wd, hR, -⟩ := h.rect
      unfold Lattice.nearestNeighbors Lattice.neighbors at hl
      rw [h.data] at hl
      have := hR.getNeighbors_error (i := i) (by rw [hns]; omega) (some 0) none false
      dsimp only at hl
      rw [this] at hl
      cases hl
  obtain ⟨m, data, g1, g2, g3, -⟩ := C129_width_partial Nat.one_pos h.reach _ hrun h.data h.levels
    h.top ⟨1, hdv⟩ eps t (by
      intro x hx
      rw [h.indices] at hx
      obtain ⟨k, -, rfl⟩ := List.mem_map.1 hx
      rfl) (fun i l hl => ⟨(key i l hl).1, (key i l hl).2.1⟩) 2
  rw [hns] at g3
  exact ⟨w, L, m, data, h.build, g1, g2, fun E ψ hE => by
    simpa using g3 (fun i l hl => (key i l hl).2.2) E ψ hE⟩

/-- C129 for graphene with periodic boundaries and the same onsite value on both atoms: all energies lie
within `3 * |t|` around it.  Both ends are attained: by the constant vector, and by the vector with the
opposite sign on the second atom. -/
theorem C129_graphene_partial (env : Env ℝ) (s : Session) (a : ℝ) (ha : 1 ≤ a)
    {size : Fin 2 → ℕ} {σ : Vec 2 ℝ} (isInt : Bool) (hm : ∀ k, 3 ≤ size k)
    (hσ : ∀ k, (size k : ℝ) - 2 / 3 ≤ σ k ∧ σ k < size k - 1 / 1000 ∧
      3 * σ k ≤ 2 * (a * (σ 0 + σ 1)))
    {assigns : List (Mask × ℂ)} (hdoc : Documented assigns) {eps t : ℂ}
    (h0 : lastValue (ForSite 0) assigns = eps) (h1 : lastValue (ForSite 1) assigns = eps)
    (ht : lastValue (ForLink 0) assigns = t) :
    ∃ w L D L' m data, graphene env s a = .ok w ∧
      (Lattice.ofWorld w).build env (primitiveBox σ isInt) = (L, .ok ()) ∧ L.data = some D ∧
      L.setPeriodic env (.axes [0, 1]) = (L', .ok ()) ∧ (L'.dmap env.argsortNat).2 = .ok m ∧
      m.fill assigns = .ok data ∧
      (∀ E ψ, Eigenpair D.numSites (m.csrEntry data) E ψ → ‖E - eps‖ ≤ 3 * ‖t‖) ∧
      Eigenpair D.numSites (m.csrEntry data) (eps + 3 * t) (fun _ => 1) ∧
      ∀ c, ColourOf D atomColour c →
        Eigenpair D.numSites (m.csrEntry data) (eps - 3 * t) fun i => colourSign (c i) := by
  obtain ⟨-, w, L, D, L', g1, g2, g3, hw, g4, -, E, hE, hN, hz⟩ :=
    C111_honeycomb_partial env s a ha .none size σ isInt hm hσ
  obtain ⟨w', g1', hr, hNO, -, hb, -⟩ := graphene_block env s a ha
  cases g1.symm.trans g1'
  have hr' : Reachable env (Lattice.ofWorld w).world := hr
  have hst := nearSteps_planar le_rfl honeySets_steps
  obtain ⟨m, data, k1, k2, -, -, k3⟩ := torus_matrix two_pos hr hNO hst rfl rfl rfl g2 g3 hw g4
    (by rw [hb]; norm_num) hdoc
  obtain ⟨L2, q1, q2⟩ := C127_torus_partial (L := Lattice.ofWorld w) two_pos hr' hNO hst
    (honey_colouring w) rfl rfl rfl g2 (Or.inl rfl) g3 hw (axes := [0, 1]) (by simp)
    (fun k _ => hm k) (fun t _ x => by unfold atomColour; rw [Idx.alpha_mk])
  cases g4.symm.trans q1
  obtain ⟨E', hE', hS⟩ := (Lattice.setPeriodic_frame env L (.axes [0, 1])).2.2.2.2.2 D g3
  rw [g4] at hE'
  cases hE.symm.trans hE'
  have hn : E.numSites = D.numSites := hS.numSites
  rw [hn] at hN hz
  have row : ∀ i < D.numSites, ∀ c, ColourOf D atomColour c → ∃ l,
      RowOf D.numSites (m.csrEntry data) eps t i l ∧ l.length = 3 ∧
        ∀ j ∈ l, colourSign (c j) = -1 * colourSign (c i) := by
    intro i hi c hc
    obtain ⟨l, e1, -, e3⟩ := hz i hi
    obtain ⟨E2, hE2, hcol⟩ := q2 c hc
    cases hE.symm.trans hE2
    obtain ⟨l', e1', e4⟩ := hcol i (by rw [hn]; exact hi)
    cases e1.symm.trans e1'
    refine ⟨l, ⟨fun j hj => by rw [← hn]; exact (e4 j hj).1, fun j => ?_⟩, e3, fun j hj => by
      rw [neg_one_mul]; exact colourSign_ne (e4 j hj).2⟩
    have hx := List.getElem?_eq_getElem hi
    rw [k3 i j _ l hx e1, ht]
    have := ((hw _).1 (List.mem_of_getElem? hx)).1
    rw [hb] at this
    obtain e | e : Idx.alpha (D.indices[i]'hi) = 0 ∨ Idx.alpha (D.indices[i]'hi) = 1 := by omega
    all_goals
      rw [e]
      first
        | rw [show ForSite (0 : ℤ).toNat = ForSite 0 from rfl, h0]
        | rw [show ForSite (1 : ℤ).toNat = ForSite 1 from rfl, h1]
  obtain ⟨c0, hc0⟩ : ∃ c, ColourOf D atomColour c := 
    ⟨fun i => (D.indices[i]?.map atomColour).getD true, fun i a ha => by simp [ha]⟩
  refine ⟨w, L, D, L', m, data, g1, g2, g3, g4, k1, k2, fun F ψ hF => ?_, ?_, fun c hc => ?_⟩
  · have := band_of_rows (z := 3) (fun i hi => by
      obtain ⟨l, e1, e2, -⟩ := row i hi c0 hc0
      exact ⟨l, e1, e2.le⟩) hF
    simpa using this
  · have := edge_of_rows (z := 3) (σ := 1) (φ := fun _ => 1) hN (fun _ => one_ne_zero) fun i hi => by
      obtain ⟨l, e1, e2, -⟩ := row i hi c0 hc0
      exact ⟨l, e1, e2, fun _ _ => (one_mul _).symm⟩
    simpa using this
  · have := edge_of_rows (z := 3) (σ := -1) (φ := fun i => colourSign (c i)) hN
      (fun i => by unfold colourSign; split <;> norm_num) fun i hi => row i hi c hc
    have e : eps - 3 * t = eps + ((3 : ℕ) : ℂ) * (-1 * t) := by push_cast; ring
    rw [e]
    exact this

/-- Graphene with 10 × 18 cells and the hopping 27/10. -/
example (env : Env ℝ) (s : Session) : ∃ w L D L' m data, graphene env s 1 = .ok w ∧
    (Lattice.ofWorld w).build env (primitiveBox ![19 / 2, 35 / 2] false) = (L, .ok ()) ∧
    L.data = some D ∧ L.setPeriodic env (.axes [0, 1]) = (L', .ok ()) ∧
    (L'.dmap env.argsortNat).2 = .ok m ∧ m.fill [(.hopping (some 0), (27 / 10 : ℂ))] = .ok data ∧
    ∀ E ψ, Eigenpair D.numSites (m.csrEntry data) E ψ → ‖E‖ ≤ 81 / 10 := by
  obtain ⟨w, L, D, L', m, data, h1, h2, h3, h4, h5, h6, h7, -⟩ := C129_graphene_partial env s 1
    le_rfl (size := ![10, 18]) (σ := ![19 / 2, 35 / 2]) false (by intro k; fin_cases k <;> simp)
    (by intro k; fin_cases k <;> norm_num) (assigns := [(.hopping (some 0), (27 / 10 : ℂ))])
    (by
      intro p hp
      rw [List.mem_singleton] at hp
      subst hp
      exact ⟨nofun, fun a ha => by cases ha; rfl⟩) (eps := 0) (t := 27 / 10) (by simp [lastValue, ForSite]) (by simp [lastValue, ForSite]) (by simp [lastValue, ForLink])
  refine ⟨w, L, D, L', m, data, h1, h2, h3, h4, h5, h6, fun E ψ hE => ?_⟩
  have := h7 E ψ hE
  rw [sub_zero] at this
  refine this.trans (le_of_eq ?_)
  norm_num

end Lattpy
