import Verif.Props.Bandwidth
import Verif.Props.LatticeRuns

/-!
# The Hamiltonian is symmetric (C130)

The matrix filled from `dmap()` is symmetric: site `i` has the value of the link to `j` exactly if `j` has
the value of the link to `i`.  For real values it is hermitian, and all its energies are real.
-/

set_option autoImplicit false
set_option linter.unusedSectionVars false

namespace Lattpy

open Structure World Preset LatticeData DataMap

variable {d : ℕ}

/-! ## Specification -/

/-- The matrix is symmetric on the `N` sites. -/
def SymmetricOn {β : Type*} (N : ℕ) (H : ℕ → ℕ → β) : Prop := ∀ i < N, ∀ j < N, H i j = H j i

/-- All energies of the matrix are real. -/
def RealEnergies (N : ℕ) (H : ℕ → ℕ → ℂ) : Prop := ∀ E ψ, Eigenpair N H E ψ → E.im = 0

/-! ## Lemmas -/

theorem real_of_symmetric {N : ℕ} {H : ℕ → ℕ → ℂ} (hs : SymmetricOn N H)
    (hr : ∀ i < N, ∀ j < N, (H i j).im = 0) : RealEnergies N H := by
  rintro E ψ ⟨⟨i0, hi0, hne⟩, hE⟩
  have hc : ∀ i < N, ∀ j < N, starRingEnd ℂ (H i j) = H i j := fun i hi j hj =>
    Complex.conj_eq_iff_im.2 (hr i hi j hj)
  set n : ℂ := ∑ i ∈ Finset.range N, starRingEnd ℂ (ψ i) * ψ i with hn
  have e1 : ∑ i ∈ Finset.range N, starRingEnd ℂ (ψ i) * ∑ j ∈ Finset.range N, H i j * ψ j =
      E * n := by
    rw [hn, Finset.mul_sum]
    refine Finset.sum_congr rfl fun i hi => ?_
    rw [hE i (Finset.mem_range.1 hi)]
    ring
  have e2 : ∑ i ∈ Finset.range N, starRingEnd ℂ (ψ i) * ∑ j ∈ Finset.range N, H i j * ψ j =
      starRingEnd ℂ E * n := by
    calc _ = ∑ j ∈ Finset.range N, (starRingEnd ℂ (∑ i ∈ Finset.range N, H j i * ψ i)) * ψ j := by
          simp only [Finset.mul_sum, map_sum, map_mul, Finset.sum_mul]
          rw [Finset.sum_comm]
          refine Finset.sum_congr rfl fun j hj => Finset.sum_congr rfl fun i hi => ?_
          rw [hc j (Finset.mem_range.1 hj) i (Finset.mem_range.1 hi),
            hs i (Finset.mem_range.1 hi) j (Finset.mem_range.1 hj)]
          ring
      _ = _ := by
          rw [hn, Finset.mul_sum]
          refine Finset.sum_congr rfl fun j hj => ?_
          rw [hE j (Finset.mem_range.1 hj), map_mul]
          ring
  have hn' : n = ((∑ i ∈ Finset.range N, Complex.normSq (ψ i) : ℝ) : ℂ) := by
    rw [hn, Complex.ofReal_sum]
    refine Finset.sum_congr rfl fun i _ => ?_
    rw [mul_comm, Complex.mul_conj]
  have hpos : n ≠ 0 := by
    rw [hn', Complex.ofReal_ne_zero]
    refine ne_of_gt (Finset.sum_pos' (fun i _ => Complex.normSq_nonneg _)
      ⟨i0, Finset.mem_range.2 hi0, Complex.normSq_pos.2 hne⟩)
  exact Complex.conj_eq_iff_im.1 (mul_right_cancel₀ hpos (e2.symm.trans e1))

theorem lastValue_real {kind : Mask × ℂ → Prop} {assigns : List (Mask × ℂ)}
    (h : ∀ p ∈ assigns, p.2.im = 0) : (lastValue kind assigns).im = 0 := by
  unfold lastValue
  have : ∀ x : ℂ, x.im = 0 → (assigns.foldl (fun x p => open Classical in if kind p then p.2 else x) x).im = 0 := by
    induction assigns with
    | nil => intro x hx; exact hx
    | cons p ps ih =>
      intro x hx
      rw [List.foldl_cons]
      refine ih (fun q hq => h q (List.mem_cons_of_mem _ hq)) _ ?_
      split
      · exact h p List.mem_cons_self
      · exact hx
  exact this 0 rfl

theorem ImageAt.symm {S : Structure d ℝ} {D : LatticeData d ℝ} {r : ℝ} {i j : ℕ} {t : Fin d → ℤ}
    (h : ImageAt S D r i j t) : ImageAt S D r j i (-t) := by
  obtain ⟨p, q, hp, hq, e⟩ := h
  refine ⟨q, p, hq, hp, ?_⟩
  rw [← e]
  congr 1
  refine Finset.sum_congr rfl fun k _ => ?_
  have : ∑ m, ((-t) m : ℤ) * S.basis.vectors m k = -∑ m, (t m : ℝ) * S.basis.vectors m k := by
    rw [← Finset.sum_neg_distrib]
    refine Finset.sum_congr rfl fun m _ => ?_
    rw [Pi.neg_apply]
    push_cast
    ring
  rw [this]
  ring

/-! ## The matrix -/

/-- C130, for every lattice built from a structure whose connections are those between nearest sites, with
any shape: whatever is assigned, the matrix is symmetric; for real values all energies are real. -/
theorem C130_finite_partial (hd : 0 < d) {env : Env ℝ} {L L' : Lattice d ℝ}
    (hr : Reachable env L.world) {r : ℝ} {N : ℕ → Set (Idx d)} (h : NearestOnly L.world r N)
    (h128 : L.struct.numBase ≤ 128) {a : BuildArgs d ℝ} (hm : a.minNeighbors = none)
    (hp : a.periodic = none) (hb : a.bits = none) (hok : L.build env a = (L', .ok ()))
    {assigns : List (Mask × ℂ)} (hdoc : Documented assigns) :
    ∃ D m data, L'.data = some D ∧ (L'.dmap env.argsortNat).2 = .ok m ∧
      m.fill assigns = .ok data ∧ m.csrShape = .ok (D.numSites, D.numSites) ∧
      SymmetricOn D.numSites (m.csrEntry data) ∧
      ((∀ p ∈ assigns, p.2.im = 0) → RealEnergies D.numSites (m.csrEntry data)) := by
  obtain ⟨D, m, data, h1, h2, h3, h4, -, h5⟩ :=
    h.hamiltonian hd hr h128 L L' a rfl hm hp hb hok ℂ assigns hdoc
  obtain ⟨D', h1', hs, -⟩ := C59_nearest_only_partial hd hr h hm hp hb hok
  cases h1.symm.trans h1'
  have hlen : D.numSites = D.positions.length := hs.length_eq
  have get : ∀ i < D.numSites, ∃ x p, D.indices[i]? = some x ∧ D.positions[i]? = some p :=
    fun i hi => ⟨_, _, List.getElem?_eq_getElem hi, List.getElem?_eq_getElem (hlen ▸ hi)⟩
  have sym : SymmetricOn D.numSites (m.csrEntry data) := by
    intro i hi j hj
    obtain ⟨x, p, hx, hp⟩ := get i hi
    obtain ⟨y, q, hy, hq⟩ := get j hj
    obtain ⟨-, a2, a3⟩ := h5 i j x p q hx hp hq
    obtain ⟨-, b2, b3⟩ := h5 j i y q p hy hq hp
    by_cases hij : i = j
    · rw [hij]
    · have hc : distance q p = distance p q := by
        rw [distance_eq_dist, distance_eq_dist, dist_comm]
      by_cases hd' : distance q p = r
      · rw [a2 hij hd', b2 (Ne.symm hij) (hc ▸ hd')]
      · rw [a3 hij hd', b3 (Ne.symm hij) (fun e => hd' (hc.trans e))]
  refine ⟨D, m, data, h1, h2, h3, h4, sym, fun hreal => real_of_symmetric sym fun i hi j hj => ?_⟩
  obtain ⟨x, p, hx, hp⟩ := get i hi
  obtain ⟨y, q, hy, hq⟩ := get j hj
  obtain ⟨a1, a2, a3⟩ := h5 i j x p q hx hp hq
  by_cases hij : i = j
  · rw [a1 hij]
    exact lastValue_real hreal
  · by_cases hd' : distance q p = r
    · rw [a2 hij hd']
      exact lastValue_real hreal
    · rw [a3 hij hd']
      rfl

/-- C130 for periodic boundaries: blocks of whole cells with any periodic axes of three or more cells. -/
theorem C130_torus_partial (hd : 0 < d) {env : Env ℝ} {w : World d ℝ} {L : Lattice d ℝ}
    (hr : Reachable env w) {r : ℝ} {N : ℕ → Set (Idx d)} (h : NearestOnly w r N)
    (hst : NearSteps N) {a : BuildArgs d ℝ} (hm : a.minNeighbors = none) (hp : a.periodic = none)
    (hb : a.bits = none) (hok : (Lattice.ofWorld w).build env a = (L, .ok ()))
    (hprim : a.primitive = true ∨ Orthogonal w.struct.basis) {D : LatticeData d ℝ}
    (hD : L.data = some D) {lo : Fin d → ℤ} {size : Fin d → ℕ}
    (hw : WholeCells w.struct D lo size) {axes : List ℕ} (hax : ∀ k ∈ axes, k < d)
    (h3 : ∀ k : Fin d, k.val ∈ axes → 3 ≤ size k) (h128 : w.struct.numBase ≤ 128)
    {assigns : List (Mask × ℂ)} (hdoc : Documented assigns) :
    ∃ L' m data, L.setPeriodic env (.axes axes) = (L', .ok ()) ∧
      (L'.dmap env.argsortNat).2 = .ok m ∧ m.fill assigns = .ok data ∧
      m.csrShape = .ok (D.numSites, D.numSites) ∧
      SymmetricOn D.numSites (m.csrEntry data) ∧
      ((∀ p ∈ assigns, p.2.im = 0) → RealEnergies D.numSites (m.csrEntry data)) := by
  have hr' : Reachable env (Lattice.ofWorld w).world := hr
  obtain ⟨L', h1, ⟨E, -, -, -, hn, -⟩, -⟩ := C111_torus_partial (L := Lattice.ofWorld w) hd hr' h hst
    hm hp hb hok hprim hD hw hax h3
  obtain ⟨m, data, k1, k2, k3, -, k4⟩ := torus_matrix hd hr h hst hm hp hb hok hD hw h1 h128 hdoc
  have sym : SymmetricOn D.numSites (m.csrEntry data) := by
    intro i hi j hj
    obtain ⟨l, a1, a2, a3⟩ := hn i hi
    obtain ⟨l', b1, b2, b3⟩ := hn j hj
    rw [k4 i j _ l (List.getElem?_eq_getElem hi) a1, k4 j i _ l' (List.getElem?_eq_getElem hj) b1]
    by_cases hij : i = j
    · subst hij
      cases a1.symm.trans b1
      rfl
    · rw [if_neg hij, if_neg (Ne.symm hij)]
      have : j ∈ l ↔ i ∈ l' := by
        rw [a3, b3]
        exact ⟨fun ⟨t, e1, e2⟩ => ⟨-t, e1.neg, e2.symm⟩, fun ⟨t, e1, e2⟩ => ⟨-t, e1.neg, e2.symm⟩⟩
      by_cases hjl : j ∈ l
      · rw [List.count_eq_one_of_mem a2 hjl, List.count_eq_one_of_mem b2 (this.1 hjl)]
      · rw [List.count_eq_zero_of_not_mem hjl, List.count_eq_zero_of_not_mem fun e => hjl (this.2 e)]
  refine ⟨L', m, data, h1, k1, k2, k3, sym, fun hreal => real_of_symmetric sym fun i hi j _ => ?_⟩
  obtain ⟨l, a1, -, -⟩ := hn i hi
  rw [k4 i j _ l (List.getElem?_eq_getElem hi) a1, Complex.add_im, nsmul_eq_mul, Complex.mul_im,
    lastValue_real hreal, Complex.natCast_im]
  split
  · rw [lastValue_real hreal]; simp
  · simp

/-- Graphene in a box of the size 10 × 20 with the hopping -27/10 and the values 1 and -1 on its atoms. -/
example (env : Env ℝ) (s : Session) : ∃ w L D m data, graphene env s 1 = .ok w ∧
    (Lattice.ofWorld w).build env { shape := .size (List.ofFn ![10, 20]) true } = (L, .ok ()) ∧
    L.data = some D ∧ (L.dmap env.argsortNat).2 = .ok m ∧
    m.fill [(.onsite (some 0), 1), (.onsite (some 1), -1), (.hopping none, (-27 / 10 : ℂ))] =
      .ok data ∧
    SymmetricOn D.numSites (m.csrEntry data) ∧ RealEnergies D.numSites (m.csrEntry data) := by
  obtain ⟨-, -, -, -, -, -, w, h1, h2⟩ := C108_boxes env s 1 (by norm_num) .none
  obtain ⟨L, -, b, -⟩ := h2 ![10, 20] true (by intro k; fin_cases k <;> norm_num)
  obtain ⟨w', h1', hr, hN, -, hb, -⟩ := graphene_block env s 1 le_rfl
  cases h1.symm.trans h1'
  obtain ⟨D, m, data, g1, g2, g3, -, g4, g5⟩ := C130_finite_partial (L := Lattice.ofWorld w) two_pos hr hN
    (by show w.struct.numBase ≤ 128; rw [hb]; norm_num) rfl rfl rfl b
    (assigns := [(.onsite (some 0), 1), (.onsite (some 1), -1), (.hopping none, (-27 / 10 : ℂ))])
    (by
      intro p hp
      simp only [List.mem_cons, List.not_mem_nil, or_false] at hp
      rcases hp with rfl | rfl | rfl <;>
        exact ⟨fun a ha => by cases ha <;> norm_num, fun a ha => by cases ha⟩)
  refine ⟨w, L, D, m, data, h1, b, g1, g2, g3, g4, g5 ?_⟩
  intro p hp
  simp only [List.mem_cons, List.not_mem_nil, or_false] at hp
  rcases hp with rfl | rfl | rfl
  · simp
  · simp
  · show (-27 / 10 : ℂ).im = 0
    have : (-27 / 10 : ℂ) = ((-27 / 10 : ℝ) : ℂ) := by push_cast; rfl
    rw [this, Complex.ofReal_im]

/-- The same sheet of 10 × 18 cells with periodic boundaries. -/
example (env : Env ℝ) (s : Session) : ∃ w L D L' m data, graphene env s 1 = .ok w ∧
    (Lattice.ofWorld w).build env (primitiveBox ![19 / 2, 35 / 2] false) = (L, .ok ()) ∧
    L.data = some D ∧ L.setPeriodic env (.axes [0, 1]) = (L', .ok ()) ∧
    (L'.dmap env.argsortNat).2 = .ok m ∧ m.fill [(.hopping none, (2 : ℂ))] = .ok data ∧
    SymmetricOn D.numSites (m.csrEntry data) ∧ RealEnergies D.numSites (m.csrEntry data) := by
  obtain ⟨w, h1, hr, hN, -, hb, hB⟩ := graphene_block env s 1 le_rfl
  obtain ⟨L, D, g2, g3, hw⟩ := hB ![10, 18] ![19 / 2, 35 / 2] false
    (by intro k; fin_cases k <;> simp) (by intro k; fin_cases k <;> norm_num)
  obtain ⟨L', m, data, k1, k2, k3, -, k4, k5⟩ := C130_torus_partial two_pos hr hN
    (nearSteps_planar le_rfl honeySets_steps) rfl rfl rfl g2 (Or.inl rfl) g3 hw (axes := [0, 1])
    (by simp) (fun k _ => by fin_cases k <;> simp) (by rw [hb]; norm_num)
    (assigns := [(.hopping none, (2 : ℂ))])
    (by
      intro p hp
      rw [List.mem_singleton] at hp
      subst hp
      exact ⟨nofun, nofun⟩)
  exact ⟨w, L, D, L', m, data, h1, g2, g3, k1, k2, k3, k4, k5 (by simp)⟩

/-- C130, for every history of calls and any number of shells: the matrix is symmetric if the lists of
neighbours are, level by level; for real values all energies are real. -/
theorem C130_history_partial (hd : 0 < d) {env : Env ℝ} {w : World d ℝ} (hw : Reachable env w)
    (ops : List (Lattice.Op d ℝ)) {L : Lattice d ℝ}
    (hL : Lattice.run env (Lattice.ofWorld w) ops = L) {D : LatticeData d ℝ} (hD : L.data = some D)
    (h256 : D.distvals.length ≤ 256) (htop : ⊤ ∈ D.distvals)
    (h128 : ∀ x ∈ D.indices, Idx.alpha x < 128) {assigns : List (Mask × ℂ)}
    (hdoc : Documented assigns)
    (hsym : ∀ n < D.invalidDistidx, ∀ i < D.numSites, ∀ j < D.numSites, ∀ l l',
      L.neighbors i (some n) false = .ok l → L.neighbors j (some n) false = .ok l' →
      l.count j = l'.count i) :
    ∃ m data, (L.dmap env.argsortNat).2 = .ok m ∧ m.fill assigns = .ok data ∧
      SymmetricOn D.numSites (m.csrEntry data) ∧
      ((∀ p ∈ assigns, p.2.im = 0) → RealEnergies D.numSites (m.csrEntry data)) := by
  obtain ⟨m, data, g1, g2, -, -, g4⟩ := C110_history_partial hd hw ops hL hD h256 htop h128 hdoc
  have sym : SymmetricOn D.numSites (m.csrEntry data) := by
    intro i hi j hj
    obtain ⟨l, a1, a2⟩ := g4 i _ (List.getElem?_eq_getElem hi)
    obtain ⟨l', b1, b2⟩ := g4 j _ (List.getElem?_eq_getElem hj)
    by_cases hij : i = j
    · rw [hij]
    · rw [a2 j, b2 i, if_neg hij, if_neg (Ne.symm hij)]
      congr 1
      refine Finset.sum_congr rfl fun n hn => ?_
      rw [hsym n (Finset.mem_range.1 hn) i hi j hj _ _ (a1 n) (b1 n)]
  refine ⟨m, data, g1, g2, sym, fun hreal => real_of_symmetric sym fun i hi j _ => ?_⟩
  obtain ⟨l, -, a2⟩ := g4 i _ (List.getElem?_eq_getElem hi)
  rw [a2 j, Complex.add_im, Complex.im_sum]
  have e1 : ∀ n, ((l n).count j • lastValue (ForLink n) assigns).im = 0 := by
    intro n
    rw [nsmul_eq_mul, Complex.mul_im, lastValue_real hreal, Complex.natCast_im]
    simp
  simp only [e1, Finset.sum_const_zero, add_zero]
  split
  · exact lastValue_real hreal
  · rfl

/-- C130 for chains with any number of shells up to 255 and any set of sites. -/
theorem C130_chain_partial {env : Env ℝ} {nb N : ℕ} {keep : ℕ → Bool} {w : World 1 ℝ}
    {A : Analysis 1 ℝ} {L : Lattice 1 ℝ} {D : LatticeData 1 ℝ} {table : List (List (ℕ × WithTop ℝ))}
    (h : IsBuiltChain env nb N keep w A L D table) {assigns : List (Mask × ℂ)}
    (hdoc : Documented assigns) :
    ∃ m data, (L.dmap env.argsortNat).2 = .ok m ∧ m.fill assigns = .ok data ∧
      SymmetricOn D.numSites (m.csrEntry data) ∧
      ((∀ p ∈ assigns, p.2.im = 0) → RealEnergies D.numSites (m.csrEntry data)) := by
  have hrun : Lattice.run env (Lattice.ofWorld w) [.build (chainArgs N keep)] = L := by
    simp only [Lattice.run, List.foldl_cons, List.foldl_nil, Lattice.call]
    rw [h.build]
  have hns : D.numSites = table.length := by rw [h.numSites, h.length]
  obtain ⟨width, hrows⟩ := h.rows
  obtain ⟨-, -, -, -, -, -, hinv, -⟩ := set_any h.set h.levels
  refine C130_history_partial one_pos h.reach _ hrun h.data h.levels h.top ?_ hdoc ?_
  · intro x hx
    rw [h.indices] at hx
    obtain ⟨k, -, rfl⟩ := List.mem_map.1 hx
    rw [Idx.alpha_mk]
    norm_num
  · intro n hn i hi j hj l l' hl hl'
    rw [hns] at hi hj
    have hn1 : n < D.distvals.length := by omega
    obtain ⟨x, hx⟩ : ∃ x : ℝ, D.distvals[n]? = some (x : WithTop ℝ) := by
      have hlt := List.pairwise_iff_getElem.1 (set_sorted h.set) n (D.distvals.length - 1) hn1
        (by omega) (by omega)
      obtain ⟨z, hz⟩ := WithTop.ne_top_iff_exists.1 (ne_of_lt (lt_of_lt_of_le hlt le_top))
      exact ⟨z, by rw [List.getElem?_eq_getElem hn1, hz]⟩
    have key : ∀ i < table.length, ∀ l, L.neighbors i (some n) false = .ok l →
        l.Nodup ∧ ∀ j, j ∈ l ↔ Linked table i j x := by
      intro i hi l hl
      obtain ⟨-, -, -, -, h4⟩ := neighbors_of_links h.set h.top h.levels hi
        (hrows i _ (List.getElem?_eq_getElem hi)).2.2.2.2
      obtain ⟨ln, e1, e2, e3⟩ := h4 n x hx
      unfold Lattice.neighbors at hl
      rw [h.data] at hl
      cases Except.ok.inj (hl.symm.trans e1)
      exact ⟨e2, e3⟩
    obtain ⟨a1, a2⟩ := key i hi l hl
    obtain ⟨b1, b2⟩ := key j hj l' hl'
    have hij : j ∈ l ↔ i ∈ l' := by
      rw [a2, b2, h.links, h.links]
      constructor <;>
      · rintro ⟨a, b, e1, e2, e3, e4, e5, e6⟩
        exact ⟨b, a, e2, e1, e3.symm, by rw [e4, abs_sub_comm], e6, e5⟩
    by_cases hjl : j ∈ l
    · rw [List.count_eq_one_of_mem a1 hjl, List.count_eq_one_of_mem b1 (hij.1 hjl)]
    · rw [List.count_eq_zero_of_not_mem hjl, List.count_eq_zero_of_not_mem fun e => hjl (hij.2 e)]

/-- The chain of eight sites with two shells. -/
example (env : Env ℝ) : ∃ (w : World 1 ℝ) (L : Lattice 1 ℝ) (m : DataMap) (data : List ℂ),
    (Lattice.ofWorld w).build env (chainArgs 7 fun _ => true) = (L, .ok ()) ∧
    (L.dmap env.argsortNat).2 = .ok m ∧
    m.fill [(.hopping (some 0), (2 : ℂ)), (.hopping (some 1), 1)] = .ok data ∧
    SymmetricOn 8 (m.csrEntry data) ∧ RealEnergies 8 (m.csrEntry data) := by
  obtain ⟨w, A, L, D, table, h⟩ := exists_isBuiltChain env (nb := 2) (by norm_num) (by norm_num) 7
    (fun _ => true) (by decide)
  have hns : D.numSites = 8 := by rw [h.numSites, chainCells_true]; rfl
  obtain ⟨m, data, g1, g2, g3, g4⟩ := C130_chain_partial h
    (assigns := [(.hopping (some 0), (2 : ℂ)), (.hopping (some 1), 1)]) (by
      intro p hp
      simp only [List.mem_cons, List.not_mem_nil, or_false] at hp
      rcases hp with rfl | rfl <;>
        exact ⟨nofun, fun a ha => by (cases ha; norm_num)⟩)
  rw [hns] at g3 g4
  exact ⟨w, L, m, data, h.build, g1, g2, g3, g4 (by simp)⟩

/-- C130 fails for lattices joined by `append` with two shells: two chains of four sites.  The rows of the
table are full (`C68_full_row_fails`): there is an entry from site 3 to site 4, but none from 4 to 3. -/
theorem C130_append_fails :
    let env := Env.brute ℚ
    let L1 := (Runs.chain 2).build env { shape := .size [3] false }
    let L2 := L1.1.append env L1.1 0 true none false
    L1.2 = .ok () ∧ L2.2 = .ok () ∧ L2.1.numSites = 8 ∧
    ((L2.1.dmap env.argsortNat).2.toOption.bind fun m =>
      (m.fill [(.hopping none, (1 : ℕ))]).toOption.map fun data =>
        (m.csrEntry data 3 4, m.csrEntry data 4 3)) = some (1, 0) := by
  decide +kernel

end Lattpy
