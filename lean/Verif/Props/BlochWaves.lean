import Verif.Props.TorusHamiltonian
import Verif.Props.Restrict
import Verif.Props.FourierPresets

/-!
# Plane waves on a periodic lattice (C126)

`fourier_weights` is computed from the neighbours in the infinite lattice, the Hamiltonian from the
neighbours stored in the finite periodic lattice.  For wave vectors which fit into the block the two
have to agree: the matrix multiplies a plane wave by the Fourier weight.
-/

set_option autoImplicit false
set_option linter.unusedSectionVars false

namespace Lattpy

open Structure World Preset DataMap ComplexConjugate

variable {d : ℕ}

/-! ## specification -/

/-- The plane wave with the wave vector `k`. -/
noncomputable def planeWave (k p : Vec d ℝ) : ℂ :=
  Complex.exp (Complex.I * ((∑ c, k c * p c : ℝ) : ℂ))

/-- The plane wave has the periods of the block. -/
def Commensurate (S : Structure d ℝ) (size : Fin d → ℕ) (k : Vec d ℝ) : Prop :=
  ∀ m, ∃ z : ℤ, (size m : ℝ) * ∑ c, k c * S.basis.vectors m c = 2 * Real.pi * z

/-- `ψ` is the plane wave at the sites. -/
def IsPlaneWave (D : LatticeData d ℝ) (k : Vec d ℝ) (ψ : ℕ → ℂ) : Prop :=
  ∀ (j : ℕ) (q : Vec d ℝ), D.positions[j]? = some q → ψ j = planeWave k q

/-! ## lemmas -/

theorem planeWave_add (k p q : Vec d ℝ) :
    planeWave k (fun c => p c + q c) = planeWave k p * planeWave k q := by
  unfold planeWave
  rw [← Complex.exp_add, ← mul_add, ← Complex.ofReal_add, ← Finset.sum_add_distrib]
  simp only [mul_add]

theorem planeWave_shift {S : Structure d ℝ} {size : Fin d → ℕ} {k : Vec d ℝ}
    (hk : Commensurate S size k) {axes : List ℕ} {t : Fin d → ℤ} (ht : IsShift size axes t) :
    planeWave k (fun c => ∑ m, (t m : ℝ) * S.basis.vectors m c) = 1 := by
  choose z hz using hk
  choose u hu using fun m => (ht m).1
  have : (∑ c, k c * ∑ m, (t m : ℝ) * S.basis.vectors m c) = 2 * Real.pi * ((∑ m, u m * z m : ℤ) : ℝ) := by
    simp only [Finset.mul_sum]
    rw [Finset.sum_comm]
    push_cast
    rw [Finset.mul_sum]
    refine Finset.sum_congr rfl fun m _ => ?_
    calc ∑ c, k c * ((t m : ℝ) * S.basis.vectors m c)
        = (t m : ℝ) * ∑ c, k c * S.basis.vectors m c := by
          rw [Finset.mul_sum]
          exact Finset.sum_congr rfl fun c _ => by ring
      _ = u m * ((size m : ℝ) * ∑ c, k c * S.basis.vectors m c) := by
          rw [hu m]; push_cast; ring
      _ = 2 * Real.pi * (u m * z m) := by rw [hz m]; ring
  unfold planeWave
  rw [this]
  have := Complex.exp_int_mul_two_pi_mul_I (∑ m, u m * z m)
  rw [← this]
  congr 1
  push_cast
  ring

theorem phase_planeWave (k p p0 q : Vec d ℝ) :
    phase k p p0 * planeWave k q = planeWave k (fun c => p c - p0 c + q c) := by
  unfold phase planeWave
  rw [← Complex.exp_add, ← mul_add, ← Complex.ofReal_add, ← Finset.sum_add_distrib]
  simp only [mul_add]

/-- The sum of a plane wave over the neighbours of a site of the torus. -/
theorem torus_wave (hd : 0 < d) {env : Env ℝ} {w : World d ℝ} (hr : Reachable env w) {r : ℝ}
    {N : ℕ → Set (Idx d)} (h : NearestOnly w r N) {D : LatticeData d ℝ}
    (hsites : List.Forall₂ (IsSitePos w.struct) D.indices D.positions) (hnd : D.indices.Nodup)
    {lo : Fin d → ℤ} {size : Fin d → ℕ} (hw : WholeCells w.struct D lo size) {axes : List ℕ}
    {k : Vec d ℝ} (hk : Commensurate w.struct size k) {ψ : ℕ → ℂ} (hψ : IsPlaneWave D k ψ)
    {i : ℕ} {x : Idx d} {p : Vec d ℝ} (hx : D.indices[i]? = some x)
    (hp : D.positions[i]? = some p) (hne : (N x.alpha.toNat).Nonempty) {l : List ℕ} (hl : l.Nodup)
    (hmem : ∀ j, j ∈ l ↔ ∃ t, IsShift size axes t ∧ ImageAt w.struct D r i j t)
    (hlen : l.length = {x : Idx d | ∃ q, IsSitePos w.struct x q ∧ distance q p = r}.ncard) :
    ∃ f, w.struct.fourierWeights (.flat (List.ofFn k)) x.alpha 0 = .ok f ∧
      (l.map ψ).sum = f * ψ i ∧
      ∀ j ∈ l, ∀ b : Idx d, D.indices[j]? = some b → ∃ c, Idx.mk c b.alpha ∈ N x.alpha.toNat := by
  have hget : ∀ {j : ℕ} {q : Vec d ℝ}, D.positions[j]? = some q →
      ∃ b, D.indices[j]? = some b ∧ IsSitePos w.struct b q := by
    intro j q hq
    obtain ⟨hj, rfl⟩ := List.getElem?_eq_some_iff.1 hq
    have hj' : j < D.indices.length := by rw [hsites.length_eq]; exact hj
    exact ⟨_, List.getElem?_eq_getElem hj', by simpa using hsites.get hj' hj⟩
  obtain ⟨x', hx', hsp⟩ := hget hp
  cases hx.symm.trans hx'
  obtain ⟨α, ra, hα, hra, hpeq⟩ := id hsp
  have hαn : α < w.struct.numBase := by
    rw [← (hr.good hd).positions_length]
    exact (List.getElem?_eq_some_iff.1 hra).1
  have hαt : x.alpha.toNat = α := by omega
  rw [hαt] at hne
  obtain ⟨lst, hq, hlnd, hlm⟩ := h.query hd hr hαn hne 0
  have hlm : ∀ b : Idx d, b ∈ lst ↔ b ∈ N α := fun b => by
    rw [hlm, sub_zero, Idx.mk_cell_alpha]
  obtain ⟨-, ps, p0, -, hp0, hps, -⟩ := C88_weight_partial hd hr α 0 hq
  have hp0' : pyGet w.struct.positions (α : ℤ) = some ra :=
    pyGet_eq_some.2 ⟨α, Or.inl rfl, hra⟩
  have hf := weight_sum hd hr hq hp0' k
  rw [← hα] at hf
  refine ⟨_, hf, and_comm.1 ?_⟩
  -- the sites next to `x`
  have hsite : ∀ y ∈ lst, IsSitePos w.struct y (sitePoint w.struct y) := by
    have := sitePos_eq hps
    subst this
    intro y hy
    obtain ⟨n, hn, rfl⟩ := List.getElem_of_mem hy
    have := hps.get hn (by simpa using hn)
    simpa using this
  have hcard : lst.length = l.length := by
    have himage : {x : Idx d | ∃ q, IsSitePos w.struct x q ∧ distance q p = r} =
        (fun y : Idx d => Idx.mk (x.cell + Idx.cell y) (Idx.alpha y)) '' N α := by
      ext b
      rw [Set.mem_ofPred_eq, Set.mem_image]
      constructor
      · rintro ⟨q, hq, e⟩
        refine ⟨_, (h.distance_iff hd hr hsp hq hα).1 e, ?_⟩
        rw [Idx.cell_mk, Idx.alpha_mk, add_sub_cancel, Idx.mk_cell_alpha]
      · rintro ⟨y, hy, rfl⟩
        obtain ⟨β, rb, h1, h2, -⟩ := hsite y ((hlm y).2 hy)
        have hq : IsSitePos w.struct (Idx.mk (x.cell + Idx.cell y) (Idx.alpha y)) (fun c => rb c +
            ∑ m, (((x.cell + Idx.cell y) m : ℤ) : ℝ) * w.struct.basis.vectors m c) :=
          ⟨β, rb, by rw [Idx.alpha_mk, h1], h2, by rw [Idx.cell_mk]⟩
        refine ⟨_, hq, (h.distance_iff hd hr hsp hq hα).2 ?_⟩
        rw [Idx.cell_mk, Idx.alpha_mk, add_sub_cancel_left, Idx.mk_cell_alpha]
        exact hy
    rw [hlen, himage, Set.ncard_image_of_injective]
    · have : N α = (lst.toFinset : Set (Idx d)) := by
        ext b
        simp [hlm]
      rw [this, Set.ncard_coe_finset, List.toFinset_card_of_nodup hlnd]
    · intro y z he
      simp only [Idx.mk_inj, add_right_inj] at he
      rw [← Idx.mk_cell_alpha y, ← Idx.mk_cell_alpha z, he.1, he.2]
  have hex : ∀ j : ℕ, ∃ y : Idx d, j ∈ l → ∃ (b : Idx d) (t : Fin d → ℤ),
      D.indices[j]? = some b ∧ IsShift size axes t ∧
      y = Idx.mk (b.cell - (x.cell + t)) b.alpha ∧ y ∈ N α ∧
      ψ j = phase k (sitePoint w.struct y) ra * ψ i := by
    intro j
    by_cases hj : j ∈ l
    · obtain ⟨t, ht, p', q, hp', hq, hd'⟩ := (hmem j).1 hj
      cases hp.symm.trans hp'
      obtain ⟨b, hb, hbq⟩ := hget hq
      refine ⟨Idx.mk (Idx.cell b - (x.cell + t)) (Idx.alpha b), fun _ => ⟨b, t, hb, ht, rfl, ?_⟩⟩
      have hspt : IsSitePos w.struct (Idx.mk (x.cell + t) x.alpha)
          (w.struct.basis.translate t p) := by
        refine ⟨α, ra, by rw [Idx.alpha_mk, hα], hra, ?_⟩
        rw [LatticeBasis.translate_eq, hpeq, Idx.cell_mk]
        funext c
        simp only [Pi.add_apply, Int.cast_add, add_mul, Finset.sum_add_distrib]
        ring
      rw [shifted_dist] at hd'
      have hy := (h.distance_iff hd hr hspt hbq (by rw [Idx.alpha_mk]; exact hα)).1 hd'
      rw [Idx.cell_mk] at hy
      refine ⟨hy, ?_⟩
      obtain ⟨β, rb, b1, b2, rfl⟩ := id hbq
      have hsy := hsite _ ((hlm _).2 hy)
      obtain ⟨β', rb', c1, c2, c3⟩ := hsy
      rw [Idx.alpha_mk] at c1
      have : β' = β := by omega
      subst this
      rw [b2] at c2
      cases c2
      rw [hψ j _ hq, hψ i p hp, phase_planeWave, ← one_mul (planeWave k fun c => _ - ra c + p c),
        ← planeWave_shift hk ht, ← planeWave_add, c3, hpeq]
      congr 1
      funext c
      rw [Idx.cell_mk]
      simp only [Pi.add_apply, Pi.sub_apply, Int.cast_add, Int.cast_sub, add_mul, sub_mul,
        Finset.sum_add_distrib, Finset.sum_sub_distrib]
      ring
    · exact ⟨x, fun hc => absurd hc hj⟩
  choose y hy using hex
  have hmap : (l.map y).Nodup := by
    refine List.Nodup.map_on ?_ hl
    intro j hj j' hj' e
    obtain ⟨b, t, b1, b2, b3, -⟩ := hy j hj
    obtain ⟨b', t', b1', b2', b3', -⟩ := hy j' hj'
    rw [b3, b3', Idx.mk_inj] at e
    have hbb : b = b' := by
      refine shift_unique (n := w.struct.numBase) hw (List.mem_of_getElem? b1)
        (List.mem_of_getElem? b1') e.2 (axes := axes) ?_
      have := b2.add b2'.neg
      convert this using 1
      funext c
      have := congrFun e.1 c
      simp only [Pi.sub_apply, Pi.add_apply] at this
      simp only [Pi.add_apply, Pi.neg_apply]
      linarith
    subst hbb
    obtain ⟨n1, e1⟩ := List.getElem?_eq_some_iff.1 b1
    obtain ⟨n2, e2⟩ := List.getElem?_eq_some_iff.1 b1'
    exact (List.Nodup.getElem_inj_iff hnd).1 (e1.trans e2.symm)
  have hperm : (l.map y).Perm lst := by
    refine (List.subperm_of_subset hmap ?_).perm_of_length_le (by rw [List.length_map, hcard])
    intro z hz
    obtain ⟨j, hj, rfl⟩ := List.mem_map.1 hz
    obtain ⟨b, t, -, -, -, hN, -⟩ := hy j hj
    exact (hlm _).2 hN
  constructor
  · intro j hj b hb
    obtain ⟨b', t, b1, -, b3, b4, -⟩ := hy j hj
    cases hb.symm.trans b1
    rw [b3] at b4
    rw [hαt]
    exact ⟨_, b4⟩
  dsimp only
  rw [← (hperm.map _).sum_eq, List.map_map, ← List.sum_map_mul_right]
  congr 1
  refine List.map_congr_left fun j hj => ?_
  obtain ⟨b, t, -, -, -, -, e⟩ := hy j hj
  exact e

theorem bloch_neighbors (hd : 0 < d) {env : Env ℝ} {w : World d ℝ} {L : Lattice d ℝ}
    (hr : Reachable env w) {r : ℝ} {N : ℕ → Set (Idx d)} (h : NearestOnly w r N)
    (hst : NearSteps N) {a : BuildArgs d ℝ} (hm : a.minNeighbors = none) (hp : a.periodic = none)
    (hb : a.bits = none) (hok : (Lattice.ofWorld w).build env a = (L, .ok ()))
    (hprim : a.primitive = true ∨ Orthogonal w.struct.basis) {D : LatticeData d ℝ}
    (hD : L.data = some D) {lo : Fin d → ℤ} {size : Fin d → ℕ}
    (hw : WholeCells w.struct D lo size) (h3 : ∀ k, 3 ≤ size k)
    (hne : ∀ α < w.struct.numBase, (N α).Nonempty) :
    ∃ L', L.setPeriodic env (.axes (List.range d)) = (L', .ok ()) ∧
      ∀ (k : Vec d ℝ) (ψ : ℕ → ℂ), Commensurate w.struct size k → IsPlaneWave D k ψ →
      ∀ (i : ℕ) (x : Idx d), D.indices[i]? = some x →
        ∃ l f, L'.neighbors i none false = .ok l ∧
          w.struct.fourierWeights (.flat (List.ofFn k)) x.alpha 0 = .ok f ∧
          (l.map ψ).sum = f * ψ i ∧
          ∀ j ∈ l, ∀ b : Idx d, D.indices[j]? = some b →
            ∃ c, Idx.mk c b.alpha ∈ N x.alpha.toNat := by
  have hr' : Reachable env (Lattice.ofWorld w).world := hr
  obtain ⟨L', h1, ⟨E, -, -, -, hT, -⟩, h2⟩ := C111_torus_partial (L := Lattice.ofWorld w) hd hr' h
    hst hm hp hb hok hprim hD hw (axes := List.range d) (fun k hk => List.mem_range.1 hk)
    fun k _ => h3 k
  obtain ⟨hworld, -, A, table, hI⟩ := exists_isTiled (L := Lattice.ofWorld w) hd hr' h hst hm hp hb
    hok hD hw
  have hS : L.struct = w.struct := congrArg World.struct hworld
  have hsites := (hI.tiling hd).sites
  rw [hS] at hsites
  refine ⟨L', h1, fun k ψ hk hψ i x hx => ?_⟩
  obtain ⟨hi, -⟩ := List.getElem?_eq_some_iff.1 hx
  have hi' : i < D.positions.length := hsites.length_eq ▸ hi
  have hpi := List.getElem?_eq_getElem hi'
  obtain ⟨l, e1, e2, e3⟩ := hT i hi
  obtain ⟨l', e1', e4⟩ := h2 (fun k => List.mem_range.2 k.isLt) i _ hpi
  cases e1.symm.trans e1'
  have hα := ((hw x).1 (List.mem_of_getElem? hx)).1
  have hα' : x.alpha < (w.struct.numBase : ℤ) := hα.2
  obtain ⟨f, f1, f2, f3⟩ := torus_wave hd hr h hsites (hI.tiling hd).nodup hw hk hψ hx hpi
    (hne _ (by omega)) e2 e3 e4
  exact ⟨l, f, e1, f1, f2, f3⟩

/-- The action of the matrix on a wave whose amplitude depends on the atom. -/
theorem bloch_matrix (hd : 0 < d) {env : Env ℝ} {w : World d ℝ} {L : Lattice d ℝ}
    (hr : Reachable env w) {r : ℝ} {N : ℕ → Set (Idx d)} (h : NearestOnly w r N)
    (hst : NearSteps N) {a : BuildArgs d ℝ} (hm : a.minNeighbors = none) (hp : a.periodic = none)
    (hb : a.bits = none) (hok : (Lattice.ofWorld w).build env a = (L, .ok ()))
    (hprim : a.primitive = true ∨ Orthogonal w.struct.basis) {D : LatticeData d ℝ}
    (hD : L.data = some D) {lo : Fin d → ℤ} {size : Fin d → ℕ}
    (hw : WholeCells w.struct D lo size) (h3 : ∀ k, 3 ≤ size k)
    (hne : ∀ α < w.struct.numBase, (N α).Nonempty) (h128 : w.struct.numBase ≤ 128)
    {assigns : List (Mask × ℂ)} (hdoc : Documented assigns) :
    ∃ L' m data, L.setPeriodic env (.axes (List.range d)) = (L', .ok ()) ∧
      (L'.dmap env.argsortNat).2 = .ok m ∧ m.fill assigns = .ok data ∧
      m.csrShape = .ok (D.numSites, D.numSites) ∧
      ∀ (k : Vec d ℝ) (ψ : ℕ → ℂ), Commensurate w.struct size k → IsPlaneWave D k ψ →
      ∀ (u : ℤ → ℂ) (φ : ℕ → ℂ), (∀ (j : ℕ) (b : Idx d), D.indices[j]? = some b →
        φ j = u b.alpha * ψ j) →
      ∀ (i : ℕ) (x : Idx d) (v : ℂ), D.indices[i]? = some x →
        (∀ y ∈ N x.alpha.toNat, u (Idx.alpha y) = v) → ∃ f, w.struct.fourierWeights (.flat (List.ofFn k)) x.alpha 0 = .ok f ∧
          ∑ j ∈ Finset.range D.numSites, m.csrEntry data i j * φ j =
            (lastValue (ForSite x.alpha.toNat) assigns * u x.alpha +
              lastValue (ForLink 0) assigns * f * v) * ψ i := by
  have hr' : Reachable env (Lattice.ofWorld w).world := hr
  obtain ⟨L', h1, h2⟩ := bloch_neighbors hd hr h hst hm hp hb hok hprim hD hw h3 hne
  obtain ⟨L'', h1', ⟨-, -, -, -, hT, -⟩, -⟩ := C111_torus_partial (L := Lattice.ofWorld w) hd hr' h
    hst hm hp hb hok hprim hD hw (axes := List.range d) (fun k hk => List.mem_range.1 hk)
    fun k _ => h3 k
  cases h1.symm.trans h1'
  obtain ⟨hworld, -, A, table, hI⟩ := exists_isTiled (L := Lattice.ofWorld w) hd hr' h hst hm hp hb
    hok hD hw
  have hlen := (hI.tiling hd).sites.length_eq
  obtain ⟨m, data, g1, g2, g3, -, entry⟩ := torus_matrix hd hr h hst hm hp hb hok hD hw h1 h128
    hdoc
  refine ⟨L', m, data, h1, g1, g2, g3, fun k ψ hk hψ u φ hφ i x v hx hv => ?_⟩
  obtain ⟨l, f, e1, e2, e3, e5⟩ := h2 k ψ hk hψ i x hx
  obtain ⟨hi, -⟩ := List.getElem?_eq_some_iff.1 hx
  have hi' : i ∈ Finset.range D.numSites := Finset.mem_range.2 hi
  obtain ⟨l', e1', -, e4⟩ := hT i hi
  cases e1.symm.trans e1'
  refine ⟨f, e2, ?_⟩
  have hsum : ∑ j ∈ Finset.range D.numSites, (l.count j : ℂ) * φ j = v * (l.map ψ).sum := by
    have hmv : v * (l.map ψ).sum = (l.map φ).sum := by
      rw [← List.sum_map_mul_left]
      congr 1
      refine List.map_congr_left fun j hj => ?_
      obtain ⟨t, -, p, q, -, hq, -⟩ := (e4 j).1 hj
      have hjl := (List.getElem?_eq_some_iff.1 hq).1
      rw [← hlen] at hjl
      have hb := List.getElem?_eq_getElem hjl
      obtain ⟨c, hc⟩ := e5 j hj _ hb
      rw [hφ j _ hb, ← hv _ hc, Idx.alpha_mk]
    rw [hmv]
    rw [Finset.sum_list_map_count]
    symm
    refine Finset.sum_subset_zero_on_sdiff (fun j hj => ?_) (fun j hj => ?_) fun j _ => ?_
    · obtain ⟨t, -, p, q, -, hq, -⟩ := (e4 j).1 (List.mem_toFinset.1 hj)
      have := (List.getElem?_eq_some_iff.1 hq).1
      rw [← hlen] at this
      exact Finset.mem_range.2 this
    · rw [Finset.mem_sdiff, List.mem_toFinset] at hj
      rw [List.count_eq_zero.2 hj.2, Nat.cast_zero, zero_mul]
    · rw [nsmul_eq_mul]
  calc ∑ j ∈ Finset.range D.numSites, m.csrEntry data i j * φ j
      = ∑ j ∈ Finset.range D.numSites,
          ((if i = j then lastValue (ForSite x.alpha.toNat) assigns * φ j else 0) +
            lastValue (ForLink 0) assigns * ((l.count j : ℂ) * φ j)) := by
        refine Finset.sum_congr rfl fun j _ => ?_
        rw [entry i j x l hx e1, nsmul_eq_mul, add_mul, ite_mul, zero_mul]
        ring
    _ = lastValue (ForSite x.alpha.toNat) assigns * φ i +
          lastValue (ForLink 0) assigns * (v * (f * ψ i)) := by
        rw [Finset.sum_add_distrib, Finset.sum_ite_eq, if_pos hi', ← Finset.mul_sum, hsum, e3]
    _ = _ := by rw [hφ i x hx]; ring

/-- The number of sites of a block of whole cells. -/
theorem block_card {n : ℕ} {D : LatticeData d ℝ} {lo : Fin d → ℤ} {size : Fin d → ℕ}
    (hnd : D.indices.Nodup) (hw : CellBlock n D lo size) : D.numSites = n * ∏ k, size k := by
  have hset : D.indices.toFinset = ((Fintype.piFinset fun k => Finset.Ico (lo k) (lo k + size k)) ×ˢ
      Finset.Ico (0 : ℤ) n).image (fun p => (Idx.mk p.1 p.2 : Idx d)) := by
    ext x
    rw [List.mem_toFinset, Finset.mem_image, hw x]
    constructor
    · intro h
      refine ⟨(Idx.cell x, Idx.alpha x), ?_, Idx.mk_cell_alpha x⟩
      rw [Finset.mem_product, Fintype.mem_piFinset, Finset.mem_Ico]
      exact ⟨fun k => Finset.mem_Ico.2 (h.2 k), h.1⟩
    · rintro ⟨⟨c, α⟩, h, rfl⟩
      rw [Finset.mem_product, Fintype.mem_piFinset, Finset.mem_Ico] at h
      rw [Idx.alpha_mk, Idx.cell_mk]
      exact ⟨h.2, fun k => Finset.mem_Ico.1 (h.1 k)⟩
  have h1 : D.indices.toFinset.card = D.indices.length := List.toFinset_card_of_nodup hnd
  rw [hset, Finset.card_image_of_injective, Finset.card_product, Fintype.card_piFinset,
    Int.card_Ico, sub_zero, Int.toNat_natCast, mul_comm] at h1
  · refine Eq.trans h1.symm ?_
    congr 1
    refine Finset.prod_congr rfl fun k _ => ?_
    rw [Int.card_Ico, add_sub_cancel_left, Int.toNat_natCast]
  · rintro ⟨c, α⟩ ⟨c', α'⟩ e
    dsimp only at e
    rw [Idx.mk_inj] at e
    rw [e.1, e.2]

/-! ## C126 -/

/-- C126: on a block of whole cells that is periodic along all axes the sum of a plane wave over the
neighbours of a site is the Fourier weight of the atom times the wave at the site. -/
theorem C126_neighbors_partial (hd : 0 < d) {env : Env ℝ} {w : World d ℝ} {L : Lattice d ℝ}
    (hr : Reachable env w) {r : ℝ} {N : ℕ → Set (Idx d)} (h : NearestOnly w r N)
    (hst : NearSteps N) {a : BuildArgs d ℝ} (hm : a.minNeighbors = none) (hp : a.periodic = none)
    (hb : a.bits = none) (hok : (Lattice.ofWorld w).build env a = (L, .ok ()))
    (hprim : a.primitive = true ∨ Orthogonal w.struct.basis) {D : LatticeData d ℝ}
    (hD : L.data = some D) {lo : Fin d → ℤ} {size : Fin d → ℕ}
    (hw : WholeCells w.struct D lo size) (h3 : ∀ k, 3 ≤ size k)
    (hne : ∀ α < w.struct.numBase, (N α).Nonempty) :
    ∃ L', L.setPeriodic env (.axes (List.range d)) = (L', .ok ()) ∧
      ∀ (k : Vec d ℝ) (ψ : ℕ → ℂ), Commensurate w.struct size k → IsPlaneWave D k ψ →
      ∀ (i : ℕ) (x : Idx d), D.indices[i]? = some x →
        ∃ l f, L'.neighbors i none false = .ok l ∧
          w.struct.fourierWeights (.flat (List.ofFn k)) x.alpha 0 = .ok f ∧
          (l.map ψ).sum = f * ψ i := by
  obtain ⟨L', h1, h2⟩ := bloch_neighbors hd hr h hst hm hp hb hok hprim hD hw h3 hne
  refine ⟨L', h1, fun k ψ hk hψ i x hx => ?_⟩
  obtain ⟨l, f, e1, e2, e3, -⟩ := h2 k ψ hk hψ i x hx
  exact ⟨l, f, e1, e2, e3⟩

/-- C126: the matrix assembled from `dmap()` with the value `ε` of the sites (which may depend on the
atom) and `t` of the links multiplies the plane wave by `ε + t f`, where `f` is the Fourier weight.  For
lattices with one atom per cell the plane waves are eigenvectors. -/
theorem C126_hamiltonian_partial (hd : 0 < d) {env : Env ℝ} {w : World d ℝ} {L : Lattice d ℝ}
    (hr : Reachable env w) {r : ℝ} {N : ℕ → Set (Idx d)} (h : NearestOnly w r N)
    (hst : NearSteps N) {a : BuildArgs d ℝ} (hm : a.minNeighbors = none) (hp : a.periodic = none)
    (hb : a.bits = none) (hok : (Lattice.ofWorld w).build env a = (L, .ok ()))
    (hprim : a.primitive = true ∨ Orthogonal w.struct.basis) {D : LatticeData d ℝ}
    (hD : L.data = some D) {lo : Fin d → ℤ} {size : Fin d → ℕ}
    (hw : WholeCells w.struct D lo size) (h3 : ∀ k, 3 ≤ size k)
    (hne : ∀ α < w.struct.numBase, (N α).Nonempty) (h128 : w.struct.numBase ≤ 128)
    {assigns : List (Mask × ℂ)} (hdoc : Documented assigns) :
    ∃ L' m data, L.setPeriodic env (.axes (List.range d)) = (L', .ok ()) ∧
      (L'.dmap env.argsortNat).2 = .ok m ∧ m.fill assigns = .ok data ∧
      m.csrShape = .ok (D.numSites, D.numSites) ∧
      ∀ (k : Vec d ℝ) (ψ : ℕ → ℂ), Commensurate w.struct size k → IsPlaneWave D k ψ →
      ∀ (i : ℕ) (x : Idx d), D.indices[i]? = some x →
        ∃ f, w.struct.fourierWeights (.flat (List.ofFn k)) x.alpha 0 = .ok f ∧
          ∑ j ∈ Finset.range D.numSites, m.csrEntry data i j * ψ j =
            (lastValue (ForSite x.alpha.toNat) assigns + lastValue (ForLink 0) assigns * f) * ψ i := by
  obtain ⟨L', m, data, h1, g1, g2, g3, h2⟩ := bloch_matrix hd hr h hst hm hp hb hok hprim hD hw h3
    hne h128 hdoc
  refine ⟨L', m, data, h1, g1, g2, g3, fun k ψ hk hψ i x hx => ?_⟩
  obtain ⟨f, e1, e2⟩ := h2 k ψ hk hψ (fun _ => 1) ψ (fun j b _ => (one_mul _).symm) i x 1 hx
    fun _ _ => rfl
  exact ⟨f, e1, by rw [e2, mul_one, mul_one]⟩

/-- C126 for graphene: the Bloch Hamiltonian.  On waves with the amplitude `u 0` on the first and `u 1`
on the second sublattice the matrix acts as the 2 × 2 matrix with the values of the sites on the
diagonal and the Fourier weight times the value of the links next to it. -/
theorem C126_graphene_partial (env : Env ℝ) (s : Session) (a : ℝ) (ha : 1 ≤ a)
    (size : Fin 2 → ℕ) (σ : Vec 2 ℝ) (isInt : Bool) (hm : ∀ k, 3 ≤ size k)
    (hσ : ∀ k, (size k : ℝ) - 2 / 3 ≤ σ k ∧ σ k < size k - 1 / 1000 ∧
      3 * σ k ≤ 2 * (a * (σ 0 + σ 1)))
    {assigns : List (Mask × ℂ)} (hdoc : Documented assigns) :
    ∃ w L D L' m data, graphene env s a = .ok w ∧
      (Lattice.ofWorld w).build env (primitiveBox σ isInt) = (L, .ok ()) ∧ L.data = some D ∧
      D.numSites = 2 * (size 0 * size 1) ∧
      L.setPeriodic env (.axes [0, 1]) = (L', .ok ()) ∧ (L'.dmap env.argsortNat).2 = .ok m ∧
      m.fill assigns = .ok data ∧ m.csrShape = .ok (D.numSites, D.numSites) ∧
      ∀ (k : Vec 2 ℝ) (ψ : ℕ → ℂ), Commensurate w.struct size k → IsPlaneWave D k ψ →
      ∀ (u : ℤ → ℂ) (φ : ℕ → ℂ), (∀ (j : ℕ) (b : Idx 2), D.indices[j]? = some b →
        φ j = u b.alpha * ψ j) →
      ∀ (i : ℕ) (x : Idx 2), D.indices[i]? = some x →
        (x.alpha = 0 → ∑ j ∈ Finset.range D.numSites, m.csrEntry data i j * φ j =
          (lastValue (ForSite 0) assigns * u 0 +
            lastValue (ForLink 0) assigns * honeycombWeight a k * u 1) * ψ i) ∧
        (x.alpha ≠ 0 → x.alpha = 1 ∧ ∑ j ∈ Finset.range D.numSites, m.csrEntry data i j * φ j =
          (lastValue (ForSite 1) assigns * u 1 +
            lastValue (ForLink 0) assigns * conj (honeycombWeight a k) * u 0) * ψ i) := by
  obtain ⟨w, h1, hr, hN, -, hb, hB⟩ := graphene_block env s a ha
  obtain ⟨L, D, b, c, hw⟩ := hB size σ isInt hm hσ
  have ha' : 1 / 10 ^ 5 ≤ |a| := by rw [abs_of_pos (by linarith)]; linarith
  obtain ⟨w', h1', f0, f1⟩ := C88_graphene_partial env s a ha'
  cases h1.symm.trans h1'
  obtain ⟨L', m, data, g1, g2, g3, g4, g5⟩ := bloch_matrix two_pos hr hN
    (nearSteps_planar le_rfl honeySets_steps) rfl rfl rfl b (Or.inl rfl) c hw hm
    (by intro α _; unfold honeySets; split <;> exact ⟨_, Or.inl rfl⟩) (by rw [hb]; norm_num) hdoc
  refine ⟨w, L, D, L', m, data, h1, b, c, ?_, g1, g2, g3, g4, ?_⟩
  · have hr' : Reachable env (Lattice.ofWorld w).world := hr
    obtain ⟨-, -, A, table, hI⟩ := exists_isTiled (L := Lattice.ofWorld w) two_pos hr' hN
      (nearSteps_planar le_rfl honeySets_steps) rfl rfl rfl b c hw
    have := block_card (n := w.struct.numBase) (hI.tiling two_pos).nodup hw
    rw [hb, Fin.prod_univ_two] at this
    exact this
  · intro k ψ hk hψ u φ hφ i x hx
    have hα := ((hw x).1 (List.mem_of_getElem? hx)).1
    rw [hb] at hα
    constructor
    · intro h0
      obtain ⟨f, e1, e2⟩ := g5 k ψ hk hψ u φ hφ i x (u 1) hx (by
        rw [h0]
        intro y hy
        rcases hy with rfl | rfl | rfl <;> rw [Idx.alpha_mk])
      rw [h0, f0 k] at e1
      cases e1
      rw [e2, h0]
      rfl
    · intro h0
      have h1 : x.alpha = 1 := by
        have := hα.2
        push_cast at this
        omega
      obtain ⟨f, e1, e2⟩ := g5 k ψ hk hψ u φ hφ i x (u 0) hx (by
        rw [h1]
        intro y hy
        rcases hy with rfl | rfl | rfl <;> rw [Idx.alpha_mk])
      rw [h1, f1 k] at e1
      cases e1
      refine ⟨h1, ?_⟩
      rw [e2, h1]
      rfl

/-- A graphene sheet of 10 × 18 cells at the zone centre: the symmetric wave has the energy
`3 · 27 / 10`. -/
example (env : Env ℝ) (s : Session) : ∃ w L D L' m data, graphene env s 1 = .ok w ∧
    (Lattice.ofWorld w).build env (primitiveBox ![19 / 2, 35 / 2] false) = (L, .ok ()) ∧
    L.data = some D ∧ D.numSites = 360 ∧ L.setPeriodic env (.axes [0, 1]) = (L', .ok ()) ∧
    (L'.dmap env.argsortNat).2 = .ok m ∧ m.fill [(.hopping (some 0), (27 / 10 : ℂ))] = .ok data ∧
    ∀ i < 360, ∑ j ∈ Finset.range 360, m.csrEntry data i j = 81 / 10 := by
  obtain ⟨w, L, D, L', m, data, h1, h2, h3, h4, h5, h6, h7, -, h8⟩ := C126_graphene_partial env s 1
    le_rfl ![10, 18] ![19 / 2, 35 / 2] false (by intro k; fin_cases k <;> simp)
    (by intro k; fin_cases k <;> norm_num) (assigns := [(.hopping (some 0), (27 / 10 : ℂ))])
    (by
      intro p hp
      simp only [List.mem_cons, List.not_mem_nil, or_false] at hp
      subst hp
      exact ⟨nofun, fun a ha => by cases ha; rfl⟩)
  have h4' : D.numSites = 360 := h4
  have e1 : lastValue (ForLink 0) [(Mask.hopping (some 0), (27 / 10 : ℂ))] = 27 / 10 := by
    simp [lastValue, ForLink]
  have e2 : ∀ n, lastValue (ForSite n) [(Mask.hopping (some 0), (27 / 10 : ℂ))] = 0 := by
    intro n
    simp [lastValue, ForSite]
  have e3 : honeycombWeight 1 0 = 3 := by
    simp [honeycombWeight]
    norm_num
  refine ⟨w, L, D, L', m, data, h1, h2, h3, h4', h5, h6, h7, fun i hi => ?_⟩
  have hi' : i < D.indices.length := by rw [← h4'] at hi; exact hi
  have := h8 0 (fun _ => 1) (fun m => ⟨0, by simp⟩) (fun j q _ => by simp [planeWave])
    (fun _ => 1) (fun _ => 1) (fun j b _ => (one_mul _).symm) i _ (List.getElem?_eq_getElem hi')
  rw [e1, e2, e2, e3, h4'] at this
  by_cases h0 : Idx.alpha D.indices[i] = 0
  · have := this.1 h0
    simp only [mul_one] at this
    rw [this]
    norm_num
  · have := (this.2 h0).2
    simp only [mul_one] at this
    rw [this, map_ofNat]
    norm_num

/-- There is a plane wave for all numbers `z m` of oscillations along the edges of the block. -/
example {S : Structure d ℝ} (hS : IsUnit S.basis.vectors.det) {size : Fin d → ℕ}
    (hs : ∀ m, 0 < size m) (z : Fin d → ℤ) : ∃ k : Vec d ℝ, Commensurate S size k ∧
      ∀ m, (size m : ℝ) * ∑ c, k c * S.basis.vectors m c = 2 * Real.pi * z m := by
  have key : ∀ m, ∑ c, (S.basis.vectors⁻¹.mulVec fun m => 2 * Real.pi * z m / size m) c *
      S.basis.vectors m c = 2 * Real.pi * z m / size m := by
    intro m
    have := congrFun (Matrix.mulVec_mulVec (fun m => 2 * Real.pi * (z m : ℝ) / size m)
      S.basis.vectors S.basis.vectors⁻¹) m
    rw [Matrix.mul_nonsing_inv _ hS, Matrix.one_mulVec] at this
    rw [← this]
    exact Finset.sum_congr rfl fun c _ => mul_comm _ _
  have h : ∀ m, (size m : ℝ) * (2 * Real.pi * z m / size m) = 2 * Real.pi * z m := fun m =>
    mul_div_cancel₀ _ (Nat.cast_pos.2 (hs m)).ne'
  exact ⟨_, fun m => ⟨z m, by rw [key, h]⟩, fun m => by rw [key, h]⟩

/-- C126 fails for the single shells of short rings: five sites with three neighbour shells and periodic
boundaries.  The infinite chain has two second neighbours, hence the Fourier weight at `k = 0`, where the
plane wave is constant, counts two.  The ring stores one second neighbour of the first site
(`C64_level_fails`). -/
theorem C126_shells_fails :
    let env := Env.brute ℚ
    let L := (Runs.chain 3).build env { shape := .size [4] false, periodic := some (.axes [0]) }
    L.2 = .ok () ∧ L.1.numSites = 5 ∧ L.1.periodicAxes = [0] ∧
    ((L.1.struct.getNeighbors 0 0 1).toOption.map List.length) = some 2 ∧
    L.1.neighbors 0 (some 1) false = .ok [2] := by
  decide +kernel

end Lattpy
