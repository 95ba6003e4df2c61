import Verif.Model.Fourier
import Verif.Props.PresetConst
import Verif.Props.BrillouinZone
import Verif.Props.StructureQuery

/-!
# C88: Fourier weights
-/

set_option linter.unusedSectionVars false

open Matrix ComplexConjugate

namespace Lattpy
open Structure Preset
variable {d : ℕ}

/-- The phase factor of the site at `p` seen from the site at `p0`. -/
noncomputable def phase (k p p0 : Vec d ℝ) : ℂ :=
  Complex.exp (Complex.I * ((∑ i, k i * (p i - p0 i) : ℝ) : ℂ))

/-- `f` is the Fourier weight of atom `α` for the neighbours with distance number `j`. -/
def IsWeight (w : World d ℝ) (α j : ℤ) (f : Vec d ℝ → ℂ) : Prop :=
  ∀ k, w.struct.fourierWeights (.flat (List.ofFn k)) α j = .ok (f k)

theorem fourier_flat {S : Structure d ℝ} {α j : ℤ} {vs : List (Vec d ℝ)}
    (h : S.getNeighborVectors α j false = .ok vs) (k : Vec d ℝ) :
    S.fourierWeights (.flat (List.ofFn k)) α j =
      .ok (vs.map fun v => Complex.exp (Complex.I * ((k ⬝ᵥ v : ℝ) : ℂ))).sum := by
  unfold fourierWeights
  rw [h]
  dsimp only
  unfold npInner
  dsimp only
  rw [toVec_ofFn]
  simp [Function.comp_def]

theorem vectors_explicit (hd : 0 < d) {env : Env ℝ} {w : World d ℝ} (h : Reachable env w)
    (α j : ℤ) {l : List (Idx d)} (hl : w.struct.getNeighbors 0 α j = .ok l) :
    ∃ (ps : List (Vec d ℝ)) (p0 : Vec d ℝ),
      pyGet w.struct.positions α = some p0 ∧ List.Forall₂ (IsSitePos w.struct) l ps ∧
      w.struct.getNeighborVectors α j false = .ok (ps.map fun p => p - p0) := by
  obtain ⟨ps, p0, x, h1, h2, -, -, -, h3, -⟩ := getNeighborVectors_ok hd h α j hl
  obtain ⟨ps', p0', x', h1', h5, -⟩ := C35_neighbor_positions hd h 0 α j hl
  rw [h1] at h1'
  simp only [Except.ok.injEq] at h1'
  subst h1'
  refine ⟨ps, p0, ?_, h5, h3 false⟩
  unfold getPosition at h2
  split at h2
  · cases h2
  · rename_i r hr
    simp only [Except.ok.injEq] at h2
    rw [hr, ← h2]

/-- C88: for a valid query the weight of a wave vector is the sum of the phase factors of the
neighbours; it is their number for the zero wave vector and at most their number in modulus, and
opposite wave vectors have conjugate weights. -/
theorem C88_weight_partial (hd : 0 < d) {env : Env ℝ} {w : World d ℝ} (h : Reachable env w)
    (α j : ℤ) {l : List (Idx d)} (hl : w.struct.getNeighbors 0 α j = .ok l) :
    ∃ (f : Vec d ℝ → ℂ) (ps : List (Vec d ℝ)) (p0 : Vec d ℝ), IsWeight w α j f ∧
      pyGet w.struct.positions α = some p0 ∧ List.Forall₂ (IsSitePos w.struct) l ps ∧
      (∀ k, f k = (ps.map fun p => phase k p p0).sum) ∧
      f 0 = l.length ∧ (∀ k, ‖f k‖ ≤ l.length) ∧ ∀ k, f (-k) = conj (f k) := by
  obtain ⟨ps, p0, h1, h2, h3⟩ := vectors_explicit hd h α j hl
  have hlen : l.length = ps.length := h2.length_eq
  refine ⟨fun k => (ps.map fun p => phase k p p0).sum, ps, p0, ?_, h1, h2, fun k => rfl, ?_, ?_, ?_⟩
  · intro k
    rw [fourier_flat h3]
    congr 2
    rw [List.map_map]
    refine List.map_congr_left fun p _ => ?_
    simp [phase, dotProduct]
  · simp [phase, hlen]
  · intro k
    rw [hlen]
    clear h2 h3 hlen
    induction ps with
    | nil => simp
    | cons p ps ih =>
      simp only [List.map_cons, List.sum_cons, List.length_cons]
      refine (norm_add_le _ _).trans ?_
      have : ‖phase k p p0‖ = 1 := by
        unfold phase
        rw [mul_comm]
        exact Complex.norm_exp_ofReal_mul_I _
      rw [this]
      push_cast
      linarith
  · intro k
    dsimp only
    rw [map_list_sum, List.map_map]
    congr 1
    refine List.map_congr_left fun p _ => ?_
    simp only [phase, Function.comp_apply, Pi.neg_apply]
    rw [← Complex.exp_conj]
    congr 1
    simp

/-- The call raises like `get_neighbors`; a wave vector of the wrong length is a `ValueError`. -/
theorem C88_errors (hd : 0 < d) {env : Env ℝ} {w : World d ℝ} (h : Reachable env w) (α j : ℤ) :
    (∀ e, w.struct.getNeighbors 0 α j = .error e → ∀ k, w.struct.fourierWeights k α j = .error e) ∧
    (∀ l, w.struct.getNeighbors 0 α j = .ok l → ∀ k : List ℝ,
      (k.length ≠ d → w.struct.fourierWeights (.flat k) α j = .error .value) ∧
      (k.length = d → ∃ z, w.struct.fourierWeights (.flat k) α j = .ok z)) := by
  have hS := h.good hd
  constructor
  · intro e he k
    have : w.struct.getNeighborVectors α j false = .error e := by
      unfold getNeighborVectors getNeighborPositions
      rw [he]
      cases hA : w.struct.analysis with
      | none =>
        simp only [getNeighbors, hA] at he
        simpa using he
      | some A =>
        dsimp only
        cases hp : pyGet w.struct.positions α with
        | none =>
          obtain ⟨cells, m, c, -, -, -, -, -, hI⟩ := hS.analysis A hA
          rw [pyGet_eq_none, hS.positions_length, ← hI.base_length, ← pyGet_eq_none] at hp
          simp only [getNeighbors, hA, hp] at he
          simpa using he
        | some p => rfl
    unfold fourierWeights
    rw [this]
  · intro l hl k
    obtain ⟨ps, p0, h1, h2, h3⟩ := vectors_explicit hd h α j hl
    unfold fourierWeights
    rw [h3]
    dsimp only
    unfold npInner
    dsimp only
    constructor
    · intro hk
      unfold toVec
      rw [dif_neg hk]
    · intro hk
      unfold toVec
      rw [dif_pos hk]
      exact ⟨_, rfl⟩

theorem Idx.mk_self (i : Idx d) : Idx.mk i.cell i.alpha = i := Fin.snoc_init_self i

/-- For rows of wave vectors the answer is the sum of their weights. -/
theorem C88_rows_partial (hd : 0 < d) {env : Env ℝ} {w : World d ℝ} (h : Reachable env w) {α j : ℤ}
    {l : List (Idx d)} (hl : w.struct.getNeighbors 0 α j = .ok l) {f : Vec d ℝ → ℂ}
    (hf : IsWeight w α j f) (ks : List (Vec d ℝ)) :
    w.struct.fourierWeights (.rows (ks.map List.ofFn)) α j = .ok (ks.map f).sum := by
  obtain ⟨ps, p0, -, -, h3⟩ := vectors_explicit hd h α j hl
  have e : ∀ k, f k = ((ps.map fun p => p - p0).map fun v =>
      Complex.exp (Complex.I * ((k ⬝ᵥ v : ℝ) : ℂ))).sum := by
    intro k
    have := (hf k).symm.trans (fourier_flat h3 k)
    simpa using this
  have hm : (ks.map List.ofFn).mapM (toVec : List ℝ → Option (Vec d ℝ)) = some ks := by
    induction ks with
    | nil => rfl
    | cons k ks ih =>
      rw [List.map_cons, List.mapM_cons, ih, toVec_ofFn]
      rfl
  unfold fourierWeights
  rw [h3]
  dsimp only
  unfold npInner
  dsimp only
  rw [hm]
  dsimp only
  congr 1
  clear hm
  induction ks with
  | nil => rfl
  | cons k ks ih =>
    rw [List.flatMap_cons, List.map_append, List.sum_append, ih, List.map_cons, List.sum_cons, e,
      List.map_map]
    rfl

/-- The position of the site `idx`. -/
noncomputable def sitePoint (S : Structure d ℝ) (idx : Idx d) : Vec d ℝ :=
  fun q => S.posOf idx.alpha.toNat q + ∑ i, (idx.cell i : ℝ) * S.basis.vectors i q

theorem sitePos_eq {S : Structure d ℝ} {l : List (Idx d)} {ps : List (Vec d ℝ)}
    (h : List.Forall₂ (IsSitePos S) l ps) : ps = l.map (sitePoint S) := by
  induction h with
  | nil => rfl
  | cons hp _ ih =>
    rw [List.map_cons, ← ih]
    congr 1
    obtain ⟨b, r, hb, hr, rfl⟩ := hp
    unfold sitePoint
    rw [hb, Int.toNat_natCast, posOf_eq hr]

theorem getNeighbors_listed (hd : 0 < d) {env : Env ℝ} {w : World d ℝ} (h : Reachable env w)
    {α j : ℤ} {l : List (Idx d)} (hl : w.struct.getNeighbors 0 α j = .ok l) :
    ∃ (A : Analysis d ℝ) (a : ℕ) (x : ℝ), w.struct.analysis = some A ∧ a < w.struct.numBase ∧
      (α = a ∨ α = (a : ℤ) - w.struct.numBase) ∧ l.Nodup ∧
      ∀ idx, idx ∈ l ↔ Listed A a x idx := by
  have hS := h.good hd
  obtain ⟨A, a, D, x, pa, hA, ha, hab, hD, -, hx, hwf, hnd, -, -, -⟩ := getNeighbors_info hS hl
  refine ⟨A, a, x, hA, hab, ha, hnd, ?_⟩
  intro idx
  obtain ⟨cells, m, c, -, -, -, -, -, hI⟩ := hS.analysis A hA
  have hb : pyGet A.base α = some D := pyGet_eq_some.2 ⟨a, by rw [hI.base_length]; exact ha, hD⟩
  unfold getNeighbors at hl
  rw [hA] at hl
  dsimp only at hl
  rw [hb] at hl
  dsimp only at hl
  rw [hx] at hl
  dsimp only at hl
  split at hl
  · cases hl
  · rename_i xs hxs
    simp only [Except.ok.injEq] at hl
    have : shiftIdx (d := d) 0 = id := by
      funext i
      unfold shiftIdx
      have : (fun q => i.cell q + (0 : Fin d → ℤ) q) = i.cell := by
        funext q
        simp
      rw [this, Idx.mk_self]
      rfl
    rw [this, List.map_id] at hl
    subst hl
    have hmem := (NDict.get?_eq_some hwf.1).1 hxs
    constructor
    · intro hi
      exact ⟨D, xs, hD, hmem, hi⟩
    · rintro ⟨D', xs', hD', hmem', hi⟩
      rw [hD] at hD'
      cases hD'
      have := (NDict.get?_eq_some hwf.1).2 hmem'
      rw [hxs] at this
      cases this
      exact hi

/-- The weight as sum over the neighbours. -/
theorem weight_sum (hd : 0 < d) {env : Env ℝ} {w : World d ℝ} (h : Reachable env w)
    {α j : ℤ} {l : List (Idx d)} (hl : w.struct.getNeighbors 0 α j = .ok l) {p0 : Vec d ℝ}
    (hp0 : pyGet w.struct.positions α = some p0) :
    IsWeight w α j fun k => (l.map fun idx => phase k (sitePoint w.struct idx) p0).sum := by
  obtain ⟨f, ps, p0', h1, h2, h3, h4, -⟩ := C88_weight_partial hd h α j hl
  rw [hp0] at h2
  cases h2
  intro k
  rw [h1 k, h4, sitePos_eq h3, List.map_map]
  rfl

theorem phase_add (k G p p0 : Vec d ℝ) : phase (k + G) p p0 = phase G p p0 * phase k p p0 := by
  unfold phase
  rw [← Complex.exp_add, ← mul_add, ← Complex.ofReal_add, ← Finset.sum_add_distrib]
  congr 3
  refine Finset.sum_congr rfl fun i _ => ?_
  rw [Pi.add_apply]
  ring

theorem phase_reciprocal {rows : Matrix (Fin d) (Fin d) ℝ} {G : Vec d ℝ} (hG : IsReciprocal rows G)
    (n : Fin d → ℤ) (r p0 : Vec d ℝ) :
    phase G (fun q => r q + ∑ i, (n i : ℝ) * rows i q) p0 = phase G r p0 := by
  choose m hm using hG
  have : ∑ q, G q * ((r q + ∑ i, (n i : ℝ) * rows i q) - p0 q) =
      ∑ q, G q * (r q - p0 q) + 2 * Real.pi * ((∑ i, n i * m i : ℤ) : ℝ) := by
    have e : ∀ q, G q * ((r q + ∑ i, (n i : ℝ) * rows i q) - p0 q) =
        G q * (r q - p0 q) + ∑ i, (n i : ℝ) * (rows i q * G q) := by
      intro q
      rw [show ∑ i, (n i : ℝ) * (rows i q * G q) = G q * ∑ i, (n i : ℝ) * rows i q by
        rw [Finset.mul_sum]; exact Finset.sum_congr rfl fun i _ => by ring]
      ring
    rw [Finset.sum_congr rfl fun q _ => e q, Finset.sum_add_distrib, Finset.sum_comm]
    congr 1
    push_cast
    rw [Finset.mul_sum]
    refine Finset.sum_congr rfl fun i _ => ?_
    rw [← Finset.mul_sum]
    have := hm i
    unfold dotProduct at this
    rw [this]
    ring
  unfold phase
  rw [this, Complex.ofReal_add, mul_add, Complex.exp_add]
  have h1 : Complex.exp (Complex.I * ((2 * Real.pi * ((∑ i, n i * m i : ℤ) : ℝ) : ℝ) : ℂ)) = 1 := by
    have := Complex.exp_int_mul_two_pi_mul_I (∑ i, n i * m i)
    rw [← this]
    congr 1
    push_cast
    ring
  rw [h1, mul_one]

/-- C88: if all neighbours are on one sublattice, adding a reciprocal lattice vector to the wave
vector multiplies the weight by the phase between the two sublattices. -/
theorem C88_reciprocal_partial (hd : 0 < d) {env : Env ℝ} {w : World d ℝ} (h : Reachable env w)
    {α j : ℤ} {l : List (Idx d)} (hl : w.struct.getNeighbors 0 α j = .ok l) {f : Vec d ℝ → ℂ}
    (hf : IsWeight w α j f) {p0 pb : Vec d ℝ} (hp0 : pyGet w.struct.positions α = some p0) (b : ℕ)
    (hpb : w.struct.positions[b]? = some pb) (hall : ∀ idx ∈ l, idx.alpha = b) (G : Vec d ℝ)
    (hG : IsReciprocal w.struct.basis.vectors G) (k : Vec d ℝ) :
    f (k + G) = phase G pb p0 * f k ∧ ‖f (k + G)‖ = ‖f k‖ := by
  have key : f (k + G) = phase G pb p0 * f k := by
    have hs := weight_sum hd h hl hp0
    have e : ∀ k, f k = (l.map fun idx => phase k (sitePoint w.struct idx) p0).sum := by
      intro k
      have := (hf k).symm.trans (hs k)
      simpa using this
    rw [e, e, ← List.sum_map_mul_left]
    congr 1
    refine List.map_congr_left fun idx hidx => ?_
    rw [phase_add]
    congr 1
    have := hall idx hidx
    unfold sitePoint
    rw [phase_reciprocal hG, this, Int.toNat_natCast, posOf_eq hpb]
  refine ⟨key, ?_⟩
  rw [key, norm_mul]
  have : ‖phase G pb p0‖ = 1 := by
    unfold phase
    rw [mul_comm]
    exact Complex.norm_exp_ofReal_mul_I _
  rw [this, one_mul]

theorem perm_neg (hd : 0 < d) {env : Env ℝ} {w : World d ℝ} (h : Reachable env w)
    {α j : ℤ} {l : List (Idx d)} (hl : w.struct.getNeighbors 0 α j = .ok l) (a : ℕ)
    (ha : a < w.struct.numBase) (hα : α = a ∨ α = (a : ℤ) - w.struct.numBase)
    (hall : ∀ idx ∈ l, idx.alpha = a) : (l.map fun idx => Idx.mk (-idx.cell) idx.alpha).Perm l := by
  obtain ⟨A, a', x, hA, ha', hα', hnd, hmem⟩ := getNeighbors_listed hd h hl
  have : a' = a := by omega
  subst this
  have hneg : ∀ idx ∈ l, Idx.mk (-idx.cell) idx.alpha ∈ l := by
    intro idx hidx
    rw [hall idx hidx, hmem, ← C33_neighbors_symmetric hd h hA, ← hmem]
    have := hall idx hidx
    rw [← this, Idx.mk_self]
    exact hidx
  rw [List.perm_ext_iff_of_nodup _ hnd]
  · intro idx
    rw [List.mem_map]
    constructor
    · rintro ⟨i, hi, rfl⟩
      exact hneg i hi
    · intro hi
      refine ⟨_, hneg idx hi, ?_⟩
      simp [Idx.mk_self]
  · refine hnd.map fun i i' hii => ?_
    rw [Idx.mk_inj] at hii
    rw [← Idx.mk_self i, ← Idx.mk_self i', neg_injective hii.1, hii.2]

/-- C88: if all neighbours are on the sublattice of the atom, as in every lattice with one atom per
cell, the weight is real and has the periodicity of the reciprocal lattice. -/
theorem C88_own_sublattice_partial (hd : 0 < d) {env : Env ℝ} {w : World d ℝ}
    (h : Reachable env w) {α j : ℤ} {l : List (Idx d)}
    (hl : w.struct.getNeighbors 0 α j = .ok l) {f : Vec d ℝ → ℂ} (hf : IsWeight w α j f) (a : ℕ)
    (hα : α = a ∨ α = (a : ℤ) - w.struct.positions.length) (ha : a < w.struct.positions.length)
    (hall : ∀ idx ∈ l, idx.alpha = a) (k : Vec d ℝ) :
    (f k).im = 0 ∧ f (-k) = f k ∧
      ∀ G, IsReciprocal w.struct.basis.vectors G → f (k + G) = f k := by
  have hpa : w.struct.positions[a]? = some w.struct.positions[a] := List.getElem?_eq_getElem ha
  have hp0 := pyGet_eq_some.2 ⟨a, hα, hpa⟩
  have hlen := (h.good hd).positions_length
  obtain ⟨g, ps, p0, h1, -, -, -, -, -, h2⟩ := C88_weight_partial hd h α j hl
  have hg : g = f := by
    funext k
    have := (h1 k).symm.trans (hf k)
    simpa using this
  subst hg
  have hs := weight_sum hd h hl hp0
  have e : ∀ k, g k = (l.map fun idx => phase k (sitePoint w.struct idx) w.struct.positions[a]).sum := by
    intro k
    have := (hf k).symm.trans (hs k)
    simpa using this
  have heven : g (-k) = g k := by
    rw [e, e]
    have hp := perm_neg hd h hl a (by omega) (by rw [← hlen]; exact hα) hall
    rw [← (hp.map fun idx => phase k (sitePoint w.struct idx) w.struct.positions[a]).sum_eq,
      List.map_map]
    congr 1
    refine List.map_congr_left fun idx hidx => ?_
    have hi := hall idx hidx
    simp only [Function.comp_apply, phase, sitePoint, Idx.cell_mk, Idx.alpha_mk]
    rw [hi, Int.toNat_natCast, posOf_eq hpa]
    congr 3
    refine Finset.sum_congr rfl fun q _ => ?_
    simp only [Pi.neg_apply, Int.cast_neg, neg_mul, Finset.sum_neg_distrib]
    ring
  refine ⟨?_, heven, ?_⟩
  · rw [← Complex.conj_eq_iff_im, ← h2, heven]
  · intro G hG
    rw [(C88_reciprocal_partial hd h hl hf hp0 a hpa hall G hG k).1]
    simp [phase]

end Lattpy
