import Verif.Props.Translate

/-!
# C119: finite lattices do not depend on the unit of length
-/

set_option autoImplicit false

namespace Lattpy

open Structure World Preset

variable {d : ℕ}

/-! ## spec -/

/-- All lengths of the second structure are `s` times those of the first one. -/
structure Scaled (s : ℝ) (S S' : Structure d ℝ) : Prop where
  basis : ∀ i k, S'.basis.vectors i k = s * S.basis.vectors i k
  positions : S'.positions = S.positions.map fun r => s • r

/-- The second lattice is the first one in another unit of length: the sites have the same indices in
the same order, the positions are scaled, and every site has the same neighbours. -/
structure ScaledLattice (s : ℝ) (L1 : Lattice d ℝ) (D1 : LatticeData d ℝ) (L2 : Lattice d ℝ)
    (D2 : LatticeData d ℝ) : Prop where
  indices : D2.indices = D1.indices
  positions : D2.positions = D1.positions.map fun p => s • p
  neighbors : ∀ i < D1.numSites, ∃ l1 l2, L1.neighbors i none false = .ok l1 ∧
    L2.neighbors i none false = .ok l2 ∧ l1.Perm l2

/-! ## sites -/

theorem Scaled.frac {s : ℝ} (hs : 0 < s) {S S' : Structure d ℝ} (h : Scaled s S S') (x c : Vec d ℝ) :
    IsFrac S'.basis (s • x) c ↔ IsFrac S.basis x c := by
  unfold IsFrac
  refine forall_congr' fun i => ?_
  simp only [h.basis, Pi.smul_apply, smul_eq_mul]
  have e : ∑ k, c k * (s * S.basis.vectors k i) = s * ∑ k, c k * S.basis.vectors k i := by
    rw [Finset.mul_sum]
    refine Finset.sum_congr rfl fun k _ => by ring
  rw [e]
  exact ⟨fun h => mul_left_cancel₀ hs.ne' h, fun h => by rw [h]⟩

theorem Scaled.site {s : ℝ} (hs : 0 < s) {S S' : Structure d ℝ} (h : Scaled s S S') (x : Idx d)
    (p : Vec d ℝ) : IsSitePos S' x (s • p) ↔ IsSitePos S x p := by
  have key : ∀ r : Vec d ℝ, (fun i => (s • r) i + ∑ k, (x.cell k : ℝ) * S'.basis.vectors k i) =
      s • fun i => r i + ∑ k, (x.cell k : ℝ) * S.basis.vectors k i := by
    intro r
    funext i
    simp only [h.basis, Pi.smul_apply, smul_eq_mul]
    rw [mul_add, Finset.mul_sum]
    congr 1
    refine Finset.sum_congr rfl fun k _ => by ring
  have inj : ∀ u v : Vec d ℝ, s • u = s • v ↔ u = v := by
    intro u v
    constructor
    · intro e
      funext i
      have := congrFun e i
      simp only [Pi.smul_apply, smul_eq_mul] at this
      exact mul_left_cancel₀ hs.ne' this
    · rintro rfl
      rfl
  unfold IsSitePos
  constructor
  · rintro ⟨b, r', h1, h2, h3⟩
    rw [h.positions, List.getElem?_map, Option.map_eq_some_iff] at h2
    obtain ⟨r, h2, rfl⟩ := h2
    refine ⟨b, r, h1, h2, ?_⟩
    rw [key, inj] at h3
    exact h3
  · rintro ⟨b, r, h1, h2, rfl⟩
    refine ⟨b, s • r, h1, ?_, ?_⟩
    · rw [h.positions, List.getElem?_map, h2]
      rfl
    · rw [key]

theorem Scaled.unscale {s : ℝ} (hs : 0 < s) (q : Vec d ℝ) : ∃ p, q = s • p := by
  refine ⟨s⁻¹ • q, ?_⟩
  rw [smul_smul, mul_inv_cancel₀ hs.ne', one_smul]

theorem Scaled.reaches {s : ℝ} (hs : 0 < s) {S S' : Structure d ℝ} (h : Scaled s S S') {lo : Vec d ℝ}
    (hR : Reaches S.basis lo) : Reaches S'.basis (s • lo) := by
  have nn : ∀ x : Vec d ℝ, (∀ i, 0 ≤ (s • x) i) ↔ ∀ i, 0 ≤ x i := by
    intro x
    refine forall_congr' fun i => ?_
    simp only [Pi.smul_apply, smul_eq_mul]
    exact mul_nonneg_iff_of_pos_left hs
  intro k
  rcases hR k with hk | ⟨h0, x, c, hx, hx0, hxne, hck⟩
  · left
    intro y c hy hy0
    obtain ⟨x, rfl⟩ := Scaled.unscale hs y
    exact hk x c ((h.frac hs x c).1 hy) ((nn x).1 hy0)
  · right
    refine ⟨(nn lo).2 h0, s • x, c, (h.frac hs x c).2 hx, (nn x).2 hx0, ?_, hck⟩
    intro e
    apply hxne
    funext i
    have := congrFun e i
    simp only [Pi.smul_apply, smul_eq_mul, Pi.zero_apply, mul_eq_zero] at this
    exact this.resolve_left hs.ne'

/-- The sites accepted by a box, if no other sites are accepted by the tolerance. -/
theorem box_accepted {S : Structure d ℝ} {bits : Option ℕ} {size p : Vec d ℝ}
    {pos : Option (Vec d ℝ)} (hS : Searched S bits (.shape (.box size p none)) pos p (p + size))
    {x : Idx d} {q : Vec d ℝ} (hq : IsSitePos S x q) :
    Accepted S (.shape (.box size p none)) pos q ↔ ∀ k, p k ≤ q k ∧ q k ≤ p k + size k := by
  constructor
  · exact hS.sharp x q hq
  · intro h
    rw [← accepts_iff]
    unfold accepts AShape.contains
    simp only [decide_eq_true_eq]
    intro k
    have := h k
    constructor <;> linarith [this.1, this.2]

/-- C119 for `build_indices`: a structure with all lengths scaled by `s` has the same sites in the
scaled box, if at both scales the searched windows have the right size. -/
theorem C119_sites_partial (hd : 0 < d) {env : Env ℝ} {w w' : World d ℝ} (h : Reachable env w)
    (h' : Reachable env w') {s : ℝ} (hs : 0 < s) (hsc : Scaled s w.struct w'.struct)
    (hatoms : ∀ p ∈ w.struct.positions, ∃ c, IsFrac w.struct.basis p c ∧ ∀ k, 0 ≤ c k ∧ c k < 2)
    {size p : Vec d ℝ} (hsize : ∀ k, 0 ≤ size k) (hR : Reaches w.struct.basis p) {bits : Option ℕ}
    {pos pos' : Option (Vec d ℝ)}
    (hS : Searched w.struct bits (.shape (.box size p none)) pos p (p + size))
    (hS' : Searched w'.struct bits (.shape (.box (s • size) (s • p) none)) pos' (s • p) (s • p + s • size))
    {r r' : List (Idx d) × List (Vec d ℝ)}
    (hr : w.struct.buildIndices (.shape (.box size p none)) false pos true none bits = .ok r)
    (hr' : w'.struct.buildIndices (.shape (.box (s • size) (s • p) none)) false pos' true none bits =
      .ok r') :
    r'.1 = r.1 ∧ r'.2 = r.2.map fun q => s • q := by
  have hsize' : ∀ k, 0 ≤ (s • size) k := fun k => mul_nonneg hs.le (hsize k)
  have hatoms' : ∀ p ∈ w'.struct.positions, ∃ c, IsFrac w'.struct.basis p c ∧ ∀ k, 0 ≤ c k ∧ c k < 2 := by
    intro q hq
    rw [hsc.positions, List.mem_map] at hq
    obtain ⟨q, hq, rfl⟩ := hq
    obtain ⟨c, hc, hc2⟩ := hatoms q hq
    exact ⟨c, (hsc.frac hs q c).2 hc, hc2⟩
  obtain ⟨h1, h2, h3⟩ := searched_sites hd h
    (moved_box w.struct 0 size p hsize pos none).box hS hr hatoms hR (fun k => by simpa using hsize k)
  obtain ⟨h1', h2', h3'⟩ := searched_sites hd h'
    (moved_box w'.struct 0 (s • size) (s • p) hsize' pos' none).box hS' hr' hatoms' (hsc.reaches hs hR)
    (fun k => by simpa using hsize' k)
  have he : r'.1 = r.1 := by
    refine ordered_ext h1' h1 fun x => ?_
    rw [h3, h3']
    have hin : ∀ q : Vec d ℝ, (∀ k, (s • p) k ≤ (s • q) k ∧ (s • q) k ≤ (s • p) k + (s • size) k) ↔
        ∀ k, p k ≤ q k ∧ q k ≤ p k + size k := by
      intro q
      refine forall_congr' fun k => and_congr ?_ ?_
      · simp only [Pi.smul_apply, smul_eq_mul]
        exact mul_le_mul_iff_right₀ hs
      · simp only [Pi.smul_apply, smul_eq_mul]
        rw [← mul_add]
        exact mul_le_mul_iff_right₀ hs
    constructor
    · rintro ⟨q, hq, hacc⟩
      obtain ⟨q, rfl⟩ := Scaled.unscale hs q
      have hq' := (hsc.site hs x q).1 hq
      exact ⟨q, hq', (box_accepted hS hq').2 ((hin q).1 ((box_accepted hS' hq).1 hacc))⟩
    · rintro ⟨q, hq, hacc⟩
      have hq' := (hsc.site hs x q).2 hq
      exact ⟨s • q, hq', (box_accepted hS' hq').2 ((hin q).2 ((box_accepted hS hq).1 hacc))⟩
  refine ⟨he, ?_⟩
  rw [h2', he, h2, List.map_map]
  refine List.map_congr_left ?_
  intro x hx
  obtain ⟨q, hq, -⟩ := (h3 x).1 hx
  obtain ⟨-, hq1⟩ := (isSitePos_iff (h.good hd).positions_length x q).1 hq
  obtain ⟨-, hq2⟩ := (isSitePos_iff (h'.good hd).positions_length _ _).1 ((hsc.site hs x q).2 hq)
  simp only [Function.comp_apply]
  rw [← hq2, ← hq1]

/-! ## lattices -/

theorem distance_scaled {s : ℝ} (hs : 0 < s) (p q : Vec d ℝ) :
    distance (s • q) (s • p) = s * distance q p := by
  unfold distance
  simp only [hasSqrt_real, Pi.smul_apply, smul_eq_mul]
  have e : ∑ i, (s * q i - s * p i) * (s * q i - s * p i) =
      s * s * ∑ i, (q i - p i) * (q i - p i) := by
    rw [Finset.mul_sum]
    refine Finset.sum_congr rfl fun i _ => by ring
  rw [e, Real.sqrt_mul (mul_self_nonneg s), Real.sqrt_mul_self hs.le]

/-- The arguments of `build` for the box of the given size at `p`. -/
def boxArgs (size p : Vec d ℝ) (isInt : Bool) : BuildArgs d ℝ :=
  { shape := .size (List.ofFn size) isInt, pos := some p }

theorem boxArgs_shape (S : Structure d ℝ) (size p : Vec d ℝ) (isInt : Bool) :
    Lattice.buildShape S (boxArgs size p isInt) = .ok (.box size p none) := by
  unfold Lattice.buildShape boxArgs
  dsimp only
  rw [toVec_ofFn]
  rfl

/-- C119: the lattice built in the scaled box from the scaled structure is the lattice in another unit of
length, for atoms in the first two cells, search windows of the right size that reach all cells, and
structures whose connections are those between nearest sites. -/
theorem C119_lattice_partial (hd : 0 < d) {env : Env ℝ} {L L' L1 L2 : Lattice d ℝ}
    (h : Reachable env L.world) (h' : Reachable env L'.world) {s : ℝ} (hs : 0 < s)
    (hsc : Scaled s L.struct L'.struct) {r r' : ℝ} (hr' : r' = s * r) (hN : BuildsNearest env L.world r)
    (hN' : BuildsNearest env L'.world r')
    (hatoms : ∀ p ∈ L.struct.positions, ∃ c, IsFrac L.struct.basis p c ∧ ∀ k, 0 ≤ c k ∧ c k < 2)
    {size p : Vec d ℝ} (hsize : ∀ k, 0 ≤ size k) (hR : Reaches L.struct.basis p)
    (hS : Searched L.struct none (.shape (.box size p none)) (some p) p (p + size))
    (hS' : Searched L'.struct none (.shape (.box (s • size) (s • p) none)) (some (s • p)) (s • p)
      (s • p + s • size))
    {isInt isInt' : Bool} (hok1 : L.build env (boxArgs size p isInt) = (L1, .ok ()))
    (hok2 : L'.build env (boxArgs (s • size) (s • p) isInt') = (L2, .ok ())) :
    ∃ D1 D2, L1.data = some D1 ∧ L2.data = some D2 ∧ ScaledLattice s L1 D1 L2 D2 := by
  subst hr'
  obtain ⟨s1, D1, hs1, hD1, hb1⟩ := built_sites rfl rfl hok1
  obtain ⟨s2, D2, hs2, hD2, hb2⟩ := built_sites rfl rfl hok2
  rw [boxArgs_shape] at hs1 hs2
  cases hs1
  cases hs2
  obtain ⟨hi, hp⟩ := C119_sites_partial hd h h' hs hsc hatoms hsize hR hS hS' hb1 hb2
  dsimp only at hi hp
  obtain ⟨D1', d1, hf1, -, -, n1⟩ := hN L L1 _ rfl rfl rfl rfl hok1
  obtain ⟨D2', d2, hf2, -, -, n2⟩ := hN' L' L2 _ rfl rfl rfl rfl hok2
  cases hD1.symm.trans d1
  cases hD2.symm.trans d2
  refine ⟨D1, D2, hD1, hD2, hi, hp, ?_⟩
  intro i hin
  have hin2 : i < D2.numSites := by
    unfold LatticeData.numSites at hin ⊢
    rw [hi]
    exact hin
  obtain ⟨l1, e1, nd1, m1⟩ := n1 i hin
  obtain ⟨l2, e2, nd2, m2⟩ := n2 i hin2
  refine ⟨l1, l2, e1, e2, (List.perm_ext_iff_of_nodup nd1 nd2).2 fun j => ?_⟩
  rw [m1, m2, hp]
  simp only [List.getElem?_map, Option.map_eq_some_iff]
  constructor
  · rintro ⟨u, v, f1, f2, f3⟩
    exact ⟨_, _, ⟨u, f1, rfl⟩, ⟨v, f2, rfl⟩, by rw [distance_scaled hs, f3]⟩
  · rintro ⟨_, _, ⟨u, f1, rfl⟩, ⟨v, f2, rfl⟩, f3⟩
    rw [distance_scaled hs] at f3
    exact ⟨u, v, f1, f2, mul_left_cancel₀ hs.ne' f3⟩

/-! ## hypercubic lattices -/

/-- Boxes of whole cells can be built from both hypercubic structures, and the lattices only differ
in the unit of length. -/
def BoxesScale (env : Env ℝ) (w : World d ℝ) (a : ℝ) (w' : World d ℝ) (b : ℝ) : Prop :=
  ∀ (c : Fin d → ℤ) (n : Fin d → ℕ) (isInt isInt' : Bool), CellsFit c n → ∃ L1 D1 L2 D2,
    (Lattice.ofWorld w).build env
      { shape := .size (List.ofFn fun k => a * n k) isInt, pos := some fun k => a * c k } =
      (L1, .ok ()) ∧
    (Lattice.ofWorld w').build env
      { shape := .size (List.ofFn fun k => b * n k) isInt', pos := some fun k => b * c k } =
      (L2, .ok ()) ∧
    L1.data = some D1 ∧ L2.data = some D2 ∧ Idx.mk c 0 ∈ D1.indices ∧
    ScaledLattice (b / a) L1 D1 L2 D2

theorem cubic_scales (hd : 0 < d) (env : Env ℝ) (s s' : Session) {a b : ℝ} (ha : 1 / 1000 < a)
    (hb : 1 / 1000 < b) (atom atom' : AtomSpec) {rows rows' : Matrix (Fin d) (Fin d) ℝ}
    (hrows : rows = a • (1 : Matrix (Fin d) (Fin d) ℝ))
    (hrows' : rows' = b • (1 : Matrix (Fin d) (Fin d) ℝ)) :
    ∃ w w', configure env s (LatticeBasis.init rows) (oneAtom atom 1) = .ok w ∧
      configure env s' (LatticeBasis.init rows') (oneAtom atom' 1) = .ok w' ∧
      BoxesScale env w a w' b := by
  have ha0 : 0 < a := by linarith
  have hb0 : 0 < b := by linarith
  have hs : 0 < b / a := by positivity
  have haa : |a| = a := abs_of_pos ha0
  have hbb : |b| = b := abs_of_pos hb0
  obtain ⟨w, h1, h2, -, h3⟩ := cubic_nearest hd env s (a := a) (by rw [haa]; linarith) atom hrows
  obtain ⟨w', h1', h2', -, h3'⟩ := cubic_nearest hd env s' (a := b) (by rw [hbb]; linarith) atom' hrows'
  obtain ⟨w0, e0, hm⟩ := cubic_moves hd env s ha atom hrows
  obtain ⟨w0', e0', hm'⟩ := cubic_moves hd env s' hb atom' hrows'
  obtain ⟨w1, e1, hn⟩ := cubic_builds hd env s (a := a) (by rw [haa]; linarith) atom hrows
  obtain ⟨w1', e1', hn'⟩ := cubic_builds hd env s' (a := b) (by rw [hbb]; linarith) atom' hrows'
  cases h1.symm.trans e0
  cases h1.symm.trans e1
  cases h1'.symm.trans e0'
  cases h1'.symm.trans e1'
  have hv := (configure_vectors h1).trans hrows
  have hv' := (configure_vectors h1').trans hrows'
  refine ⟨w, w', h1, h1', ?_⟩
  intro c n isInt isInt' hfit
  have hfit0 : CellsFit (c + 0) n := by rwa [add_zero]
  obtain ⟨L1, D1, -, -, g1, -, d1, -, hc, -⟩ := hm c 0 n isInt isInt hfit hfit0
  obtain ⟨L2, D2, -, -, g2, -, d2, -⟩ := hm' c 0 n isInt' isInt' hfit hfit0
  have hsc : Scaled (b / a) w.struct w'.struct := by
    refine ⟨fun i k => ?_, by rw [h2, h2']; simp⟩
    rw [hv, hv']
    simp only [Matrix.smul_apply, smul_eq_mul]
    rw [← mul_assoc, div_mul_cancel₀ _ ha0.ne']
  have es : (b / a) • (fun k => a * (n k : ℝ)) = fun k : Fin d => b * (n k : ℝ) := by
    funext k
    simp only [Pi.smul_apply, smul_eq_mul]
    rw [← mul_assoc, div_mul_cancel₀ _ ha0.ne']
  have ep : (b / a) • cellPos a c = cellPos b c := by
    funext k
    simp only [cellPos, Pi.smul_apply, smul_eq_mul]
    rw [← mul_assoc, div_mul_cancel₀ _ ha0.ne']
  obtain ⟨D1', D2', d1', d2', hsl⟩ := C119_lattice_partial (L := Lattice.ofWorld w)
    (L' := Lattice.ofWorld w') (L1 := L1) (L2 := L2) (isInt := isInt) (isInt' := isInt') hd
    (configure_reachable h1) (configure_reachable h1') hs hsc
    (r := |a|) (r' := |b|) (by rw [haa, hbb, div_mul_cancel₀ _ ha0.ne']) hn hn' (by
      intro p hp
      rw [show (Lattice.ofWorld w).struct.positions = [0] from h2, List.mem_singleton] at hp
      subst hp
      exact ⟨0, (cubic_frac hv _ _).2 fun k => by simp, fun k => by simp⟩)
    (size := fun k => a * n k) (p := cellPos a c) (fun k => by positivity)
    (fun k => Or.inl fun x cx hx h0 => by
      have hxk := (cubic_frac hv _ _).1 hx k
      have := h0 k
      rw [hxk] at this
      exact nonneg_of_mul_nonneg_right this ha0)
    (cubic_searched ha hv h2 hfit _) (by
      rw [es, ep]
      exact cubic_searched hb hv' h2' hfit _) g1 (by
      rw [es, ep]
      exact g2)
  cases d1.symm.trans d1'
  cases d2.symm.trans d2'
  exact ⟨L1, D1, L2, D2, g1, g2, d1, d2, hc, hsl⟩

/-- C119 for the hypercubic preset lattices with one shell of neighbours: boxes of whole cells give the
same lattice for all lattice constants above the tolerance of `check_points`. -/
theorem C119_hypercubic (env : Env ℝ) (s s' : Session) (a b : ℝ) (ha : 1 / 1000 < a)
    (hb : 1 / 1000 < b) (atom atom' : AtomSpec) :
    (∃ w w', simpleChain env s a atom 1 = .ok w ∧ simpleChain env s' b atom' 1 = .ok w' ∧
      BoxesScale env w a w' b) ∧
    (∃ w w', simpleSquare env s a atom 1 = .ok w ∧ simpleSquare env s' b atom' 1 = .ok w' ∧
      BoxesScale env w a w' b) ∧
    (∃ w w', simpleCubic env s a atom 1 = .ok w ∧ simpleCubic env s' b atom' 1 = .ok w' ∧
      BoxesScale env w a w' b) ∧
    (∀ d, 0 < d → ∃ w w' : World d ℝ,
      configure env s (LatticeBasis.hypercubic d a) (oneAtom atom 1) = .ok w ∧
      configure env s' (LatticeBasis.hypercubic d b) (oneAtom atom' 1) = .ok w' ∧
      BoxesScale env w a w' b) := by
  refine ⟨?_, ?_, ?_, fun d hd => ?_⟩
  · exact cubic_scales one_pos env s s' ha hb atom atom' (rows := !![a]) (rows' := !![b])
      (by ext i j; fin_cases i; fin_cases j; simp) (by ext i j; fin_cases i; fin_cases j; simp)
  · exact cubic_scales two_pos env s s' ha hb atom atom' rfl rfl
  · exact cubic_scales three_pos env s s' ha hb atom atom' rfl rfl
  · exact cubic_scales hd env s s' ha hb atom atom' rfl rfl

/-! ## hexagonal lattices -/

/-- A clean box is still clean after magnification. -/
theorem CleanBox.scale {s : ℝ} (hs : 1 ≤ s) {S S' : Structure d ℝ} (hsc : Scaled s S S')
    {size p : Vec d ℝ} (h : CleanBox S size p) : CleanBox S' (s • size) (s • p) := by
  have hs0 : 0 < s := by linarith
  refine ⟨fun k => mul_nonneg hs0.le (h.start k), ?_, ?_⟩
  · intro idx y hy hin
    obtain ⟨q, rfl⟩ := Scaled.unscale hs0 y
    have hq := h.margin idx q ((hsc.site hs0 idx q).1 hy) fun k => by
      have hk := hin k
      simp only [Pi.smul_apply, smul_eq_mul] at hk
      constructor <;> by_contra hlt <;> push Not at hlt <;> nlinarith [hk.1, hk.2]
    intro k
    have hk := hq k
    simp only [Pi.smul_apply, smul_eq_mul]
    constructor <;> nlinarith [hk.1, hk.2]
  · obtain ⟨m, M, hmM, hc⟩ := h.cells
    refine ⟨m, M, hmM, ?_⟩
    intro y c hy hin
    obtain ⟨x, rfl⟩ := Scaled.unscale hs0 y
    refine hc x c ((hsc.frac hs0 x c).1 hy) fun k => ?_
    have hk := hin k
    simp only [Pi.smul_apply, smul_eq_mul] at hk
    constructor <;> by_contra hlt <;> push Not at hlt <;> nlinarith [hk.1, hk.2]

/-- Clean boxes with sites can be built from both structures, and the lattices only differ in the
unit of length. -/
def CleanBoxesScale (env : Env ℝ) (w w' : World d ℝ) (s : ℝ) : Prop :=
  ∀ (size p : Vec d ℝ) (isInt isInt' : Bool), (∀ k, 0 ≤ size k) → CleanBox w.struct size p →
    (∃ idx q, IsSitePos w.struct idx q ∧ ∀ k, p k ≤ q k ∧ q k ≤ p k + size k) →
    ∃ L1 D1 L2 D2,
      (Lattice.ofWorld w).build env { shape := .size (List.ofFn size) isInt, pos := some p } =
        (L1, .ok ()) ∧
      (Lattice.ofWorld w').build env
        { shape := .size (List.ofFn (s • size)) isInt', pos := some (s • p) } = (L2, .ok ()) ∧
      L1.data = some D1 ∧ L2.data = some D2 ∧ ScaledLattice s L1 D1 L2 D2

theorem CleanBoxesMove.scales (hd : 0 < d) {env : Env ℝ} {w w' : World d ℝ} (h : Reachable env w)
    (h' : Reachable env w') {s : ℝ} (hs : 1 ≤ s) (hsc : Scaled s w.struct w'.struct)
    (hm : CleanBoxesMove env w) (hm' : CleanBoxesMove env w') {r r' : ℝ} (hr : r' = s * r)
    (hn : BuildsNearest env w r) (hn' : BuildsNearest env w' r')
    (hatoms : ∀ p ∈ w.struct.positions, ∃ c, IsFrac w.struct.basis p c ∧ ∀ k, 0 ≤ c k ∧ c k < 2)
    (hR : ∀ lo : Vec d ℝ, (∀ k, 0 ≤ lo k) → Reaches w.struct.basis lo) :
    CleanBoxesScale env w w' s := by
  have hs0 : 0 < s := by linarith
  rintro size p isInt isInt' hsize hcl ⟨idx, q, hq, hin⟩
  have hcl' := hcl.scale hs hsc
  have hsize' : ∀ k, 0 ≤ (s • size) k := fun k => mul_nonneg hs0.le (hsize k)
  have hz : ∀ b : LatticeBasis d ℝ, IsLatticeVec b 0 0 := fun b i => by simp
  obtain ⟨L1, D1, -, -, g1, -, d1, -⟩ := hm size p 0 0 isInt isInt hsize (hz _) hcl
    (by rwa [add_zero]) ⟨idx, q, hq, hin⟩
  obtain ⟨L2, D2, -, -, g2, -, d2, -⟩ := hm' (s • size) (s • p) 0 0 isInt' isInt' hsize' (hz _) hcl'
    (by rwa [add_zero]) ⟨idx, s • q, (hsc.site hs0 idx q).2 hq, fun k => by
      have := hin k
      simp only [Pi.smul_apply, smul_eq_mul]
      constructor <;> nlinarith [this.1, this.2]⟩
  obtain ⟨D1', D2', d1', d2', hsl⟩ := C119_lattice_partial (L := Lattice.ofWorld w)
    (L' := Lattice.ofWorld w') (L1 := L1) (L2 := L2) (isInt := isInt) (isInt' := isInt') hd h h' hs0 hsc
    hr hn hn' hatoms hsize (hR p hcl.start) (hcl.searched hsize _) (hcl'.searched hsize' _) g1 g2
  cases d1.symm.trans d1'
  cases d2.symm.trans d2'
  exact ⟨L1, D1, L2, D2, g1, g2, d1, d2, hsl⟩

theorem hex_scaled {a b : ℝ} (ha : a ≠ 0) {B B' : LatticeBasis 2 ℝ} (hB : LatticeBasis.hexagonal a = .ok B)
    (hB' : LatticeBasis.hexagonal b = .ok B') (i k : Fin 2) :
    B'.vectors i k = b / a * B.vectors i k := by
  rw [LatticeBasis.init_vectors hB, LatticeBasis.init_vectors hB']
  fin_cases i <;> fin_cases k <;> simp <;> field_simp

/-- C119 for the hexagonal presets with one shell of neighbours: clean boxes in the positive quadrant
give the same lattice in any larger unit of length. -/
theorem C119_honeycomb (env : Env ℝ) (s s' : Session) (a b : ℝ) (ha : 1 / 10 ^ 5 ≤ a) (hab : a ≤ b)
    (atom atom' : AtomSpec) :
    (∃ w w', simpleHexagonal env s a atom 1 = .ok w ∧ simpleHexagonal env s' b atom' 1 = .ok w' ∧
      CleanBoxesScale env w w' (b / a)) ∧
    (∃ w w', honeycomb env s a atom = .ok w ∧ honeycomb env s' b atom' = .ok w' ∧
      CleanBoxesScale env w w' (b / a)) ∧
    (∃ w w', graphene env s a = .ok w ∧ graphene env s' b = .ok w' ∧
      CleanBoxesScale env w w' (b / a)) := by
  have ha0 : 0 < a := lt_of_lt_of_le (by positivity) ha
  have hb0 : 0 < b := lt_of_lt_of_le ha0 hab
  have hs : 1 ≤ b / a := by rwa [le_div_iff₀ ha0, one_mul]
  have haa : |a| = a := abs_of_pos ha0
  have hbb : |b| = b := abs_of_pos hb0
  have hb : 1 / 10 ^ 5 ≤ b := ha.trans hab
  obtain ⟨⟨w1, e1, m1⟩, ⟨w2, e2, m2⟩, w3, e3, m3⟩ := C118_honeycomb env s a ha atom
  obtain ⟨⟨w1', e1', m1'⟩, ⟨w2', e2', m2'⟩, w3', e3', m3'⟩ := C118_honeycomb env s' b hb atom'
  obtain ⟨-, -, -, -, ⟨v1, f1, n1⟩, ⟨v2, f2, n2⟩, v3, f3, n3⟩ :=
    C108_any_shape env s a (by rwa [haa]) atom
  obtain ⟨-, -, -, -, ⟨v1', f1', n1'⟩, ⟨v2', f2', n2'⟩, v3', f3', n3'⟩ :=
    C108_any_shape env s' b (by rwa [hbb]) atom'
  cases e1.symm.trans f1
  cases e2.symm.trans f2
  cases e3.symm.trans f3
  cases e1'.symm.trans f1'
  cases e2'.symm.trans f2'
  cases e3'.symm.trans f3'
  refine ⟨⟨w1, w1', e1, e1', ?_⟩, ⟨w2, w2', e2, e2', ?_⟩, w3, w3', e3, e3', ?_⟩
  · obtain ⟨B, hB, -⟩ := hex_init ha0.ne'
    obtain ⟨B', hB', -⟩ := hex_init hb0.ne'
    obtain ⟨v, c, cells, A, g, hC, -⟩ := configure_oneAtom two_pos env s hB atom one_pos
    obtain ⟨v', c', cells', A', g', hC', -⟩ := configure_oneAtom two_pos env s' hB' atom' one_pos
    cases e1.symm.trans g
    cases e1'.symm.trans g'
    refine CleanBoxesMove.scales two_pos (configure_reachable e1) (configure_reachable e1') hs
      ⟨by rw [hC.basis, hC'.basis]; exact hex_scaled ha0.ne' hB hB', by
        rw [hC.positions, hC'.positions]; simp⟩ m1 m1' (by
        rw [haa, hbb]; field_simp) n1 n1' ?_ (by rw [hC.basis]; exact hex_reaches ha0 hB)
    intro p hp
    rw [hC.positions, List.mem_singleton] at hp
    subst hp
    exact ⟨0, fun i => by simp, fun k => by simp⟩
  · obtain ⟨s1, ops, hc⟩ := honeycomb_configure e2
    obtain ⟨s1', ops', hc'⟩ := honeycomb_configure e2'
    obtain ⟨v, -, B, c, cells, A, hB, g, hC, -⟩ := honeycomb_pair env s ha0.ne' atom
    obtain ⟨v', -, B', c', cells', A', hB', g', hC', -⟩ := honeycomb_pair env s' hb0.ne' atom'
    cases e2.symm.trans g
    cases e2'.symm.trans g'
    exact CleanBoxesMove.scales two_pos (configure_reachable hc) (configure_reachable hc') hs
      ⟨by rw [hC.basis, hC'.basis]; exact hex_scaled ha0.ne' hB hB', by
        rw [hC.positions, hC'.positions]; simp [div_mul_cancel₀ _ ha0.ne']⟩ m2 m2' (by
        rw [haa, hbb]; field_simp) n2 n2' (by rw [hC.basis, hC.positions]; exact honey_atoms hB)
        (by rw [hC.basis]; exact hex_reaches ha0 hB)
  · obtain ⟨s1, ops, hc⟩ := graphene_configure e3
    obtain ⟨s1', ops', hc'⟩ := graphene_configure e3'
    obtain ⟨v, B, c, cells, A, hB, g, hC, -⟩ := graphene_pair env s ha0.ne'
    obtain ⟨v', B', c', cells', A', hB', g', hC', -⟩ := graphene_pair env s' hb0.ne'
    cases e3.symm.trans g
    cases e3'.symm.trans g'
    exact CleanBoxesMove.scales two_pos (configure_reachable hc) (configure_reachable hc') hs
      ⟨by rw [hC.basis, hC'.basis]; exact hex_scaled ha0.ne' hB hB', by
        rw [hC.positions, hC'.positions]; simp [div_mul_cancel₀ _ ha0.ne']⟩ m3 m3' (by
        rw [haa, hbb]; field_simp) n3 n3' (by rw [hC.basis, hC.positions]; exact honey_atoms hB)
        (by rw [hC.basis]; exact hex_reaches ha0 hB)

/-- The box of the size 2 × 2 at (0.1, 0.1) is a clean box of graphene with the constant 1 (see the
example of `C118_honeycomb`): it can be magnified to any constant. For the boxes of whole cells of the
hypercubic lattices see the example of `C118_hypercubic`. -/
example : (1 : ℝ) / 10 ^ 5 ≤ 1 ∧ (1 : ℝ) ≤ 25 / 10 ∧ (1 : ℝ) / 1000 < 1 ∧ (1 : ℝ) / 1000 < 1 / 100 ∧
    CellsFit ![-3, 2] ![4, 3] := by
  refine ⟨by norm_num, by norm_num, by norm_num, by norm_num, Or.inr ⟨-3, 5, by norm_num, by norm_num,
    by norm_num, ?_⟩⟩
  intro k
  fin_cases k <;> norm_num

/-- C119 fails for lattice constants below the tolerance 1e-3 of `check_points`: the chain with the
constant 1 in the box [0, 1] has no site in the cell -1, the chain with the constant 1e-4 in the
box [0, 1e-4] has one. -/
theorem C119_tolerance_fails (env : Env ℝ) :
    ∃ (w w' : World 1 ℝ) (r r' : List (Idx 1) × List (Vec 1 ℝ)),
      Reachable env w ∧ Reachable env w' ∧ Scaled (1 / 10 ^ 4) w.struct w'.struct ∧
      w.struct.basis.vectors 0 0 = 1 ∧ w.struct.positions = [fun _ => 0] ∧
      w.struct.buildIndices (.shape (.box (fun _ => 1) (fun _ => 0) none)) false none true none none =
        .ok r ∧
      w'.struct.buildIndices (.shape (.box (fun _ => 1 / 10 ^ 4) (fun _ => 0) none)) false none true none
        none = .ok r' ∧
      Idx.mk (fun _ => -1) 0 ∉ r.1 ∧ Idx.mk (fun _ => -1) 0 ∈ r'.1 := by
  have key : ∀ a : ℝ, 0 < a → ∃ (w : World 1 ℝ) (r : List (Idx 1) × List (Vec 1 ℝ)),
      Reachable env w ∧ w.struct.basis = chainBasis a ∧ w.struct.positions = [fun _ => 0] ∧
      w.struct.buildIndices (.shape (.box (fun _ => a) (fun _ => 0) none)) false none true none none =
        .ok r ∧ (Idx.mk (fun _ => -1) 0 ∈ r.1 ↔ a ≤ 1 / 1000) := by
    intro a ha
    obtain ⟨w, A, cells, c, hr, hb, hp, hn, -⟩ := exists_chain env (a := a) ha 0 Nat.one_pos
    have hG := hr.good Nat.one_pos
    have hfr : ∀ x c : Vec 1 ℝ, IsFrac w.struct.basis x c ↔ x 0 = a * c 0 := by
      intro x c
      unfold IsFrac
      simp only [Fin.forall_fin_one, Finset.univ_unique, Fin.default_eq_zero, Fin.isValue,
        Finset.sum_singleton]
      rw [hb, chain_vectors, mul_comm]
    obtain ⟨r, h1, m1⟩ := box_indices (size := fun _ => a) (p := fun _ => 0) one_pos hr (by omega)
      (fun _ => ha.le) (fun k => Or.inl fun x c hx h0 => by
        have h2 := (hfr x c).1 hx
        have h3 := h0 0
        rw [h2] at h3
        rw [Subsingleton.elim k 0]
        exact nonneg_of_mul_nonneg_right h3 ha) none (m := 0) (M := 1) (Or.inl (by norm_num)) (by
        intro x c hx h0 k
        have h2 := (hfr x c).1 hx
        have h3 := h0 0
        simp only [Pi.add_apply, min_self, zero_add, max_eq_right ha.le, h2] at h3
        rw [Subsingleton.elim k 0]
        push_cast
        exact ⟨nonneg_of_mul_nonneg_right h3.1 ha, by nlinarith [h3.2]⟩)
    refine ⟨w, r, hr, hb, hp, h1, ?_⟩
    have hpos : w.struct.sitePos (Idx.mk (fun _ => -1) 0) = fun _ => -a := by
      have h0 : 0 < w.struct.numBase := by omega
      have h1 : w.struct.posOf 0 = fun _ => 0 := by
        have := exists_pos hG h0
        rw [hp] at this
        injection this with this
        exact this.symm
      unfold sitePos
      rw [Idx.alpha_mk, Idx.cell_mk, Int.toNat_zero, h1, hb, chain_translate]
      funext k
      push_cast
      ring
    rw [m1, hpos, ← accepts_iff]
    unfold accepts AShape.contains
    simp only [decide_eq_true_eq]
    constructor
    · rintro ⟨-, h⟩
      have := (h 0).1
      linarith
    · intro h
      refine ⟨⟨fun k => ?_, 0, by omega, by rw [Idx.alpha_mk]; rfl⟩, fun k => ⟨by linarith, by linarith⟩⟩
      rw [chain_searchLimits hb, Idx.cell_mk]
      have e1 : ⌊a⁻¹ * (0 : ℝ)⌋ = 0 := by simp
      have e2 : ⌊a⁻¹ * ((0 : ℝ) + a)⌋ = 1 := by
        rw [zero_add, inv_mul_cancel₀ ha.ne']
        simp
      dsimp only
      rw [e1, e2]
      norm_num
  obtain ⟨w, r, hr, hb, hp, h1, m1⟩ := key 1 one_pos
  obtain ⟨w', r', hr', hb', hp', h1', m1'⟩ := key (1 / 10 ^ 4) (by positivity)
  refine ⟨w, w', r, r', hr, hr', ⟨fun i k => ?_, ?_⟩, by rw [hb, chain_vectors], hp, h1, h1', ?_, ?_⟩
  · rw [hb, hb', chain_vectors, chain_vectors, mul_one]
  · rw [hp, hp']
    simp only [List.map_cons, List.map_nil, List.cons.injEq, and_true]
    funext k
    simp
  · rw [m1]
    norm_num
  · rw [m1']
    norm_num

end Lattpy
