import Verif.Lemmas.LatticeBuilt
import Verif.Lemmas.BuiltChain
import Verif.Props.Spatial
import Mathlib.Algebra.BigOperators.Group.Finset.Sigma
import Mathlib.Algebra.Order.BigOperators.Group.Finset

/-!
# C69, C70: limits, centres, number of cells and volume of a lattice
-/

set_option autoImplicit false
set_option linter.unusedSectionVars false

namespace Lattpy

open Structure World

variable {d : ℕ}

/-! ## C69 -/

/-- `lo` and `hi` are the smallest and largest coordinates of the points. -/
def IsBoundingBox (points : List (Vec d ℝ)) (lo hi : Vec d ℝ) : Prop :=
  (∀ x ∈ points, ∀ k, lo k ≤ x k ∧ x k ≤ hi k) ∧
    ∀ k, (∃ x ∈ points, x k = lo k) ∧ ∃ x ∈ points, x k = hi k

/-- `limits()` is the tight bounding box of the positions; a lattice without data raises
`ValueError`. -/
theorem C69_limits (L : Lattice d ℝ) :
    (L.data = none → L.limits = .error .value) ∧
    ∀ D, L.data = some D → D.positions ≠ [] →
      ∃ lo hi, L.limits = .ok (lo, hi) ∧ IsBoundingBox D.positions lo hi := by
  refine ⟨fun h => by unfold Lattice.limits; rw [h], ?_⟩
  intro D hD hne
  unfold Lattice.limits
  rw [hD]
  dsimp only
  unfold LatticeData.getLimits
  cases hp : D.positions with
  | nil => exact absurd hp hne
  | cons v vs =>
    refine ⟨_, _, rfl, ?_, ?_⟩
    · intro x hx k
      have hx : x k = v k ∨ x k ∈ vs.map fun x => x k := by
        rcases List.mem_cons.1 hx with rfl | hx
        · exact Or.inl rfl
        · exact Or.inr (List.mem_map.2 ⟨x, hx, rfl⟩)
      exact ⟨(foldl_min_isLeast (vs.map fun x => x k) (v k)).2 hx,
        (foldl_max_isGreatest (vs.map fun x => x k) (v k)).2 hx⟩
    · intro k
      have hmem : ∀ y, (y = v k ∨ y ∈ vs.map fun x => x k) → ∃ x ∈ v :: vs, x k = y := by
        rintro y (rfl | hy)
        · exact ⟨v, List.mem_cons_self, rfl⟩
        · obtain ⟨x, hx, rfl⟩ := List.mem_map.1 hy
          exact ⟨x, List.mem_cons_of_mem _ hx, rfl⟩
      exact ⟨hmem _ (foldl_min_isLeast (vs.map fun x : Vec d ℝ => x k) (v k)).1,
        hmem _ (foldl_max_isGreatest (vs.map fun x : Vec d ℝ => x k) (v k)).1⟩

/-- `relative_position(f)` for fractions between 0 and 1 lies in the bounding box, divides each of
its edges in the given ratio and is at the corners for 0 and 1; `center()` is the midpoint. -/
theorem C69_relative_position (L : Lattice d ℝ) {lo hi : Vec d ℝ} (h : L.limits = .ok (lo, hi))
    (hle : ∀ k, lo k ≤ hi k) :
    (∀ f : Vec d ℝ, ∃ p, L.relativePosition f = .ok p ∧
      (∀ k, (1 - f k) * lo k + f k * hi k = p k) ∧
      ((∀ k, 0 ≤ f k ∧ f k ≤ 1) → ∀ k, lo k ≤ p k ∧ p k ≤ hi k) ∧
      ((∀ k, f k = 0) → p = lo) ∧ ((∀ k, f k = 1) → p = hi)) ∧
    ∃ c, L.center = .ok c ∧ ∀ k, c k - lo k = hi k - c k := by
  constructor
  · intro f
    unfold Lattice.relativePosition
    rw [h]
    refine ⟨_, rfl, fun k => by ring, fun hf k => ?_, fun hf => ?_, fun hf => ?_⟩
    · have h1 := hf k
      have h2 := hle k
      constructor <;> nlinarith [mul_nonneg h1.1 (sub_nonneg.2 h2),
        mul_nonneg (sub_nonneg.2 h1.2) (sub_nonneg.2 h2)]
    · funext k; simp [hf k]
    · funext k; simp [hf k]
  · unfold Lattice.center Lattice.relativePosition
    rw [h]
    exact ⟨_, rfl, fun k => by ring⟩

/-- Site `i` has mass `m`: the parameter `mass` of its atom, or 1 if it has none.  (A parameter
called `get` would hide the method used to look it up.) -/
def HasMass (L : Lattice d ℝ) (D : LatticeData d ℝ) (i : ℕ) (m : ℝ) : Prop :=
  ∃ (x : Idx d) (a : ℕ) (at' : Atom), D.indices[i]? = some x ∧ x.alpha = a ∧
    L.struct.atoms[a]? = some at' ∧ (L.world.session.params at').get? "get" = none ∧
    (((L.world.session.params at').get? "mass" = none ∧ m = 1) ∨
      ∃ q : ℚ, (L.world.session.params at').get? "mass" = some (.num q) ∧ m = q)

theorem HasMass.mass {L : Lattice d ℝ} {D : LatticeData d ℝ} (hD : L.data = some D) {i : ℕ} {m : ℝ}
    (h : HasMass L D i m) : L.mass i = .ok m := by
  obtain ⟨x, a, at', h1, h2, h3, h4, h5⟩ := h
  have hat : L.atom i = .ok at' := by
    unfold Lattice.atom Lattice.alpha
    rw [hD]
    dsimp only
    rw [h1]
    dsimp only
    have : pyGet L.struct.atoms x.alpha = some at' := by
      rw [h2]
      exact pyGet_eq_some.2 ⟨a, Or.inl rfl, h3⟩
    rw [this]
  have hget : L.world.session.attrParam at' "get" = none := by
    unfold Session.attrParam
    rw [h4]
    simp
  unfold Lattice.mass Session.get
  rw [hat]
  dsimp only
  rw [hget]
  dsimp only
  unfold Session.getItem
  rcases h5 with ⟨h5, rfl⟩ | ⟨q, h5, rfl⟩
  · rw [h5]
    simp [Lattice.toNum]
  · rw [h5]
    simp [Lattice.toNum]

/-- `center_of_gravity()` for sites with positive masses: the mean of the positions weighted with the
masses.  It lies in the bounding box.  (Of a lattice that has not been built it is an empty array, see
`C69_unbuilt_center`.) -/
theorem C69_center_of_gravity (L : Lattice d ℝ) {D : LatticeData d ℝ} (hD : L.data = some D)
    (hne : D.positions ≠ []) (hlen : D.positions.length = D.indices.length) {lo hi : Vec d ℝ}
    (hlim : L.limits = .ok (lo, hi)) (x : Fin D.numSites → Vec d ℝ)
    (hx : ∀ i, D.positions[i.val]? = some (x i)) (m : Fin D.numSites → ℝ)
    (hm : ∀ i : Fin D.numSites, HasMass L D i (m i)) (hpos : ∀ i, 0 < m i) :
    ∃ c, L.centerOfGravity = .ok (some c) ∧
      (∀ k, (∑ i, m i) * c k = ∑ i, m i * x i k) ∧ ∀ k, lo k ≤ c k ∧ c k ≤ hi k := by
  obtain ⟨lo', hi', hlim', hbox, -⟩ := (C69_limits L).2 D hD hne
  rw [hlim] at hlim'
  cases hlim'
  have hn0 : 0 < D.numSites := by
    unfold LatticeData.numSites
    rw [← hlen]
    exact List.length_pos_of_ne_nil hne
  have hms : (List.range D.numSites).mapM L.mass = .ok (List.ofFn m) := by
    rw [← List.map_coe_finRange_eq_range, List.mapM_map]
    have : (List.finRange D.numSites).mapM (L.mass ∘ Fin.val) =
        .ok ((List.finRange D.numSites).map m) := mapM_ok _ _ _ fun i _ => (hm i).mass hD
    rw [this, List.ofFn_eq_map]
  have hps : D.positions = List.ofFn x := by
    apply List.ext_getElem?
    intro i
    by_cases hi : i < D.numSites
    · rw [hx ⟨i, hi⟩, List.getElem?_ofFn, dif_pos hi]
    · rw [List.getElem?_eq_none (by unfold LatticeData.numSites at hi; omega),
        List.getElem?_ofFn, dif_neg hi]
  have hsum : (List.ofFn m).sum = ∑ i, m i := List.sum_ofFn
  have hw : ∀ k, (List.zipWith (fun m (x : Vec d ℝ) => m * x k) (List.ofFn m) D.positions).sum =
      ∑ i, m i * x i k := by
    intro k
    rw [hps, ← List.sum_ofFn]
    congr 1
    apply List.ext_getElem (by simp)
    intro i h1 h2
    simp
  have hM : 0 < ∑ i, m i := by
    have : Nonempty (Fin D.numSites) := ⟨⟨0, hn0⟩⟩
    exact Finset.sum_pos (fun i _ => hpos i) Finset.univ_nonempty
  unfold Lattice.centerOfGravity
  rw [hD]
  dsimp only
  rw [hms]
  refine ⟨_, rfl, fun k => ?_, fun k => ?_⟩
  · rw [hw, hsum]
    field_simp
  · rw [hw, hsum, le_div_iff₀ hM, div_le_iff₀ hM, Finset.mul_sum, Finset.mul_sum]
    have hin : ∀ i, lo k ≤ x i k ∧ x i k ≤ hi k := fun i =>
      hbox (x i) (List.mem_of_getElem? (hx i)) k
    constructor
    · exact Finset.sum_le_sum fun i _ => by
        rw [mul_comm]; exact mul_le_mul_of_nonneg_left (hin i).1 (hpos i).le
    · exact Finset.sum_le_sum fun i _ => by
        rw [mul_comm (hi k)]; exact mul_le_mul_of_nonneg_left (hin i).2 (hpos i).le

/-- Without data there is no error: the centre of gravity is an empty array, while `center` raises. -/
theorem C69_unbuilt_center (L : Lattice d ℝ) (h : L.data = none) :
    L.centerOfGravity = .ok none ∧ ∃ e, L.center = .error e := by
  constructor
  · unfold Lattice.centerOfGravity
    rw [h]
  · unfold Lattice.center Lattice.relativePosition Lattice.limits
    rw [h]
    exact ⟨_, rfl⟩

/-- A lattice with an atom of mass 1 (by default) at 0 and an atom of mass 3 at 1/2. -/
noncomputable def heavyLattice : Lattice 1 ℝ :=
  { world :=
      ⟨⟨2, [[], [("mass", .num 3)]], []⟩,
        { ofBasis (chainBasis 1) with
          atoms := [⟨0, "A", .num 1, 0⟩, ⟨1, "B", .num 1, 1⟩]
          positions := [fun _ => 0, fun _ => 1 / 2]
          numBase := 2 }⟩
    data := some
      { indices := [Idx.mk (fun _ => 0) 0, Idx.mk (fun _ => 0) 1]
        positions := [fun _ => 0, fun _ => 1 / 2]
        neighbors := []
        distances := []
        distvals := []
        pnvecs := []
        pmask := []
        paxes := []
        invalidIdx := 2
        invalidDistidx := 0
        dmap := none }
    shape := none
    pos := none
    periodicAxes := []
    primitive := none }

/-- The hypotheses of the theorems can be met: the limits of the lattice above are 0 and 1/2, its
centre is 1/4 and its centre of gravity 3/8. -/
example : heavyLattice.limits = .ok (fun _ => 0, fun _ => 1 / 2) ∧
    heavyLattice.center = .ok (fun _ => 1 / 4) ∧
    heavyLattice.centerOfGravity = .ok (some fun _ => 3 / 8) := by
  have hl : heavyLattice.limits = .ok (fun _ => 0, fun _ => 1 / 2) := by
    unfold heavyLattice Lattice.limits LatticeData.getLimits
    simp
  refine ⟨hl, ?_, ?_⟩
  · obtain ⟨c, hc, hc'⟩ := (C69_relative_position heavyLattice hl (fun _ => by norm_num)).2
    rw [hc]
    congr 1
    funext k
    have := hc' k
    linarith
  · obtain ⟨c, hc, hc', -⟩ := C69_center_of_gravity heavyLattice rfl (by simp) rfl hl
      ![fun _ => 0, fun _ => 1 / 2]
      (by
        intro i
        match i with
        | ⟨0, _⟩ => rfl
        | ⟨1, _⟩ => rfl) ![1, 3]
      (by
        intro i
        match i with
        | ⟨0, _⟩ =>
          exact ⟨_, 0, _, rfl, rfl, rfl, by decide,
            Or.inl ⟨by decide, rfl⟩⟩
        | ⟨1, _⟩ =>
          exact ⟨_, 1, _, rfl, rfl, rfl, by decide,
            Or.inr ⟨3, by decide, by change (3 : ℝ) = _; norm_num⟩⟩)
      (by
        intro i
        match i with
        | ⟨0, _⟩ => exact one_pos
        | ⟨1, _⟩ => exact three_pos)
    rw [hc]
    congr 2
    funext k
    have := hc' k
    have e : ∀ f : Fin 2 → ℝ, ∑ i, f i = f 0 + f 1 := fun f => Fin.sum_univ_two f
    erw [e, e] at this
    simp at this
    linarith

/-- After any history of `add_atom`, `add_connection`, `analyze`, `build` and `set_periodic` calls the
data, if there are any, meet the hypotheses of the theorems above: the limits exist, every site has
a position and, unless a mass is not a number, a mass. -/
theorem C69_history (hd : 0 < d) {env : Env ℝ} {w : World d ℝ} (hw : Reachable env w)
    (ops : List (Lattice.Op d ℝ)) {D : LatticeData d ℝ}
    (hD : (Lattice.run env (Lattice.ofWorld w) ops).data = some D) :
    let L := Lattice.run env (Lattice.ofWorld w) ops
    D.positions ≠ [] ∧ D.positions.length = D.indices.length ∧
    (∃ lo hi, L.limits = .ok (lo, hi) ∧ ∀ k, lo k ≤ hi k) ∧
    ((∀ at' ∈ L.struct.atoms, (L.world.session.params at').get? "get" = none ∧
      ((L.world.session.params at').get? "mass" = none ∨
        ∃ q : ℚ, 0 < q ∧ (L.world.session.params at').get? "mass" = some (.num q))) →
      ∀ i < D.numSites, ∃ m, 0 < m ∧ HasMass L D i m) := by
  intro L
  obtain ⟨h1, h2⟩ := Lattice.run_built hd hw ops
  obtain ⟨g1, g2, g3⟩ := h2 D hD
  have hne : D.positions ≠ [] := by
    rw [Ne, ← List.length_eq_zero_iff, g2, List.length_eq_zero_iff]
    exact g1
  refine ⟨hne, g2, ?_, ?_⟩
  · obtain ⟨lo, hi, hlim, hb, hb'⟩ := (C69_limits L).2 D hD hne
    refine ⟨lo, hi, hlim, fun k => ?_⟩
    obtain ⟨x, hx, hxk⟩ := (hb' k).1
    rw [← hxk]
    exact (hb x hx k).2
  · intro hat i hi
    have hx := List.getElem?_eq_getElem (l := D.indices) (i := i) hi
    obtain ⟨ha0, ha1⟩ := g3 _ (List.getElem_mem hi)
    obtain ⟨a, ha⟩ := Int.eq_ofNat_of_zero_le ha0
    have ha' : a < L.struct.atoms.length := by
      have h4 : L.struct.numBase ≤ L.struct.atoms.length := (h1.good hd).atoms_ge
      have h5 : (a : ℤ) < L.struct.numBase := by rw [← ha]; exact ha1
      have : a < L.struct.numBase := by exact_mod_cast h5
      omega
    obtain ⟨k1, k2⟩ := hat _ (List.getElem_mem ha')
    rcases k2 with k2 | ⟨q, hq, k2⟩
    · exact ⟨1, one_pos, _, a, _, hx, ha, List.getElem?_eq_getElem ha', k1, Or.inl ⟨k2, rfl⟩⟩
    · exact ⟨q, by exact_mod_cast hq, _, a, _, hx, ha, List.getElem?_eq_getElem ha', k1,
        Or.inr ⟨q, k2, rfl⟩⟩

/-! ## C70 -/

/-- The cells with at least one site. -/
def occupiedCells (D : LatticeData d ℝ) : Set (Fin d → ℤ) :=
  {n | ∃ a : ℤ, Idx.mk n a ∈ D.indices}

theorem mk_cell_alpha (x : Idx d) : Idx.mk x.cell x.alpha = x := by
  funext k
  unfold Idx.mk Idx.cell Idx.alpha
  refine Fin.lastCases ?_ (fun i => ?_) k <;> simp

theorem occupied_eq (D : LatticeData d ℝ) :
    occupiedCells D = ((D.indices.map Idx.cell).toFinset : Set (Fin d → ℤ)) := by
  ext n
  simp only [occupiedCells, Set.mem_ofPred_eq, List.coe_toFinset, List.mem_map]
  constructor
  · rintro ⟨a, ha⟩
    exact ⟨_, ha, by funext k; simp [Idx.mk, Idx.cell]⟩
  · rintro ⟨x, hx, rfl⟩
    exact ⟨x.alpha, by rw [mk_cell_alpha]; exact hx⟩

/-- `num_cells` is the number of cells with at least one site and `volume()` is that number times
the absolute value of the determinant of the vectors.  There are at most as many cells as sites.  If
each site is stored once and belongs to one of the atoms, there are at most as many sites as cells
times atoms. -/
theorem C70_cells (hd : 0 < d) (L : Lattice d ℝ) :
    (L.data = none → L.numCells = .error .index ∧ L.volume = .error .index) ∧
    ∀ D, L.data = some D →
      L.numCells = .ok (occupiedCells D).ncard ∧
      L.volume = .ok ((occupiedCells D).ncard * |L.struct.basis.vectors.det|) ∧
      (occupiedCells D).ncard ≤ D.numSites ∧
      (D.indices.Nodup → (∀ x ∈ D.indices, 0 ≤ Idx.alpha x ∧ Idx.alpha x < L.struct.numBase) →
        D.numSites ≤ (occupiedCells D).ncard * L.struct.numBase) := by
  refine ⟨fun h => ⟨by unfold Lattice.numCells; rw [h], by unfold Lattice.volume; rw [h]⟩, ?_⟩
  intro D hD
  have hcard : (occupiedCells D).ncard = (D.indices.map Idx.cell).dedup.length := by
    rw [occupied_eq, Set.ncard_coe_finset, List.card_toFinset]
  refine ⟨?_, ?_, ?_, ?_⟩
  · unfold Lattice.numCells
    rw [hD, hcard]
  · unfold Lattice.volume
    rw [hD, hcard]
    dsimp only
    rw [LatticeBasis.cellVolume, C04_cell_volume_eq_det hd, mul_comm]
  · rw [hcard]
    calc _ ≤ (D.indices.map Idx.cell).length := List.Sublist.length_le (List.dedup_sublist _)
      _ = _ := by rw [List.length_map]; rfl
  · intro hnd ha
    have h1 : D.numSites = D.indices.toFinset.card := (List.toFinset_card_of_nodup hnd).symm
    have h2 : (occupiedCells D).ncard * L.struct.numBase =
        ((D.indices.map Idx.cell).toFinset ×ˢ Finset.range L.struct.numBase).card := by
      rw [Finset.card_product, Finset.card_range, occupied_eq, Set.ncard_coe_finset]
    rw [h1, h2]
    refine Finset.card_le_card_of_injOn (fun x : Idx d => (x.cell, (Idx.alpha x).toNat)) ?_ ?_
    · intro x hx
      have hx : x ∈ D.indices := List.mem_toFinset.1 hx
      have := ha x hx
      rw [Finset.mem_coe, Finset.mem_product, List.mem_toFinset, List.mem_map, Finset.mem_range]
      refine ⟨⟨x, hx, rfl⟩, ?_⟩
      dsimp only
      omega
    · intro x hx y hy hxy
      have h3 := ha x (List.mem_toFinset.1 hx)
      have h4 := ha y (List.mem_toFinset.1 hy)
      have h5 : Idx.cell x = Idx.cell y := congrArg Prod.fst hxy
      have h6 : (Idx.alpha x).toNat = (Idx.alpha y).toNat := congrArg Prod.snd hxy
      rw [← mk_cell_alpha x, ← mk_cell_alpha y, h5]
      congr 1
      omega

/-- The bounds hold after any history of calls (without explicit index types). -/
theorem C70_history (hd : 0 < d) {env : Env ℝ} {w : World d ℝ} (hw : Reachable env w)
    (ops : List (Lattice.Op d ℝ)) (hb : ∀ a, Lattice.Op.build a ∈ ops → a.bits = none) :
    let L := Lattice.run env (Lattice.ofWorld w) ops
    ∀ D, L.data = some D → ∃ n, L.numCells = .ok n ∧ 0 < n ∧ n ≤ L.numSites ∧
      L.numSites ≤ n * L.struct.numBase := by
  intro L D hD
  obtain ⟨-, h1⟩ := Lattice.run_built hd hw ops
  obtain ⟨g1, -, g3⟩ := h1 D hD
  obtain ⟨-, h2⟩ := Lattice.run_sites hd hw ops hb
  obtain ⟨h3, -, h4, h5⟩ := (C70_cells hd L).2 D hD
  have hn : L.numSites = D.numSites := by
    unfold Lattice.numSites
    rw [hD]
  refine ⟨_, h3, ?_, by rw [hn]; exact h4, by rw [hn]; exact h5 (h2 D hD).1 g3⟩
  rw [occupied_eq, Set.ncard_coe_finset, Finset.card_pos]
  obtain ⟨x, hx⟩ := List.exists_mem_of_ne_nil _ g1
  exact ⟨Idx.cell x, List.mem_toFinset.2 (List.mem_map.2 ⟨x, hx, rfl⟩)⟩

/-- The hypotheses can be met: the chain built in three cells, of which the second is left out. -/
example (env : Env ℝ) : ∃ (w : World 1 ℝ) (ops : List (Lattice.Op 1 ℝ)) (D : LatticeData 1 ℝ),
    Reachable env w ∧ (∀ a, Lattice.Op.build a ∈ ops → a.bits = none) ∧
    (Lattice.run env (Lattice.ofWorld w) ops).data = some D ∧ D.numSites = 3 ∧
    (Lattice.run env (Lattice.ofWorld w) ops).limits = .ok (fun _ => 0, fun _ => 3) ∧
    (Lattice.run env (Lattice.ofWorld w) ops).numCells = .ok 3 ∧
    (Lattice.run env (Lattice.ofWorld w) ops).volume = .ok 3 := by
  obtain ⟨w, A, L, D, table, h⟩ := exists_isBuiltChain env Nat.one_pos (by norm_num) 3
    (fun i => decide (i ≠ 2)) (by decide)
  have hrun : Lattice.run env (Lattice.ofWorld w)
      [.build (chainArgs 3 fun i => decide (i ≠ 2))] = L := by
    change ((Lattice.ofWorld w).build env _).1 = L
    rw [h.build]
  have hcells : chainCells 3 (fun i => decide (i ≠ 2)) = [0, 1, 3] := by decide
  have hi := h.indices
  have hp := h.sites
  rw [hcells] at hi hp
  simp only [List.map_cons, List.map_nil] at hi hp
  have hn : (D.indices.map Idx.cell).dedup.length = 3 := by
    rw [hi]
    decide
  refine ⟨w, [.build (chainArgs 3 fun i => decide (i ≠ 2))], D, h.reach, ?_, by rw [hrun, h.data],
    by unfold LatticeData.numSites; rw [hi]; rfl, ?_, ?_, ?_⟩
  · intro a ha
    rw [List.mem_singleton] at ha
    cases ha
    rfl
  · rw [hrun]
    unfold Lattice.limits LatticeData.getLimits
    rw [h.data]
    dsimp only
    rw [hp]
    simp
  · rw [hrun]
    unfold Lattice.numCells
    rw [h.data]
    dsimp only
    rw [hn]
  · rw [hrun]
    obtain ⟨h1, h2, -⟩ := (C70_cells Nat.one_pos L).2 D h.data
    have hb : L.struct.basis = chainBasis 1 := by
      unfold Lattice.struct
      rw [h.world, h.basis]
    unfold Lattice.numCells at h1
    rw [h.data] at h1
    dsimp only at h1
    rw [hn] at h1
    rw [h2, ← Except.ok.inj h1, hb]
    simp [chainBasis, chainRows, LatticeBasis.vectors]

end Lattpy
