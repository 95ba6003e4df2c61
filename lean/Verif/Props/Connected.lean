import Verif.Props.Hermitian
import Verif.Props.Hops
import Verif.Props.AppendPresets

/-!
# Blocks of cells are connected (C131)

If the atoms of one cell are connected to each other and to those of the next cell along every axis, every
block of whole cells is connected, with open and with periodic boundaries.
-/

set_option autoImplicit false
set_option linter.unusedSectionVars false

namespace Lattpy

open Structure World Preset LatticeData Lattpy.Lattice

variable {d : ℕ}

/-! ## Specification -/

/-- Every site is reached from every other site by hops between neighbours. -/
def IsConnected (L : Lattice d ℝ) : Prop :=
  ∃ D, L.data = some D ∧ 0 < D.numSites ∧ ∀ i < D.numSites, ∀ j < D.numSites, ∃ n, Hops L n i j

/-- The atoms of one cell are connected to each other by the neighbours `N` inside the cell, and for every
axis some atom has a neighbour in the next cell. -/
def CellsJoined (n : ℕ) (N : ℕ → Set (Idx d)) : Prop :=
  (∀ α < n, ∀ β < n, Relation.ReflTransGen
    (fun α β : ℕ => α < n ∧ β < n ∧ Idx.mk 0 (β : ℤ) ∈ N α) α β) ∧
  ∀ k : Fin d, ∃ α < n, ∃ β < n, Idx.mk (Pi.single k 1) ((β : ℕ) : ℤ) ∈ N α

/-! ## Lemmas -/

theorem Hops.trans {L : Lattice d ℝ} {n m i j k : ℕ} (h : Hops L n i j) (h' : Hops L m j k) :
    Hops L (n + m) i k := by
  induction h with
  | refl i => rwa [zero_add]
  | @hop n i i' j l hl hi _ ih =>
    rw [Nat.add_right_comm]
    exact .hop hl hi (ih h')

theorem connected_of_links (hd : 0 < d) {env : Env ℝ} {w : World d ℝ} (hr : Reachable env w) {r : ℝ}
    {N : ℕ → Set (Idx d)} (h : NearestOnly w r N) (hj : CellsJoined w.struct.numBase N)
    {D : LatticeData d ℝ} (hs : List.Forall₂ (IsSitePos w.struct) D.indices D.positions)
    {lo : Fin d → ℤ} {size : Fin d → ℕ} (hw : WholeCells w.struct D lo size) {L : Lattice d ℝ}
    (hL : ∀ (i j : ℕ) (p q : Vec d ℝ), D.positions[i]? = some p → D.positions[j]? = some q →
      distance q p = r → ∃ l, L.neighbors i none false = .ok l ∧ j ∈ l) (hnd : D.indices.Nodup) :
    ∀ i < D.numSites, ∀ j < D.numSites, ∃ n, Hops L n i j := by
  -- reachability of sites given by their indices, both ways
  let R : Idx d → Idx d → Prop := fun x y => ∀ i j, D.indices[i]? = some x → D.indices[j]? = some y →
    (∃ n, Hops L n i j) ∧ ∃ n, Hops L n j i
  have Rtrans : ∀ x y z, y ∈ D.indices → R x y → R y z → R x z := by
    intro x y z hy h1 h2 i k hi hk
    obtain ⟨j, hj⟩ := List.mem_iff_getElem?.1 hy
    obtain ⟨⟨n, a1⟩, m, a2⟩ := h1 i j hi hj
    obtain ⟨⟨n', b1⟩, m', b2⟩ := h2 j k hj hk
    exact ⟨⟨_, a1.trans b1⟩, _, b2.trans a2⟩
  have Rrefl : ∀ x, R x x := by
    intro x i j hi hj
    obtain ⟨hi', e1⟩ := List.getElem?_eq_some_iff.1 hi
    obtain ⟨hj', e2⟩ := List.getElem?_eq_some_iff.1 hj
    obtain rfl : i = j := (hnd.getElem_inj_iff).1 (e1.trans e2.symm)
    exact ⟨⟨0, .refl i⟩, 0, .refl i⟩
  have Rsymm : ∀ x y, R x y → R y x := fun x y h i j hi hj => (h j i hj hi).symm
  have get : ∀ (i : ℕ) (x : Idx d), D.indices[i]? = some x →
      ∃ p, D.positions[i]? = some p ∧ IsSitePos w.struct x p := by
    intro i x hx
    obtain ⟨hi, rfl⟩ := List.getElem?_eq_some_iff.1 hx
    have hi' : i < D.positions.length := by rw [← hs.length_eq]; exact hi
    exact ⟨_, List.getElem?_eq_getElem hi', by simpa using hs.get hi hi'⟩
  have Rlink : ∀ (x y : Idx d) (α : ℕ), x.alpha = α → Idx.mk (y.cell - x.cell) y.alpha ∈ N α →
      R x y := by
    intro x y α hα hN i j hi hj
    obtain ⟨p, hp, hxp⟩ := get i x hi
    obtain ⟨q, hq, hyq⟩ := get j y hj
    have e := (h.distance_iff hd hr hxp hyq hα).2 hN
    obtain ⟨l, hl, hjl⟩ := hL i j p q hp hq e
    rw [distance_eq_dist, dist_comm, ← distance_eq_dist] at e
    obtain ⟨l', hl', hil⟩ := hL j i q p hq hp e
    exact ⟨⟨1, .hop hl hjl (.refl j)⟩, 1, .hop hl' hil (.refl i)⟩
  have mem : ∀ (c : Fin d → ℤ) (α : ℕ), α < w.struct.numBase →
      (∀ k, lo k ≤ c k ∧ c k < lo k + size k) → Idx.mk c (α : ℤ) ∈ D.indices := by
    intro c α hα hc
    rw [hw, Idx.alpha_mk, Idx.cell_mk]
    exact ⟨⟨by omega, by omega⟩, hc⟩
  have Rcell : ∀ (c : Fin d → ℤ), (∀ k, lo k ≤ c k ∧ c k < lo k + size k) → ∀ α < w.struct.numBase,
      ∀ β < w.struct.numBase, R (Idx.mk c (α : ℤ)) (Idx.mk c (β : ℤ)) := by
    intro c hc α hα β hβ
    induction hj.1 α hα β hβ with
    | refl => exact Rrefl _
    | @tail b b' _ hbb ih =>
      refine Rtrans _ _ _ (mem c b hbb.1 hc) (ih hbb.1) (Rlink _ _ b (Idx.alpha_mk _ _) ?_)
      rw [Idx.cell_mk, Idx.cell_mk, sub_self, Idx.alpha_mk]
      exact hbb.2.2
  have Rstep : ∀ (c : Fin d → ℤ) (k : Fin d), (∀ k, lo k ≤ c k ∧ c k < lo k + size k) →
      (∀ m, lo m ≤ (c + Pi.single k 1 : Fin d → ℤ) m ∧ (c + Pi.single k 1 : Fin d → ℤ) m < lo m + size m) →
      ∀ α < w.struct.numBase, ∀ β < w.struct.numBase,
        R (Idx.mk c (α : ℤ)) (Idx.mk (c + Pi.single k 1) (β : ℤ)) := by
    intro c k hc hc' α hα β hβ
    obtain ⟨α', h1, β', h2, h3⟩ := hj.2 k
    refine Rtrans _ _ _ (mem c α' h1 hc) (Rcell c hc α hα α' h1) ?_
    refine Rtrans _ _ _ (mem _ β' h2 hc') (Rlink _ _ α' (Idx.alpha_mk _ _) ?_) (Rcell _ hc' _ h2 _ hβ)
    rw [Idx.cell_mk, Idx.cell_mk, add_sub_cancel_left, Idx.alpha_mk]
    exact h3
  have Rall : ∀ (n : ℕ) (c e : Fin d → ℤ), ∑ k, (c k - e k).natAbs = n →
      (∀ k, lo k ≤ c k ∧ c k < lo k + size k) → (∀ k, lo k ≤ e k ∧ e k < lo k + size k) →
      ∀ α < w.struct.numBase, ∀ β < w.struct.numBase, R (Idx.mk c (α : ℤ)) (Idx.mk e (β : ℤ)) := by
    intro n
    induction n with
    | zero =>
      intro c e hn hc he α hα β hβ
      have : c = e := by
        funext k
        have := (Finset.sum_eq_zero_iff.1 hn) k (Finset.mem_univ k)
        omega
      rw [this]
      exact Rcell e he α hα β hβ
    | succ n ih =>
      intro c e hn hc he α hα β hβ
      obtain ⟨k, hk⟩ : ∃ k, c k ≠ e k := by
        by_contra hcon
        push Not at hcon
        rw [Finset.sum_eq_zero fun k _ => by rw [hcon k, sub_self]; rfl] at hn
        omega
      have split : ∀ f : Fin d → ℕ, ∑ m, f m = f k + ∑ m ∈ Finset.univ.erase k, f m := fun f =>
        (Finset.add_sum_erase _ f (Finset.mem_univ k)).symm
      have other : ∀ c' : Fin d → ℤ, (∀ m, m ≠ k → c' m = c m) →
          ∑ m ∈ Finset.univ.erase k, (c' m - e m).natAbs = ∑ m ∈ Finset.univ.erase k, (c m - e m).natAbs :=
        fun c' hc' => Finset.sum_congr rfl fun m hm => by rw [hc' m (Finset.ne_of_mem_erase hm)]
      rw [split] at hn
      have hck := hc k
      have hek := he k
      rcases lt_or_gt_of_ne hk with hlt | hgt
      · have ho : ∀ m, m ≠ k → (c + Pi.single k 1 : Fin d → ℤ) m = c m := fun m hm => by simp [hm]
        have hk1 : (c + Pi.single k 1 : Fin d → ℤ) k = c k + 1 := by simp
        have hc' : ∀ m, lo m ≤ (c + Pi.single k 1 : Fin d → ℤ) m ∧
            (c + Pi.single k 1 : Fin d → ℤ) m < lo m + size m := by
          intro m
          by_cases hm : m = k
          · subst hm; rw [hk1]; omega
          · rw [ho m hm]; exact hc m
        refine Rtrans _ _ _ (mem _ α hα hc') (Rstep c k hc hc' α hα α hα) (ih _ e ?_ hc' he α hα β hβ)
        rw [split, other _ ho, hk1]
        omega
      · have ho : ∀ m, m ≠ k → (c - Pi.single k 1 : Fin d → ℤ) m = c m := fun m hm => by simp [hm]
        have hk1 : (c - Pi.single k 1 : Fin d → ℤ) k = c k - 1 := by simp
        have hc' : ∀ m, lo m ≤ (c - Pi.single k 1 : Fin d → ℤ) m ∧
            (c - Pi.single k 1 : Fin d → ℤ) m < lo m + size m := by
          intro m
          by_cases hm : m = k
          · subst hm; rw [hk1]; omega
          · rw [ho m hm]; exact hc m
        have hback := Rstep (c - Pi.single k 1) k hc' (by rw [sub_add_cancel]; exact hc) α hα α hα
        rw [sub_add_cancel] at hback
        refine Rtrans _ _ _ (mem _ α hα hc') (Rsymm _ _ hback) (ih _ e ?_ hc' he α hα β hβ)
        rw [split, other _ ho, hk1]
        omega
  intro i hi j hj'
  have hx := List.getElem?_eq_getElem (l := D.indices) hi
  have hy := List.getElem?_eq_getElem (l := D.indices) hj'
  obtain ⟨⟨a1, a2⟩, a3⟩ := (hw _).1 (List.mem_of_getElem? hx)
  obtain ⟨⟨b1, b2⟩, b3⟩ := (hw _).1 (List.mem_of_getElem? hy)
  refine (Rall _ _ _ rfl a3 b3 (Idx.alpha (D.indices[i]'hi)).toNat (by omega)
    (Idx.alpha (D.indices[j]'hj')).toNat (by omega) i j ?_ ?_).1
  · rw [Int.toNat_of_nonneg a1, Idx.mk_cell_alpha]; exact hx
  · rw [Int.toNat_of_nonneg b1, Idx.mk_cell_alpha]; exact hy

/-! ## The blocks -/

/-- C131, open boundaries: every block of whole cells is connected. -/
theorem C131_block_partial (hd : 0 < d) {env : Env ℝ} {L L' : Lattice d ℝ}
    (hr : Reachable env L.world) {r : ℝ} {N : ℕ → Set (Idx d)} (h : NearestOnly L.world r N)
    (hj : CellsJoined L.struct.numBase N) {a : BuildArgs d ℝ} (hm : a.minNeighbors = none)
    (hp : a.periodic = none) (hb : a.bits = none) (hok : L.build env a = (L', .ok ()))
    {D : LatticeData d ℝ} (hD : L'.data = some D) {lo : Fin d → ℤ} {size : Fin d → ℕ}
    (hw : WholeCells L.struct D lo size) : IsConnected L' := by
  obtain ⟨D', hD', hs, hnd, -, hnn, -⟩ := C59_nearest_only_partial hd hr h hm hp hb hok
  cases hD.symm.trans hD'
  obtain ⟨A, D2, table, -, hD2, -, -, -, hcomp, hset⟩ := build_table hd hr hm hp hb hok
  cases hD.symm.trans hD2
  have hpos : 0 < D.numSites := by
    obtain ⟨row, hrow, -⟩ := set_nonempty hset
    obtain ⟨A', hA'⟩ : ∃ A', L.struct.analysis = some A' := by
      obtain ⟨A', D3, t3, e, -⟩ := build_table hd hr hm hp hb hok
      exact ⟨A', e⟩
    obtain ⟨-, htl, -⟩ := h.table hd hr hA' hs hnd hcomp
    show 0 < D.indices.length
    rw [hs.length_eq, ← htl]
    exact List.length_pos_of_mem hrow
  refine ⟨D, hD, hpos, connected_of_links hd hr h hj hs hw (fun i j p q h1 h2 e => ?_) hnd⟩
  have hi : i < D.numSites := lt_of_lt_of_eq (List.getElem?_eq_some_iff.1 h1).1 hs.length_eq.symm
  obtain ⟨l, hl, -, hlm⟩ := hnn i hi
  exact ⟨l, hl, (hlm j).2 ⟨p, q, h1, h2, e⟩⟩

/-- C131, periodic boundaries: a block of whole cells stays connected under `set_periodic`. -/
theorem C131_torus_partial (hd : 0 < d) {env : Env ℝ} {L L' : Lattice d ℝ}
    (hr : Reachable env L.world) {r : ℝ} {N : ℕ → Set (Idx d)} (h : NearestOnly L.world r N)
    (hst : NearSteps N) (hj : CellsJoined L.struct.numBase N) {a : BuildArgs d ℝ}
    (hm : a.minNeighbors = none) (hp : a.periodic = none) (hb : a.bits = none)
    (hok : L.build env a = (L', .ok ()))
    (hprim : a.primitive = true ∨ Orthogonal L.struct.basis) {D : LatticeData d ℝ}
    (hD : L'.data = some D) {lo : Fin d → ℤ} {size : Fin d → ℕ}
    (hw : WholeCells L.struct D lo size) {axes : List ℕ} (hax : ∀ k ∈ axes, k < d)
    (h3 : ∀ k : Fin d, k.val ∈ axes → 3 ≤ size k) :
    ∃ L'', L'.setPeriodic env (.axes axes) = (L'', .ok ()) ∧ IsConnected L'' := by
  obtain ⟨D0, hD0, hpos, -⟩ := C131_block_partial hd hr h hj hm hp hb hok hD hw
  cases hD.symm.trans hD0
  obtain ⟨L'', h1, ⟨E, hE, hEi, hEp, hn, -⟩, -⟩ :=
    C111_torus_partial hd hr h hst hm hp hb hok hprim hD hw hax h3
  obtain ⟨D', hD', hs, hnd, -⟩ := C59_nearest_only_partial hd hr h hm hp hb hok
  cases hD.symm.trans hD'
  have hnum : E.numSites = D.numSites := by unfold LatticeData.numSites; rw [hEi]
  refine ⟨L'', h1, E, hE, by rw [hnum]; exact hpos, ?_⟩
  rw [hnum]
  refine connected_of_links hd hr h hj hs hw (fun i j p q h1 h2 e => ?_) hnd
  have hi : i < D.numSites := lt_of_lt_of_eq (List.getElem?_eq_some_iff.1 h1).1 hs.length_eq.symm
  obtain ⟨l, hl, -, hlm⟩ := hn i hi
  refine ⟨l, hl, (hlm j).2 ⟨0, fun k => ⟨dvd_zero _, fun _ => rfl⟩, p, q, h1, h2, ?_⟩⟩
  rw [← e, distance_eq_dist, dist_comm, EuclideanSpace.dist_eq]
  congr 1
  refine Finset.sum_congr rfl fun k _ => ?_
  simp [Real.dist_eq, sq_abs]

/-- C131, joined blocks: two blocks of whole cells of the same cross section, joined by `append`, are
connected, if the distance is not rounded down when it is stored. -/
theorem C131_append_partial (hd : 0 < d) {env : Env ℝ} {L L1 L2 : Lattice d ℝ}
    (hr : Reachable env L.world) {r : ℝ} {N : ℕ → Set (Idx d)} (h : NearestOnly L.world r N)
    (hst : NearSteps N) (hj : CellsJoined L.struct.numBase N) (hround : r ≤ npRound 6 r)
    {a1 a2 : BuildArgs d ℝ}
    (ha1 : a1.minNeighbors = none ∧ a1.periodic = none ∧ a1.bits = none)
    (ha2 : a2.minNeighbors = none ∧ a2.periodic = none ∧ a2.bits = none)
    (hok1 : L.build env a1 = (L1, .ok ())) (hok2 : L.build env a2 = (L2, .ok ()))
    (hprim : a1.primitive = true ∨ Orthogonal L.struct.basis) {D1 D2 : LatticeData d ℝ}
    (hD1 : L1.data = some D1) (hD2 : L2.data = some D2) {lo : Fin d → ℤ} {size1 size2 : Fin d → ℕ}
    (hw1 : WholeCells L.struct D1 lo size1) (hw2 : WholeCells L.struct D2 lo size2) {ax : Fin d}
    (hsize : ∀ k, k ≠ ax → size1 k = size2 k) (h3 : 3 ≤ size1 ax ∨ 3 ≤ size2 ax) (side : Bool) :
    ∃ L', L1.append env L2 ax.val side none false = (L', .ok ()) ∧ IsConnected L' := by
  obtain ⟨D0, hD0, hpos, -⟩ := C131_block_partial hd hr h hj ha1.1 ha1.2.1 ha1.2.2 hok1 hD1 hw1
  cases hD1.symm.trans hD0
  obtain ⟨L', E, e1, -, e3, e4, e5, e6, e7, -⟩ := C68_cells_partial hd hr h hst hround ha1 ha2 hok1 hok2
    hprim hD1 hD2 hw1 hw2 hsize h3 side
  refine ⟨L', e1, E, e3, ?_, connected_of_links hd hr h hj e4 e6 (fun i j p q h1 h2 e => ?_) e5⟩
  · obtain ⟨x, hx⟩ := List.exists_mem_of_length_pos hpos
    obtain ⟨b1, b2⟩ := (hw1 x).1 hx
    refine List.length_pos_of_mem ((e6 x).2 ⟨b1, fun k => ?_⟩)
    have := b2 k
    unfold joinLo joinSize
    by_cases hk : k = ax
    · subst hk
      cases side <;> simp <;> omega
    · cases side <;> simp [hk] <;> omega
  · have hi : i < E.numSites := lt_of_lt_of_eq (List.getElem?_eq_some_iff.1 h1).1 e4.length_eq.symm
    obtain ⟨l, hl, -, hlm⟩ := e7 i hi
    exact ⟨l, hl, (hlm j).2 ⟨p, q, h1, h2, e⟩⟩

/-! ## Graphene -/

theorem honeySets_joined : CellsJoined 2 honeySets := by
  have z : (0 : Fin 2 → ℤ) = ![0, 0] := by decide
  constructor
  · intro α hα β hβ
    by_cases e : α = β
    · rw [e]
    · refine .single ⟨hα, hβ, ?_⟩
      rw [z]
      unfold honeySets
      interval_cases α <;> interval_cases β <;> simp_all
  · intro k
    refine ⟨1, by norm_num, 0, by norm_num, ?_⟩
    fin_cases k
    · rw [show (Pi.single (⟨0, by norm_num⟩ : Fin 2) 1 : Fin 2 → ℤ) = ![1, 0] by decide]
      simp [honeySets]
    · rw [show (Pi.single (⟨1, by norm_num⟩ : Fin 2) 1 : Fin 2 → ℤ) = ![0, 1] by decide]
      simp [honeySets]

/-- C131, graphene: sheets of at least 3 × 3 whole cells are connected, with open boundaries and with
every choice of periodic axes. -/
theorem C131_graphene_partial (env : Env ℝ) (s : Session) (a : ℝ) (ha : 1 ≤ a) (m : Fin 2 → ℕ)
    (σ : Vec 2 ℝ) (isInt : Bool) (hm : ∀ k, 3 ≤ m k)
    (hσ : ∀ k, (m k : ℝ) - 2 / 3 ≤ σ k ∧ σ k < m k - 1 / 1000 ∧ 3 * σ k ≤ 2 * (a * (σ 0 + σ 1))) :
    ∃ w L, graphene env s a = .ok w ∧
      (Lattice.ofWorld w).build env (primitiveBox σ isInt) = (L, .ok ()) ∧ IsConnected L ∧
      ∀ axes : List ℕ, (∀ k ∈ axes, k < 2) →
        ∃ L', L.setPeriodic env (.axes axes) = (L', .ok ()) ∧ IsConnected L' := by
  obtain ⟨w, h1, hr, hN, -, hnb, hB⟩ := graphene_block env s a ha
  obtain ⟨L, D, g1, g2, g3⟩ := hB m σ isInt hm hσ
  have hj : CellsJoined (Lattice.ofWorld w).struct.numBase honeySets := by
    show CellsJoined w.struct.numBase honeySets
    rw [hnb]
    exact honeySets_joined
  exact ⟨w, L, h1, g1, C131_block_partial (L := Lattice.ofWorld w) two_pos hr hN hj rfl rfl rfl g1 g2 g3,
    fun axes hax => C131_torus_partial (L := Lattice.ofWorld w) two_pos hr hN
      (nearSteps_planar le_rfl honeySets_steps) hj rfl rfl rfl g1 (Or.inl rfl) g2 g3 hax
      fun k _ => hm k⟩

/-- A sheet of 10 × 18 cells of graphene, open, as a ribbon and as a torus, and one of 10 × 27 cells joined
from two. -/
example (env : Env ℝ) (s : Session) : ∃ w L L2 L', graphene env s 1 = .ok w ∧
    (Lattice.ofWorld w).build env (primitiveBox ![19 / 2, 35 / 2] false) = (L, .ok ()) ∧ IsConnected L ∧
    (∀ axes : List ℕ, (∀ k ∈ axes, k < 2) →
      ∃ M, L.setPeriodic env (.axes axes) = (M, .ok ()) ∧ IsConnected M) ∧
    (Lattice.ofWorld w).build env (primitiveBox ![19 / 2, 17 / 2] false) = (L2, .ok ()) ∧
    L.append env L2 1 true none false = (L', .ok ()) ∧ IsConnected L' := by
  obtain ⟨w, L, h1, h2, h3, h4⟩ := C131_graphene_partial env s 1 le_rfl ![10, 18] ![19 / 2, 35 / 2] false
    (by intro k; fin_cases k <;> simp) (by intro k; fin_cases k <;> norm_num)
  obtain ⟨w', h1', hr, hN, -, hnb, hB⟩ := graphene_block env s 1 le_rfl
  cases h1.symm.trans h1'
  obtain ⟨L1, D1, g1, g2, g3⟩ := hB ![10, 18] ![19 / 2, 35 / 2] false
    (by intro k; fin_cases k <;> simp) (by intro k; fin_cases k <;> norm_num)
  cases h2.symm.trans g1
  obtain ⟨L2, D2, k1, k2, k3⟩ := hB ![10, 9] ![19 / 2, 17 / 2] false
    (by intro k; fin_cases k <;> simp) (by intro k; fin_cases k <;> norm_num)
  have hj : CellsJoined (Lattice.ofWorld w).struct.numBase honeySets := by
    show CellsJoined w.struct.numBase honeySets
    rw [hnb]
    exact honeySets_joined
  obtain ⟨L', e1, e2⟩ := C131_append_partial (L := Lattice.ofWorld w) two_pos hr hN
    (nearSteps_planar le_rfl honeySets_steps) hj npRound_one.ge
    (a1 := primitiveBox ![19 / 2, 35 / 2] false) (a2 := primitiveBox ![19 / 2, 17 / 2] false)
    ⟨rfl, rfl, rfl⟩ ⟨rfl, rfl, rfl⟩ g1 k1 (Or.inl rfl) g2 k2 g3 k3 (ax := 1)
    (by intro k hk; fin_cases k <;> simp_all) (Or.inl (by simp)) true
  exact ⟨w, L, L2, L', h1, h2, h3, h4, k1, e1, e2⟩

/-- C131 fails for joined sheets with a distance which is rounded down when it is stored, such as `4 / 3`:
the call succeeds, but no number of hops leads from the first sheet to the second. -/
theorem C131_append_fails (env : Env ℝ) (s : Session) :
    ∃ w L L', graphene env s (4 / 3) = .ok w ∧
      (Lattice.ofWorld w).build env (primitiveBox ![5 / 2, 5 / 2] false) = (L, .ok ()) ∧ IsConnected L ∧
      L.append env L 0 true none false = (L', .ok ()) ∧ ¬ IsConnected L' := by
  obtain ⟨w, L, h1, h2, h3, -⟩ := C131_graphene_partial env s (4 / 3) (by norm_num) ![3, 3]
    ![5 / 2, 5 / 2] false (by intro k; fin_cases k <;> simp) (by intro k; fin_cases k <;> norm_num)
  obtain ⟨w', h1', hr, hN, -, hnb, hB⟩ := graphene_block env s (4 / 3) (by norm_num)
  cases h1.symm.trans h1'
  obtain ⟨L1, D, g1, g2, g3⟩ := hB ![3, 3] ![5 / 2, 5 / 2] false
    (by intro k; fin_cases k <;> simp) (by intro k; fin_cases k <;> norm_num)
  cases h2.symm.trans g1
  obtain ⟨L', E, n, e1, e2, -, e4, -, e6, -⟩ := rounded_unlinked (L := Lattice.ofWorld w) two_pos hr hN
    (nearSteps_planar le_rfl honeySets_steps) npRound_four_thirds
    (a1 := primitiveBox ![5 / 2, 5 / 2] false) (a2 := primitiveBox ![5 / 2, 5 / 2] false)
    ⟨rfl, rfl, rfl⟩ ⟨rfl, rfl, rfl⟩ g1 g1 (Or.inl rfl) g2 g2 g3 g3 0 true
  refine ⟨w, L, L', h1, h2, h3, e1, ?_⟩
  rintro ⟨E', hE', -, hc⟩
  cases e2.symm.trans hE'
  obtain ⟨D', hD', hpos, -⟩ := h3
  cases g2.symm.trans hD'
  have hnum : E.numSites = D.numSites + D.numSites := by
    unfold LatticeData.numSites
    rw [e4, List.length_append, List.length_map]
  obtain ⟨k, hk⟩ := hc 0 (by omega) D.numSites (by omega)
  have key : ∀ k i j, Hops L' k i j → i < D.numSites → j < D.numSites := by
    intro k i j hh
    induction hh with
    | refl i => exact id
    | @hop k i i' j l hl hi' _ ih =>
      intro hi
      obtain ⟨l', a1, a2⟩ := e6 i hi
      cases hl.symm.trans a1
      exact ih (a2 _ hi')
  exact lt_irrefl _ (key k 0 D.numSites hk hpos)

end Lattpy
