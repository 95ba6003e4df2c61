import Verif.Props.SmallTorus
import Verif.Props.Access
import Verif.Props.Restrict

/-!
# Paths along neighbours (C128)

A site of a hypercubic lattice is reached from another one by going from neighbour to neighbour, and
the smallest number of hops is the distance of the cells along the axes (around the shorter way along
periodic axes).
-/

set_option autoImplicit false
set_option linter.unusedSectionVars false

namespace Lattpy

open Structure World Preset LatticeData

variable {d : ℕ}

/-! ## Specification -/

/-- Site `j` is reached from site `i` with `n` hops, each from a site to one of its neighbours. -/
inductive Hops (L : Lattice d ℝ) : ℕ → ℕ → ℕ → Prop
  | refl (i : ℕ) : Hops L 0 i i
  | hop {n i j k : ℕ} {l : List ℕ} (h : L.neighbors i none false = .ok l) (hj : j ∈ l)
      (hk : Hops L n j k) : Hops L (n + 1) i k

/-- The distance of two cells along an axis of `s` cells; on a periodic axis the shorter way around. -/
def axisDist (s : ℕ) (per : Bool) (x y : ℤ) : ℕ :=
  if per then min (x - y).natAbs (s - (x - y).natAbs) else (x - y).natAbs

/-- The distance of two cells along the axes. -/
def cellDist (size : Fin d → ℕ) (axes : List ℕ) (x y : Fin d → ℤ) : ℕ :=
  ∑ k, axisDist (size k) (decide (k.val ∈ axes)) (x k) (y k)

/-- The smallest number of hops between two sites is the distance of their cells. -/
def HopsAreCellDist (size : Fin d → ℕ) (axes : List ℕ) (L : Lattice d ℝ) : Prop :=
  ∃ D, L.data = some D ∧ D.numSites = ∏ k, size k ∧
    ∀ (i j : ℕ) (a b : Idx d), D.indices[i]? = some a → D.indices[j]? = some b →
      Hops L (cellDist size axes a.cell b.cell) i j ∧
      ∀ n, Hops L n i j → cellDist size axes a.cell b.cell ≤ n

/-! ## one axis -/

/-- A step along one axis. -/
def AxisStep (s : ℕ) (per : Bool) (x y : ℤ) : Prop :=
  y = x + 1 ∨ y = x - 1 ∨ (per = true ∧ ((x = 0 ∧ y = s - 1) ∨ (y = 0 ∧ x = s - 1)))

theorem axisDist_step {s : ℕ} {per : Bool} {x y z : ℤ} (hx : 0 ≤ x ∧ x < s) (hy : 0 ≤ y ∧ y < s)
    (hz : 0 ≤ z ∧ z < s) (h : AxisStep s per x y) : axisDist s per x z ≤ axisDist s per y z + 1 := by
  unfold axisDist
  unfold AxisStep at h
  cases per
  · simp only [Bool.false_eq_true, if_false, false_and, or_false] at h ⊢
    omega
  · simp only [if_true, true_and] at h ⊢
    omega

theorem axisDist_next {s : ℕ} {per : Bool} {x z : ℤ} (hx : 0 ≤ x ∧ x < s) (hz : 0 ≤ z ∧ z < s)
    (hne : x ≠ z) : ∃ y : ℤ, (0 ≤ y ∧ y < s) ∧ AxisStep s per x y ∧
      axisDist s per x z = axisDist s per y z + 1 := by
  unfold axisDist AxisStep
  cases per
  · simp only [Bool.false_eq_true, if_false, false_and, or_false]
    rcases lt_or_gt_of_ne hne with h | h
    · exact ⟨x + 1, by omega, Or.inl rfl, by omega⟩
    · exact ⟨x - 1, by omega, Or.inr rfl, by omega⟩
  · simp only [if_true, true_and]
    by_cases hs : 2 * (x - z).natAbs ≤ s
    · rcases lt_or_gt_of_ne hne with h | h
      · exact ⟨x + 1, by omega, Or.inl rfl, by omega⟩
      · exact ⟨x - 1, by omega, Or.inr (Or.inl rfl), by omega⟩
    · rcases lt_or_gt_of_ne hne with h | h
      · by_cases h0 : x = 0
        · exact ⟨s - 1, by omega, Or.inr (Or.inr (Or.inl ⟨h0, rfl⟩)), by omega⟩
        · exact ⟨x - 1, by omega, Or.inr (Or.inl rfl), by omega⟩
      · by_cases h0 : x = s - 1
        · exact ⟨0, by omega, Or.inr (Or.inr (Or.inr ⟨rfl, h0⟩)), by omega⟩
        · exact ⟨x + 1, by omega, Or.inl rfl, by omega⟩

theorem axisDist_self (s : ℕ) (per : Bool) (x : ℤ) : axisDist s per x x = 0 := by
  unfold axisDist
  simp

theorem axisDist_pos {s : ℕ} {per : Bool} {x z : ℤ} (hx : 0 ≤ x ∧ x < s) (hz : 0 ≤ z ∧ z < s)
    (h : axisDist s per x z = 0) : x = z := by
  by_contra hne
  obtain ⟨y, -, -, e⟩ := axisDist_next (per := per) hx hz hne
  omega

/-! ## all axes -/

theorem torusStep_axis (size : Fin d → ℕ) (axes : List ℕ) (x y : Fin d → ℤ) :
    TorusStep size axes x y ↔ ∃ k, (∀ m, m ≠ k → y m = x m) ∧
      AxisStep (size k) (decide (k.val ∈ axes)) (x k) (y k) := by
  unfold TorusStep AxisStep
  simp only [decide_eq_true_eq]

/-- The distances along the other axes do not change. -/
theorem cellDist_split (size : Fin d → ℕ) (axes : List ℕ) {x y z : Fin d → ℤ} {k : Fin d}
    (h : ∀ m, m ≠ k → y m = x m) :
    cellDist size axes x z + axisDist (size k) (decide (k.val ∈ axes)) (y k) (z k) =
      cellDist size axes y z + axisDist (size k) (decide (k.val ∈ axes)) (x k) (z k) := by
  unfold cellDist
  rw [← Finset.add_sum_erase _ _ (Finset.mem_univ k),
    ← Finset.add_sum_erase _ (fun k => axisDist (size k) (decide (k.val ∈ axes)) (y k) (z k))
      (Finset.mem_univ k)]
  have : ∑ m ∈ Finset.univ.erase k, axisDist (size m) (decide (m.val ∈ axes)) (y m) (z m) =
      ∑ m ∈ Finset.univ.erase k, axisDist (size m) (decide (m.val ∈ axes)) (x m) (z m) :=
    Finset.sum_congr rfl fun m hm => by rw [h m (Finset.ne_of_mem_erase hm)]
  rw [this]
  ring

theorem hops_of_grid {size : Fin d → ℕ} {axes : List ℕ} {L : Lattice d ℝ} {D : LatticeData d ℝ}
    (hD : L.data = some D) (hlen : D.indices.length = ∏ k, size k) (hnd : D.indices.Nodup)
    (hw : ∀ x : Idx d, x ∈ D.indices ↔ x.alpha = 0 ∧ ∀ k, 0 ≤ x.cell k ∧ x.cell k < size k)
    (hnb : ∀ (i : ℕ) (a : Idx d), D.indices[i]? = some a → ∃ l, L.neighbors i none false = .ok l ∧
      l.Nodup ∧ ∀ j, j ∈ l ↔ ∃ b : Idx d, D.indices[j]? = some b ∧
        TorusStep size axes a.cell b.cell) : HopsAreCellDist size axes L := by
  have hin : ∀ {i : ℕ} {a : Idx d}, D.indices[i]? = some a →
      a.alpha = 0 ∧ ∀ k, 0 ≤ a.cell k ∧ a.cell k < size k :=
    fun ha => (hw _).1 (List.mem_of_getElem? ha)
  refine ⟨D, hD, hlen, fun i j a b ha hb => ⟨?_, ?_⟩⟩
  · -- a path
    generalize hn : cellDist size axes a.cell b.cell = n
    induction n generalizing i a with
    | zero =>
      have hab : a = b := by
        rw [← Idx.mk_cell_alpha a, ← Idx.mk_cell_alpha b, Idx.mk_inj]
        refine ⟨?_, by rw [(hin ha).1, (hin hb).1]⟩
        funext k
        refine axisDist_pos ((hin ha).2 k) ((hin hb).2 k) (per := decide (k.val ∈ axes)) ?_
        unfold cellDist at hn
        exact Finset.sum_eq_zero_iff.1 hn k (Finset.mem_univ k)
      subst hab
      obtain ⟨h1, e1⟩ := List.getElem?_eq_some_iff.1 ha
      obtain ⟨h2, e2⟩ := List.getElem?_eq_some_iff.1 hb
      have : i = j := (List.Nodup.getElem_inj_iff hnd).1 (e1.trans e2.symm)
      subst this
      exact Hops.refl i
    | succ n ih =>
      have hk : ∃ k, a.cell k ≠ b.cell k := by
        by_contra hc
        push Not at hc
        have : cellDist size axes a.cell b.cell = 0 :=
          Finset.sum_eq_zero fun k _ => by rw [hc k, axisDist_self]
        omega
      obtain ⟨k, hk⟩ := hk
      obtain ⟨y, hy, hst, hdist⟩ := axisDist_next (per := decide (k.val ∈ axes)) ((hin ha).2 k)
        ((hin hb).2 k) hk
      have hother : ∀ m, m ≠ k → Function.update a.cell k y m = a.cell m :=
        fun m hm => Function.update_of_ne hm _ _
      have hmem : Idx.mk (Function.update a.cell k y) 0 ∈ D.indices := by
        rw [hw, Idx.alpha_mk, Idx.cell_mk]
        refine ⟨rfl, fun m => ?_⟩
        by_cases hm : m = k
        · subst hm; rw [Function.update_self]; exact hy
        · rw [hother m hm]; exact (hin ha).2 m
      obtain ⟨i', hi'⟩ := List.mem_iff_getElem?.1 hmem
      obtain ⟨l, hl, -, hlm⟩ := hnb i a ha
      refine Hops.hop hl ((hlm i').2 ⟨_, hi', ?_⟩) (ih i' _ hi' ?_)
      · rw [Idx.cell_mk, torusStep_axis]
        exact ⟨k, hother, by rw [Function.update_self]; exact hst⟩
      · have := cellDist_split size axes (z := b.cell) hother
        rw [Function.update_self] at this
        rw [Idx.cell_mk]
        omega
  · -- no shorter path
    intro n h
    induction h generalizing a with
    | refl i =>
      cases ha.symm.trans hb
      exact le_of_eq (Finset.sum_eq_zero fun k _ => axisDist_self _ _ _)
    | @hop n i i' j l hl hi' _ ih =>
      obtain ⟨l', hl', -, hlm⟩ := hnb i a ha
      cases hl.symm.trans hl'
      obtain ⟨a', ha', hst⟩ := (hlm i').1 hi'
      have h1 := ih a' ha' hb
      obtain ⟨k, hother, hst⟩ := (torusStep_axis _ _ _ _).1 hst
      have h2 := cellDist_split size axes (z := b.cell) hother
      have h3 := axisDist_step ((hin ha).2 k) ((hin ha').2 k) ((hin hb).2 k) hst
      omega

/-- C128 for `finite_hypercubic` without periodic axes. -/
theorem C128_grid (hd : 0 < d) (hdim : d ≤ 10 ^ 9) (env : Env ℝ) (s : Session) (atom : AtomSpec)
    (size : Fin d → ℕ) (hs : ∀ k, 0 < size k) (isInt : Bool) :
    ∃ L, Preset.finiteHypercubic env s (.size (List.ofFn fun k => (size k : ℝ)) isInt) 1 atom 1
      true none = .ok L ∧ HopsAreCellDist size [] L := by
  obtain ⟨L, h, -, D, h1, h2, h3, h4, -, h5, -⟩ := C98_grid hd hdim env s atom size hs isInt
  exact ⟨L, h, hops_of_grid h1 h2 h3 h4 h5⟩

/-- C128 for `finite_hypercubic` with periodic axes of two or more cells. -/
theorem C128_torus_partial (hd : 0 < d) (hdim : d ≤ 10 ^ 9) (env : Env ℝ) (s : Session)
    (atom : AtomSpec) (size : Fin d → ℕ) (hs : ∀ k, 0 < size k) (isInt : Bool) {axes : List ℕ}
    (hax : ∀ a ∈ axes, a < d) (h2 : ∀ k : Fin d, k.val ∈ axes → 2 ≤ size k) {p : PAxis}
    (hp : p = .axes axes ∨ p = .flag true ∧ axes = List.range d) :
    ∃ L, Preset.finiteHypercubic env s (.size (List.ofFn fun k => (size k : ℝ)) isInt) 1 atom 1
      true (some p) = .ok L ∧ HopsAreCellDist size axes L := by
  obtain ⟨L, D, h1, h2, -, -, h3, h4, h5, -, h6⟩ :=
    C98_neighbors_partial hd hdim env s atom size hs isInt hax h2 hp
  exact ⟨L, h1, hops_of_grid h2 h3 h4 h5 h6⟩

/-- The corners of the grid of 4 × 6 cells. -/
theorem hops_corners {L : Lattice 2 ℝ} {axes : List ℕ} {n : ℕ} (h : HopsAreCellDist ![4, 6] axes L)
    (hw : ∀ D, L.data = some D → ∀ x : Idx 2, x ∈ D.indices ↔ x.alpha = 0 ∧
      ∀ k, 0 ≤ x.cell k ∧ x.cell k < (![4, 6] : Fin 2 → ℕ) k)
    (hn : cellDist ![4, 6] axes ![0, 0] ![3, 5] = n) :
    ∃ i j, Hops L n i j ∧ ∀ m, Hops L m i j → n ≤ m := by
  obtain ⟨D, hD, -, h⟩ := h
  obtain ⟨i, hi⟩ := List.mem_iff_getElem?.1 ((hw D hD (Idx.mk ![0, 0] 0)).2
    ⟨Idx.alpha_mk _ _, by rw [Idx.cell_mk]; decide⟩)
  obtain ⟨j, hj⟩ := List.mem_iff_getElem?.1 ((hw D hD (Idx.mk ![3, 5] 0)).2
    ⟨Idx.alpha_mk _ _, by rw [Idx.cell_mk]; decide⟩)
  have := h i j _ _ hi hj
  rw [Idx.cell_mk, Idx.cell_mk, hn] at this
  exact ⟨i, j, this⟩

/-- On the grid of 4 × 6 cells the opposite corners are 8 hops apart, on the torus 2 hops. -/
example (env : Env ℝ) (s : Session) :
    (∃ (L : Lattice 2 ℝ) (i j : ℕ), Preset.finiteHypercubic env s
      (.size (List.ofFn fun k : Fin 2 => ((![4, 6] k : ℕ) : ℝ)) true) 1 .none 1 true none = .ok L ∧
      Hops L 8 i j ∧ ∀ n, Hops L n i j → 8 ≤ n) ∧
    ∃ (L : Lattice 2 ℝ) (i j : ℕ), Preset.finiteHypercubic env s
      (.size (List.ofFn fun k : Fin 2 => ((![4, 6] k : ℕ) : ℝ)) true) 1 .none 1 true
      (some (.flag true)) = .ok L ∧ Hops L 2 i j ∧ ∀ n, Hops L n i j → 2 ≤ n := by
  constructor
  · obtain ⟨L, h, -, D, h1, h2, h3, h4, -, h5, -⟩ := C98_grid (d := 2) two_pos (by norm_num) env s
      .none ![4, 6] (by decide) true
    obtain ⟨i, j, h6⟩ := hops_corners (hops_of_grid h1 h2 h3 h4 h5)
      (fun D' hD' => by cases h1.symm.trans hD'; exact h4) (n := 8) (by decide)
    exact ⟨L, i, j, h, h6⟩
  · obtain ⟨L, D, h, h1, -, -, h2, h3, h4, -, h5⟩ := C98_neighbors_partial (d := 2) two_pos
      (by norm_num) env s .none ![4, 6] (by decide) true (axes := [0, 1]) (by decide) (by decide)
      (Or.inr ⟨rfl, by decide⟩)
    obtain ⟨i, j, h6⟩ := hops_corners (hops_of_grid h1 h2 h3 h4 h5)
      (fun D' hD' => by cases h1.symm.trans hD'; exact h4) (n := 2) (by decide)
    exact ⟨L, i, j, h, h6⟩

/-- C128, for every lattice built from a structure whose connections are those between nearest sites, with
any shape: sites which are `n` hops apart are at most `n` nearest-neighbour distances apart. -/
theorem C128_length_partial (hd : 0 < d) {env : Env ℝ} {L L' : Lattice d ℝ}
    (hr : Reachable env L.world) {r : ℝ} {N : ℕ → Set (Idx d)} (h : NearestOnly L.world r N)
    {a : BuildArgs d ℝ} (hm : a.minNeighbors = none) (hp : a.periodic = none) (hb : a.bits = none)
    (hok : L.build env a = (L', .ok ())) :
    ∃ D, L'.data = some D ∧ ∀ (n i j : ℕ) (p q : Vec d ℝ), Hops L' n i j →
      D.positions[i]? = some p → D.positions[j]? = some q → distance p q ≤ n * r := by
  obtain ⟨D, hD, hs, -, -, hnn, -⟩ := C59_nearest_only_partial hd hr h hm hp hb hok
  refine ⟨D, hD, fun n i j p q hh => ?_⟩
  induction hh generalizing p with
  | refl i =>
    intro hp hq
    cases hp.symm.trans hq
    rw [distance_self]
    simp
  | @hop n i i' j l hl hi' _ ih =>
    intro hp hq
    have hi : i < D.numSites := lt_of_lt_of_eq (List.getElem?_eq_some_iff.1 hp).1 hs.length_eq.symm
    obtain ⟨l', hl', -, hlm⟩ := hnn i hi
    cases hl.symm.trans hl'
    obtain ⟨p0, p', h1, h2, e⟩ := (hlm i').1 hi'
    cases hp.symm.trans h1
    have := ih p' h2 hq
    rw [distance_eq_dist] at this e ⊢
    push_cast
    have tri := dist_triangle (WithLp.toLp 2 p : EuclideanSpace ℝ (Fin d)) (WithLp.toLp 2 p')
      (WithLp.toLp 2 q)
    rw [dist_comm] at e
    linarith

/-- Graphene in a box of the size 10 × 20. -/
example (env : Env ℝ) (s : Session) : ∃ w L D, Preset.graphene env s 1 = .ok w ∧
    (Lattice.ofWorld w).build env { shape := .size (List.ofFn ![10, 20]) true } = (L, .ok ()) ∧
    L.data = some D ∧ ∀ (n i j : ℕ) (p q : Vec 2 ℝ), Hops L n i j →
      D.positions[i]? = some p → D.positions[j]? = some q → distance p q ≤ n := by
  obtain ⟨-, -, -, -, -, -, w, h1, h2⟩ := C108_boxes env s 1 (by norm_num) .none
  obtain ⟨L, -, b, -⟩ := h2 ![10, 20] true (by intro k; fin_cases k <;> norm_num)
  obtain ⟨w', h1', -, g2, g3, g4⟩ := C84_graphene_partial env s 1 (by norm_num)
  cases h1.symm.trans h1'
  obtain ⟨s', ops, hc⟩ := graphene_configure h1
  have hr := configure_reachable hc
  obtain ⟨D, hD, h3⟩ := C128_length_partial (L := Lattice.ofWorld w) two_pos hr
    (honey_only (by norm_num) hr (configure_vectors hc) g2 g3 g4) rfl rfl rfl b
  exact ⟨w, L, D, h1, b, hD, fun n i j p q h4 h5 h6 => by simpa using h3 n i j p q h4 h5 h6⟩

/-- C128 fails for other shapes: a chain of five cells built without the middle one (by the `callback`)
consists of two parts, no number of hops leads from one to the other. -/
theorem C128_gap_fails (env : Env ℝ) : ∃ (w : World 1 ℝ) (L : Lattice 1 ℝ) (D : LatticeData 1 ℝ)
    (a : BuildArgs 1 ℝ), Reachable env w ∧ (Lattice.ofWorld w).build env a = (L, .ok ()) ∧
      L.data = some D ∧ D.numSites = 4 ∧ ∀ n, ¬ Hops L n 0 3 := by
  obtain ⟨w, A, L, D, table, h⟩ := exists_isBuiltChain env (nb := 1) (by norm_num) (by norm_num) 4
    (fun i => decide (i ≠ 2)) (by decide)
  have hc : chainCells 4 (fun i => decide (i ≠ 2)) = [0, 1, 3, 4] := by decide
  obtain ⟨l0, a0, b0, -⟩ := h.neighbors (i := 0) (by rw [hc]; decide)
  obtain ⟨l1, a1, b1, -⟩ := h.neighbors (i := 1) (by rw [hc]; decide)
  rw [show chainNbrs (chainCells 4 (fun i => decide (i ≠ 2))) 1 0 = [1] by decide,
    List.perm_singleton] at b0
  rw [show chainNbrs (chainCells 4 (fun i => decide (i ≠ 2))) 1 1 = [0] by decide,
    List.perm_singleton] at b1
  subst b0 b1
  refine ⟨w, L, D, _, h.reach, h.build, h.data, by rw [h.numSites, hc]; rfl, ?_⟩
  have key : ∀ n i j, Hops L n i j → i < 2 → j < 2 := by
    intro n i j hh
    induction hh with
    | refl i => exact id
    | @hop n i j k l hl hj _ ih =>
      intro hi
      refine ih ?_
      interval_cases i
      · cases a0.symm.trans hl
        rw [List.mem_singleton] at hj
        omega
      · cases a1.symm.trans hl
        rw [List.mem_singleton] at hj
        omega
  intro n hh
  have := key n 0 3 hh (by norm_num)
  omega

end Lattpy
