import Verif.Props.Torus
import Verif.Lemmas.HexCells

/-!
# Periodic hexagonal and honeycomb lattices, from the constructor on (C111)
-/

set_option autoImplicit false
set_option linter.unusedSectionVars false

namespace Lattpy

open Structure World Preset

variable {d : ℕ}

/-- Every site of the lattice has exactly `z` neighbours. -/
def Coordination (L : Lattice d ℝ) (z : ℕ) : Prop :=
  ∃ D, L.data = some D ∧ 0 < D.numSites ∧
    ∀ i < D.numSites, ∃ l, L.neighbors i none false = .ok l ∧ l.Nodup ∧ l.length = z

/-- The arguments of `build((σ₀, σ₁, …), primitive=True)`. -/
def primitiveBox (σ : Vec d ℝ) (isInt : Bool) : BuildArgs d ℝ :=
  { shape := .size (List.ofFn σ) isInt, primitive := true }

/-! ## the neighbours in the infinite lattice -/

/-- The listed neighbours of an atom are sites at the distance `r`. -/
def AtDistance (w : World d ℝ) (r : ℝ) (N : ℕ → Set (Idx d)) : Prop :=
  ∀ (α : ℕ) (ra : Vec d ℝ), w.struct.positions[α]? = some ra → ∀ y ∈ N α,
    ∃ (β : ℕ) (rb : Vec d ℝ), Idx.alpha y = β ∧ w.struct.positions[β]? = some rb ∧
      shiftSq w.struct.basis (rb - ra) (Idx.cell y) = r ^ 2

theorem bulk_count {w : World d ℝ} {r : ℝ} {N : ℕ → Set (Idx d)} (hN : NearestOnly w r N)
    (hD : AtDistance w r N) {a : Idx d} {p : Vec d ℝ} (hp : IsSitePos w.struct a p) {α : ℕ}
    (hα : a.alpha = α) :
    {x : Idx d | ∃ q, IsSitePos w.struct x q ∧ distance q p = r}.ncard = (N α).ncard := by
  have himage : {x : Idx d | ∃ q, IsSitePos w.struct x q ∧ distance q p = r} =
      (fun y : Idx d => Idx.mk (a.cell + Idx.cell y) (Idx.alpha y)) '' N α := by
    ext x
    rw [Set.mem_ofPred_eq, Set.mem_image]
    constructor
    · rintro ⟨q, hq, hd⟩
      have hne : a ≠ x := by
        rintro rfl
        rw [site_unique hp hq, distance_self] at hd
        exact hN.pos.ne hd
      obtain ⟨α', β, h1, h2, h3⟩ := hN.sites hp hq hne
      have hαα : α' = α := by omega
      subst hαα
      rcases h3 with ⟨-, h3⟩ | h3
      · refine ⟨_, h3, ?_⟩
        rw [Idx.cell_mk, Idx.alpha_mk, add_sub_cancel, ← h2, Idx.mk_cell_alpha]
      · have := hN.pos
        rw [hd] at h3
        linarith
    · rintro ⟨y, hy, rfl⟩
      obtain ⟨α', ra, e1, e2, e3⟩ := id hp
      obtain rfl : α' = α := by omega
      obtain ⟨β, rb, h1, h2, h3⟩ := hD _ ra e2 y hy
      have hq : IsSitePos w.struct (Idx.mk (a.cell + Idx.cell y) (Idx.alpha y))
          (fun k => rb k + ∑ i, (((a.cell + Idx.cell y) i : ℤ) : ℝ) * w.struct.basis.vectors i k) :=
        ⟨β, rb, by rw [Idx.alpha_mk, h1], h2, by rw [Idx.cell_mk]⟩
      refine ⟨_, hq, ?_⟩
      obtain ⟨α'', β', ra', rb', g1, g2, g3, g4, g5⟩ := site_distance hp hq
      rw [Idx.alpha_mk] at g2
      obtain rfl : β' = β := by omega
      obtain rfl : α'' = α' := by omega
      rw [e2] at g3
      rw [h2] at g4
      cases g3
      cases g4
      rw [g5, Idx.cell_mk, add_sub_cancel_left, h3, Real.sqrt_sq hN.pos.le]
  rw [himage, Set.ncard_image_of_injective]
  intro y z he
  simp only [Idx.mk_inj, add_right_inj] at he
  rw [← Idx.mk_cell_alpha y, ← Idx.mk_cell_alpha z, he.1, he.2]

/-! ## building -/

theorem hex_builds {env : Env ℝ} {w : World 2 ℝ} {r a : ℝ} {N : ℕ → Set (Idx 2)}
    (hr : Reachable env w) (hN : NearestOnly w r N) {b : LatticeBasis 2 ℝ} {ps : List (Vec 2 ℝ)}
    {c cells A} (hC : Preset.Configured w b ps c 1 cells A)
    (hz : ∃ i < c.size, ∃ j < c.size, c.entry i j ≠ 0) (ha : 1 ≤ a)
    (hv : w.struct.basis.vectors = (a / 2) • !![3, Real.sqrt 3; 3, -Real.sqrt 3])
    (hp : ∀ p ∈ ps, ∀ k, 0 ≤ w.struct.basis.itransform p k ∧ w.struct.basis.itransform p k ≤ 1 / 2)
    (h0 : w.struct.positions[0]? = some 0)
    {σ : Vec 2 ℝ} (hσ : ∀ k, 0 ≤ σ k ∧ 3 * σ k ≤ 2 * (a * (σ 0 + σ 1))) (hS : 6 / 5 ≤ σ 0 + σ 1)
    (isInt : Bool) :
    ∃ L D, (Lattice.ofWorld w).build env (primitiveBox σ isInt) = (L, .ok ()) ∧
      L.data = some D ∧ ∀ x : Idx 2, x ∈ D.indices ↔
        ∃ (b : ℕ) (p : Vec 2 ℝ), x.alpha = b ∧ w.struct.positions[b]? = some p ∧
          ∀ k, -(1 / 1000) ≤ Idx.cell x k + w.struct.basis.itransform p k ∧
            Idx.cell x k + w.struct.basis.itransform p k ≤ σ k + 1 / 1000 := by
  have hG := hC.good
  have hn : 0 < w.struct.numBase := by
    rw [← hG.positions_length]
    exact (List.getElem?_eq_some_iff.1 h0).1
  obtain ⟨res, hbi, h2, hmem⟩ := hex_cells hG hn ha hv (by rw [hC.positions]; exact hp) hσ hS
  obtain ⟨n, hn1, hn0⟩ := exists_searched two_pos hC.searched
  have hz' : c.allZero = false := by
    by_contra hz'
    rw [Bool.not_eq_false, ConnMatrix.allZero_iff] at hz'
    obtain ⟨i, hi, j, hj, hij⟩ := hz
    exact hij (hz' i hi j hj)
  have hsh : Lattice.buildShape (Lattice.ofWorld w).struct (primitiveBox σ isInt) =
      .ok (.box σ 0 (some w.struct.basis.vectors)) := by
    unfold Lattice.buildShape primitiveBox
    dsimp only
    rw [toVec_ofFn]
    rfl
  have hit0 : ∀ k, w.struct.basis.itransform 0 k = 0 := by
    intro k
    rw [itransform_apply]
    simp
  have hne : res.2 ≠ [] := by
    rw [h2]
    intro e
    have : Idx.mk 0 0 ∈ res.1 := (hmem _).2 ⟨0, 0, by rw [Idx.alpha_mk]; rfl, h0, fun k => by
      rw [Idx.cell_mk, hit0]
      have := (hσ k).1
      refine ⟨by simp, by simp; linarith⟩⟩
    rw [List.map_eq_nil_iff] at e
    rw [e] at this
    cases this
  obtain ⟨L, D, h3, h4, h5, -⟩ := C59_nearest_only_builds_partial (L := Lattice.ofWorld w) two_pos hr
    hN hC.analysis (fun c' hc' => by cases hC.conn.symm.trans hc'; exact hz')
    (raw_one hN hC hn1 hn0) (a := primitiveBox σ isInt) rfl rfl rfl hsh
    (indices := res.1) (positions := res.2) hbi hne
  exact ⟨L, D, h3, h4, by rw [h5]; exact hmem⟩

/-- A lattice of whole cells, periodic in both directions, in which every site has the number of
neighbours of the infinite lattice. -/
theorem whole_torus {env : Env ℝ} {w : World 2 ℝ} {r : ℝ} {N : ℕ → Set (Idx 2)}
    (hr : Reachable env w) (hN : NearestOnly w r N) (hD : AtDistance w r N)
    (hst : ∀ (α : ℕ), ∀ x ∈ N α, ∀ k, |Idx.cell x k| ≤ 1) {z : ℕ}
    (hz : ∀ α < w.struct.numBase, (N α).ncard = z) {σ : Vec 2 ℝ} {isInt : Bool}
    {L : Lattice 2 ℝ} {D : LatticeData 2 ℝ}
    (hb : (Lattice.ofWorld w).build env (primitiveBox σ isInt) = (L, .ok ()))
    (hLD : L.data = some D) {lo : Fin 2 → ℤ} {m : Fin 2 → ℕ} (hm : ∀ k, 3 ≤ m k)
    (hw : WholeCells w.struct D lo m) :
    ∃ L', L.setPeriodic env (.axes [0, 1]) = (L', .ok ()) ∧
      IsTorus w.struct D m [0, 1] r L' ∧ Coordination L' z := by
  obtain ⟨L', h1, h2, h3⟩ := C111_torus_partial (L := Lattice.ofWorld w) two_pos hr hN
    (nearSteps_planar le_rfl hst) (a := primitiveBox σ isInt) rfl rfl rfl hb (Or.inl rfl) hLD hw
    (axes := [0, 1]) (by simp) (fun k _ => hm k)
  have h3' := h3 (fun k => by fin_cases k <;> simp)
  obtain ⟨hworld, -, A, table, hT⟩ := exists_isTiled (L := Lattice.ofWorld w) two_pos hr hN
    (nearSteps_planar le_rfl hst) (a := primitiveBox σ isInt) rfl rfl rfl hb hLD hw
  obtain ⟨E, e1, e2, e3, e4, -⟩ := id h2
  refine ⟨L', h1, h2, E, e1, ?_, ?_⟩
  · show 0 < E.indices.length
    rw [e2]
    exact List.length_pos_iff_ne_nil.2 (hT.tiling two_pos).ne
  · intro i hi
    have hi' : i < D.indices.length := by rw [← e2]; exact hi
    have hget := List.getElem?_eq_getElem hi'
    obtain ⟨p, hp, hs⟩ := (hT.tiling two_pos).get hget
    have hS : L.struct = w.struct := congrArg World.struct hworld
    rw [hS] at hs
    obtain ⟨α, ra, g1, g2, -⟩ := id hs
    obtain ⟨l, l1, l2⟩ := h3' i p hp
    obtain ⟨l', l3, l4, -⟩ := e4 i hi'
    cases l1.symm.trans l3
    refine ⟨l, l1, l4, ?_⟩
    rw [l2]
    have := bulk_count hN hD hs g1
    rw [hz α (by rw [← (hr.good two_pos).positions_length]
                 exact (List.getElem?_eq_some_iff.1 g2).1)] at this
    exact this

/-! ## the lattices -/

theorem itransform_zero (b : LatticeBasis d ℝ) (k : Fin d) : b.itransform 0 k = 0 := by
  rw [itransform_apply]
  simp

/-- The lattice coordinates of the second atom of the honeycomb lattice. -/
theorem hex_third {rows : Matrix (Fin 2) (Fin 2) ℝ} {b : LatticeBasis 2 ℝ} {a : ℝ}
    (hb : LatticeBasis.init rows = .ok b) (ha : a ≠ 0)
    (hv : b.vectors = (a / 2) • !![3, Real.sqrt 3; 3, -Real.sqrt 3]) (k : Fin 2) :
    b.itransform ![a, 0] k = 1 / 3 := by
  obtain ⟨h0, h1⟩ := hex_inv hb ha hv ![a, 0]
  fin_cases k
  · refine h0.trans ?_
    simp
    field_simp
  · refine h1.trans ?_
    simp
    field_simp

/-- Whole numbers in the requested range. -/
theorem whole_range {n : ℤ} {m : ℕ} {σ c : ℝ} (hc : 0 ≤ c ∧ c ≤ 1 / 2)
    (h1 : (m : ℝ) - 1 + c ≤ σ) (h2 : σ < m - 1 / 1000) :
    (-(1 / 1000) ≤ (n : ℝ) + c ∧ (n : ℝ) + c ≤ σ + 1 / 1000) ↔ 0 ≤ n ∧ n < 0 + (m : ℤ) := by
  constructor
  · rintro ⟨g1, g2⟩
    have a1 : (-1 : ℝ) < n := by linarith
    have a1 : -1 < n := by exact_mod_cast a1
    have a2 : (n : ℝ) < m := by linarith
    have a2 : n < (m : ℤ) := by exact_mod_cast a2
    omega
  · rintro ⟨g1, g2⟩
    have a1 : (0 : ℝ) ≤ n := by exact_mod_cast g1
    have a2 : n ≤ (m : ℤ) - 1 := by omega
    have a2 : (n : ℝ) ≤ (m : ℝ) - 1 := by exact_mod_cast a2
    constructor <;> linarith

/-- The nearest neighbours of the hexagonal lattice. -/
def hexSet : Set (Idx 2) :=
  {Idx.mk ![1, 0] 0, Idx.mk ![-1, 0] 0, Idx.mk ![0, 1] 0, Idx.mk ![0, -1] 0, Idx.mk ![1, -1] 0,
    Idx.mk ![-1, 1] 0}

theorem hexSet_ncard : hexSet.ncard = 6 := by
  have : hexSet = (({Idx.mk ![1, 0] 0, Idx.mk ![-1, 0] 0, Idx.mk ![0, 1] 0, Idx.mk ![0, -1] 0,
    Idx.mk ![1, -1] 0, Idx.mk ![-1, 1] 0} : Finset (Fin 3 → ℤ)) : Set (Idx 2)) := by
    simp [hexSet]
  rw [this, Set.ncard_coe_finset]
  decide

theorem honeySets_ncard (α : ℕ) : (honeySets α).ncard = 3 := by
  unfold honeySets
  split_ifs
  · have : ({Idx.mk ![0, 0] 1, Idx.mk ![-1, 0] 1, Idx.mk ![0, -1] 1} : Set (Idx 2)) =
        (({Idx.mk ![0, 0] 1, Idx.mk ![-1, 0] 1, Idx.mk ![0, -1] 1} : Finset (Fin 3 → ℤ)) :
          Set (Idx 2)) := by simp
    rw [this, Set.ncard_coe_finset]
    decide
  · have : ({Idx.mk ![0, 0] 0, Idx.mk ![1, 0] 0, Idx.mk ![0, 1] 0} : Set (Idx 2)) =
        (({Idx.mk ![0, 0] 0, Idx.mk ![1, 0] 0, Idx.mk ![0, 1] 0} : Finset (Fin 3 → ℤ)) :
          Set (Idx 2)) := by simp
    rw [this, Set.ncard_coe_finset]
    decide

theorem hexSet_steps : ∀ x ∈ hexSet, ∀ k, |Idx.cell x k| ≤ 1 := by
  rintro x (rfl | rfl | rfl | rfl | rfl | rfl) k <;> rw [Idx.cell_mk] <;> fin_cases k <;> simp

theorem honeySets_steps (α : ℕ) : ∀ x ∈ honeySets α, ∀ k, |Idx.cell x k| ≤ 1 := by
  unfold honeySets
  split_ifs <;> rintro x (rfl | rfl | rfl) k <;> rw [Idx.cell_mk] <;> fin_cases k <;> simp

theorem hex_atDistance {w : World 2 ℝ} {a : ℝ}
    (hv : w.struct.basis.vectors = (a / 2) • !![3, Real.sqrt 3; 3, -Real.sqrt 3])
    (hp : w.struct.positions = [0]) : AtDistance w (Real.sqrt 3 * a) fun _ => hexSet := by
  intro α ra h1 y hy
  rw [hp] at h1
  have hra : ra = 0 := by
    have := List.mem_of_getElem? h1
    simpa using this
  refine ⟨0, 0, ?_, by rw [hp]; rfl, ?_⟩
  · rcases hy with rfl | rfl | rfl | rfl | rfl | rfl <;> rw [Idx.alpha_mk] <;> rfl
  · rw [hra, sub_zero, hex_shiftSq_zero hv, mul_pow, sqrt3_sq]
    rcases hy with rfl | rfl | rfl | rfl | rfl | rfl <;> rw [Idx.cell_mk] <;> simp

theorem honey_atDistance {w : World 2 ℝ} {a : ℝ}
    (hv : w.struct.basis.vectors = (a / 2) • !![3, Real.sqrt 3; 3, -Real.sqrt 3])
    (hp : w.struct.positions = [![0, 0], ![a, 0]]) : AtDistance w a honeySets := by
  intro α ra h1 y hy
  rw [hp] at h1 ⊢
  have h3 := sqrt3_sq
  unfold honeySets at hy
  obtain ⟨rfl, rfl⟩ | ⟨rfl, rfl⟩ : (α = 0 ∧ ra = ![0, 0]) ∨ (α = 1 ∧ ra = ![a, 0]) := by
    match α with
    | 0 => left; simpa [eq_comm] using h1
    | 1 => right; simpa [eq_comm] using h1
    | n + 2 => simp at h1
  · rw [if_pos rfl] at hy
    refine ⟨1, ![a, 0], ?_, rfl, ?_⟩
    · rcases hy with rfl | rfl | rfl <;> rw [Idx.alpha_mk] <;> rfl
    · rw [hex_shiftSq hv]
      rcases hy with rfl | rfl | rfl <;> rw [Idx.cell_mk] <;> simp <;>
        first | done | linear_combination (a ^ 2 / 4) * h3
  · rw [if_neg one_ne_zero] at hy
    refine ⟨0, ![0, 0], ?_, rfl, ?_⟩
    · rcases hy with rfl | rfl | rfl <;> rw [Idx.alpha_mk] <;> rfl
    · rw [hex_shiftSq hv]
      rcases hy with rfl | rfl | rfl <;> rw [Idx.cell_mk] <;> simp <;>
        first | done | linear_combination (a ^ 2 / 4) * h3

/-- C111 for `simple_hexagonal`: the primitive build of `m 0` times `m 1` cells (at least three in
each direction, at most twice as many in one as in the other for the lattice constant 1), made
periodic in both directions, is a torus in which every site has six neighbours. -/
theorem C111_hexagonal_partial (env : Env ℝ) (s : Session) (a : ℝ) (ha : 1 ≤ a) (atom : AtomSpec)
    (m : Fin 2 → ℕ) (σ : Vec 2 ℝ) (isInt : Bool) (hm : ∀ k, 3 ≤ m k)
    (hσ : ∀ k, (m k : ℝ) - 1 ≤ σ k ∧ σ k < m k - 1 / 1000 ∧ 3 * σ k ≤ 2 * (a * (σ 0 + σ 1))) :
    ∃ w L D L', simpleHexagonal env s a atom 1 = .ok w ∧
      (Lattice.ofWorld w).build env (primitiveBox σ isInt) = (L, .ok ()) ∧ L.data = some D ∧
      WholeCells w.struct D 0 m ∧ L.setPeriodic env (.axes [0, 1]) = (L', .ok ()) ∧
      IsTorus w.struct D m [0, 1] (Real.sqrt 3 * a) L' ∧ Coordination L' 6 := by
  have ha0 : 0 < a := by linarith
  have habs : |a| = a := abs_of_pos ha0
  have ha' : 1 / 10 ^ 5 ≤ |a| := by rw [habs]; linarith
  obtain ⟨w, h1, h2, h3⟩ := C84_hexagonal_partial env s a ha' atom
  have hr := configure_reachable h1
  have hv := configure_vectors h1
  have hN := hex_only ha' hr hv h2 h3
  obtain ⟨b, hb, -⟩ := hex_init ha0.ne'
  obtain ⟨w', c, cells, A, h1', hC, he⟩ := configure_oneAtom two_pos env s hb atom one_pos
  cases h1.symm.trans h1'
  rw [habs] at hN
  have hs : 0 < c.size := by rw [hC.size]; exact Nat.one_pos
  have hm' : ∀ k, (3 : ℝ) ≤ m k := fun k => by exact_mod_cast hm k
  obtain ⟨L, D, g1, g2, g3⟩ := hex_builds hr hN hC ⟨0, hs, 0, hs, by omega⟩ ha hv
    (by simp [itransform_zero]) (by rw [h2]; rfl)
    (σ := σ) (fun k => ⟨by linarith [hm' k, (hσ k).1], (hσ k).2.2⟩)
    (by linarith [hm' 0, hm' 1, (hσ 0).1, (hσ 1).1]) isInt
  have hn1 : w.struct.numBase = 1 := by rw [← (hr.good two_pos).positions_length, h2]; rfl
  have hwhole : WholeCells w.struct D 0 m := by
    intro x
    rw [g3, h2, hn1]
    have key : ∀ k, (-(1 / 1000) ≤ (Idx.cell x k : ℝ) + 0 ∧ (Idx.cell x k : ℝ) + 0 ≤ σ k + 1 / 1000) ↔
        0 ≤ Idx.cell x k ∧ Idx.cell x k < 0 + (m k : ℤ) := fun k =>
      whole_range ⟨le_rfl, by norm_num⟩ (by linarith [(hσ k).1]) (hσ k).2.1
    constructor
    · rintro ⟨β, p, e1, e2, e3⟩
      have hβ := (List.getElem?_eq_some_iff.1 e2).1
      have hp := List.mem_of_getElem? e2
      simp only [List.length_singleton, List.mem_singleton] at hβ hp
      refine ⟨⟨by omega, by omega⟩, fun k => (key k).1 ?_⟩
      have := e3 k
      rwa [hp, itransform_zero] at this
    · rintro ⟨⟨e1, e2⟩, e3⟩
      refine ⟨0, 0, by omega, rfl, fun k => ?_⟩
      rw [itransform_zero]
      exact (key k).2 (e3 k)
  obtain ⟨L', k1, k2, k3⟩ := whole_torus hr hN (hex_atDistance hv h2) (fun _ => hexSet_steps)
    (fun _ _ => hexSet_ncard) g1 g2 hm hwhole
  exact ⟨w, L, D, L', h1, g1, g2, hwhole, k1, k2, k3⟩

theorem honey_torus {env : Env ℝ} {w : World 2 ℝ} {a : ℝ} (ha : 1 ≤ a)
    (hr : Reachable env w) {b : LatticeBasis 2 ℝ}
    (hv : w.struct.basis.vectors = (a / 2) • !![3, Real.sqrt 3; 3, -Real.sqrt 3])
    (hN : NearestOnly w |a| honeySets) {c cells A}
    (hC : Preset.Configured w b [![0, 0], ![a, 0]] c 1 cells A) (he : c.entry 0 1 = 1)
    {m : Fin 2 → ℕ} {σ : Vec 2 ℝ} (isInt : Bool) (hm : ∀ k, 3 ≤ m k)
    (hσ : ∀ k, (m k : ℝ) - 2 / 3 ≤ σ k ∧ σ k < m k - 1 / 1000 ∧ 3 * σ k ≤ 2 * (a * (σ 0 + σ 1))) :
    ∃ L D L', (Lattice.ofWorld w).build env (primitiveBox σ isInt) = (L, .ok ()) ∧
      L.data = some D ∧ WholeCells w.struct D 0 m ∧ L.setPeriodic env (.axes [0, 1]) = (L', .ok ()) ∧
      IsTorus w.struct D m [0, 1] a L' ∧ Coordination L' 3 := by
  have ha0 : 0 < a := by linarith
  rw [abs_of_pos ha0] at hN
  have h0 : (![0, 0] : Vec 2 ℝ) = 0 := by funext k; fin_cases k <;> rfl
  have hs : c.size = 2 := by rw [hC.size]; rfl
  have h2 := hC.positions
  obtain ⟨rows, hb⟩ := hC.good.basis
  have hthird := hex_third hb ha0.ne' hv
  have hm' : ∀ k, (3 : ℝ) ≤ m k := fun k => by exact_mod_cast hm k
  obtain ⟨L, D, g1, g2, g3⟩ := hex_builds hr hN hC ⟨0, by omega, 1, by omega, by omega⟩ ha hv
    (by
      intro p hp k
      rcases List.mem_cons.1 hp with rfl | hp
      · rw [h0, itransform_zero]; norm_num
      · rw [List.mem_singleton.1 hp, hthird]; norm_num) (by rw [h2, ← h0]; rfl)
    (σ := σ) (fun k => ⟨by linarith [hm' k, (hσ k).1], (hσ k).2.2⟩)
    (by linarith [hm' 0, hm' 1, (hσ 0).1, (hσ 1).1]) isInt
  have hn1 : w.struct.numBase = 2 := by rw [← (hr.good two_pos).positions_length, h2]; rfl
  have hwhole : WholeCells w.struct D 0 m := by
    intro x
    rw [g3, h2, hn1]
    have key : ∀ k, ∀ c : ℝ, 0 ≤ c → c ≤ 1 / 3 →
        ((-(1 / 1000) ≤ (Idx.cell x k : ℝ) + c ∧ (Idx.cell x k : ℝ) + c ≤ σ k + 1 / 1000) ↔
        0 ≤ Idx.cell x k ∧ Idx.cell x k < 0 + (m k : ℤ)) := fun k c c0 c1 =>
      whole_range ⟨c0, by linarith⟩ (by linarith [(hσ k).1]) (hσ k).2.1
    have hc : ∀ p ∈ ([![0, 0], ![a, 0]] : List (Vec 2 ℝ)), ∀ k,
        0 ≤ w.struct.basis.itransform p k ∧ w.struct.basis.itransform p k ≤ 1 / 3 := by
      intro p hp k
      rcases List.mem_cons.1 hp with rfl | hp
      · rw [h0, itransform_zero]; norm_num
      · rw [List.mem_singleton.1 hp, hthird]; norm_num
    constructor
    · rintro ⟨β, p, e1, e2, e3⟩
      have hβ : β < 2 := (List.getElem?_eq_some_iff.1 e2).1
      have hp := hc p (List.mem_of_getElem? e2)
      exact ⟨⟨by omega, by omega⟩, fun k => (key k _ (hp k).1 (hp k).2).1 (e3 k)⟩
    · rintro ⟨⟨e1, e2⟩, e3⟩
      have hβ : x.alpha.toNat < ([![0, 0], ![a, 0]] : List (Vec 2 ℝ)).length := by
        show x.alpha.toNat < 2
        omega
      have hp := hc _ (List.getElem_mem hβ)
      exact ⟨x.alpha.toNat, _, by omega, List.getElem?_eq_getElem hβ, fun k =>
        (key k _ (hp k).1 (hp k).2).2 (e3 k)⟩
  obtain ⟨L', k1, k2, k3⟩ := whole_torus hr hN (honey_atDistance hv h2) honeySets_steps
    (fun α _ => honeySets_ncard α) g1 g2 hm hwhole
  exact ⟨L, D, L', g1, g2, hwhole, k1, k2, k3⟩

/-- C111 for `honeycomb` and `graphene`: three neighbours for every site. -/
theorem C111_honeycomb_partial (env : Env ℝ) (s : Session) (a : ℝ) (ha : 1 ≤ a) (atom : AtomSpec)
    (m : Fin 2 → ℕ) (σ : Vec 2 ℝ) (isInt : Bool) (hm : ∀ k, 3 ≤ m k)
    (hσ : ∀ k, (m k : ℝ) - 2 / 3 ≤ σ k ∧ σ k < m k - 1 / 1000 ∧ 3 * σ k ≤ 2 * (a * (σ 0 + σ 1))) :
    (∃ w L D L', honeycomb env s a atom = .ok w ∧
      (Lattice.ofWorld w).build env (primitiveBox σ isInt) = (L, .ok ()) ∧ L.data = some D ∧
      WholeCells w.struct D 0 m ∧ L.setPeriodic env (.axes [0, 1]) = (L', .ok ()) ∧
      IsTorus w.struct D m [0, 1] a L' ∧ Coordination L' 3) ∧
    (∃ w L D L', graphene env s a = .ok w ∧
      (Lattice.ofWorld w).build env (primitiveBox σ isInt) = (L, .ok ()) ∧ L.data = some D ∧
      WholeCells w.struct D 0 m ∧ L.setPeriodic env (.axes [0, 1]) = (L', .ok ()) ∧
      IsTorus w.struct D m [0, 1] a L' ∧ Coordination L' 3) := by
  have ha0 : 0 < a := by linarith
  have ha' : 1 / 10 ^ 5 ≤ |a| := by rw [abs_of_pos ha0]; linarith
  constructor
  · obtain ⟨w, at', h1, -, -, h2, h3, h4⟩ := C84_honeycomb_partial env s a ha' atom
    obtain ⟨s', ops, hc⟩ := honeycomb_configure h1
    have hr := configure_reachable hc
    have hv := configure_vectors hc
    obtain ⟨w', -, b, c, cells, A, hb, h1', hC, -, -, -, he, -⟩ := honeycomb_pair env s ha0.ne' atom
    cases h1.symm.trans h1'
    obtain ⟨L, D, L', h⟩ := honey_torus ha hr hv (honey_only ha' hr hv h2 h3 h4) hC he isInt hm hσ
    exact ⟨w, L, D, L', h1, h⟩
  · obtain ⟨w, h1, -, h2, h3, h4⟩ := C84_graphene_partial env s a ha'
    obtain ⟨s', ops, hc⟩ := graphene_configure h1
    have hr := configure_reachable hc
    have hv := configure_vectors hc
    obtain ⟨w', b, c, cells, A, hb, h1', hC, -, -, he, -⟩ := graphene_pair env s ha0.ne'
    cases h1.symm.trans h1'
    obtain ⟨L, D, L', h⟩ := honey_torus ha hr hv (honey_only ha' hr hv h2 h3 h4) hC he isInt hm hσ
    exact ⟨w, L, D, L', h1, h⟩

/-- A periodic graphene sheet of 10 × 18 cells. -/
example (env : Env ℝ) (s : Session) : ∃ w L D L', graphene env s 1 = .ok w ∧
    (Lattice.ofWorld w).build env (primitiveBox ![19 / 2, 35 / 2] false) = (L, .ok ()) ∧
    L.data = some D ∧ WholeCells w.struct D 0 ![10, 18] ∧
    L.setPeriodic env (.axes [0, 1]) = (L', .ok ()) ∧
    IsTorus w.struct D ![10, 18] [0, 1] 1 L' ∧ Coordination L' 3 :=
  (C111_honeycomb_partial env s 1 le_rfl .none ![10, 18] ![19 / 2, 35 / 2] false
    (by intro k; fin_cases k <;> simp) (by intro k; fin_cases k <;> norm_num)).2

/-- A periodic hexagonal lattice of 3 × 3 cells, from `build((2, 2), primitive=True)`. -/
example (env : Env ℝ) (s : Session) : ∃ w L D L', simpleHexagonal env s 1 .none 1 = .ok w ∧
    (Lattice.ofWorld w).build env (primitiveBox ![2, 2] true) = (L, .ok ()) ∧
    L.data = some D ∧ WholeCells w.struct D 0 ![3, 3] ∧
    L.setPeriodic env (.axes [0, 1]) = (L', .ok ()) ∧
    IsTorus w.struct D ![3, 3] [0, 1] (Real.sqrt 3 * 1) L' ∧ Coordination L' 6 :=
  C111_hexagonal_partial env s 1 le_rfl .none ![3, 3] ![2, 2] true
    (by intro k; fin_cases k <;> simp) (by intro k; fin_cases k <;> norm_num)

end Lattpy
