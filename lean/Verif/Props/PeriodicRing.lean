import Verif.Lemmas.Ring

/-!
# Periodic boundary conditions of a chain (C64)
-/

set_option autoImplicit false
set_option linter.unusedSectionVars false

namespace Lattpy

open Structure

theorem chainCells_true (N : ℕ) : chainCells N (fun _ => true) = List.range (N + 1) := by
  unfold chainCells
  rw [List.filter_eq_self]
  simp

namespace IsBuiltChain

variable {env : Env ℝ} {nb N : ℕ} {w : World 1 ℝ} {A : Analysis 1 ℝ}
  {L : Lattice 1 ℝ} {D : LatticeData 1 ℝ} {table : List (List (ℕ × WithTop ℝ))}

theorem ring_site (h : IsBuiltChain env nb N (fun _ => true) w A L D table) {i : ℕ} :
    (∀ p, D.positions[i]? = some p ↔ i < N + 1 ∧ p = fun _ => (i : ℝ)) ∧
    (∀ x : Idx 1, D.indices[i]? = some x ↔ i < N + 1 ∧ x = Idx.mk (fun _ => (i : ℤ)) 0) := by
  rw [h.sites, h.indices, chainCells_true]
  constructor
  · intro p
    rw [List.getElem?_map, Option.map_eq_some_iff]
    constructor
    · rintro ⟨a, ha, rfl⟩
      obtain ⟨h1, h2⟩ := List.getElem?_eq_some_iff.1 ha
      rw [List.getElem_range] at h2
      subst h2
      exact ⟨by simpa using h1, rfl⟩
    · rintro ⟨h1, rfl⟩
      exact ⟨i, by simp [h1], rfl⟩
  · intro p
    rw [List.getElem?_map, Option.map_eq_some_iff]
    constructor
    · rintro ⟨a, ha, rfl⟩
      obtain ⟨h1, h2⟩ := List.getElem?_eq_some_iff.1 ha
      rw [List.getElem_range] at h2
      subst h2
      exact ⟨by simpa using h1, rfl⟩
    · rintro ⟨h1, rfl⟩
      exact ⟨i, by simp [h1], rfl⟩

/-- Connections of the chain across a translation. -/
theorem ring_image (h : IsBuiltChain env nb N (fun _ => true) w A L D table) {i j : ℕ}
    {t : Fin 1 → ℤ} {x : ℝ} : Image w.struct A D.indices D.positions i j t x ↔
      i < N + 1 ∧ j < N + 1 ∧ 0 < ((i : ℤ) + t 0 - j).natAbs ∧
        ((i : ℤ) + t 0 - j).natAbs ≤ nb ∧ x = (((i : ℤ) + t 0 - j).natAbs : ℝ) := by
  have hdist : npRound 6 (Real.sqrt (∑ k : Fin 1, ((i : ℝ) +
      ∑ m, (t m : ℝ) * w.struct.basis.vectors m k - j) ^ 2)) =
      (((i : ℤ) + t 0 - j).natAbs : ℝ) := by
    rw [Fin.sum_univ_one, Fin.sum_univ_one, h.basis, chain_vectors, Real.sqrt_sq_eq_abs]
    rw [← npRound_natCast (((i : ℤ) + t 0 - j).natAbs)]
    congr 1
    rw [Nat.cast_natAbs, Int.cast_abs]
    push_cast
    rw [mul_one]
  constructor
  · rintro ⟨p, q, a, b, h1, h2, h3, h4, h5, h6⟩
    obtain ⟨hi, rfl⟩ := (h.ring_site.1 p).1 h1
    obtain ⟨hj, rfl⟩ := (h.ring_site.1 q).1 h2
    obtain ⟨-, rfl⟩ := (h.ring_site.2 a).1 h3
    obtain ⟨-, rfl⟩ := (h.ring_site.2 b).1 h4
    rw [hdist] at h5
    rw [Idx.alpha_mk, Idx.alpha_mk, h.configured] at h6
    obtain ⟨m, g1, g2, g3⟩ := h6
    rw [h5] at g3
    have g3 : ((i : ℤ) + t 0 - j).natAbs = m := by exact_mod_cast g3
    exact ⟨hi, hj, by omega, by omega, h5⟩
  · rintro ⟨hi, hj, h1, h2, rfl⟩
    refine ⟨_, _, _, _, (h.ring_site.1 _).2 ⟨hi, rfl⟩, (h.ring_site.1 _).2 ⟨hj, rfl⟩,
      (h.ring_site.2 _).2 ⟨hi, rfl⟩, (h.ring_site.2 _).2 ⟨hj, rfl⟩, hdist.symm, ?_⟩
    rw [Idx.alpha_mk, Idx.alpha_mk, h.configured]
    exact ⟨_, h1, h2, rfl⟩

theorem ring_regular (h : IsBuiltChain env nb N (fun _ => true) w A L D table) {i : ℕ}
    (hi : i < N + 1) :
    ∃ l, D.getNeighbors i none (some false) false = .ok l ∧ l.Nodup ∧
      ∀ j, j ∈ l ↔ j < N + 1 ∧ i ≠ j ∧ j ≤ i + nb ∧ i ≤ j + nb := by
  have hi' : i < (chainCells N fun _ => true).length := by rw [chainCells_true]; simpa using hi
  obtain ⟨l, h1, h2, -⟩ := h.neighbors hi'
  refine ⟨l, ?_, ?_, ?_⟩
  · rw [set_regular h.set h.top h.levels (by rw [h.length]; exact hi')]
    unfold Lattice.neighbors at h1
    rw [h.data] at h1
    exact h1
  · exact h2.nodup_iff.2 (List.nodup_range.filter _)
  · intro j
    rw [h2.mem_iff]
    unfold chainNbrs
    rw [chainCells_true, List.mem_filter, List.mem_range, decide_eq_true_eq, List.length_range]
    refine and_congr_right fun hj => ?_
    rw [List.getD_eq_getElem?_getD, List.getD_eq_getElem?_getD, List.getElem?_range hi,
      List.getElem?_range hj]
    simp

theorem ring_lt (h : IsBuiltChain env nb N (fun _ => true) w A L D table) {i : ℕ} {l : List ℕ}
    (hl : D.getNeighbors i none (some false) false = .ok l) : i < N + 1 := by
  obtain ⟨width, hr, -⟩ := h.rect
  by_contra hi
  rw [hr.getNeighbors_error (by rw [h.numSites, chainCells_true]; simpa using hi)] at hl
  cases hl

theorem ring_raw (h : IsBuiltChain env nb N (fun _ => true) w A L D table) :
    ∀ y, RawDistance A y → 5 / 10 ^ 6 < y := by
  obtain ⟨cells, m, c, hcells, -, hsym, -, -, hI⟩ :=
    (h.reach.good Nat.one_pos).analysis A h.analysis
  intro y hy
  obtain ⟨a, ha, b, hb, hyl⟩ := hI.mem_raw.1 hy
  have hnum : w.struct.numBase = 1 := by
    rw [← (h.reach.good Nat.one_pos).positions_length, h.positions]; rfl
  have ha0 : a = 0 := by omega
  have hb0 : b = 0 := by omega
  subst ha0 hb0
  obtain ⟨hy0, n, -, hyn⟩ := mem_levels.1 (List.mem_of_mem_take hyl)
  have hpos0 : w.struct.positions[0]? = some 0 := by rw [h.positions]; rfl
  have : w.struct.siteDist 0 0 n = ((n 0).natAbs : ℝ) := by
    rw [siteDist_eq hpos0 hpos0, distance_some, ← npRound_natCast (n 0).natAbs]
    congr 1
    unfold distance
    rw [hasSqrt_real, Fin.sum_univ_one]
    dsimp only
    rw [Fin.sum_univ_one, h.basis, chain_vectors, ← pow_two, Real.sqrt_sq_eq_abs, Nat.cast_natAbs, Int.cast_abs]
    simp
  rw [hyn, this] at hy0 ⊢
  have : (1 : ℝ) ≤ ((n 0).natAbs : ℝ) := by exact_mod_cast hy0
  linarith

theorem ring_params (h : IsBuiltChain env nb N (fun _ => true) w A L D table) (hN : 2 * nb ≤ N) :
    (∃ k maxDist, queryParams A = .ok (k, maxDist)) ∧
    (∀ y, RawDistance A y → 5 / 10 ^ 6 < y) ∧
    2 * nb ≤ (A.rawNum.map List.sum).sum + 1 ∧
    ∃ width, D.Rect width ∧ 2 * nb ≤ width := by
  obtain ⟨cells, m, c, hcells, -, hsym, -, -, hI⟩ :=
    (h.reach.good Nat.one_pos).analysis A h.analysis
  obtain ⟨k, maxDist, hq⟩ := computeNeighbors_params h.analysis h.comp
  have hi0 : nb < N + 1 := by omega
  obtain ⟨l, hl, hnd, hmem⟩ := h.ring_regular hi0
  have hlen : 2 * nb ≤ l.length := by
    have hsub : (ringList (N + 1) nb nb) ⊆ l := by
      intro j hj
      have hjn : j < N + 1 := by
        unfold ringList at hj
        obtain ⟨t, -, rfl⟩ := List.mem_map.1 hj
        exact Nat.mod_lt _ (by omega)
      rw [mem_ringList (by omega) hi0 hjn] at hj
      rw [hmem]
      omega
    have := ((ringList_nodup (n := N + 1) (by omega) nb).subperm hsub).length_le
    rwa [ringList_length] at this
  refine ⟨⟨k, maxDist, hq⟩, ?_, ?_, ?_⟩
  · exact h.ring_raw
  · obtain ⟨t, ht, htl, width, hrows⟩ := computeNeighbors_rows env hI h.analysis hq D.indices
      D.positions (by rw [h.indices, h.sites, List.length_map, List.length_map]) h.sites_nodup
    rw [h.comp] at ht
    cases ht
    obtain ⟨row, sel, r1, -, -, -, r5, -, -, r8, -⟩ := hrows nb _ _
      ((h.ring_site.1 _).2 ⟨hi0, rfl⟩) ((h.ring_site.2 _).2 ⟨hi0, rfl⟩)
    have h1 := h.count r1
    have h2 := r5.length_eq
    rw [List.length_map] at h2
    have h3 := List.length_filter_le (fun j => connectedAt A.distMatrix
      (Idx.mk (fun _ : Fin 1 => (nb : ℤ)) 0).alpha (Structure.alphaOf D.indices j)
      (distance (D.positions.getD j 0) (fun _ => (nb : ℝ)) (some 6) : ℝ)) sel
    have h4 : l.length = (chainNbrs (chainCells N fun _ => true) nb nb).length := by
      obtain ⟨l', g1, g2, -⟩ := h.neighbors (i := nb) (by rw [chainCells_true]; simpa using hi0)
      rw [set_regular h.set h.top h.levels (by rw [h.length, chainCells_true]; simpa using hi0)]
        at hl
      unfold Lattice.neighbors at g1
      rw [h.data] at g1
      have g1 : D.getNeighbors nb none none false = .ok l' := g1
      rw [hl] at g1
      cases g1
      exact g2.length_eq
    have h5 := (hI.queryParams hq).1
    have h6 : (row.filter isLink).length = (row.filter fun p => decide (p.2 ≠ ⊤)).length := rfl
    omega
  · obtain ⟨width, hr, -⟩ := h.rect
    refine ⟨width, hr, le_trans hlen ?_⟩
    obtain ⟨r, hr1, hr2, hg⟩ := hr.getNeighbors (i := nb) (by
      rw [h.numSites, chainCells_true]; simpa using hi0)
    rw [hg] at hl
    cases hl
    rw [List.length_map, ← hr.row_length r hr2]
    exact List.length_filter_le _ _

theorem ring_pstate (h : IsBuiltChain env nb N (fun _ => true) w A L D table) :
    Lattice.PState env L.world A D [0] (L.primitive.getD false) [([0], fun _ => (N : ℤ) + 1)] := by
  rw [h.world, h.primitive]
  refine ⟨h.reach, h.analysis, by rw [h.indices, h.sites, List.length_map, List.length_map], ?_, ?_⟩
  · intro x hx
    have hnum : w.struct.numBase = 1 := by
      rw [← (h.reach.good Nat.one_pos).positions_length, h.positions]; rfl
    rw [h.indices] at hx
    obtain ⟨i, -, rfl⟩ := List.mem_map.1 hx
    rw [Idx.alpha_mk, hnum]
    norm_num
  · rw [h.basis, h.indices, chainCells_true]
    exact chain_periodicVectors N

/-- The distances of a long chain are stored. -/
theorem ring_level (h : IsBuiltChain env nb N (fun _ => true) w A L D table) (hN : nb ≤ N) {m : ℕ}
    (h0 : 0 < m) (hm : m ≤ nb) :
    ∃ n < D.invalidDistidx, D.distvals[n]? = some (((m : ℕ) : ℝ) : WithTop ℝ) := by
  have hmem : (((m : ℕ) : ℝ) : WithTop ℝ) ∈ D.distvals := by
    refine (h.mem_distvals _).2 ⟨0, ?_, m, ?_, h0, by omega, by simp⟩ <;>
      rw [chainCells_true, List.mem_range] <;> omega
  obtain ⟨row, hrow, e, he, hx⟩ := (Lattpy.mem_distvals h.set _).1 hmem
  obtain ⟨-, -, -, -, -, hlev⟩ := set_cols h.set h.top h.levels
  obtain ⟨g1, -, g3⟩ := hlev row hrow e he
  rw [hx] at g1 g3
  exact ⟨_, g3.2 (by simp), g1⟩

end IsBuiltChain

/-- C64 for a chain (one atom per unit cell, `nb` neighbour shells, more than `2 nb` sites):
`set_periodic(0)` makes it a ring.  The neighbours of a site are the sites up to `nb` steps away
around the ring, `2 nb` in number; the periodic ones carry the translation by the number of sites
and the distance around the ring. -/
theorem C64_ring_partial (env : Env ℝ) {nb N : ℕ} (hN : 2 * nb ≤ N) (hnb : 0 < nb) {w : World 1 ℝ}
    {A : Analysis 1 ℝ} {L : Lattice 1 ℝ} {D : LatticeData 1 ℝ}
    {table : List (List (ℕ × WithTop ℝ))}
    (h : IsBuiltChain env nb N (fun _ => true) w A L D table) :
    ∃ L' E, L.setPeriodic env (.axes [0]) = (L', .ok ()) ∧ L'.data = some E ∧
      L'.periodicAxes = [0] ∧ E.indices = D.indices ∧ E.positions = D.positions ∧
      (∀ i < N + 1, ∃ l, L'.neighbors i none false = .ok l ∧ l.Nodup ∧ l.length = 2 * nb ∧
        ∀ j, j ∈ l ↔ j < N + 1 ∧
          ∃ m, 0 < m ∧ m ≤ nb ∧ (j = (i + m) % (N + 1) ∨ i = (j + m) % (N + 1))) ∧
      ∀ i j t x, Lattice.Per E i j t x ↔ i < N + 1 ∧ j < N + 1 ∧
        (t 0 = N + 1 ∨ t 0 = -(N + 1)) ∧ x = |(i : ℝ) + t 0 - j| ∧ 0 < x ∧ x ≤ nb := by
  obtain ⟨hq, hres, hk, width, hr, hwidth⟩ := h.ring_params hN
  have himg : ∀ {i j : ℕ} {t : Fin 1 → ℤ} {x : ℝ},
      Image L.struct A D.indices D.positions i j t x ↔
      i < N + 1 ∧ j < N + 1 ∧ 0 < ((i : ℤ) + t 0 - j).natAbs ∧
        ((i : ℤ) + t 0 - j).natAbs ≤ nb ∧ x = (((i : ℤ) + t 0 - j).natAbs : ℝ) := by
    intro i j t x
    unfold Lattice.struct
    rw [h.world]
    exact h.ring_image
  have hReg : ∀ i j, Lattice.Reg D i j →
      i < N + 1 ∧ j < N + 1 ∧ i ≠ j ∧ j ≤ i + nb ∧ i ≤ j + nb := by
    rintro i j ⟨l, hl, hj⟩
    have hi := h.ring_lt hl
    obtain ⟨l', hl', -, hm⟩ := h.ring_regular hi
    rw [hl] at hl'
    cases hl'
    exact ⟨hi, (hm j).1 hj⟩
  obtain ⟨L', E, h1, h2, h3, h4, h5, h6, h7, h8, h9⟩ := Lattice.C64_set_periodic_partial
    Nat.one_pos h.ring_pstate h.data h.shape hr h.sorted
    (set_packed h.set h.top h.levels (by
      obtain ⟨width, hrows⟩ := h.rows
      intro row hrow
      obtain ⟨i, hi⟩ := List.mem_iff_getElem?.1 hrow
      exact (hrows i row hi).2.1)) hq
    (by
      intro i j hij v hv x
      obtain ⟨g1, g2, g3, g4, g5⟩ := hReg i j hij
      rw [List.mem_singleton] at hv
      subst hv
      rw [himg, himg]
      simp only [Pi.neg_apply]
      constructor <;> rintro ⟨-, -, -, g6, -⟩ <;> omega)
    (by
      intro i l hl J hJ hJi
      have hi := h.ring_lt hl
      obtain ⟨l', hl', hnd, hm⟩ := h.ring_regular hi
      rw [hl] at hl'
      cases hl'
      have hJ' : ∀ j ∈ J, j < N + 1 ∧ (i + (N + 1) ≤ j + nb ∨ j + (N + 1) ≤ i + nb) := by
        intro j hj
        obtain ⟨v, hv, x, hx⟩ := hJi j hj
        rw [List.mem_singleton] at hv
        subst hv
        rw [himg, himg] at hx
        simp only [Pi.neg_apply] at hx
        rcases hx with ⟨g1, g2, g3, g4, -⟩ | ⟨g1, g2, g3, g4, -⟩ <;> omega
      have hsub : (l ++ J) ⊆ ringList (N + 1) nb i := by
        intro j hj
        rcases List.mem_append.1 hj with hj | hj
        · obtain ⟨g1, g2⟩ := (hm j).1 hj
          rw [mem_ringList (by omega) hi g1]
          omega
        · obtain ⟨g1, g2⟩ := hJ' j hj
          rw [mem_ringList (by omega) hi g1]
          omega
      have hnd' : (l ++ J).Nodup := by
        rw [List.nodup_append]
        refine ⟨hnd, hJ, ?_⟩
        intro a ha b hb hab
        subst hab
        have g1 := (hm a).1 ha
        have g2 := hJ' a hb
        omega
      have := (hnd'.subperm hsub).length_le
      rw [ringList_length, List.length_append] at this
      omega)
    (by
      rintro i j x ⟨v, hv, hx⟩
      obtain ⟨-, -, g1, g2, rfl⟩ := himg.1 hx
      exact h.ring_level (by omega) g1 g2)
  have hcomplete : ∀ i j, i < N + 1 → j < N + 1 → i + (N + 1) ≤ j + nb →
      (Lattice.Reg E i j ∨ ∃ t y, Lattice.Per E i j t y) ∧
      (Lattice.Reg E j i ∨ ∃ t y, Lattice.Per E j i t y) := by
    intro i j hi hj hij
    refine h8 hres _ (List.mem_singleton.2 rfl) i j _ _ _ (himg.2 ⟨hi, hj, ?_, ?_, rfl⟩)
      ((h.ring_site.1 _).2 ⟨hi, rfl⟩) ((h.ring_site.1 _).2 ⟨hj, rfl⟩) ?_
    · dsimp only; omega
    · dsimp only; omega
    · refine le_trans ?_ hk
      have hsub : ((List.range (N + 1)).filter fun a : ℕ => decide (distance
          (fun _ : Fin 1 => (a : ℝ)) (L.struct.basis.translate (fun _ => (N : ℤ) + 1) fun _ => (i : ℝ)) ≤
          distance (fun _ : Fin 1 => (j : ℝ))
            (L.struct.basis.translate (fun _ => (N : ℤ) + 1) fun _ => (i : ℝ)))) ⊆
          List.range' (N + 1 - nb) nb := by
        intro a ha
        obtain ⟨ha1, ha2⟩ := List.mem_filter.1 ha
        rw [List.mem_range] at ha1
        have ha2 := of_decide_eq_true ha2
        have hb : L.struct.basis = chainBasis 1 := by
          unfold Lattice.struct; rw [h.world]; exact h.basis
        rw [hb, chain_translate, distance_one, distance_one] at ha2
        have e1 : (i : ℝ) + (N + 1) ≤ j + nb := by exact_mod_cast hij
        have e2 : (a : ℝ) < N + 1 := by exact_mod_cast ha1
        have e3 : (j : ℝ) < N + 1 := by exact_mod_cast hj
        have e4 : (0 : ℝ) ≤ i := by positivity
        push_cast at ha2
        rw [abs_of_neg (by linarith), abs_of_neg (by linarith)] at ha2
        have : (i : ℝ) + (N + 1) ≤ a + nb := by linarith
        have : i + (N + 1) ≤ a + nb := by exact_mod_cast this
        rw [List.mem_range'_1]
        omega
      have := ((List.nodup_range.filter _).subperm hsub).length_le
      rw [List.length_range'] at this
      unfold closer
      rw [h.sites, chainCells_true, List.filter_map, List.length_map]
      refine le_trans this ?_
      omega
  have hEreg : ∀ i j, Lattice.Reg E i j → i < N + 1 → j ≤ i + nb ∧ i ≤ j + nb := by
    rintro i j ⟨l, hl, hj⟩ hi
    obtain ⟨l0, g1, g2, -⟩ := h6 i (by rw [h.numSites, chainCells_true]; simpa using hi)
    rw [hl] at g2
    cases g2
    exact (hReg i j ⟨l, g1, hj⟩).2.2.2
  have hper1 : ∀ i j t x, Lattice.Per E i j t x → i < N + 1 ∧ j < N + 1 ∧
      (t 0 = N + 1 ∨ t 0 = -(N + 1)) ∧ 0 < ((i : ℤ) + t 0 - j).natAbs ∧
        ((i : ℤ) + t 0 - j).natAbs ≤ nb ∧ x = (((i : ℤ) + t 0 - j).natAbs : ℝ) := by
    intro i j t x hp
    obtain ⟨⟨g1, v, hv, g2⟩, -⟩ := h7 i j t x hp
    rw [List.mem_singleton] at hv
    subst hv
    obtain ⟨a1, a2, a3, a4, a5⟩ := himg.1 g1
    refine ⟨a1, a2, ?_, a3, a4, a5⟩
    rcases g2 with g2 | g2
    · left; rw [g2]
    · right; rw [g2]; rfl
  have hper : ∀ i j t x, Lattice.Per E i j t x ↔ i < N + 1 ∧ j < N + 1 ∧
      (t 0 = N + 1 ∨ t 0 = -(N + 1)) ∧ 0 < ((i : ℤ) + t 0 - j).natAbs ∧
        ((i : ℤ) + t 0 - j).natAbs ≤ nb ∧ x = (((i : ℤ) + t 0 - j).natAbs : ℝ) := by
    intro i j t x
    refine ⟨hper1 i j t x, ?_⟩
    rintro ⟨hi, hj, ht, hx0, hx1, hx⟩
    have hsame : ∀ t' y, Lattice.Per E i j t' y → Lattice.Per E i j t x := by
      intro t' y hp
      obtain ⟨-, -, g1, g2, g3, g4⟩ := hper1 i j t' y hp
      have ht' : t' 0 = t 0 := by rcases ht with ht | ht <;> rcases g1 with g1 | g1 <;> omega
      have : t' = t := funext fun k => by rw [Subsingleton.elim k 0, ht']
      subst this
      rw [hx, ← g4]
      exact hp
    rcases ht with ht | ht
    · rcases (hcomplete i j hi hj (by omega)).1 with hr' | ⟨t', y, hp⟩
      · have := hEreg i j hr' hi
        omega
      · exact hsame t' y hp
    · rcases (hcomplete j i hj hi (by omega)).2 with hr' | ⟨t', y, hp⟩
      · have := hEreg i j hr' hi
        omega
      · exact hsame t' y hp
  refine ⟨L', E, h1, h2, h9 ?_, h3, h4, ?_, ?_⟩
  · refine ⟨0, N, fun _ => (N : ℤ) + 1, _, (hper _ _ _ _).2
      ⟨by omega, by omega, Or.inl rfl, ?_, ?_, rfl⟩⟩ <;> omega
  · intro i hi
    obtain ⟨l, g1, g2, l', g3, g4, g5, g6⟩ := h6 i (by
      rw [h.numSites, chainCells_true]; simpa using hi)
    obtain ⟨l0, k1, k2, k3⟩ := h.ring_regular hi
    rw [g1] at k1
    cases k1
    have hnd : (l ++ l').Nodup := by
      rw [List.nodup_append]
      refine ⟨k2, g4, ?_⟩
      intro a ha b hb hab
      subst hab
      obtain ⟨t, x, hp⟩ := (g6 a).1 hb
      exact (h7 i a t x hp).2.1 ⟨l, g2, ha⟩
    have hmem : ∀ j, j ∈ l ++ l' ↔ j < N + 1 ∧ j ∈ ringList (N + 1) nb i := by
      intro j
      rw [List.mem_append, k3, g6]
      constructor
      · rintro (⟨b1, b2⟩ | ⟨t, x, hp⟩)
        · exact ⟨b1, (mem_ringList (by omega) hi b1).2 (by omega)⟩
        · obtain ⟨-, b2, b3, b4, b5, -⟩ := (hper _ _ _ _).1 hp
          exact ⟨b2, (mem_ringList (by omega) hi b2).2 (by omega)⟩
      · rintro ⟨b1, b2⟩
        rw [mem_ringList (by omega) hi b1] at b2
        by_cases b3 : j ≤ i + nb ∧ i ≤ j + nb
        · exact Or.inl ⟨b1, by omega⟩
        · right
          by_cases b4 : i + (N + 1) ≤ j + nb
          · exact ⟨fun _ => (N : ℤ) + 1, _, (hper _ _ _ _).2 ⟨hi, b1, Or.inl rfl, by
              omega, by omega, rfl⟩⟩
          · exact ⟨fun _ => -((N : ℤ) + 1), _, (hper _ _ _ _).2 ⟨hi, b1, Or.inr rfl, by
              omega, by omega, rfl⟩⟩
    refine ⟨l ++ l', ?_, hnd, ?_, ?_⟩
    · unfold Lattice.neighbors
      rw [h2]
      exact g5
    · have hp : (l ++ l').Perm (ringList (N + 1) nb i) := by
        refine (List.perm_ext_iff_of_nodup hnd (ringList_nodup (by omega) i)).2 fun j => ?_
        rw [hmem]
        refine and_iff_right_of_imp fun hj => ?_
        unfold ringList at hj
        obtain ⟨t, -, rfl⟩ := List.mem_map.1 hj
        exact Nat.mod_lt _ (by omega)
      rw [hp.length_eq, ringList_length]
    · intro j
      rw [hmem]
      refine and_congr_right fun hj => ?_
      exact ring_steps (by omega) hi hj
  · intro i j t x
    rw [hper]
    refine and_congr_right fun hi => and_congr_right fun hj => and_congr_right fun ht => ?_
    have habs : (((i : ℤ) + t 0 - j).natAbs : ℝ) = |(i : ℝ) + t 0 - j| := by
      rw [Nat.cast_natAbs, Int.cast_abs]
      push_cast
      rfl
    constructor
    · rintro ⟨b1, b2, rfl⟩
      exact ⟨habs, by exact_mod_cast b1, by exact_mod_cast b2⟩
    · rintro ⟨b1, b2, b3⟩
      rw [← habs] at b1
      subst b1
      exact ⟨by exact_mod_cast b2, by exact_mod_cast b3, rfl⟩

/-- The hypotheses are met: a ring of 6 sites with two shells. -/
example (env : Env ℝ) : ∃ (w : World 1 ℝ) (L L' : Lattice 1 ℝ) (l : List ℕ),
    (Lattice.ofWorld w).build env (chainArgs 5 fun _ => true) = (L, .ok ()) ∧
    L.setPeriodic env (.axes [0]) = (L', .ok ()) ∧ L'.periodicAxes = [0] ∧
    L'.neighbors 0 none false = .ok l ∧ l.Perm [1, 2, 4, 5] := by
  obtain ⟨w, A, L, D, table, h⟩ := exists_isBuiltChain env (nb := 2) (by omega) (by omega) 5
    (fun _ => true) (by decide)
  obtain ⟨L', E, h1, h2, h3, -, -, h6, -⟩ := C64_ring_partial env (by omega) (by omega) h
  obtain ⟨l, g1, g2, g3, g4⟩ := h6 0 (by omega)
  refine ⟨w, L, L', l, h.build, h1, h3, g1, ?_⟩
  refine (List.perm_ext_iff_of_nodup g2 (by decide)).2 fun j => ?_
  rw [g4]
  constructor
  · rintro ⟨hj, m, hm0, hm, hc⟩
    have : m = 1 ∨ m = 2 := by omega
    rcases this with rfl | rfl <;> simp only [List.mem_cons, List.not_mem_nil] <;> omega
  · intro hj
    simp only [List.mem_cons, List.not_mem_nil, or_false] at hj
    rcases hj with rfl | rfl | rfl | rfl
    · exact ⟨by omega, 1, by omega, by omega, by omega⟩
    · exact ⟨by omega, 2, by omega, by omega, by omega⟩
    · exact ⟨by omega, 2, by omega, by omega, by omega⟩
    · exact ⟨by omega, 1, by omega, by omega, by omega⟩

end Lattpy
