import Verif.Props.PeriodicRing

/-!
# Periodic boundary conditions of small lattices (C64)
-/

set_option autoImplicit false
set_option linter.unusedSectionVars false

namespace Lattpy

open Structure

/-- Two rows with the same members, one of them sorted strictly, are equal. -/
theorem row_eq {l l' : List (ℕ × WithTop ℝ)} (hn : l.Nodup)
    (hs : l.Pairwise fun a b => a.2 ≤ b.2) (hs' : l'.Pairwise fun a b => a.2 < b.2)
    (hm : ∀ e, e ∈ l ↔ e ∈ l') : l = l' := by
  have hn' : l'.Nodup := hs'.imp fun {a b} h he => by rw [he] at h; exact lt_irrefl _ h
  refine List.Perm.eq_of_pairwise (le := fun a b => a.2 ≤ b.2) ?_ hs
    (hs'.imp fun h => le_of_lt h) ((List.perm_ext_iff_of_nodup hn hn').2 hm)
  intro a b ha hb h1 h2
  by_contra hne
  have ha' := (hm a).1 ha
  obtain ⟨i, hi, rfl⟩ := List.mem_iff_getElem.1 ha'
  obtain ⟨j, hj, rfl⟩ := List.mem_iff_getElem.1 hb
  rw [List.pairwise_iff_getElem] at hs'
  rcases lt_trichotomy i j with hij | hij | hij
  · exact absurd (hs' i j hi hj hij) (not_lt.2 h2)
  · subst hij; exact hne rfl
  · exact absurd (hs' j i hj hi hij) (not_lt.2 h1)

namespace Lattice

variable {d : ℕ} {env : Env ℝ} {w : World d ℝ} {A : Analysis d ℝ} {D : LatticeData d ℝ}
  {axes : List ℕ} {primitive : Bool} {vecs : List (List ℕ × (Fin d → ℤ))}

theorem PState.row_sorted (hd : 0 < d) (h : PState env w A D axes primitive vecs) {k : ℕ}
    {maxDist : ℝ} (hq : queryParams A = .ok (k, maxDist)) (v : Fin d → ℤ) {i : ℕ}
    {row : List (ℕ × WithTop ℝ)}
    (hrow : (pTable env w.struct A k maxDist D.indices D.positions v)[i]? = some row) :
    (row.filter fun p => decide (p.1 < D.indices.length)).Nodup ∧
    (row.filter fun p => decide (p.1 < D.indices.length)).Pairwise fun a b => a.2 ≤ b.2 := by
  obtain ⟨cells, m, c, hcells, -, hsym, -, -, hI⟩ := (h.reach.good hd).analysis A h.analysis
  obtain ⟨hl, hrows⟩ := pTable_rows env hI hq D.indices D.positions h.length h.alpha v
  have hi : i < D.positions.length := by
    rw [← hl]; exact (List.getElem?_eq_some_iff.1 hrow).1
  obtain ⟨row', sel, r1, r2, r3, r4, r5, r6, -⟩ := hrows i _ _ (List.getElem?_eq_getElem hi)
    (List.getElem?_eq_getElem (by rw [h.length]; exact hi))
  rw [hrow] at r1
  cases r1
  have hf : (row.filter fun p => decide (p.1 < D.indices.length)).Sublist
      (row.filter isLink) := by
    have : (row.filter fun p => decide (p.1 < D.indices.length)) =
        (row.filter isLink).filter fun p => decide (p.1 < D.indices.length) := by
      rw [List.filter_filter]
      refine List.filter_congr fun e he => ?_
      by_cases ht : e.2 = ⊤
      · have := r3 e he ht
        simp [isLink, ht, this, h.length]
      · simp [isLink, ht]
    rw [this]
    exact List.filter_sublist
  constructor
  · refine List.Nodup.sublist hf ?_
    rw [r4.nodup_iff]
    refine (r5.filter _).map ?_
    intro a b hab
    exact congrArg Prod.fst hab
  · exact (List.pairwise_map.1 r2).sublist List.filter_sublist

end Lattice

theorem pFinal_two (x y z : WithTop ℝ) (t : Fin 1 → ℤ) :
    Lattice.pFinal [1] [⟨1, x, t, [0]⟩, ⟨0, y, t, [0]⟩, ⟨0, z, -t, [0]⟩] = [⟨0, x, t, [0]⟩] := by
  have h1 : npUnique [0, 0] = [0] := by decide
  simp [Lattice.pFinal, h1]

theorem getNeighbors_packed {d : ℕ} {D : LatticeData d ℝ} {t : List (List (Entry d))}
    (hc : D.Cols t) {i : ℕ} {a b : List (Entry d)} (h1 : t[i]? = some (a ++ b))
    (h2 : ∀ e ∈ a, e.level < D.invalidDistidx ∧ e.per = false)
    (h3 : ∀ e ∈ b, e.level = D.invalidDistidx ∨ e.per = true) :
    D.getNeighbors i none (some false) false = .ok (a.map Entry.nbr) := by
  rw [hc.getNeighbors i _ h1, List.filter_append, List.filter_eq_self.2,
    List.filter_eq_nil_iff.2, List.append_nil]
  · intro e he
    rcases h3 e he with g | g
    · simp [LatticeData.sel, g]
    · simp [LatticeData.sel, g]
  · intro e he
    simp [LatticeData.sel, (h2 e he).1, (h2 e he).2]

/-- The chain of two sites with two neighbour shells after `set_periodic`. -/
theorem exists_small_ring (env : Env ℝ) :
    ∃ (w : World 1 ℝ) (A : Analysis 1 ℝ) (L L' : Lattice 1 ℝ) (E : LatticeData 1 ℝ),
      Reachable env w ∧ w.struct.analysis = some A ∧
      (Lattice.ofWorld w).build env (chainArgs 1 fun _ => true) = (L, .ok ()) ∧
      L.setPeriodic env (.axes [0]) = (L', .ok ()) ∧ L'.data = some E ∧
      E.indices = [Idx.mk (fun _ => 0) 0, Idx.mk (fun _ => 1) 0] ∧
      E.distvals = [((1 : ℝ) : WithTop ℝ), ⊤] ∧
      Lattice.Per E 0 0 (fun _ => 2) 1 ∧
      (∀ x, Image w.struct A E.indices E.positions 0 0 (fun _ => 2) x → x = 2) ∧
      ¬ ∃ x, Lattice.Per E 0 0 (fun _ => -2) x := by
  obtain ⟨w, A, L, D, table, h⟩ := exists_isBuiltChain env (nb := 2) (by omega) (by omega) 1
    (fun _ => true) (by decide)
  have hP := h.ring_pstate
  rw [h.world] at hP
  obtain ⟨width, hr, -⟩ := h.rect
  obtain ⟨D0, hD0, -⟩ := LatticeData.removePeriodic_cols hr.cols
  obtain ⟨s1, s2, -⟩ := removePeriodic_sites hD0
  have h0 : Lattice.PState env w A D0 [0] (L.primitive.getD false) [([0], fun _ => (2 : ℤ))] :=
    ⟨hP.reach, hP.analysis, by rw [s1, s2]; exact hP.length, by rw [s1]; exact hP.alpha, by
      rw [s1]; exact hP.vecs⟩
  obtain ⟨k, maxDist, hq⟩ := computeNeighbors_params h.analysis h.comp
  have hns : D.numSites = 2 := by rw [h.numSites, chainCells_true]; rfl
  obtain ⟨Q, hQ⟩ := h0.exists_result Nat.one_pos ⟨k, maxDist, hq⟩ (by
    intro i hi
    rw [s1] at hi
    rw [Lattice.removePeriodic_getNeighbors hr hD0 hi]
    obtain ⟨r, -, -, hg⟩ := hr.getNeighbors hi
    exact ⟨_, hg _ _ _⟩)
  have hP2 : D.positions.length = 2 := by rw [h.sites, chainCells_true]; rfl
  have hI2 : D.indices.length = 2 := by rw [h.indices, chainCells_true]; rfl
  obtain ⟨cells, m, c, hcells, -, hsym, -, -, hI⟩ :=
    (h.reach.good Nat.one_pos).analysis A h.analysis
  obtain ⟨hk, hk2, -⟩ := hI.queryParams hq
  -- the rows
  obtain ⟨t1, t2, t3, t4⟩ := h0.table Nat.one_pos hq fun _ => 2
  rw [s1, s2] at t1 t3 t4
  have hrowmem : ∀ (i : ℕ) row, (Lattice.pTable env w.struct A k maxDist D.indices D.positions
      fun _ => 2)[i]? = some row → ∀ e, e ∈ row.filter (fun p => decide (p.1 < D.indices.length)) ↔
        ∃ j : ℕ, j < 2 ∧ 0 < ((i : ℤ) + 2 - j).natAbs ∧ ((i : ℤ) + 2 - j).natAbs ≤ 2 ∧
          e = (j, (((((i : ℤ) + 2 - j).natAbs : ℕ) : ℝ) : WithTop ℝ)) := by
    intro i row hrow e
    have hi : i < 2 := by
      rw [← hP2, ← t1]; exact (List.getElem?_eq_some_iff.1 hrow).1
    rw [List.mem_filter, decide_eq_true_eq]
    constructor
    · rintro ⟨he, hlt⟩
      obtain ⟨x, hx, himg⟩ := t3 i row hrow e he hlt
      obtain ⟨-, g2, g3, g4, rfl⟩ := h.ring_image.1 himg
      exact ⟨e.1, g2, g3, g4, Prod.ext rfl hx⟩
    · rintro ⟨j, hj, g1, g2, rfl⟩
      refine ⟨?_, by rw [hI2]; exact hj⟩
      obtain ⟨row', hr', hm⟩ := t4 h.ring_raw i j _ _ _ (h.ring_image.2
        ⟨hi, hj, g1, g2, rfl⟩) ((h.ring_site.1 _).2 ⟨hi, rfl⟩) ((h.ring_site.1 _).2 ⟨hj, rfl⟩) (by
          rw [← hk]
          refine le_trans ?_ hk2
          rw [← hP2]
          exact List.length_filter_le _ _)
      rw [hrow] at hr'
      cases hr'
      exact hm
  have hlen2 : (Lattice.pTable env w.struct A k maxDist D.indices D.positions
      fun _ => 2).length = 2 := by rw [t1, hP2]
  obtain ⟨row0, row1, hT⟩ := List.length_eq_two.1 hlen2
  have hr0 : row0.filter (fun p => decide (p.1 < D.indices.length)) =
      [(1, ((1 : ℝ) : WithTop ℝ)), (0, ((2 : ℝ) : WithTop ℝ))] := by
    have hrow : (Lattice.pTable env w.struct A k maxDist D.indices D.positions
      fun _ => 2)[0]? = some row0 := by rw [hT]; rfl
    obtain ⟨n1, n2⟩ := h0.row_sorted Nat.one_pos hq (fun _ => 2) (i := 0) (row := row0)
      (by rw [s1, s2]; exact hrow)
    rw [s1] at n1 n2
    refine row_eq n1 n2 ?_ ?_
    · simp only [List.pairwise_cons, List.mem_singleton, List.not_mem_nil, false_imp_iff,
        implies_true, List.Pairwise.nil, and_true, forall_eq]
      rw [WithTop.coe_lt_coe]
      norm_num
    · intro e
      rw [hrowmem 0 row0 hrow e]
      constructor
      · rintro ⟨j, hj, -, -, rfl⟩
        have : j = 0 ∨ j = 1 := by omega
        rcases this with rfl | rfl <;> simp
      · intro he
        simp only [List.mem_cons, List.not_mem_nil, or_false] at he
        rcases he with rfl | rfl
        · exact ⟨1, by omega, by omega, by omega, by norm_num⟩
        · exact ⟨0, by omega, by omega, by omega, by norm_num⟩
  have hr1 : row1.filter (fun p => decide (p.1 < D.indices.length)) =
      [(1, ((2 : ℝ) : WithTop ℝ))] := by
    have hrow : (Lattice.pTable env w.struct A k maxDist D.indices D.positions
      fun _ => 2)[1]? = some row1 := by rw [hT]; rfl
    obtain ⟨n1, n2⟩ := h0.row_sorted Nat.one_pos hq (fun _ => 2) (i := 1) (row := row1)
      (by rw [s1, s2]; exact hrow)
    rw [s1] at n1 n2
    refine row_eq n1 n2 (List.pairwise_singleton _ _) ?_
    intro e
    rw [hrowmem 1 row1 hrow e, List.mem_singleton]
    constructor
    · rintro ⟨j, hj, h3, h4, rfl⟩
      have : j = 1 := by omega
      subst this
      norm_num
    · rintro rfl
      exact ⟨1, by omega, by omega, by omega, by norm_num⟩
  -- the links collected for site 0
  obtain ⟨hat, hnd⟩ := Lattice.atSite_pCollect env w.struct A k maxDist D0.indices D0.positions
    [([0], fun _ => (2 : ℤ))] fun v => (h0.table Nat.one_pos hq v).2.1
  have hat0 : (Lattice.pCollect env w.struct A k maxDist D0.indices D0.positions
      [([0], fun _ => (2 : ℤ))]).atSite 0 = [⟨1, ((1 : ℝ) : WithTop ℝ), fun _ => 2, [0]⟩,
        ⟨0, ((2 : ℝ) : WithTop ℝ), fun _ => 2, [0]⟩,
        ⟨0, ((2 : ℝ) : WithTop ℝ), -fun _ => 2, [0]⟩] := by
    rw [hat, s1, s2]
    simp only [List.flatMap_cons, List.flatMap_nil, List.append_nil]
    rw [hT]
    simp only [List.zipIdx_cons, List.zipIdx_nil, List.flatMap_cons, List.flatMap_nil,
      List.append_nil]
    unfold Lattice.contrib
    rw [hr0, hr1]
    simp
  obtain ⟨k', maxDist', hq', hQ1, hQ2, -⟩ := h0.result hQ
  rw [hq] at hq'
  cases hq'
  obtain ⟨hQnd, hQreg⟩ := Lattice.C64_not_regular Nat.one_pos h0 hQ
  -- the regular neighbours
  have hreg : ∀ i < 2, ∀ ex, D0.getNeighbors i none none false = .ok ex →
      ex.Nodup ∧ ∀ j, j ∈ ex ↔ j < 2 ∧ i ≠ j := by
    intro i hi ex hex
    rw [Lattice.removePeriodic_getNeighbors hr hD0 (by rw [hns]; exact hi)] at hex
    obtain ⟨l, hl, hln, hm⟩ := h.ring_regular (i := i) hi
    rw [hex] at hl
    cases hl
    refine ⟨hln, fun j => ?_⟩
    rw [hm]
    omega
  have hmem0 := Lattice.PDict.mem_of_atSite (P := Lattice.pCollect env w.struct A k maxDist
    D0.indices D0.positions [([0], fun _ => (2 : ℤ))]) (i := 0) (by rw [hat0]; simp)
  rw [hat0] at hmem0
  obtain ⟨ex, hex, hin⟩ := hQ2 _ _ hmem0
  have hex1 : ex = [1] := by
    obtain ⟨e1, e2⟩ := hreg 0 (by omega) ex hex
    refine List.perm_singleton.1 ((List.perm_ext_iff_of_nodup e1 (by simp)).2 fun j => ?_)
    rw [e2, List.mem_singleton]
    omega
  subst hex1
  rw [pFinal_two] at hin
  have hinQ := hin (by simp)
  have hatQ := Lattice.PDict.atSite_of_mem hQnd hinQ
  -- enough room
  have hpack := set_packed h.set h.top h.levels (by
    obtain ⟨width, hrows⟩ := h.rows
    intro row hrow
    obtain ⟨i, hi⟩ := List.mem_iff_getElem?.1 hrow
    exact (hrows i row hi).2.1)
  have hw2 : 2 ≤ width := by
    obtain ⟨row, hrow, e, he, hx⟩ := (Lattpy.mem_distvals h.set _).1 h.top
    obtain ⟨hc, -⟩ := set_cols h.set h.top h.levels
    have hrl := hr.row_length (row.map (builtEntry D.distvals)) (by
      rw [hc.entries_eq]; exact List.mem_map_of_mem hrow)
    rw [List.length_map] at hrl
    obtain ⟨i, hi⟩ := List.mem_iff_getElem?.1 hrow
    have h1 := h.count hi
    have hi2 : i < 2 := by
      have := (List.getElem?_eq_some_iff.1 hi).1
      rw [h.length, chainCells_true] at this
      simpa using this
    have h2 : (chainNbrs (chainCells 1 fun _ => true) 2 i).length = 1 := by
      have : i = 0 ∨ i = 1 := by omega
      rcases this with rfl | rfl <;> decide
    have h3 := List.length_filter_lt_length_iff_exists (p := fun p : ℕ × WithTop ℝ =>
      decide (p.2 ≠ ⊤)) (l := row)
    have := h3.2 ⟨e, he, by simp [hx]⟩
    omega
  have hfit : ∀ p ∈ Q, ∃ a b, D.entries[p.1]? = some (a ++ b) ∧
      (∀ e ∈ a, e.level < D.invalidDistidx ∧ e.per = false) ∧
      (∀ e ∈ b, e.level = D.invalidDistidx ∨ e.per = true) ∧ p.2.length ≤ b.length := by
    rintro ⟨i, ls⟩ hp
    obtain ⟨g1, ex, hex, g2⟩ := hQreg i ls hp
    have hi : i < 2 := by rw [← hns]; exact Lattice.removePeriodic_lt hr hD0 hex
    obtain ⟨e1, e2⟩ := hreg i hi ex hex
    obtain ⟨r, hr1, hr2⟩ := hr.getElem?_entries (i := i) (by rw [hns]; exact hi)
    obtain ⟨a, b, rfl, h2, h3⟩ := hpack i r hr1
    refine ⟨a, b, hr1, h2, h3, ?_⟩
    have hga := getNeighbors_packed hr.cols hr1 h2 h3
    rw [← Lattice.removePeriodic_getNeighbors hr hD0 (by rw [hns]; exact hi), hex] at hga
    have hga := Except.ok.inj hga
    have hwl := hr.row_length _ hr2
    rw [List.length_append] at hwl
    obtain ⟨ms, ex', hm, hex', rfl, -⟩ := hQ1 i ls hp
    rw [hex] at hex'
    cases hex'
    have hnb : ∀ l ∈ Lattice.pFinal ex ms, l.nbr = i := by
      intro l hl
      obtain ⟨m1, m2⟩ := Lattice.mem_pFinal hl
      obtain ⟨l', hl', hll⟩ := List.mem_map.1 m2
      rw [← Lattice.PDict.atSite_of_mem hnd hm] at hl'
      obtain ⟨⟨x, -, himg⟩, -⟩ := h0.collect Nat.one_pos hq i l' hl'
      rw [s1, s2] at himg
      obtain ⟨-, hlt, -⟩ := h.ring_image.1 himg
      rw [hll] at hlt
      rw [e2] at m1
      omega
    have hle : (Lattice.pFinal ex ms).length ≤ 1 := by
      have hsub : ((Lattice.pFinal ex ms).map LatticeData.PLink.nbr) ⊆ [i] := by
        intro j hj
        obtain ⟨l, hl, rfl⟩ := List.mem_map.1 hj
        rw [hnb l hl]
        simp
      have := (g1.subperm hsub).length_le
      simpa using this
    have hea : a.length = 1 := by
      rw [← List.length_map (as := a) (f := Entry.nbr), ← hga]
      have hp1 : ex.Perm [1 - i] := by
        refine (List.perm_ext_iff_of_nodup e1 (by simp)).2 fun j => ?_
        rw [e2, List.mem_singleton]
        omega
      rw [hp1.length_eq]
      rfl
    dsimp only
    omega
  obtain ⟨E, hset, cE, e1, e2, e3, e4, e5, e6, hrows⟩ := Lattice.setPeriodic_stored env h.data
    h.shape hr hD0 (by unfold Lattice.struct; rw [h.world]; exact hQ) hQnd hfit
  obtain ⟨r, hr1, -⟩ := hr.getElem?_entries (i := 0) (by rw [hns]; omega)
  obtain ⟨a, b, rfl, h2, h3⟩ := hpack 0 r hr1
  have hrow0 := hrows 0 a b hr1 h2 h3
  have hbl : (Lattice.PDict.atSite Q 0).length ≤
      (b.map (LatticeData.clearEntry D.invalidIdx D.invalidDistidx)).length := by
    obtain ⟨a', b', g1, g2, g3, g4⟩ := hfit _ hinQ
    rw [hr1] at g1
    have heq := Option.some.inj g1
    have ga := getNeighbors_packed hr.cols hr1 h2 h3
    rw [getNeighbors_packed hr.cols (hr1.trans (congrArg some heq)) g2 g3] at ga
    have ga := congrArg List.length (Except.ok.inj ga)
    rw [List.length_map, List.length_map] at ga
    have gl := congrArg List.length heq
    rw [List.length_append, List.length_append] at gl
    rw [hatQ, List.length_map]
    dsimp only at g4; omega
  have hdv : (((1 : ℕ) : ℝ) : WithTop ℝ) ∈ D.distvals := by
    refine (h.mem_distvals _).2 ⟨0, ?_, 1, ?_, by omega, by omega, by simp⟩ <;>
      rw [chainCells_true, List.mem_range] <;> omega
  rw [Nat.cast_one] at hdv
  obtain ⟨n, hn⟩ := List.mem_iff_getElem?.1 hdv
  have hdv2 : D.distvals = [((1 : ℝ) : WithTop ℝ), ⊤] := by
    refine eq_of_sorted h.sorted (by simp) fun x => ?_
    rcases eq_or_ne x ⊤ with rfl | hx
    · simp [h.top]
    · obtain ⟨y, rfl⟩ := WithTop.ne_top_iff_exists.1 hx
      simp only [List.mem_cons, List.not_mem_nil, or_false, hx]
      constructor
      · intro hy
        obtain ⟨a, ha, b, hb, h4, -, rfl⟩ := (h.mem_distvals _).1 hy
        rw [chainCells_true, List.mem_range] at ha hb
        have : a = 0 ∧ b = 1 := by omega
        rw [this.1, this.2]
        norm_num
      · intro hy
        rw [hy]
        exact hdv
  refine ⟨w, A, L, _, E, h.reach, h.analysis, h.build, hset, rfl, ?_, by rw [e3, hdv2], ?_, ?_, ?_⟩
  · rw [e1, h.indices, chainCells_true]
    rfl
  · obtain ⟨e, he, g1, g2, g3, g4⟩ := (Lattice.mem_linkEntries (distvals := D.distvals) hbl
      (j := 0) (t := fun _ => 2)).2 ⟨_, by rw [hatQ]; exact List.mem_singleton.2 rfl, rfl, rfl, rfl⟩
    refine ⟨_, hrow0, e, List.mem_append_left _ (List.mem_append_right _ he), g1, g2, g3, ?_⟩
    rw [g4, e3, searchsorted_eq_of_getElem? h.sorted hn]
    exact hn
  · intro x hx
    rw [e1, e2] at hx
    obtain ⟨-, -, -, -, rfl⟩ := h.ring_image.1 hx
    norm_num
  · rintro ⟨x, r, hrr, e, he, hper, hj, ht, -⟩
    rw [hrow0] at hrr
    have hrr := Option.some.inj hrr
    subst hrr
    rcases List.mem_append.1 he with he | he
    · rcases List.mem_append.1 he with he | he
      · obtain ⟨e', -, rfl⟩ := List.mem_map.1 he
        simp [LatticeData.clearEntry] at hper
      · obtain ⟨l, hl, -, g2, -⟩ := (Lattice.mem_linkEntries hbl).1 ⟨e, he, hper, hj, ht, rfl⟩
        rw [hatQ, List.mem_singleton] at hl
        subst hl
        have := congrFun g2 0
        norm_num at this
    · obtain ⟨e', -, rfl⟩ := List.mem_map.1 (List.mem_of_mem_drop he)
      simp [LatticeData.clearEntry] at hper

/-- C64 does not hold for small lattices: a chain of two sites with two neighbour shells.  Site 1 is
already a regular neighbour of site 0; lattice.py 626-628 remove it from the list of periodic
neighbours found, but not from the parallel lists of distances and translations, which are read with
the positions of the shortened list (lines 632-636).  Site 0 becomes its own periodic neighbour at
distance 1, the distance of the removed entry; its image is at distance 2.  (And only one of the two
translations is kept.) -/
theorem C64_small_fails (env : Env ℝ) :
    ∃ (w : World 1 ℝ) (A : Analysis 1 ℝ) (L L' : Lattice 1 ℝ) (E : LatticeData 1 ℝ),
      Reachable env w ∧ w.struct.analysis = some A ∧
      (Lattice.ofWorld w).build env (chainArgs 1 fun _ => true) = (L, .ok ()) ∧
      L.setPeriodic env (.axes [0]) = (L', .ok ()) ∧ L'.data = some E ∧
      Lattice.Per E 0 0 (fun _ => 2) 1 ∧
      (∀ x, Image w.struct A E.indices E.positions 0 0 (fun _ => 2) x → x = 2) ∧
      ¬ ∃ x, Lattice.Per E 0 0 (fun _ => -2) x := by
  obtain ⟨w, A, L, L', E, h1, h2, h3, h4, h5, -, -, h6⟩ := exists_small_ring env
  exact ⟨w, A, L, L', E, h1, h2, h3, h4, h5, h6⟩

end Lattpy
