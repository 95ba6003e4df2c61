import Verif.Props.Restrict
import Verif.Lemmas.BuiltChain

/-!
# C120 for chains with several shells
-/

set_option autoImplicit false

namespace Lattpy

open Structure World

/-! ## spec -/

/-- The neighbours of every site are those neighbours of the site in the infinite structure, of any of
the first `nb` levels, that are part of the lattice. -/
def PartOfShells (nb : ℕ) (S : Structure 1 ℝ) (L : Lattice 1 ℝ) (D : LatticeData 1 ℝ) : Prop :=
  ∀ (i : ℕ) (a : Idx 1), D.indices[i]? = some a → ∃ l, L.neighbors i none false = .ok l ∧ l.Nodup ∧
    ∀ j, j ∈ l ↔ ∃ (b : Idx 1) (k : ℕ) (inf : List (Idx 1)), k < nb ∧ D.indices[j]? = some b ∧
      S.getNeighbors a.cell a.alpha k = .ok inf ∧ b ∈ inf

/-- Level `k` of the lattice is level `k` of the infinite structure. -/
def LevelsAgree (nb : ℕ) (S : Structure 1 ℝ) (L : Lattice 1 ℝ) (D : LatticeData 1 ℝ) : Prop :=
  ∀ (i : ℕ) (a : Idx 1) (k : ℕ), D.indices[i]? = some a → k < nb → ∃ l inf,
    L.neighbors i (some k) false = .ok l ∧ l.Nodup ∧
    S.getNeighbors a.cell a.alpha k = .ok inf ∧
    ∀ j, j ∈ l ↔ ∃ b : Idx 1, D.indices[j]? = some b ∧ b ∈ inf

/-! ## lemmas -/

/-- The neighbours of a site of the infinite chain. -/
theorem chain_query {env : Env ℝ} {w : World 1 ℝ} (hr : Reachable env w)
    (hb : w.struct.basis = chainBasis 1) (hp : w.struct.positions = [0]) {A : Analysis 1 ℝ}
    (hA : w.struct.analysis = some A) {nb : ℕ}
    (hc : ∀ x, Configured A 0 0 x ↔ ∃ m : ℕ, 0 < m ∧ m ≤ nb ∧ x = m) (n : Fin 1 → ℤ) {k : ℕ}
    (hk : k < nb) :
    ∃ l, w.struct.getNeighbors n 0 k = .ok l ∧ l.Nodup ∧
      ∀ b : Idx 1, b ∈ l ↔ b.alpha = 0 ∧ (b.cell 0 - n 0).natAbs = k + 1 := by
  obtain ⟨cells, m, c, hcells, -, -, -, -, hI⟩ := (hr.good Nat.one_pos).analysis A hA
  have hsd : ∀ n : Fin 1 → ℤ, w.struct.siteDist 0 0 n = ((n 0).natAbs : ℝ) := by
    intro n
    have hp0 : w.struct.positions[0]? = some fun _ => (0 : ℝ) := by rw [hp]; rfl
    rw [siteDist_eq hp0 hp0, distance_some, distance_one, Fin.sum_univ_one, hb, chain_vectors,
      ← npRound_natCast (n 0).natAbs]
    refine congrArg (npRound (K := ℝ) 6) ?_
    rw [Nat.cast_natAbs]
    push_cast
    simp
  have hnum : w.struct.numBase = 1 := by
    rw [← (hr.good Nat.one_pos).positions_length, hp]
    rfl
  have hlist : ∀ x i, Listed A 0 x i ↔ ∃ m : ℕ, 0 < m ∧ m ≤ nb ∧ x = m ∧ i.alpha = 0 ∧
      (i.cell 0).natAbs = m := by
    intro x i
    rw [listed_iff hI]
    constructor
    · rintro ⟨-, b, hb0, n, hn, rfl, hx, hmem⟩
      obtain rfl : b = 0 := by omega
      obtain ⟨m, h1, h2, h3⟩ := (hc x).1 (hI.configured.2 ⟨le_rfl, le_rfl, by simp [hnum], by
        simp [hnum], by simpa using hmem⟩)
      refine ⟨m, h1, h2, h3, by rw [Idx.alpha_mk]; rfl, ?_⟩
      rw [Idx.cell_mk]
      rw [hsd, h3] at hx
      exact_mod_cast hx.symm
    · rintro ⟨m, h1, h2, rfl, h3, h4⟩
      obtain ⟨-, -, -, -, q3⟩ := hI.configured.1 ((hc m).2 ⟨m, h1, h2, rfl⟩)
      simp only [Int.toNat_zero] at q3
      obtain ⟨-, n, hn, hxn⟩ := mem_levels.1 (List.mem_of_mem_take q3)
      refine ⟨by omega, 0, by omega, i.cell, ?_, ?_, by rw [hsd, h4], q3⟩
      · rw [hsd] at hxn
        have hxn : m = (n 0).natAbs := by exact_mod_cast hxn
        have : i.cell 0 = n 0 ∨ i.cell 0 = -n 0 := by omega
        rcases this with e | e
        · have : i.cell = n := by funext q; rw [Subsingleton.elim q 0, e]
          rw [this]; exact hn
        · have : i.cell = -n := by funext q; rw [Subsingleton.elim q 0, e]; rfl
          rw [this]; exact cells_neg hcells hn
      · rw [← h3.trans (by rfl : (0 : ℤ) = ((0 : ℕ) : ℤ)), Idx.mk_cell_alpha]
  obtain ⟨Dn, xs0, hD, -, -⟩ := (hlist 1 (Idx.mk (fun _ => 1) 0)).2 ⟨1, by omega, by omega, by simp, by
    rw [Idx.alpha_mk], by rw [Idx.cell_mk]; rfl⟩
  obtain ⟨⟨hkeys, hwf⟩, -, -⟩ := hI.base 0 Dn hD
  have hmemk : ∀ x, x ∈ Dn.sortedKeys ↔ ∃ xs, (x, xs) ∈ Dn := by
    intro x
    unfold NDict.sortedKeys
    rw [List.mem_insertionSort]
    constructor
    · intro h
      obtain ⟨p, h1, rfl⟩ := List.mem_map.1 h
      exact ⟨p.2, h1⟩
    · rintro ⟨xs, h⟩
      exact List.mem_map.2 ⟨_, h, rfl⟩
  have hsorted : Dn.sortedKeys.Pairwise (· < ·) := by
    have h1 : Dn.sortedKeys.Nodup := by
      unfold NDict.sortedKeys
      exact (List.perm_insertionSort _ _).nodup_iff.2 hkeys
    have h2 : Dn.sortedKeys.Pairwise (· ≤ ·) := List.pairwise_insertionSort _ _
    exact (h2.and h1).imp fun h => lt_of_le_of_ne h.1 h.2
  have hks : Dn.sortedKeys = (List.range nb).map fun k => ((k + 1 : ℕ) : ℝ) := by
    refine eq_of_sorted hsorted ?_ ?_
    · rw [List.pairwise_map]
      refine List.pairwise_lt_range.imp fun h => ?_
      exact_mod_cast Nat.succ_lt_succ h
    · intro x
      rw [hmemk, List.mem_map]
      constructor
      · rintro ⟨xs, h⟩
        obtain ⟨i, hi⟩ := List.exists_mem_of_ne_nil _ (hwf _ h)
        obtain ⟨m, h1, h2, h3, -⟩ := (hlist x i).1 ⟨Dn, xs, hD, h, hi⟩
        exact ⟨m - 1, List.mem_range.2 (by omega), by rw [h3, Nat.sub_add_cancel h1]⟩
      · rintro ⟨q, hq, rfl⟩
        have hq := List.mem_range.1 hq
        obtain ⟨D', xs, h1, h2, -⟩ := (hlist ((q + 1 : ℕ) : ℝ) (Idx.mk (fun _ => (q + 1 : ℕ)) 0)).2
          ⟨q + 1, by omega, by omega, rfl, by rw [Idx.alpha_mk], by rw [Idx.cell_mk]; rfl⟩
        rw [hD] at h1
        cases h1
        exact ⟨xs, h2⟩
  have hkk : Dn.sortedKeys[k]? = some ((k + 1 : ℕ) : ℝ) := by
    rw [hks, List.getElem?_map, List.getElem?_range hk]
    rfl
  obtain ⟨xs, hxs⟩ := (hmemk _).1 (List.mem_of_getElem? hkk)
  have hq : w.struct.getNeighbors n 0 k = .ok (xs.map (Structure.shiftIdx n)) := by
    unfold Structure.getNeighbors
    rw [hA]
    dsimp only
    rw [show pyGet A.base 0 = some Dn from pyGet_eq_some.2 ⟨0, Or.inl rfl, hD⟩]
    dsimp only
    rw [pyGet_eq_some.2 ⟨k, Or.inl rfl, hkk⟩]
    dsimp only
    rw [(NDict.get?_eq_some hkeys).2 hxs]
  obtain ⟨-, -, -, -, -, -, -, -, -, -, -, -, hnd, -⟩ := getNeighbors_info (hr.good Nat.one_pos) hq
  refine ⟨_, hq, hnd, fun b => ?_⟩
  have hx : ∀ i, i ∈ xs ↔ i.alpha = 0 ∧ (i.cell 0).natAbs = k + 1 := by
    intro i
    constructor
    · intro hi
      obtain ⟨m, -, -, h3, h4, h5⟩ := (hlist _ i).1 ⟨Dn, xs, hD, hxs, hi⟩
      have h3 : k + 1 = m := by exact_mod_cast h3
      exact ⟨h4, by omega⟩
    · rintro ⟨h4, h5⟩
      obtain ⟨D', xs', h1, h2, h3⟩ := (hlist ((k + 1 : ℕ) : ℝ) i).2 ⟨k + 1, by omega, by omega, rfl, h4, h5⟩
      rw [hD] at h1
      cases h1
      have e1 := (NDict.get?_eq_some hkeys).2 hxs
      have e2 := (NDict.get?_eq_some hkeys).2 h2
      rw [e1] at e2
      cases e2
      exact h3
  rw [List.mem_map]
  constructor
  · rintro ⟨i, hi, rfl⟩
    unfold Structure.shiftIdx
    rw [Idx.cell_mk, Idx.alpha_mk]
    obtain ⟨h1, h2⟩ := (hx i).1 hi
    exact ⟨h1, by rw [add_sub_cancel_right]; exact h2⟩
  · rintro ⟨h1, h2⟩
    refine ⟨Idx.mk (b.cell - n) b.alpha, (hx _).2 ⟨by rw [Idx.alpha_mk]; exact h1, by
      rw [Idx.cell_mk]; exact h2⟩, ?_⟩
    unfold Structure.shiftIdx
    rw [Idx.cell_mk, Idx.alpha_mk]
    have : (fun k => (b.cell - n) k + n k) = b.cell := by
      funext k
      simp
    rw [this, Idx.mk_cell_alpha]

/-- Every finite part of the chain is a part of the infinite chain. -/
theorem IsBuiltChain.part {env : Env ℝ} {nb N : ℕ} {keep : ℕ → Bool} {w : World 1 ℝ}
    {A : Analysis 1 ℝ} {L : Lattice 1 ℝ} {D : LatticeData 1 ℝ} {table : List (List (ℕ × WithTop ℝ))}
    (h : IsBuiltChain env nb N keep w A L D table) : PartOfShells nb w.struct L D := by
  intro i a hi
  rw [h.indices, List.getElem?_map, Option.map_eq_some_iff] at hi
  obtain ⟨x, hx, rfl⟩ := hi
  have hil := (List.getElem?_eq_some_iff.1 hx).1
  obtain ⟨l, hl, hperm, -⟩ := h.neighbors hil
  have hnd : (chainNbrs (chainCells N keep) nb i).Nodup := List.nodup_range.filter _
  refine ⟨l, hl, hperm.nodup_iff.2 hnd, fun j => ?_⟩
  rw [hperm.mem_iff]
  unfold chainNbrs
  rw [List.mem_filter, List.mem_range, decide_eq_true_eq, Idx.cell_mk, Idx.alpha_mk]
  have hxd : (chainCells N keep).getD i 0 = x := by rw [List.getD_eq_getElem?_getD, hx]; rfl
  rw [hxd]
  constructor
  · rintro ⟨hj, h1, h2, h3⟩
    have hjx := List.getElem?_eq_getElem hj
    rw [List.getD_eq_getElem?_getD, hjx] at h1 h2 h3
    simp only [Option.getD_some] at h1 h2 h3
    generalize (chainCells N keep)[j] = y at *
    obtain ⟨inf, q1, -, q3⟩ := chain_query h.reach h.basis h.positions h.analysis h.configured
      (fun _ => (x : ℤ)) (k := ((y : ℤ) - x).natAbs - 1) (by omega)
    refine ⟨Idx.mk (fun _ => (y : ℤ)) 0, _, inf, by omega, ?_, q1, (q3 _).2 ⟨by
      rw [Idx.alpha_mk], ?_⟩⟩
    · rw [h.indices, List.getElem?_map, hjx]
      rfl
    · rw [Idx.cell_mk]
      omega
  · rintro ⟨b, k, inf, hk, hb, hinf, hmem⟩
    obtain ⟨inf', q1, -, q3⟩ := chain_query h.reach h.basis h.positions h.analysis h.configured
      (fun _ => (x : ℤ)) hk
    cases q1.symm.trans hinf
    rw [h.indices, List.getElem?_map, Option.map_eq_some_iff] at hb
    obtain ⟨y, hy, rfl⟩ := hb
    obtain ⟨-, h2⟩ := (q3 _).1 hmem
    rw [Idx.cell_mk] at h2
    have hyd : (chainCells N keep).getD j 0 = y := by rw [List.getD_eq_getElem?_getD, hy]; rfl
    rw [hyd]
    exact ⟨(List.getElem?_eq_some_iff.1 hy).1, by omega, by omega, by omega⟩

/-- The levels of a whole chain are those of the infinite chain. -/
theorem IsBuiltChain.levels_agree {env : Env ℝ} {nb N : ℕ} {w : World 1 ℝ}
    {A : Analysis 1 ℝ} {L : Lattice 1 ℝ} {D : LatticeData 1 ℝ} {table : List (List (ℕ × WithTop ℝ))}
    (h : IsBuiltChain env nb N (fun _ => true) w A L D table) (hN : nb ≤ N) :
    LevelsAgree nb w.struct L D := by
  have hcells : chainCells N (fun _ => true) = List.range (N + 1) := by
    unfold chainCells
    exact List.filter_eq_self.2 fun _ _ => rfl
  have hdv : D.distvals = ((List.range nb).map fun k => (((k + 1 : ℕ) : ℝ) : WithTop ℝ)) ++ [⊤] := by
    refine eq_of_sorted h.sorted ?_ ?_
    · rw [List.pairwise_append]
      refine ⟨?_, List.pairwise_singleton _ _, ?_⟩
      · rw [List.pairwise_map]
        refine List.pairwise_lt_range.imp fun h => ?_
        rw [WithTop.coe_lt_coe]
        exact_mod_cast Nat.succ_lt_succ h
      · intro x hx y hy
        obtain ⟨k, -, rfl⟩ := List.mem_map.1 hx
        rw [List.mem_singleton.1 hy]
        exact WithTop.coe_lt_top _
    · intro x
      rw [List.mem_append, List.mem_singleton, List.mem_map]
      rcases eq_or_ne x ⊤ with rfl | hx
      · exact ⟨fun _ => Or.inr rfl, fun _ => h.top⟩
      · obtain ⟨y, rfl⟩ := WithTop.ne_top_iff_exists.1 hx
        rw [h.mem_distvals, hcells]
        constructor
        · rintro ⟨a, -, b, -, h1, h2, rfl⟩
          refine Or.inl ⟨b - a - 1, List.mem_range.2 (by omega), ?_⟩
          rw [Nat.sub_add_cancel (by omega), Nat.cast_sub h1.le]
        · rintro (⟨k, hk, hk2⟩ | hk)
          · have hk := List.mem_range.1 hk
            refine ⟨0, List.mem_range.2 (by omega), k + 1, List.mem_range.2 (by omega), by omega, by
              omega, ?_⟩
            rw [← WithTop.coe_inj.1 hk2]
            simp
          · exact absurd hk hx
  intro i a k hi hk
  rw [h.indices, List.getElem?_map, Option.map_eq_some_iff] at hi
  obtain ⟨x, hx, rfl⟩ := hi
  have hil := (List.getElem?_eq_some_iff.1 hx).1
  obtain ⟨-, -, -, hlev⟩ := h.neighbors hil
  obtain ⟨l, hl, hperm⟩ := hlev k (k + 1) (by omega) (by omega) (by
    rw [hdv, List.getElem?_append_left (by rw [List.length_map, List.length_range]; exact hk),
      List.getElem?_map, List.getElem?_range hk]
    rfl)
  obtain ⟨inf, q1, -, q3⟩ := chain_query h.reach h.basis h.positions h.analysis h.configured
    (fun _ => (x : ℤ)) hk
  have hnd : (chainAt (chainCells N fun _ => true) (k + 1) i).Nodup := List.nodup_range.filter _
  refine ⟨l, inf, hl, hperm.nodup_iff.2 hnd, by rw [Idx.cell_mk, Idx.alpha_mk]; exact q1, fun j => ?_⟩
  rw [hperm.mem_iff]
  unfold chainAt
  have hxd : (chainCells N fun _ => true).getD i 0 = x := by
    rw [List.getD_eq_getElem?_getD, hx]; rfl
  rw [List.mem_filter, List.mem_range, decide_eq_true_eq, hxd]
  constructor
  · rintro ⟨hj, h1⟩
    have hjx := List.getElem?_eq_getElem hj
    rw [List.getD_eq_getElem?_getD, hjx] at h1
    simp only [Option.getD_some] at h1
    generalize (chainCells N fun _ => true)[j] = y at *
    refine ⟨Idx.mk (fun _ => (y : ℤ)) 0, ?_, (q3 _).2 ⟨by rw [Idx.alpha_mk], ?_⟩⟩
    · rw [h.indices, List.getElem?_map, hjx]
      rfl
    · rw [Idx.cell_mk]
      omega
  · rintro ⟨b, hb, hmem⟩
    rw [h.indices, List.getElem?_map, Option.map_eq_some_iff] at hb
    obtain ⟨y, hy, rfl⟩ := hb
    obtain ⟨-, h2⟩ := (q3 _).1 hmem
    rw [Idx.cell_mk] at h2
    have hyd : (chainCells N fun _ => true).getD j 0 = y := by
      rw [List.getD_eq_getElem?_getD, hy]; rfl
    rw [hyd]
    exact ⟨(List.getElem?_eq_some_iff.1 hy).1, by omega⟩

/-! ## property theorems -/

/-- C120 for the chain with lattice constant 1 and any number of shells that fits in a byte: the
infinite chain has at level `k` the two sites `k + 1` cells away; the neighbours of a site in any
finite part (any length, any sites dropped by a callback) are the neighbours of the infinite chain that
are there; and in a whole chain with more than `nb` sites also the levels agree. -/
theorem C120_chain_shells (env : Env ℝ) {nb : ℕ} (hnb : 0 < nb) (h255 : nb ≤ 255) :
    ∃ (w : World 1 ℝ) (c : ConnMatrix), Reachable env w ∧ w.struct.basis.vectors 0 0 = 1 ∧
      w.struct.positions = [0] ∧ w.struct.conn = some c ∧ c.entry 0 0 = nb ∧
      (∀ (n : Fin 1 → ℤ) (k : ℕ), k < nb → ∃ inf, w.struct.getNeighbors n 0 k = .ok inf ∧ inf.Nodup ∧
        ∀ b : Idx 1, b ∈ inf ↔ b.alpha = 0 ∧ (b.cell 0 - n 0).natAbs = k + 1) ∧
      (∀ (N : ℕ) (keep : ℕ → Bool), 0 < (chainCells N keep).length → ∃ L D,
        (Lattice.ofWorld w).build env (chainArgs N keep) = (L, .ok ()) ∧ L.data = some D ∧
        D.positions = (chainCells N keep).map (fun i : ℕ => fun _ => (i : ℝ)) ∧
        PartOfShells nb w.struct L D) ∧
      ∀ N : ℕ, nb ≤ N → ∃ L D,
        (Lattice.ofWorld w).build env (chainArgs N fun _ => true) = (L, .ok ()) ∧ L.data = some D ∧
        LevelsAgree nb w.struct L D := by
  obtain ⟨w, A, h⟩ := exists_isBuiltChains env hnb h255
  have hlen : ∀ N, 0 < (chainCells N fun _ => true).length := by
    intro N
    unfold chainCells
    rw [List.filter_eq_self.2 fun _ _ => rfl, List.length_range]
    omega
  obtain ⟨L0, D0, t0, h0⟩ := h 0 (fun _ => true) (hlen 0)
  obtain ⟨c, hc, -, hc1⟩ := h0.conn
  refine ⟨w, c, h0.reach, by rw [h0.basis, chain_vectors], h0.positions, hc, hc1,
    fun n k hk => chain_query h0.reach h0.basis h0.positions h0.analysis h0.configured n hk, ?_, ?_⟩
  · intro N keep hne
    obtain ⟨L, D, t, hL⟩ := h N keep hne
    exact ⟨L, D, hL.build, hL.data, hL.sites, hL.part⟩
  · intro N hN
    obtain ⟨L, D, t, hL⟩ := h N _ (hlen N)
    exact ⟨L, D, hL.build, hL.data, hL.levels_agree hN⟩

/-- Three shells, ten sites of which those at 3 and 4 are dropped. -/
example (env : Env ℝ) : ∃ (w : World 1 ℝ) (L : Lattice 1 ℝ) (D : LatticeData 1 ℝ),
    (Lattice.ofWorld w).build env (chainArgs 9 fun i => i != 3 && i != 4) = (L, .ok ()) ∧
    L.data = some D ∧ D.positions.length = 8 ∧ PartOfShells 3 w.struct L D := by
  obtain ⟨w, c, -, -, -, -, -, -, h, -⟩ := C120_chain_shells env (nb := 3) (by omega) (by omega)
  obtain ⟨L, D, h1, h2, h3, h4⟩ := h 9 (fun i => i != 3 && i != 4) (by decide)
  exact ⟨w, L, D, h1, h2, by rw [h3, List.length_map]; decide, h4⟩

/-- Level numbers: `neighbors(site, distidx)` of a finite lattice counts the distances that occur
in the lattice, `get_neighbors(nvec, alpha, distidx)` those of the infinite structure.  In the chain with two
shells of which only the sites at 0 and 2 are kept, the neighbour at level 0 of the first site is the
one at distance 2, which the infinite chain has at level 1 and not at level 0. -/
theorem C120_level_fails (env : Env ℝ) :
    ∃ (w : World 1 ℝ) (L : Lattice 1 ℝ) (D : LatticeData 1 ℝ) (inf0 inf1 : List (Idx 1)) (b : Idx 1),
      Reachable env w ∧ w.struct.basis.vectors 0 0 = 1 ∧ w.struct.positions = [0] ∧
      (Lattice.ofWorld w).build env (chainArgs 2 fun i => i != 1) = (L, .ok ()) ∧ L.data = some D ∧
      D.positions = [fun _ => 0, fun _ => 2] ∧ D.indices[0]? = some (Idx.mk 0 0) ∧
      D.indices[1]? = some b ∧ L.neighbors 0 (some 0) false = .ok [1] ∧
      w.struct.getNeighbors 0 0 0 = .ok inf0 ∧ b ∉ inf0 ∧
      w.struct.getNeighbors 0 0 1 = .ok inf1 ∧ b ∈ inf1 := by
  obtain ⟨w, A, h⟩ := exists_isBuiltChains env (nb := 2) (by omega) (by omega)
  obtain ⟨L, D, t, hL⟩ := h 2 (fun i => i != 1) (by decide)
  have hcells : chainCells 2 (fun i => i != 1) = [0, 2] := by decide
  obtain ⟨inf0, a1, -, a3⟩ := chain_query hL.reach hL.basis hL.positions hL.analysis hL.configured 0
    (k := 0) (by omega)
  obtain ⟨inf1, b1, -, b3⟩ := chain_query hL.reach hL.basis hL.positions hL.analysis hL.configured 0
    (k := 1) (by omega)
  have hdv : D.distvals = [((2 : ℝ) : WithTop ℝ), ⊤] := by
    refine eq_of_sorted hL.sorted (List.pairwise_pair.2 (WithTop.coe_lt_top _)) ?_
    intro x
    rcases eq_or_ne x ⊤ with rfl | hx
    · simp [hL.top]
    · obtain ⟨y, rfl⟩ := WithTop.ne_top_iff_exists.1 hx
      rw [hL.mem_distvals, hcells]
      simp
  obtain ⟨-, -, -, hlev⟩ := hL.neighbors (i := 0) (by rw [hcells]; decide)
  obtain ⟨l, hl, hperm⟩ := hlev 0 2 le_rfl (by omega) (by rw [hdv]; norm_num)
  have hat : chainAt (chainCells 2 fun i => i != 1) 2 0 = [1] := by rw [hcells]; decide
  rw [hat, List.perm_singleton] at hperm
  refine ⟨w, L, D, inf0, inf1, Idx.mk (fun _ => 2) 0, hL.reach, by rw [hL.basis, chain_vectors],
    hL.positions, hL.build, hL.data, ?_, ?_, ?_, by rw [hl, hperm], a1, ?_, b1, ?_⟩
  · rw [hL.sites, hcells]
    simp
  · rw [hL.indices, hcells]
    rfl
  · rw [hL.indices, hcells]
    rfl
  · rw [a3, Idx.cell_mk]
    rintro ⟨-, h⟩
    simp at h
  · rw [b3, Idx.cell_mk, Idx.alpha_mk]
    simp

end Lattpy
