import Verif.Props.BlochWaves
import Verif.Props.PeriodicSound
import Verif.Props.Copy
import Verif.Props.RestrictShells

/-!
# The Hamiltonian of a ring with several neighbour shells (C125, C126)

The chain with `nb` neighbour shells and more than `2 nb` sites, made periodic.  The matrix filled with
one value per shell is the circulant matrix, and its eigenvalues on plane waves are the cosine bands.
-/

set_option autoImplicit false
set_option linter.unusedSectionVars false

namespace Lattpy

open Structure World LatticeData DataMap

/-- `j` is `m` steps away from `i` around the ring of `M` sites. -/
def RingSteps (M m i j : ℕ) : Prop := j = (i + m) % M ∨ i = (j + m) % M

instance (M m i j : ℕ) : Decidable (RingSteps M m i j) := by unfold RingSteps; infer_instance

theorem ringSteps_iff {M m i j : ℕ} (hm : m < M) (hi : i < M) (hj : j < M) :
    RingSteps M m i j ↔ j = i + m ∨ j + M = i + m ∨ i = j + m ∨ i + M = j + m := by
  unfold RingSteps
  have h1 : (i + m) % M = if i + m < M then i + m else i + m - M := by
    split
    · exact Nat.mod_eq_of_lt ‹_›
    · rw [Nat.mod_eq_sub_mod (by omega), Nat.mod_eq_of_lt (by omega)]
  have h2 : (j + m) % M = if j + m < M then j + m else j + m - M := by
    split
    · exact Nat.mod_eq_of_lt ‹_›
    · rw [Nat.mod_eq_sub_mod (by omega), Nat.mod_eq_of_lt (by omega)]
  rw [h1, h2]
  split <;> split <;> omega

namespace IsBuiltChain

variable {env : Env ℝ} {nb N : ℕ} {w : World 1 ℝ} {A : Analysis 1 ℝ} {L : Lattice 1 ℝ}
  {D : LatticeData 1 ℝ} {table : List (List (ℕ × WithTop ℝ))}

/-- The levels of a long chain are the distances `1 … nb`. -/
theorem ring_distvals (h : IsBuiltChain env nb N (fun _ => true) w A L D table) (hN : nb ≤ N) :
    D.distvals = (List.range nb).map (fun n : ℕ => (((n + 1 : ℕ) : ℝ) : WithTop ℝ)) ++ [⊤] := by
  have hs : ((List.range nb).map (fun n : ℕ => (((n + 1 : ℕ) : ℝ) : WithTop ℝ)) ++ [⊤]).Pairwise
      (· < ·) := by
    rw [List.pairwise_append]
    refine ⟨?_, List.pairwise_singleton _ _, ?_⟩
    · rw [List.pairwise_map]
      refine List.pairwise_lt_range.imp fun {a b} hab => ?_
      rw [WithTop.coe_lt_coe]
      exact_mod_cast Nat.succ_lt_succ hab
    · intro a ha b hb
      obtain ⟨n, -, rfl⟩ := List.mem_map.1 ha
      rw [List.mem_singleton.1 hb]
      exact WithTop.coe_lt_top _
  have hmem : ∀ x, x ∈ D.distvals ↔
      x ∈ (List.range nb).map (fun n : ℕ => (((n + 1 : ℕ) : ℝ) : WithTop ℝ)) ++ [⊤] := by
    intro x
    rw [List.mem_append, List.mem_map, List.mem_singleton]
    induction x with
    | top => exact ⟨fun _ => Or.inr rfl, fun _ => h.top⟩
    | coe x =>
      rw [h.mem_distvals, chainCells_true]
      constructor
      · rintro ⟨a, ha, b, hb, h1, h2, h3⟩
        refine Or.inl ⟨b - a - 1, List.mem_range.2 (by omega), ?_⟩
        rw [h3, WithTop.coe_inj, show b - a - 1 + 1 = b - a by omega, Nat.cast_sub h1.le]
      · rintro (⟨n, hn, e⟩ | e)
        · rw [List.mem_range] at hn
          rw [WithTop.coe_inj] at e
          exact ⟨0, List.mem_range.2 (by omega), n + 1, List.mem_range.2 (by omega), by omega,
            by omega, by rw [← e]; push_cast; ring⟩
        · exact absurd e (WithTop.coe_ne_top)
  exact ((List.perm_ext_iff_of_nodup h.sorted.nodup hs.nodup).2 hmem).eq_of_pairwise
    (fun a b _ _ h1 h2 => absurd (h1.trans h2) (lt_irrefl _)) h.sorted hs

/-- The regular neighbours at a level of the chain. -/
theorem ring_regAt (h : IsBuiltChain env nb N (fun _ => true) w A L D table) (hN : nb ≤ N)
    {i j n : ℕ} (hn : n < nb) (hr : RegAt D i j n) : j = i + (n + 1) ∨ i = j + (n + 1) := by
  obtain ⟨l, hl, hj⟩ := hr
  obtain ⟨hc, -, -, -, -, hlev⟩ := set_cols h.set h.top h.levels
  cases hk : table[i]? with
  | none =>
    have hn : D.neighbors[i]? = none := by rw [hc.nbr]; simp [hk]
    unfold LatticeData.getNeighbors neighborMask at hl
    rw [hn] at hl
    rcases D.distances[i]? with _ | x <;> simp at hl
  | some row =>
    rw [hc.getNeighbors i (row.map (builtEntry D.distvals)) (by rw [List.getElem?_map, hk]; rfl)]
      at hl
    cases hl
    obtain ⟨e, he, rfl⟩ := List.mem_map.1 hj
    obtain ⟨he, hs⟩ := List.mem_filter.1 he
    obtain ⟨⟨j, y⟩, hy, rfl⟩ := List.mem_map.1 he
    have hlv : searchsorted D.distvals y = n := by
      simp only [LatticeData.sel, builtEntry, levelSel_some, Bool.not_false, Bool.true_or,
        Bool.and_true, beq_self_eq_true] at hs
      exact of_decide_eq_true hs
    obtain ⟨g1, -⟩ := hlev row (List.mem_of_getElem? hk) _ hy
    dsimp only at g1
    rw [hlv, h.ring_distvals hN, List.getElem?_append_left (by simpa using hn), List.getElem?_map,
      List.getElem?_range hn] at g1
    cases g1
    obtain ⟨a, b, h1, h2, -, h4, -⟩ := (h.links i j _).1 ⟨row, hk, hy⟩
    rw [chainCells_true] at h1 h2
    have ha := (List.getElem?_eq_some_iff.1 h1).2
    have hb := (List.getElem?_eq_some_iff.1 h2).2
    rw [List.getElem_range] at ha hb
    rw [← ha, ← hb] at h4
    show j = i + (n + 1) ∨ i = j + (n + 1)
    rcases abs_cases ((j : ℝ) - i) with ⟨e, -⟩ | ⟨e, -⟩
    · left
      rw [e] at h4
      have : (j : ℝ) = ((i + (n + 1) : ℕ) : ℝ) := by push_cast at h4 ⊢; linarith
      exact_mod_cast this
    · right
      rw [e] at h4
      have : (i : ℝ) = ((j + (n + 1) : ℕ) : ℝ) := by push_cast at h4 ⊢; linarith
      exact_mod_cast this

end IsBuiltChain

/-- C64 for the shells of a ring with more than `2 nb` sites (compare `C64_level_fails`): the
neighbours of the shell `n` are the two sites `n + 1` steps away. -/
theorem C64_ring_levels_partial (env : Env ℝ) {nb N : ℕ} (hN : 2 * nb ≤ N) (hnb : 0 < nb)
    {w : World 1 ℝ} {A : Analysis 1 ℝ} {L : Lattice 1 ℝ} {D : LatticeData 1 ℝ}
    {table : List (List (ℕ × WithTop ℝ))}
    (h : IsBuiltChain env nb N (fun _ => true) w A L D table) :
    ∃ L', L.setPeriodic env (.axes [0]) = (L', .ok ()) ∧
      ∀ i < N + 1, ∀ n < nb, ∃ l, L'.neighbors i (some n) false = .ok l ∧ l.Nodup ∧
        ∀ j, j ∈ l ↔ j < N + 1 ∧ RingSteps (N + 1) (n + 1) i j := by
  obtain ⟨L', E, h1, h2, -, h3, h4, h5, h6⟩ := C64_ring_partial env hN hnb h
  refine ⟨L', h1, fun i hi n hn => ?_⟩
  have hrun : Lattice.run env (Lattice.ofWorld w) [.build (chainArgs N fun _ => true)] = L := by
    simp only [Lattice.run, List.foldl_cons, List.foldl_nil, Lattice.call]
    rw [h.build]
  have hrun' : Lattice.run env (Lattice.ofWorld w) [.build (chainArgs N fun _ => true),
      .setPeriodic (.axes [0])] = L' := by
    simp only [Lattice.run, List.foldl_cons, List.foldl_nil, Lattice.call]
    rw [h.build, h1]
  obtain ⟨E', hE', -, -, ⟨-, hreg⟩, -⟩ := C64_sound Nat.one_pos h.reach _ hrun h.data h.levels h.shape
    (.axes [0]) h1
  cases h2.symm.trans hE'
  obtain ⟨E', hE', hS⟩ := (Lattice.setPeriodic_frame env L (.axes [0])).2.2.2.2.2 D h.data
  rw [h1] at hE'
  cases h2.symm.trans hE'
  have hdv := h.ring_distvals (by omega)
  have hW := Lattice.run_weak Nat.one_pos h.reach _ (by rw [hrun']; exact h2)
    (by rw [hS.distvals]; exact h.levels)
  have hinv : E.invalidDistidx = nb := by
    have := hW.inv
    rw [hS.distvals, hdv] at this
    simpa using this
  have hinvD : D.invalidDistidx = nb := by rw [← hS.invalidDistidx, hinv]
  obtain ⟨t, ht⟩ := hW.table
  have c := ht.cols
  obtain ⟨row, hrow⟩ : ∃ row, t[i]? = some row := by
    refine ⟨_, List.getElem?_eq_getElem ?_⟩
    rw [ht.length, hS.numSites, h.numSites, chainCells_true]
    simpa using hi
  -- the steps of an entry
  have hstep : ∀ e ∈ row, e.level < nb → e.nbr < N + 1 →
      RingSteps (N + 1) (e.level + 1) i e.nbr := by
    intro e he hlv hlt
    rw [ringSteps_iff (by omega) hi hlt]
    cases hp : e.per with
    | false =>
      have := hreg i e.nbr e.level (by omega) ⟨_, c.getNeighbors i row hrow (some e.level)
        (some false) false, List.mem_map.2 ⟨e, List.mem_filter.2 ⟨he, by
          simp [LatticeData.sel, LatticeData.levelSel, hp]⟩, rfl⟩⟩
      have := h.ring_regAt (by omega) hlv this
      omega
    | true =>
      have hx : E.distvals[e.level]? = some (((e.level + 1 : ℕ) : ℝ) : WithTop ℝ) := by
        rw [hS.distvals, hdv, List.getElem?_append_left (by simpa using hlv), List.getElem?_map,
          List.getElem?_range hlv]
        rfl
      have hrow' : E.entries[i]? = some row := by rw [c.entries_eq]; exact hrow
      obtain ⟨-, -, k1, k2, -⟩ := (h6 i e.nbr e.nvec _).1 ⟨row, hrow', e, he, hp, rfl, rfl, hx⟩
      have k2' : ((e.level + 1 : ℕ) : ℤ) = |(i : ℤ) + e.nvec 0 - e.nbr| := by exact_mod_cast k2
      rcases abs_cases ((i : ℤ) + e.nvec 0 - e.nbr) with ⟨q, -⟩ | ⟨q, -⟩ <;> rw [q] at k2' <;>
        rcases k1 with k1 | k1 <;> omega
  obtain ⟨l, g1, g2, -, g4⟩ := h5 i hi
  have hall : L'.neighbors i none false = .ok ((row.filter fun e => decide (e.level < nb)).map
      Entry.nbr) := by
    unfold Lattice.neighbors
    rw [h2]
    dsimp only
    rw [c.getNeighbors i row hrow]
    congr 2
    refine List.filter_congr fun e _ => ?_
    simp [LatticeData.sel, hinv]
  cases g1.symm.trans hall
  refine ⟨(row.filter fun e => decide (e.level = n)).map Entry.nbr, ?_, ?_, ?_⟩
  · unfold Lattice.neighbors
    rw [h2]
    dsimp only
    rw [c.getNeighbors i row hrow]
    congr 2
    refine List.filter_congr fun e _ => ?_
    simp [LatticeData.sel, LatticeData.levelSel]
  · refine g2.sublist (List.Sublist.map _ ?_)
    refine List.monotone_filter_right _ fun e he => ?_
    have := of_decide_eq_true he
    exact decide_eq_true (by omega)
  · intro j
    constructor
    · intro hj
      obtain ⟨e, he, rfl⟩ := List.mem_map.1 hj
      obtain ⟨he, hs⟩ := List.mem_filter.1 he
      have hs := of_decide_eq_true hs
      have hlt := ((g4 e.nbr).1 (List.mem_map.2 ⟨e, List.mem_filter.2 ⟨he,
        decide_eq_true (by omega)⟩, rfl⟩)).1
      exact ⟨hlt, hs ▸ hstep e he (by omega) hlt⟩
    · rintro ⟨hj, hst⟩
      obtain ⟨e, he, rfl⟩ := List.mem_map.1 ((g4 j).2 ⟨hj, n + 1, by omega, by omega, hst⟩)
      obtain ⟨he, hs⟩ := List.mem_filter.1 he
      have hs := of_decide_eq_true hs
      have h1 := hstep e he hs hj
      rw [ringSteps_iff (by omega) hi hj] at h1 hst
      exact List.mem_map.2 ⟨e, List.mem_filter.2 ⟨he, decide_eq_true (by omega)⟩, rfl⟩

/-- The ring of seven sites with three shells. -/
example (env : Env ℝ) : ∃ w A L D table, IsBuiltChain env 3 6 (fun _ => true) w A L D table ∧
    ∃ L' l, L.setPeriodic env (.axes [0]) = (L', .ok ()) ∧
      L'.neighbors 0 (some 2) false = .ok l ∧ l.Perm [3, 4] := by
  obtain ⟨w, A, L, D, table, h⟩ := exists_isBuiltChain env (nb := 3) (by norm_num) (by norm_num) 6
    (fun _ => true) (by rw [chainCells_true]; norm_num)
  obtain ⟨L', h1, h2⟩ := C64_ring_levels_partial env (by norm_num) (by norm_num) h
  obtain ⟨l, h3, h4, h5⟩ := h2 0 (by norm_num) 2 (by norm_num)
  refine ⟨w, A, L, D, table, h, L', l, h1, h3, (List.perm_ext_iff_of_nodup h4 (by decide)).2
    fun j => ?_⟩
  rw [h5, List.mem_cons, List.mem_singleton]
  constructor
  · rintro ⟨g1, g2⟩
    rw [ringSteps_iff (by norm_num) (by norm_num) g1] at g2
    omega
  · rintro (rfl | rfl)
    · exact ⟨by norm_num, by decide⟩
    · exact ⟨by norm_num, by decide⟩

/-- C125 for a ring with `nb` neighbour shells and more than `2 nb` sites (compare
`C125_shells_fails`): the matrix filled with one value per shell is the circulant matrix of these
values.  It does not change if both sites are moved around the ring. -/
theorem C125_ring_partial (env : Env ℝ) {nb N : ℕ} (hN : 2 * nb ≤ N) (hnb : 0 < nb)
    {w : World 1 ℝ} {A : Analysis 1 ℝ} {L : Lattice 1 ℝ} {D : LatticeData 1 ℝ}
    {table : List (List (ℕ × WithTop ℝ))}
    (h : IsBuiltChain env nb N (fun _ => true) w A L D table)
    {β : Type*} [AddCommMonoid β] {assigns : List (Mask × β)} (hdoc : Documented assigns) :
    ∃ L' m data, L.setPeriodic env (.axes [0]) = (L', .ok ()) ∧
      (L'.dmap env.argsortNat).2 = .ok m ∧ m.fill assigns = .ok data ∧
      m.csrShape = .ok (N + 1, N + 1) ∧
      (∀ i j, i < N + 1 → j < N + 1 → m.csrEntry data i j =
        (if i = j then lastValue (ForSite 0) assigns else 0) + ∑ n ∈ Finset.range nb,
          if RingSteps (N + 1) (n + 1) i j then lastValue (ForLink n) assigns else 0) ∧
      ∀ i j s, i < N + 1 → j < N + 1 →
        m.csrEntry data ((i + s) % (N + 1)) ((j + s) % (N + 1)) = m.csrEntry data i j := by
  obtain ⟨L', h1, hlev⟩ := C64_ring_levels_partial env hN hnb h
  have hrun : Lattice.run env (Lattice.ofWorld w) [.build (chainArgs N fun _ => true),
      .setPeriodic (.axes [0])] = L' := by
    simp only [Lattice.run, List.foldl_cons, List.foldl_nil, Lattice.call]
    rw [h.build, h1]
  obtain ⟨E, hE, hS⟩ := (Lattice.setPeriodic_frame env L (.axes [0])).2.2.2.2.2 D h.data
  rw [h1] at hE
  have hE' := hE
  rw [← hrun] at hE'
  obtain ⟨hW, hF⟩ := Lattice.run_fresh Nat.one_pos h.reach _ hE'
    (by rw [hS.distvals]; exact h.levels) (by rw [hS.distvals]; exact h.top)
  have hinv : E.invalidDistidx = nb := by
    have := hW.inv
    rw [hS.distvals, h.ring_distvals (by omega)] at this
    simpa using this
  have hn : E.numSites = N + 1 := by
    rw [hS.numSites, h.numSites, chainCells_true, List.length_range]
  have hind : ∀ i < N + 1, E.indices[i]? = some (Idx.mk (fun _ => (i : ℤ)) 0) := by
    intro i hi
    rw [hS.indices, h.indices, chainCells_true, List.getElem?_map, List.getElem?_range hi]
    rfl
  have hal : ∀ x ∈ E.indices, Idx.alpha x = 0 := by
    rw [hS.indices, h.indices]
    intro x hx
    obtain ⟨i, -, rfl⟩ := List.mem_map.1 hx
    exact Idx.alpha_mk _ _
  obtain ⟨m, data, g1, g2, -, g4, g5⟩ := dmap_matrix (env := env) (assigns := assigns) hE hW hF
    (fun x hx => by rw [hal x hx]) (fun x hx => by rw [hal x hx]; norm_num) hdoc
  have key : ∀ i j, i < N + 1 → j < N + 1 → m.csrEntry data i j =
      (if i = j then lastValue (ForSite 0) assigns else 0) + ∑ n ∈ Finset.range nb,
        if RingSteps (N + 1) (n + 1) i j then lastValue (ForLink n) assigns else 0 := by
    intro i j hi hj
    obtain ⟨l, q1, q2⟩ := g5 i _ (hind i hi)
    rw [q2 j, hinv, Idx.alpha_mk]
    congr 1
    refine Finset.sum_congr rfl fun n hn => ?_
    obtain ⟨l', k1, k2, k3⟩ := hlev i hi n (Finset.mem_range.1 hn)
    cases k1.symm.trans (q1 n)
    by_cases hs : RingSteps (N + 1) (n + 1) i j
    · rw [if_pos hs, List.count_eq_one_of_mem k2 ((k3 j).2 ⟨hj, hs⟩), one_nsmul]
    · rw [if_neg hs, List.count_eq_zero.2 fun hc => hs ((k3 j).1 hc).2, zero_nsmul]
  refine ⟨L', m, data, h1, g1, g2, by rw [g4 (by omega), hn], key, fun i j s hi hj => ?_⟩
  have hmod : ∀ a, (a + s) % (N + 1) < N + 1 := fun a => Nat.mod_lt _ (by omega)
  rw [key _ _ (hmod i) (hmod j), key i j hi hj]
  have hmove : ∀ a b k, a < N + 1 → ((a + s) % (N + 1) = ((b + s) % (N + 1) + k) % (N + 1) ↔
      a = (b + k) % (N + 1)) := by
    intro a b k ha
    have h1 : ((b + s) % (N + 1) + k) % (N + 1) = (b + k + s) % (N + 1) := by
      rw [Nat.mod_add_mod, Nat.add_right_comm]
    rw [h1]
    constructor
    · intro e
      have : a ≡ b + k [MOD N + 1] := Nat.ModEq.add_right_cancel' s e
      rw [← Nat.mod_eq_of_lt ha]
      exact this
    · intro e
      rw [e, Nat.mod_add_mod]
  have hst : ∀ k, RingSteps (N + 1) k ((i + s) % (N + 1)) ((j + s) % (N + 1)) ↔
      RingSteps (N + 1) k i j := by
    intro k
    unfold RingSteps
    rw [hmove j i k hj, hmove i j k hi]
  have hd : (i + s) % (N + 1) = (j + s) % (N + 1) ↔ i = j := by
    have := hmove i j 0 hi
    rwa [add_zero, add_zero, Nat.mod_mod, Nat.mod_eq_of_lt hj] at this
  simp only [hst, hd]

/-- C126 for a ring with `nb` neighbour shells and more than `2 nb` sites: with the value `t n` of the
shell `n` the plane wave with the wave number `k` is an eigenvector with the eigenvalue
`ε + ∑ 2 t n cos ((n + 1) k)`. -/
theorem C126_ring_partial (env : Env ℝ) {nb N : ℕ} (hN : 2 * nb ≤ N) (hnb : 0 < nb)
    {w : World 1 ℝ} {A : Analysis 1 ℝ} {L : Lattice 1 ℝ} {D : LatticeData 1 ℝ}
    {table : List (List (ℕ × WithTop ℝ))}
    (h : IsBuiltChain env nb N (fun _ => true) w A L D table)
    {assigns : List (Mask × ℂ)} (hdoc : Documented assigns) :
    ∃ L' m data, L.setPeriodic env (.axes [0]) = (L', .ok ()) ∧
      (L'.dmap env.argsortNat).2 = .ok m ∧ m.fill assigns = .ok data ∧
      m.csrShape = .ok (N + 1, N + 1) ∧
      ∀ (k : ℝ) (z : ℤ) (ψ : ℕ → ℂ), ((N + 1 : ℕ) : ℝ) * k = 2 * Real.pi * z →
        IsPlaneWave D (fun _ => k) ψ → ∀ i < N + 1,
        ∑ j ∈ Finset.range (N + 1), m.csrEntry data i j * ψ j =
          (lastValue (ForSite 0) assigns + ∑ n ∈ Finset.range nb,
            lastValue (ForLink n) assigns * ((2 * Real.cos ((n + 1 : ℕ) * k) : ℝ) : ℂ)) * ψ i := by
  obtain ⟨L', m, data, h1, g1, g2, g3, key, -⟩ := C125_ring_partial env hN hnb h hdoc
  refine ⟨L', m, data, h1, g1, g2, g3, fun k z ψ hk hψ i hi => ?_⟩
  -- the wave on all numbers
  let f : ℕ → ℂ := fun j => Complex.exp (Complex.I * ((k * j : ℝ) : ℂ))
  have hf : ∀ j < N + 1, ψ j = f j := by
    intro j hj
    rw [hψ j (fun _ => (j : ℝ)) (by
      rw [h.sites, chainCells_true, List.getElem?_map, List.getElem?_range hj]; rfl)]
    simp only [planeWave, Fin.sum_univ_one]
    rfl
  have hadd : ∀ a b : ℕ, f (a + b) = f a * f b := by
    intro a b
    dsimp only [f]
    rw [← Complex.exp_add]
    congr 1
    push_cast
    ring
  have hone : f (N + 1) = 1 := by
    dsimp only [f]
    rw [mul_comm k, hk, ← Complex.exp_int_mul_two_pi_mul_I z]
    congr 1
    push_cast
    ring
  have hmod : ∀ a, f (a % (N + 1)) = f a := by
    have : Function.Periodic f (N + 1) := fun a => by rw [hadd, hone, mul_one]
    exact fun a => this.map_mod_nat a
  have hcos : ∀ n : ℕ, n ≤ N + 1 →
      f n + f (N + 1 - n) = ((2 * Real.cos (n * k) : ℝ) : ℂ) := by
    intro n hn
    have hinv : f (N + 1 - n) = Complex.exp (Complex.I * ((-(n * k) : ℝ) : ℂ)) := by
      have h0 : f (N + 1 - n) * f n = 1 := by rw [← hadd, Nat.sub_add_cancel hn, hone]
      have h2 : Complex.exp (Complex.I * ((-(n * k) : ℝ) : ℂ)) * f n = 1 := by
        dsimp only [f]
        rw [← Complex.exp_add, ← Complex.exp_zero]
        congr 1
        push_cast
        ring
      exact mul_right_cancel₀ (right_ne_zero_of_mul_eq_one h0) (h0.trans h2.symm)
    rw [hinv, ← two_cos]
    dsimp only [f]
    rw [mul_comm k]
  have hshell : ∀ n < nb, ∑ j ∈ Finset.range (N + 1),
      (if RingSteps (N + 1) (n + 1) i j then ψ j else 0) =
        ((2 * Real.cos ((n + 1 : ℕ) * k) : ℝ) : ℂ) * ψ i := by
    intro n hn
    have hset : (Finset.range (N + 1)).filter (fun j => RingSteps (N + 1) (n + 1) i j) =
        {(i + (n + 1)) % (N + 1), (i + (N + 1 - (n + 1))) % (N + 1)} := by
      have m1 : (i + (n + 1)) % (N + 1) = if i + (n + 1) < N + 1 then i + (n + 1) else
          i + (n + 1) - (N + 1) := by
        split
        · exact Nat.mod_eq_of_lt ‹_›
        · rw [Nat.mod_eq_sub_mod (by omega), Nat.mod_eq_of_lt (by omega)]
      have m2 : (i + (N + 1 - (n + 1))) % (N + 1) = if i + (N + 1 - (n + 1)) < N + 1 then
          i + (N + 1 - (n + 1)) else i + (N + 1 - (n + 1)) - (N + 1) := by
        split
        · exact Nat.mod_eq_of_lt ‹_›
        · rw [Nat.mod_eq_sub_mod (by omega), Nat.mod_eq_of_lt (by omega)]
      ext j
      rw [Finset.mem_filter, Finset.mem_range, Finset.mem_insert, Finset.mem_singleton, m1, m2]
      constructor
      · rintro ⟨hj, hs⟩
        rw [ringSteps_iff (by omega) hi hj] at hs
        split <;> split <;> omega
      · intro hs
        have hj : j < N + 1 := by
          split at hs <;> split at hs <;> omega
        refine ⟨hj, (ringSteps_iff (by omega) hi hj).2 ?_⟩
        split at hs <;> split at hs <;> omega
    have hne : (i + (n + 1)) % (N + 1) ≠ (i + (N + 1 - (n + 1))) % (N + 1) := by
      intro e
      have : n + 1 ≡ N + 1 - (n + 1) [MOD N + 1] := Nat.ModEq.add_left_cancel' i e
      have := Nat.ModEq.eq_of_lt_of_lt this (by omega) (by omega)
      omega
    rw [← Finset.sum_filter, hset, Finset.sum_pair hne, hf _ (Nat.mod_lt _ (by omega)),
      hf _ (Nat.mod_lt _ (by omega)), hmod, hmod, hadd i (n + 1), hadd i (N + 1 - (n + 1)), ← mul_add,
      hcos _ (by omega), hf i hi,
      mul_comm]
  calc ∑ j ∈ Finset.range (N + 1), m.csrEntry data i j * ψ j
      = ∑ j ∈ Finset.range (N + 1), ((if i = j then lastValue (ForSite 0) assigns * ψ j else 0) +
          ∑ n ∈ Finset.range nb, lastValue (ForLink n) assigns *
            (if RingSteps (N + 1) (n + 1) i j then ψ j else 0)) := by
        refine Finset.sum_congr rfl fun j hj => ?_
        rw [key i j hi (Finset.mem_range.1 hj), add_mul, ite_mul, zero_mul, Finset.sum_mul]
        congr 1
        refine Finset.sum_congr rfl fun n _ => ?_
        rw [ite_mul, zero_mul, mul_ite, mul_zero]
    _ = lastValue (ForSite 0) assigns * ψ i + ∑ n ∈ Finset.range nb,
          lastValue (ForLink n) assigns * (((2 * Real.cos ((n + 1 : ℕ) * k) : ℝ) : ℂ) * ψ i) := by
        rw [Finset.sum_add_distrib, Finset.sum_ite_eq, if_pos (Finset.mem_range.2 hi),
          Finset.sum_comm]
        congr 1
        refine Finset.sum_congr rfl fun n hn => ?_
        rw [← Finset.mul_sum, hshell n (Finset.mem_range.1 hn)]
    _ = _ := by
        rw [add_mul, Finset.sum_mul]
        congr 1
        exact Finset.sum_congr rfl fun n _ => by ring

/-- C88 for the shells of the chain: the weight of the shell `n` is `2 cos ((n + 1) k)`. -/
theorem C88_chain_shells_partial {env : Env ℝ} {nb N : ℕ} {keep : ℕ → Bool}
    {w : World 1 ℝ} {A : Analysis 1 ℝ} {L : Lattice 1 ℝ} {D : LatticeData 1 ℝ}
    {table : List (List (ℕ × WithTop ℝ))} (h : IsBuiltChain env nb N keep w A L D table) {n : ℕ}
    (hn : n < nb) :
    IsWeight w 0 n fun k => ((2 * Real.cos ((n + 1 : ℕ) * k 0) : ℝ) : ℂ) := by
  obtain ⟨l, hl, hnd, hmem⟩ := chain_query h.reach h.basis h.positions h.analysis h.configured 0 hn
  have hp0 : pyGet w.struct.positions 0 = some 0 := by rw [h.positions]; rfl
  have hperm : l.Perm [Idx.mk (fun _ => ((n + 1 : ℕ) : ℤ)) 0, Idx.mk (fun _ => -((n + 1 : ℕ) : ℤ)) 0] := by
    refine (List.perm_ext_iff_of_nodup hnd ?_).2 fun b => ?_
    · rw [List.nodup_cons, List.mem_singleton, Idx.mk_inj]
      refine ⟨fun e => ?_, List.nodup_singleton _⟩
      have := congrFun e.1 0
      omega
    · rw [hmem, List.mem_cons, List.mem_singleton]
      constructor
      · rintro ⟨h1, h2⟩
        have : b.cell 0 = ((n + 1 : ℕ) : ℤ) ∨ b.cell 0 = -((n + 1 : ℕ) : ℤ) := by
          simp only [Pi.zero_apply] at h2
          omega
        refine this.imp (fun e => ?_) (fun e => ?_) <;>
        · rw [← Idx.mk_cell_alpha b, h1]
          congr 1
          funext q
          rw [Subsingleton.elim q 0, e]
      · rintro (rfl | rfl) <;> rw [Idx.alpha_mk, Idx.cell_mk] <;> refine ⟨rfl, ?_⟩ <;>
          simp only [Pi.zero_apply] <;> omega
  intro k
  rw [weight_sum Nat.one_pos h.reach hl hp0 k]
  dsimp only
  rw [(hperm.map _).sum_eq]
  have hpos : w.struct.posOf 0 = 0 := posOf_eq (by rw [h.positions]; rfl)
  simp only [List.map_cons, List.map_nil, List.sum_cons, List.sum_nil, add_zero, phase, sitePoint,
    Idx.alpha_mk, Idx.cell_mk, Fin.sum_univ_one, Int.toNat_zero, hpos, Pi.zero_apply, zero_add,
    sub_zero, h.basis, chain_vectors]
  rw [← two_cos]
  congr 3
  · push_cast
    ring_nf
  · push_cast
    ring_nf

/-- C126 for all shells of a ring with more than `2 nb` sites: the eigenvalue of a plane wave is the
sum of the values of the shells times the weights that `fourier_weights` returns for them. -/
theorem C126_ring_weights_partial (env : Env ℝ) {nb N : ℕ} (hN : 2 * nb ≤ N) (hnb : 0 < nb)
    {w : World 1 ℝ} {A : Analysis 1 ℝ} {L : Lattice 1 ℝ} {D : LatticeData 1 ℝ}
    {table : List (List (ℕ × WithTop ℝ))}
    (h : IsBuiltChain env nb N (fun _ => true) w A L D table)
    {assigns : List (Mask × ℂ)} (hdoc : Documented assigns) :
    ∃ L' m data, L.setPeriodic env (.axes [0]) = (L', .ok ()) ∧
      (L'.dmap env.argsortNat).2 = .ok m ∧ m.fill assigns = .ok data ∧
      m.csrShape = .ok (N + 1, N + 1) ∧
      ∀ (k : ℝ) (z : ℤ) (ψ : ℕ → ℂ), ((N + 1 : ℕ) : ℝ) * k = 2 * Real.pi * z →
        IsPlaneWave D (fun _ => k) ψ → ∃ weight : ℕ → ℂ,
        (∀ n < nb, L'.struct.fourierWeights (.flat [k]) 0 n = .ok (weight n)) ∧
        ∀ i < N + 1, ∑ j ∈ Finset.range (N + 1), m.csrEntry data i j * ψ j =
          (lastValue (ForSite 0) assigns + ∑ n ∈ Finset.range nb,
            lastValue (ForLink n) assigns * weight n) * ψ i := by
  obtain ⟨L', m, data, h1, g1, g2, g3, g4⟩ := C126_ring_partial env hN hnb h hdoc
  refine ⟨L', m, data, h1, g1, g2, g3, fun k z ψ hk hψ => ⟨_, fun n hn => ?_, fun i hi =>
    g4 k z ψ hk hψ i hi⟩⟩
  have hw : L'.struct = w.struct := by
    have := setPeriodic_keeps_world env L (.axes [0])
    rw [h1, h.world] at this
    exact congrArg World.struct this
  rw [hw]
  exact C88_chain_shells_partial h hn fun _ => k

/-- The ring of seven sites with three shells and the wave with two oscillations. -/
example (env : Env ℝ) : ∃ w A L D table, IsBuiltChain env 3 6 (fun _ => true) w A L D table ∧
    ∃ L' m data, L.setPeriodic env (.axes [0]) = (L', .ok ()) ∧
      (L'.dmap env.argsortNat).2 = .ok m ∧
      m.fill [(.onsite none, (1 : ℂ)), (.hopping (some 0), 2), (.hopping (some 2), 3)] = .ok data ∧
      ∀ ψ : ℕ → ℂ, IsPlaneWave D (fun _ => 4 * Real.pi / 7) ψ →
        ∑ j ∈ Finset.range 7, m.csrEntry data 5 j * ψ j =
          (1 + (2 * ((2 * Real.cos (4 * Real.pi / 7) : ℝ) : ℂ) +
            3 * ((2 * Real.cos (3 * (4 * Real.pi / 7)) : ℝ) : ℂ))) * ψ 5  ∧
        L.struct.fourierWeights (.flat [4 * Real.pi / 7]) 0 2 =
          .ok ((2 * Real.cos (3 * (4 * Real.pi / 7)) : ℝ) : ℂ) := by
  obtain ⟨w, A, L, D, table, h⟩ := exists_isBuiltChain env (nb := 3) (by norm_num) (by norm_num) 6
    (fun _ => true) (by rw [chainCells_true]; norm_num)
  obtain ⟨L', m, data, h1, h2, h3, -, h4⟩ := C126_ring_partial env (by norm_num) (by norm_num) h
    (assigns := [(.onsite none, (1 : ℂ)), (.hopping (some 0), 2), (.hopping (some 2), 3)]) (by
      intro p hp
      simp only [List.mem_cons, List.not_mem_nil, or_false] at hp
      rcases hp with rfl | rfl | rfl
      · exact ⟨nofun, nofun⟩
      · exact ⟨nofun, fun a ha => by cases ha; rfl⟩
      · exact ⟨nofun, fun a ha => by cases ha; norm_num⟩)
  refine ⟨w, A, L, D, table, h, L', m, data, h1, h2, h3, fun ψ hψ => ?_⟩
  refine ⟨?_, by
    have := C88_chain_shells_partial h (n := 2) (by norm_num) fun _ => 4 * Real.pi / 7
    rw [Lattice.struct, h.world]
    exact_mod_cast this⟩
  refine (h4 (4 * Real.pi / 7) 2 ψ (by push_cast; ring) hψ 5 (by norm_num)).trans ?_
  simp [Finset.sum_range_succ, lastValue, ForSite, ForLink]
  left
  norm_num

end Lattpy
