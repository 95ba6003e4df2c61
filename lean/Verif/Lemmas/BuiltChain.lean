import Verif.Lemmas.ChainLattice
import Verif.Lemmas.BuiltData

/-!
# The built chain and its neighbour lists
-/

set_option autoImplicit false
set_option linter.unusedSectionVars false

namespace Lattpy

open Structure World

theorem set_sorted {d : ℕ} {K : Type*} [LinearOrder K] {indices : List (Idx d)}
    {positions : List (Vec d K)} {neighbors : List (List ℕ)} {distances : List (List (WithTop K))}
    {D : LatticeData d K} (h : LatticeData.set indices positions neighbors distances = .ok D) :
    D.distvals.Pairwise (· < ·) := by
  rcases set_cases indices positions neighbors distances with ⟨-, h'⟩ | ⟨-, D', h', -, -, -, h8, -⟩
  · rw [h] at h'; cases h'
  · rw [h] at h'
    cases h'
    rw [h8]
    exact npUnique_pairwise_lt _

theorem eq_of_sorted {α : Type*} [LinearOrder α] {l l' : List α} (h : l.Pairwise (· < ·))
    (h' : l'.Pairwise (· < ·)) (hm : ∀ x, x ∈ l ↔ x ∈ l') : l = l' :=
  List.Perm.eq_of_pairwise (le := (· < ·)) (fun _ _ _ _ h1 h2 => absurd h1 (lt_asymm h2)) h h'
    ((List.perm_ext_iff_of_nodup (h.imp fun h => ne_of_lt h) (h'.imp fun h => ne_of_lt h)).2 hm)

/-- The unit chain with `nb` neighbour shells, cells `0 … N` of which `keep` are kept, after
`build`. -/
structure IsBuiltChain (env : Env ℝ) (nb N : ℕ) (keep : ℕ → Bool) (w : World 1 ℝ)
    (A : Analysis 1 ℝ) (L : Lattice 1 ℝ) (D : LatticeData 1 ℝ)
    (table : List (List (ℕ × WithTop ℝ))) : Prop where
  reach : Reachable env w
  basis : w.struct.basis = chainBasis 1
  positions : w.struct.positions = [0]
  conn : ∃ c, w.struct.conn = some c ∧ c.size = 1 ∧ c.entry 0 0 = nb
  analysis : w.struct.analysis = some A
  build : (Lattice.ofWorld w).build env (chainArgs N keep) = (L, .ok ())
  world : L.world = w
  data : L.data = some D
  periodicAxes : L.periodicAxes = []
  primitive : L.primitive = some false
  shape : L.shape ≠ none
  indices : D.indices = (chainCells N keep).map (fun i : ℕ => Idx.mk (fun _ => (i : ℤ)) 0)
  sites : D.positions = (chainCells N keep).map (fun i : ℕ => fun _ => (i : ℝ))
  comp : computeNeighbors env w.struct D.indices D.positions = .ok table
  set : LatticeData.set D.indices D.positions (table.map fun r => r.map Prod.fst)
        (table.map fun r => r.map Prod.snd) = .ok D
  length : table.length = (chainCells N keep).length
  links : ∀ i j x, Linked table i j x ↔ ∃ a b : ℕ, (chainCells N keep)[i]? = some a ∧
        (chainCells N keep)[j]? = some b ∧ a ≠ b ∧ x = |(b : ℝ) - a| ∧ b ≤ a + nb ∧ a ≤ b + nb
  top : ⊤ ∈ D.distvals
  levels : D.distvals.length ≤ 256
  configured : ∀ x, Configured A 0 0 x ↔ ∃ m : ℕ, 0 < m ∧ m ≤ nb ∧ x = m
  raw : RawDistance A 1

theorem exists_isBuiltChain (env : Env ℝ) {nb : ℕ} (hnb : 0 < nb) (h255 : nb ≤ 255) (N : ℕ)
    (keep : ℕ → Bool) (hne : 0 < (chainCells N keep).length) :
    ∃ w A L D table, IsBuiltChain env nb N keep w A L D table := by
  obtain ⟨w, A, c, L, D, table, -, hr, hb, hp, hc, hcs, hc1, hA, hbuild, hw, hD, h1, h2, h3, hDi,
    hDp, hcomp, hset, htl, hlink, htop, h256, hconf, hraw⟩ := exists_built_chain env hnb h255 N keep hne
  exact ⟨w, A, L, D, table, hr, hb, hp, ⟨c, hc, hcs, hc1⟩, hA, hbuild, hw, hD, h1, h2, h3, hDi,
    hDp, hcomp, hset, htl, hlink, htop, h256, hconf, hraw⟩

/-- Chains of different lengths with the same unit cell. -/
theorem exists_isBuiltChains (env : Env ℝ) {nb : ℕ} (hnb : 0 < nb) (h255 : nb ≤ 255) :
    ∃ w A, ∀ (N : ℕ) (keep : ℕ → Bool), 0 < (chainCells N keep).length →
      ∃ L D table, IsBuiltChain env nb N keep w A L D table := by
  obtain ⟨w, A, c, h⟩ := exists_built_chains env hnb h255
  refine ⟨w, A, fun N keep hne => ?_⟩
  obtain ⟨L, D, table, -, hr, hb, hp, hc, hcs, hc1, hA, hbuild, hw, hD, h1, h2, h3, hDi,
    hDp, hcomp, hset, htl, hlink, htop, h256, hconf, hraw⟩ := h N keep hne
  exact ⟨L, D, table, hr, hb, hp, ⟨c, hc, hcs, hc1⟩, hA, hbuild, hw, hD, h1, h2, h3, hDi,
    hDp, hcomp, hset, htl, hlink, htop, h256, hconf, hraw⟩

/-- The neighbours of site `i` of a chain with sites in `cells`. -/
def chainNbrs (cells : List ℕ) (nb i : ℕ) : List ℕ :=
  (List.range cells.length).filter fun j => decide (cells.getD i 0 ≠ cells.getD j 0 ∧
    cells.getD j 0 ≤ cells.getD i 0 + nb ∧ cells.getD i 0 ≤ cells.getD j 0 + nb)

/-- The sites at distance `m` from site `i`. -/
def chainAt (cells : List ℕ) (m i : ℕ) : List ℕ :=
  (List.range cells.length).filter fun j => decide (cells.getD j 0 = cells.getD i 0 + m ∨
    cells.getD i 0 = cells.getD j 0 + m)

namespace IsBuiltChain

variable {env : Env ℝ} {nb N : ℕ} {keep : ℕ → Bool} {w : World 1 ℝ} {A : Analysis 1 ℝ}
  {L : Lattice 1 ℝ} {D : LatticeData 1 ℝ} {table : List (List (ℕ × WithTop ℝ))}

theorem distinct (h : IsBuiltChain env nb N keep w A L D table) : SitesDistinct w.struct := by
  refine cubic_distinct (p0 := 0) h.positions ?_
  rw [h.basis]
  ext i j
  rw [chain_vectors, Subsingleton.elim i j]
  simp

theorem numSites (h : IsBuiltChain env nb N keep w A L D table) :
    D.numSites = (chainCells N keep).length := by
  unfold LatticeData.numSites
  rw [h.indices, List.length_map]

theorem cells_nodup (N : ℕ) (keep : ℕ → Bool) : (chainCells N keep).Nodup :=
  List.nodup_range.filter _

theorem sites_nodup (h : IsBuiltChain env nb N keep w A L D table) : D.positions.Nodup := by
  rw [h.sites]
  refine (cells_nodup N keep).map ?_
  intro i j hij
  have : (i : ℝ) = j := congrFun hij 0
  exact_mod_cast this

theorem rows (h : IsBuiltChain env nb N keep w A L D table) :
    ∃ width, ∀ (i : ℕ) (row : List (ℕ × WithTop ℝ)), table[i]? = some row →
      row.length = width ∧ (row.map Prod.snd).Pairwise (· ≤ ·) ∧
      (∀ e ∈ row, e.2 = ⊤ → e.1 = D.positions.length) ∧
      (∀ e ∈ row, e.2 ≠ ⊤ → e.1 ≠ i ∧ e.1 < D.positions.length) ∧
      ((row.filter fun e => decide (e.2 ≠ ⊤)).map Prod.fst).Nodup :=
  C45_rows Nat.one_pos h.reach h.analysis D.indices D.positions
    (by rw [h.indices, h.sites, List.length_map, List.length_map]) h.sites_nodup h.comp

theorem rect (h : IsBuiltChain env nb N keep w A L D table) :
    ∃ width, D.Rect width ∧ D.Valid := by
  obtain ⟨D', hD', hr⟩ := build_rect Nat.one_pos (L := Lattice.ofWorld w) h.reach h.distinct
    (a := chainArgs N keep) rfl rfl rfl h.build
  rw [h.data] at hD'
  cases hD'
  exact hr h.top h.levels

theorem link_iff (h : IsBuiltChain env nb N keep w A L D table) {i : ℕ}
    (hi : i < (chainCells N keep).length) (j : ℕ) :
    (∃ x, Linked table i j x) ↔ j ∈ chainNbrs (chainCells N keep) nb i := by
  unfold chainNbrs
  rw [List.mem_filter, List.mem_range, decide_eq_true_eq]
  constructor
  · rintro ⟨x, hx⟩
    obtain ⟨a, b, h1, h2, h3, -, h4, h5⟩ := (h.links i j x).1 hx
    refine ⟨(List.getElem?_eq_some_iff.1 h2).1, ?_⟩
    rw [List.getD_eq_getElem?_getD, List.getD_eq_getElem?_getD, h1, h2]
    exact ⟨h3, h4, h5⟩
  · rintro ⟨hj, h3⟩
    rw [List.getD_eq_getElem?_getD, List.getD_eq_getElem?_getD, List.getElem?_eq_getElem hi,
      List.getElem?_eq_getElem hj] at h3
    exact ⟨_, (h.links i j _).2 ⟨_, _, List.getElem?_eq_getElem hi, List.getElem?_eq_getElem hj,
      h3.1, rfl, h3.2⟩⟩

/-- The neighbour lists of the chain. -/
theorem neighbors (h : IsBuiltChain env nb N keep w A L D table) {i : ℕ}
    (hi : i < (chainCells N keep).length) :
    ∃ l, L.neighbors i none false = .ok l ∧ l.Perm (chainNbrs (chainCells N keep) nb i) ∧
      ∀ n m : ℕ, m ≤ nb → 0 < m → D.distvals[n]? = some ((m : ℝ) : WithTop ℝ) →
        ∃ ln, L.neighbors i (some n) false = .ok ln ∧
          ln.Perm (chainAt (chainCells N keep) m i) := by
  have hi' : i < table.length := by rw [h.length]; exact hi
  obtain ⟨width, hrows⟩ := h.rows
  obtain ⟨l, h1, h2, h3, h4⟩ := neighbors_of_links h.set h.top h.levels hi'
    (hrows i _ (List.getElem?_eq_getElem hi')).2.2.2.2
  have hn : ∀ dist, L.neighbors i dist false = D.getNeighbors i dist none false := by
    intro dist
    unfold Lattice.neighbors
    rw [h.data]
  refine ⟨l, by rw [hn]; exact h1, ?_, ?_⟩
  · refine (List.perm_ext_iff_of_nodup h2 (List.nodup_range.filter _)).2 fun j => ?_
    rw [h3]
    exact h.link_iff hi j
  · intro n m hm hm0 hx
    obtain ⟨ln, g1, g2, g3⟩ := h4 n m hx
    refine ⟨ln, by rw [hn]; exact g1, ?_⟩
    refine (List.perm_ext_iff_of_nodup g2 (List.nodup_range.filter _)).2 fun j => ?_
    rw [g3, h.links, List.mem_filter, List.mem_range, decide_eq_true_eq]
    constructor
    · rintro ⟨a, b, e1, e2, e3, e4, e5⟩
      refine ⟨(List.getElem?_eq_some_iff.1 e2).1, ?_⟩
      rw [List.getD_eq_getElem?_getD, List.getD_eq_getElem?_getD, e1, e2]
      simp only [Option.getD_some]
      rcases le_total (a : ℝ) b with hab | hab
      · left
        rw [abs_of_nonneg (by linarith)] at e4
        have : (b : ℝ) = ((a + m : ℕ) : ℝ) := by push_cast; linarith
        exact_mod_cast this
      · right
        rw [abs_of_nonpos (by linarith)] at e4
        have : (a : ℝ) = ((b + m : ℕ) : ℝ) := by push_cast; linarith
        exact_mod_cast this
    · rintro ⟨hj, h3⟩
      rw [List.getD_eq_getElem?_getD, List.getD_eq_getElem?_getD, List.getElem?_eq_getElem hi,
        List.getElem?_eq_getElem hj] at h3
      simp only [Option.getD_some] at h3
      refine ⟨_, _, List.getElem?_eq_getElem hi, List.getElem?_eq_getElem hj, by omega, ?_, by omega,
        by omega⟩
      rcases h3 with h3 | h3
      · rw [h3]; push_cast; rw [add_sub_cancel_left, abs_of_nonneg (by positivity)]
      · rw [h3]; push_cast
        rw [sub_add_cancel_left, abs_neg, abs_of_nonneg (by positivity)]

/-- The number of links of each row. -/
theorem count (h : IsBuiltChain env nb N keep w A L D table) {i : ℕ}
    {row : List (ℕ × WithTop ℝ)} (hrow : table[i]? = some row) :
    (row.filter fun p => decide (p.2 ≠ ⊤)).length =
      (chainNbrs (chainCells N keep) nb i).length := by
  obtain ⟨width, hrows⟩ := h.rows
  have hi : i < (chainCells N keep).length := by
    rw [← h.length]; exact (List.getElem?_eq_some_iff.1 hrow).1
  have : ((row.filter fun p => decide (p.2 ≠ ⊤)).map Prod.fst).Perm
      (chainNbrs (chainCells N keep) nb i) := by
    refine (List.perm_ext_iff_of_nodup (hrows i row hrow).2.2.2.2
      (List.nodup_range.filter _)).2 fun j => ?_
    refine Iff.trans ?_ (h.link_iff hi j)
    rw [List.mem_map]
    constructor
    · rintro ⟨⟨j', y⟩, he, rfl⟩
      obtain ⟨he1, he2⟩ := List.mem_filter.1 he
      obtain ⟨x, rfl⟩ := WithTop.ne_top_iff_exists.1 (of_decide_eq_true he2)
      exact ⟨x, _, hrow, he1⟩
    · rintro ⟨x, row', hrow', he⟩
      rw [hrow] at hrow'
      cases hrow'
      exact ⟨_, List.mem_filter.2 ⟨he, by simp⟩, rfl⟩
  rw [← this.length_eq, List.length_map]

/-- The levels of the chain: the distances that occur, and infinity. -/
theorem mem_distvals (h : IsBuiltChain env nb N keep w A L D table) (x : ℝ) :
    (x : WithTop ℝ) ∈ D.distvals ↔ ∃ a ∈ chainCells N keep, ∃ b ∈ chainCells N keep, a < b ∧
      b ≤ a + nb ∧ x = b - a := by
  rw [Lattpy.mem_distvals h.set]
  constructor
  · rintro ⟨row, hrow, ⟨j, y⟩, he, hx⟩
    obtain ⟨i, hi⟩ := List.mem_iff_getElem?.1 hrow
    dsimp only at hx
    subst hx
    obtain ⟨a, b, h1, h2, h3, h4, h5, h6⟩ := (h.links i j x).1 ⟨row, hi, he⟩
    rcases lt_or_gt_of_ne h3 with hab | hab
    · refine ⟨a, List.mem_of_getElem? h1, b, List.mem_of_getElem? h2, hab, h5, ?_⟩
      have : (a : ℝ) < b := by exact_mod_cast hab
      rw [h4, abs_of_pos (by linarith)]
    · refine ⟨b, List.mem_of_getElem? h2, a, List.mem_of_getElem? h1, hab, h6, ?_⟩
      have : (b : ℝ) < a := by exact_mod_cast hab
      rw [h4, abs_of_neg (by linarith), neg_sub]
  · rintro ⟨a, ha, b, hb, h1, h2, rfl⟩
    obtain ⟨i, hi⟩ := List.mem_iff_getElem?.1 ha
    obtain ⟨j, hj⟩ := List.mem_iff_getElem?.1 hb
    obtain ⟨row, hrow, he⟩ := (h.links i j _).2 ⟨a, b, hi, hj, by omega, rfl, h2, by omega⟩
    have : (a : ℝ) < b := by exact_mod_cast h1
    refine ⟨row, List.mem_of_getElem? hrow, _, he, ?_⟩
    rw [abs_of_pos (by linarith)]

/-- The levels are sorted. -/
theorem sorted (h : IsBuiltChain env nb N keep w A L D table) : D.distvals.Pairwise (· < ·) :=
  set_sorted h.set

end IsBuiltChain

end Lattpy
