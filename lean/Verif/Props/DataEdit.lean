import Verif.Lemmas.DataEdit
import Verif.Props.Data

/-! # Properties C50 – C54 (`data.py`: sorting, periodic neighbours, appending) -/

set_option autoImplicit false
set_option linter.unusedSectionVars false

namespace Lattpy
open LatticeData

variable {d : ℕ} {K : Type*}

/-! ## C50 sort -/

/-- C50 for any permutation (`sort(indices=perm)`): new site `k` is the old site `perm[k]` with
its indices, position and row; every entry keeps level, periodic flag, translation and axes and
names the same site under its new number; the neighbours reported for the new site are, in
order, the same sites as before. -/
theorem C50_reorder_relabelling {D : LatticeData d K} {w : ℕ} (h : D.Rect w) (hv : D.Valid)
    (perm : List ℕ) (hp : perm.Perm (List.range D.numSites)) :
    let E := D.reorder perm
    E.Rect w ∧ E.numSites = D.numSites ∧ E.distvals = D.distvals ∧
    E.invalidDistidx = D.invalidDistidx ∧
    ∀ k i, perm[k]? = some i →
      E.indices[k]? = D.indices[i]? ∧ E.positions[k]? = D.positions[i]? ∧
      (∃ r r', D.entries[i]? = some r ∧ E.entries[k]? = some r' ∧
        List.Forall₂ (fun (e' e : Entry d) =>
          ((e.nbr < D.numSites ∧ perm[e'.nbr]? = some e.nbr) ∨
            (e.nbr = D.numSites ∧ e'.nbr = D.numSites)) ∧
          e'.level = e.level ∧ e'.per = e.per ∧ e'.nvec = e.nvec ∧ e'.axes = e.axes) r' r) ∧
      ∀ distidx periodic, distidx ≠ some D.invalidDistidx →
        ∃ l l', D.getNeighbors i distidx periodic false = .ok l ∧
          E.getNeighbors k distidx periodic false = .ok l' ∧
          List.Forall₂ (fun m n => perm[m]? = some n) l' l := by
  intro E
  have hnd : perm.Nodup := hp.nodup_iff.2 List.nodup_range
  have hnum : E.numSites = D.numSites := gather_perm_length D.indices rfl hp
  have c : E.Cols _ := reorder_cols h perm
  have hrect : E.Rect w := by
    apply c.rect
    · rw [hnum]; exact gather_perm_length D.positions h.positions hp
    · rw [hnum, List.length_map, gather_perm_length D.entries h.entries_length hp]
    · intro r hr
      obtain ⟨q, hq, rfl⟩ := List.mem_map.1 hr
      rw [List.length_map]
      exact h.row_length q (mem_of_gather hq)
  have hrel : ∀ n < D.numSites, perm[relabel perm n]? = some n := by
    intro n hn
    have : n ∈ perm := hp.mem_iff.2 (by simpa using hn)
    obtain ⟨k, hk⟩ := List.mem_iff_getElem?.1 this
    rw [relabel_of_getElem? hnd hk, hk]
  refine ⟨hrect, hnum, rfl, rfl, ?_⟩
  intro k i hk
  have hi : i < D.numSites := by
    have := hp.mem_iff.1 (List.mem_of_getElem? hk); simpa using this
  obtain ⟨r, hr, hm⟩ := h.getElem?_entries hi
  have hrow : ((gather D.entries perm).map
      (List.map fun e => { e with nbr := relabel perm e.nbr }))[k]? =
      some (r.map fun e => { e with nbr := relabel perm e.nbr }) := by
    rw [List.getElem?_map, gather_of_perm_getElem? D.entries h.entries_length hp hk, hr]
    rfl
  refine ⟨gather_of_perm_getElem? D.indices rfl hp hk,
    gather_of_perm_getElem? D.positions h.positions hp hk, ?_, ?_⟩
  · refine ⟨r, _, hr, by rw [c.entries_eq]; exact hrow, ?_⟩
    rw [List.forall₂_map_left_iff, List.forall₂_same]
    intro e he
    refine ⟨?_, rfl, rfl, rfl, rfl⟩
    rcases hv.entry r hm e he with h1 | h1
    · exact Or.inl ⟨h1.2, hrel _ h1.2⟩
    · refine Or.inr ⟨h1.2.1, ?_⟩
      simp only
      rw [h1.2.1]
      apply relabel_of_not_mem hnd
      intro hmem
      have := hp.mem_iff.1 hmem
      simp at this
  · intro distidx periodic hd
    refine ⟨_, _, h.cols.getNeighbors i r hr distidx periodic false,
      c.getNeighbors k _ hrow distidx periodic false, ?_⟩
    rw [List.filter_map, List.map_map, List.forall₂_map_left_iff, List.forall₂_map_right_iff]
    have : (E.sel k distidx periodic false ∘ fun e : Entry d =>
        { e with nbr := relabel perm e.nbr }) = D.sel i distidx periodic false := by
      funext e
      simp [sel, E, reorder]
    rw [this, List.forall₂_same]
    intro e he
    obtain ⟨he1, he2⟩ := List.mem_filter.1 he
    apply hrel
    rcases hv.entry r hm e he1 with h1 | h1
    · exact h1.2
    · exfalso
      rcases distidx with _ | l
      · simp [sel, h1.1] at he2
      · have : D.invalidDistidx ≠ l := fun hh => hd (by rw [hh])
        simp [sel, h1.1, this] at he2

example : ([2, 0, 1] : List ℕ).Perm (List.range ring3.numSites) := by decide

theorem sortPerm_perm (D : LatticeData d K) (ax : Fin (d + 1)) (reverse : Bool) :
    (D.sortPerm ax reverse).Perm (List.range D.numSites) := by
  unfold sortPerm
  cases reverse
  · simp only [if_neg Bool.false_ne_true]; exact stableSortBy_perm _ _
  · simp only [if_true]
    exact (List.reverse_perm _).trans (stableSortBy_perm _ _)

/-- C50: `sort(ax, reverse)` reorders the sites by a permutation such that the column `ax` of the
indices is ascending (descending if reversed); the tables are relabelled as in
`C50_reorder_relabelling`. -/
theorem C50_sort_ordered {D : LatticeData d K} (ax : Fin (d + 1)) (reverse : Bool) :
    ∃ perm : List ℕ, perm.Perm (List.range D.numSites) ∧ D.sort ax reverse = D.reorder perm ∧
      ((D.sort ax reverse).indices.map fun v => v ax).Pairwise
        (fun x y => if reverse then y ≤ x else x ≤ y) := by
  have hp := sortPerm_perm D ax reverse
  refine ⟨D.sortPerm ax reverse, hp, rfl, ?_⟩
  have hg : (D.sort ax reverse).indices.map (fun v => v ax) =
      (D.sortPerm ax reverse).map fun i => (D.indices.getD i 0) ax := by
    show (gather D.indices _).map _ = _
    rw [gather_eq_map D.indices 0 _ (by
      intro i hi; have := hp.mem_iff.1 hi; simpa [numSites] using this), List.map_map]
    rfl
  rw [hg, List.pairwise_map]
  have hs := stableSortBy_pairwise (fun i => (D.indices.getD i 0) ax)
    (List.range D.indices.length)
  unfold sortPerm
  cases reverse
  · simpa using hs
  · simpa [List.pairwise_reverse] using hs

example : (ring3.sort 0 true).positions = [![2], ![1], ![0]] ∧
    (ring3.sort 0 true).getNeighbors 0 none (some true) false = .ok [2] := by
  constructor <;> decide +kernel

/-! ## C51 sort_neighbors -/

/-- C51: `sort_neighbors` keeps the sites, and every row is a permutation of the old row (with
levels, flags, translations and axes) in which the levels, hence the distances, ascend, so that
the invalid entries are last; whatever order `np.argsort` gives to ties. -/
theorem C51_sort_neighbors [LinearOrder K] (env : Env K) {D : LatticeData d K} {w : ℕ}
    (h : D.Rect w) (hv : D.Valid) (hdist : D.distvals.Pairwise (· < ·))
    (hlev : D.invalidDistidx < D.distvals.length) :
    let E := D.sortNeighbors env
    E.Rect w ∧ E.indices = D.indices ∧ E.positions = D.positions ∧ E.distvals = D.distvals ∧
    ∀ i < D.numSites, ∃ r r', D.entries[i]? = some r ∧ E.entries[i]? = some r' ∧ r'.Perm r ∧
      (r'.map Entry.level).Pairwise (· ≤ ·) ∧
      (∃ a b, r' = a ++ b ∧ (∀ e ∈ a, e.level < E.invalidDistidx) ∧
        ∀ e ∈ b, e.level = E.invalidDistidx) ∧
      ∀ distidx periodic unique, ∃ l l', D.getNeighbors i distidx periodic unique = .ok l ∧
        E.getNeighbors i distidx periodic unique = .ok l' ∧ l'.Perm l := by
  intro E
  have c : E.Cols _ := sortNeighbors_cols env h.cols
  have hperm : ∀ r : List (Entry d), (gather r (env.argsort (r.map fun e =>
      D.distvals.getD e.level ⊤))).Perm r := by
    intro r
    apply gather_perm
    have := (env.argsort_spec (r.map fun e => D.distvals.getD e.level ⊤)).1
    simpa using this
  have hrect : E.Rect w := by
    apply c.rect h.positions
    · rw [List.length_map]; exact h.entries_length
    · intro r hr
      obtain ⟨q, hq, rfl⟩ := List.mem_map.1 hr
      rw [(hperm q).length_eq]
      exact h.row_length q hq
  refine ⟨hrect, rfl, rfl, rfl, ?_⟩
  intro i hi
  obtain ⟨r, hr, hm⟩ := h.getElem?_entries hi
  set r' := gather r (env.argsort (r.map fun e => D.distvals.getD e.level ⊤)) with hr'
  have hrow : (D.entries.map fun r => gather r (env.argsort (r.map fun e =>
      D.distvals.getD e.level ⊤)))[i]? = some r' := by
    rw [List.getElem?_map, hr]; rfl
  have hle : ∀ e ∈ r, e.level ≤ D.invalidDistidx := by
    intro e he
    rcases hv.entry r hm e he with h1 | h1 <;> omega
  have hsorted : (r'.map Entry.level).Pairwise (· ≤ ·) := by
    have h2 := (env.argsort_spec (r.map fun e => D.distvals.getD e.level ⊤)).2
    have h3 : (r'.map fun e => D.distvals.getD e.level ⊤).Pairwise (· ≤ ·) := by
      rw [hr', ← gather_map]; exact h2
    rw [List.pairwise_map] at h3 ⊢
    refine h3.imp_of_mem ?_
    intro x y hx hy hxy
    have lx := hle x ((hperm r).mem_iff.1 hx)
    have ly := hle y ((hperm r).mem_iff.1 hy)
    by_contra hc
    have := List.pairwise_iff_getElem.1 hdist y.level x.level (by omega) (by omega) (by omega)
    have gx : D.distvals.getD x.level ⊤ = D.distvals[x.level]'(by omega) := by
      rw [List.getD_eq_getElem?_getD, List.getElem?_eq_getElem (by omega)]; rfl
    have gy : D.distvals.getD y.level ⊤ = D.distvals[y.level]'(by omega) := by
      rw [List.getD_eq_getElem?_getD, List.getElem?_eq_getElem (by omega)]; rfl
    rw [gx, gy] at hxy
    exact absurd hxy (not_le.2 this)
  refine ⟨r, r', hr, by rw [c.entries_eq]; exact hrow, hperm r, hsorted, ?_, ?_⟩
  · refine ⟨r'.takeWhile fun e => decide (e.level < D.invalidDistidx),
      r'.dropWhile fun e => decide (e.level < D.invalidDistidx),
      (List.takeWhile_append_dropWhile ..).symm, ?_, ?_⟩
    · intro e he
      have := List.all_eq_true.1 (List.all_takeWhile (l := r')
        (p := fun e : Entry d => decide (e.level < D.invalidDistidx))) e he
      show e.level < D.invalidDistidx
      simpa using this
    · intro e he
      have hle' : e.level ≤ D.invalidDistidx :=
        hle e ((hperm r).mem_iff.1 ((List.dropWhile_sublist _).subset he))
      have hsd : ((r'.dropWhile fun e => decide (e.level < D.invalidDistidx)).map
          Entry.level).Pairwise (· ≤ ·) :=
        hsorted.sublist ((List.dropWhile_sublist _).map _)
      cases hdw : r'.dropWhile fun e => decide (e.level < D.invalidDistidx) with
      | nil => rw [hdw] at he; simp at he
      | cons x xs =>
        have hx : ¬ x.level < D.invalidDistidx := by
          have := List.head_dropWhile_not (fun e : Entry d => decide (e.level < D.invalidDistidx))
            (by rw [hdw]; simp : r'.dropWhile _ ≠ [])
          simpa [hdw] using this
        rw [hdw, List.map_cons, List.pairwise_cons] at hsd
        rw [hdw] at he
        rcases List.mem_cons.1 he with rfl | he
        · show e.level = D.invalidDistidx
          omega
        · have := hsd.1 e.level (List.mem_map_of_mem he)
          show e.level = D.invalidDistidx
          omega
  · intro distidx periodic unique
    refine ⟨_, _, h.cols.getNeighbors i r hr distidx periodic unique,
      c.getNeighbors i _ hrow distidx periodic unique, ?_⟩
    exact ((hperm r).filter _).map _

example : ring3.distvals.Pairwise (· < ·) ∧ ring3.invalidDistidx < ring3.distvals.length := by
  constructor <;> decide +kernel

/-! ## C52 set_periodic / remove_periodic -/

/-- C52 (restricted to rows whose regular neighbours come first, enough free slots, stored
distances): `set_periodic` keeps the sites and all regular neighbours (at every level), the
periodic neighbours are exactly the given ones in order (at every level those with its
distance, with their translations and axes), and `remove_periodic` gives the same state as
without `set_periodic`. -/
theorem C52_set_periodic_partial [LinearOrder K] {D : LatticeData d K} {w : ℕ} (h : D.Rect w)
    (hv : D.Valid) (hdist : D.distvals.Pairwise (· < ·)) (items : List (ℕ × List (PLink d K)))
    (hnd : (items.map Prod.fst).Nodup)
    (hfit : ∀ p ∈ items, ∃ a b, D.entries[p.1]? = some (a ++ b) ∧
      (∀ e ∈ a, e.level < D.invalidDistidx ∧ e.per = false) ∧
      (∀ e ∈ b, e.level = D.invalidDistidx ∨ e.per = true) ∧ p.2.length ≤ b.length)
    (hlinks : ∀ p ∈ items, ∀ l ∈ p.2, ∃ k < D.invalidDistidx, D.distvals[k]? = some l.dist) :
    ∃ E, D.setPeriodic items = .ok E ∧ E.indices = D.indices ∧ E.positions = D.positions ∧
      E.distvals = D.distvals ∧ E.removePeriodic = D.removePeriodic ∧
      (∀ i < D.numSites, ∀ distidx, distidx ≠ some D.invalidDistidx → ∀ unique, ∃ reg,
        D.getNeighbors i distidx (some false) unique = .ok reg ∧
        E.getNeighbors i distidx (some false) unique = .ok reg) ∧
      (∀ i < D.numSites, i ∉ items.map Prod.fst →
        E.getNeighbors i none (some true) false = .ok []) ∧
      (∀ p ∈ items,
        E.getNeighbors p.1 none (some true) false = .ok (p.2.map PLink.nbr) ∧
        (∀ k x, k < D.invalidDistidx → D.distvals[k]? = some x →
          E.getNeighbors p.1 (some k) (some true) false =
            .ok ((p.2.filter fun l => decide (l.dist = x)).map PLink.nbr)) ∧
        ∃ r', E.entries[p.1]? = some r' ∧ List.Forall₂ (fun (e : Entry d) (l : PLink d K) =>
          e.nbr = l.nbr ∧ D.distvals[e.level]? = some l.dist ∧ e.nvec = l.nvec ∧
            l.axes <+: e.axes) (r'.filter Entry.per) p.2) := by
  set t0 := D.entries.map (List.map (clearEntry D.invalidIdx D.invalidDistidx)) with ht0
  obtain ⟨D0, hD0, c0, s1, s2, s3, s4, s5, s6⟩ := removePeriodic_cols h.cols
  have hlev : ∀ p ∈ items, ∀ l ∈ p.2,
      D.distvals[searchsorted D.distvals l.dist]? = some l.dist ∧
      searchsorted D.distvals l.dist < D.invalidDistidx := by
    intro p hp l hl
    obtain ⟨k, hk, hkd⟩ := hlinks p hp l hl
    rw [searchsorted_eq_of_getElem? hdist hkd]
    exact ⟨hkd, hk⟩
  -- rows after clearing
  have hclear : ∀ a b : List (Entry d), (∀ e ∈ a, e.level < D.invalidDistidx ∧ e.per = false) →
      (∀ e ∈ b, e.level = D.invalidDistidx ∨ e.per = true) →
      (∀ e ∈ a.map (clearEntry D.invalidIdx D.invalidDistidx),
        e.level < D0.invalidDistidx ∧ e.per = false) ∧
      (∀ e ∈ b.map (clearEntry D.invalidIdx D.invalidDistidx),
        D0.invalidDistidx ≤ e.level ∨ e.per = true) := by
    intro a b ha hb
    constructor
    · intro e he
      obtain ⟨x, hx, rfl⟩ := List.mem_map.1 he
      rw [s5]
      exact ⟨by simp [clearEntry, (ha x hx).2, (ha x hx).1], rfl⟩
    · intro e he
      obtain ⟨x, hx, rfl⟩ := List.mem_map.1 he
      rw [s5]
      left
      rcases hb x hx with h1 | h1 <;> simp [clearEntry, h1]
  have hrow0 : ∀ (i : ℕ) r, D.entries[i]? = some r →
      t0[i]? = some (r.map (clearEntry D.invalidIdx D.invalidDistidx)) := by
    intro i r hr; rw [ht0, List.getElem?_map, hr]; rfl
  obtain ⟨E, t', hE, c', l', o', n', u1, u2, u3, u4, u5, u6⟩ := setPeriodic_loop items c0 hnd (by
    intro p hp
    obtain ⟨a, b, h1, h2, h3, h4⟩ := hfit p hp
    obtain ⟨k1, k2⟩ := hclear a b h2 h3
    exact ⟨_, _, by rw [hrow0 _ _ h1, List.map_append], k1, k2, by simpa using h4⟩)
  have hset : D.setPeriodic items = .ok E := by
    unfold setPeriodic; rw [hD0]; exact hE
  have hnew : ∀ p ∈ items, ∀ a b, D.entries[p.1]? = some (a ++ b) →
      (∀ e ∈ a, e.level < D.invalidDistidx ∧ e.per = false) →
      (∀ e ∈ b, e.level = D.invalidDistidx ∨ e.per = true) → p.2.length ≤ b.length →
      t'[p.1]? = some (a.map (clearEntry D.invalidIdx D.invalidDistidx) ++
        linkEntries D.distvals (b.map (clearEntry D.invalidIdx D.invalidDistidx)) p.2 ++
        (b.map (clearEntry D.invalidIdx D.invalidDistidx)).drop p.2.length) := by
    intro p hp a b h1 h2 h3 h4
    obtain ⟨k1, k2⟩ := hclear a b h2 h3
    have := n' p hp _ _ (by rw [hrow0 _ _ h1, List.map_append]) k1 k2 (by simpa using h4)
    rw [this, s3]
  have hlinkmem : ∀ (old : List (Entry d)) (links : List (PLink d K)),
      ∀ e ∈ linkEntries D.distvals old links, e.per = true ∧
        ∃ l ∈ links, e.level = searchsorted D.distvals l.dist := by
    intro old links e he
    unfold linkEntries at he
    obtain ⟨k, hk, rfl⟩ := List.mem_iff_getElem.1 he
    simp only [List.getElem_zipWith]
    simp only [List.length_zipWith] at hk
    exact ⟨trivial, links[k], List.getElem_mem _, rfl⟩
  have hEsel : ∀ i distidx periodic unique,
      E.sel i distidx periodic unique = D.sel i distidx periodic unique := by
    intro i distidx periodic unique
    funext e
    simp only [sel, u5, s5]
  have hreg0 : ∀ i distidx, distidx ≠ some D.invalidDistidx → ∀ unique (r : List (Entry d)),
      ((r.map (clearEntry D.invalidIdx D.invalidDistidx)).filter
        (D.sel i distidx (some false) unique)).map Entry.nbr =
      (r.filter (D.sel i distidx (some false) unique)).map Entry.nbr := by
    intro i distidx hdi unique r
    induction r with
    | nil => rfl
    | cons e r ih =>
      rw [List.map_cons, List.filter_cons, List.filter_cons]
      cases hper : e.per
      · have hs : D.sel i distidx (some false) unique
            (clearEntry D.invalidIdx D.invalidDistidx e) = D.sel i distidx (some false) unique e := by
          simp [sel, clearEntry, hper]
        rw [hs]
        split
        · rw [List.map_cons, List.map_cons, ih]; simp [clearEntry, hper]
        · exact ih
      · have hs : D.sel i distidx (some false) unique
            (clearEntry D.invalidIdx D.invalidDistidx e) = false := by
          rcases distidx with _ | k
          · simp [sel, clearEntry, hper]
          · have : D.invalidDistidx ≠ k := fun hh => hdi (by rw [hh])
            simp [sel, clearEntry, hper, this]
        have hs2 : D.sel i distidx (some false) unique e = false := by simp [sel, hper]
        rw [hs, hs2]
        simpa using ih
  refine ⟨E, hset, u1.trans s1, u2.trans s2, u3.trans s3, ?_, ?_, ?_, ?_⟩
  · -- removing again
    obtain ⟨E0, hE0, ce, v1, v2, v3, v4, v5, v6⟩ := removePeriodic_cols c'
    rw [hE0, hD0]
    have htt : t'.map (List.map (clearEntry E.invalidIdx E.invalidDistidx)) = t0 := by
      apply List.ext_getElem?
      intro i
      rw [List.getElem?_map]
      have hcc : ∀ r : List (Entry d),
          (r.map (clearEntry D.invalidIdx D.invalidDistidx)).map
            (clearEntry D.invalidIdx D.invalidDistidx) =
          r.map (clearEntry D.invalidIdx D.invalidDistidx) := by
        intro r; simp [clearEntry, Function.comp_def]
      rw [u4, s4, u5, s5]
      by_cases hi : i ∈ items.map Prod.fst
      · obtain ⟨p, hp, rfl⟩ := List.mem_map.1 hi
        obtain ⟨a, b, h1, h2, h3, h4⟩ := hfit p hp
        have hrm : a ++ b ∈ D.entries := List.mem_of_getElem? h1
        rw [hnew p hp a b h1 h2 h3 h4, hrow0 _ _ h1]
        simp only [Option.map_some, Option.some.injEq, List.map_append]
        rw [hcc a, List.append_assoc]
        congr 1
        -- the written slots become what they were
        have hb' : b.map (clearEntry D.invalidIdx D.invalidDistidx) =
            List.replicate b.length ⟨D.invalidIdx, D.invalidDistidx, false, 0,
              List.replicate d d⟩ := by
          rw [List.eq_replicate_iff]
          refine ⟨by simp, ?_⟩
          intro e he
          obtain ⟨x, hx, rfl⟩ := List.mem_map.1 he
          rcases hv.entry _ hrm x (by simp [hx]) with q | q
          · rcases h3 x hx with q' | q'
            · omega
            · simp [clearEntry, q']
          · simp [clearEntry, q.1, q.2.1, hv.invalidIdx]
        have hl' : (linkEntries D.distvals (b.map (clearEntry D.invalidIdx D.invalidDistidx))
            p.2).map (clearEntry D.invalidIdx D.invalidDistidx) =
            List.replicate p.2.length ⟨D.invalidIdx, D.invalidDistidx, false, 0,
              List.replicate d d⟩ := by
          rw [List.eq_replicate_iff]
          refine ⟨by simp [linkEntries, h4], ?_⟩
          intro e he
          obtain ⟨x, hx, rfl⟩ := List.mem_map.1 he
          simp [clearEntry, (hlinkmem _ _ x hx).1]
        rw [hl', hb', List.drop_replicate, List.map_replicate]
        simp only [clearEntry, if_neg Bool.false_ne_true]
        rw [List.replicate_append_replicate]
        congr 1; omega
      · rw [o' i hi, ht0, List.getElem?_map, Option.map_map]
        congr 1
        funext r
        exact hcc r
    rw [htt] at ce
    have e1 := ce.nbr.trans c0.nbr.symm
    have e2 := ce.level.trans c0.level.symm
    have e3 := ce.per.trans c0.per.symm
    have e4 := ce.nvec.trans c0.nvec.symm
    have e5 := ce.axes.trans c0.axes.symm
    have e6 := v1.trans u1
    have e7 := v2.trans u2
    have e8 := v3.trans u3
    have e9 := v4.trans u4
    have e10 := v5.trans u5
    have e11 := v6.trans u6
    cases E0; cases D0
    simp only at e1 e2 e3 e4 e5 e6 e7 e8 e9 e10 e11
    subst e1 e2 e3 e4 e5 e6 e7 e8 e9 e10 e11
    rfl
  · intro i hi distidx hdi unique
    obtain ⟨r, hr, hm⟩ := h.getElem?_entries hi
    refine ⟨_, h.cols.getNeighbors i r hr distidx (some false) unique, ?_⟩
    by_cases hik : i ∈ items.map Prod.fst
    · obtain ⟨p, hp, rfl⟩ := List.mem_map.1 hik
      obtain ⟨a, b, h1, h2, h3, h4⟩ := hfit p hp
      obtain rfl : r = a ++ b := Option.some.inj (hr.symm.trans h1)
      rw [c'.getNeighbors _ _ (hnew p hp a b h1 h2 h3 h4), hEsel]
      congr 1
      rw [← hreg0 p.1 distidx hdi unique (a ++ b), List.map_append, List.filter_append,
        List.filter_append, List.filter_append]
      have hnil : (linkEntries D.distvals (b.map (clearEntry D.invalidIdx D.invalidDistidx))
          p.2).filter (D.sel p.1 distidx (some false) unique) = [] := by
        rw [List.filter_eq_nil_iff]
        intro e he
        simp [sel, (hlinkmem _ _ e he).1]
      have hnone : ∀ e ∈ b.map (clearEntry D.invalidIdx D.invalidDistidx),
          ¬ D.sel p.1 distidx (some false) unique e = true := by
        intro e he
        obtain ⟨x, hx, rfl⟩ := List.mem_map.1 he
        have : (clearEntry D.invalidIdx D.invalidDistidx x).level = D.invalidDistidx := by
          rcases h3 x hx with q | q <;> simp [clearEntry, q]
        rcases distidx with _ | k
        · simp [sel, this]
        · have hk : D.invalidDistidx ≠ k := fun hh => hdi (by rw [hh])
          simp [sel, this, hk]
      rw [hnil, List.filter_eq_nil_iff.2 hnone,
        List.filter_eq_nil_iff.2 fun e he => hnone e (List.mem_of_mem_drop he)]
      simp
    · rw [c'.getNeighbors i _ ((o' i hik).trans (hrow0 i r hr)), hEsel]
      congr 1
      exact hreg0 i distidx hdi unique r
  · intro i hi hik
    obtain ⟨r, hr, hm⟩ := h.getElem?_entries hi
    rw [c'.getNeighbors i _ ((o' i hik).trans (hrow0 i r hr))]
    rw [List.filter_eq_nil_iff.2]
    · rfl
    · intro e he
      obtain ⟨x, _, rfl⟩ := List.mem_map.1 he
      simp [sel, clearEntry]
  · intro p hp
    obtain ⟨a, b, h1, h2, h3, h4⟩ := hfit p hp
    have hrow := hnew p hp a b h1 h2 h3 h4
    set b' := b.map (clearEntry D.invalidIdx D.invalidDistidx) with hb'
    have hlb : p.2.length ≤ b'.length := by simpa [hb'] using h4
    have hper : ∀ x : List (Entry d), ∀ e ∈ x.map (clearEntry D.invalidIdx D.invalidDistidx),
        e.per = false := by
      intro x e he
      obtain ⟨y, _, rfl⟩ := List.mem_map.1 he
      rfl
    have hfilt : ∀ q : Entry d → Bool, (∀ e, q e = true → e.per = true) →
        (a.map (clearEntry D.invalidIdx D.invalidDistidx) ++ linkEntries D.distvals b' p.2 ++
          b'.drop p.2.length).filter q = (linkEntries D.distvals b' p.2).filter q := by
      intro q hq
      have n1 : (b'.drop p.2.length).filter q = [] := by
        rw [List.filter_eq_nil_iff]
        intro e he hqe
        have := hper b e (List.mem_of_mem_drop he)
        rw [hq e hqe] at this; simp at this
      have n2 : (a.map (clearEntry D.invalidIdx D.invalidDistidx)).filter q = [] := by
        rw [List.filter_eq_nil_iff]
        intro e he hqe
        have := hper a e he
        rw [hq e hqe] at this; simp at this
      rw [List.filter_append, List.filter_append, n1, n2]
      simp
    have hselper : ∀ distidx, ∀ e, D.sel p.1 distidx (some true) false e = true → e.per = true := by
      intro distidx e he
      simp only [sel, Bool.and_eq_true, beq_iff_eq] at he
      exact he.2
    -- the list of written entries, as image of the links
    have hgen : ∀ (links : List (PLink d K)) (old : List (Entry d)), links.length ≤ old.length →
        ∀ (q : Entry d → Bool) (q' : PLink d K → Bool),
        (∀ l ∈ links, ∀ o : Entry d, q ⟨l.nbr, searchsorted D.distvals l.dist, true, l.nvec,
          writeAxes o.axes l.axes⟩ = q' l) →
        ((linkEntries D.distvals old links).filter q).map Entry.nbr =
          (links.filter q').map PLink.nbr := by
      intro links
      induction links with
      | nil => intro old _ q q' _; simp [linkEntries]
      | cons l links ih =>
        intro old hlen q q' hq
        cases old with
        | nil => simp at hlen
        | cons o old =>
          simp only [List.length_cons, Nat.add_le_add_iff_right] at hlen
          have := ih old hlen q q' fun l hl => hq l (by simp [hl])
          have h0 := hq l (by simp) o
          unfold linkEntries at this ⊢
          rw [List.zipWith_cons_cons, List.filter_cons, List.filter_cons, h0]
          split
          · rw [List.map_cons, List.map_cons, this]
          · exact this
    refine ⟨?_, ?_, ?_⟩
    · rw [c'.getNeighbors _ _ hrow, hEsel, hfilt _ (hselper none)]
      rw [hgen p.2 b' hlb _ (fun _ => true)]
      · simp
      · intro l hl o
        simp [sel, (hlev p hp l hl).2]
    · intro k x hk hx
      rw [c'.getNeighbors _ _ hrow, hEsel, hfilt _ (hselper (some k))]
      rw [hgen p.2 b' hlb _ (fun l => decide (l.dist = x))]
      intro l hl o
      have hll := (hlev p hp l hl).1
      simp only [sel, levelSel_some, Bool.not_false, Bool.true_or, Bool.and_true, beq_self_eq_true]
      congr 1
      apply propext
      constructor
      · intro hh
        rw [hh, hx] at hll
        exact (Option.some.inj hll).symm
      · rintro rfl
        exact searchsorted_eq_of_getElem? hdist hx
    · refine ⟨_, by rw [c'.entries_eq]; exact hrow, ?_⟩
      rw [hfilt _ fun e he => he, List.filter_eq_self.2 fun e he => (hlinkmem _ _ e he).1]
      have : ∀ (links : List (PLink d K)) (old : List (Entry d)), links.length ≤ old.length →
          (∀ l ∈ links, D.distvals[searchsorted D.distvals l.dist]? = some l.dist) →
          List.Forall₂ (fun (e : Entry d) (l : PLink d K) =>
            e.nbr = l.nbr ∧ D.distvals[e.level]? = some l.dist ∧ e.nvec = l.nvec ∧
              l.axes <+: e.axes) (linkEntries D.distvals old links) links := by
        intro links
        induction links with
        | nil => intro old _ _; simp [linkEntries]
        | cons l links ih =>
          intro old hlen hd
          cases old with
          | nil => simp at hlen
          | cons o old =>
            simp only [List.length_cons, Nat.add_le_add_iff_right] at hlen
            refine List.Forall₂.cons ⟨rfl, hd l (by simp), rfl, ?_⟩
              (ih old hlen fun l hl => hd l (by simp [hl]))
            simp [writeAxes, writeSlice]
      exact this p.2 b' hlb fun l hl => (hlev p hp l hl).1

theorem chain4_rect : chain4.Rect 2 :=
  ⟨rfl, ⟨rfl, by decide⟩, ⟨rfl, by decide⟩, ⟨rfl, by decide⟩,
    ⟨rfl, by intro r hr; simp [chain4] at hr; rw [hr]; rfl⟩,
    ⟨rfl, by decide⟩⟩

theorem chain4_valid : chain4.Valid := by
  refine ⟨rfl, ?_⟩
  intro r hr e he
  simp only [entries, chain4, zipTable, zipRow, List.mem_cons, List.not_mem_nil, or_false] at hr
  rcases hr with rfl | rfl | rfl | rfl <;>
    (simp only [List.mem_cons, List.not_mem_nil, or_false] at he
     rcases he with rfl | rfl <;> simp [chain4, numSites])

/-- The periodic neighbours of a chain of four sites. -/
def chain4Items : List (ℕ × List (PLink 1 ℚ)) :=
  [(0, [⟨3, 1, ![-1], [0]⟩]), (3, [⟨0, 1, ![1], [0]⟩])]

example : chain4.distvals.Pairwise (· < ·) ∧ (chain4Items.map Prod.fst).Nodup ∧
    (∀ p ∈ chain4Items, ∃ a b, chain4.entries[p.1]? = some (a ++ b) ∧
      (∀ e ∈ a, e.level < chain4.invalidDistidx ∧ e.per = false) ∧
      (∀ e ∈ b, e.level = chain4.invalidDistidx ∨ e.per = true) ∧ p.2.length ≤ b.length) ∧
    (∀ p ∈ chain4Items, ∀ l ∈ p.2, ∃ k < chain4.invalidDistidx,
      chain4.distvals[k]? = some l.dist) := by
  refine ⟨by decide +kernel, by decide, ?_, ?_⟩
  · intro p hp
    simp only [chain4Items, List.mem_cons, List.not_mem_nil, or_false] at hp
    rcases hp with rfl | rfl
    · exact ⟨[⟨1, 0, false, 0, [0]⟩], [⟨4, 1, false, 0, [0]⟩], rfl, by simp [chain4],
        by simp [chain4], by simp⟩
    · exact ⟨[⟨2, 0, false, 0, [0]⟩], [⟨4, 1, false, 0, [0]⟩], rfl, by simp [chain4],
        by simp [chain4], by simp⟩
  · intro p hp l hl
    simp only [chain4Items, List.mem_cons, List.not_mem_nil, or_false] at hp
    rcases hp with rfl | rfl <;>
      (simp only [List.mem_cons, List.not_mem_nil, or_false] at hl; subst hl
       exact ⟨0, by decide, rfl⟩)

example : ∃ E, chain4.setPeriodic chain4Items = .ok E ∧
    E.getNeighbors 0 none (some false) false = .ok [1] ∧
    E.getNeighbors 0 none (some true) false = .ok [3] ∧
    E.getNeighbors 3 none none false = .ok [2, 0] :=
  ⟨_, rfl, by decide +kernel, by decide +kernel, by decide +kernel⟩

/-- C52, removal: from data without periodic flags `remove_periodic` changes no neighbour. -/
theorem C52_remove_periodic_noop {D : LatticeData d K} {w : ℕ} (h : D.Rect w)
    (hper : ∀ r ∈ D.pmask, ∀ b ∈ r, b = false) :
    ∃ E, D.removePeriodic = .ok E ∧ E.indices = D.indices ∧ E.positions = D.positions ∧
      E.neighbors = D.neighbors ∧ E.distances = D.distances ∧ E.pmask = D.pmask ∧
      E.distvals = D.distvals := by
  have c := h.cols
  obtain ⟨E, hE, ce, s1, s2, s3, s4, s5, s6⟩ := removePeriodic_cols c
  have hp : ∀ r ∈ D.entries, ∀ e ∈ r, e.per = false := by
    intro r hr e he
    refine hper (r.map Entry.per) ?_ _ (List.mem_map_of_mem he)
    rw [c.per]; exact List.mem_map_of_mem hr
  have key : ∀ {β : Type} (f : Entry d → β),
      (∀ e : Entry d, e.per = false → f (clearEntry D.invalidIdx D.invalidDistidx e) = f e) →
      (D.entries.map (List.map (clearEntry D.invalidIdx D.invalidDistidx))).map (List.map f) =
      D.entries.map (List.map f) := by
    intro β f hf
    rw [List.map_map]
    apply List.map_congr_left
    intro r hr
    simp only [Function.comp_apply, List.map_map]
    apply List.map_congr_left
    intro e he
    exact hf e (hp r hr e he)
  refine ⟨E, hE, s1, s2, ?_, ?_, ?_, s3⟩
  · rw [ce.nbr, c.nbr]; exact key _ fun e he => by simp [clearEntry, he]
  · rw [ce.level, c.level]; exact key _ fun e he => by simp [clearEntry, he]
  · rw [ce.per, c.per]; exact key _ fun e he => by simp [clearEntry, he]

example : ∀ r ∈ chain4.pmask, ∀ b ∈ r, b = false := by decide

/-- Three sites where site 0 has a gap before its only neighbour. -/
def gap3 : LatticeData 1 ℚ where
  indices := [![0, 0], ![1, 0], ![2, 0]]
  positions := [![0], ![1], ![2]]
  neighbors := [[3, 1], [0, 2], [1, 3]]
  distances := [[1, 0], [0, 0], [0, 1]]
  distvals := [1, ⊤]
  pnvecs := [[0, 0], [0, 0], [0, 0]]
  pmask := [[false, false], [false, false], [false, false]]
  paxes := [[[0], [0]], [[0], [0]], [[0], [0]]]
  invalidIdx := 3
  invalidDistidx := 1
  dmap := none

/-- C52 fails for a row with a gap: the periodic neighbour overwrites the regular one, and
removing it again does not bring the regular neighbour back. -/
theorem C52_gap_fails :
    gap3.getNeighbors 0 none none false = .ok [1] ∧
    ∃ E F, gap3.setPeriodic [(0, [⟨2, 1, ![-1], [0]⟩])] = .ok E ∧
      E.getNeighbors 0 none (some false) false = .ok [] ∧
      E.removePeriodic = .ok F ∧ F.getNeighbors 0 none none false = .ok [] :=
  ⟨by decide +kernel, _, _, rfl, by decide +kernel, rfl, by decide +kernel⟩

/-- C52 fails for a full row: one periodic neighbour is dropped silently, two raise
`ValueError`. -/
theorem C52_overflow_fails :
    (∃ E, chain4.setPeriodic [(1, [⟨3, 1, ![-1], [0]⟩])] = .ok E ∧
      E.getNeighbors 1 none (some true) false = .ok []) ∧
    chain4.setPeriodic [(1, [⟨3, 1, ![-1], [0]⟩, ⟨0, 1, ![1], [0]⟩])] = .error .value :=
  ⟨⟨_, rfl, by decide +kernel⟩, rfl⟩

/-! ## C53 append -/

theorem linksOf_of_row {D : LatticeData d K} {t : List (List (Entry d))} (c : D.Cols t) {i : ℕ}
    {r : List (Entry d)} (hr : t[i]? = some r) :
    D.linksOf i = (r.filter fun e => decide (e.level < D.invalidDistidx)).map fun e =>
      (e.nbr, D.distvals[e.level]?) := by
  unfold linksOf
  rw [c.entries_eq, List.getD_eq_getElem?_getD, hr]
  rfl

/-- The first components of `linksOf` are what `get_neighbors(i)` returns. -/
theorem getNeighbors_linksOf {D : LatticeData d K} {t : List (List (Entry d))} (c : D.Cols t)
    {i : ℕ} {r : List (Entry d)} (hr : t[i]? = some r) :
    D.getNeighbors i none none false = .ok ((D.linksOf i).map Prod.fst) := by
  rw [c.getNeighbors i r hr, linksOf_of_row c hr, List.map_map]
  congr 1
  have : D.sel i none none false = fun e => decide (e.level < D.invalidDistidx) := by
    funext e; simp [sel]
  rw [this]
  rfl

/-- A table of `N` rows of width `w` without periodic neighbours and without gaps, over sorted
distances of which the one at the invalid level is infinite. -/
structure LatticeData.Open [LinearOrder K] (D : LatticeData d K) (N w : ℕ) : Prop where
  cols : D.Cols D.entries
  length : D.entries.length = N
  rows : ∀ r ∈ D.entries, r.length = w ∧ D.PackedRow r ∧ ∀ e ∈ r, e.per = false
  sorted : D.distvals.Pairwise (· < ·)
  top : D.distvals[D.invalidDistidx]? = some ⊤

theorem packed_of_sorted [LinearOrder K] {D : LatticeData d K} : ∀ {r : List (Entry d)},
    (r.map fun e => D.distvals.getD e.level ⊤).Pairwise (· ≤ ·) →
    (∀ e ∈ r, e.level ≤ D.invalidDistidx ∧
      (e.level < D.invalidDistidx ↔ D.distvals.getD e.level ⊤ ≠ ⊤)) → D.PackedRow r
  | [], _, _ => ⟨[], [], rfl, by simp, by simp⟩
  | e :: r, h, hl => by
    rw [List.map_cons, List.pairwise_cons] at h
    by_cases he : e.level < D.invalidDistidx
    · obtain ⟨a, b, h1, h2, h3⟩ := packed_of_sorted h.2 fun x hx => hl x (by simp [hx])
      refine ⟨e :: a, b, by rw [h1]; rfl, ?_, h3⟩
      intro x hx
      rcases List.mem_cons.1 hx with rfl | hx
      · exact he
      · exact h2 x hx
    · refine ⟨[], e :: r, rfl, by simp, ?_⟩
      have htop : D.distvals.getD e.level ⊤ = ⊤ := by
        by_contra hc
        exact he ((hl e (by simp)).2.2 hc)
      intro x hx
      obtain ⟨g1, g2⟩ := hl x hx
      refine le_antisymm g1 ?_
      by_contra hlt
      have h4 := g2.1 (not_le.1 hlt)
      rcases List.mem_cons.1 hx with rfl | hx
      · exact h4 htop
      · have h5 := h.1 _ (List.mem_map_of_mem hx)
        rw [htop] at h5
        exact h4 (top_le_iff.1 h5)

/-- Storing a table of (neighbour, distance) pairs and sorting the rows. -/
theorem set_sort_links [LinearOrder K] (env : Env K) (indices : List (Fin (d + 1) → ℤ))
    (positions : List (Vec d K)) (tJ : List (List (ℕ × WithTop K)))
    {w : ℕ} (hw : ∀ row ∈ tJ, row.length = w)
    (hinf : ⊤ ∈ (tJ.map (List.map Prod.snd)).flatten)
    (h256 : (tJ.map (List.map Prod.snd)).flatten.dedup.length ≤ 256) :
    ∃ E, LatticeData.set indices positions (tJ.map (List.map Prod.fst))
        (tJ.map (List.map Prod.snd)) = .ok E ∧
      (E.sortNeighbors env).indices = indices ∧ (E.sortNeighbors env).positions = positions ∧
      (E.sortNeighbors env).distvals = npUnique (tJ.map (List.map Prod.snd)).flatten ∧
      (E.sortNeighbors env).invalidIdx = indices.length ∧
      (E.sortNeighbors env).Open tJ.length w ∧
      ∀ i row, tJ[i]? = some row →
        ((E.sortNeighbors env).linksOf i).Perm
          ((row.filter fun p => decide (p.2 ≠ ⊤)).map fun p => (p.1, some p.2)) ∧
        (E.sortNeighbors env).getNeighbors i none (some true) false = .ok [] ∧
        (E.sortNeighbors env).getNeighbors i none none false =
          .ok (((E.sortNeighbors env).linksOf i).map Prod.fst) := by
  refine ⟨_, set_ok indices positions _ _ ⊤ hinf (fun x _ => le_top) h256, rfl, rfl, rfl, rfl, ?_⟩
  set fl := (tJ.map (List.map Prod.snd)).flatten with hfl
  set mk : ℕ × WithTop K → Entry d := fun p =>
    ⟨p.1, searchsorted (npUnique fl) p.2, false, 0, List.replicate d 0⟩ with hmk
  have c : LatticeData.Cols (K := K) _ (tJ.map (List.map mk)) :=
    (show LatticeData.Cols (K := K) ⟨indices, positions, tJ.map (List.map Prod.fst),
      (tJ.map (List.map Prod.snd)).map (fun r => r.map (searchsorted (npUnique fl))), npUnique fl,
      (tJ.map (List.map Prod.fst)).map (fun r => r.map fun _ => 0),
      (tJ.map (List.map Prod.fst)).map (fun r => r.map fun _ => false),
      (tJ.map (List.map Prod.fst)).map (fun r => r.map fun _ => List.replicate d 0),
      indices.length, searchsorted (npUnique fl) ⊤, none⟩ (tJ.map (List.map mk)) by
      constructor <;> simp [hmk, Function.comp_def])
  have c2 := sortNeighbors_cols env c
  refine ⟨⟨c2.entries_eq ▸ c2, ?_, ?_, npUnique_pairwise_lt _, npUnique_searchsorted hinf⟩, ?_⟩
  · rw [c2.entries_eq]; simp
  · rw [c2.entries_eq]
    intro r' hr'
    obtain ⟨r, hr, rfl⟩ := List.mem_map.1 hr'
    obtain ⟨row, hrow, rfl⟩ := List.mem_map.1 hr
    obtain ⟨g1, g2⟩ := env.argsort_spec ((row.map mk).map fun e => (npUnique fl).getD e.level ⊤)
    have hperm : (gather (row.map mk) (env.argsort ((row.map mk).map fun e =>
        (npUnique fl).getD e.level ⊤))).Perm (row.map mk) := by
      apply gather_perm
      simpa using g1
    have hmem : ∀ p ∈ row, p.2 ∈ fl := by
      intro p hp
      rw [hfl, List.mem_flatten]
      exact ⟨row.map Prod.snd, List.mem_map_of_mem hrow, List.mem_map_of_mem hp⟩
    refine ⟨by rw [hperm.length_eq, List.length_map, hw row hrow], packed_of_sorted ?_ ?_, ?_⟩
    · rw [← gather_map]
      exact g2
    · intro e he
      obtain ⟨p, hp, rfl⟩ := List.mem_map.1 (hperm.mem_iff.1 he)
      have h1 := hmem p hp
      have h2 : (npUnique fl).getD (searchsorted (npUnique fl) p.2) ⊤ = p.2 := by
        rw [List.getD_eq_getElem?_getD, npUnique_searchsorted h1]; rfl
      refine ⟨?_, ?_⟩
      · rcases eq_or_ne p.2 ⊤ with h | h
        · show searchsorted (npUnique fl) p.2 ≤ searchsorted (npUnique fl) ⊤
          rw [h]
        · exact le_of_lt ((searchsorted_lt_iff h1 hinf).2 (lt_top_iff_ne_top.2 h))
      · show searchsorted (npUnique fl) p.2 < searchsorted (npUnique fl) ⊤ ↔
          (npUnique fl).getD (searchsorted (npUnique fl) p.2) ⊤ ≠ ⊤
        rw [h2, searchsorted_lt_iff h1 hinf, lt_top_iff_ne_top]
    · intro e he
      obtain ⟨p, hp, rfl⟩ := List.mem_map.1 (hperm.mem_iff.1 he)
      rfl
  intro i row hrow
  set r := row.map mk with hr
  have hrow2 : (tJ.map (List.map mk))[i]? = some r := by rw [List.getElem?_map, hrow]; rfl
  set r' := gather r (env.argsort (r.map fun e => (npUnique fl).getD e.level ⊤)) with hr'
  have hperm : r'.Perm r := by
    apply gather_perm
    have := (env.argsort_spec (r.map fun e => (npUnique fl).getD e.level ⊤)).1
    simpa using this
  have hrow3 : ((tJ.map (List.map mk)).map fun r => gather r (env.argsort (r.map fun e =>
      (npUnique fl).getD e.level ⊤)))[i]? = some r' := by
    rw [List.getElem?_map, hrow2]; rfl
  have hmem : ∀ p ∈ row, p.2 ∈ fl := by
    intro p hp
    rw [hfl, List.mem_flatten]
    exact ⟨row.map Prod.snd, List.mem_map_of_mem (List.mem_of_getElem? hrow),
      List.mem_map_of_mem hp⟩
  refine ⟨?_, ?_, getNeighbors_linksOf c2 hrow3⟩
  · rw [linksOf_of_row c2 hrow3]
    refine ((hperm.filter _).map _).trans (List.Perm.of_eq ?_)
    rw [hr, List.filter_map, List.map_map]
    have hf : row.filter ((fun e : Entry d => decide (e.level < searchsorted (npUnique fl) ⊤)) ∘
        mk) = row.filter fun p => decide (p.2 ≠ ⊤) := by
      apply List.filter_congr
      intro p hp
      simp only [Function.comp_apply, hmk, searchsorted_lt_iff (hmem p hp) hinf,
        lt_top_iff_ne_top]
    refine (congrArg (List.map _) hf).trans ?_
    apply List.map_congr_left
    intro p hp
    have := npUnique_searchsorted (hmem p (List.mem_filter.1 hp).1)
    simp only [Function.comp_apply, hmk]
    exact Prod.ext rfl this
  · rw [c2.getNeighbors i r' hrow3, List.filter_eq_nil_iff.2]
    · rfl
    · intro e he
      have := hperm.mem_iff.1 he
      obtain ⟨p, _, rfl⟩ := List.mem_map.1 this
      simp [sel, hmk]

theorem ncols_of_rows {α : Type*} {rows : List (List α)} {w : ℕ} (hne : rows ≠ [])
    (hw : ∀ r ∈ rows, r.length = w) : ncols rows = w := by
  cases rows with
  | nil => exact absurd rfl hne
  | cons r rs => exact hw r (by simp)

/-- `append` for non-empty tables with an infinite and at most 256 different distances. -/
theorem append_full [LinearOrder K] (env : Env K) {D : LatticeData d K}
    {w w2 : ℕ} (h : D.Rect w) (hv : ∀ r ∈ D.entries, ∀ e ∈ r,
      e.level < D.invalidDistidx ∧ e.nbr ≠ D.invalidIdx ∨ e.level = D.invalidDistidx) (hN : 0 < D.numSites)
    (hdist : D.distvals.Pairwise (· < ·)) (htop : D.distvals[D.invalidDistidx]? = some ⊤)
    (indices2 : List (Fin (d + 1) → ℤ)) (positions2 : List (Vec d K))
    (neighbors2 : List (List ℕ)) (distances2 : List (List (WithTop K)))
    (hN2 : 0 < indices2.length) (hw2 : 0 < w2)
    (hn2 : neighbors2.length = indices2.length ∧ ∀ r ∈ neighbors2, r.length = w2)
    (hd2 : distances2.length = indices2.length ∧ ∀ r ∈ distances2, r.length = w2)
    (hval2 : ∀ (j : ℕ) nr dr, neighbors2[j]? = some nr → distances2[j]? = some dr →
      ∀ p ∈ nr.zip dr, p.2 ≠ ⊤ → p.1 ≤ indices2.length)
    (hinf : ⊤ ∈ D.distTable.flatten ∨ ⊤ ∈ distances2.flatten ∨ w ≠ w2)
    (h256 : (⊤ :: (D.distTable.flatten ++ distances2.flatten)).dedup.length ≤ 256) :
    ∃ E, D.append env indices2 positions2 neighbors2 distances2 = .ok E ∧
      E.indices = D.indices ++ indices2 ∧ E.positions = D.positions ++ positions2 ∧
      (∀ i < D.numSites, (E.linksOf i).Perm (D.linksOf i)) ∧
      (∀ (j : ℕ) nr dr, neighbors2[j]? = some nr → distances2[j]? = some dr →
        (E.linksOf (D.numSites + j)).Perm (((nr.zip dr).filter fun p => decide (p.2 ≠ ⊤)).map
          fun p => (p.1 + D.numSites, some p.2))) ∧
      E.Open (D.numSites + indices2.length) (max w w2) ∧
      E.invalidIdx = D.numSites + indices2.length ∧
      (∀ x, x ∈ E.distvals ↔ x = ⊤ ∨ x ∈ D.distTable.flatten ∨ x ∈ distances2.flatten) ∧
      ∀ i < D.numSites + indices2.length,
        E.getNeighbors i none (some true) false = .ok [] ∧
        E.getNeighbors i none none false = .ok ((E.linksOf i).map Prod.fst) := by
  have c := h.cols
  obtain ⟨D0, hD0, -⟩ := removePeriodic_cols c
  set N := D.numSites + indices2.length with hNdef
  set cols := max w w2 with hcols
  -- the joined rows
  set row1 : List (Entry d) → List (ℕ × WithTop K) := fun r =>
    r.map (fun e => (if e.nbr = D.invalidIdx then N else e.nbr, D.distvals.getD e.level ⊤)) ++
      List.replicate (cols - w) (N, ⊤) with hrow1
  set shift : ℕ → ℕ := fun n =>
    if (if n = indices2.length then N else n) ≠ N then
      (if n = indices2.length then N else n) + D.numSites
    else (if n = indices2.length then N else n) with hshift
  set row2 : List ℕ × List (WithTop K) → List (ℕ × WithTop K) := fun q =>
    (q.1.zip q.2).map (fun p => (shift p.1, p.2)) ++ List.replicate (cols - w2) (N, ⊤) with hrow2
  set tJ := D.entries.map row1 ++ (neighbors2.zip distances2).map row2 with htJ
  have hz1 : neighbors2 = (neighbors2.zip distances2).map Prod.fst :=
    (List.map_fst_zip (by omega)).symm
  have hz2 : distances2 = (neighbors2.zip distances2).map Prod.snd :=
    (List.map_snd_zip (by omega)).symm
  have hzw : ∀ q ∈ neighbors2.zip distances2, q.1.length = w2 ∧ q.2.length = w2 := by
    intro q hq
    have := List.of_mem_zip hq
    exact ⟨hn2.2 _ this.1, hd2.2 _ this.2⟩
  have hfst : tJ.map (List.map Prod.fst) =
      padRows cols N (D.neighbors.map fun r => r.map fun n =>
        if n = D.invalidIdx then N else n) ++
      padRows cols N ((neighbors2.map fun r => r.map fun n =>
        if n = indices2.length then N else n).map fun r => r.map fun n =>
          if n ≠ N then n + D.numSites else n) := by
    rw [htJ, List.map_append]
    congr 1
    · rw [c.nbr]
      simp only [padRows, List.map_map]
      apply List.map_congr_left
      intro r hr
      have := h.row_length r hr
      simp [hrow1, Function.comp_def, this]
    · conv_rhs => rw [hz1]
      simp only [padRows, List.map_map]
      apply List.map_congr_left
      intro q hq
      obtain ⟨l1, l2⟩ := hzw q hq
      have hq1 : q.1 = (q.1.zip q.2).map Prod.fst := (List.map_fst_zip (by omega)).symm
      simp only [Function.comp_apply, hrow2, List.map_append, List.map_map, List.map_replicate,
        List.length_map, l1]
      conv_rhs => rw [hq1]
      rw [List.map_map]
      rfl
  have hsnd : tJ.map (List.map Prod.snd) =
      padRows cols ⊤ D.distTable ++ padRows cols ⊤ distances2 := by
    rw [htJ, List.map_append]
    congr 1
    · unfold distTable
      rw [c.level]
      simp only [padRows, List.map_map]
      apply List.map_congr_left
      intro r hr
      have := h.row_length r hr
      simp [hrow1, Function.comp_def, this]
    · conv_rhs => rw [hz2]
      simp only [padRows, List.map_map]
      apply List.map_congr_left
      intro q hq
      obtain ⟨l1, l2⟩ := hzw q hq
      have hq2 : (q.1.zip q.2).map Prod.snd = q.2 := List.map_snd_zip (by omega)
      simp only [Function.comp_apply, hrow2, List.map_append, List.map_map, List.map_replicate, l2]
      conv_rhs => rw [← hq2]
      rfl
  have hne1 : D.neighbors ≠ [] := by
    intro h0; have := h.neighbors.1; rw [h0] at this; simp at this; omega
  have hne2 : neighbors2 ≠ [] := by
    intro h0; have := hn2.1; rw [h0] at this; simp at this; omega
  have hcols1 : ncols (D.neighbors.map fun r => r.map fun n =>
      if n = D.invalidIdx then N else n) = w :=
    ncols_of_rows (by simpa using hne1) (by
      intro r hr
      obtain ⟨q, hq, rfl⟩ := List.mem_map.1 hr
      simpa using h.neighbors.2 q hq)
  have hcols2 : ncols ((neighbors2.map fun r => r.map fun n =>
        if n = indices2.length then N else n).map fun r => r.map fun n =>
          if n ≠ N then n + D.numSites else n) = w2 :=
    ncols_of_rows (by simpa using hne2) (by
      intro r hr
      obtain ⟨q, hq, rfl⟩ := List.mem_map.1 hr
      obtain ⟨q', hq', rfl⟩ := List.mem_map.1 hq
      simpa using hn2.2 q' hq')
  have hpadmem : ∀ (rows : List (List (WithTop K))) x, x ∈ (padRows cols ⊤ rows).flatten →
      x = ⊤ ∨ x ∈ rows.flatten := by
    intro rows x hx
    obtain ⟨r, hr, hxr⟩ := List.mem_flatten.1 hx
    obtain ⟨q, hq, rfl⟩ := List.mem_map.1 hr
    rcases List.mem_append.1 hxr with h1 | h1
    · exact Or.inr (List.mem_flatten.2 ⟨q, hq, h1⟩)
    · exact Or.inl (List.eq_of_mem_replicate h1)
  have hmempad : ∀ (rows : List (List (WithTop K))) x, x ∈ rows.flatten →
      x ∈ (padRows cols ⊤ rows).flatten := by
    intro rows x hx
    obtain ⟨r, hr, hxr⟩ := List.mem_flatten.1 hx
    exact List.mem_flatten.2 ⟨_, List.mem_map_of_mem hr, List.mem_append_left _ hxr⟩
  have hpadtop : ∀ (rows : List (List (WithTop K))) w', (∀ r ∈ rows, r.length = w') →
      rows ≠ [] → w' < cols → ⊤ ∈ (padRows cols ⊤ rows).flatten := by
    intro rows w' hw' hne hlt
    obtain ⟨r, rs, rfl⟩ := List.exists_cons_of_ne_nil hne
    refine List.mem_flatten.2 ⟨r ++ List.replicate (cols - r.length) ⊤,
      List.mem_map_of_mem (by simp), List.mem_append_right _ ?_⟩
    rw [List.mem_replicate]
    exact ⟨by rw [hw' r (by simp)]; omega, rfl⟩
  have hinfJ : ⊤ ∈ (tJ.map (List.map Prod.snd)).flatten := by
    rw [hsnd, List.flatten_append, List.mem_append]
    rcases hinf with h1 | h1 | h1
    · exact Or.inl (hmempad _ _ h1)
    · exact Or.inr (hmempad _ _ h1)
    · rcases Nat.lt_or_gt_of_ne h1 with h2 | h2
      · left
        apply hpadtop _ w
        · intro r hr
          obtain ⟨q, hq, rfl⟩ := List.mem_map.1 hr
          simpa using h.distances.2 q hq
        · intro h0
          have := congrArg List.length h0
          simp only [distTable, List.length_map, h.distances.1, List.length_nil] at this
          omega
        · omega
      · right
        apply hpadtop _ w2 hd2.2
        · intro h0; have := hd2.1; rw [h0] at this; simp at this; omega
        · omega
  have h256J : (tJ.map (List.map Prod.snd)).flatten.dedup.length ≤ 256 := by
    refine le_trans (List.Subperm.length_le ?_) h256
    apply List.Nodup.subperm (List.nodup_dedup _)
    intro x hx
    rw [List.mem_dedup, hsnd, List.flatten_append, List.mem_append] at hx
    rw [List.mem_dedup, List.mem_cons, List.mem_append]
    rcases hx with hx | hx
    · rcases hpadmem _ _ hx with h1 | h1
      · exact Or.inl h1
      · exact Or.inr (Or.inl h1)
    · rcases hpadmem _ _ hx with h1 | h1
      · exact Or.inl h1
      · exact Or.inr (Or.inr h1)
  have hlen1 : (D.entries.map row1).length = D.numSites := by
    rw [List.length_map, h.entries_length]
  have hlenJ : tJ.length = N := by
    rw [htJ, List.length_append, hlen1, List.length_map, List.length_zip, hn2.1, hd2.1]
    omega
  have hwJ : ∀ row ∈ tJ, row.length = cols := by
    intro row hrow
    rcases List.mem_append.1 hrow with h1 | h1
    · obtain ⟨r, hr, rfl⟩ := List.mem_map.1 h1
      have := h.row_length r hr
      simp only [hrow1, List.length_append, List.length_map, List.length_replicate]
      omega
    · obtain ⟨q, hq, rfl⟩ := List.mem_map.1 h1
      obtain ⟨l1, l2⟩ := hzw q hq
      simp only [hrow2, List.length_append, List.length_map, List.length_replicate,
        List.length_zip]
      omega
  obtain ⟨E, hE, e1, e2, e4, e6, e5, e3⟩ := set_sort_links env (D.indices ++ indices2)
    (D.positions ++ positions2) tJ hwJ hinfJ h256J
  rw [hfst, hsnd] at hE
  have hflat : neighbors2.flatten ≠ [] := by
    obtain ⟨r, rs, h0⟩ := List.exists_cons_of_ne_nil hne2
    have hr := hn2.2 r (by rw [h0]; simp)
    intro hf
    rw [h0, List.flatten_cons, List.append_eq_nil_iff] at hf
    rw [hf.1] at hr
    simp at hr; omega
  have happ : D.append env indices2 positions2 neighbors2 distances2 =
      .ok (E.sortNeighbors env) := by
    unfold LatticeData.append
    obtain ⟨x, xs, hx⟩ := List.exists_cons_of_ne_nil hflat
    rw [hD0, hx]
    simp only [← hNdef]
    rw [hcols1, hcols2, hE]
  refine ⟨_, happ, e1, e2, ?_, ?_, hlenJ ▸ e5, by rw [e6, List.length_append]; rfl, ?_, ?_⟩
  · intro i hi
    obtain ⟨r, hr, hm⟩ := h.getElem?_entries hi
    have hrowi : tJ[i]? = some (row1 r) := by
      rw [htJ, List.getElem?_append_left (by rw [hlen1]; exact hi), List.getElem?_map, hr]
      rfl
    refine (e3 i _ hrowi).1.trans (List.Perm.of_eq ?_)
    rw [linksOf_of_row c hr, hrow1]
    simp only [List.filter_append, List.filter_replicate, List.map_append]
    rw [List.filter_map, List.map_map]
    have hl : ∀ e ∈ r, e.level < D.distvals.length := by
      intro e he
      have := (List.getElem?_eq_some_iff.1 htop).1
      rcases hv r hm e he with h1 | h1 <;> omega
    have hget : ∀ e ∈ r, D.distvals[e.level]? = some (D.distvals.getD e.level ⊤) := by
      intro e he
      rw [List.getD_eq_getElem?_getD, List.getElem?_eq_getElem (hl e he)]
      rfl
    have hiff : ∀ e ∈ r, (D.distvals.getD e.level ⊤ ≠ ⊤ ↔ e.level < D.invalidDistidx) := by
      intro e he
      rcases hv r hm e he with h1 | h1
      · refine ⟨fun _ => h1.1, fun _ h2 => ?_⟩
        obtain ⟨t1, t2⟩ := List.getElem?_eq_some_iff.1 htop
        have := List.pairwise_iff_getElem.1 hdist e.level D.invalidDistidx (hl e he) t1 h1.1
        have h3 := hget e he
        rw [h2, List.getElem?_eq_getElem (hl e he)] at h3
        rw [Option.some.inj h3, t2] at this
        exact lt_irrefl _ this
      · refine ⟨fun h2 => ?_, fun h2 => by omega⟩
        exfalso; apply h2
        rw [List.getD_eq_getElem?_getD, h1, htop]
        rfl
    simp only [ne_eq, not_true_eq_false, decide_false, if_neg Bool.false_ne_true,
      List.map_nil, List.append_nil]
    have hf : r.filter ((fun p : ℕ × WithTop K => decide (¬ p.2 = ⊤)) ∘ fun e : Entry d =>
        (if e.nbr = D.invalidIdx then N else e.nbr, D.distvals.getD e.level ⊤)) =
        r.filter fun e => decide (e.level < D.invalidDistidx) := by
      apply List.filter_congr
      intro e he
      have := hiff e he
      simp only [ne_eq] at this
      simp only [Function.comp_apply, this]
    rw [hf]
    apply List.map_congr_left
    intro e he
    obtain ⟨he1, he2⟩ := List.mem_filter.1 he
    simp only [Function.comp_apply]
    have hn : e.nbr ≠ D.invalidIdx := by
      rcases hv r hm e he1 with h1 | h1
      · exact h1.2
      · simp [h1] at he2
    rw [if_neg hn, hget e he1]
  · intro j nr dr hnr hdr
    have hj : j < neighbors2.length := (List.getElem?_eq_some_iff.1 hnr).1
    have hrowj : tJ[D.numSites + j]? = some (row2 (nr, dr)) := by
      rw [htJ, List.getElem?_append_right (by rw [hlen1]; omega), hlen1, Nat.add_sub_cancel_left,
        List.getElem?_map, (List.getElem?_zip_eq_some (z := (nr, dr))).2 ⟨hnr, hdr⟩]
      rfl
    refine (e3 _ _ hrowj).1.trans (List.Perm.of_eq ?_)
    rw [hrow2]
    simp only [List.filter_append, List.filter_replicate, List.map_append]
    rw [List.filter_map, List.map_map]
    simp only [ne_eq, not_true_eq_false, decide_false, if_neg Bool.false_ne_true,
      List.map_nil, List.append_nil]
    apply List.map_congr_left
    intro p hp
    obtain ⟨hp1, hp2⟩ := List.mem_filter.1 hp
    have := hval2 j nr dr hnr hdr p hp1 (by simpa using hp2)
    simp only [Function.comp_apply, hshift]
    by_cases hlen : p.1 = indices2.length
    · rw [if_pos hlen, if_neg (not_not.2 rfl), hlen, hNdef, Nat.add_comm]
    · rw [if_neg hlen, if_pos (show p.1 ≠ N by omega)]
  · intro x
    rw [e4, mem_npUnique]
    constructor
    · intro hx
      rw [hsnd, List.flatten_append, List.mem_append] at hx
      rcases hx with hx | hx
      · exact (hpadmem _ _ hx).imp id Or.inl
      · exact (hpadmem _ _ hx).imp id Or.inr
    · rintro (rfl | hx)
      · exact hinfJ
      · rw [hsnd, List.flatten_append, List.mem_append]
        exact hx.imp (hmempad _ _) (hmempad _ _)
  · intro i hi
    have hlt : i < tJ.length := by
      rw [htJ, List.length_append, hlen1, List.length_map, List.length_zip, hn2.1, hd2.1]
      omega
    exact (e3 i tJ[i] (by simp [hlt])).2

/-- C53 (restricted to non-empty tables and joined tables with an infinite and at most 256
different distances): after `append` the sites are those of both parts; the first sites have all
their old neighbours (the periodic ones too, see `C53_append_periodic_fails`) at their old
distances, the appended ones their own, shifted by the number of first sites (so there are no
links between the parts), and nothing is flagged periodic. -/
theorem C53_append_disjoint_union_partial [LinearOrder K] (env : Env K) {D : LatticeData d K}
    {w w2 : ℕ} (h : D.Rect w) (hv : D.Valid) (hN : 0 < D.numSites)
    (hdist : D.distvals.Pairwise (· < ·)) (htop : D.distvals[D.invalidDistidx]? = some ⊤)
    (indices2 : List (Fin (d + 1) → ℤ)) (positions2 : List (Vec d K))
    (neighbors2 : List (List ℕ)) (distances2 : List (List (WithTop K)))
    (hN2 : 0 < indices2.length) (hw2 : 0 < w2)
    (hn2 : neighbors2.length = indices2.length ∧ ∀ r ∈ neighbors2, r.length = w2)
    (hd2 : distances2.length = indices2.length ∧ ∀ r ∈ distances2, r.length = w2)
    (hval2 : ∀ (j : ℕ) nr dr, neighbors2[j]? = some nr → distances2[j]? = some dr →
      ∀ p ∈ nr.zip dr, p.2 ≠ ⊤ → p.1 < indices2.length)
    (hinf : ⊤ ∈ D.distTable.flatten ∨ ⊤ ∈ distances2.flatten ∨ w ≠ w2)
    (h256 : (⊤ :: (D.distTable.flatten ++ distances2.flatten)).dedup.length ≤ 256) :
    ∃ E, D.append env indices2 positions2 neighbors2 distances2 = .ok E ∧
      E.indices = D.indices ++ indices2 ∧ E.positions = D.positions ++ positions2 ∧
      (∀ i < D.numSites, (E.linksOf i).Perm (D.linksOf i)) ∧
      (∀ (j : ℕ) nr dr, neighbors2[j]? = some nr → distances2[j]? = some dr →
        (E.linksOf (D.numSites + j)).Perm (((nr.zip dr).filter fun p => decide (p.2 ≠ ⊤)).map
          fun p => (p.1 + D.numSites, some p.2))) ∧
      ∀ i < D.numSites + indices2.length,
        E.getNeighbors i none (some true) false = .ok [] ∧
        E.getNeighbors i none none false = .ok ((E.linksOf i).map Prod.fst) := by
  obtain ⟨E, h1, h2, h3, h4, h5, -, -, -, h6⟩ := append_full env h (fun r hr e he => by
    rw [hv.invalidIdx]
    exact (hv.entry r hr e he).imp (fun g => ⟨g.1, ne_of_lt g.2⟩) (fun g => g.1)) hN hdist htop indices2 positions2 neighbors2
    distances2 hN2 hw2 hn2 hd2 (fun j nr dr h1 h2 p hp ht => (hval2 j nr dr h1 h2 p hp ht).le) hinf
    h256
  exact ⟨E, h1, h2, h3, h4, h5, h6⟩

example : 0 < chain4.numSites ∧ chain4.distvals[chain4.invalidDistidx]? = some ⊤ ∧
    ⊤ ∈ chain4.distTable.flatten ∧
    (⊤ :: (chain4.distTable.flatten ++ [[(1 : WithTop ℚ)], [1]].flatten)).dedup.length ≤ 256 := by
  refine ⟨?_, ?_, ?_, ?_⟩ <;> decide +kernel
example : ∃ E, chain4.append (Env.brute ℚ) [![7, 0], ![8, 0]] [![7], ![8]] [[1], [0]]
    [[(1 : WithTop ℚ)], [1]] = .ok E ∧ E.getNeighbors 1 none none false = .ok [0, 2] ∧
    E.getNeighbors 4 none none false = .ok [5] ∧ E.getNeighbors 5 none none false = .ok [4] :=
  ⟨_, rfl, by decide +kernel, by decide +kernel, by decide +kernel⟩

/-- C53 fails for data with periodic neighbours: they stay, now as regular neighbours. -/
theorem C53_append_periodic_fails :
    ring3.getNeighbors 0 none (some true) false = .ok [2] ∧
    ∃ E, ring3.append (Env.brute ℚ) [![7, 0], ![8, 0]] [![7], ![8]] [[1, 2], [0, 2]]
      [[(1 : WithTop ℚ), ⊤], [1, ⊤]] = .ok E ∧
      E.getNeighbors 0 none (some false) false = .ok [1, 2] :=
  ⟨by decide +kernel, _, rfl, by decide +kernel⟩

/-- C53 fails for joined tables without infinite distance: all neighbours at the largest distance
are lost. -/
theorem C53_append_no_inf_fails :
    ring3.getNeighbors 1 none none false = .ok [0, 2] ∧
    ∃ E F, ring3.appendData (Env.brute ℚ) ring3 = .ok (E, F) ∧
      E.getNeighbors 1 none none false = .ok [] :=
  ⟨by decide +kernel, _, _, rfl, by decide +kernel⟩

/-- C53 fails: the appended data object is modified; the free slots of its neighbour table are
overwritten with the invalid index of the joined table. -/
theorem C53_append_modifies_argument_fails :
    ∃ E F, chain4.appendData (Env.brute ℚ) chain4 = .ok (E, F) ∧
      F.neighbors = [[1, 8], [0, 2], [1, 3], [2, 8]] ∧ F.neighbors ≠ chain4.neighbors ∧
      F.invalidIdx = 4 :=
  ⟨_, _, rfl, by decide +kernel, by decide +kernel, rfl⟩

/-! ## C54 add_neighbors -/

/-- `add_neighbors` for one neighbour writes one slot. -/
theorem addNeighbor_cols [LinearOrder K] {D : LatticeData d K} (c : D.Cols D.entries)
    {i j : ℕ} {dist : WithTop K} {k : ℕ} (hss : searchsorted D.distvals dist = k)
    {a b' : List (Entry d)} {x : Entry d} (hr : D.entries[i]? = some (a ++ x :: b'))
    (ha : ∀ e ∈ a, e.level < D.invalidDistidx)
    (hb : ∀ e ∈ x :: b', e.level = D.invalidDistidx) :
    ∃ E, D.addNeighbor i j dist = .ok E ∧ E.indices = D.indices ∧ E.positions = D.positions ∧
      E.distvals = D.distvals ∧ E.invalidDistidx = D.invalidDistidx ∧
      E.invalidIdx = D.invalidIdx ∧ E.Cols (modifyRow D.entries i fun _ => a ++ { x with nbr := j, level := k } :: b') := by
  have hlv : D.distances[i]? = some ((a ++ x :: b').map Entry.level) := by rw [c.level]; simp [hr]
  have hi0 : (((a ++ x :: b').map Entry.level).filter fun y =>
      decide (y ≠ D.invalidDistidx)).length = a.length := by
    have h1 : (a.map Entry.level).filter (fun y => decide (y ≠ D.invalidDistidx)) =
        a.map Entry.level := by
      rw [List.filter_eq_self]
      intro y hy
      obtain ⟨e, he, rfl⟩ := List.mem_map.1 hy
      have := ha e he
      simp; omega
    have h2 : ((x :: b').map Entry.level).filter (fun y => decide (y ≠ D.invalidDistidx)) = [] := by
      rw [List.filter_eq_nil_iff]
      intro y hy
      obtain ⟨e, he, rfl⟩ := List.mem_map.1 hy
      simp [hb e he]
    rw [List.map_append, List.filter_append, h1, h2]
    simp
  set x' : Entry d := { x with nbr := j, level := k } with hx'
  have hwrite : ∀ {β : Type} (f : Entry d → β) (v : β), f x' = v →
      writeSlice ((a ++ x :: b').map f) a.length [v] = (a ++ x' :: b').map f := by
    intro β f v hfv
    have := writeSlice_append (a.map f) ((x :: b').map f) [v]
    rw [List.length_map] at this
    rw [List.map_append, this]
    simp [hfv]
  have hsame : ∀ {β : Type} (f : Entry d → β), f x' = f x →
      D.entries.map (List.map f) =
      (modifyRow D.entries i fun _ => a ++ x' :: b').map (List.map f) := by
    intro β f hf
    have := modifyRow_map (List.map f) D.entries i (fun _ => a ++ x' :: b') id (by
      intro r hr'
      obtain rfl := Option.some.inj (hr.symm.trans hr')
      simp [hf])
    rw [← this]
    apply List.ext_getElem?
    intro m
    by_cases hm : m = i
    · subst hm; rw [modifyRow_getElem?_self]; simp
    · rw [modifyRow_getElem?_ne _ _ hm]
  have hE : D.addNeighbor i j dist = .ok { D with
      neighbors := modifyRow D.neighbors i fun r => writeSlice r a.length [j]
      distances := modifyRow D.distances i fun r => writeSlice r a.length [k] } := by
    unfold addNeighbor
    rw [hlv]
    simp only [hi0, hss]
    rw [if_pos (by simp)]
  set E : LatticeData d K := { D with
      neighbors := modifyRow D.neighbors i fun r => writeSlice r a.length [j]
      distances := modifyRow D.distances i fun r => writeSlice r a.length [k] } with hEdef
  refine ⟨E, hE, rfl, rfl, rfl, rfl, rfl, ?_⟩
  constructor
  · show modifyRow D.neighbors i _ = _
    rw [c.nbr]
    apply modifyRow_map
    intro r hr'
    obtain rfl := Option.some.inj (hr.symm.trans hr')
    exact (hwrite Entry.nbr j rfl).symm
  · show modifyRow D.distances i _ = _
    rw [c.level]
    apply modifyRow_map
    intro r hr'
    obtain rfl := Option.some.inj (hr.symm.trans hr')
    exact (hwrite Entry.level k rfl).symm
  · show D.pmask = _
    rw [c.per]; exact hsame _ rfl
  · show D.pnvecs = _
    rw [c.nvec]; exact hsame _ rfl
  · show D.paxes = _
    rw [c.axes]; exact hsame _ rfl

/-- C54 (restricted to one neighbour, at a stored distance, and a row with a free slot after its
neighbours): `add_neighbors(i, j, dist)` appends `(j, dist)` to the neighbours of `i`, as a
regular one, and changes no other site. -/
theorem C54_add_neighbor_partial [LinearOrder K] {D : LatticeData d K} {w : ℕ} (h : D.Rect w)
    (hv : D.Valid) (hdist : D.distvals.Pairwise (· < ·)) {i j : ℕ} {dist : WithTop K} {k : ℕ}
    (hk : k < D.invalidDistidx) (hkd : D.distvals[k]? = some dist)
    {a b : List (Entry d)} (hr : D.entries[i]? = some (a ++ b)) (hb0 : b ≠ [])
    (ha : ∀ e ∈ a, e.level < D.invalidDistidx) (hb : ∀ e ∈ b, e.level = D.invalidDistidx) :
    ∃ E, D.addNeighbor i j dist = .ok E ∧ E.indices = D.indices ∧ E.positions = D.positions ∧
      E.linksOf i = D.linksOf i ++ [(j, some dist)] ∧
      (∀ m, m ≠ i → E.linksOf m = D.linksOf m) ∧
      (∃ l, D.getNeighbors i none none false = .ok l ∧
        E.getNeighbors i none none false = .ok (l ++ [j])) ∧
      (∃ l, D.getNeighbors i none (some false) false = .ok l ∧
        E.getNeighbors i none (some false) false = .ok (l ++ [j])) := by
  have c := h.cols
  obtain ⟨x, b', rfl⟩ := List.exists_cons_of_ne_nil hb0
  obtain ⟨E, hE, hEi, hEp, hEd, hEv, -, ce⟩ := addNeighbor_cols c (j := j)
    (searchsorted_eq_of_getElem? hdist hkd) hr ha hb
  set x' : Entry d := { x with nbr := j, level := k } with hx'
  have hrE : (modifyRow D.entries i fun _ => a ++ x' :: b')[i]? = some (a ++ x' :: b') := by
    rw [modifyRow_getElem?_self, hr]; rfl
  have hxper : x.per = false := by
    rcases hv.entry _ (List.mem_of_getElem? hr) x (by simp) with h1 | h1
    · have := hb x (by simp); omega
    · exact h1.2.2
  have hb'inv : ∀ e ∈ b', e.level = D.invalidDistidx := fun e he => hb e (by simp [he])
  have hxinv := hb x (by simp)
  have hfa : a.filter (fun e => decide (e.level < D.invalidDistidx)) = a :=
    List.filter_eq_self.2 fun e he => by simpa using ha e he
  have hfb : b'.filter (fun e => decide (e.level < D.invalidDistidx)) = [] :=
    List.filter_eq_nil_iff.2 fun e he => by simp [hb'inv e he]
  have hlink : E.linksOf i = D.linksOf i ++ [(j, some dist)] := by
    rw [linksOf_of_row ce hrE, linksOf_of_row c hr, hEd, hEv]
    simp only [List.filter_append, List.filter_cons, hfa, hfb, hxinv, lt_irrefl, decide_false,
      if_neg Bool.false_ne_true, List.append_nil]
    simp [hx', hk, hkd]
  refine ⟨E, hE, hEi, hEp, hlink, ?_, ?_, ?_⟩
  · intro m hm
    unfold linksOf
    rw [ce.entries_eq, List.getD_eq_getElem?_getD, List.getD_eq_getElem?_getD,
      modifyRow_getElem?_ne _ _ hm, hEd, hEv]
  · refine ⟨_, getNeighbors_linksOf c hr, ?_⟩
    rw [getNeighbors_linksOf ce hrE, hlink]
    simp
  · refine ⟨_, c.getNeighbors i _ hr none (some false) false, ?_⟩
    rw [ce.getNeighbors i _ hrE none (some false) false]
    have hs : E.sel i none (some false) false = D.sel i none (some false) false := by
      unfold sel; rw [hEv]
    rw [hs]
    have hxs : D.sel i none (some false) false x = false := by simp [sel, hxinv]
    have hxs' : D.sel i none (some false) false x' = true := by simp [sel, hx', hk, hxper]
    have hbs : b'.filter (D.sel i none (some false) false) = [] :=
      List.filter_eq_nil_iff.2 fun e he => by simp [sel, hb'inv e he]
    simp only [List.filter_append, List.filter_cons, hxs, hxs', hbs]
    simp [hx']

example : ∃ E, chain4.addNeighbor 3 0 1 = .ok E ∧
    E.getNeighbors 3 none none false = .ok [2, 0] ∧ E.getNeighbors 0 none none false = .ok [1] :=
  ⟨_, rfl, by decide +kernel, by decide +kernel⟩
example : chain4.distvals[0]? = some 1 ∧ 0 < chain4.invalidDistidx ∧
    ∃ a b, chain4.entries[3]? = some (a ++ b) ∧ b ≠ [] ∧
      (∀ e ∈ a, e.level < chain4.invalidDistidx) ∧ (∀ e ∈ b, e.level = chain4.invalidDistidx) := by
  refine ⟨rfl, by decide, [⟨2, 0, false, 0, [0]⟩], [⟨4, 1, false, 0, [0]⟩], rfl, by simp, ?_, ?_⟩
  · simp [chain4]
  · simp [chain4]

/-- C54 fails for a full row: the new neighbour is dropped without an error. -/
theorem C54_full_row_fails :
    ∃ E, chain4.addNeighbor 1 3 1 = .ok E ∧ E.getNeighbors 1 none none false = .ok [0, 2] :=
  ⟨_, rfl, by decide +kernel⟩

/-- C54 fails for a distance that is not stored: a link of length 11/10 is stored at the next
larger level (here: the invalid one, so it is lost) and not at the closest one (1). -/
theorem C54_level_fails :
    ∃ E, chain4.addNeighbor 3 0 ((11 / 10 : ℚ) : WithTop ℚ) = .ok E ∧
      E.getNeighbors 3 none none false = .ok [2] :=
  ⟨_, rfl, by decide +kernel⟩

end Lattpy
