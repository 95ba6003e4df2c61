import Verif.Lemmas.Periodic
import Verif.Props.Neighbors

/-!
# Periodic boundary conditions
-/

set_option autoImplicit false
set_option linter.unusedSectionVars false

namespace Lattpy

open Structure

variable {d : ℕ}

/-! ## C64 periodic neighbours

The hypotheses of the theorems below are met by the ring `C64_ring_partial` (file `PeriodicRing`),
whose proof applies `C64_set_periodic_partial` and through it the other three. -/

/-- The point of site `i` shifted by `t` lattice cells has the rounded distance `x` from site `j`,
and the atoms of the two sites are connected at this distance. -/
def Image (S : Structure d ℝ) (A : Analysis d ℝ) (indices : List (Idx d))
    (positions : List (Vec d ℝ)) (i j : ℕ) (t : Fin d → ℤ) (x : ℝ) : Prop :=
  ∃ (p q : Vec d ℝ) (a b : Idx d), positions[i]? = some p ∧ positions[j]? = some q ∧
    indices[i]? = some a ∧ indices[j]? = some b ∧
    x = npRound 6 (Real.sqrt (∑ k, (p k + ∑ m, (t m : ℝ) * S.basis.vectors m k - q k) ^ 2)) ∧
    Configured A a.alpha b.alpha x

theorem image_dist (S : Structure d ℝ) (t : Fin d → ℤ) (p q : Vec d ℝ) :
    distance q (S.basis.translate t p) (some 6) =
      npRound 6 (Real.sqrt (∑ k, (p k + ∑ m, (t m : ℝ) * S.basis.vectors m k - q k) ^ 2)) := by
  rw [distance_comm, distance_some, LatticeBasis.translate_eq]
  unfold distance
  rw [hasSqrt_real]
  simp only [pow_two]

theorem Image.symm (hd : 0 < d) {env : Env ℝ} {w : World d ℝ} (h : Reachable env w)
    {A : Analysis d ℝ} (hA : w.struct.analysis = some A) {indices : List (Idx d)}
    {positions : List (Vec d ℝ)} {i j : ℕ} {t : Fin d → ℤ} {x : ℝ}
    (hi : Image w.struct A indices positions i j t x) :
    Image w.struct A indices positions j i (-t) x := by
  obtain ⟨p, q, a, b, h1, h2, h3, h4, h5, h6⟩ := hi
  refine ⟨q, p, b, a, h2, h1, h4, h3, ?_, (configured_comm hd h hA).1 h6⟩
  rw [h5]
  congr 2
  apply Finset.sum_congr rfl
  intro k _
  have : ∑ m, ((-t) m : ℝ) * w.struct.basis.vectors m k =
      -∑ m, (t m : ℝ) * w.struct.basis.vectors m k := by
    rw [← Finset.sum_neg_distrib]
    apply Finset.sum_congr rfl
    intro m _
    simp
  simp only [Pi.neg_apply, Int.cast_neg] at this ⊢
  rw [this]
  ring

namespace Lattice

open LatticeData (PLink)

/-- What is known about the state in which periodic neighbours are searched. -/
structure PState (env : Env ℝ) (w : World d ℝ) (A : Analysis d ℝ) (D : LatticeData d ℝ)
    (axes : List ℕ) (primitive : Bool) (vecs : List (List ℕ × (Fin d → ℤ))) : Prop where
  reach : Reachable env w
  analysis : w.struct.analysis = some A
  length : D.indices.length = D.positions.length
  alpha : ∀ x ∈ D.indices, 0 ≤ Idx.alpha x ∧ Idx.alpha x < w.struct.numBase
  vecs : periodicVectors w.struct.basis D.indices axes primitive = .ok vecs

variable {env : Env ℝ} {w : World d ℝ} {A : Analysis d ℝ} {D : LatticeData d ℝ} {axes : List ℕ}
  {primitive : Bool} {vecs : List (List ℕ × (Fin d → ℤ))}

/-- Entries of the tables. -/
theorem PState.table (hd : 0 < d) (h : PState env w A D axes primitive vecs) {k : ℕ}
    {maxDist : ℝ} (hq : queryParams A = .ok (k, maxDist)) (v : Fin d → ℤ) :
    (pTable env w.struct A k maxDist D.indices D.positions v).length = D.positions.length ∧
    (∀ row ∈ pTable env w.struct A k maxDist D.indices D.positions v,
      GoodRow D.indices.length row) ∧
    (∀ i row, (pTable env w.struct A k maxDist D.indices D.positions v)[i]? = some row →
      ∀ e ∈ row, e.1 < D.indices.length → ∃ x : ℝ, e.2 = (x : WithTop ℝ) ∧
        Image w.struct A D.indices D.positions i e.1 v x) ∧
    ((∀ y, RawDistance A y → 5 / 10 ^ 6 < y) → ∀ i j x p q,
      Image w.struct A D.indices D.positions i j v x → D.positions[i]? = some p →
      D.positions[j]? = some q →
      closer D.positions (w.struct.basis.translate v p) q ≤ (A.rawNum.map List.sum).sum + 1 →
      ∃ row, (pTable env w.struct A k maxDist D.indices D.positions v)[i]? = some row ∧
        (j, (x : WithTop ℝ)) ∈ row) := by
  obtain ⟨cells, m, c, hcells, -, hsym, -, -, hI⟩ := (h.reach.good hd).analysis A h.analysis
  obtain ⟨hl, hrows⟩ := pTable_rows env hI hq D.indices D.positions h.length h.alpha v
  obtain ⟨hk, -, -, M, y, hM, hy, -, -, hmax⟩ := hI.queryParams hq
  have hal : ∀ (j : ℕ) (b : Idx d), D.indices[j]? = some b →
      Structure.alphaOf D.indices j = b.alpha := by
    intro j b hb; simp [Structure.alphaOf, hb]
  have hat : ∀ (i : ℕ) row, (pTable env w.struct A k maxDist D.indices D.positions v)[i]? = some row →
      ∃ (p : Vec d ℝ) (x : Idx d), D.positions[i]? = some p ∧ D.indices[i]? = some x := by
    intro i row hr
    have hi : i < D.positions.length := by
      rw [← hl]; exact (List.getElem?_eq_some_iff.1 hr).1
    exact ⟨_, _, List.getElem?_eq_getElem hi, List.getElem?_eq_getElem (by rw [h.length]; exact hi)⟩
  refine ⟨hl, ?_, ?_, ?_⟩
  · intro row hr e he htop
    obtain ⟨i, hi⟩ := List.mem_iff_getElem?.1 hr
    obtain ⟨p, x, hp, hx⟩ := hat i row hi
    obtain ⟨row', sel, r1, -, r3, -⟩ := hrows i p x hp hx
    rw [hi] at r1
    cases r1
    rw [h.length]
    exact r3 e he htop
  · intro i row hi e he hlt
    obtain ⟨p, a, hp, ha⟩ := hat i row hi
    obtain ⟨row', sel, r1, -, r3, r4, -, r6, -⟩ := hrows i p a hp ha
    rw [hi] at r1
    cases r1
    have hne : e.2 ≠ ⊤ := by
      intro htop
      have := r3 e he htop
      rw [h.length] at hlt
      omega
    obtain ⟨x, hx⟩ := WithTop.ne_top_iff_exists.1 hne
    obtain ⟨j, e2⟩ := e
    dsimp only at hx hlt
    subst hx
    obtain ⟨h1, h2, h3⟩ := (mem_links r4 j x).1 he
    obtain ⟨hj, -⟩ := r6 j h1
    have hb : D.indices[j]? = some D.indices[j] := List.getElem?_eq_getElem hlt
    have hg : D.positions.getD j 0 = D.positions[j] := by simp [hj]
    rw [hal j _ hb, connectedAt_iff hI (h.alpha _ (List.mem_of_getElem? ha))
      (h.alpha _ (List.getElem_mem _)), ← h3] at h2
    refine ⟨x, rfl, p, D.positions[j], a, _, hp, List.getElem?_eq_getElem hj, ha, hb, ?_, h2⟩
    rw [h3, hg, image_dist]
  · intro hres i j x p q hi hp hq' hcount
    obtain ⟨p', q', a, b, h1, h2, h3, h4, h5, h6⟩ := hi
    rw [hp] at h1
    rw [hq'] at h2
    cases h1
    cases h2
    obtain ⟨row, sel, r1, -, -, r4, -, -, r7⟩ := hrows i p a hp h3
    have hj : j < D.positions.length := (List.getElem?_eq_some_iff.1 hq').1
    have hg : D.positions.getD j 0 = q := by
      rw [List.getD_eq_getElem?_getD, hq']; rfl
    rw [← image_dist] at h5
    refine ⟨row, r1, (mem_links r4 j x).2 ⟨?_, ?_, by rw [hg, h5]⟩⟩
    · refine r7 j hj ?_ ?_
      · rw [hg, hM]
        have g1 := hmax _ _ _ h6
        have g2 := hres y hy
        rw [h5, distance_some] at g1
        have g3 := abs_le.1 (abs_npRound_sub_le 6 (distance q (w.struct.basis.translate v p)))
        have g4 : (1 : ℝ) / 2 / 10 ^ 6 = 5 / 10 ^ 6 / 10 := by norm_num
        linarith [g3.1]
      · rw [hg, hk]
        refine le_trans (le_of_eq ?_) hcount
        exact filter_range_getD D.positions fun r => decide
          (distance r (w.struct.basis.translate v p) ≤ distance q (w.struct.basis.translate v p))
    · rw [hal j b h4, hg, connectedAt_iff hI (h.alpha _ (List.mem_of_getElem? h3))
        (h.alpha _ (List.mem_of_getElem? h4)), ← h5]
      exact h6

/-- The links collected for a site. -/
theorem PState.collect (hd : 0 < d) (h : PState env w A D axes primitive vecs) {k : ℕ}
    {maxDist : ℝ} (hq : queryParams A = .ok (k, maxDist)) (i : ℕ) (l : PLink d ℝ)
    (hl : l ∈ (pCollect env w.struct A k maxDist D.indices D.positions vecs).atSite i) :
    (∃ x : ℝ, l.dist = (x : WithTop ℝ) ∧ Image w.struct A D.indices D.positions i l.nbr l.nvec x) ∧
    ∃ v ∈ vecs, l.axes = v.1 ∧ (l.nvec = v.2 ∨ l.nvec = -v.2) := by
  obtain ⟨hc, -⟩ := atSite_pCollect env w.struct A k maxDist D.indices D.positions vecs
    fun v => (h.table hd hq v).2.1
  rw [hc, List.mem_flatMap] at hl
  obtain ⟨v, hv, hl⟩ := hl
  rw [List.mem_flatMap] at hl
  obtain ⟨⟨row, site⟩, hr, hl⟩ := hl
  rw [List.mem_zipIdx_iff_getElem?] at hr
  obtain ⟨hax, hl⟩ := mem_contrib.1 hl
  have ht := (h.table hd hq v.2).2.2.1 site row hr
  rcases hl with ⟨hs, ht', hb, hm⟩ | ⟨hs, hj, ht', hm⟩
  · obtain ⟨x, hx, hi⟩ := ht _ hm hb
    dsimp only at hx hi hs
    subst hs
    exact ⟨⟨x, hx, by rw [ht']; exact hi⟩, v, hv, hax, Or.inl ht'⟩
  · obtain ⟨x, hx, hi⟩ := ht _ hm hj
    dsimp only at hx hi hs
    refine ⟨⟨x, hx, ?_⟩, v, hv, hax, Or.inr ht'⟩
    rw [ht', hs]
    exact hi.symm hd h.reach h.analysis

/-- The dictionary returned by the search. -/
theorem PState.result (h : PState env w A D axes primitive vecs) {Q : PDict d ℝ}
    (hQ : computePneighbors env w.struct D axes primitive = .ok Q) :
    ∃ k maxDist, queryParams A = .ok (k, maxDist) ∧
      (∀ i ls, (i, ls) ∈ Q → ∃ ms ex,
        (i, ms) ∈ pCollect env w.struct A k maxDist D.indices D.positions vecs ∧
        D.getNeighbors i none none false = .ok ex ∧ ls = pFinal ex ms ∧ ls ≠ []) ∧
      (∀ i ms, (i, ms) ∈ pCollect env w.struct A k maxDist D.indices D.positions vecs →
        ∃ ex, D.getNeighbors i none none false = .ok ex ∧
          (pFinal ex ms ≠ [] → (i, pFinal ex ms) ∈ Q)) ∧
      (((pCollect env w.struct A k maxDist D.indices D.positions vecs).map Prod.fst).Nodup →
        (Q.map Prod.fst).Nodup) := by
  unfold computePneighbors at hQ
  simp only [h.analysis] at hQ
  split at hQ
  · cases hQ
  rename_i k maxDist hq
  simp only [h.vecs] at hQ
  split at hQ
  · cases hQ
  rename_i R hR
  cases hQ
  obtain ⟨hRl, hRi⟩ := mapM_inv _ _ _ hR
  have hsite : ∀ (p : ℕ × List (PLink d ℝ)) y, pSite D p = .ok y →
      ∃ ex, D.getNeighbors p.1 none none false = .ok ex ∧ y = (p.1, pFinal ex p.2) := by
    intro p y hy
    unfold pSite at hy
    split at hy
    · cases hy
    · rename_i ex hex
      cases hy
      exact ⟨ex, hex, rfl⟩
  refine ⟨k, maxDist, hq, ?_, ?_, ?_⟩
  · intro i ls hmem
    obtain ⟨hm, hne⟩ := List.mem_filter.1 hmem
    obtain ⟨n, hn⟩ := List.mem_iff_getElem?.1 hm
    have hlt : n < (pCollect env w.struct A k maxDist D.indices D.positions vecs).length := by
      rw [← hRl]; exact (List.getElem?_eq_some_iff.1 hn).1
    obtain ⟨y, hy, hys⟩ := hRi n _ (List.getElem?_eq_getElem hlt)
    rw [hn] at hy
    cases hy
    obtain ⟨ex, hex, e⟩ := hsite _ _ hys
    rw [Prod.mk.injEq] at e
    obtain ⟨e1, e2⟩ := e
    refine ⟨_, ex, ?_, by rw [e1]; exact hex, e2, by simpa using hne⟩
    rw [e1]
    exact List.getElem_mem hlt
  · intro i ms hmem
    obtain ⟨n, hn⟩ := List.mem_iff_getElem?.1 hmem
    obtain ⟨y, hy, hys⟩ := hRi n _ hn
    obtain ⟨ex, hex, rfl⟩ := hsite _ _ hys
    refine ⟨ex, hex, fun hne => List.mem_filter.2 ⟨List.mem_of_getElem? hy, by simpa using hne⟩⟩
  · intro hnd
    have hk : R.map Prod.fst =
        (pCollect env w.struct A k maxDist D.indices D.positions vecs).map Prod.fst := by
      apply List.ext_getElem?
      intro n
      rw [List.getElem?_map, List.getElem?_map]
      by_cases hn : n < (pCollect env w.struct A k maxDist D.indices D.positions vecs).length
      · obtain ⟨y, hy, hys⟩ := hRi n _ (List.getElem?_eq_getElem hn)
        obtain ⟨ex, -, rfl⟩ := hsite _ _ hys
        rw [hy, List.getElem?_eq_getElem hn]
        rfl
      · rw [List.getElem?_eq_none (by omega), List.getElem?_eq_none (by omega)]
    exact (hk ▸ hnd).sublist (List.filter_sublist.map _)

/-- C64 (restricted to lattices in which no pair of regular neighbours is also connected by one of
the translations, see `C64_small_fails`): every periodic neighbour found has the right translation
and distance, is not a regular neighbour, is listed once, and lists the site as its periodic
neighbour with the negated translation and the same distance (for a site which is its own periodic
neighbour only one of the two translations is kept). -/
theorem C64_symmetric_partial (hd : 0 < d) (h : PState env w A D axes primitive vecs)
    {Q : PDict d ℝ} (hQ : computePneighbors env w.struct D axes primitive = .ok Q)
    (hlarge : ∀ i ex, D.getNeighbors i none none false = .ok ex → ∀ j ∈ ex, ∀ v ∈ vecs, ∀ x,
      ¬ Image w.struct A D.indices D.positions i j v.2 x ∧
      ¬ Image w.struct A D.indices D.positions i j (-v.2) x) :
    (Q.map Prod.fst).Nodup ∧
    ∀ i ls, (i, ls) ∈ Q → (ls.map PLink.nbr).Nodup ∧ ∀ l ∈ ls,
      (∃ x : ℝ, l.dist = (x : WithTop ℝ) ∧
        Image w.struct A D.indices D.positions i l.nbr l.nvec x) ∧
      (∃ v ∈ vecs, l.axes = v.1 ∧ (l.nvec = v.2 ∨ l.nvec = -v.2)) ∧
      (∃ ex, D.getNeighbors i none none false = .ok ex ∧ l.nbr ∉ ex) ∧
      (l.nbr ≠ i → ∃ ms, (l.nbr, ms) ∈ Q ∧
        (⟨i, l.dist, -l.nvec, l.axes⟩ : PLink d ℝ) ∈ ms) := by
  obtain ⟨k, maxDist, hq, hQ1, hQ2, hQ3⟩ := h.result hQ
  obtain ⟨hat, hnd⟩ := atSite_pCollect env w.struct A k maxDist D.indices D.positions vecs
    fun v => (h.table hd hq v).2.1
  have hcol := h.collect hd hq
  -- no regular neighbour is collected
  have hreg : ∀ i ms ex, (i, ms) ∈ pCollect env w.struct A k maxDist D.indices D.positions vecs →
      D.getNeighbors i none none false = .ok ex → ∀ l ∈ ms, l.nbr ∉ ex := by
    intro i ms ex hm hex l hl hmem
    rw [← PDict.atSite_of_mem hnd hm] at hl
    obtain ⟨⟨x, -, hi⟩, v, hv, -, ht⟩ := hcol i l hl
    obtain ⟨g1, g2⟩ := hlarge i ex hex _ hmem v hv x
    rcases ht with ht | ht
    · rw [ht] at hi; exact g1 hi
    · rw [ht] at hi; exact g2 hi
  refine ⟨hQ3 hnd, ?_⟩
  intro i ls hils
  obtain ⟨ms, ex, hm, hex, rfl, hne⟩ := hQ1 i ls hils
  have hms := PDict.atSite_of_mem hnd hm
  refine ⟨pFinal_nodup _ _, ?_⟩
  intro l hl
  have hfirst := (mem_pFinal_iff (hreg i ms ex hm hex)).1 hl
  have hlm : l ∈ ms := (List.mem_filter.1 (List.mem_of_mem_head? hfirst)).1
  obtain ⟨himg, hvec⟩ := hcol i l (by rw [hms]; exact hlm)
  refine ⟨himg, hvec, ⟨ex, hex, (mem_pFinal hl).1⟩, ?_⟩
  intro hji
  obtain ⟨x, hx, p, q, a, b, h1, h2, h3, h4, -⟩ := himg
  have hi : i < D.indices.length := (List.getElem?_eq_some_iff.1 h3).1
  have hj : l.nbr < D.indices.length := (List.getElem?_eq_some_iff.1 h4).1
  have hmir := pCollect_mirror env w.struct A k maxDist D.indices D.positions vecs
    (fun v => (h.table hd hq v).2.1) hji.symm hi hj
  rw [hms] at hmir
  have hhead := congrArg List.head? hmir
  rw [List.head?_map, hfirst, Option.map_some] at hhead
  have hne' : (pCollect env w.struct A k maxDist D.indices D.positions vecs).atSite l.nbr ≠ [] := by
    intro he
    rw [he] at hhead
    simp at hhead
  have hmem := PDict.mem_of_atSite hne'
  obtain ⟨ex', hex', hin⟩ := hQ2 _ _ hmem
  have hml : mirror i l ∈ pFinal ex'
      ((pCollect env w.struct A k maxDist D.indices D.positions vecs).atSite l.nbr) :=
    (mem_pFinal_iff (hreg _ _ _ hmem hex')).2 hhead
  exact ⟨_, hin (List.ne_nil_of_mem hml), hml⟩

/-- C64, no repetition (all lattices): a periodic neighbour is never a regular neighbour, and every
site is listed at most once. -/
theorem C64_not_regular (hd : 0 < d) (h : PState env w A D axes primitive vecs)
    {Q : PDict d ℝ} (hQ : computePneighbors env w.struct D axes primitive = .ok Q) :
    (Q.map Prod.fst).Nodup ∧
    ∀ i ls, (i, ls) ∈ Q → (ls.map PLink.nbr).Nodup ∧
      ∃ ex, D.getNeighbors i none none false = .ok ex ∧ ∀ l ∈ ls, l.nbr ∉ ex := by
  obtain ⟨k, maxDist, hq, hQ1, hQ2, hQ3⟩ := h.result hQ
  obtain ⟨hat, hnd⟩ := atSite_pCollect env w.struct A k maxDist D.indices D.positions vecs
    fun v => (h.table hd hq v).2.1
  refine ⟨hQ3 hnd, ?_⟩
  intro i ls hils
  obtain ⟨ms, ex, hm, hex, rfl, hne⟩ := hQ1 i ls hils
  exact ⟨pFinal_nodup _ _, ex, hex, fun l hl => (mem_pFinal hl).1⟩

/-- C64, completeness (restricted to neighbours not cut off by the size of the query, as in C44):
sites connected across the boundary by one of the translations become periodic neighbours of each
other unless they are regular neighbours. -/
theorem C64_complete_partial (hd : 0 < d) (h : PState env w A D axes primitive vecs)
    {Q : PDict d ℝ} (hQ : computePneighbors env w.struct D axes primitive = .ok Q)
    (hres : ∀ y, RawDistance A y → 5 / 10 ^ 6 < y) {v : List ℕ × (Fin d → ℤ)} (hv : v ∈ vecs)
    {i j : ℕ} {x : ℝ} {p q : Vec d ℝ} (hi : Image w.struct A D.indices D.positions i j v.2 x)
    (hp : D.positions[i]? = some p) (hq : D.positions[j]? = some q)
    (hcount : closer D.positions (w.struct.basis.translate v.2 p) q ≤
      (A.rawNum.map List.sum).sum + 1) :
    (∃ ex, D.getNeighbors i none none false = .ok ex ∧
      (j ∉ ex → ∃ ls, (i, ls) ∈ Q ∧ j ∈ ls.map PLink.nbr)) ∧
    (∃ ex, D.getNeighbors j none none false = .ok ex ∧
      (i ∉ ex → ∃ ls, (j, ls) ∈ Q ∧ i ∈ ls.map PLink.nbr)) := by
  obtain ⟨k, maxDist, hqp, hQ1, hQ2, hQ3⟩ := h.result hQ
  obtain ⟨hat, hnd⟩ := atSite_pCollect env w.struct A k maxDist D.indices D.positions vecs
    fun v => (h.table hd hqp v).2.1
  obtain ⟨row, hrow, hmem⟩ := (h.table hd hqp v.2).2.2.2 hres i j x p q hi hp hq hcount
  have hj : j < D.indices.length := by
    rw [h.length]; exact (List.getElem?_eq_some_iff.1 hq).1
  have hz : (row, i) ∈ (pTable env w.struct A k maxDist D.indices D.positions v.2).zipIdx :=
    List.mem_zipIdx_iff_getElem?.2 hrow
  have key : ∀ (a b : ℕ) (l : PLink d ℝ), l.nbr = b →
      l ∈ contrib D.indices.length v.1 v.2 i row a →
      ∃ ex, D.getNeighbors a none none false = .ok ex ∧
        (b ∉ ex → ∃ ls, (a, ls) ∈ Q ∧ b ∈ ls.map PLink.nbr) := by
    intro a b l hb hl
    have hl' : l ∈ (pCollect env w.struct A k maxDist D.indices D.positions vecs).atSite a := by
      rw [hat]
      exact List.mem_flatMap.2 ⟨v, hv, List.mem_flatMap.2 ⟨_, hz, hl⟩⟩
    obtain ⟨ex, hex, hin⟩ := hQ2 _ _ (PDict.mem_of_atSite (List.ne_nil_of_mem hl'))
    refine ⟨ex, hex, fun hbe => ?_⟩
    have := nbr_mem_pFinal (existing := ex) hl' (by rw [hb]; exact hbe)
    rw [hb] at this
    refine ⟨_, hin ?_, this⟩
    intro he
    rw [he] at this
    cases this
  exact ⟨key i j ⟨j, x, v.2, v.1⟩ rfl (mem_contrib.2 ⟨rfl, Or.inl ⟨rfl, rfl, hj, hmem⟩⟩),
    key j i ⟨i, x, -v.2, v.1⟩ rfl (mem_contrib.2 ⟨rfl, Or.inr ⟨rfl, hj, rfl, hmem⟩⟩)⟩

/-- The search succeeds if all sites have a row. -/
theorem PState.exists_result (hd : 0 < d) (h : PState env w A D axes primitive vecs)
    (hq : ∃ k maxDist, queryParams A = .ok (k, maxDist))
    (hn : ∀ i < D.indices.length, ∃ ex, D.getNeighbors i none none false = .ok ex) :
    ∃ Q, computePneighbors env w.struct D axes primitive = .ok Q := by
  obtain ⟨k, maxDist, hq⟩ := hq
  have hkeys := keys_pCollect env w.struct A k maxDist D.indices D.positions vecs fun v => by
    rw [(h.table hd hq v).1, h.length]
  have hm : ∃ R, (pCollect env w.struct A k maxDist D.indices D.positions vecs).mapM
      (pSite D) = .ok R := by
    refine ⟨_, mapM_ok (pSite D) (fun p => match pSite D p with | .ok y => y | .error _ => p) _ ?_⟩
    intro p hp
    obtain ⟨ex, hex⟩ := hn p.1 (hkeys _ (List.mem_map_of_mem hp))
    unfold pSite
    rw [hex]
  obtain ⟨R, hR⟩ := hm
  unfold computePneighbors
  simp only [h.analysis, hq, h.vecs, hR]
  exact ⟨_, rfl⟩

/-- The stored tables list site `j` as a periodic neighbour of site `i` with translation `t` and
distance `x`. -/
def Per (E : LatticeData d ℝ) (i j : ℕ) (t : Fin d → ℤ) (x : ℝ) : Prop :=
  ∃ r, E.entries[i]? = some r ∧ ∃ e ∈ r, e.per = true ∧ e.nbr = j ∧ e.nvec = t ∧
    E.distvals[e.level]? = some (x : WithTop ℝ)

/-- The stored tables list site `j` as a regular neighbour of site `i`. -/
def Reg (E : LatticeData d ℝ) (i j : ℕ) : Prop :=
  ∃ l, E.getNeighbors i none (some false) false = .ok l ∧ j ∈ l

/-- The links left after lattice.py 620-642, on all lattices: each site is listed once, is no regular
neighbour and is connected by one of the translations; distance and translation are those of some
connection of the site (not necessarily the same, see `C64_small_fails`). -/
theorem PState.links (hd : 0 < d) (h : PState env w A D axes primitive vecs)
    {Q : PDict d ℝ} (hQ : computePneighbors env w.struct D axes primitive = .ok Q) :
    (Q.map Prod.fst).Nodup ∧
    ∀ i ls, (i, ls) ∈ Q → ls ≠ [] ∧ (ls.map PLink.nbr).Nodup ∧
      (∃ ex, D.getNeighbors i none none false = .ok ex ∧ ∀ l ∈ ls, l.nbr ∉ ex) ∧ ∀ l ∈ ls,
      (∃ x : ℝ, l.dist = (x : WithTop ℝ) ∧ ∃ j, Image w.struct A D.indices D.positions i j l.nvec x ∧
        ∃ v ∈ vecs, l.nvec = v.2 ∨ l.nvec = -v.2) ∧
      ∃ v ∈ vecs, ∃ x, Image w.struct A D.indices D.positions i l.nbr v.2 x ∨
        Image w.struct A D.indices D.positions i l.nbr (-v.2) x := by
  obtain ⟨k, maxDist, hq, hQ1, hQ2, hQ3⟩ := h.result hQ
  obtain ⟨hat, hnd⟩ := atSite_pCollect env w.struct A k maxDist D.indices D.positions vecs
    fun v => (h.table hd hq v).2.1
  refine ⟨hQ3 hnd, ?_⟩
  intro i ls hils
  obtain ⟨ms, ex, hm, hex, rfl, hne⟩ := hQ1 i ls hils
  have hms := PDict.atSite_of_mem hnd hm
  refine ⟨hne, pFinal_nodup _ _, ⟨ex, hex, fun l hl => (mem_pFinal hl).1⟩, fun l hl => ⟨?_, ?_⟩⟩
  · unfold pFinal at hl
    obtain ⟨j, -, e⟩ := List.mem_filterMap.1 hl
    obtain ⟨l', hl', rfl⟩ := Option.map_eq_some_iff.1 e
    have hl' := List.mem_of_getElem? hl'
    obtain ⟨⟨x, hx, himg⟩, v, hv, -, ht⟩ := h.collect hd hq i l' (by rw [hms]; exact hl')
    exact ⟨x, hx, l'.nbr, himg, v, hv, ht⟩
  · obtain ⟨l', hl', e⟩ := List.mem_map.1 (mem_pFinal hl).2
    obtain ⟨⟨x, -, himg⟩, v, hv, -, ht⟩ := h.collect hd hq i l' (by rw [hms]; exact hl')
    rw [e] at himg
    refine ⟨v, hv, x, ?_⟩
    rcases ht with ht | ht
    · rw [ht] at himg; exact Or.inl himg
    · rw [ht] at himg; exact Or.inr himg

/-- `set_periodic` stores the links computed. -/
theorem setPeriodic_core (hd : 0 < d) {L : Lattice d ℝ}
    (h : PState env L.world A D axes (L.primitive.getD false) vecs) {width : ℕ}
    (hL : L.data = some D) (hshape : L.shape ≠ none) (hr : D.Rect width)
    (hsort : D.distvals.Pairwise (· < ·))
    (hpack : ∀ (i : ℕ) r, D.entries[i]? = some r → ∃ a b, r = a ++ b ∧
      (∀ e ∈ a, e.level < D.invalidDistidx ∧ e.per = false) ∧
      ∀ e ∈ b, e.level = D.invalidDistidx ∨ e.per = true)
    (hq : ∃ k maxDist, queryParams A = .ok (k, maxDist))
    (hfree : ∀ i l, D.getNeighbors i none (some false) false = .ok l → ∀ J : List ℕ, J.Nodup →
      (∀ j ∈ J, j ∉ l ∧ ∃ v ∈ vecs, ∃ x, Image L.struct A D.indices D.positions i j v.2 x ∨
        Image L.struct A D.indices D.positions i j (-v.2) x) → l.length + J.length ≤ width)
    (hstored : ∀ i j x, (∃ v ∈ vecs, Image L.struct A D.indices D.positions i j v.2 x) →
      ∃ n < D.invalidDistidx, D.distvals[n]? = some (x : WithTop ℝ)) :
    ∃ D0 Q L' E, D.removePeriodic = .ok D0 ∧
      computePneighbors env L.struct D0 axes (L.primitive.getD false) = .ok Q ∧
      PState env L.world A D0 axes (L.primitive.getD false) vecs ∧
      L.setPeriodic env (.axes axes) = (L', .ok ()) ∧ L'.data = some E ∧
      E.indices = D.indices ∧ E.positions = D.positions ∧ E.distvals = D.distvals ∧
      (∀ i ex, D0.getNeighbors i none none false = .ok ex →
        i < D.numSites ∧ D.getNeighbors i none (some false) false = .ok ex) ∧
      (∀ i < D.numSites, ∃ l, D.getNeighbors i none (some false) false = .ok l ∧
        E.getNeighbors i none (some false) false = .ok l ∧
        E.getNeighbors i none (some true) false = .ok ((Q.atSite i).map PLink.nbr) ∧
        E.getNeighbors i none none false = .ok (l ++ (Q.atSite i).map PLink.nbr)) ∧
      (∀ i j t x, Per E i j t x ↔ ∃ l ∈ Q.atSite i, l.nbr = j ∧ l.nvec = t ∧
        l.dist = (x : WithTop ℝ)) ∧
      (∀ i, Q.atSite i ≠ [] → (i, Q.atSite i) ∈ Q) ∧
      L'.periodicAxes = if Q.isEmpty then L.periodicAxes else axes := by
  obtain ⟨D0, hD0, -⟩ := LatticeData.removePeriodic_cols hr.cols
  obtain ⟨s1, s2, -⟩ := removePeriodic_sites hD0
  have h0 : PState env L.world A D0 axes (L.primitive.getD false) vecs :=
    ⟨h.reach, h.analysis, by rw [s1, s2]; exact h.length, by rw [s1]; exact h.alpha, by
      rw [s1]; exact h.vecs⟩
  have hreg0 : ∀ i ex, D0.getNeighbors i none none false = .ok ex →
      i < D.numSites ∧ D.getNeighbors i none (some false) false = .ok ex := by
    intro i ex hex
    have hi := removePeriodic_lt hr hD0 hex
    exact ⟨hi, by rw [← removePeriodic_getNeighbors hr hD0 hi]; exact hex⟩
  obtain ⟨Q, hQ⟩ := h0.exists_result hd hq (by
    intro i hi
    rw [s1] at hi
    rw [removePeriodic_getNeighbors hr hD0 hi]
    obtain ⟨r, -, -, hg⟩ := hr.getNeighbors hi
    exact ⟨_, hg _ _ _⟩)
  obtain ⟨hnd, hsym⟩ := h0.links hd hQ
  rw [s1, s2] at hsym
  -- rows of the data
  have hregrow : ∀ i a b, D.entries[i]? = some (a ++ b) →
      (∀ e ∈ a, e.level < D.invalidDistidx ∧ e.per = false) →
      (∀ e ∈ b, e.level = D.invalidDistidx ∨ e.per = true) →
      D.getNeighbors i none (some false) false = .ok (a.map Entry.nbr) := by
    intro i a b h1 h2 h3
    rw [hr.cols.getNeighbors i _ h1, List.filter_append, List.filter_eq_self.2,
      List.filter_eq_nil_iff.2, List.append_nil]
    · intro e he
      rcases h3 e he with g | g
      · simp [LatticeData.sel, g]
      · simp [LatticeData.sel, g]
    · intro e he
      simp [LatticeData.sel, (h2 e he).1, (h2 e he).2]
  have hfitQ : ∀ i ls, (i, ls) ∈ Q → i < D.numSites ∧ ∀ a b, D.entries[i]? = some (a ++ b) →
      (∀ e ∈ a, e.level < D.invalidDistidx ∧ e.per = false) →
      (∀ e ∈ b, e.level = D.invalidDistidx ∨ e.per = true) → ls.length ≤ b.length := by
    intro i ls hmem
    obtain ⟨-, hln, ⟨ex, hex, hnot⟩, hl⟩ := hsym i ls hmem
    refine ⟨(hreg0 i ex hex).1, fun a b h1 h2 h3 => ?_⟩
    have hw : (a ++ b).length = width := hr.row_length _ (List.mem_of_getElem? h1)
    have hexa := (hreg0 i ex hex).2
    rw [hregrow i a b h1 h2 h3] at hexa
    have := hfree i _ (hregrow i a b h1 h2 h3) (ls.map PLink.nbr) hln (by
      intro j hj
      obtain ⟨l, hlm, rfl⟩ := List.mem_map.1 hj
      exact ⟨by rw [Except.ok.inj hexa]; exact hnot l hlm, (hl l hlm).2⟩)
    rw [List.length_map, List.length_map] at this
    rw [List.length_append] at hw
    omega
  obtain ⟨E, hset, cE, e1, e2, e3, e4, e5, e6, hrows⟩ := setPeriodic_stored env hL hshape hr hD0 hQ hnd
    (by
      intro p hp
      obtain ⟨hi, hfit⟩ := hfitQ p.1 p.2 hp
      obtain ⟨r, hr1, -⟩ := hr.getElem?_entries hi
      obtain ⟨a, b, rfl, h2, h3⟩ := hpack p.1 r hr1
      exact ⟨a, b, hr1, h2, h3, hfit a b hr1 h2 h3⟩)
  -- the stored levels
  have hlevel : ∀ i ls, (i, ls) ∈ Q → ∀ l ∈ ls,
      D.distvals[searchsorted D.distvals l.dist]? = some l.dist ∧
      searchsorted D.distvals l.dist < D.invalidDistidx := by
    intro i ls hmem l hl
    obtain ⟨x, hx, j, hi, v, hv, ht⟩ := ((hsym i ls hmem).2.2.2 l hl).1
    have hst : ∃ n < D.invalidDistidx, D.distvals[n]? = some (x : WithTop ℝ) := by
      rcases ht with ht | ht
      · exact hstored i j x ⟨v, hv, by rw [← ht]; exact hi⟩
      · refine hstored j i x ⟨v, hv, ?_⟩
        have := hi.symm hd h.reach h.analysis
        rw [ht, neg_neg] at this
        exact this
    obtain ⟨n, hn, hnx⟩ := hst
    rw [hx, searchsorted_eq_of_getElem? hsort hnx]
    exact ⟨hnx, hn⟩
  have hkey : ∀ i, Q.atSite i ≠ [] → (i, Q.atSite i) ∈ Q := fun i => PDict.mem_of_atSite
  -- all rows of the result
  have hrow : ∀ i < D.numSites, ∃ a b : List (Entry d), D.entries[i]? = some (a ++ b) ∧
      (∀ e ∈ a, e.level < D.invalidDistidx ∧ e.per = false) ∧
      (∀ e ∈ b, e.level = D.invalidDistidx ∧ e.per = false ∨ e.per = true ∧
        (LatticeData.clearEntry D.invalidIdx D.invalidDistidx e).level = D.invalidDistidx) ∧
      (Q.atSite i).length ≤ b.length ∧
      E.entries[i]? = some (a.map (LatticeData.clearEntry D.invalidIdx D.invalidDistidx) ++
          LatticeData.linkEntries D.distvals
            (b.map (LatticeData.clearEntry D.invalidIdx D.invalidDistidx)) (Q.atSite i) ++
          (b.map (LatticeData.clearEntry D.invalidIdx D.invalidDistidx)).drop
            (Q.atSite i).length) := by
    intro i hi
    obtain ⟨r, hr1, -⟩ := hr.getElem?_entries hi
    obtain ⟨a, b, rfl, h2, h3⟩ := hpack i r hr1
    refine ⟨a, b, hr1, h2, ?_, ?_, hrows i a b hr1 h2 h3⟩
    · intro e he
      cases hp : e.per with
      | true => right; exact ⟨rfl, by simp [LatticeData.clearEntry, hp]⟩
      | false =>
        left
        rcases h3 e he with g | g
        · exact ⟨g, rfl⟩
        · rw [hp] at g; cases g
    · by_cases hQi : Q.atSite i = []
      · rw [hQi]; simp
      · exact (hfitQ i _ (hkey i hQi)).2 a b hr1 h2 h3
  have hPer : ∀ i j t x, Per E i j t x ↔ ∃ l ∈ Q.atSite i, l.nbr = j ∧ l.nvec = t ∧
      l.dist = (x : WithTop ℝ) := by
    intro i j t x
    constructor
    · rintro ⟨r, hri, e, he, hper, hj, ht, hx⟩
      have hi : i < D.numSites := by
        have := (List.getElem?_eq_some_iff.1 hri).1
        rw [e6, hr.entries_length] at this
        exact this
      obtain ⟨a, b, -, -, -, hlen, hE⟩ := hrow i hi
      rw [hri] at hE
      cases hE
      rcases List.mem_append.1 he with he | he
      · rcases List.mem_append.1 he with he | he
        · obtain ⟨e', -, rfl⟩ := List.mem_map.1 he
          simp [LatticeData.clearEntry] at hper
        · obtain ⟨l, hl, g1, g2, g3⟩ := (mem_linkEntries (by rw [List.length_map]; exact hlen)).1
            ⟨e, he, hper, hj, ht, rfl⟩
          refine ⟨l, hl, g1, g2, ?_⟩
          have := (hlevel i _ (hkey i (List.ne_nil_of_mem hl)) l hl).1
          rw [g3, ← e3, hx] at this
          exact (Option.some.inj this).symm
      · obtain ⟨e', -, rfl⟩ := List.mem_map.1 (List.mem_of_mem_drop he)
        simp [LatticeData.clearEntry] at hper
    · rintro ⟨l, hl, hj, ht, hx⟩
      have hmem := hkey i (List.ne_nil_of_mem hl)
      obtain ⟨a, b, -, -, -, hlen, hE⟩ := hrow i (hfitQ i _ hmem).1
      obtain ⟨e, he, g1, g2, g3, g4⟩ := (mem_linkEntries (distvals := D.distvals)
        (old := b.map (LatticeData.clearEntry D.invalidIdx D.invalidDistidx))
        (by rw [List.length_map]; exact hlen)).2 ⟨l, hl, hj, ht, rfl⟩
      refine ⟨_, hE, e, List.mem_append_left _ (List.mem_append_right _ he), g1, g2, g3, ?_⟩
      rw [g4, e3, (hlevel i _ hmem l hl).1, hx]
  -- the neighbours
  have hnbrs : ∀ i < D.numSites, ∃ l, D.getNeighbors i none (some false) false = .ok l ∧
      E.getNeighbors i none (some false) false = .ok l ∧
      E.getNeighbors i none (some true) false = .ok ((Q.atSite i).map PLink.nbr) ∧
      E.getNeighbors i none none false = .ok (l ++ (Q.atSite i).map PLink.nbr) := by
    intro i hi
    obtain ⟨a, b, h1, h2, h3, hlen, hE⟩ := hrow i hi
    have hold : D.getNeighbors i none (some false) false = .ok (a.map Entry.nbr) := by
      refine hregrow i a b h1 h2 fun e he => ?_
      rcases h3 e he with g | g
      · exact Or.inl g.1
      · exact Or.inr g.1
    have ha : (a.map (LatticeData.clearEntry D.invalidIdx D.invalidDistidx)).map Entry.nbr =
        a.map Entry.nbr := by
      rw [List.map_map]
      refine List.map_congr_left fun e he => ?_
      simp [LatticeData.clearEntry, (h2 e he).2]
    have hain : ∀ e ∈ a.map (LatticeData.clearEntry D.invalidIdx D.invalidDistidx),
        e.level < E.invalidDistidx ∧ e.per = false := by
      intro e he
      obtain ⟨x, hx, rfl⟩ := List.mem_map.1 he
      rw [e5]
      exact ⟨by simp [LatticeData.clearEntry, (h2 x hx).2, (h2 x hx).1], rfl⟩
    have hlin : ∀ e ∈ LatticeData.linkEntries D.distvals
        (b.map (LatticeData.clearEntry D.invalidIdx D.invalidDistidx)) (Q.atSite i),
        e.level < E.invalidDistidx ∧ e.per = true := by
      intro e he
      have hp : e.per = true := by
        unfold LatticeData.linkEntries at he
        obtain ⟨k, hk, rfl⟩ := List.mem_iff_getElem.1 he
        simp only [List.getElem_zipWith]
      obtain ⟨l, hl, -, -, g⟩ := (mem_linkEntries (by rw [List.length_map]; exact hlen)).1
        ⟨e, he, hp, rfl, rfl, rfl⟩
      rw [e5, ← g]
      exact ⟨(hlevel i _ (hkey i (List.ne_nil_of_mem hl)) l hl).2, hp⟩
    have hbin : ∀ e ∈ (b.map (LatticeData.clearEntry D.invalidIdx D.invalidDistidx)).drop
        (Q.atSite i).length, e.level = E.invalidDistidx := by
      intro e he
      obtain ⟨x, hx, rfl⟩ := List.mem_map.1 (List.mem_of_mem_drop he)
      rw [e5]
      rcases h3 x hx with g | g
      · simp [LatticeData.clearEntry, g.1]
      · exact g.2
    have hsel : ∀ (pr : Option Bool) (x : List (Entry d)) (bo : Bool),
        (∀ e ∈ x, E.sel i none pr false e = bo) → x.filter (E.sel i none pr false) =
          if bo then x else [] := by
      intro pr x bo hx
      cases bo with
      | true => exact List.filter_eq_self.2 hx
      | false => exact List.filter_eq_nil_iff.2 fun e he => by simp [hx e he]
    refine ⟨_, hold, ?_, ?_, ?_⟩
    · rw [cE.getNeighbors i _ hE, List.filter_append, List.filter_append,
        hsel _ _ true (fun e he => by simp [LatticeData.sel, hain e he]),
        hsel _ _ false (fun e he => by simp [LatticeData.sel, hlin e he]),
        hsel _ _ false (fun e he => by simp [LatticeData.sel, hbin e he])]
      simp only [if_true, Bool.false_eq_true, if_false, List.append_nil]
      rw [ha]
    · rw [cE.getNeighbors i _ hE, List.filter_append, List.filter_append,
        hsel _ _ false (fun e he => by simp [LatticeData.sel, hain e he]),
        hsel _ _ true (fun e he => by simp [LatticeData.sel, hlin e he]),
        hsel _ _ false (fun e he => by simp [LatticeData.sel, hbin e he])]
      simp only [if_true, Bool.false_eq_true, if_false, List.append_nil, List.nil_append]
      rw [linkEntries_map_nbr (by rw [List.length_map]; exact hlen)]
    · rw [cE.getNeighbors i _ hE, List.filter_append, List.filter_append,
        hsel _ _ true (fun e he => by simp [LatticeData.sel, hain e he]),
        hsel _ _ true (fun e he => by simp [LatticeData.sel, hlin e he]),
        hsel _ _ false (fun e he => by simp [LatticeData.sel, hbin e he])]
      simp only [if_true, Bool.false_eq_true, if_false, List.append_nil]
      rw [List.map_append, ha, linkEntries_map_nbr (by rw [List.length_map]; exact hlen)]
  refine ⟨D0, Q, _, E, hD0, hQ, h0, hset, rfl, e1, e2, e3, hreg0, hnbrs, hPer, hkey, rfl⟩

/-- C64 for `set_periodic` (restricted to data whose rows have no gaps and enough room, to lattices
in which no pair of regular neighbours is also connected by one of the translations, and to
translations for which the distances are stored): the regular neighbours stay as they are, every
periodic neighbour has the right translation and distance, is no regular neighbour, and lists the
site as its periodic neighbour with the negated translation and the same distance; all connections
across the boundary which are not cut off by the query size are found. -/
theorem C64_set_periodic_partial (hd : 0 < d) {L : Lattice d ℝ}
    (h : PState env L.world A D axes (L.primitive.getD false) vecs) {width : ℕ}
    (hL : L.data = some D) (hshape : L.shape ≠ none) (hr : D.Rect width)
    (hsort : D.distvals.Pairwise (· < ·))
    (hpack : ∀ (i : ℕ) r, D.entries[i]? = some r → ∃ a b, r = a ++ b ∧
      (∀ e ∈ a, e.level < D.invalidDistidx ∧ e.per = false) ∧
      ∀ e ∈ b, e.level = D.invalidDistidx ∨ e.per = true)
    (hq : ∃ k maxDist, queryParams A = .ok (k, maxDist))
    (hlarge : ∀ i j, Reg D i j → ∀ v ∈ vecs, ∀ x,
      ¬ Image L.struct A D.indices D.positions i j v.2 x ∧
      ¬ Image L.struct A D.indices D.positions i j (-v.2) x)
    (hfree : ∀ i l, D.getNeighbors i none (some false) false = .ok l → ∀ J : List ℕ, J.Nodup →
      (∀ j ∈ J, ∃ v ∈ vecs, ∃ x, Image L.struct A D.indices D.positions i j v.2 x ∨
        Image L.struct A D.indices D.positions i j (-v.2) x) → l.length + J.length ≤ width)
    (hstored : ∀ i j x, (∃ v ∈ vecs, Image L.struct A D.indices D.positions i j v.2 x) →
      ∃ n < D.invalidDistidx, D.distvals[n]? = some (x : WithTop ℝ)) :
    ∃ L' E, L.setPeriodic env (.axes axes) = (L', .ok ()) ∧ L'.data = some E ∧
      E.indices = D.indices ∧ E.positions = D.positions ∧ E.distvals = D.distvals ∧
      (∀ i < D.numSites, ∃ l, D.getNeighbors i none (some false) false = .ok l ∧
        E.getNeighbors i none (some false) false = .ok l ∧
        ∃ l', E.getNeighbors i none (some true) false = .ok l' ∧ l'.Nodup ∧
          E.getNeighbors i none none false = .ok (l ++ l') ∧
          ∀ j, j ∈ l' ↔ ∃ t x, Per E i j t x) ∧
      (∀ i j t x, Per E i j t x →
        (Image L.struct A D.indices D.positions i j t x ∧
          ∃ v ∈ vecs, t = v.2 ∨ t = -v.2) ∧
        ¬ Reg E i j ∧ (j ≠ i → Per E j i (-t) x)) ∧
      ((∀ y, RawDistance A y → 5 / 10 ^ 6 < y) → ∀ v ∈ vecs, ∀ i j x p q,
        Image L.struct A D.indices D.positions i j v.2 x → D.positions[i]? = some p →
        D.positions[j]? = some q →
        closer D.positions (L.struct.basis.translate v.2 p) q ≤
          (A.rawNum.map List.sum).sum + 1 →
        (Reg E i j ∨ ∃ t y, Per E i j t y) ∧ (Reg E j i ∨ ∃ t y, Per E j i t y)) ∧
      ((∃ i j t x, Per E i j t x) → L'.periodicAxes = axes) := by
  obtain ⟨D0, Q, L', E, hD0, hQ, h0, hset, hE, e1, e2, e3, hreg0, hnbrs, hPer, hkey, hax⟩ :=
    setPeriodic_core hd h hL hshape hr hsort hpack hq
      (fun i l hl J hJ hJi => hfree i l hl J hJ fun j hj => (hJi j hj).2) hstored
  obtain ⟨s1, s2, -⟩ := removePeriodic_sites hD0
  obtain ⟨hnd, hsym⟩ := C64_symmetric_partial hd h0 hQ (by
    intro i ex hex j hj v hv x
    rw [s1, s2]
    exact hlarge i j ⟨ex, (hreg0 i ex hex).2, hj⟩ v hv x)
  rw [s1, s2] at hsym
  have hReg : ∀ i j, i < D.numSites → (Reg E i j ↔ Reg D i j) := by
    intro i j hi
    obtain ⟨l, h1, h2, -⟩ := hnbrs i hi
    unfold Reg
    rw [h1, h2]
  refine ⟨L', E, hset, hE, e1, e2, e3, ?_, ?_, ?_, ?_⟩
  · intro i hi
    obtain ⟨l, h1, h2, h3, h4⟩ := hnbrs i hi
    refine ⟨l, h1, h2, _, h3, ?_, h4, ?_⟩
    · by_cases hQi : Q.atSite i = []
      · rw [hQi]; simp
      · exact (hsym i _ (hkey i hQi)).1
    · intro j
      constructor
      · intro hj
        obtain ⟨l, hl, rfl⟩ := List.mem_map.1 hj
        obtain ⟨⟨x, hx, -⟩, -⟩ := (hsym i _ (hkey i (List.ne_nil_of_mem hl))).2 l hl
        exact ⟨l.nvec, x, (hPer _ _ _ _).2 ⟨l, hl, rfl, rfl, hx⟩⟩
      · rintro ⟨t, x, hper⟩
        obtain ⟨l, hl, rfl, -⟩ := (hPer _ _ _ _).1 hper
        exact List.mem_map_of_mem hl
  · intro i j t x hper
    obtain ⟨l, hl, rfl, rfl, hx⟩ := (hPer _ _ _ _).1 hper
    have hmem := hkey i (List.ne_nil_of_mem hl)
    obtain ⟨⟨x', hx', himg⟩, ⟨v, hv, -, ht⟩, ⟨ex, hex, hnot⟩, hback⟩ := (hsym i _ hmem).2 l hl
    obtain rfl : x' = x := by rw [hx', WithTop.coe_inj] at hx; exact hx
    refine ⟨⟨himg, v, hv, ht⟩, ?_, ?_⟩
    · obtain ⟨hi, hexD⟩ := hreg0 i ex hex
      rw [hReg i _ hi]
      rintro ⟨l', hl', hin⟩
      rw [hexD] at hl'
      cases hl'
      exact hnot hin
    · intro hji
      obtain ⟨ms, hms, hin⟩ := hback hji
      rw [← PDict.atSite_of_mem hnd hms] at hin
      exact (hPer _ _ _ _).2 ⟨_, hin, rfl, rfl, hx⟩
  · intro hres v hv i j x p q himg hp hq' hcount
    obtain ⟨⟨ex, hex, g1⟩, ⟨ex', hex', g2⟩⟩ := C64_complete_partial hd h0 hQ hres hv
      (by rw [s1, s2]; exact himg) (by rw [s2]; exact hp) (by rw [s2]; exact hq')
      (by rw [s2]; exact hcount)
    have key : ∀ a b ex, D0.getNeighbors a none none false = .ok ex →
        (b ∉ ex → ∃ ls, (a, ls) ∈ Q ∧ b ∈ ls.map PLink.nbr) →
        Reg E a b ∨ ∃ t y, Per E a b t y := by
      intro a b ex hex g
      obtain ⟨hi, hexD⟩ := hreg0 a ex hex
      by_cases hb : b ∈ ex
      · exact Or.inl ((hReg a b hi).2 ⟨ex, hexD, hb⟩)
      · right
        obtain ⟨ls, hls, hin⟩ := g hb
        obtain ⟨l, hl, rfl⟩ := List.mem_map.1 hin
        obtain ⟨⟨y, hy, -⟩, -⟩ := (hsym a ls hls).2 l hl
        refine ⟨l.nvec, y, (hPer _ _ _ _).2 ⟨l, ?_, rfl, rfl, hy⟩⟩
        rw [PDict.atSite_of_mem hnd hls]
        exact hl
    exact ⟨key i j ex hex g1, key j i ex' hex' g2⟩
  · rintro ⟨i, j, t, x, hper⟩
    obtain ⟨l, hl, -⟩ := (hPer _ _ _ _).1 hper
    have hmem := hkey i (List.ne_nil_of_mem hl)
    rw [hax, if_neg]
    intro he
    rw [List.isEmpty_iff] at he
    rw [he] at hmem
    cases hmem

end Lattice

end Lattpy
