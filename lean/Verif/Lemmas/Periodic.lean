import Verif.Lemmas.LatticeBuilt

/-!
# The search for periodic neighbours
-/

set_option autoImplicit false
set_option linter.unusedSectionVars false

namespace Lattpy

open Structure

variable {d : ℕ}

/-- `_filter_neighbors` only uses the atom numbers of the query points. -/
theorem filterNeighbors_shift (env : Env ℝ) (dm : List (List (List ℝ))) (indices : List (Idx d))
    (table : List (List (ℕ × WithTop ℝ))) (v : Fin d → ℤ) :
    filterNeighbors env dm indices table (indices.map (shiftIdx v)) =
      filterNeighbors env dm indices table indices := by
  unfold filterNeighbors
  have h : List.zipWith (fun row (x : Idx d) => filterRow dm indices x.alpha row) table
      (indices.map (shiftIdx v)) =
      List.zipWith (fun row (x : Idx d) => filterRow dm indices x.alpha row) table indices := by
    rw [List.zipWith_map_right]
    congr 1
    funext row x
    simp [shiftIdx]
  rw [h]

theorem pointDist_getD (points : List (Vec d ℝ)) (q : Vec d ℝ) {i : ℕ} (h : i < points.length) :
    pointDist points q i = distance (points.getD i 0) q := by
  simp [pointDist, h]

/-- The rows of the table of the sites translated by `v`: `sel` is the selection of the tree
query. -/
theorem pTable_rows (env : Env ℝ) {S : Structure d ℝ} {cells m c A}
    (hA : IsAnalysis S cells m c A) {k : ℕ} {maxDist : ℝ}
    (hq : queryParams A = .ok (k, maxDist)) (indices : List (Idx d))
    (positions : List (Vec d ℝ)) (hlen : indices.length = positions.length)
    (halpha : ∀ x ∈ indices, 0 ≤ x.alpha ∧ x.alpha < S.numBase) (v : Fin d → ℤ) :
    (Lattice.pTable env S A k maxDist indices positions v).length = positions.length ∧
    ∀ (i : ℕ) (p : Vec d ℝ) (x : Idx d), positions[i]? = some p → indices[i]? = some x →
      ∃ (row : List (ℕ × WithTop ℝ)) (sel : List ℕ),
        (Lattice.pTable env S A k maxDist indices positions v)[i]? = some row ∧
        (row.map Prod.snd).Pairwise (· ≤ ·) ∧
        (∀ e ∈ row, e.2 = ⊤ → e.1 = positions.length) ∧
        (row.filter isLink).Perm ((sel.filter fun j => connectedAt A.distMatrix x.alpha
          (Structure.alphaOf indices j)
          (distance (positions.getD j 0) (S.basis.translate v p) (some 6) : ℝ)).map fun j =>
            (j, ((distance (positions.getD j 0) (S.basis.translate v p) (some 6) : ℝ) :
              WithTop ℝ))) ∧
        sel.Nodup ∧
        (∀ j ∈ sel, j < positions.length ∧
          distance (positions.getD j 0) (S.basis.translate v p) ≤ maxDist) ∧
        (∀ j < positions.length, distance (positions.getD j 0) (S.basis.translate v p) < maxDist →
          ((List.range positions.length).filter fun a => decide
            (distance (positions.getD a 0) (S.basis.translate v p) ≤
              distance (positions.getD j 0) (S.basis.translate v p))).length ≤ k → j ∈ sel) := by
  obtain ⟨-, hk, hpos, -⟩ := hA.queryParams hq
  obtain ⟨sel, drop, w, hS, hdrop, hw1, -, -, -, hN, hD⟩ :=
    kdQuery_normal env positions k (by omega) (maxDist : WithTop ℝ)
      (positions.map (S.basis.translate v)) (some distDecimals) false true
  unfold Lattice.pTable
  dsimp only
  rw [filterNeighbors_shift, hN, hD]
  set T := List.zipWith List.zip ((positions.map (S.basis.translate v)).map fun q =>
      (sel q).drop drop.toNat ++
        List.replicate (w - ((sel q).drop drop.toNat).length) positions.length)
    ((positions.map (S.basis.translate v)).map fun q => ((sel q).drop drop.toNat).map
        (fun j => ((rnd (some distDecimals) (pointDist positions q j) : ℝ) : WithTop ℝ)) ++
      List.replicate (w - ((sel q).drop drop.toNat).length) ⊤) with hT
  have hTl : T.length = indices.length := by simp [hT, hlen]
  have hTrow : ∀ row ∈ T, row.length = w := by
    intro row hrow
    rw [hT, List.zipWith_map, List.zipWith_self] at hrow
    obtain ⟨q, hq, rfl⟩ := List.mem_map.1 hrow
    have := hw1 q hq
    simp only [List.length_zip, List.length_append, List.length_replicate, List.length_map]
    omega
  obtain ⟨hFl, w', hF⟩ := filterNeighbors_rows env A.distMatrix indices T w hTl hTrow
  refine ⟨by rw [hFl, hTl, hlen], ?_⟩
  intro i p x hp hx
  set q := S.basis.translate v p with hqd
  have hqm : q ∈ positions.map (S.basis.translate v) :=
    List.mem_map_of_mem (List.mem_of_getElem? hp)
  have hTi : T[i]? = some (((sel q).drop drop.toNat ++
      List.replicate (w - ((sel q).drop drop.toNat).length) indices.length).zip
      (((sel q).drop drop.toNat).map
        (fun j => ((rnd (some distDecimals) (pointDist positions q j) : ℝ) : WithTop ℝ)) ++
        List.replicate (w - ((sel q).drop drop.toNat).length) ⊤)) := by
    rw [hT, List.zipWith_map, List.zipWith_self, List.getElem?_map, List.getElem?_map, hp, hlen]
    rfl
  obtain ⟨row', g1, -, g3, g4, g5⟩ := hF i _ x hTi hx
  obtain ⟨f1, f2⟩ := filterRow_links A.distMatrix indices x.alpha ((sel q).drop drop.toNat)
    (fun j => rnd (some distDecimals) (pointDist positions q j))
    (w - ((sel q).drop drop.toNat).length)
  rw [f1] at g4
  refine ⟨row', sel q, g1, g3, ?_, ?_, (hS q).nodup, ?_, ?_⟩
  · intro e he htop
    rcases g5 e he with h | h
    · rw [← hlen]; exact f2 e h htop
    · rw [h, hlen]
  · refine g4.trans (List.Perm.of_eq ?_)
    have h1 : ((sel q).drop drop.toNat).filter (fun j => connectedAt A.distMatrix x.alpha
        (Structure.alphaOf indices j) (rnd (some distDecimals) (pointDist positions q j) : ℝ)) =
        (sel q).filter (fun j => connectedAt A.distMatrix x.alpha
        (Structure.alphaOf indices j) (rnd (some distDecimals) (pointDist positions q j) : ℝ)) := by
      cases hdr : drop with
      | false => rfl
      | true =>
        obtain ⟨j, hj, hj0⟩ := (hdrop.1 hdr).2 q hqm
        cases hs : sel q with
        | nil => rfl
        | cons a l =>
          rw [hs] at hj
          obtain rfl : a = j := by simpa using hj
          have ha : a < positions.length := ((hS q).range a (by rw [hs]; simp)).1
          have hfalse : connectedAt A.distMatrix x.alpha (Structure.alphaOf indices a)
              ((rnd (some distDecimals) (pointDist positions q a) : ℝ) : WithTop ℝ) = false := by
            have hb : Structure.alphaOf indices a = (indices[a]'(by omega)).alpha := by
              simp [Structure.alphaOf, hlen, ha]
            rw [hj0, hb, Bool.eq_false_iff, Ne, connectedAt_iff hA
              (halpha _ (List.mem_of_getElem? hx)) (halpha _ (List.getElem_mem _)), hA.configured]
            rintro ⟨-, -, -, -, hlev⟩
            have := (mem_levels.1 (List.mem_of_mem_take hlev)).1
            simp [rnd, npRound_zero] at this
          rw [Bool.toNat_true, List.drop_one, List.tail_cons, List.filter_cons, hfalse]
          rfl
    rw [h1]
    have h2 : ∀ j ∈ sel q, rnd (some distDecimals) (pointDist positions q j) =
        distance (positions.getD j 0) q (some 6) := by
      intro j hj
      rw [pointDist_getD _ _ ((hS q).range j hj).1]
      rfl
    have h3 : (sel q).filter (fun j => connectedAt A.distMatrix x.alpha
        (Structure.alphaOf indices j) (rnd (some distDecimals) (pointDist positions q j) : ℝ)) =
        (sel q).filter (fun j => connectedAt A.distMatrix x.alpha
        (Structure.alphaOf indices j) (distance (positions.getD j 0) q (some 6) : ℝ)) := by
      apply List.filter_congr
      intro j hj
      rw [h2 j hj]
    rw [h3]
    apply List.map_congr_left
    intro j hj
    rw [h2 j (List.mem_filter.1 hj).1]
  · intro j hj
    obtain ⟨h1, h2⟩ := (hS q).range j hj
    rw [pointDist_getD _ _ h1] at h2
    exact ⟨h1, by exact_mod_cast h2⟩
  · intro j hj hlt hcount
    by_contra hns
    obtain ⟨h1, h2⟩ := (hS q).complete j hj (by
      rw [pointDist_getD _ _ hj]; exact_mod_cast hlt) hns
    have hsub : j :: sel q ⊆ (List.range positions.length).filter fun a => decide
        (distance (positions.getD a 0) q ≤ distance (positions.getD j 0) q) := by
      intro a ha
      rw [List.mem_filter, List.mem_range, decide_eq_true_eq]
      rcases List.mem_cons.1 ha with rfl | ha
      · exact ⟨hj, le_rfl⟩
      · have h3 := ((hS q).range a ha).1
        have h4 := h2 a ha
        rw [pointDist_getD _ _ h3, pointDist_getD _ _ hj] at h4
        exact ⟨h3, h4⟩
    have hnd : (j :: sel q).Nodup := List.nodup_cons.2 ⟨hns, (hS q).nodup⟩
    have := (hnd.subperm hsub).length_le
    simp only [List.length_cons] at this
    omega

/-! ### the dictionaries -/

namespace Lattice

open LatticeData (PLink)

/-- The periodic neighbours stored for site `i`. -/
def PDict.atSite {K : Type*} : PDict d K → ℕ → List (PLink d K)
  | [], _ => []
  | (j, ms) :: P, i => if j = i then ms else PDict.atSite P i

theorem PDict.atSite_extend {K : Type*} (P : PDict d K) (i : ℕ) (ls : List (PLink d K)) (j : ℕ) :
    (P.extend i ls).atSite j = P.atSite j ++ if i = j then ls else [] := by
  induction P with
  | nil => simp [PDict.extend, PDict.atSite]
  | cons p P ih =>
    obtain ⟨k, ms⟩ := p
    simp only [PDict.extend]
    split_ifs with h1 h2 h2
    · subst h1 h2; simp [PDict.atSite]
    · subst h1; simp [PDict.atSite, h2]
    · subst h2
      simp only [PDict.atSite, if_neg h1, ih, if_true]
    · simp only [PDict.atSite, ih, if_neg h2, List.append_nil]

theorem PDict.mem_extend {K : Type*} (P : PDict d K) (i : ℕ) (ls : List (PLink d K)) (j : ℕ) :
    j ∈ (P.extend i ls).map Prod.fst ↔ j = i ∨ j ∈ P.map Prod.fst := by
  induction P with
  | nil => simp [PDict.extend]
  | cons p P ih =>
    obtain ⟨k, ms⟩ := p
    simp only [PDict.extend]
    split_ifs with h1
    · subst h1; simp
    · simp only [List.map_cons, List.mem_cons, ih]
      tauto

theorem PDict.nodup_extend {K : Type*} (P : PDict d K) (i : ℕ) (ls : List (PLink d K))
    (h : (P.map Prod.fst).Nodup) : ((P.extend i ls).map Prod.fst).Nodup := by
  induction P with
  | nil => simp [PDict.extend]
  | cons p P ih =>
    obtain ⟨k, ms⟩ := p
    rw [List.map_cons, List.nodup_cons] at h
    simp only [PDict.extend]
    split_ifs with h1
    · rw [List.map_cons, List.nodup_cons]; exact h
    · rw [List.map_cons, List.nodup_cons]
      refine ⟨?_, ih h.2⟩
      rw [PDict.mem_extend]
      rintro (h2 | h2)
      · exact h1 h2
      · exact h.1 h2

theorem PDict.atSite_of_mem {K : Type*} {P : PDict d K} (h : (P.map Prod.fst).Nodup) {i : ℕ}
    {ls : List (PLink d K)} (hm : (i, ls) ∈ P) : P.atSite i = ls := by
  induction P with
  | nil => cases hm
  | cons p P ih =>
    obtain ⟨k, ms⟩ := p
    rw [List.map_cons, List.nodup_cons] at h
    rcases List.mem_cons.1 hm with e | hm
    · cases e; simp [PDict.atSite]
    · have : k ≠ i := by
        rintro rfl
        exact h.1 (List.mem_map.2 ⟨_, hm, rfl⟩)
      rw [PDict.atSite, if_neg this]
      exact ih h.2 hm

theorem PDict.mem_of_atSite {K : Type*} {P : PDict d K} {i : ℕ} (h : P.atSite i ≠ []) :
    (i, P.atSite i) ∈ P := by
  induction P with
  | nil => exact absurd rfl h
  | cons p P ih =>
    obtain ⟨k, ms⟩ := p
    rw [PDict.atSite] at h ⊢
    split_ifs with h1
    · subst h1; simp
    · rw [if_neg h1] at h
      exact List.mem_cons_of_mem _ (ih h)

/-- The contribution of the row of `site` to the periodic neighbours of `j`. -/
def contrib {K : Type*} (n : ℕ) (axes : List ℕ) (nvec : Fin d → ℤ) (site : ℕ)
    (row : List (ℕ × WithTop K)) (j : ℕ) : List (PLink d K) :=
  (if site = j then (row.filter fun p => decide (p.1 < n)).map
    fun p => ⟨p.1, p.2, nvec, axes⟩ else []) ++
  ((row.filter fun p => decide (p.1 < n)).filter fun p => decide (p.1 = j)).map
    fun p => ⟨site, p.2, -nvec, axes⟩

/-- A row of the table: only padding has the invalid distance. -/
def GoodRow {K : Type*} (n : ℕ) (row : List (ℕ × WithTop K)) : Prop := ∀ e ∈ row, e.2 = ⊤ → e.1 = n

theorem foldl_back {K : Type*} (site : ℕ) (nvec : Fin d → ℤ) (axes : List ℕ)
    (valid : List (ℕ × WithTop K)) (P : PDict d K) :
    (∀ j, (valid.foldl (fun P p => PDict.extend P p.1 [⟨site, p.2, -nvec, axes⟩]) P).atSite j =
      P.atSite j ++ (valid.filter fun p => decide (p.1 = j)).map
        fun p => ⟨site, p.2, -nvec, axes⟩) ∧
    ((P.map Prod.fst).Nodup →
      ((valid.foldl (fun P p => PDict.extend P p.1 [⟨site, p.2, -nvec, axes⟩]) P).map
        Prod.fst).Nodup) := by
  induction valid generalizing P with
  | nil => simp
  | cons a l ih =>
    obtain ⟨h1, h2⟩ := ih (P.extend a.1 [⟨site, a.2, -nvec, axes⟩])
    rw [List.foldl_cons]
    refine ⟨fun j => ?_, fun h => h2 (P.nodup_extend _ _ h)⟩
    rw [h1, PDict.atSite_extend, List.filter_cons]
    by_cases h : a.1 = j
    · simp [h]
    · simp [h]

theorem atSite_pRow {n : ℕ} {axes : List ℕ} {nvec : Fin d → ℤ} (P : PDict d ℝ) (site : ℕ)
    {row : List (ℕ × WithTop ℝ)} (hrow : GoodRow n row) :
    (∀ j, (pRow n axes nvec P site row).atSite j =
      P.atSite j ++ contrib n axes nvec site row j) ∧
    ((P.map Prod.fst).Nodup → ((pRow n axes nvec P site row).map Prod.fst).Nodup) := by
  unfold pRow
  split_ifs with h
  · dsimp only
    obtain ⟨h1, h2⟩ := foldl_back site nvec axes (row.filter fun p => decide (p.1 < n))
      (P.extend site ((row.filter fun p => decide (p.1 < n)).map fun p => ⟨p.1, p.2, nvec, axes⟩))
    refine ⟨fun j => ?_, fun hP => h2 (P.nodup_extend _ _ hP)⟩
    rw [h1, PDict.atSite_extend, contrib, List.append_assoc]
  · refine ⟨fun j => ?_, id⟩
    have hv : (row.filter fun p => decide (p.1 < n)) = [] := by
      rw [List.filter_eq_nil_iff]
      intro e he
      have h3 : e.2 = ⊤ := by
        by_contra h4
        exact h (List.any_eq_true.2 ⟨e, he, by simpa using h4⟩)
      rw [hrow e he h3]
      simp
    simp [contrib, hv]

theorem foldl_atSite {α : Type*} (f : PDict d ℝ → α → PDict d ℝ)
    (g : α → ℕ → List (PLink d ℝ)) (l : List α)
    (h : ∀ a ∈ l, ∀ P, (∀ j, (f P a).atSite j = P.atSite j ++ g a j) ∧
      ((P.map Prod.fst).Nodup → ((f P a).map Prod.fst).Nodup)) (P : PDict d ℝ) :
    (∀ j, (l.foldl f P).atSite j = P.atSite j ++ l.flatMap fun a => g a j) ∧
      ((P.map Prod.fst).Nodup → ((l.foldl f P).map Prod.fst).Nodup) := by
  induction l generalizing P with
  | nil => simp
  | cons a l ih =>
    obtain ⟨h1, h2⟩ := ih (fun b hb => h b (List.mem_cons_of_mem _ hb)) (f P a)
    obtain ⟨h3, h4⟩ := h a (by simp) P
    rw [List.foldl_cons]
    refine ⟨fun j => ?_, fun hP => h2 (h4 hP)⟩
    rw [h1, h3, List.flatMap_cons, List.append_assoc]

/-- All periodic neighbours collected for a site. -/
theorem atSite_pCollect (env : Env ℝ) (S : Structure d ℝ) (A : Analysis d ℝ) (k : ℕ)
    (maxDist : ℝ) (indices : List (Idx d)) (positions : List (Vec d ℝ))
    (vecs : List (List ℕ × (Fin d → ℤ)))
    (hgood : ∀ v, ∀ row ∈ pTable env S A k maxDist indices positions v,
      GoodRow indices.length row) :
    (∀ j, (pCollect env S A k maxDist indices positions vecs).atSite j =
      vecs.flatMap fun v => (pTable env S A k maxDist indices positions v.2).zipIdx.flatMap
        fun r => contrib indices.length v.1 v.2 r.2 r.1 j) ∧
    ((pCollect env S A k maxDist indices positions vecs).map Prod.fst).Nodup := by
  have := foldl_atSite (fun P v =>
    (pTable env S A k maxDist indices positions v.2).zipIdx.foldl
      (fun P r => pRow indices.length v.1 v.2 P r.2 r.1) P)
    (fun v j => (pTable env S A k maxDist indices positions v.2).zipIdx.flatMap
        fun r => contrib indices.length v.1 v.2 r.2 r.1 j) vecs (by
      intro v _ P
      exact foldl_atSite (fun P (r : List (ℕ × WithTop ℝ) × ℕ) =>
        pRow indices.length v.1 v.2 P r.2 r.1)
        (fun r j => contrib indices.length v.1 v.2 r.2 r.1 j)
        (pTable env S A k maxDist indices positions v.2).zipIdx (by
          intro r hr P
          exact atSite_pRow P r.2 (hgood v.2 r.1 (List.fst_mem_of_mem_zipIdx hr))) P) []
  refine ⟨fun j => ?_, this.2 (by simp)⟩
  rw [pCollect, this.1]
  rfl

/-- The same link seen from the other site. -/
def mirror {K : Type*} (i : ℕ) (l : PLink d K) : PLink d K := ⟨i, l.dist, -l.nvec, l.axes⟩

theorem contrib_mirror {K : Type*} (n : ℕ) (axes : List ℕ) (nvec : Fin d → ℤ) (site : ℕ)
    (row : List (ℕ × WithTop K)) {i j : ℕ} (hij : i ≠ j) (hi : i < n) (hj : j < n) :
    (contrib n axes nvec site row j).filter (fun l => decide (l.nbr = i)) =
      ((contrib n axes nvec site row i).filter fun l => decide (l.nbr = j)).map (mirror i) := by
  have key : ∀ a b : ℕ, a ≠ b → b < n →
      (contrib n axes nvec a row a).filter (fun l => decide (l.nbr = b)) =
        (row.filter fun p => decide (p.1 = b)).map fun p => ⟨p.1, p.2, nvec, axes⟩ := by
    intro a b hab hb
    unfold contrib
    rw [if_pos rfl, List.filter_append, List.filter_map, List.filter_map, List.filter_filter]
    have h1 : ((row.filter fun p => decide (p.1 < n)).filter fun p => decide (p.1 = a)).filter
        ((fun l : PLink d K => decide (l.nbr = b)) ∘ fun p : ℕ × WithTop K =>
          (⟨a, p.2, -nvec, axes⟩ : PLink d K)) = [] := by
      rw [List.filter_eq_nil_iff]
      intro p _
      simp [hab]
    rw [h1, List.map_nil, List.append_nil]
    congr 1
    apply List.filter_congr
    intro p _
    by_cases h : p.1 = b
    · simp [h, hb]
    · simp [h]
  have key2 : ∀ a b : ℕ, a ≠ b → b < n →
      (contrib n axes nvec a row b).filter (fun l => decide (l.nbr = a)) =
        (row.filter fun p => decide (p.1 = b)).map fun p => ⟨a, p.2, -nvec, axes⟩ := by
    intro a b hab hb
    unfold contrib
    rw [if_neg hab, List.nil_append, List.filter_map, List.filter_filter, List.filter_filter]
    congr 1
    apply List.filter_congr
    intro p _
    by_cases h : p.1 = b
    · simp [h, hb]
    · simp [h]
  by_cases h1 : site = i
  · subst h1
    rw [key2 site j hij hj, key site j hij hj, List.map_map]
    rfl
  · by_cases h2 : site = j
    · subst h2
      rw [key site i hij.symm hi, key2 site i hij.symm hi, List.map_map]
      apply List.map_congr_left
      intro p hp
      have : p.1 = i := by simpa using (List.mem_filter.1 hp).2
      simp [mirror, this]
    · have e : ∀ a b : ℕ, site ≠ a → site ≠ b →
          (contrib n axes nvec site row a).filter (fun l => decide (l.nbr = b)) = [] := by
        intro a b ha hb
        unfold contrib
        rw [if_neg ha, List.nil_append, List.filter_eq_nil_iff]
        intro l hl
        obtain ⟨p, -, rfl⟩ := List.mem_map.1 hl
        simpa using hb
      rw [e j i h2 h1, e i j h1 h2]
      rfl

/-- The links between two different sites are collected in pairs. -/
theorem pCollect_mirror (env : Env ℝ) (S : Structure d ℝ) (A : Analysis d ℝ) (k : ℕ)
    (maxDist : ℝ) (indices : List (Idx d)) (positions : List (Vec d ℝ))
    (vecs : List (List ℕ × (Fin d → ℤ)))
    (hgood : ∀ v, ∀ row ∈ pTable env S A k maxDist indices positions v,
      GoodRow indices.length row) {i j : ℕ} (hij : i ≠ j) (hi : i < indices.length)
    (hj : j < indices.length) :
    ((pCollect env S A k maxDist indices positions vecs).atSite j).filter
        (fun l => decide (l.nbr = i)) =
      (((pCollect env S A k maxDist indices positions vecs).atSite i).filter
        fun l => decide (l.nbr = j)).map (mirror i) := by
  obtain ⟨h, -⟩ := atSite_pCollect env S A k maxDist indices positions vecs hgood
  rw [h, h]
  simp only [List.filter_flatMap, List.map_flatMap]
  congr 1
  funext v
  congr 1
  funext r
  exact contrib_mirror _ _ _ _ _ hij hi hj

theorem mem_contrib {K : Type*} {n : ℕ} {axes : List ℕ} {nvec : Fin d → ℤ} {site : ℕ}
    {row : List (ℕ × WithTop K)} {j : ℕ} {l : PLink d K} :
    l ∈ contrib n axes nvec site row j ↔ l.axes = axes ∧
      ((site = j ∧ l.nvec = nvec ∧ l.nbr < n ∧ (l.nbr, l.dist) ∈ row) ∨
        (l.nbr = site ∧ j < n ∧ l.nvec = -nvec ∧ (j, l.dist) ∈ row)) := by
  obtain ⟨b, x, t, a⟩ := l
  unfold contrib
  rw [List.mem_append]
  constructor
  · rintro (h | h)
    · split_ifs at h with hs
      · obtain ⟨p, hp, e⟩ := List.mem_map.1 h
        obtain ⟨hp1, hp2⟩ := List.mem_filter.1 hp
        cases e
        exact ⟨rfl, Or.inl ⟨hs, rfl, by simpa using hp2, hp1⟩⟩
      · cases h
    · obtain ⟨p, hp, e⟩ := List.mem_map.1 h
      obtain ⟨hp1, hp2⟩ := List.mem_filter.1 hp
      obtain ⟨hp3, hp4⟩ := List.mem_filter.1 hp1
      cases e
      have hj : p.1 = j := by simpa using hp2
      subst hj
      exact ⟨rfl, Or.inr ⟨rfl, by simpa using hp4, rfl, hp3⟩⟩
  · rintro ⟨h1, h | h⟩
    · obtain ⟨hs, ht, hb, hm⟩ := h
      left
      rw [if_pos hs]
      dsimp only at h1 ht hb hm
      subst h1 ht
      exact List.mem_map.2 ⟨(b, x), List.mem_filter.2 ⟨hm, by simpa using hb⟩, rfl⟩
    · obtain ⟨hs, hj, ht, hm⟩ := h
      right
      dsimp only at h1 ht hs hm
      subst h1 ht hs
      exact List.mem_map.2 ⟨(j, x), List.mem_filter.2 ⟨List.mem_filter.2 ⟨hm, by simpa using hj⟩,
        by simp⟩, rfl⟩

/-! ### removal of regular neighbours -/

/-- The result never contains a regular neighbour. -/
theorem mem_pFinal {K : Type*} {existing : List ℕ} {links : List (PLink d K)} {l : PLink d K}
    (h : l ∈ pFinal existing links) : l.nbr ∉ existing ∧ l.nbr ∈ links.map PLink.nbr := by
  unfold pFinal at h
  obtain ⟨j, hj, e⟩ := List.mem_filterMap.1 h
  obtain ⟨l', -, rfl⟩ := Option.map_eq_some_iff.1 e
  rw [mem_npUnique, List.mem_filter] at hj
  exact ⟨by simpa using hj.2, hj.1⟩

theorem find_idxOf {K : Type*} (links : List (PLink d K)) (j : ℕ) :
    links[(links.map PLink.nbr).idxOf j]? = (links.filter fun l => decide (l.nbr = j)).head? := by
  induction links with
  | nil => simp
  | cons a links ih =>
    rw [List.map_cons, List.idxOf_cons, List.filter_cons]
    by_cases h : a.nbr = j
    · simp [h]
    · rw [if_neg (by simpa using h)]
      simp only [cond_eq_ite]
      rw [if_neg (by simpa using h), List.getElem?_cons_succ, ih]

/-- Without regular neighbours among the links the first link to every site is kept. -/
theorem mem_pFinal_iff {K : Type*} {existing : List ℕ} {links : List (PLink d K)}
    (hne : ∀ l ∈ links, l.nbr ∉ existing) {l : PLink d K} :
    l ∈ pFinal existing links ↔
      (links.filter fun m => decide (m.nbr = l.nbr)).head? = some l := by
  have hf : ((links.map PLink.nbr).filter fun j => decide (j ∉ existing)) =
      links.map PLink.nbr := by
    rw [List.filter_eq_self]
    intro j hj
    obtain ⟨m, hm, rfl⟩ := List.mem_map.1 hj
    simpa using hne m hm
  unfold pFinal
  rw [hf]
  constructor
  · intro h
    obtain ⟨j, hj, e⟩ := List.mem_filterMap.1 h
    rw [find_idxOf] at e
    obtain ⟨l', hl', rfl⟩ := Option.map_eq_some_iff.1 e
    dsimp only
    have hn : l'.nbr = j := by
      have := List.mem_of_mem_head? hl'
      simpa using (List.mem_filter.1 this).2
    rw [hl']
    simp [← hn]
  · intro h
    refine List.mem_filterMap.2 ⟨l.nbr, ?_, ?_⟩
    · rw [mem_npUnique]
      exact List.mem_map_of_mem (List.mem_filter.1 (List.mem_of_mem_head? h)).1
    · rw [find_idxOf, h]
      rfl

theorem pFinal_nbrs {K : Type*} (existing : List ℕ) (links : List (PLink d K)) :
    (pFinal existing links).map PLink.nbr =
      npUnique ((links.map PLink.nbr).filter fun j => decide (j ∉ existing)) := by
  unfold pFinal
  dsimp only
  set nbrs := (links.map PLink.nbr).filter fun j => decide (j ∉ existing) with hn
  have hlen : nbrs.length ≤ links.length := by
    rw [hn]
    exact (List.length_filter_le _ _).trans (by simp)
  have : ∀ l : List ℕ, (∀ j ∈ l, j ∈ nbrs) →
      (l.filterMap fun j => links[nbrs.idxOf j]?.map fun a : PLink d K =>
        { a with nbr := j }).map PLink.nbr = l := by
    intro l
    induction l with
    | nil => intro _; rfl
    | cons j l ih =>
      intro h
      have hj : nbrs.idxOf j < links.length :=
        lt_of_lt_of_le (List.idxOf_lt_length_iff.2 (h j (by simp))) hlen
      rw [List.filterMap_cons, List.getElem?_eq_getElem hj]
      dsimp only [Option.map_some]
      rw [List.map_cons, ih fun a ha => h a (List.mem_cons_of_mem _ ha)]
  exact this _ fun j hj => mem_npUnique.1 hj

theorem pFinal_nodup {K : Type*} (existing : List ℕ) (links : List (PLink d K)) :
    ((pFinal existing links).map PLink.nbr).Nodup := by
  rw [pFinal_nbrs]
  exact npUnique_nodup _

theorem nbr_mem_pFinal {K : Type*} {existing : List ℕ} {links : List (PLink d K)} {l : PLink d K}
    (hl : l ∈ links) (h : l.nbr ∉ existing) : l.nbr ∈ (pFinal existing links).map PLink.nbr := by
  rw [pFinal_nbrs, mem_npUnique, List.mem_filter]
  exact ⟨List.mem_map_of_mem hl, by simpa using h⟩

/-! ### storing the periodic neighbours -/

theorem setPeriodicLoop_ok {K : Type*} [LinearOrder K] : ∀ (P : PDict d K)
    (D E : LatticeData d K), P.foldlM (fun E p => E.setPeriodicSite p.1 p.2) D = .ok E →
    setPeriodicLoop D P = (E, .ok ())
  | [], D, E, h => by
    have h := Except.ok.inj h
    subst h
    rfl
  | p :: P, D, E, h => by
    rw [List.foldlM_cons] at h
    unfold setPeriodicLoop
    cases h1 : D.setPeriodicSite p.1 p.2 with
    | error e => rw [h1] at h; cases h
    | ok E1 =>
      rw [h1] at h
      exact setPeriodicLoop_ok P E1 E h

/-- Removing periodic neighbours twice is the same as once. -/
theorem removePeriodic_idem {K : Type*} {D D0 : LatticeData d K} {t : List (List (Entry d))}
    (c : D.Cols t) (h : D.removePeriodic = .ok D0) : D0.removePeriodic = .ok D0 := by
  obtain ⟨E, hE, ce, s1, s2, s3, s4, s5, s6⟩ := LatticeData.removePeriodic_cols c
  rw [h] at hE
  cases hE
  obtain ⟨F, hF, cf, v1, v2, v3, v4, v5, v6⟩ := LatticeData.removePeriodic_cols ce
  have ht : (t.map (List.map (LatticeData.clearEntry D.invalidIdx D.invalidDistidx))).map
      (List.map (LatticeData.clearEntry D0.invalidIdx D0.invalidDistidx)) =
      t.map (List.map (LatticeData.clearEntry D.invalidIdx D.invalidDistidx)) := by
    simp [LatticeData.clearEntry, Function.comp_def]
  rw [ht] at cf
  rw [hF]
  have e1 := cf.nbr.trans ce.nbr.symm
  have e2 := cf.level.trans ce.level.symm
  have e3 := cf.per.trans ce.per.symm
  have e4 := cf.nvec.trans ce.nvec.symm
  have e5 := cf.axes.trans ce.axes.symm
  cases F; cases D0
  simp only at e1 e2 e3 e4 e5 v1 v2 v3 v4 v5 v6
  subst e1 e2 e3 e4 e5 v1 v2 v3 v4 v5 v6
  rfl

theorem setPeriodic_axes_eq (env : Env ℝ) {L : Lattice d ℝ} {D D0 : LatticeData d ℝ}
    {axes : List ℕ} (hL : L.data = some D) (hshape : L.shape ≠ none)
    (hD0 : D.removePeriodic = .ok D0) :
    L.setPeriodic env (.axes axes) =
      setPeriodicAxes env { L with data := some D0 } D0 axes := by
  obtain ⟨w, data, shape, pos, pax, prim⟩ := L
  dsimp only at hL hshape
  cases shape with
  | none => exact absurd rfl hshape
  | some s =>
    subst hL
    unfold setPeriodic
    simp only [hD0]

theorem setPeriodicAxes_ok {env : Env ℝ} {L : Lattice d ℝ} {D0 E : LatticeData d ℝ}
    {axes : List ℕ} {Q : PDict d ℝ}
    (hQ : computePneighbors env L.struct D0 axes (L.primitive.getD false) = .ok Q)
    (hL : L.data = some D0) (hidem : D0.removePeriodic = .ok D0)
    (hloop : setPeriodicLoop D0 Q = (E, .ok ())) :
    setPeriodicAxes env L D0 axes = ({ L with
        data := some E
        periodicAxes := if Q.isEmpty then L.periodicAxes else axes }, .ok ()) := by
  unfold setPeriodicAxes
  rw [hQ]
  dsimp only
  cases hQe : Q.isEmpty with
  | true =>
    have h0 : Q = [] := by simpa using hQe
    subst h0
    have h1 : D0 = E := congrArg Prod.fst hloop
    subst h1
    obtain ⟨w, data, shape, pos, pax, prim⟩ := L
    dsimp only at hL
    subst hL
    rfl
  | false =>
    rw [if_neg Bool.false_ne_true, hidem]
    dsimp only
    rw [hloop]
    rfl

/-- The rows after `set_periodic`: the regular neighbours stay, then come the periodic ones. -/
theorem setPeriodic_stored (env : Env ℝ) {L : Lattice d ℝ} {D D0 : LatticeData d ℝ} {width : ℕ}
    {axes : List ℕ} {Q : PDict d ℝ} (hL : L.data = some D) (hshape : L.shape ≠ none)
    (hr : D.Rect width) (hD0 : D.removePeriodic = .ok D0)
    (hQ : computePneighbors env L.struct D0 axes (L.primitive.getD false) = .ok Q)
    (hnd : (Q.map Prod.fst).Nodup)
    (hfit : ∀ p ∈ Q, ∃ a b, D.entries[p.1]? = some (a ++ b) ∧
      (∀ e ∈ a, e.level < D.invalidDistidx ∧ e.per = false) ∧
      (∀ e ∈ b, e.level = D.invalidDistidx ∨ e.per = true) ∧ p.2.length ≤ b.length) :
    ∃ E, L.setPeriodic env (.axes axes) = ({ L with
        data := some E
        periodicAxes := if Q.isEmpty then L.periodicAxes else axes }, .ok ()) ∧
      E.Cols E.entries ∧ E.indices = D.indices ∧ E.positions = D.positions ∧
      E.distvals = D.distvals ∧ E.invalidIdx = D.invalidIdx ∧
      E.invalidDistidx = D.invalidDistidx ∧ E.entries.length = D.entries.length ∧
      ∀ i a b, D.entries[i]? = some (a ++ b) →
        (∀ e ∈ a, e.level < D.invalidDistidx ∧ e.per = false) →
        (∀ e ∈ b, e.level = D.invalidDistidx ∨ e.per = true) →
        E.entries[i]? = some (a.map (LatticeData.clearEntry D.invalidIdx D.invalidDistidx) ++
          LatticeData.linkEntries D.distvals
            (b.map (LatticeData.clearEntry D.invalidIdx D.invalidDistidx)) (Q.atSite i) ++
          (b.map (LatticeData.clearEntry D.invalidIdx D.invalidDistidx)).drop
            (Q.atSite i).length) := by
  obtain ⟨E0, hE0, c0, s1, s2, s3, s4, s5, s6⟩ := LatticeData.removePeriodic_cols hr.cols
  rw [hD0] at hE0
  cases hE0
  have hidem := removePeriodic_idem hr.cols hD0
  have hclear : ∀ a b : List (Entry d), (∀ e ∈ a, e.level < D.invalidDistidx ∧ e.per = false) →
      (∀ e ∈ b, e.level = D.invalidDistidx ∨ e.per = true) →
      (∀ e ∈ a.map (LatticeData.clearEntry D.invalidIdx D.invalidDistidx),
        e.level < D0.invalidDistidx ∧ e.per = false) ∧
      (∀ e ∈ b.map (LatticeData.clearEntry D.invalidIdx D.invalidDistidx),
        D0.invalidDistidx ≤ e.level ∨ e.per = true) := by
    intro a b ha hb
    constructor
    · intro e he
      obtain ⟨x, hx, rfl⟩ := List.mem_map.1 he
      rw [s5]
      exact ⟨by simp [LatticeData.clearEntry, (ha x hx).2, (ha x hx).1], rfl⟩
    · intro e he
      obtain ⟨x, hx, rfl⟩ := List.mem_map.1 he
      rw [s5]
      left
      rcases hb x hx with h1 | h1 <;> simp [LatticeData.clearEntry, h1]
  set t0 := D.entries.map (List.map (LatticeData.clearEntry D.invalidIdx D.invalidDistidx)) with ht0
  have hrow0 : ∀ (i : ℕ) r, D.entries[i]? = some r →
      t0[i]? = some (r.map (LatticeData.clearEntry D.invalidIdx D.invalidDistidx)) := by
    intro i r hr; rw [ht0, List.getElem?_map, hr]; rfl
  obtain ⟨E, t', hE, c', l', o', n', u1, u2, u3, u4, u5, u6⟩ := LatticeData.setPeriodic_loop Q c0
    hnd (by
      intro p hp
      obtain ⟨a, b, h1, h2, h3, h4⟩ := hfit p hp
      obtain ⟨k1, k2⟩ := hclear a b h2 h3
      exact ⟨_, _, by rw [hrow0 _ _ h1, List.map_append], k1, k2, by simpa using h4⟩)
  have hloop := setPeriodicLoop_ok Q D0 E hE
  have hte := c'.entries_eq
  refine ⟨E, ?_, by rw [hte]; exact c', u1.trans s1, u2.trans s2, u3.trans s3, u4.trans s4,
    u5.trans s5, by rw [hte, l', ht0, List.length_map], ?_⟩
  · rw [setPeriodic_axes_eq env hL hshape hD0,
      setPeriodicAxes_ok (L := { L with data := some D0 }) hQ rfl hidem hloop]
  · intro i a b h1 h2 h3
    obtain ⟨k1, k2⟩ := hclear a b h2 h3
    rw [hte]
    by_cases hi : i ∈ Q.map Prod.fst
    · obtain ⟨p, hp, rfl⟩ := List.mem_map.1 hi
      obtain ⟨a', b', g1, g2, g3, g4⟩ := hfit p hp
      have hat : Q.atSite p.1 = p.2 := PDict.atSite_of_mem hnd hp
      have hbl : b'.length = b.length := by
        have heq : a' ++ b' = a ++ b := Option.some.inj (g1.symm.trans h1)
        have f1 : ∀ (x y : List (Entry d)),
            (∀ e ∈ x, e.level < D.invalidDistidx ∧ e.per = false) →
            (∀ e ∈ y, e.level = D.invalidDistidx ∨ e.per = true) →
            (x ++ y).filter (fun e => decide (e.level < D.invalidDistidx) && !e.per) = x := by
          intro x y hx hy
          rw [List.filter_append, List.filter_eq_self.2, List.filter_eq_nil_iff.2,
            List.append_nil]
          · intro e he
            rcases hy e he with h | h
            · simp [h]
            · simp [h]
          · intro e he
            simp [(hx e he).1, (hx e he).2]
        have e1 := f1 a' b' g2 g3
        rw [heq, f1 a b h2 h3] at e1
        have e2 := congrArg List.length heq
        rw [List.length_append, List.length_append, e1] at e2
        omega
      have := n' p hp _ _ (by rw [hrow0 _ _ h1, List.map_append]) k1 k2 (by
        rw [List.length_map, ← hbl]; exact g4)
      rw [this, s3, hat]
    · have hat : Q.atSite i = [] := by
        by_contra hne
        exact hi (List.mem_map.2 ⟨_, PDict.mem_of_atSite hne, rfl⟩)
      rw [o' i hi, hrow0 _ _ h1, hat]
      simp [LatticeData.linkEntries]

theorem keys_pRow {n : ℕ} {axes : List ℕ} {nvec : Fin d → ℤ} {P : PDict d ℝ} {site : ℕ}
    {row : List (ℕ × WithTop ℝ)} (hs : site < n) (hP : ∀ i ∈ P.map Prod.fst, i < n) :
    ∀ i ∈ (pRow n axes nvec P site row).map Prod.fst, i < n := by
  have hfold : ∀ (valid : List (ℕ × WithTop ℝ)) (P : PDict d ℝ), (∀ p ∈ valid, p.1 < n) →
      (∀ i ∈ P.map Prod.fst, i < n) →
      ∀ i ∈ (valid.foldl (fun P p => PDict.extend P p.1 [⟨site, p.2, -nvec, axes⟩]) P).map
        Prod.fst, i < n := by
    intro valid
    induction valid with
    | nil => intro P _ h; exact h
    | cons a l ih =>
      intro P h1 h2
      rw [List.foldl_cons]
      refine ih _ (fun p hp => h1 p (List.mem_cons_of_mem _ hp)) ?_
      intro i hi
      rcases (PDict.mem_extend _ _ _ _).1 hi with rfl | hi
      · exact h1 a (by simp)
      · exact h2 i hi
  unfold pRow
  split_ifs with h
  · refine hfold _ _ ?_ ?_
    · intro p hp
      simpa using (List.mem_filter.1 hp).2
    · intro i hi
      rcases (PDict.mem_extend _ _ _ _).1 hi with rfl | hi
      · exact hs
      · exact hP i hi
  · exact hP

theorem keys_pCollect (env : Env ℝ) (S : Structure d ℝ) (A : Analysis d ℝ) (k : ℕ)
    (maxDist : ℝ) (indices : List (Idx d)) (positions : List (Vec d ℝ))
    (vecs : List (List ℕ × (Fin d → ℤ)))
    (hlen : ∀ v, (pTable env S A k maxDist indices positions v).length ≤ indices.length) :
    ∀ i ∈ (pCollect env S A k maxDist indices positions vecs).map Prod.fst,
      i < indices.length := by
  unfold pCollect
  have hin : ∀ (v : List ℕ × (Fin d → ℤ)) (l : List (List (ℕ × WithTop ℝ) × ℕ)) (P : PDict d ℝ),
      (∀ r ∈ l, r.2 < indices.length) → (∀ i ∈ P.map Prod.fst, i < indices.length) →
      ∀ i ∈ (l.foldl (fun P r => pRow indices.length v.1 v.2 P r.2 r.1) P).map Prod.fst,
        i < indices.length := by
    intro v l
    induction l with
    | nil => intro P _ h; exact h
    | cons r l ih =>
      intro P h1 h2
      rw [List.foldl_cons]
      exact ih _ (fun q hq => h1 q (List.mem_cons_of_mem _ hq))
        (keys_pRow (h1 r (by simp)) h2)
  have hout : ∀ (vs : List (List ℕ × (Fin d → ℤ))) (P : PDict d ℝ),
      (∀ i ∈ P.map Prod.fst, i < indices.length) →
      ∀ i ∈ (vs.foldl (fun P v =>
        (pTable env S A k maxDist indices positions v.2).zipIdx.foldl
          (fun P r => pRow indices.length v.1 v.2 P r.2 r.1) P) P).map Prod.fst,
        i < indices.length := by
    intro vs
    induction vs with
    | nil => intro P h; exact h
    | cons v vs ih =>
      intro P h
      rw [List.foldl_cons]
      refine ih _ (hin v _ P ?_ h)
      intro r hr
      obtain ⟨row, i⟩ := r
      have := (List.getElem?_eq_some_iff.1 (List.mem_zipIdx_iff_getElem?.1 hr)).1
      exact lt_of_lt_of_le this (hlen v.2)
  exact hout vecs [] (by simp)

/-- The neighbours left by `remove_periodic` are the regular ones. -/
theorem removePeriodic_getNeighbors {K : Type*} {D D0 : LatticeData d K} {w : ℕ} (h : D.Rect w)
    (hD0 : D.removePeriodic = .ok D0) {i : ℕ} (hi : i < D.numSites) :
    D0.getNeighbors i none none false = D.getNeighbors i none (some false) false := by
  obtain ⟨E, hE, ce, s1, s2, s3, s4, s5, s6⟩ := LatticeData.removePeriodic_cols h.cols
  rw [hD0] at hE
  cases hE
  obtain ⟨r, hr, -, hD⟩ := h.getNeighbors hi
  rw [hD, ce.getNeighbors i (r.map (LatticeData.clearEntry D.invalidIdx D.invalidDistidx)) (by
    rw [List.getElem?_map, hr]; rfl)]
  congr 1
  clear hr hD
  induction r with
  | nil => rfl
  | cons e r ih =>
    rw [List.map_cons, List.filter_cons, List.filter_cons]
    cases hper : e.per
    · have hs : D0.sel i none none false
          (LatticeData.clearEntry D.invalidIdx D.invalidDistidx e) =
          D.sel i none (some false) false e := by
        simp [LatticeData.sel, LatticeData.clearEntry, hper, s5]
      rw [hs]
      split
      · rw [List.map_cons, List.map_cons, ih]; simp [LatticeData.clearEntry, hper]
      · exact ih
    · have hs : D0.sel i none none false
          (LatticeData.clearEntry D.invalidIdx D.invalidDistidx e) = false := by
        simp [LatticeData.sel, LatticeData.clearEntry, hper, s5]
      have hs2 : D.sel i none (some false) false e = false := by simp [LatticeData.sel, hper]
      rw [hs, hs2]
      simpa using ih

/-- The periodic entries written for a site. -/
theorem mem_linkEntries {old : List (Entry d)} {links : List (PLink d ℝ)}
    {distvals : List (WithTop ℝ)} (hl : links.length ≤ old.length) {j : ℕ} {t : Fin d → ℤ}
    {n : ℕ} :
    (∃ e ∈ LatticeData.linkEntries distvals old links, e.per = true ∧ e.nbr = j ∧ e.nvec = t ∧
      e.level = n) ↔
    ∃ l ∈ links, l.nbr = j ∧ l.nvec = t ∧ searchsorted distvals l.dist = n := by
  unfold LatticeData.linkEntries
  constructor
  · rintro ⟨e, he, -, h1, h2, h3⟩
    obtain ⟨k, hk, rfl⟩ := List.mem_iff_getElem.1 he
    simp only [List.getElem_zipWith] at h1 h2 h3
    simp only [List.length_zipWith] at hk
    exact ⟨links[k], List.getElem_mem _, h1, h2, h3⟩
  · rintro ⟨l, hl', h1, h2, h3⟩
    obtain ⟨k, hk, rfl⟩ := List.mem_iff_getElem.1 hl'
    refine ⟨_, List.getElem_mem (n := k) (by simp; omega), ?_⟩
    simp only [List.getElem_zipWith]
    exact ⟨trivial, h1, h2, h3⟩

theorem removePeriodic_lt {K : Type*} {D D0 : LatticeData d K} {w : ℕ} (h : D.Rect w)
    (hD0 : D.removePeriodic = .ok D0) {i : ℕ} {ex : List ℕ}
    (he : D0.getNeighbors i none none false = .ok ex) : i < D.numSites := by
  obtain ⟨E, hE, ce, -⟩ := LatticeData.removePeriodic_cols h.cols
  rw [hD0] at hE
  cases hE
  by_contra hi
  have h1 : D0.neighbors[i]? = none := by
    rw [ce.nbr, List.getElem?_eq_none]
    rw [List.length_map, List.length_map, h.entries_length]
    omega
  unfold LatticeData.getNeighbors LatticeData.neighborMask at he
  rw [h1] at he
  rcases h2 : D0.distances[i]? with _ | x <;> simp [h2] at he

theorem linkEntries_map_nbr {distvals : List (WithTop ℝ)} :
    ∀ {old : List (Entry d)} {links : List (PLink d ℝ)}, links.length ≤ old.length →
    (LatticeData.linkEntries distvals old links).map Entry.nbr = links.map PLink.nbr := by
  intro old
  induction old with
  | nil =>
    intro links h
    obtain rfl : links = [] := List.length_eq_zero_iff.1 (by simpa using h)
    rfl
  | cons e old ih =>
    intro links h
    cases links with
    | nil => rfl
    | cons l links =>
      have := ih (links := links) (by simpa using h)
      simp only [LatticeData.linkEntries, List.zipWith_cons_cons, List.map_cons] at this ⊢
      rw [this]

end Lattice

end Lattpy
