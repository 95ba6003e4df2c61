import Verif.Lemmas.Append
import Verif.Lemmas.Ring
import Verif.Props.MinDistances
import Verif.Props.PeriodicAxes

/-!
# Property C68 (`append`, `extend`, `repeat` of `lattice.py`)
-/

set_option autoImplicit false
set_option linter.unusedSectionVars false

namespace Lattpy

open Structure LatticeData

/-! ## spec -/

/-- The links from a site at `p` to the sites `Q` not further than `r`, stored at the next larger
of the distances `vals`; the sites are numbered from `offset`. -/
noncomputable def linksWithin {d : ℕ} (vals : List (WithTop ℝ)) (p : Vec d ℝ) (Q : List (Vec d ℝ))
    (r : ℝ) (offset : ℕ) : List (ℕ × Option (WithTop ℝ)) :=
  ((List.range Q.length).filter fun j => decide (distance p (Q.getD j 0) ≤ r)).filterMap fun j =>
    storedLink vals (offset + j) ((distance p (Q.getD j 0) : ℝ) : WithTop ℝ)

namespace Lattice

variable {d : ℕ}

/-! ## the pairs across the interface -/

theorem flatMap_zipIdx_single {α β : Type*} (F : α × ℕ → List β) (i : ℕ) :
    ∀ (l : List α) (s : ℕ) (x : α), s ≤ i → l[i - s]? = some x →
      (l.zipIdx s).flatMap (fun p => if p.2 = i then F p else []) = F (x, i)
  | [], s, x, _, h => by simp at h
  | y :: l, s, x, hs, h => by
    rw [List.zipIdx_cons, List.flatMap_cons]
    have hz : ∀ (l : List α) (s : ℕ), i < s →
        (l.zipIdx s).flatMap (fun p => if p.2 = i then F p else []) = [] := by
      intro l s hs
      rw [List.flatMap_eq_nil_iff]
      intro p hp
      have := (List.mem_zipIdx hp).1
      rw [if_neg (by omega)]
    rcases Nat.eq_or_lt_of_le hs with rfl | hlt
    · rw [if_pos rfl, hz l (s + 1) (by omega), List.append_nil]
      simp at h
      rw [h]
    · rw [if_neg (by dsimp only; omega), List.nil_append]
      apply flatMap_zipIdx_single F i l (s + 1) x (by omega)
      have : i - s = i - (s + 1) + 1 := by omega
      rw [this, List.getElem?_cons_succ] at h
      exact h

theorem linksFrom_flatMap {α : Type*} (vals : List (WithTop ℝ)) (l : List α)
    (g : α → List (ℕ × ℕ × WithTop ℝ)) (i : ℕ) :
    linksFrom vals (l.flatMap g) i = l.flatMap fun p => linksFrom vals (g p) i := by
  unfold linksFrom
  induction l with
  | nil => rfl
  | cons x l ih => rw [List.flatMap_cons, List.filter_append, List.filterMap_append, ih,
      List.flatMap_cons]

/-- The directed links made of the pairs of `_compute_connection_neighbors`. -/
noncomputable def interfaceLinks (env : Env ℝ) (P Q : List (Vec d ℝ)) (r : ℝ) :
    List (ℕ × ℕ × WithTop ℝ) :=
  (P.zipIdx.flatMap fun p => (env.ball Q.length (fun j => distance p.1 (Q.getD j 0)) r).map
    fun j => ((p.2, j), distance p.1 (Q.getD j 0))).flatMap fun p =>
      [(p.1.1, p.1.2 + P.length, (p.2 : WithTop ℝ)), (p.1.2 + P.length, p.1.1, (p.2 : WithTop ℝ))]

theorem mem_interfaceLinks {env : Env ℝ} {P Q : List (Vec d ℝ)} {r : ℝ} {q : ℕ × ℕ × WithTop ℝ}
    (h : q ∈ interfaceLinks env P Q r) : ∃ i j, i < P.length ∧ j < Q.length ∧
      distance (P.getD i 0) (Q.getD j 0) ≤ r ∧
      q.2.2 = ((distance (P.getD i 0) (Q.getD j 0) : ℝ) : WithTop ℝ) ∧
      (q.1 = i ∧ q.2.1 = P.length + j ∨ q.1 = P.length + j ∧ q.2.1 = i) := by
  obtain ⟨p, hp, hq⟩ := List.mem_flatMap.1 h
  obtain ⟨x, hx, hpx⟩ := List.mem_flatMap.1 hp
  obtain ⟨j, hj, rfl⟩ := List.mem_map.1 hpx
  have hb := (env.ball_spec Q.length (fun j => distance x.1 (Q.getD j 0)) r).mem_iff.1 hj
  rw [List.mem_filter, List.mem_range, decide_eq_true_eq] at hb
  obtain ⟨-, h1, h2⟩ := List.mem_zipIdx hx
  have hx1 : P.getD x.2 0 = x.1 := by
    rw [h2, List.getD_eq_getElem?_getD]
    simp at h1
    simp [h1]
  refine ⟨x.2, j, by simpa using h1, hb.1, by rw [hx1]; exact hb.2, ?_⟩
  rw [hx1]
  simp only [List.mem_cons, List.not_mem_nil, or_false] at hq
  rcases hq with rfl | rfl
  · exact ⟨rfl, Or.inl ⟨rfl, Nat.add_comm _ _⟩⟩
  · exact ⟨rfl, Or.inr ⟨Nat.add_comm _ _, rfl⟩⟩

theorem interfaceLinks_left (vals : List (WithTop ℝ)) (env : Env ℝ) (P Q : List (Vec d ℝ)) (r : ℝ)
    {i : ℕ} (hi : i < P.length) :
    (linksFrom vals (interfaceLinks env P Q r) i).Perm
      (linksWithin vals (P.getD i 0) Q r P.length) := by
  unfold interfaceLinks
  rw [linksFrom_flatMap, List.flatMap_assoc]
  have hF : (fun p : Vec d ℝ × ℕ => ((env.ball Q.length (fun j => distance p.1 (Q.getD j 0)) r).map
      fun j => ((p.2, j), distance p.1 (Q.getD j 0))).flatMap fun p => linksFrom vals
        [(p.1.1, p.1.2 + P.length, (p.2 : WithTop ℝ)), (p.1.2 + P.length, p.1.1, (p.2 : WithTop ℝ))]
        i) = fun p => if p.2 = i then
        (env.ball Q.length (fun j => distance p.1 (Q.getD j 0)) r).filterMap (fun j =>
          storedLink vals (P.length + j) ((distance p.1 (Q.getD j 0) : ℝ) : WithTop ℝ)) else [] := by
    funext p
    rw [List.flatMap_map]
    by_cases hp : p.2 = i
    · rw [if_pos hp, List.filterMap_eq_flatMap_toList]
      congr 1
      funext j
      have : ¬ j + P.length = i := by omega
      simp only [linksFrom, hp, this, List.filter_cons, decide_true, if_true, decide_false,
        Bool.false_eq_true, if_false, List.filter_nil, Nat.add_comm P.length]
      rw [List.filterMap_cons]
      cases storedLink vals (j + P.length) ((distance p.1 (Q.getD j 0) : ℝ) : WithTop ℝ) <;> rfl
    · rw [if_neg hp, List.flatMap_eq_nil_iff]
      intro j _
      have : ¬ j + P.length = i := by omega
      simp [linksFrom, hp, this]
  rw [hF, flatMap_zipIdx_single _ i P 0 (P.getD i 0) (Nat.zero_le _) (by simp [hi])]
  exact (env.ball_spec _ _ _).filterMap _

theorem interfaceLinks_right (vals : List (WithTop ℝ)) (env : Env ℝ) (P Q : List (Vec d ℝ)) (r : ℝ)
    {j : ℕ} (hj : j < Q.length) :
    linksFrom vals (interfaceLinks env P Q r) (P.length + j) =
      linksWithin vals (Q.getD j 0) P r 0 := by
  unfold interfaceLinks
  rw [linksFrom_flatMap, List.flatMap_assoc]
  have hF : ∀ p ∈ P.zipIdx, (((env.ball Q.length (fun j => distance p.1 (Q.getD j 0)) r).map
      fun j => ((p.2, j), distance p.1 (Q.getD j 0))).flatMap fun p => linksFrom vals
        [(p.1.1, p.1.2 + P.length, (p.2 : WithTop ℝ)), (p.1.2 + P.length, p.1.1, (p.2 : WithTop ℝ))]
        (P.length + j)) = if distance (Q.getD j 0) p.1 ≤ r then
        (storedLink vals p.2 ((distance (Q.getD j 0) p.1 : ℝ) : WithTop ℝ)).toList else [] := by
    intro p hp
    have hlt : p.2 < P.length := by simpa using (List.mem_zipIdx hp).2.1
    rw [List.flatMap_map, distance_comm (Q.getD j 0) p.1]
    have hb := env.ball_spec Q.length (fun j => distance p.1 (Q.getD j 0)) r
    set b := env.ball Q.length (fun j => distance p.1 (Q.getD j 0)) r with hbd
    have hnd : b.Nodup := hb.nodup_iff.2 (List.nodup_range.filter _)
    have hmem : j ∈ b ↔ distance p.1 (Q.getD j 0) ≤ r := by
      rw [hb.mem_iff, List.mem_filter, List.mem_range, decide_eq_true_eq]
      exact ⟨fun h => h.2, fun h => ⟨hj, h⟩⟩
    have hstep : ∀ (b : List ℕ), b.Nodup → (b.flatMap fun a => linksFrom vals
        [(p.2, a + P.length, ((distance p.1 (Q.getD a 0) : ℝ) : WithTop ℝ)),
          (a + P.length, p.2, ((distance p.1 (Q.getD a 0) : ℝ) : WithTop ℝ))] (P.length + j)) =
        if j ∈ b then
          (storedLink vals p.2 ((distance p.1 (Q.getD j 0) : ℝ) : WithTop ℝ)).toList else [] := by
      intro b hb
      induction b with
      | nil => rfl
      | cons a b ih =>
        rw [List.nodup_cons] at hb
        rw [List.flatMap_cons, ih hb.2]
        have hne : ¬ p.2 = P.length + j := by omega
        by_cases ha : a = j
        · subst ha
          rw [if_neg hb.1, if_pos (by simp), List.append_nil]
          simp only [linksFrom, hne, Nat.add_comm a, List.filter_cons, decide_true, if_true,
            decide_false, Bool.false_eq_true, if_false, List.filter_nil]
          rw [List.filterMap_cons]
          cases storedLink vals p.2 ((distance p.1 (Q.getD a 0) : ℝ) : WithTop ℝ) <;> rfl
        · have h1 : ¬ a + P.length = P.length + j := by omega
          have h2 : (j ∈ a :: b) ↔ j ∈ b := by simp [Ne.symm ha]
          simp only [h2]
          simp [linksFrom, hne, h1]
    rw [hstep b hnd]
    simp only [hmem]
  rw [List.flatMap_congr hF]
  have key : ∀ (l : List (Vec d ℝ)) (s : ℕ), ((l.zipIdx s).flatMap fun p =>
      if distance (Q.getD j 0) p.1 ≤ r then
        (storedLink vals p.2 ((distance (Q.getD j 0) p.1 : ℝ) : WithTop ℝ)).toList else []) =
      linksWithin vals (Q.getD j 0) l r s := by
    intro l
    induction l with
    | nil => intro s; rfl
    | cons x l ih =>
      intro s
      rw [List.zipIdx_cons, List.flatMap_cons, ih (s + 1)]
      unfold linksWithin
      rw [List.length_cons, List.range_succ_eq_map, List.filter_cons, List.filter_map]
      simp only [List.getD_cons_zero, decide_eq_true_eq]
      split
      · rw [List.filterMap_cons, List.filterMap_map]
        simp only [Function.comp_def, List.getD_cons_zero, List.getD_cons_succ, Nat.add_zero,
          Nat.add_assoc, Nat.add_comm 1]
        cases storedLink vals s ((distance (Q.getD j 0) x : ℝ) : WithTop ℝ) <;> rfl
      · rw [List.nil_append, List.filterMap_map]
        simp only [Function.comp_def, List.getD_cons_succ, Nat.add_assoc, Nat.add_comm 1]
  exact key P 0

/-! ## the joined lattice -/

theorem connectionNeighbors_eq {S : Structure d ℝ} {A : Analysis d ℝ} (hA : S.analysis = some A)
    {k : ℕ} {r : ℝ} (hq : queryParams A = .ok (k, r)) (env : Env ℝ) (P Q : List (Vec d ℝ)) :
    connectionNeighbors env S P Q = .ok (P.zipIdx.flatMap fun p =>
      (env.ball Q.length (fun j => distance p.1 (Q.getD j 0)) r).map fun j =>
        ((p.2, j), distance p.1 (Q.getD j 0))) := by
  unfold connectionNeighbors
  rw [hA]
  dsimp only
  rw [hq]

theorem updateShape_ok {L : Lattice d ℝ} {D : LatticeData d ℝ} (hdata : L.data = some D)
    (hne : D.positions ≠ []) : ∃ sh lo, updateShape L =
      ({ L with shape := some sh, pos := some lo }, .ok ()) := by
  unfold updateShape
  rw [hdata]
  dsimp only
  obtain ⟨v, vs, hvs⟩ := List.exists_cons_of_ne_nil hne
  unfold getLimits
  rw [hvs]
  exact ⟨_, _, rfl⟩

/-- C68 (restricted to non-empty tables with at most 256 different distances of which one is
infinite): after `_append` the appended sites are shifted by one period along the axis; every site
keeps its links, and gets links to the sites across the interface that are not further than the
query radius, as many as there are free slots in its row, at the next larger stored distance, and
none if the distance exceeds the stored ones.  (`chain_interface` applies it to built chains.)  The
number of appended sites, the mark of an empty slot, becomes the number of all sites even if it
stands at a finite distance. -/
theorem C68_interface_partial (env : Env ℝ) {L : Lattice d ℝ} {D : LatticeData d ℝ}
    (hdata : L.data = some D) {A : Analysis d ℝ} (hA : L.struct.analysis = some A) {k : ℕ} {r : ℝ}
    (hq : queryParams A = .ok (k, r)) {w w2 : ℕ} (h : D.Rect w)
    (hv : ∀ r ∈ D.entries, ∀ e ∈ r,
      e.level < D.invalidDistidx ∧ e.nbr ≠ D.invalidIdx ∨ e.level = D.invalidDistidx)
    (hN : 0 < D.numSites) (hdist : D.distvals.Pairwise (· < ·))
    (htop : D.distvals[D.invalidDistidx]? = some ⊤)
    (ind : List (Idx d)) (pos : List (Vec d ℝ)) (nbrs : List (List ℕ))
    (dists : List (List (WithTop ℝ))) (hp2 : pos.length = ind.length)
    (hN2 : 0 < ind.length) (hw2 : 0 < w2)
    (hn2 : nbrs.length = ind.length ∧ ∀ r ∈ nbrs, r.length = w2)
    (hd2 : dists.length = ind.length ∧ ∀ r ∈ dists, r.length = w2)
    (hval2 : ∀ (j : ℕ) nr dr, nbrs[j]? = some nr → dists[j]? = some dr →
      ∀ p ∈ nr.zip dr, p.2 ≠ ⊤ → p.1 ≤ ind.length)
    (hinf : ⊤ ∈ D.distTable.flatten ∨ ⊤ ∈ dists.flatten ∨ w ≠ w2)
    (h256 : (⊤ :: (D.distTable.flatten ++ dists.flatten)).dedup.length ≤ 256)
    {ax : ℕ} {side : Bool} {v : Fin d → ℤ}
    (hvec : periodicVector L.struct.basis (if side then D.indices else ind) [ax]
      (L.primitive.getD false) = .ok v) :
    ∃ L' E, L.appendSites env ind pos nbrs dists ax side none false = (L', .ok ()) ∧
      L'.data = some E ∧ L'.world = L.world ∧ L'.primitive = L.primitive ∧
      L'.periodicAxes = L.periodicAxes ∧
      E.indices = D.indices ++ ind.map (shiftIdx (if side then v else -v)) ∧
      E.positions = D.positions ++ pos.map (L.struct.basis.translate (if side then v else -v)) ∧
      E.Open (D.numSites + ind.length) (max w w2) ∧
      E.invalidIdx = D.numSites + ind.length ∧
      (∀ i < D.numSites, ∃ s, s.Subperm (linksWithin (D.distTable.flatten ++ dists.flatten)
          (D.positions.getD i 0)
          (pos.map (L.struct.basis.translate (if side then v else -v))) r D.numSites) ∧
        s.length = min (max w w2 - (D.linksOf i).length) (linksWithin (D.distTable.flatten ++ dists.flatten)
          (D.positions.getD i 0)
          (pos.map (L.struct.basis.translate (if side then v else -v))) r D.numSites).length ∧
        (E.linksOf i).Perm (D.linksOf i ++ s)) ∧
      (∀ (j : ℕ) q nr dr, pos[j]? = some q → nbrs[j]? = some nr → dists[j]? = some dr →
        ∃ s, s.Subperm (linksWithin (D.distTable.flatten ++ dists.flatten)
            (L.struct.basis.translate (if side then v else -v) q)
            D.positions r 0) ∧
          s.length = min (max w w2 - ((nr.zip dr).filter fun p => decide (p.2 ≠ ⊤)).length)
            (linksWithin (D.distTable.flatten ++ dists.flatten)
            (L.struct.basis.translate (if side then v else -v) q)
              D.positions r 0).length ∧
          (E.linksOf (D.numSites + j)).Perm ((((nr.zip dr).filter fun p => decide (p.2 ≠ ⊤)).map
            fun p => (p.1 + D.numSites, some p.2)) ++ s)) := by
  set n := if side then v else -v with hn
  set pos2 := pos.map (L.struct.basis.translate n) with hpos2
  set ind2 := ind.map (shiftIdx n) with hind2
  have hil : ind2.length = ind.length := List.length_map _
  have hpl : pos2.length = ind.length := by rw [hpos2, List.length_map, hp2]
  have hDp : D.positions.length = D.numSites := h.positions
  obtain ⟨E, a1, a2, a3, a4, a5, a6, a7, a8, -⟩ := append_full env h hv hN hdist htop ind2 pos2 nbrs
    dists (by rw [hil]; exact hN2) hw2 (by rw [hil]; exact hn2) (by rw [hil]; exact hd2)
    (by rw [hil]; exact hval2) hinf h256
  rw [hil] at a6 a7
  obtain ⟨F, f1, f2, f3, f4, f5, f6, f7⟩ := addLinks_open (interfaceLinks env D.positions pos2 r) a6
    (by
      intro q hq'
      obtain ⟨i, j, hi, hj, g1, g2, g3⟩ := mem_interfaceLinks hq'
      rcases g3 with g3 | g3 <;> rw [g3.1] <;> omega)
  set vals := D.distTable.flatten ++ dists.flatten with hvals
  have hfrom : ∀ l i, linksFrom E.distvals l i = linksFrom vals l i := by
    intro l i
    unfold linksFrom storedLink
    have : ∀ x, storedAbove E.distvals x = storedAbove vals x := by
      intro x
      apply storedAbove_congr
      intro y hy
      rw [a8, hvals, List.mem_append]
      simp [hy]
    simp only [this]
  simp only [hfrom] at f7
  obtain ⟨sh, lo, hsh⟩ := updateShape_ok (L := { L with data := some F }) (D := F) rfl (by
    rw [f3, a3]
    intro h0
    have := congrArg List.length h0
    rw [List.length_append, hDp] at this
    simp at this
    omega)
  have happ : L.appendSites env ind pos nbrs dists ax side none false =
      updateShape { L with data := some F } := by
    unfold appendSites
    rw [hdata]
    dsimp only
    rw [hvec]
    dsimp only
    rw [← hn, ← hind2, ← hpos2, a1]
    dsimp only
    rw [connectionNeighbors_eq hA hq]
    dsimp only
    rw [addPairs_eq]
    unfold interfaceLinks at f1
    rw [f1]
  refine ⟨_, F, happ.trans hsh, rfl, rfl, rfl, rfl, f2.trans a2, f3.trans a3, f6, f5.trans a7, ?_,
    ?_⟩
  · intro i hi
    have hl := interfaceLinks_left vals env D.positions pos2 r (i := i) (by omega)
    rw [hDp] at hl
    have hlen := (a4 i hi).length_eq
    refine ⟨(linksFrom vals (interfaceLinks env D.positions pos2 r) i).take
        (max w w2 - (E.linksOf i).length),
      (List.take_sublist _ _).subperm.trans hl.subperm, ?_, ?_⟩
    · rw [List.length_take, hl.length_eq, hlen]
    · rw [f7 i]
      exact (a4 i hi).append_right _
  · intro j q nr dr hq' hnr hdr
    have hj : j < pos.length := (List.getElem?_eq_some_iff.1 hq').1
    have hl := interfaceLinks_right vals env D.positions pos2 r (j := j) (by omega)
    have e2 : pos2.getD j 0 = L.struct.basis.translate n q := by
      simp [hpos2, hq']
    rw [hDp, e2] at hl
    have hp := a5 j nr dr hnr hdr
    have hlen := hp.length_eq
    rw [List.length_map] at hlen
    refine ⟨(linksFrom vals (interfaceLinks env D.positions pos2 r) (D.numSites + j)).take
        (max w w2 - (E.linksOf (D.numSites + j)).length),
      (List.take_sublist _ _).subperm.trans (List.Perm.of_eq hl).subperm, ?_, ?_⟩
    · rw [List.length_take, hl, hlen]
    · rw [f7]
      exact hp.append_right _

end Lattice

end Lattpy
