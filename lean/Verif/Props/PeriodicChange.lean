import Verif.Props.PeriodicAxes
import Verif.Lemmas.BuiltData
import Verif.Lemmas.Ring
import Verif.Lemmas.SoundData
import Verif.Props.PeriodicRing
import Verif.Props.DataEdit

/-!
# Changing the periodic axes (C121)
-/

set_option autoImplicit false
set_option linter.unusedSectionVars false

namespace Lattpy

open Structure World LatticeData

variable {d : ℕ}

/-! ## rows with the regular neighbours first -/

/-- In every row the regular neighbours come first, then periodic neighbours and empty slots. -/
structure RegularFirst {K : Type*} (D : LatticeData d K) (t : List (List (Entry d))) : Prop where
  cols : D.Cols t
  rows : ∀ r ∈ t, ∃ a b, r = a ++ b ∧
    (∀ e ∈ a, e.level < D.invalidDistidx ∧ e.per = false) ∧
    ∀ e ∈ b, e.per = true ∨ e.level = D.invalidDistidx ∧ e.nbr = D.invalidIdx

theorem removePeriodic_congr {K : Type*} {D E : LatticeData d K} {t t' : List (List (Entry d))}
    (c : D.Cols t) (c' : E.Cols t') (hs : SameSites D E) (hm : E.dmap = D.dmap)
    (h : t'.map (List.map (clearEntry D.invalidIdx D.invalidDistidx)) =
      t.map (List.map (clearEntry D.invalidIdx D.invalidDistidx))) :
    E.removePeriodic = D.removePeriodic := by
  obtain ⟨D0, hD0, c0, s1, s2, s3, s4, s5, s6⟩ := removePeriodic_cols c
  obtain ⟨E0, hE0, ce, v1, v2, v3, v4, v5, v6⟩ := removePeriodic_cols c'
  rw [hE0, hD0]
  rw [hs.invalidIdx, hs.invalidDistidx, h] at ce
  have e1 := ce.nbr.trans c0.nbr.symm
  have e2 := ce.level.trans c0.level.symm
  have e3 := ce.per.trans c0.per.symm
  have e4 := ce.nvec.trans c0.nvec.symm
  have e5 := ce.axes.trans c0.axes.symm
  have e6 := v1.trans (hs.indices.trans s1.symm)
  have e7 := v2.trans (hs.positions.trans s2.symm)
  have e8 := v3.trans (hs.distvals.trans s3.symm)
  have e9 := v4.trans (hs.invalidIdx.trans s4.symm)
  have e10 := v5.trans (hs.invalidDistidx.trans s5.symm)
  have e11 := v6.trans (hm.trans s6.symm)
  cases E0; cases D0
  simp only at e1 e2 e3 e4 e5 e6 e7 e8 e9 e10 e11
  subst e1 e2 e3 e4 e5 e6 e7 e8 e9 e10 e11
  rfl

/-- The slots after the regular neighbours look alike once the periodic ones are cleared. -/
theorem clear_rest {inv invD : ℕ} {b : List (Entry d)}
    (h : ∀ e ∈ b, e.per = true ∨ e.level = invD ∧ e.nbr = inv) :
    b.map (clearEntry inv invD) =
      List.replicate b.length ⟨inv, invD, false, 0, List.replicate d d⟩ := by
  rw [List.eq_replicate_iff]
  refine ⟨by simp, fun e he => ?_⟩
  obtain ⟨x, hx, rfl⟩ := List.mem_map.1 he
  cases hp : x.per with
  | true => simp [clearEntry, hp]
  | false =>
    rcases h x hx with h' | ⟨h1, h2⟩
    · rw [hp] at h'; cases h'
    · simp [clearEntry, hp, h1, h2]

theorem RegularFirst.site {K : Type*} [LinearOrder K] {D E : LatticeData d K}
    {t : List (List (Entry d))} (h : RegularFirst D t) {i : ℕ} {links : List (PLink d K)}
    (hE : D.setPeriodicSite i links = .ok E) :
    (∃ t', RegularFirst E t') ∧ E.removePeriodic = D.removePeriodic := by
  have hs := setPeriodicSite_sites hE
  cases hr : t[i]? with
  | none =>
    unfold setPeriodicSite at hE
    split at hE
    · rename_i row hn
      rw [h.cols.nbr, List.getElem?_map, hr] at hn
      cases hn
    · cases hE
    · cases hE
  | some r =>
    obtain ⟨a, b, rfl, ha, hb⟩ := h.rows r (List.mem_of_getElem? hr)
    have hb' : ∀ e ∈ b, D.invalidDistidx ≤ e.level ∨ e.per = true := fun e he =>
      (hb e he).elim Or.inr fun h => Or.inl h.1.ge
    by_cases hfit : links.length ≤ b.length
    · obtain ⟨E', hE', c', -, -, -, u4, u5, u6⟩ :=
        setPeriodicSite_cols h.cols i a b hr ha hb' links hfit
      rw [hE] at hE'
      cases hE'
      have hnew : ∀ e ∈ linkEntries D.distvals b links ++ b.drop links.length,
          e.per = true ∨ e.level = D.invalidDistidx ∧ e.nbr = D.invalidIdx := by
        intro e he
        rcases List.mem_append.1 he with he | he
        · unfold linkEntries at he
          obtain ⟨k, hk, rfl⟩ := List.mem_iff_getElem.1 he
          left
          simp only [List.getElem_zipWith]
        · exact hb e (List.mem_of_mem_drop he)
      refine ⟨⟨_, c', fun r' hr' => ?_⟩, removePeriodic_congr h.cols c' hs u6 ?_⟩
      · rw [u4, u5]
        rcases mem_modifyRow hr' with hr' | ⟨-, -, rfl⟩
        · exact h.rows r' hr'
        · exact ⟨a, _, List.append_assoc .., ha, hnew⟩
      · apply List.ext_getElem?
        intro k
        rw [List.getElem?_map, List.getElem?_map]
        by_cases hk : k = i
        · subst hk
          rw [modifyRow_getElem?_self, hr]
          simp only [Option.map_some, Option.some.injEq]
          rw [List.append_assoc, List.map_append (l₁ := a), List.map_append (l₁ := a),
            clear_rest hb, clear_rest hnew]
          congr 2
          simp [linkEntries]
          omega
        · rw [modifyRow_getElem?_ne _ _ hk]
    · have hreg : D.getNeighbors i none (some false) false = .ok (a.map Entry.nbr) := by
        rw [h.cols.getNeighbors i _ hr, List.filter_append]
        have h1 : a.filter (D.sel i none (some false) false) = a := by
          rw [List.filter_eq_self]
          intro e he
          simp [sel, (ha e he).1, (ha e he).2]
        have h2 : b.filter (D.sel i none (some false) false) = [] := by
          rw [List.filter_eq_nil_iff]
          intro e he
          rcases hb' e he with h | h
          · simp [sel, not_lt.2 h]
          · simp [sel, h]
        rw [h1, h2, List.append_nil]
      have hn : D.neighbors[i]? = some ((a ++ b).map Entry.nbr) := by rw [h.cols.nbr]; simp [hr]
      unfold setPeriodicSite at hE
      rw [hreg, hn] at hE
      simp only [List.length_map, List.length_append] at hE
      rw [if_neg (by omega)] at hE
      split_ifs at hE
      cases hE
      exact ⟨⟨t, h⟩, rfl⟩

namespace Lattice

theorem loop_regularFirst : ∀ (P : PDict d ℝ) {D : LatticeData d ℝ} {t : List (List (Entry d))},
    RegularFirst D t → (∃ t', RegularFirst (setPeriodicLoop D P).1 t') ∧
      (setPeriodicLoop D P).1.removePeriodic = D.removePeriodic
  | [], _, t, h => ⟨⟨t, h⟩, rfl⟩
  | p :: P, D, t, h => by
    unfold setPeriodicLoop
    cases hE : D.setPeriodicSite p.1 p.2 with
    | error e => exact ⟨⟨t, h⟩, rfl⟩
    | ok E =>
      obtain ⟨⟨t', h'⟩, h2⟩ := h.site hE
      obtain ⟨h3, h4⟩ := loop_regularFirst P h'
      exact ⟨h3, h4.trans h2⟩

end Lattice

theorem RegularFirst.remove {K : Type*} {D D0 : LatticeData d K} {t : List (List (Entry d))}
    (h : RegularFirst D t) (h0 : D.removePeriodic = .ok D0) :
    (∃ t', RegularFirst D0 t') ∧ D0.removePeriodic = .ok D0 := by
  obtain ⟨D', hD', c', -, -, -, u4, u5, u6⟩ := removePeriodic_cols h.cols
  rw [h0] at hD'
  cases hD'
  refine ⟨⟨_, c', fun r hr => ?_⟩, ?_⟩
  · obtain ⟨q, hq, rfl⟩ := List.mem_map.1 hr
    obtain ⟨a, b, rfl, ha, hb⟩ := h.rows q hq
    refine ⟨_, _, List.map_append, fun e he => ?_, fun e he => ?_⟩
    · obtain ⟨x, hx, rfl⟩ := List.mem_map.1 he
      rw [u5]
      simpa [clearEntry, (ha x hx).2] using (ha x hx).1
    · rw [clear_rest hb] at he
      rw [List.eq_of_mem_replicate he, u4, u5]
      exact Or.inr ⟨rfl, rfl⟩
  · rw [← h0]
    refine removePeriodic_congr h.cols c' (removePeriodic_sites h0) u6 ?_
    simp [clearEntry, Function.comp_def]

namespace Lattice

/-- `set_periodic`, whether it succeeds or raises, keeps the regular neighbours first and what
`remove_periodic` would leave. -/
theorem setPeriodic_regularFirst (env : Env ℝ) {L : Lattice d ℝ} {D : LatticeData d ℝ}
    {t : List (List (Entry d))} (hD : L.data = some D) (h : RegularFirst D t) (axis : PAxis) :
    ∃ E t', (L.setPeriodic env axis).1.data = some E ∧ RegularFirst E t' ∧
      E.removePeriodic = D.removePeriodic := by
  obtain ⟨D0, h0, -⟩ := removePeriodic_cols h.cols
  obtain ⟨⟨t0, r0⟩, i0⟩ := h.remove h0
  have haxes : ∀ axes : List ℕ, ∃ E t',
      (setPeriodicAxes env { L with data := some D0 } D0 axes).1.data = some E ∧
        RegularFirst E t' ∧ E.removePeriodic = D.removePeriodic := by
    intro axes
    unfold setPeriodicAxes
    split
    · exact ⟨D0, t0, rfl, r0, i0.trans h0.symm⟩
    · rename_i P hP
      split_ifs
      · exact ⟨D0, t0, rfl, r0, i0.trans h0.symm⟩
      · rw [i0]
        dsimp only
        obtain ⟨⟨t', g1⟩, g2⟩ := loop_regularFirst P r0
        split
        · rename_i E e he
          rw [he] at g1 g2
          exact ⟨E, t', rfl, g1, g2.trans (i0.trans h0.symm)⟩
        · rename_i E he
          rw [he] at g1 g2
          exact ⟨E, t', rfl, g1, g2.trans (i0.trans h0.symm)⟩
  unfold setPeriodic
  split
  · exact ⟨D, t, hD, h, rfl⟩
  · rw [hD]
    dsimp only
    simp only [h0] at haxes ⊢
    split
    · exact ⟨D0, t0, rfl, r0, i0⟩
    · exact haxes _
    · exact haxes _

/-- Only what `remove_periodic` leaves matters for `set_periodic`. -/
theorem setPeriodic_congr (env : Env ℝ) {L L' : Lattice d ℝ} {D D' : LatticeData d ℝ}
    (hw : L'.world = L.world) (hsh : L'.shape = L.shape) (hprim : L'.primitive = L.primitive)
    (hD : L.data = some D) (hD' : L'.data = some D') {D0 : LatticeData d ℝ}
    (h0 : D.removePeriodic = .ok D0) (h0' : D'.removePeriodic = .ok D0) (axis : PAxis)
    (hs : L.shape ≠ none) :
    (L'.setPeriodic env axis).2 = (L.setPeriodic env axis).2 ∧
      (L'.setPeriodic env axis).1.data = (L.setPeriodic env axis).1.data := by
  obtain ⟨w, data, shape, pos, pa, prim⟩ := L
  obtain ⟨w', data', shape', pos', pa', prim'⟩ := L'
  simp only at hw hsh hprim hD hD' hs
  subst hw hsh hprim hD hD'
  obtain ⟨s, rfl⟩ := Option.ne_none_iff_exists'.1 hs
  have haxes : ∀ axes : List ℕ,
      (setPeriodicAxes env ⟨w', some D0, some s, pos', pa', prim'⟩ D0 axes).2 =
        (setPeriodicAxes env ⟨w', some D0, some s, pos, pa, prim'⟩ D0 axes).2 ∧
      (setPeriodicAxes env ⟨w', some D0, some s, pos', pa', prim'⟩ D0 axes).1.data =
        (setPeriodicAxes env ⟨w', some D0, some s, pos, pa, prim'⟩ D0 axes).1.data := by
    intro axes
    unfold setPeriodicAxes Lattice.struct
    dsimp only
    cases computePneighbors env w'.struct D0 axes (prim'.getD false) with
    | error e => exact ⟨rfl, rfl⟩
    | ok P =>
      dsimp only
      by_cases hP : P.isEmpty
      · rw [if_pos hP, if_pos hP]; exact ⟨rfl, rfl⟩
      · rw [if_neg hP, if_neg hP]
        cases D0.removePeriodic with
        | error e => exact ⟨rfl, rfl⟩
        | ok D1 =>
          dsimp only
          rcases setPeriodicLoop D1 P with ⟨E, e | ⟨⟩⟩ <;> exact ⟨rfl, rfl⟩
  unfold setPeriodic
  dsimp only
  rw [h0, h0']
  dsimp only
  split
  · exact ⟨rfl, rfl⟩
  · exact haxes _
  · exact haxes _

end Lattice

/-! ## C121 -/

/-- Two calls have the same result or exception and leave the same structure, sites, neighbours and
shape; if there are periodic neighbours, the recorded axes agree as well. -/
structure SameOutcome (x y : Outcome (Lattice d ℝ) Unit) : Prop where
  result : x.2 = y.2
  data : x.1.data = y.1.data
  world : x.1.world = y.1.world
  shape : x.1.shape = y.1.shape
  pos : x.1.pos = y.1.pos
  primitive : x.1.primitive = y.1.primitive
  axes : x.2 = .ok () → x.1.Marked → x.1.periodicAxes = y.1.periodicAxes

namespace Lattice

theorem sameOutcome (env : Env ℝ) {L L' : Lattice d ℝ} {D D' : LatticeData d ℝ}
    (hw : L'.world = L.world) (hsh : L'.shape = L.shape) (hpos : L'.pos = L.pos)
    (hprim : L'.primitive = L.primitive) (hD : L.data = some D) (hD' : L'.data = some D')
    {D0 : LatticeData d ℝ} (h0 : D.removePeriodic = .ok D0) (h0' : D'.removePeriodic = .ok D0)
    (hs : L.shape ≠ none) (p : PAxis) :
    SameOutcome (L'.setPeriodic env p) (L.setPeriodic env p) := by
  obtain ⟨e1, e2⟩ := setPeriodic_congr env hw hsh hprim hD hD' h0 h0' p hs
  obtain ⟨f1, f2, f3, f4, -⟩ := setPeriodic_frame env L p
  obtain ⟨g1, g2, g3, g4, -⟩ := setPeriodic_frame env L' p
  refine ⟨e1, e2, by rw [f1, g1, hw], by rw [f2, g2, hsh], by rw [f3, g3, hpos],
    by rw [f4, g4, hprim], fun hok hm => ?_⟩
  have hm' : (L.setPeriodic env p).1.Marked := by
    obtain ⟨E, hE, h⟩ := hm
    exact ⟨E, e2 ▸ hE, h⟩
  have k1 := (C67_set_periodic_partial (env := env) (L := L') (axis := p) (Prod.ext rfl hok)).1
  have k2 := (C67_set_periodic_partial (env := env) (L := L) (axis := p)
    (Prod.ext rfl (e1 ▸ hok))).1
  rw [k1.resolve_right fun h => h.1 hm, k2.resolve_right fun h => h.1 hm']

/-- What a sequence of `set_periodic` calls (which may raise) keeps. -/
theorem changes_keep (env : Env ℝ) {L : Lattice d ℝ} {D : LatticeData d ℝ}
    {t : List (List (Entry d))} (hD : L.data = some D) (h : RegularFirst D t) :
    ∀ calls : List PAxis, ∃ E t', (run env L (calls.map .setPeriodic)).data = some E ∧
      RegularFirst E t' ∧ E.removePeriodic = D.removePeriodic ∧
      (run env L (calls.map .setPeriodic)).world = L.world ∧
      (run env L (calls.map .setPeriodic)).shape = L.shape ∧
      (run env L (calls.map .setPeriodic)).pos = L.pos ∧
      (run env L (calls.map .setPeriodic)).primitive = L.primitive := by
  intro calls
  induction calls using List.reverseRecOn with
  | nil => exact ⟨D, t, hD, h, rfl, rfl, rfl, rfl, rfl⟩
  | append_singleton calls p ih =>
    obtain ⟨E, t', h1, h2, h3, h4, h5, h6, h7⟩ := ih
    have hrun : run env L ((calls ++ [p]).map .setPeriodic) =
        ((run env L (calls.map .setPeriodic)).setPeriodic env p).1 := by
      unfold run
      rw [List.map_append, List.foldl_append]
      rfl
    rw [hrun]
    obtain ⟨F, t'', k1, k2, k3⟩ := setPeriodic_regularFirst env h1 h2 p
    obtain ⟨f1, f2, f3, f4, -⟩ := setPeriodic_frame env (run env L (calls.map .setPeriodic)) p
    exact ⟨F, t'', k1, k2, k3.trans h3, f1.trans h4, f2.trans h5, f3.trans h6, f4.trans h7⟩

/-- `build(periodic=p)` is `build()` followed by `set_periodic(p)`. -/
theorem build_periodic {env : Env ℝ} {L L1 : Lattice d ℝ} {a : BuildArgs d ℝ}
    (hok : L.build env { a with periodic := none } = (L1, .ok ())) (p : PAxis) :
    L.build env { a with periodic := some p } = L1.setPeriodic env p := by
  unfold build at hok ⊢
  dsimp only at hok ⊢
  have e1 : buildShape L.struct { a with periodic := some p } =
      buildShape L.struct { a with periodic := none } := rfl
  have e2 : buildData env L.struct { a with periodic := some p } =
      buildData env L.struct { a with periodic := none } := rfl
  rw [e1, e2]
  split at hok
  · cases hok
  · split at hok
    · cases hok
    · split at hok
      · cases hok
      · split at hok
        · cases hok
        · cases hok
          rfl

end Lattice

/-- The data of a lattice built without `min_neighbors`: regular neighbours first, nothing marked as
periodic. -/
theorem build_regularFirst (hd : 0 < d) {env : Env ℝ} {L L1 : Lattice d ℝ}
    (h : Reachable env L.world) (hS : SitesDistinct L.struct) {a : BuildArgs d ℝ}
    (hm : a.minNeighbors = none) (hp : a.periodic = none) (hb : a.bits = none)
    (hok : L.build env a = (L1, .ok ())) {D : LatticeData d ℝ} (hD : L1.data = some D)
    (htop : ⊤ ∈ D.distvals) (h256 : D.distvals.length ≤ 256) :
    ∃ t w, RegularFirst D t ∧ D.Rect w ∧ ∀ r ∈ D.pmask, ∀ b ∈ r, b = false := by
  obtain ⟨D', hD', hR⟩ := build_rect hd h hS hm hp hb hok
  rw [hD] at hD'
  cases hD'
  obtain ⟨w, hR, hV⟩ := hR htop h256
  obtain ⟨A, D', table, hA, hD', -, hsites, hnd, hcomp, hset⟩ := build_table hd h hm hp hb hok
  rw [hD] at hD'
  cases hD'
  have hpn := positions_nodup hS hsites hnd
  obtain ⟨width, hrows⟩ := C45_rows hd h hA D.indices D.positions hsites.length_eq hpn hcomp
  have hpk := set_packed hset htop h256 (by
    intro row hrow
    obtain ⟨i, hi⟩ := List.mem_iff_getElem?.1 hrow
    exact (hrows i row hi).2.1)
  refine ⟨D.entries, w, ⟨hR.cols, fun r hr => ?_⟩, hR, fun r hr b hb => ?_⟩
  · obtain ⟨i, hi⟩ := List.mem_iff_getElem?.1 hr
    obtain ⟨x, y, rfl, hx, hy⟩ := hpk i r hi
    refine ⟨x, y, rfl, hx, fun e he => ?_⟩
    rcases hy e he with hlev | hper
    · rcases hV.entry _ hr e (List.mem_append_right _ he) with q | q
      · omega
      · exact Or.inr ⟨hlev, by rw [hV.invalidIdx]; exact q.2.1⟩
    · exact Or.inl hper
  · cases b with
    | false => rfl
    | true => exact absurd ⟨r, hr, hb⟩ (Lattice.not_marked_set hset)

/-- C121 for lattices built without `min_neighbors` in which the infinite distance is stored: after
any sequence of `set_periodic` calls, also such that raise, `set_periodic(p)` does exactly what it
does on the freshly built lattice, so that only the last call matters.  `set_periodic(False)` brings
the neighbours of the freshly built lattice back. -/
theorem C121_last_call_partial (hd : 0 < d) {env : Env ℝ} {L L1 : Lattice d ℝ}
    (h : Reachable env L.world) (hS : SitesDistinct L.struct) {a : BuildArgs d ℝ}
    (hm : a.minNeighbors = none) (hp : a.periodic = none) (hb : a.bits = none)
    (hok : L.build env a = (L1, .ok ())) {D : LatticeData d ℝ} (hD : L1.data = some D)
    (htop : ⊤ ∈ D.distvals) (h256 : D.distvals.length ≤ 256) (calls : List PAxis) :
    let M := Lattice.run env L1 (calls.map .setPeriodic)
    (∀ p, SameOutcome (M.setPeriodic env p) (L1.setPeriodic env p)) ∧
    ∃ M' E, M.setPeriodic env (.flag false) = (M', .ok ()) ∧ M'.data = some E ∧
      M'.periodicAxes = [] ∧ E.indices = D.indices ∧ E.positions = D.positions ∧
      E.neighbors = D.neighbors ∧ E.distances = D.distances ∧ E.pmask = D.pmask ∧
      ∀ i level unique, M'.neighbors i level unique = L1.neighbors i level unique := by
  intro M
  obtain ⟨t, w, hF, hR, hper⟩ := build_regularFirst hd h hS hm hp hb hok hD htop h256
  obtain ⟨E, t', k1, k2, k3, k4, k5, k6, k7⟩ := Lattice.changes_keep env hD hF calls
  obtain ⟨D0, hD0, -⟩ := removePeriodic_cols hF.cols
  have hsh : L1.shape ≠ none := by
    obtain ⟨A, shape, D', lo, hi, -, -, -, -, rfl⟩ := Lattice.build_ok hp hok
    simp
  refine ⟨fun p => Lattice.sameOutcome env k4 k5 k6 k7 hD k1 hD0 (k3.trans hD0) hsh p, ?_⟩
  obtain ⟨F, hF', s1, s2, s3, s4, s5, s6⟩ := C52_remove_periodic_noop hR hper
  have hED : E.removePeriodic = .ok F := k3.trans hF'
  have hcall : M.setPeriodic env (.flag false) =
      ({ M with data := some F, periodicAxes := [] }, .ok ()) := by
    obtain ⟨s, hs⟩ := Option.ne_none_iff_exists'.1 (k5 ▸ hsh)
    unfold Lattice.setPeriodic
    rw [hs, k1]
    dsimp only
    rw [hED]
  refine ⟨_, F, hcall, rfl, rfl, s1, s2, s3, s4, s5, fun i level unique => ?_⟩
  unfold Lattice.neighbors
  rw [hD]
  dsimp only
  have hc := hF.cols
  obtain ⟨D1, hD1, -, -, -, -, i1, i2, -⟩ := removePeriodic_cols hc
  rw [hF'] at hD1
  cases hD1
  unfold LatticeData.getNeighbors LatticeData.neighborMask
  rw [s3, s4, s5, i2]

/-- C121: `build(periodic=p)` is `build()` followed by `set_periodic(p)`, and a later
`set_periodic(q)` gives what it gives without `p`. -/
theorem C121_build_partial (hd : 0 < d) {env : Env ℝ} {L L1 : Lattice d ℝ}
    (h : Reachable env L.world) (hS : SitesDistinct L.struct) {a : BuildArgs d ℝ}
    (hm : a.minNeighbors = none) (hb : a.bits = none)
    (hok : L.build env { a with periodic := none } = (L1, .ok ())) {D : LatticeData d ℝ}
    (hD : L1.data = some D) (htop : ⊤ ∈ D.distvals) (h256 : D.distvals.length ≤ 256)
    (p q : PAxis) :
    L.build env { a with periodic := some p } = L1.setPeriodic env p ∧
    SameOutcome ((L.build env { a with periodic := some p }).1.setPeriodic env q)
      (L1.setPeriodic env q) := by
  refine ⟨Lattice.build_periodic hok p, ?_⟩
  rw [Lattice.build_periodic hok p]
  exact (C121_last_call_partial hd h hS (a := { a with periodic := none }) hm rfl hb hok hD htop
    h256 [p]).1 q

/-- A chain of six sites made a ring, opened and made a ring again. -/
example (env : Env ℝ) : ∃ (w : World 1 ℝ) (L1 M : Lattice 1 ℝ) (D : LatticeData 1 ℝ),
    Reachable env w ∧ (Lattice.ofWorld w).build env (chainArgs 5 fun _ => true) = (L1, .ok ()) ∧
    L1.data = some D ∧ D.numSites = 6 ∧
    M = Lattice.run env L1 ([.axes [0], .flag false].map .setPeriodic) ∧
    SameOutcome (M.setPeriodic env (.axes [0])) (L1.setPeriodic env (.axes [0])) ∧
    (M.setPeriodic env (.axes [0])).1.Marked := by
  obtain ⟨w, A, L, D, table, h⟩ := exists_isBuiltChain env Nat.one_pos (by norm_num) 5
    (fun _ => true) (by decide)
  have key := (C121_last_call_partial Nat.one_pos (L := Lattice.ofWorld w) h.reach h.distinct
    rfl rfl rfl h.build h.data h.top h.levels [.axes [0], .flag false]).1 (.axes [0])
  refine ⟨w, L, _, D, h.reach, h.build, h.data, ?_, rfl, key, ?_⟩
  · rw [h.numSites]; decide
  · obtain ⟨L', E, g1, g2, -, -, -, -, g7⟩ := C64_ring_partial env (by norm_num) Nat.one_pos h
    refine ⟨E, by rw [key.data, g1]; exact g2, Lattice.Per.marked ((g7 0 5 (fun _ => 6) 1).2
      ⟨by norm_num, by norm_num, Or.inl (by norm_num), by norm_num, by norm_num, by norm_num⟩)⟩

/-- The chain with two neighbour shells, as a lattice over the rational numbers. -/
def shells2 : Lattice 1 ℚ :=
  Lattice.run (Env.brute ℚ) (Lattice.ofWorld ⟨⟨0, [], []⟩, Structure.ofBasis ⟨1, 1⟩⟩)
    [.conf (.addAtom none (.new (some "A") .none .none .none []) false 0),
      .conf (.addConnections 2 true)]

/-- C121 fails with `min_neighbors`: of the chain of seven sites with two neighbour shells
`build(6, min_neighbors=3)` keeps the five inner ones.  The removed site leaves a gap in the row of
the first site, and `set_periodic(0)` writes over the regular neighbour behind it: site 2 has the
neighbour 0, but site 0 has no longer the neighbour 2.  `set_periodic(False)` does not bring it
back.  All calls succeed. -/
theorem C121_dangling_fails :
    let env := Env.brute ℚ
    let L1 := shells2.build env { shape := .size [6] false, minNeighbors := some 3 }
    let L2 := L1.1.setPeriodic env (.axes [0])
    let L3 := L2.1.setPeriodic env (.flag false)
    L1.2 = .ok () ∧ L2.2 = .ok () ∧ L3.2 = .ok () ∧ L1.1.numSites = 5 ∧
    L1.1.neighbors 0 none false = .ok [1, 2] ∧ L1.1.neighbors 2 none false = .ok [1, 3, 0, 4] ∧
    L2.1.neighbors 0 none false = .ok [1, 3, 4] ∧ L2.1.neighbors 2 none false = .ok [1, 3, 0, 4] ∧
    L3.1.neighbors 0 none false = .ok [1] ∧ L3.1.neighbors 2 none false = .ok [1, 3, 0, 4] := by
  decide +kernel

end Lattpy
