import Verif.Props.Dangling

/-!
# Histories of calls on a lattice

What `set_periodic` and `build` leave unchanged, and the sites of a lattice after any history.
-/

set_option autoImplicit false
set_option linter.unusedSectionVars false

namespace Lattpy

open Structure World

variable {d : ℕ}

/-- The same sites and distance values. -/
structure SameSites {K : Type*} (D E : LatticeData d K) : Prop where
  indices : E.indices = D.indices
  positions : E.positions = D.positions
  distvals : E.distvals = D.distvals
  invalidIdx : E.invalidIdx = D.invalidIdx
  invalidDistidx : E.invalidDistidx = D.invalidDistidx

theorem SameSites.refl {K : Type*} (D : LatticeData d K) : SameSites D D :=
  ⟨rfl, rfl, rfl, rfl, rfl⟩

theorem SameSites.trans {K : Type*} {D E F : LatticeData d K} (h : SameSites D E)
    (h' : SameSites E F) : SameSites D F :=
  ⟨h'.indices.trans h.indices, h'.positions.trans h.positions, h'.distvals.trans h.distvals,
    h'.invalidIdx.trans h.invalidIdx, h'.invalidDistidx.trans h.invalidDistidx⟩

theorem removePeriodic_sites {K : Type*} {D E : LatticeData d K} (h : D.removePeriodic = .ok E) :
    SameSites D E := by
  unfold LatticeData.removePeriodic at h
  split_ifs at h
  cases h
  exact ⟨rfl, rfl, rfl, rfl, rfl⟩

theorem setPeriodicSite_sites {K : Type*} [LinearOrder K] {D E : LatticeData d K} {i : ℕ}
    {links : List (LatticeData.PLink d K)} (h : D.setPeriodicSite i links = .ok E) :
    SameSites D E := by
  unfold LatticeData.setPeriodicSite at h
  split at h
  · dsimp only at h
    split_ifs at h
    · cases h
      exact ⟨rfl, rfl, rfl, rfl, rfl⟩
    · cases h
      exact SameSites.refl _
  · cases h
  · cases h

namespace Lattice

theorem setPeriodicLoop_sites {K : Type*} [Field K] [LinearOrder K] :
    ∀ (P : PDict d K) (D : LatticeData d K), SameSites D (setPeriodicLoop D P).1
  | [], D => SameSites.refl D
  | p :: P, D => by
    unfold setPeriodicLoop
    cases h : D.setPeriodicSite p.1 p.2 with
    | error e => exact SameSites.refl D
    | ok E => exact (setPeriodicSite_sites h).trans (setPeriodicLoop_sites P E)

/-- `set_periodic` changes neither the structure, the shape nor the sites, whether it succeeds or
raises. -/
theorem setPeriodic_frame (env : Env ℝ) (L : Lattice d ℝ) (axis : PAxis) :
    (L.setPeriodic env axis).1.world = L.world ∧ (L.setPeriodic env axis).1.shape = L.shape ∧
      (L.setPeriodic env axis).1.pos = L.pos ∧
      (L.setPeriodic env axis).1.primitive = L.primitive ∧
      (L.data = none → (L.setPeriodic env axis).1 = L) ∧
      ∀ D, L.data = some D → ∃ E, (L.setPeriodic env axis).1.data = some E ∧ SameSites D E := by
  have haxes : ∀ (L0 : Lattice d ℝ) (D0 : LatticeData d ℝ) (axes : List ℕ), L0.data = some D0 →
      (setPeriodicAxes env L0 D0 axes).1.world = L0.world ∧
      (setPeriodicAxes env L0 D0 axes).1.shape = L0.shape ∧
      (setPeriodicAxes env L0 D0 axes).1.pos = L0.pos ∧
      (setPeriodicAxes env L0 D0 axes).1.primitive = L0.primitive ∧
      ∃ E, (setPeriodicAxes env L0 D0 axes).1.data = some E ∧ SameSites D0 E := by
    intro L0 D0 axes h0
    unfold setPeriodicAxes
    split
    · exact ⟨rfl, rfl, rfl, rfl, D0, h0, SameSites.refl _⟩
    · rename_i P hP
      split_ifs
      · exact ⟨rfl, rfl, rfl, rfl, D0, h0, SameSites.refl _⟩
      · split
        · exact ⟨rfl, rfl, rfl, rfl, D0, h0, SameSites.refl _⟩
        · rename_i D1 h1
          have hl := setPeriodicLoop_sites P D1
          split
          · rename_i E e he
            rw [he] at hl
            exact ⟨rfl, rfl, rfl, rfl, E, rfl, (removePeriodic_sites h1).trans hl⟩
          · rename_i E he
            rw [he] at hl
            exact ⟨rfl, rfl, rfl, rfl, E, rfl, (removePeriodic_sites h1).trans hl⟩
  obtain ⟨w, data, shape, pos, pa, prim⟩ := L
  unfold setPeriodic
  cases shape with
  | none => exact ⟨rfl, rfl, rfl, rfl, fun _ => rfl, fun D hD => ⟨D, hD, SameSites.refl _⟩⟩
  | some shape =>
    cases data with
    | none => exact ⟨rfl, rfl, rfl, rfl, fun _ => rfl, fun D h => by cases h⟩
    | some D =>
      dsimp only
      cases h0 : D.removePeriodic with
      | error e =>
        exact ⟨rfl, rfl, rfl, rfl, fun _ => rfl,
          fun D' h => ⟨D, rfl, by cases h; exact SameSites.refl _⟩⟩
      | ok D0 =>
        have hss := removePeriodic_sites h0
        have key : ∀ axes : List ℕ, _ := fun axes =>
          haxes ⟨w, some D0, some shape, pos, pa, prim⟩ D0 axes rfl
        dsimp only
        split
        · refine ⟨rfl, rfl, rfl, rfl, fun h => (by cases h), fun D' h => ⟨D0, rfl, ?_⟩⟩
          cases h
          exact hss
        · obtain ⟨h1, h2, h3, h4, E, h5, h6⟩ := key (List.range d)
          refine ⟨h1, h2, h3, h4, fun h => (by cases h), fun D' h => ⟨E, h5, ?_⟩⟩
          cases h
          exact hss.trans h6
        · rename_i l
          obtain ⟨h1, h2, h3, h4, E, h5, h6⟩ := key l
          refine ⟨h1, h2, h3, h4, fun h => (by cases h), fun D' h => ⟨E, h5, ?_⟩⟩
          cases h
          exact hss.trans h6

end Lattice

theorem deleteRows_sub {α : Type*} {rows out : List α} {sites : List ℕ}
    (h : LatticeData.deleteRows rows sites = .ok out) :
    out = gather rows ((List.range rows.length).filter fun i => decide (i ∉ sites)) := by
  unfold LatticeData.deleteRows at h
  split_ifs at h
  cases h
  rfl

theorem gather_filter_sublist {α : Type*} (rows : List α) (p : ℕ → Bool) :
    (gather rows ((List.range rows.length).filter p)).Sublist rows := by
  have h1 : gather rows (List.range rows.length) = rows := gather_range rows
  conv_rhs => rw [← h1]
  exact List.Sublist.filterMap _ List.filter_sublist

/-- `_filter_dangling` keeps a sublist of the sites. -/
theorem dropDangling_sub {indices : List (Idx d)} {positions : List (Vec d ℝ)}
    {table : List (List (ℕ × WithTop ℝ))} {m : Option ℕ}
    {r : List (Idx d) × List (Vec d ℝ) × List (List (ℕ × WithTop ℝ))}
    (hlen : indices.length = positions.length)
    (hr : Lattice.dropDangling m indices positions table = .ok r) :
    ∃ perm : List ℕ, perm.Sublist (List.range positions.length) ∧ r.1 = gather indices perm ∧
      r.2.1 = gather positions perm := by
  cases m with
  | none =>
    simp only [Lattice.dropDangling, Except.ok.injEq] at hr
    subst hr
    refine ⟨_, List.Sublist.refl _, ?_, (gather_range _).symm⟩
    rw [← hlen, gather_range]
  | some m =>
    simp only [Lattice.dropDangling] at hr
    unfold filterDangling at hr
    dsimp only at hr
    split_ifs at hr
    · cases hr
      refine ⟨_, List.Sublist.refl _, ?_, (gather_range _).symm⟩
      rw [← hlen, gather_range]
    · split at hr
      · rename_i i' p' t' h1 h2 h3
        cases hr
        refine ⟨_, List.filter_sublist, ?_, deleteRows_sub h2⟩
        have := deleteRows_sub h1
        rw [hlen] at this
        exact this
      · cases hr

theorem gather_forall₂ {α β : Type*} {R : α → β → Prop} {l₁ : List α} {l₂ : List β}
    (h : List.Forall₂ R l₁ l₂) (perm : List ℕ) : List.Forall₂ R (gather l₁ perm) (gather l₂ perm) := by
  induction perm with
  | nil => exact List.Forall₂.nil
  | cons i perm ih =>
    unfold gather at ih ⊢
    rw [List.filterMap_cons, List.filterMap_cons]
    by_cases hi : i < l₁.length
    · have hi' : i < l₂.length := by rw [← h.length_eq]; exact hi
      rw [List.getElem?_eq_getElem hi, List.getElem?_eq_getElem hi']
      exact List.Forall₂.cons (h.get hi hi') ih
    · rw [List.getElem?_eq_none (by omega), List.getElem?_eq_none (by rw [← h.length_eq]; omega)]
      exact ih

theorem gather_sublist_nodup {α : Type*} {l : List α} (hl : l.Nodup) {perm : List ℕ}
    (hp : perm.Sublist (List.range l.length)) : (gather l perm).Nodup := by
  have h1 : gather l (List.range l.length) = l := gather_range l
  have h2 : (gather l perm).Sublist (gather l (List.range l.length)) := hp.filterMap _
  rw [h1] at h2
  exact hl.sublist h2

namespace Lattice

/-- What `build` leaves behind, whether it succeeds or raises: no data, or the data of sites of the
structure (each once if no index type was given), with at most later changes by `set_periodic`. -/
theorem build_sites (hd : 0 < d) {env : Env ℝ} {L : Lattice d ℝ} (h : Reachable env L.world)
    (a : BuildArgs d ℝ) :
    (L.build env a).1.world = L.world ∧ ∀ E, (L.build env a).1.data = some E →
      List.Forall₂ (IsSitePos L.struct) E.indices E.positions ∧
      (a.bits = none → E.indices.Nodup) := by
  have hdata : ∀ shape D, buildData env L.struct a shape = .ok D →
      List.Forall₂ (IsSitePos L.struct) D.indices D.positions ∧ (a.bits = none → D.indices.Nodup) := by
    intro shape D hD
    obtain ⟨indices, positions, table, indices', positions', table', h1, h2, h3, h4⟩ := buildData_ok hD
    obtain ⟨h5, h6⟩ := buildIndices_sites hd h h1
    have hDi : D.indices = indices' ∧ D.positions = positions' := by
      rcases set_cases indices' positions' (table'.map fun r => r.map Prod.fst)
          (table'.map fun r => r.map Prod.snd) with ⟨-, h⟩ | ⟨-, D', h, h7, h8, -⟩
      · rw [h4] at h; cases h
      · rw [h4] at h; cases h; exact ⟨h7, h8⟩
    obtain ⟨perm, p1, p2, p3⟩ := dropDangling_sub h5.length_eq h3
    dsimp only at p2 p3 h5 h6
    rw [hDi.1, hDi.2, p2, p3]
    refine ⟨gather_forall₂ h5 perm, fun hb => gather_sublist_nodup (h6 hb) ?_⟩
    rw [h5.length_eq]
    exact p1
  unfold build
  dsimp only
  split
  · exact ⟨rfl, fun E h => by cases h⟩
  · split
    · exact ⟨rfl, fun E h => by cases h⟩
    · rename_i shape hsh
      split
      · exact ⟨rfl, fun E h => by cases h⟩
      · rename_i D hD
        have hs := hdata shape D hD
        have hup : ∀ (M : Lattice d ℝ), M.data = some D → M.world = L.world →
            (updateShape M).1.data = some D ∧ (updateShape M).1.world = L.world := by
          intro M hM hw
          unfold updateShape
          rw [hM]
          dsimp only
          split
          · exact ⟨hM, hw⟩
          · exact ⟨rfl, hw⟩
        split
        · rename_i L1 e he
          have := hup { L with data := some D, primitive := some a.primitive } rfl rfl
          rw [he] at this
          refine ⟨this.2, fun E hE => ?_⟩
          rw [this.1] at hE
          cases hE
          exact hs
        · rename_i L1 he
          have := hup { L with data := some D, primitive := some a.primitive } rfl rfl
          rw [he] at this
          obtain ⟨h1, h2⟩ := this
          dsimp only at h1 h2
          split
          · refine ⟨h2, fun E hE => ?_⟩
            dsimp only at hE
            rw [h1] at hE
            cases hE
            exact hs
          · rename_i p hp
            obtain ⟨f1, -, -, -, -, f6⟩ := setPeriodic_frame env L1 p
            obtain ⟨E', hE', hss⟩ := f6 D h1
            refine ⟨f1.trans h2, fun E hE => ?_⟩
            rw [hE'] at hE
            cases hE
            rw [hss.indices, hss.positions]
            exact hs

/-- Induction over histories. -/
theorem run_induction {env : Env ℝ} {P : Lattice d ℝ → Prop} {ops : List (Op d ℝ)}
    (hstep : ∀ L, ∀ op ∈ ops, P L → P (L.call env op).1) {L : Lattice d ℝ} (h : P L) :
    P (run env L ops) := by
  unfold run
  induction ops generalizing L with
  | nil => exact h
  | cons op ops ih =>
    rw [List.foldl_cons]
    exact ih (fun L op' hop => hstep L op' (List.mem_cons_of_mem _ hop))
      (hstep L op List.mem_cons_self h)

/-- After any history of calls (without explicit index types) starting from a new lattice: the
configuration is reachable, and every stored site is stored once, with a position. -/
theorem run_sites (hd : 0 < d) {env : Env ℝ} {w : World d ℝ} (hw : Reachable env w)
    (ops : List (Op d ℝ)) (hb : ∀ a, Op.build a ∈ ops → a.bits = none) :
    Reachable env (run env (ofWorld w) ops).world ∧
      ∀ D, (run env (ofWorld w) ops).data = some D →
        D.indices.Nodup ∧ D.positions.length = D.indices.length := by
  refine run_induction (P := fun L => Reachable env L.world ∧ ∀ D, L.data = some D →
    D.indices.Nodup ∧ D.positions.length = D.indices.length) ?_ ⟨hw, fun D h => by cases h⟩
  rintro L op hop ⟨h1, h2⟩
  cases op with
  | conf o => exact ⟨h1.call o, h2⟩
  | build a =>
    obtain ⟨g1, g2⟩ := build_sites hd h1 a
    refine ⟨?_, fun D hD => ?_⟩
    · change Reachable env (L.build env a).1.world
      rw [g1]
      exact h1
    · obtain ⟨g3, g4⟩ := g2 D hD
      exact ⟨g4 (hb a hop), g3.length_eq.symm⟩
  | setPeriodic axis =>
    obtain ⟨f1, -, -, -, f5, f6⟩ := setPeriodic_frame env L axis
    refine ⟨?_, fun D hD => ?_⟩
    · change Reachable env (L.setPeriodic env axis).1.world
      rw [f1]
      exact h1
    · have hD : (L.setPeriodic env axis).1.data = some D := hD
      cases hL : L.data with
      | none =>
        rw [f5 hL, hL] at hD
        cases hD
      | some D0 =>
        obtain ⟨E, hE, hs⟩ := f6 D0 hL
        rw [hD] at hE
        cases hE
        rw [hs.indices, hs.positions]
        exact h2 D0 hL

end Lattice

end Lattpy
