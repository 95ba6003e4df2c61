import Verif.Props.Sound
import Verif.Props.DataMap

/-!
# The map of a lattice with any history of calls
-/

set_option autoImplicit false
set_option linter.unusedSectionVars false

namespace Lattpy

open Structure World LatticeData

variable {d : ℕ}

theorem removePeriodic_fresh {K : Type*} {D E : LatticeData d K} (h : Fresh D)
    (hE : D.removePeriodic = .ok E) : Fresh E := by
  unfold LatticeData.removePeriodic at hE
  split_ifs at hE
  cases hE
  refine ⟨fun r hr l hl => ?_, h.dmap⟩
  dsimp only at hr ⊢
  obtain ⟨i, hi⟩ := List.mem_iff_getElem?.1 hr
  rw [List.getElem?_zipWith] at hi
  cases h1 : D.distances[i]? with
  | none => rw [h1] at hi; cases hi
  | some s =>
  cases h2 : D.pmask[i]? with
  | none => rw [h1, h2] at hi; cases hi
  | some b =>
  rw [h1, h2] at hi
  cases hi
  obtain ⟨j, hj⟩ := List.mem_iff_getElem?.1 hl
  rw [List.getElem?_zipWith] at hj
  cases h3 : s[j]? with
  | none => rw [h3] at hj; cases hj
  | some y =>
  cases h4 : b[j]? with
  | none => rw [h3, h4] at hj; cases hj
  | some c =>
  rw [h3, h4] at hj
  cases hj
  split_ifs
  · exact le_rfl
  · exact h.levels s (List.mem_of_getElem? h1) _ (List.mem_of_getElem? h3)

theorem searchsorted_le_top {K : Type*} [LinearOrder K] {vals : List (WithTop K)} (htop : ⊤ ∈ vals)
    (x : WithTop K) : searchsorted vals x < vals.length := by
  unfold searchsorted
  refine lt_of_le_of_ne (List.takeWhile_sublist _).length_le fun hc => ?_
  have := (List.takeWhile_sublist (fun y => decide (y < x))).eq_of_length hc
  rw [← this] at htop
  have hall := List.all_takeWhile (p := fun y => decide (y < x)) (l := vals)
  rw [List.all_eq_true] at hall
  simpa using hall ⊤ htop

theorem setPeriodicSite_fresh {K : Type*} [LinearOrder K] {D E : LatticeData d K} (h : Fresh D)
    (htop : ⊤ ∈ D.distvals) (hinv : D.invalidDistidx + 1 = D.distvals.length) {i : ℕ}
    {links : List (PLink d K)} (hE : D.setPeriodicSite i links = .ok E) : Fresh E := by
  unfold LatticeData.setPeriodicSite at hE
  split at hE
  · dsimp only at hE
    split_ifs at hE
    · cases hE
      refine ⟨fun r hr l hl => ?_, h.dmap⟩
      dsimp only at hr ⊢
      rcases mem_modifyRow hr with hr | ⟨s, hs, rfl⟩
      · exact h.levels r hr l hl
      · rcases mem_writeSlice hl with hl | hl
        · exact h.levels s (List.mem_of_getElem? hs) l hl
        · obtain ⟨k, -, rfl⟩ := List.mem_map.1 hl
          have := searchsorted_le_top htop k.dist
          omega
    · cases hE
      exact h
  · cases hE
  · cases hE

theorem setPeriodicLoop_fresh : ∀ (P : Lattice.PDict d ℝ) {D : LatticeData d ℝ}, Fresh D →
    ⊤ ∈ D.distvals → D.invalidDistidx + 1 = D.distvals.length →
    Fresh (Lattice.setPeriodicLoop D P).1
  | [], _, h, _, _ => h
  | p :: P, D, h, htop, hinv => by
    unfold Lattice.setPeriodicLoop
    cases hE : D.setPeriodicSite p.1 p.2 with
    | error e => exact h
    | ok E =>
      have hs := setPeriodicSite_sites hE
      dsimp only
      exact setPeriodicLoop_fresh P (setPeriodicSite_fresh h htop hinv hE)
        (by rw [hs.distvals]; exact htop) (by rw [hs.distvals, hs.invalidDistidx]; exact hinv)

theorem setPeriodic_fresh (env : Env ℝ) {L : Lattice d ℝ} {D E : LatticeData d ℝ}
    (hD : L.data = some D) (h : Fresh D) (htop : ⊤ ∈ D.distvals)
    (hinv : D.invalidDistidx + 1 = D.distvals.length) (axis : PAxis)
    (hE : (L.setPeriodic env axis).1.data = some E) : Fresh E := by
  have haxes : ∀ (L0 : Lattice d ℝ) (D0 : LatticeData d ℝ) (axes : List ℕ), L0.data = some D0 →
      Fresh D0 → ⊤ ∈ D0.distvals → D0.invalidDistidx + 1 = D0.distvals.length →
      (Lattice.setPeriodicAxes env L0 D0 axes).1.data = some E → Fresh E := by
    intro L0 D0 axes hL0 h0 htop0 hinv0 hE
    unfold Lattice.setPeriodicAxes at hE
    split at hE
    · rw [hL0] at hE; cases hE; exact h0
    · rename_i P hP
      split_ifs at hE
      · rw [hL0] at hE; cases hE; exact h0
      · split at hE
        · rw [hL0] at hE; cases hE; exact h0
        · rename_i D1 h1
          have hs := removePeriodic_sites h1
          have hl := setPeriodicLoop_fresh P (removePeriodic_fresh h0 h1)
            (by rw [hs.distvals]; exact htop0) (by rw [hs.distvals, hs.invalidDistidx]; exact hinv0)
          split at hE
          · rename_i E' e he
            rw [he] at hl
            cases hE
            exact hl
          · rename_i E' he
            rw [he] at hl
            cases hE
            exact hl
  unfold Lattice.setPeriodic at hE
  split at hE
  · rw [hD] at hE; cases hE; exact h
  · rw [hD] at hE
    dsimp only at hE
    split at hE
    · rw [hD] at hE; cases hE; exact h
    · rename_i D0 h0
      have hs := removePeriodic_sites h0
      have f0 := removePeriodic_fresh h h0
      have t0 : ⊤ ∈ D0.distvals := by rw [hs.distvals]; exact htop
      have i0 : D0.invalidDistidx + 1 = D0.distvals.length := by
        rw [hs.distvals, hs.invalidDistidx]; exact hinv
      split at hE
      · cases hE; exact f0
      · exact haxes _ D0 _ rfl f0 t0 i0 hE
      · exact haxes _ D0 _ rfl f0 t0 i0 hE

/-- After every history of calls: no map was computed, no level exceeds the invalid one. -/
theorem Lattice.run_fresh (hd : 0 < d) {env : Env ℝ} {w : World d ℝ} (hw : Reachable env w)
    (ops : List (Lattice.Op d ℝ)) {D : LatticeData d ℝ}
    (hD : (Lattice.run env (Lattice.ofWorld w) ops).data = some D)
    (h256 : D.distvals.length ≤ 256) (htop : ⊤ ∈ D.distvals) :
    Weak D ∧ Fresh D := by
  have key := Lattice.run_induction (env := env) (ops := ops) (L := Lattice.ofWorld w)
    (P := fun L => Reachable env L.world ∧ ∀ D, L.data = some D → D.distvals.length ≤ 256 →
      ⊤ ∈ D.distvals → Weak D ∧ Fresh D)
    ?_ ⟨hw, fun D h => by cases h⟩
  · exact key.2 D hD h256 htop
  · rintro L op - ⟨h1, h2⟩
    cases op with
    | conf o => exact ⟨h1.call o, h2⟩
    | build a =>
      refine ⟨?_, fun E hE h256 htop => ?_⟩
      · change Reachable env (L.build env a).1.world
        rw [(Lattice.build_sites hd h1 a).1]
        exact h1
      · obtain ⟨D, g1, ⟨-, rfl⟩ | ⟨hs, L1, p, g2, ⟨-, g3⟩ | rfl⟩⟩ := build_strong hd h1 a hE
        · exact ⟨(g1 h256).1.weak, (g1 h256).2⟩
        · rw [hs.distvals] at h256 htop
          obtain ⟨k1, k2⟩ := g1 h256
          exact ⟨k1.weak.setPeriodic env g2 p g3, setPeriodic_fresh env g2 k2 htop k1.inv p g3⟩
        · exact ⟨(g1 h256).1.weak, (g1 h256).2⟩
    | setPeriodic axis =>
      obtain ⟨f1, -, -, -, f5, f6⟩ := Lattice.setPeriodic_frame env L axis
      refine ⟨?_, fun E hE h256 htop => ?_⟩
      · change Reachable env (L.setPeriodic env axis).1.world
        rw [f1]
        exact h1
      · have hE : (L.setPeriodic env axis).1.data = some E := hE
        cases hL : L.data with
        | none =>
          rw [f5 hL, hL] at hE
          cases hE
        | some D0 =>
          obtain ⟨E', hE', hs⟩ := f6 D0 hL
          rw [hE] at hE'
          cases hE'
          rw [hs.distvals] at h256 htop
          obtain ⟨k1, k2⟩ := h2 D0 hL h256 htop
          exact ⟨k1.setPeriodic env hL axis hE, setPeriodic_fresh env hL k2 htop k1.inv axis hE⟩

/-- The data can be used to compute a map. -/
theorem Weak.usable {D : LatticeData d ℝ} (h : Weak D) (hf : Fresh D) : D.Usable := by
  obtain ⟨w, hw⟩ := h.sound.rect
  refine ⟨fun r hr e he => ?_⟩
  have hl : e.level ≤ D.invalidDistidx := by
    refine hf.levels (r.map Entry.level) ?_ _ (List.mem_map_of_mem he)
    rw [hw.cols.level]
    exact List.mem_map_of_mem hr
  rcases hl.lt_or_eq with hl | hl
  · exact Or.inl ⟨hl, h.sound.neighbor r hr e he hl⟩
  · exact Or.inr hl

/-- After every history of calls the atom numbers of the stored sites are not negative. -/
theorem Lattice.run_alpha (hd : 0 < d) {env : Env ℝ} {w : World d ℝ} (hw : Reachable env w)
    (ops : List (Lattice.Op d ℝ)) {D : LatticeData d ℝ}
    (hD : (Lattice.run env (Lattice.ofWorld w) ops).data = some D) :
    ∀ x ∈ D.indices, 0 ≤ Idx.alpha x := by
  have key := Lattice.run_induction (env := env) (ops := ops) (L := Lattice.ofWorld w)
    (P := fun L => Reachable env L.world ∧ ∀ D, L.data = some D → ∀ x ∈ D.indices, 0 ≤ Idx.alpha x)
    ?_ ⟨hw, fun D h => by cases h⟩
  · exact key.2 D hD
  · rintro L op - ⟨h1, h2⟩
    cases op with
    | conf o => exact ⟨h1.call o, h2⟩
    | build a =>
      obtain ⟨g1, g2⟩ := Lattice.build_sites hd h1 a
      refine ⟨?_, fun E hE x hx => ?_⟩
      · change Reachable env (L.build env a).1.world
        rw [g1]
        exact h1
      · exact (alpha_range hd h1 (g2 E hE).1 x hx).1
    | setPeriodic axis =>
      obtain ⟨f1, -, -, -, f5, f6⟩ := Lattice.setPeriodic_frame env L axis
      refine ⟨?_, fun E hE => ?_⟩
      · change Reachable env (L.setPeriodic env axis).1.world
        rw [f1]
        exact h1
      · have hE : (L.setPeriodic env axis).1.data = some E := hE
        cases hL : L.data with
        | none =>
          rw [f5 hL, hL] at hE
          cases hE
        | some D0 =>
          obtain ⟨E', hE', hs⟩ := f6 D0 hL
          rw [hE] at hE'
          cases hE'
          rw [hs.indices]
          exact h2 D0 hL

end Lattpy
