import Verif.Lemmas.MapReady

/-!
# The map of lattices joined by `append`, `extend` and `repeat`
-/

set_option autoImplicit false

namespace Lattpy

open Structure World LatticeData

variable {d : ℕ}

theorem mem_splitLike {α β : Type*} : ∀ (rows : List (List α)) (flat : List β),
    ∀ r ∈ splitLike rows flat, ∀ x ∈ r, x ∈ flat
  | [], _, _, hr, _, _ => nomatch hr
  | row :: rows, flat, r, hr, x, hx => by
    rw [splitLike, List.mem_cons] at hr
    rcases hr with rfl | hr
    · exact List.mem_of_mem_take hx
    · exact List.mem_of_mem_drop (mem_splitLike rows _ r hr x hx)

theorem le_foldl_max : ∀ (l : List ℕ) (a : ℕ), a ≤ l.foldl max a ∧ ∀ x ∈ l, x ≤ l.foldl max a
  | [], a => ⟨le_rfl, fun _ h => nomatch h⟩
  | b :: l, a => by
    obtain ⟨h1, h2⟩ := le_foldl_max l (max a b)
    rw [List.foldl_cons]
    refine ⟨(le_max_left _ _).trans h1, fun x hx => ?_⟩
    rcases List.mem_cons.1 hx with rfl | hx
    · exact (le_max_right _ _).trans h1
    · exact h2 x hx

/-- `set` leaves no map and only levels up to the invalid one. -/
theorem set_fresh' {K : Type*} [LinearOrder K] {indices : List (Idx d)} {positions : List (Vec d K)}
    {neighbors : List (List ℕ)} {distances : List (List (WithTop K))} {D : LatticeData d K}
    (h : LatticeData.set indices positions neighbors distances = .ok D) :
    Fresh D ∧ D.indices = indices := by
  unfold LatticeData.set at h
  dsimp only at h
  split at h
  · cases h
  · rename_i x xs hx
    cases h
    refine ⟨⟨fun r hr l hl => ?_, rfl⟩, rfl⟩
    dsimp only at hr ⊢
    have := mem_splitLike _ _ r hr l hl
    rw [hx, List.mem_cons] at this
    rcases this with rfl | h
    · exact (le_foldl_max xs l).1
    · exact (le_foldl_max xs x).2 l h

theorem mem_gather' {α : Type*} {l : List α} {perm : List ℕ} {x : α} (h : x ∈ gather l perm) :
    x ∈ l := by
  unfold gather at h
  obtain ⟨i, -, hi⟩ := List.mem_filterMap.1 h
  exact List.mem_of_getElem? hi

theorem sortNeighbors_fresh {K : Type*} [LinearOrder K] (env : Env K) {D : LatticeData d K}
    (h : Fresh D) : Fresh (D.sortNeighbors env) := by
  refine ⟨fun r hr l hl => ?_, h.dmap⟩
  unfold LatticeData.sortNeighbors at hr
  dsimp only at hr
  obtain ⟨i, hi⟩ := List.mem_iff_getElem?.1 hr
  rw [List.getElem?_zipWith] at hi
  split at hi
  · rename_i s p hs hp
    rw [Option.some.injEq] at hi
    subst hi
    exact h.levels s (List.mem_of_getElem? hs) l (mem_gather' hl)
  · cases hi

theorem reorder_fresh {K : Type*} {D : LatticeData d K} (h : Fresh D) (perm : List ℕ) :
    Fresh (D.reorder perm) := by
  refine ⟨fun r hr l hl => ?_, h.dmap⟩
  exact h.levels r (mem_gather' hr) l hl

theorem addNeighbor_fresh {K : Type*} [LinearOrder K] {D E : LatticeData d K} (h : Fresh D)
    (htop : ⊤ ∈ D.distvals) (hinv : D.invalidDistidx + 1 = D.distvals.length) {i j : ℕ}
    {x : WithTop K} (hE : D.addNeighbor i j x = .ok E) :
    Fresh E ∧ E.distvals = D.distvals ∧ E.invalidDistidx = D.invalidDistidx ∧
      E.indices = D.indices := by
  unfold LatticeData.addNeighbor at hE
  split at hE
  · cases hE
  · dsimp only at hE
    split_ifs at hE
    · cases hE
      refine ⟨⟨fun r hr l hl => ?_, h.dmap⟩, rfl, rfl, rfl⟩
      dsimp only at hr ⊢
      rcases mem_modifyRow hr with hr | ⟨s, hs, rfl⟩
      · exact h.levels r hr l hl
      · rcases mem_writeSlice hl with hl | hl
        · exact h.levels s (List.mem_of_getElem? hs) l hl
        · rw [List.mem_singleton] at hl
          have := searchsorted_le_top htop x
          omega
    · cases hE
      exact ⟨h, rfl, rfl, rfl⟩

theorem addPairs_fresh (offset : ℕ) : ∀ (ps : List ((ℕ × ℕ) × ℝ)) {D E : LatticeData d ℝ},
    Fresh D → ⊤ ∈ D.distvals → D.invalidDistidx + 1 = D.distvals.length →
    Lattice.addPairs offset D ps = .ok E → Fresh E
  | [], D, E, h, _, _, hE => by
    cases hE
    exact h
  | p :: ps, D, E, h, htop, hinv, hE => by
    unfold Lattice.addPairs at hE
    split at hE
    · cases hE
    · rename_i D1 h1
      obtain ⟨g1, g2, g3, -⟩ := addNeighbor_fresh h htop hinv h1
      split at hE
      · cases hE
      · rename_i D2 h2
        obtain ⟨k1, k2, k3, -⟩ := addNeighbor_fresh g1 (by rw [g2]; exact htop)
          (by rw [g2, g3]; exact hinv) h2
        exact addPairs_fresh offset ps k1 (by rw [k2, g2]; exact htop)
          (by rw [k2, k3, g2, g3]; exact hinv) hE

theorem addPairs_keeps (offset : ℕ) : ∀ (ps : List ((ℕ × ℕ) × ℝ)) {D E : LatticeData d ℝ},
    Lattice.addPairs offset D ps = .ok E → E.distvals = D.distvals ∧
      E.invalidDistidx = D.invalidDistidx ∧ E.indices = D.indices
  | [], D, E, hE => by
    cases hE
    exact ⟨rfl, rfl, rfl⟩
  | p :: ps, D, E, hE => by
    have hadd : ∀ {A B : LatticeData d ℝ} {i j : ℕ} {x : WithTop ℝ}, A.addNeighbor i j x = .ok B →
        B.distvals = A.distvals ∧ B.invalidDistidx = A.invalidDistidx ∧ B.indices = A.indices := by
      intro A B i j x hAB
      unfold LatticeData.addNeighbor at hAB
      split at hAB
      · cases hAB
      · dsimp only at hAB
        split_ifs at hAB <;> cases hAB <;> exact ⟨rfl, rfl, rfl⟩
    unfold Lattice.addPairs at hE
    split at hE
    · cases hE
    · rename_i D1 h1
      split at hE
      · cases hE
      · rename_i D2 h2
        obtain ⟨a1, a2, a3⟩ := hadd h1
        obtain ⟨b1, b2, b3⟩ := hadd h2
        obtain ⟨c1, c2, c3⟩ := addPairs_keeps offset ps hE
        exact ⟨c1.trans (b1.trans a1), c2.trans (b2.trans a2), c3.trans (b3.trans a3)⟩

/-- The number of the atom is never negative. -/
def AlphaNonneg (D : LatticeData d ℝ) : Prop := ∀ x ∈ D.indices, 0 ≤ Idx.alpha x

/-- Joining sites keeps the data ready for a map. -/
theorem appendSites_fresh (env : Env ℝ) {L : Lattice d ℝ} {D E : LatticeData d ℝ}
    (hD : L.data = some D) (hF : ⊤ ∈ D.distvals → D.distvals.length ≤ 256 → Fresh D)
    (hA : AlphaNonneg D) {ind : List (Idx d)} (hA2 : ∀ x ∈ ind, 0 ≤ Idx.alpha x)
    {pos : List (Vec d ℝ)} {nbrs : List (List ℕ)} {dists : List (List (WithTop ℝ))}
    (ax : ℕ) (side : Bool) (sortAx : Option (Fin (d + 1))) (rev : Bool)
    (hE : (L.appendSites env ind pos nbrs dists ax side sortAx rev).1.data = some E) :
    (Strong E → ⊤ ∈ E.distvals → E.distvals.length ≤ 256 → Fresh E) ∧ AlphaNonneg E := by
  unfold Lattice.appendSites at hE
  rw [hD] at hE
  dsimp only at hE
  have same : L.data = some E → (Strong E → ⊤ ∈ E.distvals → E.distvals.length ≤ 256 → Fresh E) ∧
      AlphaNonneg E := by
    intro h
    rw [hD] at h
    cases h
    exact ⟨fun _ => hF, hA⟩
  split at hE
  · exact same hE
  · rename_i v hv
    split at hE
    · exact same hE
    · rename_i F hF'
      have hset : Fresh F ∧ AlphaNonneg F := by
        unfold LatticeData.append at hF'
        dsimp only at hF'
        split at hF'
        · cases hF'
        · cases hF'
        · split at hF'
          · rename_i G hG
            cases hF'
            obtain ⟨g1, g2⟩ := set_fresh' hG
            refine ⟨sortNeighbors_fresh env g1, ?_⟩
            show ∀ x ∈ G.indices, _
            rw [g2]
            intro x hx
            rcases List.mem_append.1 hx with hx | hx
            · exact hA x hx
            · obtain ⟨y, hy, rfl⟩ := List.mem_map.1 hx
              have := hA2 y hy
              simpa [shiftIdx] using this
          · cases hF'
      split at hE
      · cases hE
        exact ⟨fun _ _ _ => hset.1, hset.2⟩
      · split at hE
        · cases hE
          exact ⟨fun _ _ _ => hset.1, hset.2⟩
        · rename_i G hG
          rw [updateShape_data] at hE
          dsimp only at hE
          have hE := Option.some.inj hE
          obtain ⟨k1, k2, k3⟩ := addPairs_keeps _ _ hG
          have hdv : E.distvals = F.distvals := by
            rw [← hE, ← k1]
            cases sortAx <;> rfl
          have hinv : E.invalidDistidx = F.invalidDistidx := by
            rw [← hE, ← k2]
            cases sortAx <;> rfl
          constructor
          · intro hS htop _
            have := addPairs_fresh _ _ hset.1 (by rw [← hdv]; exact htop)
              (by rw [← hdv, ← hinv]; exact hS.inv) hG
            rw [← hE]
            cases sortAx with
            | none => exact this
            | some s => exact reorder_fresh this _
          · have hG' : AlphaNonneg G := by
              unfold AlphaNonneg
              rw [k3]
              exact hset.2
            rw [← hE]
            cases sortAx with
            | none => exact hG'
            | some s => exact fun x hx => hG' x (mem_gather' hx)

theorem Lattice.Used.fresh (hd : 0 < d) {env : Env ℝ} {L : Lattice d ℝ} (h : L.Used env) :
    ∀ D, L.data = some D → (⊤ ∈ D.distvals → D.distvals.length ≤ 256 → Fresh D) ∧ AlphaNonneg D := by
  have build_case : ∀ {L : Lattice d ℝ} (a : BuildArgs d ℝ), L.Used env → ∀ E,
      (L.build env a).1.data = some E →
      (⊤ ∈ E.distvals → E.distvals.length ≤ 256 → Fresh E) ∧ AlphaNonneg E := by
    intro L a hL E hE
    have hw := (hL.strong hd).1
    refine ⟨fun htop h256 => ?_, fun x hx =>
      (alpha_range hd hw ((Lattice.build_sites hd hw a).2 E hE).1 x hx).1⟩
    obtain ⟨D, g1, ⟨-, rfl⟩ | ⟨hs, L1, p, g2, ⟨-, g3⟩ | rfl⟩⟩ := build_strong hd hw a hE
    · exact (g1 h256).2
    · rw [hs.distvals] at h256 htop
      obtain ⟨k1, k2⟩ := g1 h256
      exact setPeriodic_fresh env g2 k2 htop k1.inv p g3
    · exact (g1 h256).2
  induction h with
  | new hw => exact fun D h => by cases h
  | conf op _ ih => exact ih
  | @build L a hL hp ih => exact build_case a hL
  | @setPeriodic L axis hL hp ih =>
    obtain ⟨f1, -, -, -, f5, f6⟩ := Lattice.setPeriodic_frame env L axis
    intro E hE
    cases hL0 : L.data with
    | none =>
      rw [f5 hL0, hL0] at hE
      cases hE
    | some D0 =>
      obtain ⟨E', hE', hs⟩ := f6 D0 hL0
      rw [hE] at hE'
      cases hE'
      obtain ⟨i1, i2⟩ := ih D0 hL0
      refine ⟨fun htop h256 => ?_, ?_⟩
      · rw [hs.distvals] at h256 htop
        exact setPeriodic_fresh env hL0 (i1 htop h256) htop ((hL.strong hd).2 D0 hL0 h256).inv axis hE
      · unfold AlphaNonneg
        rw [hs.indices]
        exact i2
  | @append L M ax side sortAx rev hL hM hf hg ih1 ih2 =>
    intro E hE
    have hS := (Used.append ax side sortAx rev hL hM hf hg).strong hd
    cases hM0 : M.data with
    | none =>
      unfold Lattice.append at hE
      rw [hM0] at hE
      exact ih1 E hE
    | some D2 =>
      cases hL0 : L.data with
      | none =>
        unfold Lattice.append at hE
        rw [hM0] at hE
        dsimp only at hE
        rw [appendSites_data_none env hL0, hL0] at hE
        cases hE
      | some D =>
        have hE' := hE
        unfold Lattice.append at hE'
        rw [hM0] at hE'
        obtain ⟨r1, r2⟩ := appendSites_fresh env hL0 (ih1 D hL0).1 (ih1 D hL0).2 (ih2 D2 hM0).2 ax side
          sortAx rev hE'
        exact ⟨fun htop h256 => r1 (hS.2 E hE h256) htop h256, r2⟩
  | @extend L size ax side sortAx rev hL hf ih =>
    intro E hE
    have hS := (Used.extend size ax side sortAx rev hL hf).strong hd
    have hE' := hE
    unfold Lattice.extend at hE'
    split at hE'
    · exact ih E hE'
    · split_ifs at hE'
      · dsimp only at hE'
        split at hE'
        · exact ih E hE'
        · rename_i ind pos hbi
          split at hE'
          · exact ih E hE'
          · cases hL0 : L.data with
            | none =>
              rw [appendSites_data_none env hL0, hL0] at hE'
              cases hE'
            | some D =>
              obtain ⟨h5, -⟩ := buildIndices_sites hd (hL.strong hd).1 hbi
              obtain ⟨r1, r2⟩ := appendSites_fresh env hL0 (ih D hL0).1 (ih D hL0).2
                (fun x hx => (alpha_range hd (hL.strong hd).1 h5 x hx).1) ax side sortAx rev hE'
              exact ⟨fun htop h256 => r1 (hS.2 E hE h256) htop h256, r2⟩
      · exact ih E hE'
  | @«repeat» L num ax side sortAx rev hL hf hfree ih =>
    intro E hE
    cases hL0 : L.data with
    | none =>
      unfold Lattice.repeat at hE
      rw [hL0] at hE
      exact ih E hE
    | some D =>
      have hrep : ∀ m, L.repeat env m ax side sortAx rev =
          Lattice.repeatLoop env D ax side sortAx rev m D.neighbors L := by
        intro m
        unfold Lattice.repeat
        rw [hL0]
      revert E
      induction num with
      | zero =>
        intro E hE
        rw [hrep] at hE
        exact ih E hE
      | succ n ihn =>
        intro E hE
        have hS := (Used.repeat (n + 1) ax side sortAx rev hL hf hfree).strong hd
        have hprev := ihn (fun m hm => hf m (by omega)) (hfree.imp_left fun h => by omega)
        have hE' := hE
        rw [hrep] at hE'
        rcases repeatLoop_succ env D ax side sortAx rev n D.neighbors L with h | h
        · rw [h, ← hrep] at hE'
          exact hprev E hE'
        · rw [h, ← hrep] at hE'
          cases hL1 : (L.repeat env n ax side sortAx rev).1.data with
          | none =>
            rw [appendSites_data_none env hL1, hL1] at hE'
            cases hE'
          | some D1 =>
            obtain ⟨r1, r2⟩ := appendSites_fresh env hL1 (hprev D1 hL1).1 (hprev D1 hL1).2
              (ih D hL0).2 ax side sortAx rev hE'
            exact ⟨fun htop h256 => r1 (hS.2 E hE h256) htop h256, r2⟩

end Lattpy
