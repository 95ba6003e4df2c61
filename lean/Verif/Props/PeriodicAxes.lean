import Verif.Props.MinDistances
import Verif.Props.LatticeState

/-!
# The recorded periodic axes (C67)
-/

set_option autoImplicit false
set_option linter.unusedSectionVars false

namespace Lattpy

variable {d : ℕ}

/-! ## spec -/

/-- Some entry of the neighbour tables is marked as a periodic neighbour. -/
def LatticeData.Marked (D : LatticeData d ℝ) : Prop := ∃ row ∈ D.pmask, true ∈ row

/-- The lattice has a periodic neighbour. -/
def Lattice.Marked (L : Lattice d ℝ) : Prop := ∃ D, L.data = some D ∧ D.Marked

/-- The axes asked for by an `axis` argument: none, all or the given ones. -/
def PAxis.requested (d : ℕ) : PAxis → List ℕ
  | .flag false => []
  | .flag true => List.range d
  | .axes l => l

/-- The axes asked for by a call of `build` or `set_periodic`. -/
def Lattice.Op.requested : Lattice.Op d ℝ → Option (List ℕ)
  | .conf _ => none
  | .build a => some (match a.periodic with | none => [] | some p => p.requested d)
  | .setPeriodic p => some (p.requested d)

namespace Lattice

theorem not_marked_removePeriodic {D D0 : LatticeData d ℝ} (h : D.removePeriodic = .ok D0) :
    ¬ D0.Marked := by
  unfold LatticeData.removePeriodic at h
  split_ifs at h
  have h := Except.ok.inj h
  subst h
  rintro ⟨row, hrow, ht⟩
  obtain ⟨r, -, rfl⟩ := List.mem_map.1 hrow
  obtain ⟨b, -, hb⟩ := List.mem_map.1 ht
  cases hb

theorem not_marked_set {indices : List (Idx d)} {positions : List (Vec d ℝ)}
    {neighbors : List (List ℕ)} {distances : List (List (WithTop ℝ))} {D : LatticeData d ℝ}
    (h : LatticeData.set indices positions neighbors distances = .ok D) : ¬ D.Marked := by
  unfold LatticeData.set at h
  dsimp only at h
  split at h
  · cases h
  · have h := Except.ok.inj h
    subst h
    rintro ⟨row, hrow, ht⟩
    obtain ⟨r, -, rfl⟩ := List.mem_map.1 hrow
    obtain ⟨b, -, hb⟩ := List.mem_map.1 ht
    cases hb

theorem setPeriodicAxes_axes {env : Env ℝ} {L L' : Lattice d ℝ} {D : LatticeData d ℝ}
    {axes : List ℕ} (hD : L.data = some D) (hm : ¬ D.Marked)
    (h : setPeriodicAxes env L D axes = (L', .ok ())) :
    L'.periodicAxes = axes ∨ (¬ L'.Marked ∧ L'.periodicAxes = L.periodicAxes) := by
  unfold setPeriodicAxes at h
  split at h
  · cases h
  · split at h
    · obtain rfl : L = L' := congrArg Prod.fst h
      refine Or.inr ⟨?_, rfl⟩
      rintro ⟨E, hE, hE'⟩
      obtain rfl := Option.some.inj (hD.symm.trans hE)
      exact hm hE'
    · split at h
      · cases h
      · split at h
        · cases h
        · have := congrArg Prod.fst h
          subst this
          exact Or.inl rfl

/-- One call of `set_periodic` that does not raise: the requested axes are recorded, or the lattice
has no periodic neighbours now and the recorded axes are the old ones. -/
theorem C67_set_periodic_partial {env : Env ℝ} {L L' : Lattice d ℝ} {axis : PAxis}
    (h : L.setPeriodic env axis = (L', .ok ())) :
    (L'.periodicAxes = axis.requested d ∨
      (¬ L'.Marked ∧ L'.periodicAxes = L.periodicAxes)) ∧
    (axis = .flag false → ¬ L'.Marked ∧ L'.periodicAxes = []) := by
  unfold setPeriodic at h
  split at h
  · cases h
  · split at h
    · cases h
    · split at h
      · cases h
      · rename_i D0 hD0
        have hm := not_marked_removePeriodic hD0
        dsimp only at h
        split at h
        · have := congrArg Prod.fst h
          subst this
          refine ⟨Or.inl rfl, fun _ => ⟨?_, rfl⟩⟩
          rintro ⟨E, hE, hE'⟩
          obtain rfl := Option.some.inj hE
          exact hm hE'
        · refine ⟨?_, by intro h; cases h⟩
          exact setPeriodicAxes_axes (L := { L with data := some D0 }) (D := D0) rfl hm h
        · refine ⟨?_, by intro h; cases h⟩
          exact setPeriodicAxes_axes (L := { L with data := some D0 }) (D := D0) rfl hm h

theorem updateShape_frame (L : Lattice d ℝ) :
    (updateShape L).1.periodicAxes = L.periodicAxes ∧ (updateShape L).1.data = L.data := by
  unfold updateShape
  split
  · exact ⟨rfl, rfl⟩
  · split
    · exact ⟨rfl, rfl⟩
    · exact ⟨rfl, rfl⟩

/-- One call of `build` that does not raise: without the `periodic` argument the lattice has no
periodic neighbours and the recorded axes are the old ones; with it the case is that of
`set_periodic`. -/
theorem C67_build_partial {env : Env ℝ} {L L' : Lattice d ℝ} {a : BuildArgs d ℝ}
    (h : L.build env a = (L', .ok ())) :
    (a.periodic = none → ¬ L'.Marked ∧ L'.periodicAxes = L.periodicAxes) ∧
    ∀ p, a.periodic = some p → (L'.periodicAxes = p.requested d ∨
      (¬ L'.Marked ∧ L'.periodicAxes = L.periodicAxes)) ∧
      (p = .flag false → ¬ L'.Marked ∧ L'.periodicAxes = []) := by
  unfold build at h
  dsimp only at h
  split at h
  · cases h
  · split at h
    · cases h
    · split at h
      · cases h
      · rename_i D hD
        obtain ⟨u1, u2⟩ := updateShape_frame { L with data := some D, primitive := some a.primitive }
        have hm : ¬ D.Marked := by
          obtain ⟨_, _, _, _, _, _, -, -, -, hset⟩ := buildData_ok hD
          exact not_marked_set hset
        split at h
        · cases h
        · rename_i L1 hL1
          rw [hL1] at u1 u2
          split at h
          · rename_i hp
            obtain rfl : L1 = L' := congrArg Prod.fst h
            refine ⟨fun _ => ⟨?_, u1⟩, fun p hp' => by rw [hp] at hp'; cases hp'⟩
            rintro ⟨E, hE, hE'⟩
            obtain rfl := Option.some.inj (u2.symm.trans hE)
            exact hm hE'
          · rename_i p hp
            refine ⟨fun hp' => absurd (hp.symm.trans hp') (by simp), fun q hq => ?_⟩
            obtain rfl := Option.some.inj (hp.symm.trans hq)
            obtain ⟨h1, h2⟩ := C67_set_periodic_partial h
            exact ⟨h1.imp id fun h1 => ⟨h1.1, h1.2.trans u1⟩, h2⟩

/-- The part of C67 that holds, for one call: a lattice with periodic neighbours records the axes
asked for in that call, and the recorded axes are those or the old ones. -/
theorem call_axes {env : Env ℝ} {L L' : Lattice d ℝ} {op : Op d ℝ} {axes : List ℕ}
    (hop : op.requested = some axes) (h : L.call env op = (L', .ok ())) :
    (L'.Marked → L'.periodicAxes = axes) ∧
    (L'.periodicAxes = axes ∨ L'.periodicAxes = L.periodicAxes) := by
  cases op with
  | conf op => cases hop
  | build a =>
    change L.build env a = _ at h
    obtain ⟨h1, h2⟩ := C67_build_partial h
    have hop := Option.some.inj hop
    cases hp : a.periodic with
    | none =>
      obtain ⟨g1, g2⟩ := h1 hp
      exact ⟨fun hm => absurd hm g1, Or.inr g2⟩
    | some p =>
      rw [hp] at hop
      subst hop
      rcases (h2 p hp).1 with g | ⟨g1, g2⟩
      · exact ⟨fun _ => g, Or.inl g⟩
      · exact ⟨fun hm => absurd hm g1, Or.inr g2⟩
  | setPeriodic p =>
    change L.setPeriodic env p = _ at h
    have hop := Option.some.inj hop
    subst hop
    rcases (C67_set_periodic_partial h).1 with g | ⟨g1, g2⟩
    · exact ⟨fun _ => g, Or.inl g⟩
    · exact ⟨fun hm => absurd hm g1, Or.inr g2⟩

/-- C67 for histories in which `build` and `set_periodic` did not raise (calls that change the
configuration may): if the lattice has periodic neighbours, `periodic_axes` names the axes asked for
in the last of these calls.  In any case it is empty or names the axes asked for in one of them. -/
theorem C67_history_partial {env : Env ℝ} {w : World d ℝ} {ops : List (Op d ℝ)}
    (hok : ∀ pre op post, ops = pre ++ op :: post → op.requested ≠ none →
      (call env (run env (ofWorld w) pre) op).2 = .ok ()) :
    ((run env (ofWorld w) ops).Marked →
      (ops.filterMap Op.requested).getLast? = some (run env (ofWorld w) ops).periodicAxes) ∧
    ((run env (ofWorld w) ops).periodicAxes = [] ∨
      (run env (ofWorld w) ops).periodicAxes ∈ ops.filterMap Op.requested) := by
  induction ops using List.reverseRecOn with
  | nil =>
    refine ⟨?_, Or.inl rfl⟩
    rintro ⟨D, hD, -⟩
    cases hD
  | append_singleton ops op ih =>
    obtain ⟨ih1, ih2⟩ := ih (by
      intro pre op' post h hne
      exact hok pre op' (post ++ [op]) (by rw [h]; simp) hne)
    have hrun : run env (ofWorld w) (ops ++ [op]) = (call env (run env (ofWorld w) ops) op).1 := by
      unfold run
      rw [List.foldl_append]
      rfl
    rw [hrun, List.filterMap_append]
    cases hop : op.requested with
    | none =>
      cases op with
      | build a => cases hop
      | setPeriodic p => cases hop
      | conf op =>
        rw [List.filterMap_cons_none hop, List.filterMap_nil, List.append_nil]
        exact ⟨ih1, ih2⟩
    | some axes =>
      rw [List.filterMap_cons_some hop, List.filterMap_nil]
      have hcall : call env (run env (ofWorld w) ops) op =
          ((call env (run env (ofWorld w) ops) op).1, .ok ()) :=
        Prod.ext rfl (hok ops op [] (by simp) (by rw [hop]; simp))
      obtain ⟨g1, g2⟩ := call_axes hop hcall
      refine ⟨fun hm => ?_, ?_⟩
      · rw [g1 hm]; simp
      · rcases g2 with g | g
        · right; rw [g]; simp
        · rw [g]
          rcases ih2 with h | h
          · exact Or.inl h
          · exact Or.inr (List.mem_append_left _ h)

/-- Rebuilding leaves the recorded axes behind.  A chain of six sites is built, made periodic and
built again without periodic boundaries.  No neighbour is periodic any more and the ends of the
chain have one neighbour each, but `periodic_axes` still is `[0]`, and so `minimum_distances` says
that the two ends of the open chain are at the distance 1. -/
theorem C67_rebuild_fails (env : Env ℝ) :
    ∃ (w : World 1 ℝ) (a : BuildArgs 1 ℝ), a.periodic = none ∧
      let L := run env (ofWorld w) [.build a, .setPeriodic (.axes [0]), .build a]
      ¬ L.Marked ∧ L.neighbors 0 none false = .ok [1] ∧ L.numSites = 6 ∧
      L.periodicAxes = [0] ∧
      ∃ l, L.minimumDistances 0 = .ok l ∧ l[5]? = some 1 := by
  obtain ⟨w, A, L, D, table, h⟩ := exists_isBuiltChain env Nat.one_pos (by norm_num) 5
    (fun _ => true) (by decide)
  obtain ⟨L', E, h1, h2, h3, -⟩ := C64_ring_partial env (by norm_num) Nat.one_pos h
  obtain ⟨f1, -⟩ := setPeriodic_frame env L (.axes [0])
  rw [h1] at f1
  obtain ⟨M, hM, hs⟩ := build_sameBut (M := L') (f1.trans h.world) h.build
  have hrun : run env (ofWorld w) [.build (chainArgs 5 fun _ => true), .setPeriodic (.axes [0]),
      .build (chainArgs 5 fun _ => true)] = M := by
    change (build env (setPeriodic env ((ofWorld w).build env (chainArgs 5 fun _ => true)).1
      (.axes [0])).1 (chainArgs 5 fun _ => true)).1 = M
    rw [h.build, h1, hM]
  refine ⟨w, chainArgs 5 fun _ => true, rfl, ?_⟩
  rw [hrun]
  obtain ⟨b1, b2⟩ := (C67_build_partial hM).1 rfl
  have hnb : M.neighbors 0 none false = .ok [1] := by
    obtain ⟨l, g1, g2, -⟩ := h.neighbors (i := 0) (by decide)
    have g3 : chainNbrs (chainCells 5 fun _ => true) 1 0 = [1] := by decide
    rw [g3, List.perm_singleton] at g2
    rw [g2] at g1
    unfold Lattice.neighbors at g1 ⊢
    rw [hs.data]
    exact g1
  have hD : M.data = some D := hs.data.trans h.data
  have hN : D.numSites = 6 := by
    rw [h.numSites]
    decide
  have hax : M.periodicAxes = [0] := b2.trans h3
  refine ⟨b1, hnb, ?_, hax, ?_⟩
  · unfold numSites
    rw [hD]
    exact hN
  · have hpos : ∀ k : ℕ, k < 6 → D.positions[k]? = some (fun _ => (k : ℝ)) := by
      intro k hk
      rw [h.sites, chainCells_true, List.getElem?_map, List.getElem?_range hk]
      rfl
    have hmem : ∀ k : ℕ, k < 6 → Idx.mk (fun _ : Fin 1 => (k : ℤ)) 0 ∈ D.indices := by
      intro k hk
      rw [h.indices, chainCells_true]
      exact List.mem_map.2 ⟨k, List.mem_range.2 hk, rfl⟩
    obtain ⟨l, hl, hl'⟩ := C66_ring_partial hD hax one_pos
      (by
        unfold Lattice.struct
        rw [(hs.world.trans h.world), h.basis]) (hmem 0 (by norm_num)) (hmem 5 (by norm_num))
      (by
        intro z hz
        rw [h.indices, chainCells_true] at hz
        obtain ⟨k, hk, rfl⟩ := List.mem_map.1 hz
        have := List.mem_range.1 hk
        simp only [Idx.cell_mk]
        omega) (p := 6) (by simp only [Idx.cell_mk]; norm_num) (hpos 0 (by norm_num))
      (hpos 5 (by norm_num)) (by norm_num)
    refine ⟨l, hl, ?_⟩
    rw [hl']
    norm_num

theorem zipRow_per {d : ℕ} : ∀ (n x : List ℕ) (b : List Bool) (v : List (Fin d → ℤ))
    (a : List (List ℕ)) (e : Entry d), e ∈ zipRow n x b v a → e.per ∈ b
  | n :: ns, x :: xs, b :: bs, v :: vs, a :: as, e, h => by
    simp only [zipRow, List.mem_cons] at h
    rcases h with rfl | h
    · simp
    · exact List.mem_cons_of_mem _ (zipRow_per ns xs bs vs as e h)
  | [], _, _, _, _, _, h => by simp [zipRow] at h
  | _ :: _, [], _, _, _, _, h => by simp [zipRow] at h
  | _ :: _, _ :: _, [], _, _, _, h => by simp [zipRow] at h
  | _ :: _, _ :: _, _ :: _, [], _, _, h => by simp [zipRow] at h
  | _ :: _, _ :: _, _ :: _, _ :: _, [], _, h => by simp [zipRow] at h

theorem zipTable_per {d : ℕ} : ∀ (n x : List (List ℕ)) (b : List (List Bool))
    (v : List (List (Fin d → ℤ))) (a : List (List (List ℕ))) (r : List (Entry d)),
    r ∈ zipTable n x b v a → ∃ row ∈ b, ∀ e ∈ r, e.per ∈ row
  | n :: ns, x :: xs, b :: bs, v :: vs, a :: as, r, h => by
    simp only [zipTable, List.mem_cons] at h
    rcases h with rfl | h
    · exact ⟨b, by simp, fun e he => zipRow_per n x b v a e he⟩
    · obtain ⟨row, h1, h2⟩ := zipTable_per ns xs bs vs as r h
      exact ⟨row, List.mem_cons_of_mem _ h1, h2⟩
  | [], _, _, _, _, _, h => by simp [zipTable] at h
  | _ :: _, [], _, _, _, _, h => by simp [zipTable] at h
  | _ :: _, _ :: _, [], _, _, _, h => by simp [zipTable] at h
  | _ :: _, _ :: _, _ :: _, [], _, _, h => by simp [zipTable] at h
  | _ :: _, _ :: _, _ :: _, _ :: _, [], _, h => by simp [zipTable] at h

theorem Per.marked {E : LatticeData d ℝ} {i j : ℕ} {t : Fin d → ℤ} {x : ℝ} (h : Per E i j t x) :
    E.Marked := by
  obtain ⟨r, hr, e, he, hp, -⟩ := h
  unfold LatticeData.entries at hr
  obtain ⟨row, h1, h2⟩ := zipTable_per _ _ _ _ _ _ (List.mem_of_getElem? hr)
  exact ⟨row, h1, hp ▸ h2 e he⟩

/-- A history with periodic neighbours meeting the hypotheses of `C67_history_partial`: build a chain
of six sites and make it a ring. -/
example (env : Env ℝ) : ∃ (w : World 1 ℝ) (ops : List (Op 1 ℝ)),
    (∀ pre op post, ops = pre ++ op :: post → op.requested ≠ none →
      (call env (run env (ofWorld w) pre) op).2 = .ok ()) ∧
    (run env (ofWorld w) ops).Marked ∧ (ops.filterMap Op.requested).getLast? = some [0] := by
  obtain ⟨w, A, L, D, table, h⟩ := exists_isBuiltChain env Nat.one_pos (by norm_num) 5
    (fun _ => true) (by decide)
  obtain ⟨L', E, h1, h2, h3, -, -, -, h7⟩ := C64_ring_partial env (by norm_num) Nat.one_pos h
  refine ⟨w, [.build (chainArgs 5 fun _ => true), .setPeriodic (.axes [0])], ?_, ?_, rfl⟩
  · intro pre op post hops _
    match pre with
    | [] =>
      have := (List.cons.inj hops).1
      subst this
      change (build env (ofWorld w) _).2 = _
      rw [h.build]
    | [op1] =>
      have e1 := (List.cons.inj hops).1
      have e2 := (List.cons.inj (List.cons.inj hops).2).1
      subst e1 e2
      change (setPeriodic env (build env (ofWorld w) _).1 _).2 = _
      rw [h.build, h1]
    | op1 :: op2 :: pre =>
      have := congrArg List.length hops
      simp at this
  · refine ⟨E, ?_, ?_⟩
    · change (setPeriodic env (build env (ofWorld w) _).1 _).1.data = _
      rw [h.build, h1, h2]
    · exact ((h7 0 5 (fun _ => 6) 1).2 (by norm_num)).marked

end Lattice

end Lattpy
