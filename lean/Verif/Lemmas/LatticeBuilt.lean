import Verif.Lemmas.LatticeHistory

/-!
# What every history of calls leaves behind
-/

set_option autoImplicit false
set_option linter.unusedSectionVars false

namespace Lattpy

open Structure World

variable {d : ℕ}

theorem computeNeighbors_length_le {env : Env ℝ} {S : Structure d ℝ} {indices : List (Idx d)}
    {positions : List (Vec d ℝ)} {table : List (List (ℕ × WithTop ℝ))}
    (h : computeNeighbors env S indices positions = .ok table) : table.length ≤ indices.length := by
  unfold computeNeighbors at h
  split at h
  · cases h
  · split at h
    · cases h
    · cases h
      unfold filterNeighbors
      dsimp only
      split_ifs
      · simp
      · simp [maskCols]

theorem dropDangling_nonempty {indices : List (Idx d)} {positions : List (Vec d ℝ)}
    {table : List (List (ℕ × WithTop ℝ))} {m : Option ℕ}
    {r : List (Idx d) × List (Vec d ℝ) × List (List (ℕ × WithTop ℝ))}
    (hlen : table.length ≤ indices.length)
    (hr : Lattice.dropDangling m indices positions table = .ok r) (h : r.2.2 ≠ []) : r.1 ≠ [] := by
  have hne : table ≠ [] → indices ≠ [] := by
    rintro h rfl
    exact h (List.eq_nil_of_length_eq_zero (Nat.le_zero.1 hlen))
  cases m with
  | none =>
    simp only [Lattice.dropDangling, Except.ok.injEq] at hr
    subst hr
    exact hne h
  | some m =>
    simp only [Lattice.dropDangling] at hr
    unfold filterDangling at hr
    dsimp only at hr
    split_ifs at hr
    · cases hr
      exact hne h
    · split at hr
      · rename_i i' p' t' h1 h2 h3
        cases hr
        have h1 := deleteRows_sub h1
        have h3 := deleteRows_sub h3
        dsimp only at h ⊢
        have ht : t' ≠ [] := by rintro rfl; exact h rfl
        have hi : i'.length ≠ 0 := by
          rw [h1, gather_length _ _ (fun i hi => List.mem_range.1 (List.mem_filter.1 hi).1)]
          rw [Ne, List.length_eq_zero_iff] at *
          intro h0
          apply ht
          rw [h3]
          have : (List.range table.length).filter (fun i => decide (i ∉ whereIdx (fun row => decide
              ((row.filter fun p : ℕ × WithTop ℝ => decide (p.2 ≠ ⊤)).length < m)) table)) = [] := by
            rw [List.filter_eq_nil_iff] at h0 ⊢
            intro i hi
            exact h0 i (List.mem_range.2 ((List.mem_range.1 hi).trans_le hlen))
          rw [this]
          rfl
        rintro rfl
        exact hi rfl
      · cases hr

namespace Lattice

/-- Built data have a site. -/
theorem buildData_nonempty {env : Env ℝ} {S : Structure d ℝ} {a : BuildArgs d ℝ} {shape : AShape d ℝ}
    {D : LatticeData d ℝ} (h : buildData env S a shape = .ok D) : D.indices ≠ [] := by
  obtain ⟨indices, positions, table, indices', positions', table', h1, h2, h3, h4⟩ := buildData_ok h
  obtain ⟨row, hrow, -⟩ := set_nonempty h4
  have h5 := dropDangling_nonempty (computeNeighbors_length_le h2) h3 (by
    dsimp only
    rintro rfl
    cases hrow)
  rcases set_cases indices' positions' (table'.map fun r => r.map Prod.fst)
      (table'.map fun r => r.map Prod.snd) with ⟨-, h⟩ | ⟨-, D', h, h7, h8, -⟩
  · rw [h4] at h; cases h
  · rw [h4] at h; cases h; rw [h7]; exact h5

/-- Whatever `build` leaves behind has a site, and the data of a successful build exist. -/
theorem build_nonempty {env : Env ℝ} {L : Lattice d ℝ} (a : BuildArgs d ℝ) :
    ∀ E, (L.build env a).1.data = some E → E.indices ≠ [] := by
  unfold build
  dsimp only
  split
  · exact fun E h => by cases h
  · split
    · exact fun E h => by cases h
    · rename_i shape hsh
      split
      · exact fun E h => by cases h
      · rename_i D hD
        have hs := buildData_nonempty hD
        have hup : ∀ (M : Lattice d ℝ), M.data = some D → (updateShape M).1.data = some D := by
          intro M hM
          unfold updateShape
          rw [hM]
          dsimp only
          split
          · exact hM
          · rfl
        have := hup { L with data := some D, primitive := some a.primitive } rfl
        split
        · rename_i L1 e he
          rw [he] at this
          intro E hE
          rw [this] at hE
          cases hE
          exact hs
        · rename_i L1 he
          rw [he] at this
          dsimp only at this
          split
          · intro E hE
            dsimp only at hE
            rw [this] at hE
            cases hE
            exact hs
          · rename_i p hp
            obtain ⟨-, -, -, -, -, f6⟩ := setPeriodic_frame env L1 p
            obtain ⟨E', hE', hss⟩ := f6 D this
            intro E hE
            rw [hE'] at hE
            cases hE
            rw [hss.indices]
            exact hs

theorem call_numBase_le (hd : 0 < d) {env : Env ℝ} {w : World d ℝ} (h : Reachable env w)
    (op : World.Op ℝ) : w.struct.numBase ≤ (w.call env op).1.struct.numBase := by
  have hw := h.good hd
  cases op with
  | addAtom pos atom primitive nb =>
    change _ ≤ (w.addAtom env pos atom primitive nb).1.struct.numBase
    rcases addAtom_cases env w pos atom primitive nb with ⟨e, h, -⟩ | ⟨p, a, s, -, hp, -, h⟩
    · rw [h]
    · rw [h]
      dsimp only
      cases hf : w.struct.frozen with
      | true => rw [addAtomAt_frozen env _ p a nb hf]
      | false =>
        obtain ⟨-, -, h1, -, h2, -⟩ := addAtomAt_ok hd env hw p hp a nb hf
        rw [h2]
        omega
  | addConnection a1 a2 num an =>
    exact (addConnection_good hd env w.session hw a1 a2 num an).2.2.2.1.ge
  | addConnections num an => exact (addConnections_good hd env hw num an).2.2.2.1.ge
  | analyze => exact (analyze_frame hd env hw).2.2.1.ge

/-- What the data of a lattice look like after any history of calls. -/
structure Built (L : Lattice d ℝ) (D : LatticeData d ℝ) : Prop where
  nonempty : D.indices ≠ []
  length : D.positions.length = D.indices.length
  alpha : ∀ x ∈ D.indices, 0 ≤ Idx.alpha x ∧ Idx.alpha x < L.struct.numBase

/-- After any history of calls starting from a new lattice, the stored sites are not none, each has
a position and belongs to an atom of the unit cell. -/
theorem run_built (hd : 0 < d) {env : Env ℝ} {w : World d ℝ} (hw : Reachable env w)
    (ops : List (Op d ℝ)) :
    Reachable env (run env (ofWorld w) ops).world ∧
      ∀ D, (run env (ofWorld w) ops).data = some D → Built (run env (ofWorld w) ops) D := by
  refine run_induction (P := fun L => Reachable env L.world ∧ ∀ D, L.data = some D → Built L D)
    ?_ ⟨hw, fun D h => by cases h⟩
  rintro L op hop ⟨h1, h2⟩
  cases op with
  | conf o =>
    refine ⟨h1.call o, fun D hD => ?_⟩
    obtain ⟨g1, g2, g3⟩ := h2 D hD
    refine ⟨g1, g2, fun x hx => ⟨(g3 x hx).1, (g3 x hx).2.trans_le ?_⟩⟩
    exact_mod_cast call_numBase_le hd h1 o
  | build a =>
    obtain ⟨g1, g2⟩ := build_sites hd h1 a
    refine ⟨?_, fun D hD => ?_⟩
    · change Reachable env (L.build env a).1.world
      rw [g1]
      exact h1
    · obtain ⟨g3, g4⟩ := g2 D hD
      refine ⟨build_nonempty a D hD, g3.length_eq.symm, ?_⟩
      change ∀ x ∈ D.indices, 0 ≤ Idx.alpha x ∧ Idx.alpha x < (L.build env a).1.world.struct.numBase
      rw [g1]
      exact alpha_range hd h1 g3
  | setPeriodic axis =>
    obtain ⟨f1, -, -, -, f5, f6⟩ := setPeriodic_frame env L axis
    refine ⟨?_, fun D hD => ?_⟩
    · change Reachable env (L.setPeriodic env axis).1.world
      rw [f1]
      exact h1
    · have hD : (L.setPeriodic env axis).1.data = some D := hD
      cases hL : L.data with
      | none =>
        rw [f5 hL, hL] at hD
        cases hD
      | some D0 =>
        obtain ⟨E, hE, hs⟩ := f6 D0 hL
        rw [hD] at hE
        cases hE
        obtain ⟨g1, g2, g3⟩ := h2 D0 hL
        refine ⟨by rw [hs.indices]; exact g1, by rw [hs.indices, hs.positions]; exact g2, ?_⟩
        change ∀ x ∈ D.indices, 0 ≤ Idx.alpha x ∧
          Idx.alpha x < (L.setPeriodic env axis).1.world.struct.numBase
        rw [f1, hs.indices]
        exact g3

end Lattice

end Lattpy
