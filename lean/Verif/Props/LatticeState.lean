import Verif.Lemmas.LatticeBuilt
import Verif.Lemmas.BuiltChain

/-!
# C71, C72: failing builds, comparing lattices
-/

set_option autoImplicit false
set_option linter.unusedSectionVars false

namespace Lattpy

open Structure World

variable {d : ℕ}

/-! ## C71 -/

namespace Lattice

/-- Lattices that may differ only in `periodic_axes`. -/
structure SameBut (L M : Lattice d ℝ) : Prop where
  world : M.world = L.world
  data : M.data = L.data
  shape : M.shape = L.shape
  pos : M.pos = L.pos
  primitive : M.primitive = L.primitive

theorem setPeriodic_sameBut (env : Env ℝ) {L M : Lattice d ℝ} (h : SameBut L M) (axis : PAxis) :
    SameBut (L.setPeriodic env axis).1 (M.setPeriodic env axis).1 ∧
      (M.setPeriodic env axis).2 = (L.setPeriodic env axis).2 := by
  obtain ⟨w, data, shape, pos, pa, prim⟩ := L
  obtain ⟨w', data', shape', pos', pa', prim'⟩ := M
  obtain ⟨h1, h2, h3, h4, h5⟩ := h
  dsimp only at h1 h2 h3 h4 h5
  subst h1 h2 h3 h4 h5
  have haxes : ∀ (D0 : LatticeData d ℝ) (axes : List ℕ),
      SameBut (setPeriodicAxes env ⟨w', some D0, shape', pos', pa, prim'⟩ D0 axes).1
        (setPeriodicAxes env ⟨w', some D0, shape', pos', pa', prim'⟩ D0 axes).1 ∧
      (setPeriodicAxes env ⟨w', some D0, shape', pos', pa', prim'⟩ D0 axes).2 =
        (setPeriodicAxes env ⟨w', some D0, shape', pos', pa, prim'⟩ D0 axes).2 := by
    intro D0 axes
    unfold setPeriodicAxes
    dsimp only [struct]
    cases computePneighbors env w'.struct D0 axes (prim'.getD false) with
    | error e => exact ⟨⟨rfl, rfl, rfl, rfl, rfl⟩, rfl⟩
    | ok P =>
      dsimp only
      split_ifs
      · exact ⟨⟨rfl, rfl, rfl, rfl, rfl⟩, rfl⟩
      · cases D0.removePeriodic with
        | error e => exact ⟨⟨rfl, rfl, rfl, rfl, rfl⟩, rfl⟩
        | ok D1 =>
          dsimp only
          rcases setPeriodicLoop D1 P with ⟨E, e | u⟩
          · exact ⟨⟨rfl, rfl, rfl, rfl, rfl⟩, rfl⟩
          · exact ⟨⟨rfl, rfl, rfl, rfl, rfl⟩, rfl⟩
  unfold setPeriodic
  cases shape' with
  | none => exact ⟨⟨rfl, rfl, rfl, rfl, rfl⟩, rfl⟩
  | some shape =>
    cases data' with
    | none => exact ⟨⟨rfl, rfl, rfl, rfl, rfl⟩, rfl⟩
    | some D =>
      dsimp only
      cases D.removePeriodic with
      | error e => exact ⟨⟨rfl, rfl, rfl, rfl, rfl⟩, rfl⟩
      | ok D0 =>
        dsimp only
        cases axis with
        | flag b =>
          cases b with
          | false => exact ⟨⟨rfl, rfl, rfl, rfl, rfl⟩, rfl⟩
          | true => exact haxes D0 (List.range d)
        | axes l => exact haxes D0 l

/-- What `build` does depends on the configuration and the arguments only. -/
theorem build_sameBut {env : Env ℝ} {L M L' : Lattice d ℝ} (hw : M.world = L.world)
    {a : BuildArgs d ℝ} (h : L.build env a = (L', .ok ())) :
    ∃ M', M.build env a = (M', .ok ()) ∧ SameBut L' M' := by
  obtain ⟨w, data, shape, pos, pa, prim⟩ := L
  obtain ⟨w', data', shape', pos', pa', prim'⟩ := M
  dsimp only at hw
  subst hw
  unfold build at h ⊢
  dsimp only [struct] at h ⊢
  cases h1 : assertReady w'.struct with
  | error e => rw [h1] at h; cases h
  | ok u =>
    rw [h1] at h
    dsimp only at h ⊢
    cases h2 : buildShape w'.struct a with
    | error e => rw [h2] at h; cases h
    | ok sh =>
      rw [h2] at h
      dsimp only at h ⊢
      cases h3 : buildData env w'.struct a sh with
      | error e => rw [h3] at h; cases h
      | ok D =>
        rw [h3] at h
        dsimp only [updateShape] at h ⊢
        cases h4 : D.getLimits with
        | error e => rw [h4] at h; cases h
        | ok lim =>
          obtain ⟨lo, hi⟩ := lim
          rw [h4] at h
          dsimp only at h ⊢
          cases h5 : a.periodic with
          | none =>
            rw [h5] at h
            cases h
            exact ⟨_, rfl, rfl, rfl, rfl, rfl, rfl⟩
          | some p =>
            rw [h5] at h
            dsimp only at h ⊢
            obtain ⟨k1, k2⟩ := setPeriodic_sameBut env (L := ⟨w', some D,
              some fun k => hi k - lo k, some lo, pa, some a.primitive⟩) (M := ⟨w', some D,
              some fun k => hi k - lo k, some lo, pa', some a.primitive⟩)
              ⟨rfl, rfl, rfl, rfl, rfl⟩ p
            rw [h] at k1 k2
            exact ⟨_, Prod.ext rfl k2, k1⟩

end Lattice

/-- A `build`, in particular one that raises, keeps the configuration, so that the previous `build`
call can be repeated with the same result.  It never keeps the sites and neighbours of the previous
build: either they are gone or they have been replaced by the sites of this call. -/
theorem C71_failing_build_partial (env : Env ℝ) (L : Lattice d ℝ) (a : BuildArgs d ℝ) :
    (L.build env a).1.world = L.world ∧
    ((L.build env a).1.data = none ∨ ∃ shape D E, Lattice.buildShape L.struct a = .ok shape ∧
      Lattice.buildData env L.struct a shape = .ok D ∧ (L.build env a).1.data = some E ∧
      SameSites D E) ∧
    ∀ (L0 : Lattice d ℝ) (a0 : BuildArgs d ℝ), L0.world = L.world → L0.build env a0 = (L, .ok ()) →
      ∃ M, (L.build env a).1.build env a0 = (M, .ok ()) ∧ M.data = L.data ∧ M.shape = L.shape ∧
        M.pos = L.pos ∧ M.primitive = L.primitive := by
  have h1 : (L.build env a).1.world = L.world := by
    unfold Lattice.build
    dsimp only
    split
    · rfl
    · split
      · rfl
      · split
        · rfl
        · rename_i D hD
          have hup : ∀ M : Lattice d ℝ, (Lattice.updateShape M).1.world = M.world := by
            intro M
            unfold Lattice.updateShape
            split
            · rfl
            · split
              · rfl
              · rfl
          have hu := hup { L with data := some D, primitive := some a.primitive }
          split
          · rename_i L1 e1 he
            rw [he] at hu
            exact hu
          · rename_i L1 he
            rw [he] at hu
            split
            · exact hu
            · exact (Lattice.setPeriodic_frame env L1 _).1.trans hu
  refine ⟨h1, ?_, ?_⟩
  · unfold Lattice.build
    dsimp only
    split
    · exact Or.inl rfl
    · split
      · exact Or.inl rfl
      · rename_i shape hsh
        split
        · exact Or.inl rfl
        · rename_i D hD
          right
          refine ⟨shape, D, ?_⟩
          have hup : ∀ M : Lattice d ℝ, M.data = some D → (Lattice.updateShape M).1.data = some D := by
            intro M hM
            unfold Lattice.updateShape
            rw [hM]
            dsimp only
            split
            · exact hM
            · rfl
          have hu := hup { L with data := some D, primitive := some a.primitive } rfl
          split
          · rename_i L1 e1 he
            rw [he] at hu
            exact ⟨D, hsh, hD, hu, SameSites.refl _⟩
          · rename_i L1 he
            rw [he] at hu
            split
            · exact ⟨D, hsh, hD, hu, SameSites.refl _⟩
            · obtain ⟨E, hE, hss⟩ := (Lattice.setPeriodic_frame env L1 _).2.2.2.2.2 D hu
              exact ⟨E, hsh, hD, hE, hss⟩
  · intro L0 a0 hw hb
    obtain ⟨M, hM, hs⟩ := Lattice.build_sameBut (M := (L.build env a).1) (h1.trans hw.symm) hb
    exact ⟨M, hM, hs.data, hs.shape, hs.pos, hs.primitive⟩

/-- Building a lattice, removing its connections and building it again raises, and the sites and
neighbours of the first build are lost: there are no sites any more and `neighbors` raises.  The
data are reset before the checks (lattice.py 448). -/
theorem C71_lost_sites_fails (env : Env ℝ) :
    ∃ (w : World 1 ℝ) (a : BuildArgs 1 ℝ) (e : PyErr),
      let L := Lattice.run env (Lattice.ofWorld w) [.build a, .conf (.addConnections 0 false)]
      L.numSites = 4 ∧ L.neighbors 0 none false = .ok [1] ∧ (L.build env a).2 = .error e ∧
      (L.build env a).1.numSites = 0 ∧ (L.build env a).1.neighbors 0 none false = .error .index := by
  obtain ⟨w, A, L, D, table, h⟩ := exists_isBuiltChain env Nat.one_pos (by norm_num) 3
    (fun _ => true) (by decide)
  have hrun : Lattice.run env (Lattice.ofWorld w)
      [.build (chainArgs 3 fun _ => true), .conf (.addConnections 0 false)] =
      { L with world := (L.world.call env (.addConnections 0 false)).1 } := by
    change (Lattice.call env ((Lattice.ofWorld w).build env _).1 _).1 = _
    rw [h.build]
    rfl
  obtain ⟨c, hc, hcs, hc1⟩ := h.conn
  obtain ⟨c', hc', hs', hz⟩ := (C30_add_connections Nat.one_pos h.reach 0 false).2 c hc
  have hn : w.struct.numBase = 1 := by
    have := (h.reach.good Nat.one_pos).positions_length
    rw [h.positions] at this
    exact this.symm
  have hz0 : c'.allZero = true := by
    rw [ConnMatrix.allZero_iff]
    intro i hi j hj
    exact hz i j (by omega) (by omega)
  have hready : Lattice.assertReady (w.call env (.addConnections 0 false)).1.struct =
      .error .noConnections := by
    unfold Lattice.assertReady
    rw [hc']
    dsimp only
    rw [hz0]
    rfl
  have hbuild : Lattice.build env { L with world := (w.call env (.addConnections 0 false)).1 }
      (chainArgs 3 fun _ => true) = ({ L with
        world := (w.call env (.addConnections 0 false)).1
        data := none }, .error .noConnections) := by
    unfold Lattice.build
    dsimp only [Lattice.struct]
    rw [hready]
  refine ⟨w, chainArgs 3 fun _ => true, .noConnections, ?_⟩
  rw [hrun, h.world]
  dsimp only
  rw [hbuild]
  have hN : D.numSites = 4 := by
    rw [h.numSites]
    decide
  refine ⟨?_, ?_, rfl, rfl, rfl⟩
  · unfold Lattice.numSites
    dsimp only
    rw [h.data]
    exact hN
  · obtain ⟨l, h1, h2, -⟩ := h.neighbors (i := 0) (by decide)
    have h3 : chainNbrs (chainCells 3 fun _ => true) 1 0 = [1] := by decide
    rw [h3, List.perm_singleton] at h2
    rw [h2] at h1
    unfold Lattice.neighbors at h1 ⊢
    exact h1

/-- A failing build meeting the hypotheses of the partial theorem: the one above. -/
example (env : Env ℝ) : ∃ (L0 L : Lattice 1 ℝ) (a0 a : BuildArgs 1 ℝ) (e : PyErr),
    L0.world = L.world ∧ L0.build env a0 = (L, .ok ()) ∧ L.numSites = 4 ∧
      (L.build env a).2 = .error e := by
  obtain ⟨w, A, L, D, table, h⟩ := exists_isBuiltChain env Nat.one_pos (by norm_num) 3
    (fun _ => true) (by decide)
  refine ⟨Lattice.ofWorld w, L, chainArgs 3 fun _ => true, { shape := .size [] false }, .value,
    h.world.symm, h.build, ?_, ?_⟩
  · unfold Lattice.numSites
    rw [h.data]
    exact h.numSites.trans (by decide)
  · obtain ⟨c, hc, hcs, hc1⟩ := h.conn
    have hready : Lattice.assertReady L.struct = .ok () := by
      unfold Lattice.assertReady Lattice.struct
      rw [h.world, hc, h.analysis]
      have : c.allZero = false := by
        rw [← Bool.not_eq_true, ConnMatrix.allZero_iff]
        intro h0
        have := h0 0 (by omega) 0 (by omega)
        omega
      dsimp only
      rw [this]
      rfl
    have hsh : Lattice.buildShape L.struct { shape := .size [] false } = .error .value := by
      unfold Lattice.buildShape
      dsimp only
      rfl
    unfold Lattice.build
    rw [hready]
    dsimp only
    rw [hsh]

/-! ## C72 -/

/-- `hash` and `dumps` raise exactly for a lattice without atoms or without shape. -/
theorem dumps_ok (T : Lattice.TextEnv d ℝ) (L : Lattice d ℝ) :
    (∃ s, L.dumps T = .ok s) ↔ L.struct.conn ≠ none ∧ L.shape ≠ none := by
  unfold Lattice.dumps
  cases L.struct.conn with
  | none => simp
  | some c =>
    cases L.shape with
    | none => simp
    | some s => simp

theorem hash_ok (T : Lattice.TextEnv d ℝ) (L : Lattice d ℝ) :
    (∃ n, L.hash T = .ok n) ↔ L.struct.conn ≠ none ∧ L.shape ≠ none := by
  rw [← dumps_ok T]
  unfold Lattice.hash
  cases L.dumps T with
  | error e => simp
  | ok s => simp

/-- On lattices with atoms that have been built at some time (so that they have a shape) `==` never
raises.  It is reflexive, symmetric and transitive, and true exactly if the hash values agree;
lattices with the same text `dumps()` are equal. -/
theorem C72_equality_partial (T : Lattice.TextEnv d ℝ) {L : Lattice d ℝ}
    (hL : L.struct.conn ≠ none ∧ L.shape ≠ none) :
    L.eq T L = .ok true ∧
    ∀ M : Lattice d ℝ, M.struct.conn ≠ none ∧ M.shape ≠ none →
      (∃ b, L.eq T M = .ok b ∧ M.eq T L = .ok b) ∧
      (L.eq T M = .ok true ↔ L.hash T = M.hash T) ∧
      (L.dumps T = M.dumps T → L.eq T M = .ok true) ∧
      ∀ N : Lattice d ℝ, N.struct.conn ≠ none ∧ N.shape ≠ none →
        L.eq T M = .ok true → M.eq T N = .ok true → L.eq T N = .ok true := by
  obtain ⟨l, hl⟩ := (hash_ok T L).2 hL
  have heq : ∀ (M N : Lattice d ℝ) (m n : ℕ), M.hash T = .ok m → N.hash T = .ok n →
      M.eq T N = .ok (decide (m = n)) := by
    intro M N m n hm hn
    unfold Lattice.eq
    rw [hm, hn]
  refine ⟨by rw [heq L L l l hl hl]; simp, fun M hM => ?_⟩
  obtain ⟨m, hm⟩ := (hash_ok T M).2 hM
  refine ⟨⟨decide (l = m), heq L M l m hl hm, ?_⟩, ?_, ?_, ?_⟩
  · rw [heq M L m l hm hl, Except.ok.injEq, decide_eq_decide]
    exact eq_comm
  · rw [heq L M l m hl hm, hl, hm]
    simp
  · intro h
    have : L.hash T = M.hash T := by
      unfold Lattice.hash
      rw [h]
    rw [hl, hm] at this
    rw [heq L M l m hl hm]
    simpa using this
  · intro N hN h1 h2
    obtain ⟨n, hn⟩ := (hash_ok T N).2 hN
    rw [heq L M l m hl hm] at h1
    rw [heq M N m n hm hn] at h2
    rw [heq L N l n hl hn]
    simp only [Except.ok.injEq, decide_eq_true_eq] at h1 h2 ⊢
    exact h1.trans h2

/-- The hypotheses can be met: a built chain has atoms and a shape. -/
example (env : Env ℝ) (T : Lattice.TextEnv 1 ℝ) : ∃ L : Lattice 1 ℝ,
    (L.struct.conn ≠ none ∧ L.shape ≠ none) ∧ L.numSites = 4 ∧ L.eq T L = .ok true := by
  obtain ⟨w, A, L, D, table, h⟩ := exists_isBuiltChain env Nat.one_pos (by norm_num) 3
    (fun _ => true) (by decide)
  obtain ⟨c, hc, -⟩ := h.conn
  have hL : L.struct.conn ≠ none ∧ L.shape ≠ none := by
    refine ⟨?_, h.shape⟩
    unfold Lattice.struct
    rw [h.world, hc]
    simp
  refine ⟨L, hL, ?_, (C72_equality_partial T hL).1⟩
  unfold Lattice.numSites
  rw [h.data]
  exact h.numSites.trans (by decide)

/-- A configured lattice that has not been built cannot be compared, not even with itself, and has no
hash: `TypeError`, because its shape is `None` (lattice.py 1120).  The same holds for a lattice
without atoms. -/
theorem C72_unbuilt_fails (env : Env ℝ) (T : Lattice.TextEnv 1 ℝ) :
    ∃ (w : World 1 ℝ) (A : Analysis 1 ℝ), Reachable env w ∧ w.struct.analysis = some A ∧
      (Lattice.ofWorld w).hash T = .error .type ∧
      ∀ M : Lattice 1 ℝ, (Lattice.ofWorld w).eq T M = .error .type := by
  obtain ⟨w, A, L, D, table, h⟩ := exists_isBuiltChain env Nat.one_pos (by norm_num) 3
    (fun _ => true) (by decide)
  obtain ⟨c, hc, -⟩ := h.conn
  have hh : (Lattice.ofWorld w).hash T = .error .type := by
    have : (Lattice.ofWorld w).struct.conn = some c := hc
    unfold Lattice.hash Lattice.dumps
    rw [this]
    rfl
  refine ⟨w, A, h.reach, h.analysis, hh, fun M => ?_⟩
  unfold Lattice.eq
  rw [hh]

end Lattpy
