import Verif.Spec.Sound
import Verif.Lemmas.SoundAppend
import Verif.Props.FiniteHypercubic
import Verif.Props.AppendChain

/-!
# C99: the tables of a lattice stay consistent
-/

set_option autoImplicit false
set_option linter.unusedSectionVars false

namespace Lattpy

open Structure World LatticeData

variable {d : ℕ}

/-- The invariant of C99 while no lattices are joined. -/
structure Weak (D : LatticeData d ℝ) : Prop where
  table : ∃ t, SoundQ D (fun l => l < D.invalidDistidx) t
  sorted : D.distvals.Pairwise (· < ·)
  inv : D.invalidDistidx + 1 = D.distvals.length

theorem Strong.weak {D : LatticeData d ℝ} (h : Strong D) : Weak D := by
  obtain ⟨t, ht⟩ := h.table
  exact ⟨⟨t, ht.mono fun l hl => finiteLevel_of_lt h.sorted h.inv hl⟩, h.sorted, h.inv⟩

theorem Weak.sound {D : LatticeData d ℝ} (h : Weak D) : D.Sound := by
  obtain ⟨t, ht⟩ := h.table
  exact ht.sound h.sorted h.inv

theorem Weak.setPeriodic (env : Env ℝ) {L : Lattice d ℝ} {D E : LatticeData d ℝ}
    (hD : L.data = some D) (h : Weak D) (axis : PAxis)
    (hE : (L.setPeriodic env axis).1.data = some E) : Weak E := by
  obtain ⟨-, -, -, -, -, hs⟩ := Lattice.setPeriodic_frame env L axis
  obtain ⟨E', hE', hs⟩ := hs D hD
  rw [hE] at hE'
  cases hE'
  obtain ⟨t, ht⟩ := h.table
  obtain ⟨t', ht'⟩ := setPeriodic_sound env hD ht (lt_irrefl _) axis hE
  refine ⟨⟨t', ?_⟩, by rw [hs.distvals]; exact h.sorted,
    by rw [hs.distvals, hs.invalidDistidx]; exact h.inv⟩
  rw [hs.invalidDistidx]
  exact ht'

theorem Strong.setPeriodic (env : Env ℝ) {L : Lattice d ℝ} {D E : LatticeData d ℝ}
    (hD : L.data = some D) (h : Strong D) (htop : ⊤ ∈ D.distvals) (axis : PAxis)
    (hE : (L.setPeriodic env axis).1.data = some E) : Strong E := by
  obtain ⟨-, -, -, -, -, hs⟩ := Lattice.setPeriodic_frame env L axis
  obtain ⟨E', hE', hs⟩ := hs D hD
  rw [hE] at hE'
  cases hE'
  obtain ⟨t, ht⟩ := h.table
  obtain ⟨t', ht'⟩ := setPeriodic_sound env hD ht (not_finiteLevel h.sorted h.inv htop) axis hE
  refine ⟨⟨t', ?_⟩, by rw [hs.distvals]; exact h.sorted,
    by rw [hs.distvals, hs.invalidDistidx]; exact h.inv⟩
  rw [hs.distvals]
  exact ht'

theorem TableOK.fits {n : ℕ} {table : List (List (ℕ × WithTop ℝ))} (h : TableOK n table)
    (hl : table.length = n) : Fits n table := ⟨h.width, h.lt, hl⟩

/-- The data left by `build`, whether it succeeds or raises. -/
theorem build_strong (hd : 0 < d) {env : Env ℝ} {L : Lattice d ℝ} (h : Reachable env L.world)
    (a : BuildArgs d ℝ) {E : LatticeData d ℝ} (hE : (L.build env a).1.data = some E) :
    ∃ D, (D.distvals.length ≤ 256 → Strong D ∧ Fresh D) ∧ ((a.periodic = none ∧ E = D) ∨
      (SameSites D E ∧ ∃ (L1 : Lattice d ℝ) (p : PAxis), L1.data = some D ∧
        ((a.periodic ≠ none ∧ (L1.setPeriodic env p).1.data = some E) ∨ E = D))) := by
  unfold Lattice.build at hE
  dsimp only at hE
  split at hE
  · cases hE
  · split at hE
    · cases hE
    · rename_i shape hsh
      split at hE
      · cases hE
      · rename_i D hD
        obtain ⟨indices, positions, table, indices', positions', table', h1, h2, h3, h4⟩ :=
          Lattice.buildData_ok hD
        obtain ⟨h5, -⟩ := buildIndices_sites hd h h1
        obtain ⟨k1, k2⟩ := computeNeighbors_tableOK h5.length_eq h2
        obtain ⟨k3, k4, k5⟩ := dropDangling_tableOK h5.length_eq k1 k2 h3
        refine ⟨D, fun h256 => ⟨set_sound h4 k3 (k4.fits k5) h256, set_fresh h4 h256⟩, ?_⟩
        have hup := updateShape_data
          { L with data := some D, primitive := some a.primitive }
        split at hE
        · rename_i L1 e he
          rw [he] at hup
          dsimp only at hE hup
          rw [hup] at hE
          cases hE
          exact Or.inr ⟨SameSites.refl _, L1, .flag false, hup, Or.inr rfl⟩
        · rename_i L1 he
          rw [he] at hup
          dsimp only at hup
          split at hE
          · rename_i hp
            dsimp only at hE
            rw [hup] at hE
            cases hE
            exact Or.inl ⟨hp, rfl⟩
          · rename_i p hp
            obtain ⟨-, -, -, -, -, hs⟩ := Lattice.setPeriodic_frame env L1 p
            obtain ⟨E', hE', hs⟩ := hs D hup
            rw [hE] at hE'
            cases hE'
            exact Or.inr ⟨hs, L1, p, hup, Or.inl ⟨by rw [hp]; simp, hE⟩⟩

/-- What a user can rely on: the neighbours of every site can be read for all arguments and are
sites, other site numbers raise `IndexError`. -/
theorem LatticeData.Sound.getNeighbors {D : LatticeData d ℝ} (h : D.Sound) :
    (∀ i < D.numSites, ∀ periodic unique, ∃ l, D.getNeighbors i none periodic unique = .ok l ∧
      ∀ j ∈ l, j < D.numSites) ∧
    ∀ i, D.numSites ≤ i → ∀ level periodic unique,
      D.getNeighbors i level periodic unique = .error .index := by
  obtain ⟨w, hw⟩ := h.rect
  constructor
  · intro i hi periodic unique
    obtain ⟨r, -, hr, hg⟩ := hw.getNeighbors hi
    refine ⟨_, hg none periodic unique, fun j hj => ?_⟩
    obtain ⟨e, he, rfl⟩ := List.mem_map.1 hj
    obtain ⟨he, hs⟩ := List.mem_filter.1 he
    refine h.neighbor r hr e he ?_
    unfold sel at hs
    simp only [levelSel_none, Bool.and_eq_true, decide_eq_true_eq] at hs
    exact hs.1.1
  · intro i hi level periodic unique
    exact hw.getNeighbors_error hi level periodic unique

/-- The invariant holds after every history of calls. -/
theorem Lattice.run_weak (hd : 0 < d) {env : Env ℝ} {w : World d ℝ} (hw : Reachable env w)
    (ops : List (Lattice.Op d ℝ)) {D : LatticeData d ℝ}
    (hD : (Lattice.run env (Lattice.ofWorld w) ops).data = some D)
    (h256 : D.distvals.length ≤ 256) :
    Weak D := by
  have key := Lattice.run_induction (env := env) (ops := ops) (L := Lattice.ofWorld w)
    (P := fun L => Reachable env L.world ∧ ∀ D, L.data = some D → D.distvals.length ≤ 256 → Weak D)
    ?_ ⟨hw, fun D h => by cases h⟩
  · exact key.2 D hD h256
  · rintro L op - ⟨h1, h2⟩
    cases op with
    | conf o => exact ⟨h1.call o, h2⟩
    | build a =>
      refine ⟨?_, fun E hE h256 => ?_⟩
      · change Reachable env (L.build env a).1.world
        rw [(Lattice.build_sites hd h1 a).1]
        exact h1
      · obtain ⟨D, g1, ⟨-, rfl⟩ | ⟨hs, L1, p, g2, ⟨-, g3⟩ | rfl⟩⟩ := build_strong hd h1 a hE
        · exact (g1 h256).1.weak
        · rw [hs.distvals] at h256
          exact (g1 h256).1.weak.setPeriodic env g2 p g3
        · exact (g1 h256).1.weak
    | setPeriodic axis =>
      obtain ⟨f1, -, -, -, f5, f6⟩ := Lattice.setPeriodic_frame env L axis
      refine ⟨?_, fun E hE h256 => ?_⟩
      · change Reachable env (L.setPeriodic env axis).1.world
        rw [f1]
        exact h1
      · have hE : (L.setPeriodic env axis).1.data = some E := hE
        cases hL : L.data with
        | none =>
          rw [f5 hL, hL] at hE
          cases hE
        | some D0 =>
          obtain ⟨E', hE', hs⟩ := f6 D0 hL
          rw [hE] at hE'
          cases hE'
          rw [hs.distvals] at h256
          exact (h2 D0 hL h256).setPeriodic env hL axis hE

/-- C99 for all histories of configuration calls, `build` and `set_periodic`, each of which may
succeed or raise: whenever the lattice has data (with at most 256 different distances), its tables
are consistent, and the neighbours of every site can be read and are sites. -/
theorem C99_history (hd : 0 < d) {env : Env ℝ} {w : World d ℝ} (hw : Reachable env w)
    (ops : List (Lattice.Op d ℝ)) {D : LatticeData d ℝ}
    (hD : (Lattice.run env (Lattice.ofWorld w) ops).data = some D)
    (h256 : D.distvals.length ≤ 256) :
    D.Sound ∧
    (∀ i < D.numSites, ∀ periodic unique, ∃ l, D.getNeighbors i none periodic unique = .ok l ∧
      ∀ j ∈ l, j < D.numSites) ∧
    ∀ i, D.numSites ≤ i → ∀ level periodic unique,
      D.getNeighbors i level periodic unique = .error .index := by
  have h := (Lattice.run_weak hd hw ops hD h256).sound
  exact ⟨h, h.getNeighbors⟩

namespace Lattice

/-- At most 256 different distances are stored. -/
def Few (L : Lattice d ℝ) : Prop := ∀ D, L.data = some D → D.distvals.length ≤ 256

/-- The neighbour table has an empty slot. -/
def Padded (L : Lattice d ℝ) : Prop := ∀ D, L.data = some D → ⊤ ∈ D.distvals

/-- No neighbour is marked as periodic. -/
def Free (L : Lattice d ℝ) : Prop := ∀ D, L.data = some D → ∀ r ∈ D.pmask, ∀ b ∈ r, b = false

/-- The lattices made by any calls of the configuration methods, `build`, `set_periodic`, `append`,
`extend` and `repeat`, each of which may succeed or raise.  Periodic boundaries are set only if the
neighbour table has an empty slot, lattices are joined only while few distances are stored, and a
lattice with periodic neighbours is repeated only once per call (`C99_repeat_fails`). -/
inductive Used (env : Env ℝ) : Lattice d ℝ → Prop
  | new {w : World d ℝ} : Reachable env w → Used env (ofWorld w)
  | conf {L : Lattice d ℝ} (op : World.Op ℝ) : Used env L → Used env (L.call env (.conf op)).1
  | build {L : Lattice d ℝ} (a : BuildArgs d ℝ) : Used env L →
      (a.periodic = none ∨ Padded (L.build env a).1) → Used env (L.build env a).1
  | setPeriodic {L : Lattice d ℝ} (axis : PAxis) : Used env L → Padded L →
      Used env (L.setPeriodic env axis).1
  | append {L M : Lattice d ℝ} (ax : ℕ) (side : Bool) (sortAx : Option (Fin (d + 1))) (rev : Bool) :
      Used env L → Used env M → Few L → Few M → Used env (L.append env M ax side sortAx rev).1
  | extend {L : Lattice d ℝ} (size : ℝ) (ax : ℕ) (side : Bool) (sortAx : Option (Fin (d + 1)))
      (rev : Bool) : Used env L → Few L → Used env (L.extend env size ax side sortAx rev).1
  | repeat {L : Lattice d ℝ} (num : ℕ) (ax : ℕ) (side : Bool) (sortAx : Option (Fin (d + 1)))
      (rev : Bool) : Used env L → (∀ m < num, Few (L.repeat env m ax side sortAx rev).1) →
      (num ≤ 1 ∨ Free L) → Used env (L.repeat env num ax side sortAx rev).1

end Lattice

theorem updateShape_world (L : Lattice d ℝ) : (Lattice.updateShape L).1.world = L.world := by
  unfold Lattice.updateShape
  split
  · rfl
  · split <;> rfl

theorem appendSites_world (env : Env ℝ) (L : Lattice d ℝ) (ind : List (Idx d)) (pos : List (Vec d ℝ))
    (nbrs : List (List ℕ)) (dists : List (List (WithTop ℝ))) (ax : ℕ) (side : Bool)
    (sortAx : Option (Fin (d + 1))) (rev : Bool) :
    (L.appendSites env ind pos nbrs dists ax side sortAx rev).1.world = L.world := by
  unfold Lattice.appendSites
  split
  · rfl
  · split
    · rfl
    · dsimp only
      split
      · rfl
      · split
        · rfl
        · split
          · rfl
          · exact updateShape_world _

theorem appendSites_data_none (env : Env ℝ) {L : Lattice d ℝ} (hL : L.data = none) (ind : List (Idx d))
    (pos : List (Vec d ℝ)) (nbrs : List (List ℕ)) (dists : List (List (WithTop ℝ))) (ax : ℕ)
    (side : Bool) (sortAx : Option (Fin (d + 1))) (rev : Bool) :
    (L.appendSites env ind pos nbrs dists ax side sortAx rev).1 = L := by
  unfold Lattice.appendSites
  rw [hL]

/-- Appending the data of a lattice. -/
theorem appendData_strong (env : Env ℝ) {L : Lattice d ℝ} {D M E : LatticeData d ℝ}
    (hD : L.data = some D) (h : Strong D) (hM : Strong M) (ax : ℕ) (side : Bool)
    (sortAx : Option (Fin (d + 1))) (rev : Bool)
    (hE : (L.appendSites env M.indices M.positions M.neighbors M.distTable ax side sortAx
      rev).1.data = some E) (h256 : E.distvals.length ≤ 256) : Strong E := by
  obtain ⟨table, h1, h2, h3⟩ := hM.fits
  obtain ⟨t, ht⟩ := hM.table
  rw [h2, h3] at hE
  exact appendSites_sound env hD h h1 ht.positions ax side sortAx rev hE h256

/-- Clearing a table without periodic neighbours changes nothing. -/
theorem clearedNeighbors_free {D : LatticeData d ℝ} {t : List (List (Entry d))}
    {Q : ℕ → Prop} (h : SoundQ D Q t) (hf : ∀ r ∈ D.pmask, ∀ b ∈ r, b = false) :
    D.clearedNeighbors = D.neighbors := by
  unfold LatticeData.clearedNeighbors
  rw [h.cols.per] at hf
  rw [h.cols.nbr, h.cols.per, List.zipWith_map, List.zipWith_self]
  refine List.map_congr_left fun r hr => ?_
  rw [List.zipWith_map, List.zipWith_self]
  refine List.map_congr_left fun e he => ?_
  rw [hf _ (List.mem_map_of_mem hr) _ (List.mem_map_of_mem he)]
  rfl

/-- One more repetition is one more call of `_append`, unless an earlier one raised. -/
theorem repeatLoop_succ (env : Env ℝ) (D : LatticeData d ℝ) (ax : ℕ) (side : Bool)
    (sortAx : Option (Fin (d + 1))) (rev : Bool) : ∀ (n : ℕ) (nbrs : List (List ℕ)) (L : Lattice d ℝ),
    (Lattice.repeatLoop env D ax side sortAx rev (n + 1) nbrs L).1 =
      (Lattice.repeatLoop env D ax side sortAx rev n nbrs L).1 ∨
    (Lattice.repeatLoop env D ax side sortAx rev (n + 1) nbrs L).1 =
      ((Lattice.repeatLoop env D ax side sortAx rev n nbrs L).1.appendSites env D.indices D.positions
        (if n = 0 then nbrs else D.clearedNeighbors) D.distTable ax side sortAx rev).1 := by
  intro n
  induction n with
  | zero =>
    intro nbrs L
    right
    simp only [Lattice.repeatLoop, if_true]
    split <;> rename_i h <;> rw [h]
  | succ n ih =>
    intro nbrs L
    rw [Lattice.repeatLoop]
    conv_lhs =>
      rhs
      rw [Lattice.repeatLoop]
    conv_rhs =>
      rw [Lattice.repeatLoop]
    split
    · exact Or.inl rfl
    · rename_i M _
      have := ih D.clearedNeighbors M
      rwa [ite_self] at this

theorem Lattice.Used.strong (hd : 0 < d) {env : Env ℝ} {L : Lattice d ℝ} (h : L.Used env) :
    Reachable env L.world ∧ ∀ D, L.data = some D → D.distvals.length ≤ 256 → Strong D := by
  induction h with
  | new hw => exact ⟨hw, fun D h => by cases h⟩
  | conf op _ ih => exact ⟨ih.1.call op, ih.2⟩
  | @build L a _ hp ih =>
    refine ⟨by rw [(Lattice.build_sites hd ih.1 a).1]; exact ih.1, fun E hE h256 => ?_⟩
    obtain ⟨D, g1, ⟨-, rfl⟩ | ⟨hs, L1, p, g2, ⟨g0, g3⟩ | rfl⟩⟩ := build_strong hd ih.1 a hE
    · exact (g1 h256).1
    · rw [hs.distvals] at h256
      refine (g1 h256).1.setPeriodic env g2 ?_ p g3
      rw [← hs.distvals]
      exact (hp.resolve_left g0) E hE
    · exact (g1 h256).1
  | @setPeriodic L axis _ hp ih =>
    obtain ⟨f1, -, -, -, f5, f6⟩ := Lattice.setPeriodic_frame env L axis
    refine ⟨by rw [f1]; exact ih.1, fun E hE h256 => ?_⟩
    cases hL : L.data with
    | none =>
      rw [f5 hL, hL] at hE
      cases hE
    | some D0 =>
      obtain ⟨E', hE', hs⟩ := f6 D0 hL
      rw [hE] at hE'
      cases hE'
      rw [hs.distvals] at h256
      exact (ih.2 D0 hL h256).setPeriodic env hL (hp D0 hL) axis hE
  | @append L M ax side sortAx rev _ _ hf hg ih1 ih2 =>
    unfold Lattice.append
    cases hM : M.data with
    | none => exact ih1
    | some D2 =>
      refine ⟨by dsimp only; rw [appendSites_world]; exact ih1.1, fun E hE h256 => ?_⟩
      dsimp only at hE
      cases hL : L.data with
      | none =>
        rw [appendSites_data_none env hL, hL] at hE
        cases hE
      | some D =>
        exact appendData_strong env hL (ih1.2 D hL (hf D hL)) (ih2.2 D2 hM (hg D2 hM)) ax side
          sortAx rev hE h256
  | @extend L size ax side sortAx rev _ hf ih =>
    unfold Lattice.extend
    split
    · exact ih
    · rename_i shape hsh
      split_ifs
      · dsimp only
        split
        · exact ih
        · rename_i ind pos hbi
          split
          · exact ih
          · rename_i table ht
            refine ⟨by rw [appendSites_world]; exact ih.1, fun E hE h256 => ?_⟩
            cases hL : L.data with
            | none =>
              rw [appendSites_data_none env hL, hL] at hE
              cases hE
            | some D =>
              obtain ⟨h5, -⟩ := buildIndices_sites hd ih.1 hbi
              obtain ⟨k1, k2⟩ := computeNeighbors_tableOK h5.length_eq ht
              exact appendSites_sound env hL (ih.2 D hL (hf D hL)) (k1.fits k2) h5.length_eq.symm ax
                side sortAx rev hE h256
      · exact ih
  | @«repeat» L num ax side sortAx rev _ hf hfree ih =>
    unfold Lattice.repeat at hf ⊢
    cases hL : L.data with
    | none => exact ih
    | some D =>
      rw [hL] at hf
      dsimp only at hf ⊢
      have hD : 0 < num → Strong D := fun h => ih.2 D hL (hf 0 h D hL)
      induction num with
      | zero => exact ih
      | succ n ihn =>
        have hprev := ihn (hfree.imp_left fun h => by omega) (fun m hm => hf m (by omega))
          (fun _ => hD (by omega))
        have htab : (if n = 0 then D.neighbors else D.clearedNeighbors) = D.neighbors := by
          split_ifs with h0
          · rfl
          · obtain ⟨t, ht⟩ := (hD (by omega)).table
            exact clearedNeighbors_free ht ((hfree.resolve_left (by omega)) D hL)
        rcases repeatLoop_succ env D ax side sortAx rev n D.neighbors L with h | h
        · rw [h]; exact hprev
        · rw [h, htab]
          refine ⟨by rw [appendSites_world]; exact hprev.1, fun E hE h256 => ?_⟩
          cases hL1 : (Lattice.repeatLoop env D ax side sortAx rev n D.neighbors L).1.data with
          | none =>
            rw [appendSites_data_none env hL1, hL1] at hE
            cases hE
          | some D1 =>
            exact appendData_strong env hL1 (hprev.2 D1 hL1 (hf n (by omega) D1 hL1)) (hD (by omega))
              ax side sortAx rev hE h256

/-- C99 for histories that also join lattices by `append`, `extend` and `repeat`: partial because
periodic boundaries are set only on tables with an empty slot. -/
theorem C99_joined_partial (hd : 0 < d) {env : Env ℝ} {L : Lattice d ℝ} (hL : L.Used env)
    {D : LatticeData d ℝ} (hD : L.data = some D) (h256 : D.distvals.length ≤ 256) :
    D.Sound ∧
    (∀ i < D.numSites, ∀ periodic unique, ∃ l, D.getNeighbors i none periodic unique = .ok l ∧
      ∀ j ∈ l, j < D.numSites) ∧
    ∀ i, D.numSites ≤ i → ∀ level periodic unique,
      D.getNeighbors i level periodic unique = .error .index := by
  have h := ((hL.strong hd).2 D hD h256).weak.sound
  exact ⟨h, h.getNeighbors⟩

/-- A ring made from a chain, with the chain appended to another chain: the hypotheses of both
theorems are met. -/
example (env : Env ℝ) : ∃ (w : World 1 ℝ) (ops : List (Lattice.Op 1 ℝ)) (D : LatticeData 1 ℝ),
    Reachable env w ∧ (Lattice.run env (Lattice.ofWorld w) ops).data = some D ∧
      D.distvals.length ≤ 256 ∧ D.numSites = 6 := by
  obtain ⟨w, A, h⟩ := exists_isBuiltChains env (nb := 2) (by norm_num) (by norm_num)
  obtain ⟨L, D, table, h1⟩ := h 5 (fun _ => true) (by rw [chainCells_true]; simp)
  obtain ⟨-, -, -, -, -, hs⟩ := Lattice.setPeriodic_frame env L (.flag true)
  obtain ⟨E, hE, hs⟩ := hs D h1.data
  refine ⟨w, [.build (chainArgs 5 fun _ => true), .setPeriodic (.flag true)], E, h1.reach, ?_, ?_, ?_⟩
  · have hb := h1.build
    simp only [Lattice.run, List.foldl_cons, List.foldl_nil, Lattice.call]
    rw [hb]
    exact hE
  · rw [hs.distvals]; exact h1.levels
  · rw [hs.numSites, LatticeData.numSites, h1.indices, chainCells_true]
    simp

theorem mem_distTable {K : Type*} {D : LatticeData d K} {x : WithTop K}
    (h : x ∈ D.distTable.flatten) : x ∈ D.distvals ∨ x = ⊤ := by
  obtain ⟨r, hr, hx⟩ := List.mem_flatten.1 h
  obtain ⟨s, -, rfl⟩ := List.mem_map.1 hr
  obtain ⟨l, -, rfl⟩ := List.mem_map.1 hx
  rw [List.getD_eq_getElem?_getD]
  cases hl : D.distvals[l]? with
  | none => exact Or.inr rfl
  | some y => exact Or.inl (List.mem_of_getElem? hl)

theorem mem_padRows {α : Type*} {cols : ℕ} {v : α} {rows : List (List α)} {x : α}
    (h : x ∈ (padRows cols v rows).flatten) : x = v ∨ x ∈ rows.flatten := by
  obtain ⟨r, hr, hx⟩ := List.mem_flatten.1 h
  obtain ⟨s, hs, rfl⟩ := List.mem_map.1 hr
  rcases List.mem_append.1 hx with hx | hx
  · exact Or.inr (List.mem_flatten.2 ⟨s, hs, hx⟩)
  · exact Or.inl (List.mem_replicate.1 hx).2

theorem addPairs_distvals {offset : ℕ} : ∀ (ps : List ((ℕ × ℕ) × ℝ)) {D E : LatticeData d ℝ},
    Lattice.addPairs offset D ps = .ok E → E.distvals = D.distvals
  | [], D, E, h => by cases h; rfl
  | p :: ps, D, E, h => by
    have hone : ∀ (D E : LatticeData d ℝ) (i j : ℕ) (x : WithTop ℝ), D.addNeighbor i j x = .ok E →
        E.distvals = D.distvals := by
      intro D E i j x h
      unfold addNeighbor at h
      split at h
      · cases h
      · dsimp only at h
        split_ifs at h <;> cases h <;> rfl
    unfold Lattice.addPairs at h
    split at h
    · cases h
    · rename_i E1 h1
      split at h
      · cases h
      · rename_i E2 h2
        rw [addPairs_distvals ps h, hone _ _ _ _ _ h2, hone _ _ _ _ _ h1]

/-- `_append` stores no new distances. -/
theorem appendSites_distvals (env : Env ℝ) {L : Lattice d ℝ} {D E : LatticeData d ℝ}
    (hD : L.data = some D) {ind : List (Idx d)} {pos : List (Vec d ℝ)} {nbrs : List (List ℕ)}
    {dists : List (List (WithTop ℝ))} {ax : ℕ} {side : Bool} {sortAx : Option (Fin (d + 1))}
    {rev : Bool} (hE : (L.appendSites env ind pos nbrs dists ax side sortAx rev).1.data = some E)
    (hnd : D.distvals.Nodup) : E.distvals.Nodup ∧
      ∀ x ∈ E.distvals, x ∈ D.distvals ∨ x = ⊤ ∨ x ∈ dists.flatten := by
  unfold Lattice.appendSites at hE
  rw [hD] at hE
  dsimp only at hE
  split at hE
  · rw [hD] at hE; cases hE; exact ⟨hnd, fun x hx => Or.inl hx⟩
  · split at hE
    · rw [hD] at hE; cases hE; exact ⟨hnd, fun x hx => Or.inl hx⟩
    · rename_i F hF
      have hFx : F.distvals.Nodup ∧
          ∀ x ∈ F.distvals, x ∈ D.distvals ∨ x = ⊤ ∨ x ∈ dists.flatten := by
        unfold LatticeData.append at hF
        dsimp only at hF
        split at hF
        · cases hF
        · cases hF
        · split at hF
          · rename_i F' hF'
            cases hF
            rcases set_cases (K := ℝ) _ _ _ _ with ⟨-, h⟩ | ⟨-, G, h, -, -, -, h8, -⟩
            · rw [hF'] at h; cases h
            · rw [hF'] at h
              cases h
              refine ⟨by change F'.distvals.Nodup; rw [h8]; exact npUnique_nodup _, fun x hx => ?_⟩
              change x ∈ F'.distvals at hx
              rw [h8, mem_npUnique, List.flatten_append, List.mem_append] at hx
              rcases hx with hx | hx
              · rcases mem_padRows hx with h | h
                · exact Or.inr (Or.inl h)
                · rcases mem_distTable h with h | h
                  · exact Or.inl h
                  · exact Or.inr (Or.inl h)
              · rcases mem_padRows hx with h | h
                · exact Or.inr (Or.inl h)
                · exact Or.inr (Or.inr h)
          · cases hF
      split at hE
      · cases hE; exact hFx
      · split at hE
        · cases hE; exact hFx
        · rename_i G hG
          rw [updateShape_data] at hE
          dsimp only at hE
          cases sortAx with
          | none =>
            cases hE
            rw [← addPairs_distvals _ hG] at hFx; exact hFx
          | some s =>
            cases hE
            rw [← addPairs_distvals _ hG] at hFx; exact hFx

theorem exists_joinedChain (env : Env ℝ) : ∃ (L : Lattice 1 ℝ) (D : LatticeData 1 ℝ),
    L.Used env ∧ L.data = some D ∧ D.distvals.length ≤ 256 ∧ ⊤ ∈ D.distvals ∧
      D.indices = [0, 1, 2, 3, 4, 5, 6].map fun z : ℤ => Idx.mk (fun _ => z) 0 := by
  obtain ⟨w, A, h⟩ := exists_isBuiltChains env (nb := 1) (by norm_num) (by norm_num)
  obtain ⟨L, D, table, h1⟩ := h 3 (fun _ => true) (by rw [chainCells_true]; simp)
  obtain ⟨L2, D2, table2, h2⟩ := h 2 (fun _ => true) (by rw [chainCells_true]; simp)
  have hu : ∀ {N : ℕ} {L : Lattice 1 ℝ} {D : LatticeData 1 ℝ} {table},
      IsBuiltChain env 1 N (fun _ => true) w A L D table → L.Used env ∧ L.Few ∧
        ∀ x ∈ D.distvals, x = ⊤ ∨ x = ((1 : ℝ) : WithTop ℝ) := by
    intro N L D table h
    refine ⟨?_, fun D' hD' => ?_, fun x hx => ?_⟩
    · have := Lattice.Used.build (chainArgs N fun _ => true) (Lattice.Used.new h.reach) (Or.inl rfl)
      rw [h.build] at this
      exact this
    · rw [h.data] at hD'
      cases hD'
      exact h.levels
    · cases x with
      | top => exact Or.inl rfl
      | coe x =>
        obtain ⟨a, -, b, -, h3, h4, rfl⟩ := (h.mem_distvals x).1 hx
        have : b = a + 1 := by omega
        subst this
        right
        exact congrArg _ (by push_cast; ring)
  obtain ⟨u1, f1, v1⟩ := hu h1
  obtain ⟨u2, f2, v2⟩ := hu h2
  obtain ⟨r, hr⟩ := h1.radius Nat.one_pos
  obtain ⟨w1, c1, hw1⟩ := h1.full
  obtain ⟨w2, c2, hw2⟩ := h2.full
  obtain ⟨L', E, e1, hE, -, -, -, hc⟩ := Lattice.chain_join env h1.data
    (by unfold Lattice.struct; rw [h1.world]; exact h1.analysis) (by norm_num) hr
    (by unfold Lattice.struct; rw [h1.world]; exact h1.basis) h1.primitive c1 c2
    (by norm_num) (le_max_of_le_left (hw1 (by norm_num))) h2.inf_mem true
  have hU := Lattice.Used.append 0 true none false u1 u2 f1 f2
  unfold Lattice.append at hU
  rw [h2.data] at hU
  dsimp only at hU
  rw [e1] at hU
  have hE' : (L.appendSites env D2.indices D2.positions D2.neighbors D2.distTable 0 true none
      false).1.data = some E := by
    rw [e1]
    exact hE
  obtain ⟨g1, g2⟩ := appendSites_distvals env h1.data hE'
    ((u1.strong Nat.one_pos).2 D h1.data h1.levels).sorted.nodup
  have hlen : E.distvals.length ≤ 256 := by
    have hsub : E.distvals ⊆ [⊤, ((1 : ℝ) : WithTop ℝ)] := by
      intro x hx
      have : x = ⊤ ∨ x = ((1 : ℝ) : WithTop ℝ) := by
        rcases g2 x hx with h | h | h
        · exact v1 x h
        · exact Or.inl h
        · rcases mem_distTable h with h | h
          · exact v2 x h
          · exact Or.inl h
      rcases this with rfl | rfl <;> simp
    have := (g1.subperm hsub).length_le
    simp at this
    omega
  refine ⟨L', E, hU, hE, hlen, List.mem_of_getElem? hc.top, ?_⟩
  rw [hc.indices]
  rfl

/-- A chain of three sites appended to a chain of four sites. -/
example (env : Env ℝ) : ∃ (L : Lattice 1 ℝ) (D : LatticeData 1 ℝ), L.Used env ∧ L.data = some D ∧
    D.distvals.length ≤ 256 ∧ D.numSites = 7 := by
  obtain ⟨L, D, h1, h2, h3, -, h4⟩ := exists_joinedChain env
  refine ⟨L, D, h1, h2, h3, ?_⟩
  unfold LatticeData.numSites
  rw [h4]
  rfl

/-- C99 fails for histories with `append` in which `set_periodic` was used on a table without an empty
slot: two linked sites (nothing is infinite, so the only distance is taken for the invalid one) are
made periodic and free again, which leaves the number of sites as neighbour at a finite distance.
Appended to a chain of four sites, the table names site 6 of 6 sites as a neighbour of site 4. -/
theorem C99_unpadded_fails :
    ∃ D D1 D2 E F : LatticeData 1 ℚ,
      LatticeData.set [![0, 0], ![1, 0]] [![0], ![1]] [[1], [0]] [[1], [1]] = .ok D ∧
      D.setPeriodic [(0, [⟨1, 1, ![-1], [0]⟩]), (1, [⟨0, 1, ![1], [0]⟩])] = .ok D1 ∧
      D1.removePeriodic = .ok D2 ∧ chain4.appendData (Env.brute ℚ) D2 = .ok (E, F) ∧
      D.invalidIdx = 2 ∧ D2.distvals = [1] ∧ E.numSites = 6 ∧
      E.getNeighbors 4 none none false = .ok [6] :=
  ⟨_, _, _, _, _, rfl, rfl, rfl, rfl, by decide +kernel, by decide +kernel, by decide +kernel,
    by decide +kernel⟩

end Lattpy
