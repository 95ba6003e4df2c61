import Verif.Props.Periodic
import Verif.Props.Sound
import Verif.Lemmas.BuiltChain

/-!
# Soundness of set_periodic for all lattices and outcomes (C64)

Whatever was called before and whether `set_periodic` succeeds or raises half way: it adds no regular
neighbour, and every periodic neighbour stored is connected across the boundary by one of the
translations of the requested axes.
-/

set_option autoImplicit false

namespace Lattpy

open Structure World LatticeData Lattpy.Lattice

variable {d : ℕ}

/-- The rows after data.py 455-467 for one site. -/
theorem setPeriodicSite_rows {K : Type*} [LinearOrder K] {D E : LatticeData d K}
    {t : List (List (Entry d))} (c : D.Cols t) {i : ℕ} {links : List (PLink d K)}
    (hE : D.setPeriodicSite i links = .ok E) :
    ∃ t', E.Cols t' ∧ ∀ (k : ℕ) r', t'[k]? = some r' → ∃ r, t[k]? = some r ∧ ∀ e ∈ r', e ∈ r ∨
      (k = i ∧ ∃ l ∈ links, e.nbr = l.nbr ∧ e.level = searchsorted D.distvals l.dist ∧
        e.per = true ∧ e.nvec = l.nvec) := by
  cases hr : t[i]? with
  | none =>
    have hn : D.neighbors[i]? = none := by rw [c.nbr]; simp [hr]
    unfold setPeriodicSite at hE
    rw [hn] at hE
    cases hg : D.getNeighbors i none (some false) false <;> rw [hg] at hE <;> cases hE
  | some r =>
    have hn : D.neighbors[i]? = some (r.map Entry.nbr) := by rw [c.nbr]; simp [hr]
    unfold setPeriodicSite at hE
    rw [c.getNeighbors i _ hr, hn] at hE
    dsimp only at hE
    simp only [List.length_map] at hE
    set i0 := (r.filter (D.sel i none (some false) false)).length with hi0
    split_ifs at hE with hfit h1
    · have hmap : ∀ {β : Type} (f : Entry d → β) (g : PLink d K → β),
          (∀ (o : Entry d) (l : PLink d K), f ⟨l.nbr, searchsorted D.distvals l.dist, true, l.nvec,
            writeAxes o.axes l.axes⟩ = g l) →
          (linkEntries D.distvals (r.drop i0) links).map f = links.map g := by
        intro β f g hfg
        rw [linkEntries, List.map_zipWith]
        simp only [hfg]
        exact zipWith_right_map g _ links (by rw [List.length_drop]; omega)
      have hmod : ∀ {β : Type} (f : Entry d → β) (new : List β → List β),
          (new (r.map f) = (linkEntries D.distvals (r.drop i0) links).map f) →
          modifyRow (t.map (List.map f)) i (fun r => writeSlice r i0 (new r)) =
          (modifyRow t i fun _ => writeSlice r i0 (linkEntries D.distvals (r.drop i0) links)).map
            (List.map f) := by
        intro β f new hnew
        apply modifyRow_map
        intro s hs
        rw [hr] at hs
        obtain rfl := Option.some.inj hs
        rw [writeSlice_map, hnew]
      refine ⟨modifyRow t i fun _ => writeSlice r i0 (linkEntries D.distvals (r.drop i0) links),
        ?_, ?_⟩
      · cases hE
        constructor
        · dsimp only; rw [c.nbr]; exact hmod _ (fun _ => _) (hmap _ _ fun _ _ => rfl).symm
        · dsimp only; rw [c.level]; exact hmod _ (fun _ => _) (hmap _ _ fun _ _ => rfl).symm
        · dsimp only; rw [c.per]; exact hmod _ (fun _ => _) (hmap _ _ fun _ _ => rfl).symm
        · dsimp only; rw [c.nvec]; exact hmod _ (fun _ => _) (hmap _ _ fun _ _ => rfl).symm
        · dsimp only; rw [c.axes]
          refine hmod _ (fun r => List.zipWith (fun old (l : PLink d K) => writeAxes old l.axes)
            (r.drop i0) links) ?_
          rw [← List.map_drop, List.zipWith_map_left, linkEntries, List.map_zipWith]
      · intro k r' hk
        by_cases hki : k = i
        · subst hki
          rw [modifyRow_getElem?_self, hr] at hk
          obtain rfl := Option.some.inj hk
          refine ⟨r, hr, fun e he => ?_⟩
          rcases mem_writeSlice he with he | he
          · exact Or.inl he
          · obtain ⟨n, hn, rfl⟩ := List.mem_iff_getElem.1 he
            unfold linkEntries at hn ⊢
            rw [List.length_zipWith] at hn
            rw [List.getElem_zipWith]
            exact Or.inr ⟨rfl, links[n], List.getElem_mem _, rfl, rfl, rfl, rfl⟩
        · rw [modifyRow_getElem?_ne _ _ hki] at hk
          exact ⟨r', hk, fun e he => Or.inl he⟩
    · cases hE
      exact ⟨t, c, fun k r' hk => ⟨r', hk, fun e he => Or.inl he⟩⟩

/-- The rows after the loop, wherever it stops. -/
theorem setPeriodicLoop_rows : ∀ (P : PDict d ℝ) {D : LatticeData d ℝ}
    {t : List (List (Entry d))}, D.Cols t →
    ∃ t', (setPeriodicLoop D P).1.Cols t' ∧ ∀ (k : ℕ) r', t'[k]? = some r' → ∃ r, t[k]? = some r ∧
      ∀ e ∈ r', e ∈ r ∨ ∃ ls, (k, ls) ∈ P ∧ ∃ l ∈ ls, e.nbr = l.nbr ∧
        e.level = searchsorted D.distvals l.dist ∧ e.per = true ∧ e.nvec = l.nvec
  | [], D, t, c => ⟨t, c, fun k r' hk => ⟨r', hk, fun e he => Or.inl he⟩⟩
  | p :: P, D, t, c => by
    unfold setPeriodicLoop
    cases hE : D.setPeriodicSite p.1 p.2 with
    | error e => exact ⟨t, c, fun k r' hk => ⟨r', hk, fun e he => Or.inl he⟩⟩
    | ok E =>
      obtain ⟨t1, c1, h1⟩ := setPeriodicSite_rows c hE
      obtain ⟨t2, c2, h2⟩ := setPeriodicLoop_rows P c1
      refine ⟨t2, c2, fun k r' hk => ?_⟩
      obtain ⟨r1, hr1, g1⟩ := h2 k r' hk
      obtain ⟨r0, hr0, g0⟩ := h1 k r1 hr1
      refine ⟨r0, hr0, fun e he => ?_⟩
      rcases g1 e he with he | ⟨ls, hls, l, hl, e1, e2, e3, e4⟩
      · rcases g0 e he with he | ⟨rfl, l, hl, e1⟩
        · exact Or.inl he
        · exact Or.inr ⟨p.2, List.mem_cons_self, l, hl, e1⟩
      · rw [(setPeriodicSite_sites hE).distvals] at e2
        exact Or.inr ⟨ls, List.mem_cons_of_mem _ hls, l, hl, e1, e2, e3, e4⟩

/-- The axes asked for, lattice.py 645-701. -/
def axesOf (d : ℕ) : PAxis → List ℕ
  | .flag false => []
  | .flag true => List.range d
  | .axes l => l

/-- Site `j` is a regular neighbour of site `i` at the level `n`. -/
def RegAt (E : LatticeData d ℝ) (i j n : ℕ) : Prop :=
  ∃ l, E.getNeighbors i (some n) (some false) false = .ok l ∧ j ∈ l

/-- C64, soundness on all lattices and for all outcomes: take any history of configuration calls,
`build` and `set_periodic`, then call `set_periodic` once more, for any axes and whether it succeeds or
raises.  Afterwards every regular neighbour was one before, at the same level, and every periodic neighbour `j` of a site
`i` is connected to it: the atoms of `i` shifted by one of the translations (or its negative) and of
`j` have a configured distance. -/
theorem C64_sound (hd : 0 < d) {env : Env ℝ} {w : World d ℝ} (hw : Reachable env w)
    (ops : List (Op d ℝ)) {L : Lattice d ℝ} (hL : Lattice.run env (Lattice.ofWorld w) ops = L)
    {D : LatticeData d ℝ} (hD : L.data = some D) (h256 : D.distvals.length ≤ 256)
    (hs : L.shape ≠ none) (axis : PAxis)
    {L' : Lattice d ℝ} {res : Except PyErr Unit} (hp : L.setPeriodic env axis = (L', res)) :
    ∃ E, L'.data = some E ∧ E.indices = D.indices ∧ E.positions = D.positions ∧
      ((∀ i j, Reg E i j → Reg D i j) ∧
        ∀ i j n, n < D.invalidDistidx → RegAt E i j n → RegAt D i j n) ∧
      ∀ i l, E.getNeighbors i none (some true) false = .ok l → ∀ j ∈ l,
        ∃ A vecs, L.struct.analysis = some A ∧
          periodicVectors L.struct.basis D.indices (axesOf d axis) (L.primitive.getD false) =
            .ok vecs ∧
          ∃ v ∈ vecs, ∃ x, Image L.struct A D.indices D.positions i j v.2 x ∨
            Image L.struct A D.indices D.positions i j (-v.2) x := by
  obtain ⟨hreach, hbuilt⟩ := run_built hd hw ops
  have hweak := Lattice.run_weak hd hw ops (by rw [hL]; exact hD) h256
  rw [hL] at hreach hbuilt
  have hB := hbuilt D hD
  obtain ⟨t, ht⟩ := hweak.table
  have c := ht.cols
  obtain ⟨D0, hD0, c0, a1, a2, a3, a4, a5, a6⟩ := removePeriodic_cols c
  obtain ⟨D1, hD1, c1, b1, b2, b3, b4, b5, b6⟩ := removePeriodic_cols c0
  -- rows without periodic neighbours
  have hclear : ∀ (k : ℕ) r', (t.map (List.map (clearEntry D.invalidIdx D.invalidDistidx)))[k]? =
      some r' → ∃ r, t[k]? = some r ∧ ∀ e ∈ r', e.per = false ∧ (e.level < D.invalidDistidx →
        ∃ e0 ∈ r, e0.per = false ∧ e0.level < D.invalidDistidx ∧ e0.nbr = e.nbr ∧
          e0.level = e.level) := by
    intro k r' hk
    rw [List.getElem?_map] at hk
    obtain ⟨r, hr, rfl⟩ := Option.map_eq_some_iff.1 hk
    refine ⟨r, hr, fun e he => ?_⟩
    obtain ⟨e0, he0, rfl⟩ := List.mem_map.1 he
    refine ⟨rfl, fun hlt => ⟨e0, he0, ?_⟩⟩
    unfold clearEntry at hlt ⊢
    cases hper : e0.per
    · simp only [hper, Bool.false_eq_true, if_false] at hlt ⊢
      exact ⟨trivial, hlt, trivial, trivial⟩
    · simp [hper] at hlt
  have hfinal : ∀ {E : LatticeData d ℝ} {t' : List (List (Entry d))}, E.Cols t' →
      E.invalidDistidx = D.invalidDistidx →
      (∀ (k : ℕ) r', t'[k]? = some r' → ∃ r, t[k]? = some r ∧ ∀ e ∈ r',
        (e.per = false → e.level < D.invalidDistidx →
          ∃ e0 ∈ r, e0.per = false ∧ e0.level < D.invalidDistidx ∧ e0.nbr = e.nbr ∧
            e0.level = e.level)) →
      (∀ i j, Reg E i j → Reg D i j) ∧
        ∀ i j n, n < D.invalidDistidx → RegAt E i j n → RegAt D i j n := by
    intro E t' cE hinv hrow
    have hrow' : ∀ i n l, E.getNeighbors i n (some false) false = .ok l → ∃ r', t'[i]? = some r' := by
      intro i n l hl
      cases hk : t'[i]? with
      | none =>
        have hn : E.neighbors[i]? = none := by rw [cE.nbr]; simp [hk]
        unfold LatticeData.getNeighbors neighborMask at hl
        rw [hn] at hl
        rcases E.distances[i]? with _ | x <;> simp at hl
      | some r' => exact ⟨r', rfl⟩
    constructor
    swap
    · rintro i j n hn ⟨l, hl, hj⟩
      obtain ⟨r', hk⟩ := hrow' i _ l hl
      obtain ⟨r, hr, g⟩ := hrow i r' hk
      rw [cE.getNeighbors i r' hk] at hl
      cases hl
      obtain ⟨e, he, rfl⟩ := List.mem_map.1 hj
      obtain ⟨he, hs⟩ := List.mem_filter.1 he
      have hs' : e.level = n ∧ e.per = false := by
        simpa [LatticeData.sel, LatticeData.levelSel, hinv] using hs
      obtain ⟨e0, he0, g1, g2, g3, g4⟩ := g e he hs'.2 (by omega)
      refine ⟨_, c.getNeighbors i r hr (some n) (some false) false, List.mem_map.2 ⟨e0,
        List.mem_filter.2 ⟨he0, ?_⟩, g3⟩⟩
      simp [LatticeData.sel, LatticeData.levelSel, g1, g4, hs'.1]
    rintro i j ⟨l, hl, hj⟩
    cases hk : t'[i]? with
    | none =>
      have hn : E.neighbors[i]? = none := by rw [cE.nbr]; simp [hk]
      unfold LatticeData.getNeighbors neighborMask at hl
      rw [hn] at hl
      rcases E.distances[i]? with _ | x <;> simp at hl
    | some r' =>
      obtain ⟨r, hr, g⟩ := hrow i r' hk
      rw [cE.getNeighbors i r' hk] at hl
      cases hl
      obtain ⟨e, he, rfl⟩ := List.mem_map.1 hj
      obtain ⟨he, hs⟩ := List.mem_filter.1 he
      have hs' : e.level < D.invalidDistidx ∧ e.per = false := by
        simpa [LatticeData.sel, hinv] using hs
      obtain ⟨e0, he0, g1, g2, g3, -⟩ := g e he hs'.2 hs'.1
      refine ⟨_, c.getNeighbors i r hr none (some false) false, List.mem_map.2 ⟨e0,
        List.mem_filter.2 ⟨he0, by simp [LatticeData.sel, g1, g2]⟩, g3⟩⟩
  have hnone : ∀ {E : LatticeData d ℝ} {t' : List (List (Entry d))}, E.Cols t' →
      (∀ (k : ℕ) r', t'[k]? = some r' → ∀ e ∈ r', e.per = false) →
      ∀ i l, E.getNeighbors i none (some true) false = .ok l → l = [] := by
    intro E t' cE hrow i l hl
    cases hk : t'[i]? with
    | none =>
      have hn : E.neighbors[i]? = none := by rw [cE.nbr]; simp [hk]
      unfold LatticeData.getNeighbors neighborMask at hl
      rw [hn] at hl
      rcases E.distances[i]? with _ | x <;> simp at hl
    | some r' =>
      rw [cE.getNeighbors i r' hk] at hl
      cases hl
      rw [List.map_eq_nil_iff, List.filter_eq_nil_iff]
      intro e he
      simp [LatticeData.sel, hrow i r' hk e he]
  have hreg0 : (∀ i j, Reg D0 i j → Reg D i j) ∧
      ∀ i j n, n < D.invalidDistidx → RegAt D0 i j n → RegAt D i j n := hfinal c0 a5 fun k r' hk => by
    obtain ⟨r, hr, g⟩ := hclear k r' hk
    exact ⟨r, hr, fun e he _ => (g e he).2⟩
  have hper0 : ∀ i l, D0.getNeighbors i none (some true) false = .ok l → l = [] :=
    hnone c0 fun k r' hk e he => by
      obtain ⟨r, hr, g⟩ := hclear k r' hk
      exact (g e he).1
  -- the work for given axes
  have key : ∀ axes : List ℕ,
      setPeriodicAxes env { L with data := some D0 } D0 axes = (L', res) →
      ∃ E, L'.data = some E ∧ E.indices = D.indices ∧ E.positions = D.positions ∧
      ((∀ i j, Reg E i j → Reg D i j) ∧
        ∀ i j n, n < D.invalidDistidx → RegAt E i j n → RegAt D i j n) ∧
      ∀ i l, E.getNeighbors i none (some true) false = .ok l → ∀ j ∈ l,
        ∃ A vecs, L.struct.analysis = some A ∧
          periodicVectors L.struct.basis D.indices axes (L.primitive.getD false) = .ok vecs ∧
          ∃ v ∈ vecs, ∃ x, Image L.struct A D.indices D.positions i j v.2 x ∨
            Image L.struct A D.indices D.positions i j (-v.2) x := by
    intro axes h
    have hplain : ∃ E, some D0 = some E ∧ E.indices = D.indices ∧ E.positions = D.positions ∧
      ((∀ i j, Reg E i j → Reg D i j) ∧
        ∀ i j n, n < D.invalidDistidx → RegAt E i j n → RegAt D i j n) ∧
      ∀ i l, E.getNeighbors i none (some true) false = .ok l → ∀ j ∈ l,
        ∃ A vecs, L.struct.analysis = some A ∧
          periodicVectors L.struct.basis D.indices axes (L.primitive.getD false) = .ok vecs ∧
          ∃ v ∈ vecs, ∃ x, Image L.struct A D.indices D.positions i j v.2 x ∨
            Image L.struct A D.indices D.positions i j (-v.2) x :=
      ⟨D0, rfl, a1, a2, hreg0, fun i l hl j hj => by
        rw [hper0 i l hl] at hj
        cases hj⟩
    unfold setPeriodicAxes at h
    cases hP : computePneighbors env L.struct D0 axes (L.primitive.getD false) with
    | error e =>
      dsimp only [Lattice.struct] at h hP
      rw [hP] at h
      cases h
      exact hplain
    | ok P =>
      have hP' := hP
      dsimp only [Lattice.struct] at h hP
      rw [hP] at h
      dsimp only at h
      by_cases hemp : P.isEmpty = true
      · rw [if_pos hemp] at h
        cases h
        exact hplain
      · rw [if_neg hemp, hD1] at h
        dsimp only at h
        -- the state of the search
        unfold computePneighbors at hP'
        cases hA : L.struct.analysis with
        | none => rw [hA] at hP'; cases hP'
        | some A =>
          rw [hA] at hP'
          dsimp only at hP'
          cases hq : queryParams A with
          | error e => rw [hq] at hP'; cases hP'
          | ok kd =>
            rw [hq] at hP'
            dsimp only at hP'
            cases hv : periodicVectors L.struct.basis D0.indices axes (L.primitive.getD false) with
            | error e => rw [hv] at hP'; cases hP'
            | ok vecs =>
              have hst : PState env L.world A D0 axes (L.primitive.getD false) vecs :=
                ⟨hreach, hA, by rw [a1, a2]; exact hB.length.symm, by rw [a1]; exact hB.alpha, hv⟩
              obtain ⟨-, hlinks⟩ := hst.links hd hP
              obtain ⟨t2, c2, h2⟩ := setPeriodicLoop_rows P c1
              have hdata : L'.data = some (setPeriodicLoop D1 P).1 := by
                rcases hloop : setPeriodicLoop D1 P with ⟨E, r⟩
                rw [hloop] at h
                rcases r with e | ⟨⟩ <;> · cases h; rfl
              have hsame := setPeriodicLoop_sites P D1
              refine ⟨_, hdata, by rw [hsame.indices, b1, a1], by rw [hsame.positions, b2, a2],
                ?_, ?_⟩
              · refine hfinal c2 (by rw [hsame.invalidDistidx, b5, a5]) fun k r' hk => ?_
                obtain ⟨r1, hr1, g1⟩ := h2 k r' hk
                rw [List.getElem?_map] at hr1
                obtain ⟨r0, hr0, rfl⟩ := Option.map_eq_some_iff.1 hr1
                obtain ⟨r, hr, g⟩ := hclear k r0 hr0
                refine ⟨r, hr, fun e he hper hlt => ?_⟩
                rcases g1 e he with he | ⟨ls, -, l, -, -, -, e3, -⟩
                · obtain ⟨e0, he0, rfl⟩ := List.mem_map.1 he
                  have hp0 := (g e0 he0).1
                  have hlt' : e0.level < D.invalidDistidx := by
                    unfold clearEntry at hlt
                    simpa [hp0] using hlt
                  obtain ⟨e1, k1, k2, k3, k4, k5⟩ := (g e0 he0).2 hlt'
                  refine ⟨e1, k1, k2, k3, ?_, ?_⟩
                  · unfold clearEntry
                    simpa [hp0] using k4
                  · unfold clearEntry
                    simpa [hp0] using k5
                · rw [e3] at hper; cases hper
              · intro i l hl j hj
                cases hk : t2[i]? with
                | none =>
                  have hn : (setPeriodicLoop D1 P).1.neighbors[i]? = none := by
                    rw [c2.nbr]; simp [hk]
                  unfold LatticeData.getNeighbors neighborMask at hl
                  rw [hn] at hl
                  rcases (setPeriodicLoop D1 P).1.distances[i]? with _ | x <;> simp at hl
                | some r' =>
                  rw [c2.getNeighbors i r' hk] at hl
                  cases hl
                  obtain ⟨e, he, rfl⟩ := List.mem_map.1 hj
                  obtain ⟨he, hs⟩ := List.mem_filter.1 he
                  have hper : e.per = true := by
                    have : e.level < (setPeriodicLoop D1 P).1.invalidDistidx ∧ e.per = true := by
                      simpa [LatticeData.sel] using hs
                    exact this.2
                  obtain ⟨r1, hr1, g1⟩ := h2 i r' hk
                  rcases g1 e he with he | ⟨ls, hls, l, hl, e1, -, -, -⟩
                  · rw [List.getElem?_map] at hr1
                    obtain ⟨r0, -, rfl⟩ := Option.map_eq_some_iff.1 hr1
                    obtain ⟨e0, -, rfl⟩ := List.mem_map.1 he
                    cases hper
                  · obtain ⟨-, -, -, h3⟩ := hlinks i ls hls
                    obtain ⟨v, hv1, x, hx⟩ := (h3 l hl).2
                    rw [a1, a2] at hx
                    rw [a1] at hv
                    refine ⟨A, vecs, rfl, hv, v, hv1, x, ?_⟩
                    rw [e1]
                    exact hx
  unfold Lattice.setPeriodic at hp
  cases hshape : L.shape with
  | none => exact absurd hshape hs
  | some sh =>
    rw [hshape, hD] at hp
    dsimp only at hp
    rw [hD0] at hp
    dsimp only at hp
    rcases axis with (_ | _) | l
    · cases hp
      exact ⟨D0, rfl, a1, a2, hreg0, fun i l hl j hj => by
        rw [hper0 i l hl] at hj
        cases hj⟩
    · rw [← hshape] at hp
      exact key _ hp
    · rw [← hshape] at hp
      exact key _ hp

/-- The hypotheses are met by the chain of five sites without the third one, for every axis. -/
example (env : Env ℝ) (axis : PAxis) : ∃ (w : World 1 ℝ) (L L' : Lattice 1 ℝ)
    (D : LatticeData 1 ℝ) (res : Except PyErr Unit), Reachable env w ∧
      Lattice.run env (Lattice.ofWorld w) [.build (chainArgs 4 fun n => n != 2)] = L ∧
      L.data = some D ∧ D.numSites = 4 ∧ D.distvals.length ≤ 256 ∧ L.shape ≠ none ∧
      L.setPeriodic env axis = (L', res) := by
  obtain ⟨w, A, L, D, table, h⟩ := exists_isBuiltChain env (nb := 1) (by norm_num) (by norm_num) 4
    (fun n => n != 2) (by decide)
  refine ⟨w, L, _, D, _, h.reach, ?_, h.data, by rw [h.numSites]; decide, h.levels, h.shape, rfl⟩
  simp only [Lattice.run, List.foldl_cons, List.foldl_nil, Lattice.call]
  rw [h.build]

end Lattpy
