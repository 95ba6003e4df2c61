import Verif.Lemmas.SoundData

/-!
# Tables that fit together: appending lattices
-/

set_option autoImplicit false
set_option linter.unusedSectionVars false

namespace Lattpy

open Structure World LatticeData

variable {d : ℕ}

theorem sortNeighbors_sound {K : Type*} [LinearOrder K] (env : Env K) {D : LatticeData d K}
    {Q : ℕ → Prop} {t : List (List (Entry d))} (h : SoundQ D Q t) :
    ∃ t', SoundQ (D.sortNeighbors env) Q t' := by
  have hp : ∀ r : List (Entry d), (gather r (env.argsort
      (r.map fun e => D.distvals.getD e.level ⊤))).Perm r := fun r =>
    gather_perm _ _ (by simpa using (env.argsort_spec (r.map fun e => D.distvals.getD e.level ⊤)).1)
  refine ⟨_, sortNeighbors_cols env h.cols, h.positions, by rw [List.length_map]; exact h.length, ?_,
    h.invalidIdx, ?_, ?_⟩
  · obtain ⟨w, hw⟩ := h.width
    refine ⟨w, fun r hr => ?_⟩
    obtain ⟨s, hs, rfl⟩ := List.mem_map.1 hr
    rw [(hp s).length_eq, hw s hs]
  · intro r hr e he
    obtain ⟨s, hs, rfl⟩ := List.mem_map.1 hr
    exact h.nbr s hs e ((hp s).mem_iff.1 he)
  · intro r hr e he
    obtain ⟨s, hs, rfl⟩ := List.mem_map.1 hr
    exact h.reg s hs e ((hp s).mem_iff.1 he)

theorem reorder_sound {K : Type*} {D : LatticeData d K} {Q : ℕ → Prop} {t : List (List (Entry d))}
    (h : SoundQ D Q t) {perm : List ℕ} (hp : perm.Perm (List.range D.numSites)) :
    ∃ t', SoundQ (D.reorder perm) Q t' := by
  obtain ⟨w, hw⟩ := h.width
  have hR := h.cols.rect h.positions h.length hw
  have hc := reorder_cols hR perm
  rw [h.cols.entries_eq] at hc
  have hn : (D.reorder perm).numSites = D.numSites := gather_perm_length D.indices rfl hp
  refine ⟨_, hc, ?_, ?_, ⟨w, ?_⟩, ?_, ?_, ?_⟩
  · rw [hn]; exact gather_perm_length D.positions h.positions hp
  · rw [hn, List.length_map]; exact gather_perm_length t h.length hp
  · intro r hr
    obtain ⟨s, hs, rfl⟩ := List.mem_map.1 hr
    rw [List.length_map, hw s (mem_of_gather hs)]
  · rw [hn]; exact h.invalidIdx
  · intro r hr e he hq
    obtain ⟨s, hs, rfl⟩ := List.mem_map.1 hr
    obtain ⟨p, hp', rfl⟩ := List.mem_map.1 he
    have hlt := h.nbr s (mem_of_gather hs) p hp' hq
    obtain ⟨k, hk⟩ := List.mem_iff_getElem?.1 (hp.mem_iff.2 (List.mem_range.2 hlt))
    have hnd : perm.Nodup := hp.nodup_iff.2 List.nodup_range
    rw [hn]
    change relabel perm p.nbr < _
    rw [relabel_of_getElem? hnd hk]
    have := (List.getElem?_eq_some_iff.1 hk).1
    rw [hp.length_eq, List.length_range] at this
    exact this
  · intro r hr e he
    obtain ⟨s, hs, rfl⟩ := List.mem_map.1 hr
    obtain ⟨p, hp', rfl⟩ := List.mem_map.1 he
    exact h.reg s (mem_of_gather hs) p hp'

theorem addNeighbor_sound {K : Type*} [LinearOrder K] {D E : LatticeData d K} {Q : ℕ → Prop}
    {t : List (List (Entry d))} (h : SoundQ D Q t) {site j : ℕ} {dist : WithTop K}
    (hj : j < D.numSites) (hE : D.addNeighbor site j dist = .ok E) :
    SameSites D E ∧ ∃ t', SoundQ E Q t' := by
  have c := h.cols
  unfold addNeighbor at hE
  cases hr : t[site]? with
  | none =>
    have hn : D.distances[site]? = none := by rw [c.level]; simp [hr]
    rw [hn] at hE
    cases hE
  | some r =>
    have hn : D.distances[site]? = some (r.map Entry.level) := by rw [c.level]; simp [hr]
    rw [hn] at hE
    dsimp only at hE
    set i0 := ((r.map Entry.level).filter fun x => decide (x ≠ D.invalidDistidx)).length
    rw [List.length_map] at hE
    split_ifs at hE with hfit
    · have hi0 : i0 < r.length := by omega
      have hs : SameSites D E := by cases hE; exact ⟨rfl, rfl, rfl, rfl, rfl⟩
      refine ⟨hs, _, h.modify hs (r := r) (i0 := i0)
        (new := [{ r[i0] with nbr := j, level := searchsorted D.distvals dist }]) hr
        (by simpa using hfit) ?_ ?_⟩
      · have hmod : ∀ {β : Type} (f : Entry d → β) (new : β),
            (f { r[i0] with nbr := j, level := searchsorted D.distvals dist } = new) →
            modifyRow (t.map (List.map f)) site (fun r => writeSlice r i0 [new]) =
            (modifyRow t site fun _ => writeSlice r i0
              [{ r[i0] with nbr := j, level := searchsorted D.distvals dist }]).map
              (List.map f) := by
          intro β f new hnew
          apply modifyRow_map
          intro s hs
          rw [hr] at hs
          obtain rfl := Option.some.inj hs
          rw [writeSlice_map, List.map_singleton, hnew]
        have hid : ∀ {β : Type} (f : Entry d → β),
            (f { r[i0] with nbr := j, level := searchsorted D.distvals dist } = f r[i0]) →
            t.map (List.map f) = (modifyRow t site fun _ => writeSlice r i0
              [{ r[i0] with nbr := j, level := searchsorted D.distvals dist }]).map
              (List.map f) := by
          intro β f hf
          rw [← modifyRow_map (List.map f) t site _ id]
          · unfold modifyRow
            rw [List.modify_id]
          · intro s hs
            rw [hr] at hs
            obtain rfl := Option.some.inj hs
            rw [writeSlice_map, List.map_singleton, hf]
            unfold writeSlice
            rw [id, List.append_assoc, List.singleton_append]
            have hi' : i0 < (r.map f).length := by rw [List.length_map]; exact hi0
            have : (f r[i0]) = (r.map f)[i0] := by simp
            rw [this, List.length_singleton, ← List.drop_eq_getElem_cons hi', List.take_append_drop]
        cases hE
        constructor
        · dsimp only; rw [c.nbr]; exact hmod _ _ rfl
        · dsimp only; rw [c.level]; exact hmod _ _ rfl
        · dsimp only; rw [c.per]; exact hid _ rfl
        · dsimp only; rw [c.nvec]; exact hid _ rfl
        · dsimp only; rw [c.axes]; exact hid _ rfl
      · intro e he
        rw [List.mem_singleton.1 he]
        exact ⟨fun _ => hj, h.reg r (List.mem_of_getElem? hr) r[i0] (List.getElem_mem hi0)⟩
    · cases hE
      exact ⟨SameSites.refl _, t, h⟩

theorem addPairs_sound {Q : ℕ → Prop} {offset : ℕ} : ∀ (ps : List ((ℕ × ℕ) × ℝ))
    {D E : LatticeData d ℝ} {t : List (List (Entry d))}, SoundQ D Q t →
    (∀ p ∈ ps, p.1.1 < D.numSites ∧ p.1.2 + offset < D.numSites) →
    Lattice.addPairs offset D ps = .ok E → SameSites D E ∧ ∃ t', SoundQ E Q t'
  | [], D, E, t, h, _, hE => by
    cases hE
    exact ⟨SameSites.refl _, t, h⟩
  | p :: ps, D, E, t, h, hp, hE => by
    unfold Lattice.addPairs at hE
    obtain ⟨h1, h2⟩ := hp p (by simp)
    split at hE
    · cases hE
    · rename_i D1 hD1
      obtain ⟨s1, t1, q1⟩ := addNeighbor_sound h h2 hD1
      split at hE
      · cases hE
      · rename_i D2 hD2
        obtain ⟨s2, t2, q2⟩ := addNeighbor_sound q1 (by rw [s1.numSites]; exact h1) hD2
        obtain ⟨s3, q3⟩ := addPairs_sound ps q2 (by
          rw [(s1.trans s2).numSites]
          exact fun q hq => hp q (by simp [hq])) hE
        exact ⟨(s1.trans s2).trans s3, q3⟩

theorem connectionNeighbors_lt {env : Env ℝ} {S : Structure d ℝ} {P1 P2 : List (Vec d ℝ)}
    {pairs : List ((ℕ × ℕ) × ℝ)} (h : Lattice.connectionNeighbors env S P1 P2 = .ok pairs) :
    ∀ p ∈ pairs, p.1.1 < P1.length ∧ p.1.2 < P2.length := by
  unfold Lattice.connectionNeighbors at h
  split at h
  · cases h
  · split at h
    · cases h
    · cases h
      intro p hp
      obtain ⟨⟨x, i⟩, hx, hp⟩ := List.mem_flatMap.1 hp
      obtain ⟨j, hj, rfl⟩ := List.mem_map.1 hp
      refine ⟨(List.getElem?_eq_some_iff.1 (List.mem_zipIdx_iff_getElem?.1 hx)).1, ?_⟩
      have := (env.ball_spec P2.length _ _).mem_iff.1 hj
      exact List.mem_range.1 (List.mem_filter.1 this).1

/-- The neighbour and distance tables of stored data as one table. -/
theorem Strong.fits {K : Type*} [LinearOrder K] {D : LatticeData d K} (h : Strong D) :
    ∃ table, Fits D.numSites table ∧ D.neighbors = table.map (fun r => r.map Prod.fst) ∧
      D.distTable = table.map fun r => r.map Prod.snd := by
  obtain ⟨t, ht⟩ := h.table
  refine ⟨t.map fun r => r.map fun e => (e.nbr, D.distvals.getD e.level ⊤), ⟨?_, ?_, ?_⟩, ?_, ?_⟩
  · obtain ⟨w, hw⟩ := ht.width
    refine ⟨w, fun r hr => ?_⟩
    obtain ⟨s, hs, rfl⟩ := List.mem_map.1 hr
    rw [List.length_map, hw s hs]
  · intro r hr e he hne
    obtain ⟨s, hs, rfl⟩ := List.mem_map.1 hr
    obtain ⟨p, hp, rfl⟩ := List.mem_map.1 he
    refine ht.nbr s hs p hp ?_
    dsimp only at hne
    rw [List.getD_eq_getElem?_getD] at hne
    cases hx : D.distvals[p.level]? with
    | none => rw [hx] at hne; exact absurd rfl hne
    | some x => rw [hx] at hne; exact ⟨x, hx, hne⟩
  · rw [List.length_map, ht.length]
  · rw [ht.cols.nbr]
    simp [Function.comp_def]
  · unfold distTable
    rw [ht.cols.level]
    simp [Function.comp_def]

/-- `data.append` gives tables that fit together. -/
theorem append_sound {K : Type*} [LinearOrder K] (env : Env K) {D E : LatticeData d K}
    (h : Strong D) {ind2 : List (Idx d)} {pos2 : List (Vec d K)}
    {table2 : List (List (ℕ × WithTop K))} (h2 : Fits ind2.length table2)
    (hp2 : pos2.length = ind2.length)
    (hE : D.append env ind2 pos2 (table2.map fun r => r.map Prod.fst)
      (table2.map fun r => r.map Prod.snd) = .ok E) :
    E.numSites = D.numSites + ind2.length ∧ (E.distvals.length ≤ 256 → Strong E) := by
  obtain ⟨table1, h1, hn1, hd1⟩ := h.fits
  obtain ⟨t, ht⟩ := h.table
  unfold LatticeData.append at hE
  dsimp only at hE
  rw [hn1, hd1] at hE
  set inv := D.numSites + ind2.length with hinv
  split at hE
  · cases hE
  · cases hE
  · split at hE
    · rename_i F hF
      cases hE
      set cols := max (ncols ((table1.map fun r => r.map Prod.fst).map fun r => r.map fun n =>
          if n = D.invalidIdx then inv else n))
        (ncols (((table2.map fun r => r.map Prod.fst).map fun r => r.map fun n =>
          if n = ind2.length then inv else n).map fun r => r.map fun n =>
            if n ≠ inv then n + D.numSites else n)) with hcols
      set f2 : ℕ → ℕ := fun n => if (if n = ind2.length then inv else n) ≠ inv then
        (if n = ind2.length then inv else n) + D.numSites else
        (if n = ind2.length then inv else n) with hf2
      set T : List (List (ℕ × WithTop K)) :=
        (table1.map fun r => r.map (fun p => (if p.1 = D.invalidIdx then inv else p.1, p.2)) ++
          List.replicate (cols - r.length) (inv, ⊤)) ++
        (table2.map fun r => r.map (fun p => (f2 p.1, p.2)) ++
          List.replicate (cols - r.length) (inv, ⊤)) with hT
      have e1 : padRows cols inv ((table1.map fun r => r.map Prod.fst).map fun r => r.map fun n =>
            if n = D.invalidIdx then inv else n) ++
          padRows cols inv (((table2.map fun r => r.map Prod.fst).map fun r => r.map fun n =>
          if n = ind2.length then inv else n).map fun r => r.map fun n =>
            if n ≠ inv then n + D.numSites else n) = T.map fun r => r.map Prod.fst := by
        rw [hT]
        simp only [padRows, List.map_append, List.map_map, Function.comp_def, List.map_replicate,
          List.length_map, hf2]
      have e2 : padRows cols ⊤ (table1.map fun r => r.map Prod.snd) ++
          padRows cols ⊤ (table2.map fun r => r.map Prod.snd) = T.map fun r => r.map Prod.snd := by
        rw [hT]
        simp [padRows, Function.comp_def]
      rw [e1, e2] at hF
      have hFi : F.indices = D.indices ++ ind2 := by
        rcases set_cases (D.indices ++ ind2) (D.positions ++ pos2) (T.map fun r => r.map Prod.fst)
            (T.map fun r => r.map Prod.snd) with ⟨-, h⟩ | ⟨-, F', h, h7, -⟩
        · rw [hF] at h; cases h
        · rw [hF] at h; cases h; exact h7
      have hFn : F.numSites = inv := by
        unfold LatticeData.numSites
        rw [hFi, List.length_append, hinv]
        rfl
      refine ⟨hFn, fun h256 => ?_⟩
      have hil : (D.indices ++ ind2).length = inv := by rw [List.length_append, hinv]; rfl
      have hfits : Fits (D.indices ++ ind2).length T := by
        rw [hil]
        refine ⟨⟨cols, ?_⟩, ?_, ?_⟩
        · intro r hr
          rcases List.mem_append.1 hr with hr | hr
          · obtain ⟨s, hs, rfl⟩ := List.mem_map.1 hr
            obtain ⟨w, hw⟩ := h1.width
            have : s.length ≤ cols := by
              rw [hcols]
              refine le_trans (le_of_eq ?_) (le_max_left _ _)
              rw [hw s hs]
              refine (ncols_of_rows (by simpa using List.ne_nil_of_mem hs) ?_).symm
              intro r hr
              simp only [List.map_map, List.mem_map, Function.comp_def] at hr
              obtain ⟨q, hq, rfl⟩ := hr
              simpa using hw q hq
            simp
            omega
          · obtain ⟨s, hs, rfl⟩ := List.mem_map.1 hr
            obtain ⟨w, hw⟩ := h2.width
            have : s.length ≤ cols := by
              rw [hcols]
              refine le_trans (le_of_eq ?_) (le_max_right _ _)
              rw [hw s hs]
              refine (ncols_of_rows (by simpa using List.ne_nil_of_mem hs) ?_).symm
              intro r hr
              simp only [List.map_map, List.mem_map, Function.comp_def] at hr
              obtain ⟨q, hq, rfl⟩ := hr
              simpa using hw q hq
            simp
            omega
        · intro r hr e he hne
          rcases List.mem_append.1 hr with hr | hr
          · obtain ⟨s, hs, rfl⟩ := List.mem_map.1 hr
            rcases List.mem_append.1 he with he | he
            · obtain ⟨p, hp, rfl⟩ := List.mem_map.1 he
              have := h1.lt s hs p hp hne
              dsimp only
              rw [if_neg (by rw [ht.invalidIdx]; omega)]
              omega
            · rw [(List.mem_replicate.1 he).2] at hne
              exact absurd rfl hne
          · obtain ⟨s, hs, rfl⟩ := List.mem_map.1 hr
            rcases List.mem_append.1 he with he | he
            · obtain ⟨p, hp, rfl⟩ := List.mem_map.1 he
              have := h2.lt s hs p hp hne
              dsimp only
              rw [hf2]
              dsimp only
              rw [if_neg (show ¬ p.1 = ind2.length by omega)]
              split_ifs <;> omega
            · rw [(List.mem_replicate.1 he).2] at hne
              exact absurd rfl hne
        · rw [hT, List.length_append, List.length_map, List.length_map, h1.length, h2.length]
      have hS := set_sound hF (by
        rw [List.length_append, List.length_append, ht.positions, hp2]; rfl) hfits h256
      obtain ⟨t', ht'⟩ := hS.table
      exact ⟨sortNeighbors_sound env ht', hS.sorted, hS.inv⟩
    · cases hE

/-- `updateShape` does not touch the data. -/
theorem updateShape_data (L : Lattice d ℝ) : (Lattice.updateShape L).1.data = L.data := by
  unfold Lattice.updateShape
  split
  · rfl
  · rename_i D hD
    split
    · rfl
    · exact hD.symm ▸ rfl

/-- `_append` keeps the tables fitting together, whether it succeeds or raises. -/
theorem appendSites_sound (env : Env ℝ) {L : Lattice d ℝ} {D E : LatticeData d ℝ}
    (hD : L.data = some D) (h : Strong D) {ind : List (Idx d)} {pos : List (Vec d ℝ)}
    {table : List (List (ℕ × WithTop ℝ))} (h2 : Fits ind.length table)
    (hp2 : pos.length = ind.length) (ax : ℕ) (side : Bool) (sortAx : Option (Fin (d + 1)))
    (rev : Bool)
    (hE : (L.appendSites env ind pos (table.map fun r => r.map Prod.fst)
      (table.map fun r => r.map Prod.snd) ax side sortAx rev).1.data = some E)
    (h256 : E.distvals.length ≤ 256) : Strong E := by
  unfold Lattice.appendSites at hE
  rw [hD] at hE
  dsimp only at hE
  split at hE
  · rw [hD] at hE; cases hE; exact h
  · rename_i v hv
    set nvec := if side = true then v else -v
    split at hE
    · rw [hD] at hE; cases hE; exact h
    · rename_i F hF
      obtain ⟨hn, hS⟩ := append_sound env (ind2 := ind.map (shiftIdx nvec))
        (pos2 := pos.map (L.struct.basis.translate nvec)) h
        (by rw [List.length_map]; exact h2) (by simp [hp2]) hF
      split at hE
      · cases hE; exact hS h256
      · rename_i pairs hpairs
        split at hE
        · cases hE; exact hS h256
        · rename_i G hG
          have hDp : D.positions.length = D.numSites := by
            obtain ⟨t, ht⟩ := h.table
            exact ht.positions
          have hlt : ∀ p ∈ pairs, p.1.1 < F.numSites ∧ p.1.2 + D.positions.length < F.numSites := by
            intro p hp
            have := connectionNeighbors_lt hpairs p hp
            rw [List.length_map] at this
            rw [hn, List.length_map, hDp]
            omega
          have hFG : SameSites F G := by
            have key : ∀ (ps : List ((ℕ × ℕ) × ℝ)) {A B : LatticeData d ℝ},
                Lattice.addPairs D.positions.length A ps = .ok B → SameSites A B := by
              have hadd : ∀ {A B : LatticeData d ℝ} {i j : ℕ} {x : WithTop ℝ},
                  A.addNeighbor i j x = .ok B → SameSites A B := by
                intro A B i j x hAB
                unfold addNeighbor at hAB
                split at hAB
                · cases hAB
                · dsimp only at hAB
                  split_ifs at hAB
                  · cases hAB; exact ⟨rfl, rfl, rfl, rfl, rfl⟩
                  · cases hAB; exact SameSites.refl _
              intro ps
              induction ps with
              | nil => intro A B hAB; cases hAB; exact SameSites.refl _
              | cons p ps ih =>
                intro A B hAB
                unfold Lattice.addPairs at hAB
                split at hAB
                · cases hAB
                · rename_i A1 hA1
                  split at hAB
                  · cases hAB
                  · rename_i A2 hA2
                    exact ((hadd hA1).trans (hadd hA2)).trans (ih hAB)
            exact key pairs hG
          rw [updateShape_data] at hE
          dsimp only at hE
          have hE := Option.some.inj hE
          have hdv : E.distvals = F.distvals := by
            rw [← hE, ← hFG.distvals]
            cases sortAx <;> rfl
          have hinv : E.invalidDistidx = F.invalidDistidx := by
            rw [← hE, ← hFG.invalidDistidx]
            cases sortAx <;> rfl
          have hSF := hS (by rw [← hdv]; exact h256)
          obtain ⟨t1, ht1⟩ := hSF.table
          obtain ⟨-, t2, ht2⟩ := addPairs_sound pairs ht1 hlt hG
          refine ⟨?_, by rw [hdv]; exact hSF.sorted, by rw [hdv, hinv]; exact hSF.inv⟩
          rw [hdv, ← hE]
          cases sortAx with
          | none => exact ⟨t2, ht2⟩
          | some s => exact reorder_sound ht2 (sortPerm_perm G s rev)

end Lattpy
