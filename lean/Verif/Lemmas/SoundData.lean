import Verif.Lemmas.Sound
import Verif.Lemmas.SymmetryPoints

/-!
# Stored tables that fit together
-/

set_option autoImplicit false
set_option linter.unusedSectionVars false

namespace Lattpy

open Structure World LatticeData

variable {d : ℕ}

/-- The entry table `t` of `D` fits together; slots with a level satisfying `Q` name a site. -/
structure SoundQ {K : Type*} (D : LatticeData d K) (Q : ℕ → Prop) (t : List (List (Entry d))) :
    Prop where
  cols : D.Cols t
  positions : D.positions.length = D.numSites
  length : t.length = D.numSites
  width : ∃ w, ∀ r ∈ t, r.length = w
  invalidIdx : D.invalidIdx = D.numSites
  nbr : ∀ r ∈ t, ∀ e ∈ r, Q e.level → e.nbr < D.numSites
  reg : ∀ r ∈ t, ∀ e ∈ r, e.per = false → e.nvec = 0

theorem SameSites.numSites {K : Type*} {D E : LatticeData d K} (h : SameSites D E) :
    E.numSites = D.numSites := by
  unfold LatticeData.numSites
  rw [h.indices]

theorem mem_writeSlice {α : Type*} {r new : List α} {i0 : ℕ} {x : α}
    (h : x ∈ writeSlice r i0 new) : x ∈ r ∨ x ∈ new := by
  unfold writeSlice at h
  rcases List.mem_append.1 h with h | h
  · rcases List.mem_append.1 h with h | h
    · exact Or.inl (List.mem_of_mem_take h)
    · exact Or.inr h
  · exact Or.inl (List.mem_of_mem_drop h)

theorem mem_modifyRow {α : Type*} {t : List α} {i : ℕ} {G : α → α} {x : α}
    (h : x ∈ modifyRow t i G) : x ∈ t ∨ ∃ r, t[i]? = some r ∧ x = G r := by
  obtain ⟨k, hk⟩ := List.mem_iff_getElem?.1 h
  by_cases hki : k = i
  · subst hki
    rw [modifyRow_getElem?_self] at hk
    obtain ⟨r, hr, rfl⟩ := Option.map_eq_some_iff.1 hk
    exact Or.inr ⟨r, hr, rfl⟩
  · rw [modifyRow_getElem?_ne _ _ hki] at hk
    exact Or.inl (List.mem_of_getElem? hk)

/-- Some slots of one row are overwritten. -/
theorem SoundQ.modify {K : Type*} {D E : LatticeData d K} {Q : ℕ → Prop}
    {t : List (List (Entry d))} (h : SoundQ D Q t) (hs : SameSites D E) {i i0 : ℕ}
    {r new : List (Entry d)} (hr : t[i]? = some r) (hfit : i0 + new.length ≤ r.length)
    (hc : E.Cols (modifyRow t i fun _ => writeSlice r i0 new))
    (hnew : ∀ e ∈ new, (Q e.level → e.nbr < D.numSites) ∧ (e.per = false → e.nvec = 0)) :
    SoundQ E Q (modifyRow t i fun _ => writeSlice r i0 new) := by
  have hmem : ∀ s ∈ modifyRow t i fun _ => writeSlice r i0 new,
      s ∈ t ∨ s = writeSlice r i0 new := by
    intro s hs
    rcases mem_modifyRow hs with h | ⟨-, -, h⟩
    · exact Or.inl h
    · exact Or.inr h
  have hrt : r ∈ t := List.mem_of_getElem? hr
  refine ⟨hc, by rw [hs.positions, hs.numSites, h.positions], ?_, ?_, ?_, ?_, ?_⟩
  · rw [modifyRow_length, h.length, hs.numSites]
  · obtain ⟨w, hw⟩ := h.width
    refine ⟨w, fun s hs => ?_⟩
    rcases hmem s hs with h' | rfl
    · exact hw s h'
    · rw [writeSlice_length _ _ _ hfit, hw r hrt]
  · rw [hs.invalidIdx, hs.numSites, h.invalidIdx]
  · rw [hs.numSites]
    intro s hs e he
    rcases hmem s hs with h' | rfl
    · exact h.nbr s h' e he
    · rcases mem_writeSlice he with he | he
      · exact h.nbr r hrt e he
      · exact (hnew e he).1
  · intro s hs e he
    rcases hmem s hs with h' | rfl
    · exact h.reg s h' e he
    · rcases mem_writeSlice he with he | he
      · exact h.reg r hrt e he
      · exact (hnew e he).2

/-! ## set -/

/-- The data stored by `set` for any neighbour table (padded or not) with at most 256 different
distances. -/
theorem set_any {K : Type*} [LinearOrder K] {indices : List (Idx d)} {positions : List (Vec d K)}
    {table : List (List (ℕ × WithTop K))} {D : LatticeData d K}
    (hset : LatticeData.set indices positions (table.map fun r => r.map Prod.fst)
        (table.map fun r => r.map Prod.snd) = .ok D)
    (h256 : D.distvals.length ≤ 256) :
    D.Cols (table.map fun r => r.map (builtEntry D.distvals)) ∧ D.indices = indices ∧
      D.positions = positions ∧ D.invalidIdx = indices.length ∧ D.dmap = none ∧
      D.distvals.Pairwise (· < ·) ∧ D.invalidDistidx + 1 = D.distvals.length ∧
      ∀ r ∈ table, ∀ e ∈ r, D.distvals[searchsorted D.distvals e.2]? = some e.2 := by
  set distances := table.map fun r => r.map Prod.snd with hdist
  have hne : distances.flatten ≠ [] ∧ D.distvals = npUnique distances.flatten := by
    rcases set_cases indices positions (table.map fun r => r.map Prod.fst) distances with
      ⟨-, h⟩ | ⟨h0, D', h, -, -, -, h', -⟩
    · rw [hset] at h; cases h
    · rw [hset] at h; cases h; exact ⟨h0, h'⟩
  obtain ⟨hne, hdv⟩ := hne
  obtain ⟨M, hM, hmax⟩ := Finset.exists_max_image distances.flatten.toFinset id
    (by rwa [List.toFinset_nonempty_iff])
  rw [List.mem_toFinset] at hM
  have hmax : ∀ x ∈ distances.flatten, x ≤ M := fun x hx => hmax x (List.mem_toFinset.2 hx)
  have hok := set_ok indices positions (table.map fun r => r.map Prod.fst) distances M hM hmax
    (by rw [hdv] at h256; simpa [npUnique] using h256)
  rw [hset] at hok
  have hD := Except.ok.inj hok
  have hin : ∀ r ∈ table, ∀ e ∈ r, e.2 ∈ distances.flatten := by
    intro r hr e he
    exact List.mem_flatten.2 ⟨_, List.mem_map.2 ⟨r, hr, rfl⟩, List.mem_map_of_mem he⟩
  have hinv : D.invalidDistidx = searchsorted D.distvals M := by rw [hdv, hD]
  refine ⟨⟨?_, ?_, ?_, ?_, ?_⟩, by rw [hD], by rw [hD], by rw [hD], by rw [hD], ?_, ?_, ?_⟩
  · rw [hD]; simp [builtEntry, Function.comp_def]
  · rw [hD]; simp [builtEntry, Function.comp_def, hdist]
  · rw [hD]; simp [builtEntry, Function.comp_def]
  · rw [hD]; simp [builtEntry, Function.comp_def]
  · rw [hD]; simp [builtEntry, Function.comp_def]
  · rw [hdv]; exact npUnique_pairwise_lt _
  · have h1 : D.distvals[searchsorted D.distvals M]? = some M := by
      rw [hdv]; exact npUnique_searchsorted hM
    have hp : D.distvals.Pairwise (· < ·) := by rw [hdv]; exact npUnique_pairwise_lt _
    rw [hinv]
    obtain ⟨h2, h3⟩ := List.getElem?_eq_some_iff.1 h1
    by_contra hc
    have h4 : searchsorted D.distvals M + 1 < D.distvals.length := by omega
    have h5 := List.pairwise_iff_getElem.1 hp _ _ h2 h4 (by omega)
    rw [h3] at h5
    have h6 : D.distvals[searchsorted D.distvals M + 1] ∈ distances.flatten := by
      rw [← mem_npUnique, ← hdv]
      exact List.getElem_mem h4
    exact absurd h5 (not_lt.2 (hmax _ h6))
  · intro r hr e he
    rw [hdv]
    exact npUnique_searchsorted (hin r hr e he)

/-- A level naming a finite distance. -/
def finiteLevel {K : Type*} (vals : List (WithTop K)) (l : ℕ) : Prop :=
  ∃ x, vals[l]? = some x ∧ x ≠ ⊤

/-- The tables of `D` fit together, slots with a finite distance name a site. -/
structure Strong {K : Type*} [LinearOrder K] (D : LatticeData d K) : Prop where
  table : ∃ t, SoundQ D (finiteLevel D.distvals) t
  sorted : D.distvals.Pairwise (· < ·)
  inv : D.invalidDistidx + 1 = D.distvals.length

/-- A table for `n` sites: rows of one length, entries with a finite distance name a site. -/
structure Fits {K : Type*} (n : ℕ) (table : List (List (ℕ × WithTop K))) : Prop where
  width : ∃ w, ∀ r ∈ table, r.length = w
  lt : ∀ r ∈ table, ∀ e ∈ r, e.2 ≠ ⊤ → e.1 < n
  length : table.length = n

/-- `set` stores tables that fit together. -/
theorem set_sound {K : Type*} [LinearOrder K] {indices : List (Idx d)} {positions : List (Vec d K)}
    {table : List (List (ℕ × WithTop K))} {D : LatticeData d K}
    (hset : LatticeData.set indices positions (table.map fun r => r.map Prod.fst)
        (table.map fun r => r.map Prod.snd) = .ok D)
    (hlen : indices.length = positions.length) (ht : Fits indices.length table)
    (h256 : D.distvals.length ≤ 256) : Strong D := by
  obtain ⟨h1, h2, h3, h4, -, h6, h7, h8⟩ := set_any hset h256
  have hns : D.numSites = indices.length := by unfold LatticeData.numSites; rw [h2]
  refine ⟨⟨_, h1, by rw [h3, hns, hlen], by rw [List.length_map, hns, ht.length], ?_, by rw [h4, hns], ?_,
    ?_⟩, h6, h7⟩
  · obtain ⟨w, hw⟩ := ht.width
    refine ⟨w, fun r hr => ?_⟩
    obtain ⟨s, hs, rfl⟩ := List.mem_map.1 hr
    rw [List.length_map, hw s hs]
  · intro r hr e he hQ
    obtain ⟨s, hs, rfl⟩ := List.mem_map.1 hr
    obtain ⟨p, hp, rfl⟩ := List.mem_map.1 he
    obtain ⟨x, hx, hne⟩ := hQ
    rw [hns]
    apply ht.lt s hs p hp
    rintro htop
    have h9 := h8 s hs p hp
    change D.distvals[searchsorted D.distvals p.2]? = some x at hx
    rw [h9, htop] at hx
    exact hne (Option.some.inj hx).symm
  · intro r hr e he _
    obtain ⟨s, hs, rfl⟩ := List.mem_map.1 hr
    obtain ⟨p, hp, rfl⟩ := List.mem_map.1 he
    rfl

/-- No level exceeds the invalid one, and no map was computed yet. -/
structure Fresh {K : Type*} (D : LatticeData d K) : Prop where
  levels : ∀ r ∈ D.distances, ∀ l ∈ r, l ≤ D.invalidDistidx
  dmap : D.dmap = none

theorem set_fresh {K : Type*} [LinearOrder K] {indices : List (Idx d)} {positions : List (Vec d K)}
    {table : List (List (ℕ × WithTop K))} {D : LatticeData d K}
    (hset : LatticeData.set indices positions (table.map fun r => r.map Prod.fst)
        (table.map fun r => r.map Prod.snd) = .ok D)
    (h256 : D.distvals.length ≤ 256) : Fresh D := by
  obtain ⟨h1, -, -, -, h5, -, h7, h8⟩ := set_any hset h256
  refine ⟨fun r hr l hl => ?_, h5⟩
  rw [h1.level] at hr
  simp only [List.map_map, List.mem_map, Function.comp_apply] at hr
  obtain ⟨s, hs, rfl⟩ := hr
  simp only [List.mem_map, Function.comp_apply] at hl
  obtain ⟨e, he, rfl⟩ := hl
  have := (List.getElem?_eq_some_iff.1 (h8 s hs e he)).1
  change searchsorted D.distvals e.2 ≤ _
  omega

/-- Levels below the invalid one name finite distances. -/
theorem finiteLevel_of_lt {K : Type*} [LinearOrder K] {vals : List (WithTop K)} {inv l : ℕ}
    (hs : vals.Pairwise (· < ·)) (hinv : inv + 1 = vals.length) (hl : l < inv) :
    finiteLevel vals l := by
  have h1 : l < vals.length := by omega
  have h2 : l + 1 < vals.length := by omega
  refine ⟨vals[l], List.getElem?_eq_getElem h1, ?_⟩
  have := List.pairwise_iff_getElem.1 hs _ _ h1 h2 (by omega)
  exact ne_top_of_lt this

/-- If the infinite distance is stored, the invalid level names it. -/
theorem not_finiteLevel {K : Type*} [LinearOrder K] {vals : List (WithTop K)} {inv : ℕ}
    (hs : vals.Pairwise (· < ·)) (hinv : inv + 1 = vals.length) (htop : ⊤ ∈ vals) :
    ¬ finiteLevel vals inv := by
  rintro ⟨x, hx, hne⟩
  obtain ⟨j, hj, h⟩ := List.mem_iff_getElem.1 htop
  obtain ⟨h1, h2⟩ := List.getElem?_eq_some_iff.1 hx
  rcases Nat.lt_or_ge j inv with hlt | hge
  · have := List.pairwise_iff_getElem.1 hs _ _ hj h1 hlt
    rw [h] at this
    exact absurd this not_top_lt
  · have : j = inv := by omega
    subst this
    exact hne (by rw [← h2, h])

theorem SoundQ.mono {K : Type*} {D : LatticeData d K} {Q Q' : ℕ → Prop} {t : List (List (Entry d))}
    (h : SoundQ D Q t) (hQ : ∀ l, Q' l → Q l) : SoundQ D Q' t :=
  ⟨h.cols, h.positions, h.length, h.width, h.invalidIdx, fun r hr e he hq => h.nbr r hr e he (hQ _ hq),
    h.reg⟩

/-- The property of the specification from the entry table. -/
theorem SoundQ.sound {K : Type*} [LinearOrder K] {D : LatticeData d K} {t : List (List (Entry d))}
    (h : SoundQ D (fun l => l < D.invalidDistidx) t) (h1 : D.distvals.Pairwise (· < ·))
    (h2 : D.invalidDistidx + 1 = D.distvals.length) : D.Sound := by
  obtain ⟨w, hw⟩ := h.width
  refine ⟨⟨w, h.cols.rect h.positions h.length hw⟩, h.invalidIdx, h1, h2, ?_, ?_⟩
  · rw [h.cols.entries_eq]; exact h.nbr
  · rw [h.cols.entries_eq]; exact h.reg

/-! ## periodic boundaries -/

theorem removePeriodic_sound {K : Type*} {D D0 : LatticeData d K} {Q : ℕ → Prop}
    {t : List (List (Entry d))} (h : SoundQ D Q t) (hQ : ¬ Q D.invalidDistidx)
    (h0 : D.removePeriodic = .ok D0) : ∃ t0, SoundQ D0 Q t0 := by
  have hs := removePeriodic_sites h0
  obtain ⟨E, hE, hc, -⟩ := removePeriodic_cols h.cols
  rw [h0] at hE
  cases hE
  refine ⟨_, hc, by rw [hs.positions, hs.numSites, h.positions], ?_, ?_, ?_, ?_, ?_⟩
  · rw [List.length_map, h.length, hs.numSites]
  · obtain ⟨w, hw⟩ := h.width
    refine ⟨w, fun r hr => ?_⟩
    obtain ⟨s, hs, rfl⟩ := List.mem_map.1 hr
    rw [List.length_map, hw s hs]
  · rw [hs.invalidIdx, hs.numSites, h.invalidIdx]
  · rw [hs.numSites]
    intro r hr e he hq
    obtain ⟨s, hs, rfl⟩ := List.mem_map.1 hr
    obtain ⟨p, hp, rfl⟩ := List.mem_map.1 he
    unfold clearEntry at hq ⊢
    dsimp only at hq ⊢
    split_ifs at hq ⊢ with hper
    · exact absurd hq hQ
    · exact h.nbr s hs p hp hq
  · intro r hr e he _
    obtain ⟨s, hs, rfl⟩ := List.mem_map.1 hr
    obtain ⟨p, hp, rfl⟩ := List.mem_map.1 he
    rfl

/-- The periodic neighbours of one site are written, whatever the state of its row. -/
theorem setPeriodicSite_sound {K : Type*} [LinearOrder K] {D E : LatticeData d K} {Q : ℕ → Prop}
    {t : List (List (Entry d))} (h : SoundQ D Q t) {i : ℕ} {links : List (PLink d K)}
    (hl : ∀ l ∈ links, l.nbr < D.numSites) (hE : D.setPeriodicSite i links = .ok E) :
    ∃ t', SoundQ E Q t' := by
  have hsame := setPeriodicSite_sites hE
  have c := h.cols
  cases hr : t[i]? with
  | none =>
    have hn : D.neighbors[i]? = none := by rw [c.nbr]; simp [hr]
    unfold setPeriodicSite at hE
    rw [hn] at hE
    cases hg : D.getNeighbors i none (some false) false <;> rw [hg] at hE <;> cases hE
  | some r =>
    have hn : D.neighbors[i]? = some (r.map Entry.nbr) := by rw [c.nbr]; simp [hr]
    unfold setPeriodicSite at hE
    rw [c.getNeighbors i _ hr, hn] at hE
    dsimp only at hE
    simp only [List.length_map] at hE
    set i0 := (r.filter (D.sel i none (some false) false)).length with hi0
    split_ifs at hE with hfit h1
    · have hle : (linkEntries D.distvals (r.drop i0) links).length = links.length := by
        simp [linkEntries]; omega
      have hmap : ∀ {β : Type} (f : Entry d → β) (g : PLink d K → β),
          (∀ (o : Entry d) (l : PLink d K), f ⟨l.nbr, searchsorted D.distvals l.dist, true, l.nvec,
            writeAxes o.axes l.axes⟩ = g l) →
          (linkEntries D.distvals (r.drop i0) links).map f = links.map g := by
        intro β f g hfg
        rw [linkEntries, List.map_zipWith]
        simp only [hfg]
        exact zipWith_right_map g _ links (by rw [List.length_drop]; omega)
      have hmod : ∀ {β : Type} (f : Entry d → β) (new : List β → List β),
          (new (r.map f) = (linkEntries D.distvals (r.drop i0) links).map f) →
          modifyRow (t.map (List.map f)) i (fun r => writeSlice r i0 (new r)) =
          (modifyRow t i fun _ => writeSlice r i0 (linkEntries D.distvals (r.drop i0) links)).map
            (List.map f) := by
        intro β f new hnew
        apply modifyRow_map
        intro s hs
        rw [hr] at hs
        obtain rfl := Option.some.inj hs
        rw [writeSlice_map, hnew]
      refine ⟨_, h.modify hsame (r := r) (i0 := i0)
        (new := linkEntries D.distvals (r.drop i0) links) hr (by omega) ?_ ?_⟩
      · cases hE
        constructor
        · dsimp only; rw [c.nbr]; exact hmod _ (fun _ => _) (hmap _ _ fun _ _ => rfl).symm
        · dsimp only; rw [c.level]; exact hmod _ (fun _ => _) (hmap _ _ fun _ _ => rfl).symm
        · dsimp only; rw [c.per]; exact hmod _ (fun _ => _) (hmap _ _ fun _ _ => rfl).symm
        · dsimp only; rw [c.nvec]; exact hmod _ (fun _ => _) (hmap _ _ fun _ _ => rfl).symm
        · dsimp only; rw [c.axes]
          refine hmod _ (fun r => List.zipWith (fun old (l : PLink d K) => writeAxes old l.axes)
            (r.drop i0) links) ?_
          rw [← List.map_drop, List.zipWith_map_left, linkEntries, List.map_zipWith]
      · intro e he
        have h2 : e.nbr ∈ (linkEntries D.distvals (r.drop i0) links).map Entry.nbr :=
          List.mem_map_of_mem he
        rw [hmap _ PLink.nbr fun _ _ => rfl] at h2
        obtain ⟨l, hl1, hl2⟩ := List.mem_map.1 h2
        have h3 : e.per ∈ (linkEntries D.distvals (r.drop i0) links).map Entry.per :=
          List.mem_map_of_mem he
        rw [hmap _ (fun _ => true) fun _ _ => rfl] at h3
        obtain ⟨-, -, h4⟩ := List.mem_map.1 h3
        exact ⟨fun _ => hl2 ▸ hl l hl1, fun h5 => by rw [h5] at h4; cases h4⟩
    · cases hE
      exact ⟨t, h⟩

theorem setPeriodicLoop_sound {Q : ℕ → Prop} : ∀ (P : Lattice.PDict d ℝ) {D : LatticeData d ℝ}
    {t : List (List (Entry d))}, SoundQ D Q t → (∀ p ∈ P, ∀ l ∈ p.2, l.nbr < D.numSites) →
    ∃ t', SoundQ (Lattice.setPeriodicLoop D P).1 Q t'
  | [], D, t, h, _ => ⟨t, h⟩
  | p :: P, D, t, h, hl => by
    unfold Lattice.setPeriodicLoop
    cases hE : D.setPeriodicSite p.1 p.2 with
    | error e => exact ⟨t, h⟩
    | ok E =>
      obtain ⟨t', h'⟩ := setPeriodicSite_sound h (hl p (by simp)) hE
      dsimp only
      refine setPeriodicLoop_sound P h' ?_
      rw [(setPeriodicSite_sites hE).numSites]
      exact fun q hq => hl q (by simp [hq])

/-- All numbers collected as periodic neighbours are sites. -/
theorem pCollect_nbrs (env : Env ℝ) (S : Structure d ℝ) (A : Analysis d ℝ) {k : ℕ} (hk : 1 ≤ k)
    (maxDist : ℝ) {indices : List (Idx d)} {positions : List (Vec d ℝ)}
    (hlen : indices.length = positions.length) (vecs : List (List ℕ × (Fin d → ℤ))) :
    ∀ p ∈ Lattice.pCollect env S A k maxDist indices positions vecs, ∀ l ∈ p.2,
      l.nbr < indices.length := by
  have hext : ∀ (P : Lattice.PDict d ℝ) (i : ℕ) (ls : List (PLink d ℝ)),
      (∀ p ∈ P, ∀ l ∈ p.2, l.nbr < indices.length) → (∀ l ∈ ls, l.nbr < indices.length) →
      ∀ p ∈ P.extend i ls, ∀ l ∈ p.2, l.nbr < indices.length := by
    intro P i ls
    induction P with
    | nil =>
      intro _ h2 p hp
      rw [List.mem_singleton.1 hp]
      exact h2
    | cons q P ih =>
      intro h1 h2 p hp
      obtain ⟨j, ms⟩ := q
      unfold Lattice.PDict.extend at hp
      split_ifs at hp
      · rcases List.mem_cons.1 hp with rfl | hp
        · intro l hl
          rcases List.mem_append.1 hl with hl | hl
          · exact h1 (j, ms) List.mem_cons_self l hl
          · exact h2 l hl
        · exact h1 p (by simp [hp])
      · rcases List.mem_cons.1 hp with rfl | hp
        · exact h1 _ (by simp)
        · exact ih (fun p hp => h1 p (by simp [hp])) h2 p hp
  have hrow : ∀ (axes : List ℕ) (nvec : Fin d → ℤ) (P : Lattice.PDict d ℝ) (site : ℕ)
      (row : List (ℕ × WithTop ℝ)), site < indices.length →
      (∀ p ∈ P, ∀ l ∈ p.2, l.nbr < indices.length) →
      ∀ p ∈ Lattice.pRow indices.length axes nvec P site row, ∀ l ∈ p.2, l.nbr < indices.length := by
    intro axes nvec P site row hsite hP
    have hfold : ∀ (valid : List (ℕ × WithTop ℝ)) (P : Lattice.PDict d ℝ),
        (∀ p ∈ P, ∀ l ∈ p.2, l.nbr < indices.length) →
        ∀ p ∈ valid.foldl (fun P p => Lattice.PDict.extend P p.1 [⟨site, p.2, -nvec, axes⟩]) P,
          ∀ l ∈ p.2, l.nbr < indices.length := by
      intro valid
      induction valid with
      | nil => intro P h; exact h
      | cons a v ih =>
        intro P h
        rw [List.foldl_cons]
        refine ih _ (hext P _ _ h ?_)
        intro l hl
        rw [List.mem_singleton.1 hl]
        exact hsite
    unfold Lattice.pRow
    split_ifs
    · refine hfold _ _ (hext P _ _ hP ?_)
      intro l hl
      obtain ⟨q, hq, rfl⟩ := List.mem_map.1 hl
      simpa using (List.mem_filter.1 hq).2
    · exact hP
  unfold Lattice.pCollect
  have hin : ∀ (v : List ℕ × (Fin d → ℤ)) (l : List (List (ℕ × WithTop ℝ) × ℕ))
      (P : Lattice.PDict d ℝ), (∀ r ∈ l, r.2 < indices.length) →
      (∀ p ∈ P, ∀ l ∈ p.2, l.nbr < indices.length) →
      ∀ p ∈ l.foldl (fun P r => Lattice.pRow indices.length v.1 v.2 P r.2 r.1) P, ∀ l ∈ p.2,
        l.nbr < indices.length := by
    intro v l
    induction l with
    | nil => intro P _ h; exact h
    | cons r l ih =>
      intro P h1 h2
      rw [List.foldl_cons]
      exact ih _ (fun q hq => h1 q (List.mem_cons_of_mem _ hq)) (hrow _ _ _ _ _ (h1 r (by simp)) h2)
  have hout : ∀ (vs : List (List ℕ × (Fin d → ℤ))) (P : Lattice.PDict d ℝ),
      (∀ p ∈ P, ∀ l ∈ p.2, l.nbr < indices.length) →
      ∀ p ∈ vs.foldl (fun P v =>
        (Lattice.pTable env S A k maxDist indices positions v.2).zipIdx.foldl
          (fun P r => Lattice.pRow indices.length v.1 v.2 P r.2 r.1) P) P, ∀ l ∈ p.2,
        l.nbr < indices.length := by
    intro vs
    induction vs with
    | nil => intro P h; exact h
    | cons v vs ih =>
      intro P h
      rw [List.foldl_cons]
      refine ih _ (hin v _ P ?_ h)
      intro r hr
      obtain ⟨row, i⟩ := r
      have := (List.getElem?_eq_some_iff.1 (List.mem_zipIdx_iff_getElem?.1 hr)).1
      rw [(pTable_tableOK env S A hk maxDist hlen v.2).2] at this
      exact this
  exact hout vecs [] (by simp)

/-- The periodic neighbours found are sites. -/
theorem computePneighbors_nbrs {env : Env ℝ} {S : Structure d ℝ} {D : LatticeData d ℝ}
    {axes : List ℕ} {primitive : Bool} {P : Lattice.PDict d ℝ}
    (hlen : D.positions.length = D.numSites)
    (h : Lattice.computePneighbors env S D axes primitive = .ok P) :
    ∀ p ∈ P, ∀ l ∈ p.2, l.nbr < D.numSites := by
  unfold Lattice.computePneighbors at h
  split at h
  · cases h
  · rename_i A hA
    split at h
    · cases h
    · rename_i k r hq
      split at h
      · cases h
      · rename_i vecs hv
        split at h
        · cases h
        · rename_i Q hQ
          cases h
          intro p hp l hl
          have hpQ := (List.mem_filter.1 hp).1
          obtain ⟨q, hq', hpq⟩ := forall₂_mem (mapM_forall₂ hQ) hpQ
          unfold Lattice.pSite at hpq
          split at hpq
          · cases hpq
          · cases hpq
            obtain ⟨l', hl', e⟩ := List.mem_map.1 (Lattice.mem_pFinal hl).2
            rw [← e]
            exact pCollect_nbrs env S A (queryParams_pos hq) r hlen.symm vecs q hq' l' hl'

/-- `set_periodic` keeps the tables fitting together, whether it succeeds or raises. -/
theorem setPeriodic_sound (env : Env ℝ) {L : Lattice d ℝ} {D E : LatticeData d ℝ} {Q : ℕ → Prop}
    (hD : L.data = some D) {t : List (List (Entry d))} (h : SoundQ D Q t)
    (hQ : ¬ Q D.invalidDistidx) (axis : PAxis) (hE : (L.setPeriodic env axis).1.data = some E) :
    ∃ t', SoundQ E Q t' := by
  have haxes : ∀ (L0 : Lattice d ℝ) (D0 : LatticeData d ℝ) (t0 : List (List (Entry d)))
      (axes : List ℕ), L0.data = some D0 → SoundQ D0 Q t0 → ¬ Q D0.invalidDistidx →
      (Lattice.setPeriodicAxes env L0 D0 axes).1.data = some E → ∃ t', SoundQ E Q t' := by
    intro L0 D0 t0 axes hL0 h0 hQ0 hE
    unfold Lattice.setPeriodicAxes at hE
    split at hE
    · rw [hL0] at hE; cases hE; exact ⟨t0, h0⟩
    · rename_i P hP
      split_ifs at hE
      · rw [hL0] at hE; cases hE; exact ⟨t0, h0⟩
      · split at hE
        · rw [hL0] at hE; cases hE; exact ⟨t0, h0⟩
        · rename_i D1 h1
          obtain ⟨t1, hs1⟩ := removePeriodic_sound h0 hQ0 h1
          have hl := setPeriodicLoop_sound P hs1 (by
            rw [(removePeriodic_sites h1).numSites]
            exact computePneighbors_nbrs h0.positions hP)
          split at hE
          · rename_i E' e he
            rw [he] at hl
            cases hE
            exact hl
          · rename_i E' he
            rw [he] at hl
            cases hE
            exact hl
  unfold Lattice.setPeriodic at hE
  split at hE
  · rw [hD] at hE; cases hE; exact ⟨t, h⟩
  · rw [hD] at hE
    dsimp only at hE
    split at hE
    · rw [hD] at hE; cases hE; exact ⟨t, h⟩
    · rename_i D0 h0
      obtain ⟨t0, hs0⟩ := removePeriodic_sound h hQ h0
      have hQ0 : ¬ Q D0.invalidDistidx := by rw [(removePeriodic_sites h0).invalidDistidx]; exact hQ
      split at hE
      · cases hE; exact ⟨t0, hs0⟩
      · exact haxes _ D0 t0 _ rfl hs0 hQ0 hE
      · exact haxes _ D0 t0 _ rfl hs0 hQ0 hE

end Lattpy
