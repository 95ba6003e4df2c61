import Verif.Lemmas.Data

/-! Helper lemmas for the operations of `data.py` that change the tables. -/

set_option autoImplicit false
set_option linter.unusedSectionVars false

namespace Lattpy

/-! ## relabelling -/

theorem relabel_foldl (n : ℕ) : ∀ (l : List ℕ) (off init : ℕ), l.Nodup →
    (n ∉ l → (l.zipIdx off).foldl (fun m p => if p.1 = n then p.2 else m) init = init) ∧
    ∀ k, l[k]? = some n →
      (l.zipIdx off).foldl (fun m p => if p.1 = n then p.2 else m) init = off + k
  | [], off, init, _ => by simp
  | a :: l, off, init, hnd => by
    rw [List.nodup_cons] at hnd
    simp only [List.zipIdx_cons, List.foldl_cons]
    constructor
    · intro hn
      simp only [List.mem_cons, not_or] at hn
      rw [if_neg (Ne.symm hn.1)]
      exact (relabel_foldl n l (off + 1) init hnd.2).1 hn.2
    · intro k hk
      cases k with
      | zero =>
        simp only [List.getElem?_cons_zero, Option.some.injEq] at hk
        subst hk
        rw [if_pos rfl, (relabel_foldl a l (off + 1) off hnd.2).1 hnd.1]; rfl
      | succ k =>
        simp only [List.getElem?_cons_succ] at hk
        rw [(relabel_foldl n l (off + 1) _ hnd.2).2 k hk]; omega

theorem relabel_of_getElem? {perm : List ℕ} (h : perm.Nodup) {k n : ℕ} (hk : perm[k]? = some n) :
    LatticeData.relabel perm n = k := by
  have := (relabel_foldl n perm 0 n h).2 k hk
  simpa [LatticeData.relabel] using this

theorem relabel_of_not_mem {perm : List ℕ} (h : perm.Nodup) {n : ℕ} (hk : n ∉ perm) :
    LatticeData.relabel perm n = n := (relabel_foldl n perm 0 n h).1 hk

theorem gather_of_perm_getElem? {α : Type*} (l : List α) {N : ℕ} (hN : l.length = N)
    {perm : List ℕ} (h : perm.Perm (List.range N)) {k i : ℕ} (hk : perm[k]? = some i) :
    (gather l perm)[k]? = l[i]? := by
  rw [gather_getElem? _ _ (by intro j hj; have := h.mem_iff.1 hj; simp at this; omega), hk]
  rfl

theorem gather_perm_length {α : Type*} (l : List α) {N : ℕ} (hN : l.length = N)
    {perm : List ℕ} (h : perm.Perm (List.range N)) : (gather l perm).length = N := by
  rw [gather_length _ _ (by intro j hj; have := h.mem_iff.1 hj; simp at this; omega),
    h.length_eq, List.length_range]

theorem mem_of_gather {α : Type*} {l : List α} {perm : List ℕ} {x : α} (h : x ∈ gather l perm) :
    x ∈ l := by
  unfold gather at h
  obtain ⟨i, _, hi⟩ := List.mem_filterMap.1 h
  exact List.mem_of_getElem? hi

/-! ## slices -/

theorem writeSlice_map {α β : Type*} (f : α → β) (r : List α) (i0 : ℕ) (new : List α) :
    (writeSlice r i0 new).map f = writeSlice (r.map f) i0 (new.map f) := by
  simp [writeSlice, List.map_take, List.map_drop]

theorem writeSlice_append {α : Type*} (a b new : List α) :
    writeSlice (a ++ b) a.length new = a ++ new ++ b.drop new.length := by
  unfold writeSlice
  rw [List.take_left, ← List.drop_drop, List.drop_left]

theorem writeSlice_length {α : Type*} (r : List α) (i0 : ℕ) (new : List α)
    (h : i0 + new.length ≤ r.length) : (writeSlice r i0 new).length = r.length := by
  simp [writeSlice]; omega

theorem modifyRow_map {α β : Type*} (F : α → β) (t : List α) (i : ℕ) (G : α → α) (g : β → β)
    (h : ∀ r, t[i]? = some r → F (G r) = g (F r)) :
    modifyRow (t.map F) i g = (modifyRow t i G).map F := by
  apply List.ext_getElem?
  intro k
  unfold modifyRow
  rw [List.getElem?_modify, List.getElem?_map, List.getElem?_map, List.getElem?_modify]
  by_cases hk : i = k
  · subst hk
    cases hr : t[i]? with
    | none => simp
    | some r => simp [h r hr]
  · simp [hk]

theorem modifyRow_getElem?_self {α : Type*} (t : List α) (i : ℕ) (G : α → α) :
    (modifyRow t i G)[i]? = t[i]?.map G := by
  unfold modifyRow; rw [List.getElem?_modify]; simp

theorem modifyRow_getElem?_ne {α : Type*} (t : List α) {i k : ℕ} (G : α → α) (h : k ≠ i) :
    (modifyRow t i G)[k]? = t[k]? := by
  unfold modifyRow; rw [List.getElem?_modify]; simp [Ne.symm h]

theorem modifyRow_length {α : Type*} (t : List α) (i : ℕ) (G : α → α) :
    (modifyRow t i G).length = t.length := by simp [modifyRow]

namespace LatticeData
variable {d : ℕ} {K : Type*}

/-- Rectangular tables from an entry table. -/
theorem Cols.rect {D : LatticeData d K} {t : List (List (Entry d))} (h : D.Cols t) {w : ℕ}
    (hp : D.positions.length = D.numSites) (hl : t.length = D.numSites)
    (hw : ∀ r ∈ t, r.length = w) : D.Rect w := by
  have key : ∀ {β : Type} (f : Entry d → β), (t.map (List.map f)).length = D.numSites ∧
      ∀ r ∈ t.map (List.map f), r.length = w := by
    intro β f
    refine ⟨by simpa using hl, ?_⟩
    intro r hr
    obtain ⟨q, hq, rfl⟩ := List.mem_map.1 hr
    simpa using hw q hq
  exact ⟨hp, h.nbr ▸ key _, h.level ▸ key _, h.per ▸ key _, h.nvec ▸ key _, h.axes ▸ key _⟩

/-! ## reorder -/

theorem reorder_cols {D : LatticeData d K} {w : ℕ} (h : D.Rect w) (perm : List ℕ) :
    (D.reorder perm).Cols ((gather D.entries perm).map
      (List.map fun e => { e with nbr := relabel perm e.nbr })) := by
  have c := h.cols
  constructor
  · simp [reorder, c.nbr, gather_map, Function.comp_def]
  · simp [reorder, c.level, gather_map, Function.comp_def]
  · simp [reorder, c.per, gather_map, Function.comp_def]
  · simp [reorder, c.nvec, gather_map, Function.comp_def]
  · simp [reorder, c.axes, gather_map, Function.comp_def]

/-! ## sort_neighbors -/

theorem sortNeighbors_cols [LinearOrder K] (env : Env K) {D : LatticeData d K}
    {t : List (List (Entry d))} (c : D.Cols t) :
    (D.sortNeighbors env).Cols (t.map fun r =>
      gather r (env.argsort (r.map fun e => D.distvals.getD e.level ⊤))) := by
  have key : ∀ {β : Type} (f : Entry d → β),
      List.zipWith gather (t.map (List.map f)) (D.distances.map fun r =>
        env.argsort (r.map fun x => D.distvals.getD x ⊤)) =
      (t.map fun r => gather r (env.argsort (r.map fun e => D.distvals.getD e.level ⊤))).map
        (List.map f) := by
    intro β f
    rw [c.level, List.map_map, List.zipWith_map, List.zipWith_self, List.map_map]
    apply List.map_congr_left
    intro r _
    simp [gather_map, Function.comp_def]
  constructor
  · simp only [sortNeighbors]; rw [c.nbr]; exact key _
  · simp only [sortNeighbors]; conv_lhs => arg 2; rw [c.level]
    exact key _
  · simp only [sortNeighbors]; rw [c.per]; exact key _
  · simp only [sortNeighbors]; rw [c.nvec]; exact key _
  · simp only [sortNeighbors]; rw [c.axes]; exact key _

/-! ## periodic neighbours -/

/-- An entry after `remove_periodic`. -/
def clearEntry (inv invD : ℕ) (e : Entry d) : Entry d :=
  ⟨if e.per then inv else e.nbr, if e.per then invD else e.level, false, 0, List.replicate d d⟩

theorem removePeriodic_cols {D : LatticeData d K} {t : List (List (Entry d))} (c : D.Cols t) :
    ∃ E, D.removePeriodic = .ok E ∧
      E.Cols (t.map (List.map (clearEntry D.invalidIdx D.invalidDistidx))) ∧
      E.indices = D.indices ∧ E.positions = D.positions ∧ E.distvals = D.distvals ∧
      E.invalidIdx = D.invalidIdx ∧ E.invalidDistidx = D.invalidDistidx ∧ E.dmap = D.dmap := by
  unfold removePeriodic
  rw [if_pos (by rw [c.per, c.nbr]; simp)]
  refine ⟨_, rfl, ?_, rfl, rfl, rfl, rfl, rfl, rfl⟩
  constructor <;>
    simp [c.nbr, c.level, c.per, c.nvec, c.axes, List.zipWith_map, List.zipWith_self,
      clearEntry, Function.comp_def]

/-- The entries written by `set_periodic` for one site. -/
def linkEntries [LinearOrder K] (distvals : List (WithTop K)) (old : List (Entry d))
    (links : List (PLink d K)) : List (Entry d) :=
  List.zipWith (fun o l => ⟨l.nbr, searchsorted distvals l.dist, true, l.nvec,
    writeAxes o.axes l.axes⟩) old links

theorem zipWith_right_map {α β γ : Type*} (g : β → γ) : ∀ (a : List α) (b : List β),
    b.length ≤ a.length → List.zipWith (fun _ y => g y) a b = b.map g
  | _, [], _ => by simp
  | [], _ :: _, h => by simp at h
  | _ :: a, y :: b, h => by
    simp only [List.length_cons, Nat.add_le_add_iff_right] at h
    simp [zipWith_right_map g a b h]

theorem setPeriodicSite_cols [LinearOrder K] {D : LatticeData d K} {t : List (List (Entry d))}
    (c : D.Cols t) (i : ℕ) (a b : List (Entry d)) (hr : t[i]? = some (a ++ b))
    (ha : ∀ e ∈ a, e.level < D.invalidDistidx ∧ e.per = false)
    (hb : ∀ e ∈ b, D.invalidDistidx ≤ e.level ∨ e.per = true)
    (links : List (PLink d K)) (hfit : links.length ≤ b.length) :
    ∃ E, D.setPeriodicSite i links = .ok E ∧
      E.Cols (modifyRow t i fun _ =>
        a ++ linkEntries D.distvals b links ++ b.drop links.length) ∧
      E.indices = D.indices ∧ E.positions = D.positions ∧ E.distvals = D.distvals ∧
      E.invalidIdx = D.invalidIdx ∧ E.invalidDistidx = D.invalidDistidx ∧ E.dmap = D.dmap := by
  have hreg : D.getNeighbors i none (some false) false = .ok (a.map Entry.nbr) := by
    rw [c.getNeighbors i _ hr, List.filter_append]
    have h1 : a.filter (D.sel i none (some false) false) = a := by
      rw [List.filter_eq_self]
      intro e he
      simp [sel, (ha e he).1, (ha e he).2]
    have h2 : b.filter (D.sel i none (some false) false) = [] := by
      rw [List.filter_eq_nil_iff]
      intro e he
      rcases hb e he with h | h
      · simp [sel, not_lt.2 h]
      · simp [sel, h]
    rw [h1, h2, List.append_nil]
  have hn : D.neighbors[i]? = some ((a ++ b).map Entry.nbr) := by rw [c.nbr]; simp [hr]
  unfold setPeriodicSite
  rw [hreg, hn]
  simp only [List.length_map, List.length_append]
  rw [if_pos (by omega)]
  refine ⟨_, rfl, ?_, rfl, rfl, rfl, rfl, rfl, rfl⟩
  have hle : (linkEntries D.distvals b links).length = links.length := by
    simp [linkEntries, hfit]
  have hrow : a ++ linkEntries D.distvals b links ++ b.drop links.length =
      writeSlice (a ++ b) a.length (linkEntries D.distvals b links) := by
    rw [writeSlice_append, hle]
  have hmap : ∀ {β : Type} (f : Entry d → β) (g : PLink d K → β),
      (∀ (o : Entry d) (l : PLink d K), f ⟨l.nbr, searchsorted D.distvals l.dist, true, l.nvec,
        writeAxes o.axes l.axes⟩ = g l) →
      (linkEntries D.distvals b links).map f = links.map g := by
    intro β f g hfg
    rw [linkEntries, List.map_zipWith]
    simp only [hfg]
    exact zipWith_right_map g b links hfit
  have hmod : ∀ {β : Type} (f : Entry d → β) (new : List β → List β),
      (new ((a ++ b).map f) = (linkEntries D.distvals b links).map f) →
      modifyRow (t.map (List.map f)) i (fun r => writeSlice r a.length (new r)) =
      (modifyRow t i fun _ => a ++ linkEntries D.distvals b links ++ b.drop links.length).map
        (List.map f) := by
    intro β f new hnew
    apply modifyRow_map
    intro r hr'
    rw [hr] at hr'
    obtain rfl := Option.some.inj hr'
    rw [hrow, writeSlice_map, hnew]
  constructor
  · rw [c.nbr]; exact hmod _ (fun _ => _) (hmap _ _ fun _ _ => rfl).symm
  · rw [c.level]; exact hmod _ (fun _ => _) (hmap _ _ fun _ _ => rfl).symm
  · rw [c.per]; exact hmod _ (fun _ => _) (hmap _ _ fun _ _ => rfl).symm
  · rw [c.nvec]; exact hmod _ (fun _ => _) (hmap _ _ fun _ _ => rfl).symm
  · rw [c.axes]
    refine hmod _ (fun r => List.zipWith (fun old (l : PLink d K) => writeAxes old l.axes)
      (r.drop a.length) links) ?_
    rw [List.map_append, List.drop_left' (by simp), List.zipWith_map_left, linkEntries,
      List.map_zipWith]

/-- All sites of `set_periodic`. -/
theorem setPeriodic_loop [LinearOrder K] (items : List (ℕ × List (PLink d K))) :
    ∀ {D : LatticeData d K} {t : List (List (Entry d))}, D.Cols t →
    (items.map Prod.fst).Nodup →
    (∀ p ∈ items, ∃ a b, t[p.1]? = some (a ++ b) ∧
      (∀ e ∈ a, e.level < D.invalidDistidx ∧ e.per = false) ∧
      (∀ e ∈ b, D.invalidDistidx ≤ e.level ∨ e.per = true) ∧ p.2.length ≤ b.length) →
    ∃ E t', items.foldlM (fun E p => E.setPeriodicSite p.1 p.2) D = .ok E ∧ E.Cols t' ∧
      t'.length = t.length ∧
      (∀ i, i ∉ items.map Prod.fst → t'[i]? = t[i]?) ∧
      (∀ p ∈ items, ∀ a b, t[p.1]? = some (a ++ b) →
        (∀ e ∈ a, e.level < D.invalidDistidx ∧ e.per = false) →
        (∀ e ∈ b, D.invalidDistidx ≤ e.level ∨ e.per = true) → p.2.length ≤ b.length →
        t'[p.1]? = some (a ++ linkEntries D.distvals b p.2 ++ b.drop p.2.length)) ∧
      E.indices = D.indices ∧ E.positions = D.positions ∧ E.distvals = D.distvals ∧
      E.invalidIdx = D.invalidIdx ∧ E.invalidDistidx = D.invalidDistidx ∧ E.dmap = D.dmap := by
  induction items with
  | nil =>
    intro D t c _ _
    exact ⟨D, t, rfl, c, rfl, fun _ _ => rfl, by simp, rfl, rfl, rfl, rfl, rfl, rfl⟩
  | cons p items ih =>
    intro D t c hnd hfit
    rw [List.map_cons, List.nodup_cons] at hnd
    obtain ⟨a, b, hr, ha, hb, hl⟩ := hfit p (by simp)
    obtain ⟨E1, hE1, c1, s1, s2, s3, s4, s5, s6⟩ :=
      setPeriodicSite_cols c p.1 a b hr ha hb p.2 hl
    have hne : ∀ q ∈ items, q.1 ≠ p.1 := by
      intro q hq heq
      exact hnd.1 (heq ▸ List.mem_map_of_mem hq)
    obtain ⟨E, t', hE, c', l', o', n', u1, u2, u3, u4, u5, u6⟩ := ih c1 hnd.2 (by
      intro q hq
      obtain ⟨a', b', h1, h2, h3, h4⟩ := hfit q (by simp [hq])
      refine ⟨a', b', ?_, by rw [s5]; exact h2, by rw [s5]; exact h3, h4⟩
      rw [modifyRow_getElem?_ne _ _ (hne q hq)]; exact h1)
    refine ⟨E, t', ?_, c', by rw [l', modifyRow_length], ?_, ?_, u1.trans s1, u2.trans s2,
      u3.trans s3, u4.trans s4, u5.trans s5, u6.trans s6⟩
    · rw [List.foldlM_cons, hE1]; exact hE
    · intro i hi
      simp only [List.map_cons, List.mem_cons, not_or] at hi
      rw [o' i hi.2, modifyRow_getElem?_ne _ _ hi.1]
    · intro q hq a' b' h1 h2 h3 h4
      rcases List.mem_cons.1 hq with rfl | hq
      · rw [o' _ hnd.1, modifyRow_getElem?_self, hr]
        simp only [Option.map_some]
        -- the two decompositions agree
        have hab : a' = a ∧ b' = b := by
          have heq : a' ++ b' = a ++ b := Option.some.inj (h1.symm.trans hr)
          have hlen : a'.length = a.length := by
            have f1 : ∀ (x y : List (Entry d)),
                (∀ e ∈ x, e.level < D.invalidDistidx ∧ e.per = false) →
                (∀ e ∈ y, D.invalidDistidx ≤ e.level ∨ e.per = true) →
                (x ++ y).filter (fun e => decide (e.level < D.invalidDistidx) && !e.per) = x := by
              intro x y hx hy
              rw [List.filter_append, List.filter_eq_self.2, List.filter_eq_nil_iff.2,
                List.append_nil]
              · intro e he
                rcases hy e he with h | h
                · simp [not_lt.2 h]
                · simp [h]
              · intro e he
                simp [(hx e he).1, (hx e he).2]
            have e1 := f1 a' b' h2 h3
            have e2 := f1 a b ha hb
            rw [heq, e2] at e1
            rw [e1]
          exact List.append_inj heq hlen
        rw [hab.1, hab.2]
      · have := n' q hq a' b' (by rw [modifyRow_getElem?_ne _ _ (hne q hq)]; exact h1)
          (by rw [s5]; exact h2) (by rw [s5]; exact h3) h4
        rw [this, s3]

end LatticeData
end Lattpy
