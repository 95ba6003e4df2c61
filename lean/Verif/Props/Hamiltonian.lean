import Verif.Model.Hamiltonian
import Verif.Lemmas.MapReady
import Verif.Props.Access
import Verif.Props.DataMap
import Verif.Props.PeriodicSmall
import Verif.Props.PresetBuild

/-!
# C110: Hamiltonians assembled from the data map
-/

set_option autoImplicit false
set_option linter.unusedSectionVars false

namespace Lattpy

open DataMap Structure World Preset

variable {d : ℕ} {K : Type*}

/-! ## spec -/

/-- The assignment `p` is made for the sites of atom `alpha`. -/
def ForSite {β : Type*} (alpha : ℕ) (p : Mask × β) : Prop :=
  p.1 = .onsite none ∨ p.1 = .onsite (some (alpha : ℤ))

/-- The assignment `p` is made for the links of level `n`. -/
def ForLink {β : Type*} (n : ℕ) (p : Mask × β) : Prop :=
  p.1 = .hopping none ∨ p.1 = .hopping (some (n : ℤ))

open Classical in
/-- The value of the last assignment of a kind, zero if there is none. -/
noncomputable def lastValue {β : Type*} [Zero β] (kind : Mask × β → Prop)
    (assigns : List (Mask × β)) : β :=
  assigns.foldl (fun x p => if kind p then p.2 else x) 0

/-- The masks are used as documented: atoms and levels are counted from zero. -/
def Documented {β : Type*} (assigns : List (Mask × β)) : Prop :=
  ∀ p ∈ assigns, (∀ a, p.1 = .onsite (some a) → 0 ≤ a) ∧ ∀ l, p.1 = .hopping (some l) → 0 ≤ l

/-! ## lemmas -/

/-- An element with mark `x` is selected. -/
def Mask.covers (x : ℤ) : Mask → Bool
  | .onsite none => decide (x < 0)
  | .onsite (some a) => decide (x = -a - 1)
  | .hopping none => decide (0 ≤ x)
  | .hopping (some l) => decide (x = l)

theorem mask_get (m : DataMap) (k : Mask) : k.get m = m.map.map fun x => Mask.covers x k := by
  rcases k with (_ | a) | (_ | l) <;> rfl

/-- The value given to the elements with mark `x`. -/
def markValue {β : Type*} [Zero β] (assigns : List (Mask × β)) (x : ℤ) : β :=
  assigns.foldl (fun v p => if Mask.covers x p.1 then p.2 else v) 0

theorem fill_eq {β : Type*} [Zero β] (m : DataMap) (hlen : m.map.length = m.size)
    (assigns : List (Mask × β)) : m.fill assigns = .ok (m.map.map (markValue assigns)) := by
  have gen : ∀ (l : List (Mask × β)) (f : ℤ → β),
      l.foldlM (fun data p => maskSet data (p.1.get m) p.2) (m.map.map f) =
        (.ok (m.map.map fun x => l.foldl (fun v p => if Mask.covers x p.1 then p.2 else v) (f x)) :
          Except PyErr (List β)) := by
    intro l
    induction l with
    | nil => intro f; rfl
    | cons p l ih =>
      intro f
      rw [List.foldlM_cons]
      have : maskSet (m.map.map f) (p.1.get m) p.2 =
          .ok (m.map.map fun x => if Mask.covers x p.1 then p.2 else f x) := by
        unfold maskSet
        rw [mask_get, if_pos (by simp), List.zipWith_map, List.zipWith_self]
      rw [this]
      exact ih _
  have hz : (m.zeros : List β) = m.map.map fun _ => 0 := by
    unfold DataMap.zeros
    rw [List.map_const', hlen]
  unfold DataMap.fill
  rw [hz, gen]
  rfl

theorem markValue_site {β : Type*} [Zero β] {assigns : List (Mask × β)} (h : Documented assigns)
    (a : ℕ) : markValue assigns (-(a : ℤ) - 1) = lastValue (ForSite a) assigns := by
  unfold markValue lastValue
  suffices ∀ (l : List (Mask × β)) (v : β), (∀ p ∈ l, p ∈ assigns) →
      l.foldl (fun v p => if Mask.covers (-(a : ℤ) - 1) p.1 then p.2 else v) v =
        l.foldl (fun x p => @ite _ (ForSite a p) (Classical.propDecidable _) p.2 x) v from
    this assigns 0 fun p hp => hp
  intro l
  induction l with
  | nil => intro v _; rfl
  | cons p l ih =>
    intro v hl
    rw [List.foldl_cons, List.foldl_cons]
    have hp := h p (hl p (by simp))
    have : (Mask.covers (-(a : ℤ) - 1) p.1 = true) = ForSite a p := by
      unfold ForSite
      apply propext
      obtain ⟨k, v⟩ := p
      rcases k with (_ | b) | (_ | b)
      · simp [Mask.covers]; omega
      · simp [Mask.covers]; omega
      · simp [Mask.covers]; omega
      · have := hp.2 b rfl
        simp [Mask.covers]
        omega
    have e : (if Mask.covers (-(a : ℤ) - 1) p.1 then p.2 else v) =
        @ite _ (ForSite a p) (Classical.propDecidable _) p.2 v := by
      by_cases hk : ForSite a p
      · rw [if_pos hk, if_pos (this.symm ▸ hk)]
      · rw [if_neg hk, if_neg (fun hc => hk (this ▸ hc))]
    rw [e]
    exact ih _ fun p hp => hl p (List.mem_cons_of_mem _ hp)

theorem markValue_link {β : Type*} [Zero β] {assigns : List (Mask × β)} (h : Documented assigns)
    (n : ℕ) : markValue assigns (n : ℤ) = lastValue (ForLink n) assigns := by
  unfold markValue lastValue
  suffices ∀ (l : List (Mask × β)) (v : β), (∀ p ∈ l, p ∈ assigns) →
      l.foldl (fun v p => if Mask.covers (n : ℤ) p.1 then p.2 else v) v =
        l.foldl (fun x p => @ite _ (ForLink n p) (Classical.propDecidable _) p.2 x) v from
    this assigns 0 fun p hp => hp
  intro l
  induction l with
  | nil => intro v _; rfl
  | cons p l ih =>
    intro v hl
    rw [List.foldl_cons, List.foldl_cons]
    have hp := h p (hl p (by simp))
    have : (Mask.covers (n : ℤ) p.1 = true) = ForLink n p := by
      unfold ForLink
      apply propext
      obtain ⟨k, v⟩ := p
      rcases k with (_ | b) | (_ | b)
      · simp [Mask.covers]
      · have := hp.1 b rfl
        simp [Mask.covers]
        omega
      · simp [Mask.covers]
      · simp [Mask.covers]
        omega
    have e : (if Mask.covers (n : ℤ) p.1 then p.2 else v) =
        @ite _ (ForLink n p) (Classical.propDecidable _) p.2 v := by
      by_cases hk : ForLink n p
      · rw [if_pos hk, if_pos (this.symm ▸ hk)]
      · rw [if_neg hk, if_neg (fun hc => hk (this ▸ hc))]
    rw [e]
    exact ih _ fun p hp => hl p (List.mem_cons_of_mem _ hp)

/-- An entry of the matrix as a sum over the elements of the map. -/
theorem csr_marks {β : Type*} [AddCommMonoid β] (m : DataMap) (f : ℤ → β) (i j : ℕ) :
    m.csrEntry (m.map.map f) i j =
      (((m.map.zip m.indices).filter fun p => decide (p.2 = (i, j))).map fun p => f p.1).sum := by
  unfold DataMap.csrEntry
  congr 1
  generalize m.map = a
  generalize m.indices = b
  induction a generalizing b with
  | nil => simp
  | cons x a ih =>
    cases b with
    | nil => simp
    | cons y b =>
      by_cases h : y = (i, j)
      · simp [h, ih]
      · simp [h, ih]

theorem level_sum {β : Type*} [AddCommMonoid β] (f : ℕ → β) (inv j : ℕ) (r : List (Entry d)) :
    ((r.filter fun e => decide (e.level < inv ∧ e.nbr = j)).map fun e => f e.level).sum =
      ∑ n ∈ Finset.range inv,
        ((r.filter fun e => decide (e.level = n)).map Entry.nbr).count j • f n := by
  induction r with
  | nil => simp
  | cons e r ih =>
    have h1 : ∀ n, (((e :: r).filter fun e => decide (e.level = n)).map Entry.nbr).count j • f n =
        (if n = e.level then (if e.nbr = j then f n else 0) else 0) +
          ((r.filter fun e => decide (e.level = n)).map Entry.nbr).count j • f n := by
      intro n
      by_cases h : e.level = n
      · rw [List.filter_cons_of_pos (by simpa using h), List.map_cons, List.count_cons, if_pos h.symm]
        by_cases hj : e.nbr = j
        · simp [hj, add_smul, add_comm]
        · simp [hj]
      · rw [List.filter_cons_of_neg (by simpa using h), if_neg (Ne.symm h), zero_add]
    rw [Finset.sum_congr rfl fun n _ => h1 n, Finset.sum_add_distrib, ← ih, Finset.sum_ite_eq']
    by_cases h : e.level < inv ∧ e.nbr = j
    · rw [List.filter_cons_of_pos (by simpa using h), List.map_cons, List.sum_cons,
        if_pos (by simpa using h.1), if_pos h.2]
    · rw [List.filter_cons_of_neg (by simpa using h)]
      by_cases h' : e.level < inv
      · rw [if_pos (by simpa using h'), if_neg (fun hj => h ⟨h', hj⟩), zero_add]
      · rw [if_neg (by simpa using h'), zero_add]

theorem filter_range_eq {i n : ℕ} (h : i < n) : (List.range n).filter (fun k => decide (k = i)) = [i] := by
  have hn : ((List.range n).filter fun k => decide (k = i)).Nodup := List.nodup_range.filter _
  have hm : ∀ k, k ∈ (List.range n).filter (fun k => decide (k = i)) ↔ k ∈ [i] := by
    intro k
    simp only [List.mem_filter, List.mem_range, decide_eq_true_eq, List.mem_singleton]
    constructor
    · exact fun h => h.2
    · rintro rfl
      exact ⟨h, rfl⟩
  exact List.perm_singleton.1 ((List.perm_ext_iff_of_nodup hn (List.nodup_singleton i)).2 hm)

theorem flatMap_range_eq {γ : Type*} (g : ℕ → List γ) (p : γ → Bool) {i n : ℕ} (h : i < n)
    (hp : ∀ k ≠ i, ∀ x ∈ g k, p x = false) :
    ((List.range n).flatMap g).filter p = (g i).filter p := by
  have gen : ∀ l : List ℕ, l.Nodup → (i ∈ l → (l.flatMap g).filter p = (g i).filter p) ∧
      (i ∉ l → (l.flatMap g).filter p = []) := by
    intro l
    induction l with
    | nil => simp
    | cons k l ih =>
      intro hn
      obtain ⟨h1, h2⟩ := List.nodup_cons.1 hn
      rw [List.flatMap_cons, List.filter_append]
      have hk0 : k ≠ i → (g k).filter p = [] := fun hk =>
        List.filter_eq_nil_iff.2 fun x hx => by simp [hp k hk x hx]
      constructor
      · intro hi
        by_cases hk : k = i
        · subst hk
          rw [(ih h2).2 h1, List.append_nil]
        · rw [hk0 hk, List.nil_append]
          exact (ih h2).1 ((List.mem_cons.1 hi).resolve_left (Ne.symm hk))
      · intro hi
        rw [List.mem_cons, not_or] at hi
        rw [hk0 (Ne.symm hi.1), List.nil_append, (ih h2).2 hi.2]
  exact (gen _ List.nodup_range).1 (List.mem_range.2 h)

/-! ## C110 -/

/-- C110 (for less than 129 atoms in the unit cell, see `C55_int8_fails`): every entry of the matrix
built from the map is the value assigned to the site, on the diagonal, plus for each time `j` is listed as a neighbour of `i` at level `n` the value assigned to
level `n`.  (The value of the last assignment counts.)  This holds for numbers (`build_csr`) and for
blocks (`build_bsr`). -/
theorem C110_entries_partial {β : Type*} [AddCommMonoid β] {D : LatticeData d K} {w : ℕ} (h : D.Rect w)
    (hv : D.Usable) [LinearOrder K] (env : Env K) (alpha : ℕ → ℕ)
    (halpha : ∀ i < D.numSites, alphaOf D i = alpha i ∧ alpha i < 128) {assigns : List (Mask × β)}
    (hdoc : Documented assigns) :
    let m := D.computeMap env.argsortNat
    ∃ data, m.fill assigns = .ok data ∧ data.length = m.size ∧
      (∀ i j, m.bsrEntry data i j = m.csrEntry data i j) ∧
      (0 < D.numSites → m.csrShape = .ok (D.numSites, D.numSites)) ∧
      ∀ i < D.numSites, ∃ l : ℕ → List ℕ,
        (∀ n, D.getNeighbors i (some n) none false = .ok (l n)) ∧
        ∀ j, m.csrEntry data i j =
          (if i = j then lastValue (ForSite (alpha i)) assigns else 0) +
            ∑ n ∈ Finset.range D.invalidDistidx,
              (l n).count j • lastValue (ForLink n) assigns := by
  intro m
  obtain ⟨hlen, hperm, hs⟩ := C55_map_elements_partial h hv env fun i hi => by
    obtain ⟨h1, h2⟩ := halpha i hi
    omega
  refine ⟨_, fill_eq m hlen assigns, by rw [List.length_map, hlen], ?_, ?_, ?_⟩
  · intro i j
    unfold DataMap.bsrEntry DataMap.csrEntry
    rw [C56_lattice_map_layout h hv env, List.filterMap_map]
    congr 1
    have gen : ∀ (x : List (ℕ × ℕ)) (y z : List β), x.length = y.length →
        (x.zipIdx z.length).filterMap (fun p => if (p.1.1, p.1.2) = (i, j) then
          (z ++ y)[p.2]? else none) =
        (x.zip y).filterMap fun p => if p.1 = (i, j) then some p.2 else none := by
      intro x
      induction x with
      | nil => intro y z _; simp
      | cons a x ih =>
        intro y z hl
        cases y with
        | nil => simp at hl
        | cons b y =>
          have := ih y (z ++ [b]) (by simpa using hl)
          rw [List.length_append, List.length_singleton] at this
          rw [List.zipIdx_cons, List.zip_cons_cons, List.filterMap_cons, List.filterMap_cons]
          simp only [List.append_assoc, List.singleton_append] at this
          rw [this]
          simp
    have := gen m.indices (m.map.map (markValue assigns)) [] (by rw [List.length_map]; exact hlen.symm)
    simp only [List.length_nil, List.nil_append] at this
    exact this
  · intro hpos
    have hel : ∀ q, q ∈ m.indices ↔ ∃ p ∈ diagElements D ++ linkElements D, p.2 = q := by
      intro q
      have hi : m.indices = (m.map.zip m.indices).map Prod.snd :=
        (List.map_snd_zip (le_of_eq hlen.symm)).symm
      rw [hi, List.mem_map]
      constructor
      · rintro ⟨p, hp, rfl⟩
        exact ⟨p, hperm.mem_iff.1 hp, rfl⟩
      · rintro ⟨p, hp, rfl⟩
        exact ⟨p, hperm.mem_iff.2 hp, rfl⟩
    have hlt : ∀ q ∈ m.indices, q.1 < D.numSites ∧ q.2 < D.numSites := by
      intro q hq
      obtain ⟨p, hp, rfl⟩ := (hel q).1 hq
      rcases List.mem_append.1 hp with hp | hp
      · unfold diagElements at hp
        obtain ⟨i, hi, rfl⟩ := List.mem_map.1 hp
        simpa using hi
      · unfold linkElements at hp
        simp only [List.mem_flatMap, List.mem_map, List.mem_range, List.mem_filter,
          decide_eq_true_eq] at hp
        obtain ⟨i, hi, e, ⟨he, hl⟩, rfl⟩ := hp
        refine ⟨hi, ?_⟩
        rcases hv.entry _ (getD_mem_entries h hi) e he with g | g
        · exact g.2
        · omega
    have hmem : ∀ i < D.numSites, (i, i) ∈ m.indices := by
      intro i hi
      refine (hel _).2 ⟨(-(alphaOf D i) - 1, i, i), List.mem_append_left _ (List.mem_map.2
        ⟨i, by simpa using hi, rfl⟩), rfl⟩
    have hr : m.rows.max? = some (D.numSites - 1) := by
      rw [List.max?_eq_some_iff]
      refine ⟨List.mem_map.2 ⟨_, hmem (D.numSites - 1) (by omega), rfl⟩, fun b hb => ?_⟩
      obtain ⟨q, hq, rfl⟩ := List.mem_map.1 hb
      have := (hlt q hq).1
      omega
    have hc : m.cols.max? = some (D.numSites - 1) := by
      rw [List.max?_eq_some_iff]
      refine ⟨List.mem_map.2 ⟨_, hmem (D.numSites - 1) (by omega), rfl⟩, fun b hb => ?_⟩
      obtain ⟨q, hq, rfl⟩ := List.mem_map.1 hb
      have := (hlt q hq).2
      omega
    unfold DataMap.csrShape
    rw [hr, hc]
    simp only [Except.ok.injEq, Prod.mk.injEq]
    omega
  · intro i hi
    obtain ⟨r, hr, hmem, hg⟩ := h.getNeighbors hi
    refine ⟨fun n => (r.filter fun e => decide (e.level = n)).map Entry.nbr, ?_, ?_⟩
    · intro n
      rw [hg]
      congr 3
      funext e
      simp [LatticeData.sel]
    · intro j
      rw [csr_marks, ((hperm.filter _).map _).sum_eq, List.filter_append, List.map_append,
        List.sum_append]
      congr 1
      · unfold diagElements
        rw [List.filter_map, List.map_map]
        by_cases hij : i = j
        · subst hij
          have : (List.range D.numSites).filter ((fun p : ℤ × ℕ × ℕ => decide (p.2 = (i, i))) ∘
              fun i => (-(alphaOf D i) - 1, i, i)) = [i] := by
            have e : ((fun p : ℤ × ℕ × ℕ => decide (p.2 = (i, i))) ∘
                fun i => (-(alphaOf D i) - 1, i, i)) = fun k => decide (k = i) := by
              funext k
              simp
            rw [e]
            exact filter_range_eq hi
          rw [this, if_pos rfl]
          simp [(halpha i hi).1, markValue_site hdoc]
        · rw [if_neg hij, List.filter_eq_nil_iff.2]
          · rfl
          · intro k _ hk
            simp only [Function.comp_apply, decide_eq_true_eq, Prod.mk.injEq] at hk
            exact hij (hk.1.symm.trans hk.2)
      · rw [← level_sum (fun n => lastValue (ForLink n) assigns)]
        have hD : D.entries.getD i [] = r := by
          rw [List.getD_eq_getElem?_getD, hr]
          rfl
        rw [← hD]
        unfold linkElements
        rw [flatMap_range_eq _ _ hi (fun k hk x hx => by
          obtain ⟨e, -, rfl⟩ := List.mem_map.1 hx
          simp [hk]), List.filter_map, List.map_map, List.filter_filter]
        congr 1
        have e1 : (fun a : Entry d => (((fun p : ℤ × ℕ × ℕ => decide (p.2 = (i, j))) ∘
            fun e : Entry d => ((e.level : ℤ), i, e.nbr)) a && decide (a.level < D.invalidDistidx))) =
            fun e => decide (e.level < D.invalidDistidx ∧ e.nbr = j) := by
          funext e
          by_cases h1 : e.nbr = j <;> by_cases h2 : e.level < D.invalidDistidx <;> simp [h1, h2]
        rw [e1]
        refine List.map_congr_left fun e _ => ?_
        exact markValue_link hdoc e.level

/-- C110, arrays of another lattice: the map has one element per site and one per listed neighbour.
Assigning to a mask of it raises `IndexError` for every array of another length (e.g. one made before
sites or links were added or removed), and only for these. -/
theorem C110_lengths {β : Type*} {D : LatticeData d K} {w : ℕ} (h : D.Rect w) (hv : D.Usable)
    [LinearOrder K] (env : Env K) {l : ℕ → List ℕ}
    (hl : ∀ i < D.numSites, D.getNeighbors i none none false = .ok (l i)) (data : List β)
    (k : Mask) (v : β) :
    let n := D.numSites + ∑ i ∈ Finset.range D.numSites, (l i).length
    (data.length ≠ n → maskSet data (k.get (D.computeMap env.argsortNat)) v = .error .index) ∧
    (data.length = n → ∃ data', maskSet data (k.get (D.computeMap env.argsortNat)) v = .ok data' ∧
      data'.length = n) := by
  intro n
  obtain ⟨hlen, hperm, -⟩ := map_elements_stored h hv env
  have hsize : (D.computeMap env.argsortNat).map.length = n := by
    have h1 := hperm.length_eq
    rw [List.length_zip, hlen] at h1
    unfold DataMap.size at h1 hlen
    rw [min_self] at h1
    rw [hlen, h1, List.length_append]
    unfold storedDiag linkElements
    rw [List.length_map, List.length_range, List.length_flatMap]
    congr 1
    rw [Finset.sum_range, ← List.sum_ofFn]
    congr 1
    refine List.ext_getElem (by simp) fun i h1 h2 => ?_
    have hi : i < D.numSites := by simpa using h1
    obtain ⟨r, hr, -, hg⟩ := h.getNeighbors hi
    have := (hg none none false).symm.trans (hl i hi)
    rw [Except.ok.injEq] at this
    simp only [List.getElem_map, List.getElem_range, List.getElem_ofFn, ← this, List.length_map,
      List.getD_eq_getElem?_getD, hr, Option.getD_some]
    congr 2
    funext e
    simp [LatticeData.sel]
  have hm : (k.get (D.computeMap env.argsortNat)).length = n := by
    rw [mask_get, List.length_map, hsize]
  unfold maskSet
  rw [hm]
  refine ⟨fun hne => if_neg fun e => hne e.symm, fun he => ?_⟩
  rw [if_pos he.symm]
  exact ⟨_, rfl, by rw [List.length_zipWith, hm, he, min_self]⟩

/-- C110 (restricted to sites that are not their own neighbour and have no neighbour twice): the
diagonal has the values of the sites, the entry of a neighbour the value of its level, all others
are zero. -/
theorem C110_no_double_partial {β : Type*} [AddCommMonoid β] {D : LatticeData d K} {w : ℕ}
    (h : D.Rect w) (hv : D.Usable) [LinearOrder K] (env : Env K) (alpha : ℕ → ℕ)
    (halpha : ∀ i < D.numSites, alphaOf D i = alpha i ∧ alpha i < 128) {assigns : List (Mask × β)}
    (hdoc : Documented assigns) {data : List β}
    (hdata : (D.computeMap env.argsortNat).fill assigns = .ok data) {i : ℕ} (hi : i < D.numSites)
    {l : List ℕ} (hl : D.getNeighbors i none none false = .ok l) (hn : l.Nodup) (hself : i ∉ l) :
    let m := D.computeMap env.argsortNat
    m.csrEntry data i i = lastValue (ForSite (alpha i)) assigns ∧
    (∀ n < D.invalidDistidx, ∀ ln, D.getNeighbors i (some n) none false = .ok ln → ∀ j ∈ ln,
      m.csrEntry data i j = lastValue (ForLink n) assigns) ∧
    ∀ j, j ≠ i → j ∉ l → m.csrEntry data i j = 0 := by
  intro m
  obtain ⟨data', h1, -, -, -, h2⟩ := C110_entries_partial h hv env alpha halpha hdoc
  rw [hdata] at h1
  cases h1
  obtain ⟨ls, hls, hH⟩ := h2 i hi
  obtain ⟨r, hr, hmem, hg⟩ := h.getNeighbors hi
  have hl' : l = (r.filter fun e => decide (e.level < D.invalidDistidx)).map Entry.nbr := by
    have := (hg none none false).symm.trans hl
    rw [Except.ok.injEq] at this
    rw [← this]
    congr 2
    funext e
    simp [LatticeData.sel]
  have hlsn : ∀ n, ls n = (r.filter fun e => decide (e.level = n)).map Entry.nbr := by
    intro n
    have := (hg (some n) none false).symm.trans (hls n)
    rw [Except.ok.injEq] at this
    rw [← this]
    congr 2
    funext e
    simp [LatticeData.sel]
  have hsub : ∀ n < D.invalidDistidx, (ls n).Sublist l := by
    intro n hn'
    rw [hlsn, hl']
    refine List.Sublist.map _ ?_
    have : (r.filter fun e => decide (e.level = n)) =
        (r.filter fun e => decide (e.level < D.invalidDistidx)).filter
          fun e => decide (e.level = n) := by
      rw [List.filter_filter]
      refine List.filter_congr fun e _ => ?_
      by_cases he : e.level = n
      · simp [he, hn']
      · simp [he]
    rw [this]
    exact List.filter_sublist
  have hzero : ∀ j, j ∉ l → ∑ n ∈ Finset.range D.invalidDistidx,
      (ls n).count j • lastValue (ForLink n) assigns = 0 := by
    intro j hj
    refine Finset.sum_eq_zero fun n hn' => ?_
    rw [List.count_eq_zero.2 fun hc => hj ((hsub n (Finset.mem_range.1 hn')).subset hc), zero_smul]
  refine ⟨?_, ?_, ?_⟩
  · rw [hH, if_pos rfl, hzero i hself, add_zero]
  · intro n hnv ln hln j hj
    have hln' : ln = ls n := by
      have := (hls n).symm.trans hln
      rw [Except.ok.injEq] at this
      exact this.symm
    rw [hln'] at hj
    have hjl : j ∈ l := (hsub n hnv).subset hj
    have hji : i ≠ j := by
      rintro rfl
      exact hself hjl
    rw [hH, if_neg hji, zero_add]
    rw [Finset.sum_eq_single n]
    · rw [List.count_eq_one_of_mem (hn.sublist (hsub n hnv)) hj, one_smul]
    · intro k hk hkn
      have : j ∉ ls k := by
        intro hjk
        rw [hlsn] at hj hjk
        obtain ⟨e, he, he'⟩ := List.mem_map.1 hj
        obtain ⟨f, hf, hf'⟩ := List.mem_map.1 hjk
        obtain ⟨he1, he2⟩ := List.mem_filter.1 he
        obtain ⟨hf1, hf2⟩ := List.mem_filter.1 hf
        rw [decide_eq_true_eq] at he2 hf2
        rw [hl'] at hn
        have := List.inj_on_of_nodup_map hn (List.mem_filter.2 ⟨he1, by
          rw [decide_eq_true_eq, he2]; exact hnv⟩) (List.mem_filter.2 ⟨hf1, by
          rw [decide_eq_true_eq, hf2]; exact Finset.mem_range.1 hk⟩) (he'.trans hf'.symm)
        rw [this] at he2
        exact hkn (hf2.symm.trans he2)
      rw [List.count_eq_zero.2 this, zero_smul]
    · intro hc
      exact absurd (Finset.mem_range.2 hnv) hc
  · intro j hji hj
    rw [hH, if_neg (Ne.symm hji), hzero j hj, add_zero]

/-- The hypotheses are met by a ring of three sites. -/
example : ring3.Rect 2 ∧ ring3.Usable ∧ (∀ i < ring3.numSites, alphaOf ring3 i = ((0 : ℕ) : ℤ) ∧ 0 < 128) ∧
    Documented [(Mask.onsite none, 5), (Mask.hopping (some 0), (7 : ℕ))] ∧
    ring3.getNeighbors 0 none none false = .ok [1, 2] := by
  refine ⟨ring3_rect, ring3_valid.usable, by decide, ?_, by decide +kernel⟩
  intro p hp
  simp only [List.mem_cons, List.not_mem_nil, or_false] at hp
  rcases hp with rfl | rfl
  · exact ⟨nofun, nofun⟩
  · exact ⟨nofun, fun a ha => by cases ha; rfl⟩

/-- Its Hamiltonian, computed. -/
example : let m := ring3.computeMap (Env.brute ℚ).argsortNat
    m.fill [(Mask.onsite none, 5), (Mask.hopping (some 0), (7 : ℕ))] =
      .ok [5, 7, 7, 5, 7, 7, 5, 7, 7] := by
  decide +kernel

/-- `C110_lengths` for it: three sites with two neighbours each, so arrays of length 9. -/
example (data : List ℕ) : let m := ring3.computeMap (Env.brute ℚ).argsortNat
    data.length ≠ 9 → maskSet data ((Mask.onsite none).get m) 5 = .error .index := by
  refine (C110_lengths (l := fun i => if i = 0 then [1, 2] else if i = 1 then [0, 2] else [1, 0])
    ring3_rect ring3_valid.usable (Env.brute ℚ) ?_ data (.onsite none) 5).1
  decide +kernel

/-! ## the map of a lattice -/

/-- C57 for `Lattice.dmap`: before the lattice is built it raises `IndexError`; afterwards it returns
a map, changes nothing but the stored map, and all further calls return the same map, whatever order
`np.argsort` gives to ties. -/
theorem C57_lattice (L : Lattice d K) (argsort argsort' : List ℕ → List ℕ) :
    (L.data = none → L.dmap argsort = (L, .error .index)) ∧
    ∀ D, L.data = some D → ∃ L' m, L.dmap argsort = (L', .ok m) ∧ L'.dmap argsort' = (L', .ok m) ∧
      (D.dmap = none → m = D.computeMap argsort) ∧ L'.world = L.world ∧
      L'.periodicAxes = L.periodicAxes ∧
      ∀ site distidx unique, L'.neighbors site distidx unique = L.neighbors site distidx unique := by
  refine ⟨fun h => by unfold Lattice.dmap; rw [h], fun D hD => ?_⟩
  refine ⟨{ L with data := some (D.map argsort).2 }, (D.map argsort).1, ?_, ?_, ?_, rfl, rfl, ?_⟩
  · unfold Lattice.dmap
    rw [hD]
  · unfold Lattice.dmap
    dsimp only
    have h1 : (D.map argsort).2.map argsort' = (D.map argsort).swap.swap := by
      unfold LatticeData.map
      cases hm : D.dmap with
      | none => rfl
      | some m => simp [hm]
    rw [h1]
    rfl
  · intro hm
    unfold LatticeData.map
    rw [hm]
  · intro site distidx unique
    unfold Lattice.neighbors
    rw [hD]
    dsimp only
    unfold LatticeData.map
    cases hm : D.dmap <;> rfl

/-- The map of the ring of three sites. -/
example (L : Lattice 1 ℚ) (hL : L.data = some ring3) :
    (L.dmap (Env.brute ℚ).argsortNat).2 = .ok (ring3.computeMap (Env.brute ℚ).argsortNat) := by
  obtain ⟨L', m, h1, -, h2, -⟩ := (C57_lattice L (Env.brute ℚ).argsortNat id).2 _ hL
  rw [h1, h2 rfl]

/-! ## histories -/

/-- The matrix filled from the map of data that is ready for it. -/
theorem dmap_matrix {env : Env ℝ} {L : Lattice d ℝ} {D : LatticeData d ℝ} (hD : L.data = some D)
    (hW : Weak D) (hF : Fresh D) (hal : ∀ x ∈ D.indices, 0 ≤ Idx.alpha x)
    (h128 : ∀ x ∈ D.indices, Idx.alpha x < 128) {β : Type*} [AddCommMonoid β]
    {assigns : List (Mask × β)} (hdoc : Documented assigns) :
    ∃ m data, (L.dmap env.argsortNat).2 = .ok m ∧ m.fill assigns = .ok data ∧
      (∀ i j, m.bsrEntry data i j = m.csrEntry data i j) ∧
      (0 < D.numSites → m.csrShape = .ok (D.numSites, D.numSites)) ∧
      ∀ (i : ℕ) (x : Idx d), D.indices[i]? = some x → ∃ l : ℕ → List ℕ,
        (∀ n, L.neighbors i (some n) false = .ok (l n)) ∧
        ∀ j, m.csrEntry data i j =
          (if i = j then lastValue (ForSite x.alpha.toNat) assigns else 0) +
            ∑ n ∈ Finset.range D.invalidDistidx, (l n).count j • lastValue (ForLink n) assigns := by
  have hU := hW.usable hF
  obtain ⟨wd, hR⟩ := hW.sound.rect
  have halpha : ∀ i < D.numSites, alphaOf D i = ((alphaOf D i).toNat : ℤ) ∧
      (alphaOf D i).toNat < 128 := by
    intro i hi
    have h1 : alphaOf D i = Idx.alpha (D.indices[i]'hi) := by
      unfold alphaOf
      rw [List.getD_eq_getElem?_getD, List.getElem?_eq_getElem hi]
      rfl
    have := hal _ (List.getElem_mem hi)
    have := h128 _ (List.getElem_mem hi)
    rw [h1]
    omega
  obtain ⟨data, h1, -, h2, h3, h4⟩ := C110_entries_partial hR hU env (fun i => (alphaOf D i).toNat) halpha hdoc
  have hmap : (D.map env.argsortNat).1 = D.computeMap env.argsortNat := by
    unfold LatticeData.map
    rw [hF.dmap]
  refine ⟨D.computeMap env.argsortNat, data, ?_, h1, h2, h3, ?_⟩
  · unfold Lattice.dmap
    rw [hD]
    simp only [hmap]
  · intro i x hi
    have hil : i < D.numSites := (List.getElem?_eq_some_iff.1 hi).1
    obtain ⟨l, g1, g2⟩ := h4 i hil
    refine ⟨l, fun n => by unfold Lattice.neighbors; rw [hD]; exact g1 n, fun j => ?_⟩
    rw [g2 j]
    have : (alphaOf D i).toNat = x.alpha.toNat := by
      unfold alphaOf
      rw [List.getD_eq_getElem?_getD, hi]
      rfl
    rw [this]

/-- C110 for lattices with any history of configuration calls, `build` and `set_periodic` (each of
which may raise), where the neighbour table has an empty slot and at most 256 distances, and the unit
cell less than 129 atoms: the matrix filled from the first `dmap()` has the values of the sites on the
diagonal, plus for each time `j` is listed by `neighbors(i, n)` the value of level `n`. -/
theorem C110_history_partial (hd : 0 < d) {env : Env ℝ} {w : World d ℝ} (hw : Reachable env w)
    (ops : List (Lattice.Op d ℝ)) {L : Lattice d ℝ}
    (hL : Lattice.run env (Lattice.ofWorld w) ops = L) {D : LatticeData d ℝ} (hD : L.data = some D)
    (h256 : D.distvals.length ≤ 256) (htop : ⊤ ∈ D.distvals)
    (h128 : ∀ x ∈ D.indices, Idx.alpha x < 128) {β : Type*} [AddCommMonoid β]
    {assigns : List (Mask × β)} (hdoc : Documented assigns) :
    ∃ m data, (L.dmap env.argsortNat).2 = .ok m ∧ m.fill assigns = .ok data ∧
      (∀ i j, m.bsrEntry data i j = m.csrEntry data i j) ∧
      (0 < D.numSites → m.csrShape = .ok (D.numSites, D.numSites)) ∧
      ∀ (i : ℕ) (x : Idx d), D.indices[i]? = some x → ∃ l : ℕ → List ℕ,
        (∀ n, L.neighbors i (some n) false = .ok (l n)) ∧
        ∀ j, m.csrEntry data i j =
          (if i = j then lastValue (ForSite x.alpha.toNat) assigns else 0) +
            ∑ n ∈ Finset.range D.invalidDistidx, (l n).count j • lastValue (ForLink n) assigns := by
  subst hL
  obtain ⟨hW, hF⟩ := Lattice.run_fresh hd hw ops hD h256 htop
  exact dmap_matrix hD hW hF (Lattice.run_alpha hd hw ops hD) h128 hdoc

/-- The matrix of the loop of README.md 211-217: `ham[i, i] = eps`, then `ham[i, j] = t` for the
nearest neighbours `nn` of site `i`. -/
def loopEntry {β : Type*} [Zero β] (eps t : β) (nn : List ℕ) (i j : ℕ) : β :=
  if j ∈ nn then t else if j = i then eps else 0

/-- C110, the two ways of README.md give the same matrix, for every history of calls: partial because
no site may be its own nearest neighbour or have a nearest neighbour twice (`C110_twice_fails`), and
there has to be a link (`C110_single_fails`). -/
theorem C110_readme_partial (hd : 0 < d) {env : Env ℝ} {w : World d ℝ} (hw : Reachable env w)
    (ops : List (Lattice.Op d ℝ)) {L : Lattice d ℝ}
    (hL : Lattice.run env (Lattice.ofWorld w) ops = L) {D : LatticeData d ℝ} (hD : L.data = some D)
    (h256 : D.distvals.length ≤ 256) (htop : ⊤ ∈ D.distvals) (hlink : ∃ x : ℝ, ↑x ∈ D.distvals)
    {β : Type*} [AddCommMonoid β] (eps t : β)
    (hone : ∀ x ∈ D.indices, Idx.alpha x = 0)
    (hnn : ∀ i l, L.nearestNeighbors i false = .ok l → l.Nodup ∧ i ∉ l) :
    ∃ m data, (L.dmap env.argsortNat).2 = .ok m ∧
      m.fill [(.onsite (some 0), eps), (.hopping (some 0), t)] = .ok data ∧
      (0 < D.numSites → m.csrShape = .ok (D.numSites, D.numSites)) ∧
      ∀ i < D.numSites, ∃ l, L.nearestNeighbors i false = .ok l ∧ (∀ j ∈ l, j < D.numSites) ∧
        ∀ j, m.csrEntry data i j = loopEntry eps t l i j := by
  have hdoc : Documented [(Mask.onsite (some 0), eps), (Mask.hopping (some 0), t)] := by
    intro p hp
    simp only [List.mem_cons, List.not_mem_nil, or_false] at hp
    rcases hp with rfl | rfl
    · exact ⟨fun a ha => by cases ha; rfl, nofun⟩
    · exact ⟨nofun, fun a ha => by cases ha; rfl⟩
  obtain ⟨m, data, h1, h2, -, h3, h4⟩ := C110_history_partial hd hw ops hL hD h256 htop
    (fun x hx => by rw [hone x hx]; norm_num) hdoc
  refine ⟨m, data, h1, h2, h3, fun i hi => ?_⟩
  obtain ⟨l, g1, g2⟩ := h4 i _ (List.getElem?_eq_getElem hi)
  have hx := hone _ (List.getElem_mem hi)
  subst hL
  obtain ⟨hW, hF⟩ := Lattice.run_fresh hd hw ops hD h256 htop
  have hinv : 0 < D.invalidDistidx := by
    by_contra hc
    have := hW.inv
    have hl1 : D.distvals.length = 1 := by omega
    obtain ⟨y, hy⟩ := List.length_eq_one_iff.1 hl1
    obtain ⟨x, hx⟩ := hlink
    rw [hy] at htop hx
    rw [← List.mem_singleton.1 htop] at hx
    exact WithTop.coe_ne_top (List.mem_singleton.1 hx)
  obtain ⟨k1, k2⟩ := hnn i (l 0) (g1 0)
  refine ⟨l 0, g1 0, ?_, fun j => ?_⟩
  · intro j hj
    have h0 := g1 0
    unfold Lattice.neighbors at h0
    rw [hD] at h0
    obtain ⟨wd, hR⟩ := hW.sound.rect
    obtain ⟨r, -, hmem, hg⟩ := hR.getNeighbors hi
    have h0' : D.getNeighbors i (some 0) none false = .ok (l 0) := h0
    rw [hg] at h0'
    rw [← Except.ok.inj h0'] at hj
    obtain ⟨e, he, rfl⟩ := List.mem_map.1 hj
    obtain ⟨he1, he2⟩ := List.mem_filter.1 he
    have : e.level = 0 := by simpa [LatticeData.sel] using he2
    exact hW.sound.neighbor r hmem e he1 (by omega)
  · rw [g2 j]
    have e1 : lastValue (ForSite (Idx.alpha D.indices[i]).toNat)
        [(Mask.onsite (some 0), eps), (Mask.hopping (some 0), t)] = eps := by
      rw [hx]
      simp [lastValue, ForSite]
    have e2 : ∀ n, lastValue (ForLink n)
        [(Mask.onsite (some 0), eps), (Mask.hopping (some 0), t)] = if n = 0 then t else 0 := by
      intro n
      by_cases hn : n = 0
      · subst hn; simp [lastValue, ForLink]
      · have : ¬ (0 : ℤ) = n := by omega
        simp [lastValue, ForLink, hn, this]
    rw [e1, Finset.sum_eq_single 0 (fun n _ hn => by rw [e2, if_neg hn, smul_zero]) (fun hc =>
      absurd (Finset.mem_range.2 hinv) hc), e2, if_pos rfl]
    unfold loopEntry
    by_cases hj : j ∈ l 0
    · have hji : i ≠ j := by rintro rfl; exact k2 hj
      rw [if_pos hj, if_neg hji, List.count_eq_one_of_mem k1 hj, one_smul, zero_add]
    · rw [if_neg hj, List.count_eq_zero.2 hj, zero_smul, add_zero]
      simp only [eq_comm]

/-- C110 fails for small periodic lattices: a chain of two sites with two shells, made periodic.
Site 0 is listed as its own nearest neighbour (`C64_small_fails`), so the value of the link is added
to the value of the site by `build_csr`, while the loop of README.md overwrites it: with `eps = t = 1`
the entry `(0, 0)` is at least 2, the loop gives 1. -/
theorem C110_twice_fails (env : Env ℝ) :
    ∃ (w : World 1 ℝ) (ops : List (Lattice.Op 1 ℝ)) (L : Lattice 1 ℝ) (D : LatticeData 1 ℝ)
      (m : DataMap) (data l : List ℕ), Reachable env w ∧
      Lattice.run env (Lattice.ofWorld w) ops = L ∧ L.data = some D ∧ D.distvals.length ≤ 256 ∧
      ⊤ ∈ D.distvals ∧ (∀ x ∈ D.indices, Idx.alpha x = 0) ∧
      (L.dmap env.argsortNat).2 = .ok m ∧
      m.fill [(.onsite (some 0), 1), (.hopping (some 0), 1)] = .ok data ∧
      L.nearestNeighbors 0 false = .ok l ∧ loopEntry 1 1 l 0 0 = 1 ∧ 2 ≤ m.csrEntry data 0 0 := by
  obtain ⟨w, A, L, L', E, h1, -, h3, h4, h5, hE1, hE2, ⟨r, hr, e, he, -, hn, -, hlev⟩, -⟩ :=
    exists_small_ring env
  have hrun : Lattice.run env (Lattice.ofWorld w) [.build (chainArgs 1 fun _ => true),
      .setPeriodic (.axes [0])] = L' := by
    simp only [Lattice.run, List.foldl_cons, List.foldl_nil, Lattice.call]
    rw [h3, h4]
  have h256 : E.distvals.length ≤ 256 := by rw [hE2]; simp
  have htop : ⊤ ∈ E.distvals := by rw [hE2]; simp
  have hdoc : Documented [(Mask.onsite (some 0), 1), (Mask.hopping (some 0), (1 : ℕ))] := by
    intro p hp
    simp only [List.mem_cons, List.not_mem_nil, or_false] at hp
    rcases hp with rfl | rfl
    · exact ⟨fun a ha => by cases ha; rfl, nofun⟩
    · exact ⟨nofun, fun a ha => by cases ha; rfl⟩
  obtain ⟨m, data, g1, g2, -, -, g3⟩ := C110_history_partial Nat.one_pos h1 _ hrun h5 h256 htop
    (by rw [hE1]; decide) hdoc
  obtain ⟨l, k1, k2⟩ := g3 0 (Idx.mk (fun _ => 0) 0) (by rw [hE1]; rfl)
  have hlev0 : e.level = 0 := by
    rw [hE2] at hlev
    rcases hk : e.level with _ | _ | n
    · rfl
    · rw [hk] at hlev
      simp at hlev
    · rw [hk] at hlev
      simp at hlev
  subst hrun
  obtain ⟨hW, -⟩ := Lattice.run_fresh Nat.one_pos h1 _ h5 h256 htop
  have hinv : E.invalidDistidx = 1 := by
    have := hW.inv
    rw [hE2] at this
    simpa using this
  have hmem : 0 ∈ l 0 := by
    obtain ⟨wd, hR⟩ := hW.sound.rect
    obtain ⟨r', hr', -, hg⟩ := hR.getNeighbors (i := 0) (by
      unfold LatticeData.numSites; rw [hE1]; simp)
    rw [hr] at hr'
    cases hr'
    have h0 := k1 0
    unfold Lattice.neighbors at h0
    rw [h5] at h0
    have h0' : E.getNeighbors 0 (some 0) none false = .ok (l 0) := h0
    rw [hg] at h0'
    rw [← Except.ok.inj h0']
    exact List.mem_map.2 ⟨e, List.mem_filter.2 ⟨he, by simp [LatticeData.sel, hlev0]⟩, hn⟩
  refine ⟨w, _, _, E, m, data, l 0, h1, rfl, h5, h256, htop, ?_, g1, g2, k1 0, ?_, ?_⟩
  · intro x hx
    rw [hE1] at hx
    simp only [List.mem_cons, List.not_mem_nil, or_false] at hx
    rcases hx with rfl | rfl <;> rfl
  · unfold loopEntry
    rw [if_pos hmem]
  · rw [k2 0, if_pos rfl, hinv, Finset.sum_range_one]
    have e1 : lastValue (ForSite (Idx.alpha (Idx.mk (fun _ : Fin 1 => 0) 0)).toNat)
        [(Mask.onsite (some 0), 1), (Mask.hopping (some 0), (1 : ℕ))] = 1 := by
      have : Idx.alpha (Idx.mk (fun _ : Fin 1 => 0) 0) = 0 := rfl
      rw [this]
      simp [lastValue, ForSite]
    have e2 : lastValue (ForLink 0)
        [(Mask.onsite (some 0), 1), (Mask.hopping (some 0), (1 : ℕ))] = 1 := by
      simp [lastValue, ForLink]
    rw [e1, e2]
    have := List.count_pos_iff.2 hmem
    simp only [smul_eq_mul, mul_one]
    omega

/-- C110 fails for a lattice without links: for the chain of a single site the nearest neighbour of
site 0 is reported to be site 1, which does not exist, so the loop of README.md raises `IndexError`
at `ham[0, 1] = t`. -/
theorem C110_single_fails (env : Env ℝ) :
    ∃ (w : World 1 ℝ) (L : Lattice 1 ℝ) (a : BuildArgs 1 ℝ) (D : LatticeData 1 ℝ) (l : List ℕ),
      Reachable env w ∧ (Lattice.ofWorld w).build env a = (L, .ok ()) ∧ L.data = some D ∧
      D.numSites = 1 ∧ L.nearestNeighbors 0 false = .ok l ∧ ∃ j ∈ l, ¬ j < D.numSites := by
  obtain ⟨w, L, D, a, h1, h2, h3, h4, -, l, h5, h6, h7⟩ := exists_single_site env
  obtain ⟨j, hj⟩ := List.exists_mem_of_ne_nil l h6
  exact ⟨w, L, a, D, l, h1, h2, h3, h4, h5, j, hj, by rw [h4, h7 j hj]; simp⟩

/-- C110 fails for negative arguments of the masks: `hopping(-1)` selects the elements of the sites
of atom 0, and `onsite(-1)` the links of level 0. -/
theorem C110_negative_fails (m : DataMap) :
    m.hopping (some (-1)) = m.onsite (some 0) ∧ m.onsite (some (-1)) = m.hopping (some 0) := by
  constructor <;> simp [DataMap.hopping, DataMap.onsite]

/-- The hypotheses are met: the chain of five sites of README.md. -/
example (env : Env ℝ) (eps t : ℝ) : ∃ (w : World 1 ℝ) (L : Lattice 1 ℝ) (m : DataMap)
    (data : List ℝ), (Lattice.ofWorld w).build env (chainArgs 4 fun _ => true) = (L, .ok ()) ∧
      (L.dmap env.argsortNat).2 = .ok m ∧
      m.fill [(.onsite (some 0), eps), (.hopping (some 0), t)] = .ok data ∧
      m.csrShape = .ok (5, 5) ∧
      ∀ i < 5, ∀ j, m.csrEntry data i j = if j = i then eps else
        if j < 5 ∧ (j = i + 1 ∨ i = j + 1) then t else 0 := by
  obtain ⟨w, A, L, D, table, h⟩ := exists_isBuiltChain env (nb := 1) (by norm_num) (by norm_num) 4
    (fun _ => true) (by decide)
  have hns : D.numSites = 5 := by rw [h.numSites, chainCells_true]; rfl
  have hrun : Lattice.run env (Lattice.ofWorld w) [.build (chainArgs 4 fun _ => true)] = L := by
    simp only [Lattice.run, List.foldl_cons, List.foldl_nil, Lattice.call]
    rw [h.build]
  have hdv : ((1 : ℝ) : WithTop ℝ) ∈ D.distvals := by
    refine (h.mem_distvals _).2 ⟨0, ?_, 1, ?_, by omega, by omega, by simp⟩ <;>
      rw [chainCells_true, List.mem_range] <;> omega
  have h00 : D.distvals[0]? = some (((1 : ℕ) : ℝ) : WithTop ℝ) := by
    have hs := h.sorted
    cases hd : D.distvals with
    | nil => rw [hd] at hdv; cases hdv
    | cons y ys =>
      rw [hd] at hdv hs
      rcases List.mem_cons.1 hdv with hy | hy
      · rw [← hy]; simp
      · have hlt := List.rel_of_pairwise_cons hs hy
        obtain ⟨z, rfl⟩ := WithTop.ne_top_iff_exists.1 (ne_of_lt (lt_of_lt_of_le hlt le_top))
        obtain ⟨a, -, b, -, hab, hba, rfl⟩ := (h.mem_distvals z).1 (by rw [hd]; simp)
        have : b = a + 1 := by omega
        rw [this] at hlt
        simp at hlt
  have hnb : ∀ i < 5, ∃ ln, L.nearestNeighbors i false = .ok ln ∧
      ln.Perm (chainAt (List.range 5) 1 i) := by
    intro i hi
    obtain ⟨-, -, -, g⟩ := h.neighbors (i := i) (by rw [chainCells_true]; simpa using hi)
    obtain ⟨ln, g1, g2⟩ := g 0 1 le_rfl one_pos h00
    rw [chainCells_true] at g2
    exact ⟨ln, g1, g2⟩
  have hat : ∀ i < 5, ∀ j, j ∈ chainAt (List.range 5) 1 i ↔ j < 5 ∧ (j = i + 1 ∨ i = j + 1) := by
    intro i hi j
    unfold chainAt
    rw [List.mem_filter, List.mem_range, decide_eq_true_eq, List.length_range]
    refine and_congr_right fun hj => ?_
    simp [List.getD_eq_getElem?_getD, hi, hj]
  obtain ⟨m, data, g1, g2, g3, g4⟩ := C110_readme_partial Nat.one_pos h.reach _ hrun h.data h.levels
    h.top ⟨1, hdv⟩ eps t (by
      intro x hx
      rw [h.indices] at hx
      obtain ⟨k, -, rfl⟩ := List.mem_map.1 hx
      rfl) (by
      intro i l hl
      by_cases hi : i < 5
      · obtain ⟨ln, k1, k2⟩ := hnb i hi
        rw [hl] at k1
        cases k1
        refine ⟨k2.nodup_iff.2 (List.nodup_range.filter _), ?_⟩
        rw [k2.mem_iff, hat i hi]
        omega
      · exfalso
        obtain ⟨wd, hR, -⟩ := h.rect
        unfold Lattice.nearestNeighbors Lattice.neighbors at hl
        rw [h.data] at hl
        have := hR.getNeighbors_error (i := i) (by rw [hns]; omega) (some 0) none false
        dsimp only at hl
        rw [this] at hl
        cases hl)
  rw [hns] at g3 g4
  refine ⟨w, L, m, data, h.build, g1, g2, g3 (by norm_num), fun i hi j => ?_⟩
  obtain ⟨l, k1, -, k2⟩ := g4 i hi
  obtain ⟨ln, k3, k4⟩ := hnb i hi
  rw [k1] at k3
  cases k3
  rw [k2]
  unfold loopEntry
  by_cases hij : j = i
  · have : j ∉ l := by rw [k4.mem_iff, hat i hi]; omega
    rw [if_neg this, if_pos hij, if_pos hij]
  · rw [if_neg hij, if_neg hij]
    by_cases hj : j ∈ l
    · rw [if_pos hj, if_pos ((hat i hi j).1 (k4.mem_iff.1 hj))]
    · rw [if_neg hj, if_neg fun hc => hj (k4.mem_iff.2 ((hat i hi j).2 hc))]

/-! ## presets -/

/-- The matrix filled from the map of every finite lattice built (without `min_neighbors`, periodic
boundary conditions and an explicit index type) from the structure `w` has, whatever is assigned,
the values of the sites on the diagonal, the value of the links for all pairs of sites at the
distance `r`, and zeros everywhere else. -/
def NearestHamiltonian (env : Env ℝ) (w : World d ℝ) (r : ℝ) : Prop :=
  ∀ (L L' : Lattice d ℝ) (a : BuildArgs d ℝ), L.world = w → a.minNeighbors = none →
    a.periodic = none → a.bits = none → L.build env a = (L', .ok ()) →
    ∀ (β : Type) [AddCommMonoid β] (assigns : List (Mask × β)), Documented assigns →
    ∃ D m data, L'.data = some D ∧ (L'.dmap env.argsortNat).2 = .ok m ∧
      m.fill assigns = .ok data ∧ m.csrShape = .ok (D.numSites, D.numSites) ∧
      (∀ i j, m.bsrEntry data i j = m.csrEntry data i j) ∧
      ∀ (i j : ℕ) (x : Idx d) (p q : Vec d ℝ), D.indices[i]? = some x → D.positions[i]? = some p →
        D.positions[j]? = some q →
        (i = j → m.csrEntry data i j = lastValue (ForSite x.alpha.toNat) assigns) ∧
        (i ≠ j → distance q p = r → m.csrEntry data i j = lastValue (ForLink 0) assigns) ∧
        (i ≠ j → distance q p ≠ r → m.csrEntry data i j = 0)

theorem NearestOnly.hamiltonian {w : World d ℝ} {r : ℝ} {N : ℕ → Set (Idx d)}
    (h : NearestOnly w r N) (hd : 0 < d) {env : Env ℝ} (hr : Reachable env w)
    (h128 : w.struct.numBase ≤ 128) : NearestHamiltonian env w r := by
  rintro L L' a rfl hm hp hb hok β _ assigns hdoc
  obtain ⟨A, D, table, hA, hD, -, hsites, hnd, hcomp, hset⟩ := build_table hd hr hm hp hb hok
  obtain ⟨hpn, htl, hlink, -⟩ := h.table hd hr hA hsites hnd hcomp
  obtain ⟨row, hrow, -⟩ := set_nonempty hset
  have h0 : 0 < D.positions.length := by rw [← htl]; exact List.length_pos_of_mem hrow
  obtain ⟨D', hset', -, -, htop, h256, hx⟩ := h.data hd hr hA hsites hnd h0 hcomp
  rw [hset] at hset'
  cases hset'
  obtain ⟨D', hD', hrect⟩ := build_rect hd hr h.distinct hm hp hb hok
  cases hD.symm.trans hD'
  obtain ⟨width, hR, hV⟩ := hrect htop h256
  have hlen := hsites.length_eq
  have hns : D.numSites = D.indices.length := rfl
  have hal := alpha_range hd hr hsites
  have halpha : ∀ i < D.numSites, alphaOf D i = ((alphaOf D i).toNat : ℤ) ∧
      (alphaOf D i).toNat < 128 := by
    intro i hi
    have h1 : alphaOf D i = Idx.alpha (D.indices[i]'hi) := by
      unfold alphaOf
      rw [List.getD_eq_getElem?_getD, List.getElem?_eq_getElem hi]
      rfl
    have := hal _ (List.getElem_mem hi)
    rw [h1]
    omega
  obtain ⟨data, h1, -, h2, h3, -⟩ := C110_entries_partial hR hV.usable env (fun i => (alphaOf D i).toNat) halpha hdoc
  have hmap : (D.map env.argsortNat).1 = D.computeMap env.argsortNat := by
    unfold LatticeData.map
    rw [set_dmap hset]
  refine ⟨D, D.computeMap env.argsortNat, data, hD, ?_, h1, h3 (by omega), h2, ?_⟩
  · unfold Lattice.dmap
    rw [hD]
    simp only [hmap]
  intro i j x p q hi hpi hqj
  have hil : i < D.numSites := (List.getElem?_eq_some_iff.1 hi).1
  have hjl : j < D.numSites := by rw [hns, hlen]; exact (List.getElem?_eq_some_iff.1 hqj).1
  have hi' : i < table.length := by rw [htl, ← hlen]; exact hil
  have hxa : (alphaOf D i).toNat = x.alpha.toNat := by
    unfold alphaOf
    rw [List.getD_eq_getElem?_getD, hi]
    rfl
  obtain ⟨width', hrows⟩ := C45_rows hd hr hA D.indices D.positions hlen hpn hcomp
  obtain ⟨-, -, -, -, r5⟩ := hrows i _ (List.getElem?_eq_getElem hi')
  obtain ⟨l, hl, hln, hlm, hlev⟩ := neighbors_of_links hset htop h256 hi' r5
  have hlj : ∀ k, k ∈ l ↔ ∃ p q, D.positions[i]? = some p ∧ D.positions[k]? = some q ∧
      distance q p = r := by
    intro k
    rw [hlm]
    exact ⟨fun ⟨y, hy⟩ => ((hlink i k y).1 hy).2, fun hk => ⟨_, (hlink i k _).2 ⟨rfl, hk⟩⟩⟩
  have hself : i ∉ l := by
    rw [hlj]
    rintro ⟨p', q', e1, e2, e3⟩
    rw [e1] at e2
    cases e2
    have := h.pos
    rw [← e3, distance_self] at this
    exact lt_irrefl _ this
  obtain ⟨g1, g2, g3⟩ := C110_no_double_partial hR hV.usable env (fun i => (alphaOf D i).toNat) halpha hdoc
    h1 hil hl hln hself
  refine ⟨?_, ?_, ?_⟩
  · rintro rfl
    rw [g1, hxa]
  · intro _ hdist
    have hlk : Linked table i j (npRound 6 r) := (hlink i j _).2 ⟨rfl, p, q, hpi, hqj, hdist⟩
    have hmem : ((npRound 6 r : ℝ) : WithTop ℝ) ∈ D.distvals := by
      obtain ⟨row, hrow, he⟩ := hlk
      exact (mem_distvals hset _).2 ⟨row, List.mem_of_getElem? hrow, _, he, rfl⟩
    have h00 : D.distvals[0]? = some ((npRound 6 r : ℝ) : WithTop ℝ) := by
      have hs := set_sorted hset
      cases hdv : D.distvals with
      | nil => rw [hdv] at hmem; cases hmem
      | cons y ys =>
        rw [hdv] at hmem hs
        rcases List.mem_cons.1 hmem with hy | hy
        · rw [hy]; rfl
        · have hlt := List.rel_of_pairwise_cons hs hy
          obtain ⟨z, rfl⟩ := WithTop.ne_top_iff_exists.1 (ne_of_lt (lt_of_lt_of_le hlt le_top))
          have := hx z (by rw [hdv]; simp)
          rw [this] at hlt
          exact absurd hlt (lt_irrefl _)
    obtain ⟨ln, hl1, -, hl2⟩ := hlev 0 _ h00
    refine g2 0 ?_ ln hl1 j ((hl2 j).2 hlk)
    obtain ⟨-, -, -, -, -, -, hinv, -⟩ := set_any hset h256
    by_contra hc
    have hl1 : D.distvals.length = 1 := by omega
    obtain ⟨y, hy⟩ := List.length_eq_one_iff.1 hl1
    rw [hy] at htop hmem
    rw [← List.mem_singleton.1 htop] at hmem
    exact WithTop.coe_ne_top (List.mem_singleton.1 hmem)
  · intro hij hdist
    refine g3 j (Ne.symm hij) ?_
    rw [hlj]
    rintro ⟨p', q', e1, e2, e3⟩
    rw [hpi] at e1
    rw [hqj] at e2
    cases e1
    cases e2
    exact hdist e3

theorem cubic_hamiltonian (hd : 0 < d) (env : Env ℝ) (s : Session) {a : ℝ} (ha : 1 / 10 ^ 5 ≤ |a|)
    (atom : AtomSpec) {rows : Matrix (Fin d) (Fin d) ℝ}
    (hrows : rows = a • (1 : Matrix (Fin d) (Fin d) ℝ)) :
    ∃ w, configure env s (LatticeBasis.init rows) (oneAtom atom 1) = .ok w ∧
      NearestHamiltonian env w |a| := by
  obtain ⟨w, h1, h2, -, h3⟩ := cubic_nearest hd env s ha atom hrows
  have hr := configure_reachable h1
  exact ⟨w, h1, (cubic_only ha hd hr ((configure_vectors h1).trans hrows) h2 h3).hamiltonian hd hr (by
    rw [← (hr.good hd).positions_length, h2]; simp)⟩

/-- C110 for the presets with one shell and any lattice constant that is resolved by the rounding of
distances: the Hamiltonian filled from `dmap()` of any finite lattice (any shape, position and
callback) is the nearest-neighbour matrix: the value of the site on the diagonal, the value of the
links between sites at distance `|a|` (`√3 |a|` for the hexagonal lattice), zero otherwise. -/
theorem C110_presets (env : Env ℝ) (s : Session) (a : ℝ) (ha : 1 / 10 ^ 5 ≤ |a|)
    (atom : AtomSpec) :
    (∃ w, simpleChain env s a atom 1 = .ok w ∧ NearestHamiltonian env w |a|) ∧
    (∃ w, simpleSquare env s a atom 1 = .ok w ∧ NearestHamiltonian env w |a|) ∧
    (∃ w, simpleCubic env s a atom 1 = .ok w ∧ NearestHamiltonian env w |a|) ∧
    (∀ d, 0 < d → ∃ w : World d ℝ,
      configure env s (LatticeBasis.hypercubic d a) (oneAtom atom 1) = .ok w ∧
      NearestHamiltonian env w |a|) ∧
    (∃ w, simpleHexagonal env s a atom 1 = .ok w ∧
      NearestHamiltonian env w (Real.sqrt 3 * |a|)) ∧
    (∃ w, honeycomb env s a atom = .ok w ∧ NearestHamiltonian env w |a|) ∧
    (∃ w, graphene env s a = .ok w ∧ NearestHamiltonian env w |a|) := by
  refine ⟨?_, ?_, ?_, ?_, ?_, ?_, ?_⟩
  · exact cubic_hamiltonian one_pos env s ha atom (rows := !![a]) (by
      ext i j; fin_cases i; fin_cases j; simp)
  · exact cubic_hamiltonian two_pos env s ha atom rfl
  · exact cubic_hamiltonian three_pos env s ha atom rfl
  · intro d hd
    exact cubic_hamiltonian hd env s ha atom rfl
  · obtain ⟨w, h1, h2, h3⟩ := C84_hexagonal_partial env s a ha atom
    have hr := configure_reachable h1
    exact ⟨w, h1, (hex_only ha hr (configure_vectors h1) h2 h3).hamiltonian two_pos hr (by
      rw [← (hr.good two_pos).positions_length, h2]; simp)⟩
  · obtain ⟨w, at', h1, -, -, h2, h3, h4⟩ := C84_honeycomb_partial env s a ha atom
    obtain ⟨s', ops, hc⟩ := honeycomb_configure h1
    have hr := configure_reachable hc
    exact ⟨w, h1, (honey_only ha hr (configure_vectors hc) h2 h3 h4).hamiltonian two_pos hr (by
      rw [← (hr.good two_pos).positions_length, h2]; simp)⟩
  · obtain ⟨w, h1, -, h2, h3, h4⟩ := C84_graphene_partial env s a ha
    obtain ⟨s', ops, hc⟩ := graphene_configure h1
    have hr := configure_reachable hc
    exact ⟨w, h1, (honey_only ha hr (configure_vectors hc) h2 h3 h4).hamiltonian two_pos hr (by
      rw [← (hr.good two_pos).positions_length, h2]; simp)⟩

/-- The hypotheses are met: a box of the square lattice, with a site at the origin. -/
example (env : Env ℝ) (s : Session) : ∃ (w : World 2 ℝ) (L : Lattice 2 ℝ) (D : LatticeData 2 ℝ),
    simpleSquare env s 1 .none 1 = .ok w ∧ NearestHamiltonian env w |1| ∧
    (Lattice.ofWorld w).build env { shape := .size (List.ofFn ![3, 2]) true } = (L, .ok ()) ∧
    L.data = some D ∧ 0 < D.numSites := by
  obtain ⟨-, ⟨w, h1, h2⟩, -⟩ := C110_presets env s 1 (by norm_num) .none
  obtain ⟨-, ⟨w', h1', h3⟩, -⟩ := C108_boxes env s 1 (by norm_num) .none
  cases h1.symm.trans h1'
  obtain ⟨L, D, g1, g2, g3, -⟩ := h3 ![3, 2] true (by intro k; fin_cases k <;> norm_num)
  exact ⟨w, L, D, h1, h2, g1, g2, List.length_pos_of_mem g3⟩

end Lattpy
