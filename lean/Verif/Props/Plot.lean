import Verif.Model.Plot
import Verif.Props.Plotting
import Verif.Props.Sound
import Verif.Lemmas.SymmetryPoints
import Verif.Lemmas.LatticeBuilt
import Verif.Props.FiniteHypercubic
import Verif.Props.PresetPairs
import Verif.Props.FourierPresets

/-!
# What is plotted
-/

set_option autoImplicit false
set_option linter.unusedSectionVars false

namespace Lattpy

open Structure LatticeData

variable {d : ℕ}

theorem param_of_getItem {s : Session} {a : Atom} {key : String} {v : PyVal}
    (hk : Session.isPrivate key = false) (h : s.getItem a key = .ok v) : s.param a key = .ok v := by
  unfold Session.getItem at h
  unfold Session.param Session.attrParam
  cases hg : (s.params a).get? key with
  | none => rw [hg] at h; cases h
  | some u =>
    rw [hg] at h
    cases h
    rw [hk]
    rfl

/-- The colour of lines between atoms `i` and `j`: that of the last element of the list naming the
pair, or the default if there is none. -/
def PairColor {C : Type*} (n : ℕ) (l : List (ℤ × ℤ × C)) (default : C) (i j : ℕ) (c : C) : Prop :=
  ((∀ e ∈ l, ¬ Names n e i j) ∧ c = default) ∨
    ∃ l1 e l2, l = l1 ++ e :: l2 ∧ Names n e i j ∧ (∀ e' ∈ l2, ¬ Names n e' i j) ∧ c = e.2.2

/-- The segment joins the two sites, in the colour of their pair of atoms. -/
def IsBond (D : LatticeData d ℝ) (n : ℕ) (l : List (ℤ × ℤ × PyVal)) (x : ℕ × ℕ) (s : Segment d ℝ) :
    Prop :=
  ∃ a b : Idx d, D.positions[x.1]? = some s.start ∧
    D.positions[x.2]? = some (fun k => s.start k + s.vec k) ∧
    D.indices[x.1]? = some a ∧ D.indices[x.2]? = some b ∧
    PairColor n l (.str "k") a.alpha.toNat b.alpha.toNat s.color

/-- The grey segment begins at site `x.1` and points to the copy of site `x.2.1` moved back by
`x.2.2` lattice cells, with the length scaled by `pscale`. -/
def IsStub (b : LatticeBasis d ℝ) (D : LatticeData d ℝ) (pscale : ℝ) (x : ℕ × ℕ × (Fin d → ℤ))
    (s : Segment d ℝ) : Prop :=
  ∃ q : Vec d ℝ, D.positions[x.1]? = some s.start ∧ D.positions[x.2.1]? = some q ∧
    s.color = .str "0.5" ∧
    ∀ k, s.vec k = pscale * (q k - ∑ m, (x.2.2 m : ℝ) * b.vectors m k - s.start k)

theorem mapM_total {α β : Type*} {f : α → Except PyErr β} {l : List α}
    (h : ∀ x ∈ l, ∃ y, f x = .ok y) : ∃ r, l.mapM f = .ok r ∧ List.Forall₂ (fun x y => f x = .ok y) l r := by
  induction l with
  | nil => exact ⟨[], rfl, List.Forall₂.nil⟩
  | cons a l ih =>
    obtain ⟨y, hy⟩ := h a (by simp)
    obtain ⟨r, hr, hf⟩ := ih fun x hx => h x (by simp [hx])
    refine ⟨y :: r, ?_, List.Forall₂.cons hy hf⟩
    rw [List.mapM_cons, hy, hr]
    rfl

theorem mapM_collect {ι α β σ : Type*} {f : ι → Except PyErr (List σ)} {P : α → σ → Prop}
    {Q : β → σ → Prop} {A : ι → List α} {B : ι → List β} {l : List ι}
    (h : ∀ i ∈ l, ∃ u v, f i = .ok (u ++ v) ∧ List.Forall₂ P (A i) u ∧ List.Forall₂ Q (B i) v) :
    ∃ R bs ss, l.mapM f = .ok R ∧ R.flatten.Perm (bs ++ ss) ∧ List.Forall₂ P (l.flatMap A) bs ∧
      List.Forall₂ Q (l.flatMap B) ss := by
  induction l with
  | nil => exact ⟨[], [], [], rfl, by simp, by simp, by simp⟩
  | cons i l ih =>
    obtain ⟨u, v, h1, h2, h3⟩ := h i (by simp)
    obtain ⟨R, bs, ss, k1, k2, k3, k4⟩ := ih fun x hx => h x (by simp [hx])
    refine ⟨(u ++ v) :: R, u ++ bs, v ++ ss, ?_, ?_, ?_, ?_⟩
    · rw [List.mapM_cons, h1, k1]
      rfl
    · rw [List.flatten_cons, List.append_assoc, List.append_assoc]
      apply List.Perm.append_left
      refine (List.Perm.append_left v k2).trans ?_
      rw [← List.append_assoc, ← List.append_assoc]
      exact List.Perm.append_right ss List.perm_append_comm
    · rw [List.flatMap_cons]
      exact List.rel_append h2 k3
    · rw [List.flatMap_cons]
      exact List.rel_append h3 k4

theorem count_flatMap_range {α : Type*} [BEq α] [LawfulBEq α] (n : ℕ) (B : ℕ → List α) (i : ℕ) (y : α) :
    ((List.range n).flatMap fun i => (B i).map (Prod.mk i)).count (i, y) =
      if i < n then (B i).count y else 0 := by
  induction n with
  | zero => simp
  | succ n ih =>
    rw [List.range_succ, List.flatMap_append, List.count_append, ih]
    have : (List.flatMap (fun i => (B i).map (Prod.mk i)) [n]).count (i, y) =
        if i = n then (B i).count y else 0 := by
      simp only [List.flatMap_cons, List.flatMap_nil, List.append_nil]
      split_ifs with h
      · subst h
        exact List.count_map_of_injective _ _ (Prod.mk_right_injective i) _
      · rw [List.count_eq_zero]
        intro hm
        obtain ⟨z, -, hz⟩ := List.mem_map.1 hm
        exact h (Prod.mk.inj hz).1.symm
    rw [this]
    by_cases h : i < n
    · rw [if_pos h, if_neg (by omega), if_pos (by omega), add_zero]
    · by_cases h2 : i = n
      · rw [if_neg h, if_pos h2, if_pos (by omega), zero_add]
      · rw [if_neg h, if_neg h2, if_neg (by omega)]

theorem pyGet_nat {α : Type*} (l : List α) (i : ℕ) : pyGet l (i : ℤ) = l[i]? := by
  unfold pyGet
  rw [if_pos (by omega), Int.toNat_natCast]

theorem colors_ok {C : Type*} (n : ℕ) (default : C) (conColors : Option (List (ℤ × ℤ × C)))
    (hl : ∀ e ∈ conColors.getD [], InRange n e) :
    ∃ t, connectionColorArray n default conColors = .ok t ∧ ∀ i j, i < n → j < n →
      ∃ c, cellAt t i j = some c ∧ PairColor n (conColors.getD []) default i j c := by
  have key : ∃ t, connectionColorArray n default (some (conColors.getD [])) = .ok t ∧ ∀ i j, i < n →
      j < n → ∃ c, cellAt t i j = some c ∧ PairColor n (conColors.getD []) default i j c := by
    obtain ⟨t, h1, -, -, h2, h3⟩ := C76_colors n default (conColors.getD []) hl
    refine ⟨t, h1, fun i j hi hj => ?_⟩
    by_cases hc : ∀ e ∈ conColors.getD [], ¬ Names n e i j
    · exact ⟨default, h2 i j hi hj hc, Or.inl ⟨hc, rfl⟩⟩
    · have hlast : ∀ l : List (ℤ × ℤ × C), ¬ (∀ e ∈ l, ¬ Names n e i j) →
          ∃ l1 e l2, l = l1 ++ e :: l2 ∧ Names n e i j ∧ ∀ e' ∈ l2, ¬ Names n e' i j := by
        intro l
        induction l with
        | nil => simp
        | cons e l ih =>
          intro h
          by_cases h' : ∀ e ∈ l, ¬ Names n e i j
          · refine ⟨[], e, l, rfl, ?_, h'⟩
            by_contra he
            exact h fun x hx => by
              rcases List.mem_cons.1 hx with rfl | hx
              · exact he
              · exact h' x hx
          · obtain ⟨l1, e1, l2, k1, k2⟩ := ih h'
            exact ⟨e :: l1, e1, l2, by rw [k1]; rfl, k2⟩
      obtain ⟨l1, e, l2, k1, k2, k3⟩ := hlast _ hc
      exact ⟨e.2.2, h3 i j l1 e l2 hi hj k1 k2 k3, Or.inr ⟨l1, e, l2, k1, k2, k3, rfl⟩⟩
  cases conColors with
  | none =>
    obtain ⟨t, h1, h2⟩ := key
    exact ⟨t, by simpa [connectionColorArray, colorLoop] using h1, h2⟩
  | some l => exact key

theorem colorAt_ok {t : List (List PyVal)} {i j : ℕ} {c : PyVal} (h : cellAt t i j = some c) :
    colorAt t i j = .ok c := by
  unfold cellAt at h
  unfold colorAt
  rw [pyGet_nat]
  cases hr : t[i]? with
  | none => simp [hr] at h
  | some r =>
    rw [hr, Option.bind_some] at h
    dsimp only
    rw [pyGet_nat, h]

namespace Lattice

/-- The assumptions on a lattice for plotting: consistent data whose atoms exist and have colours and
radii (possibly `None`). -/
structure Plottable (L : Lattice d ℝ) (D : LatticeData d ℝ) : Prop where
  data : L.data = some D
  sound : D.Sound
  alpha : ∀ x ∈ D.indices, 0 ≤ Idx.alpha x ∧ Idx.alpha x < L.struct.numBase
  atoms : ∀ α < L.struct.numBase, ∃ a c r, L.struct.atoms[α]? = some a ∧
    L.world.session.param a "color" = .ok c ∧ L.world.session.param a "radius" = .ok r

variable {L : Lattice d ℝ} {D : LatticeData d ℝ}

theorem Plottable.site (h : Plottable L D) {i : ℕ} (hi : i < D.numSites) : ∃ (p : Vec d ℝ)
    (a : Idx d) (α : ℕ), D.positions[i]? = some p ∧ D.indices[i]? = some a ∧ a.alpha = α ∧
    α < L.struct.numBase := by
  obtain ⟨w, hw⟩ := h.sound.rect
  have h1 : i < D.positions.length := by rw [hw.positions]; exact hi
  have h2 : i < D.indices.length := hi
  obtain ⟨h3, h4⟩ := h.alpha D.indices[i] (List.getElem_mem h2)
  refine ⟨D.positions[i], D.indices[i], (Idx.alpha D.indices[i]).toNat, by simp [h1], by simp [h2],
    by omega, by omega⟩

theorem bondLine_ok (h : Plottable L D) {l : List (ℤ × ℤ × PyVal)} {t : List (List PyVal)}
    (ht : ∀ i j, i < L.struct.numBase → j < L.struct.numBase →
      ∃ c, cellAt t i j = some c ∧ PairColor L.struct.numBase l (.str "k") i j c) {i j : ℕ}
    (hi : i < D.numSites) (hj : j < D.numSites) :
    ∃ s, bondLine D t i j = .ok s ∧ IsBond D L.struct.numBase l (i, j) s := by
  obtain ⟨p, a, α, h1, h2, h3, h4⟩ := h.site hi
  obtain ⟨q, b, β, k1, k2, k3, k4⟩ := h.site hj
  obtain ⟨c, hc, hp⟩ := ht α β h4 k4
  unfold bondLine
  rw [h1, h2, k1, k2]
  dsimp only
  rw [h3, k3, colorAt_ok hc]
  refine ⟨_, rfl, a, b, h1, ?_, h2, k2, ?_⟩
  · rw [k1]
    exact congrArg some (funext fun k => by ring)
  · rw [h3, k3]
    exact hp

theorem stubLine_ok (h : Plottable L D) {t : List (List PyVal)}
    (ht : ∀ i j, i < L.struct.numBase → j < L.struct.numBase → cellAt t i j = some (.str "0.5"))
    (pscale : ℝ) {i j : ℕ} (v : Fin d → ℤ) (hi : i < D.numSites) (hj : j < D.numSites) :
    ∃ s, stubLine L.struct.basis D t pscale i (j, v) = .ok s ∧
      IsStub L.struct.basis D pscale (i, j, v) s := by
  obtain ⟨p, a, α, h1, h2, h3, h4⟩ := h.site hi
  obtain ⟨q, b, β, k1, k2, k3, k4⟩ := h.site hj
  unfold stubLine
  rw [h1, h2, k1, k2]
  dsimp only
  rw [h3, k3, colorAt_ok (ht α β h4 k4)]
  refine ⟨_, rfl, q, h1, k1, rfl, fun k => ?_⟩
  dsimp only
  rw [LatticeBasis.translate_eq]
  dsimp only
  have : ∑ m, (((-v m : ℤ)) : ℝ) * L.struct.basis.vectors m k =
      - ∑ m, (v m : ℝ) * L.struct.basis.vectors m k := by
    rw [← Finset.sum_neg_distrib]
    exact Finset.sum_congr rfl fun m _ => by push_cast; ring
  rw [this]
  ring

theorem stubLinks_ok {i : ℕ} {r : List (Entry d)} {w : ℕ} (hw : D.Rect w)
    (hr : D.entries[i]? = some r) : stubLinks D i = .ok
      ((r.filter (D.sel i none (some true) false)).map fun e => (e.nbr, e.nvec)) := by
  have h := hw.cols
  have h1 : D.neighbors[i]? = some (r.map Entry.nbr) := by rw [h.nbr]; simp [hr]
  have h2 : D.distances[i]? = some (r.map Entry.level) := by rw [h.level]; simp [hr]
  have h3 : D.pmask[i]? = some (r.map Entry.per) := by rw [h.per]; simp [hr]
  have h4 : D.pnvecs[i]? = some (r.map Entry.nvec) := by rw [h.nvec]; simp [hr]
  have hm : D.neighborMask i none (some true) false = .ok (r.map (D.sel i none (some true) false)) := by
    unfold neighborMask
    rw [h1, h2, h3]
    simp [sel, List.zipWith_map, List.zipWith_self]
  unfold stubLinks
  rw [hm, h1, h4]
  dsimp only
  rw [maskRow_map, maskRow_map, List.zip_map']

/-- The neighbours drawn for site `i`. -/
def bondsOf (D : LatticeData d ℝ) (i : ℕ) : List ℕ :=
  match D.entries[i]? with
  | none => []
  | some r => (r.filter (D.sel i none (some false) true)).map Entry.nbr

/-- The periodic neighbours drawn for site `i`. -/
def stubsOf (D : LatticeData d ℝ) (showPeriodic : Bool) (i : ℕ) : List (ℕ × (Fin d → ℤ)) :=
  if showPeriodic then
    match D.entries[i]? with
    | none => []
    | some r => (r.filter (D.sel i none (some true) false)).map fun e => (e.nbr, e.nvec)
  else []

theorem siteSegments_ok (h : Plottable L D) {l : List (ℤ × ℤ × PyVal)} {t t' : List (List PyVal)}
    (ht : ∀ i j, i < L.struct.numBase → j < L.struct.numBase →
      ∃ c, cellAt t i j = some c ∧ PairColor L.struct.numBase l (.str "k") i j c)
    (ht' : ∀ i j, i < L.struct.numBase → j < L.struct.numBase → cellAt t' i j = some (.str "0.5"))
    (pscale : ℝ) (showPeriodic : Bool) {i : ℕ} (hi : i < D.numSites) :
    ∃ u v, siteSegments L.struct.basis D t t' pscale showPeriodic i = .ok (u ++ v) ∧
      List.Forall₂ (IsBond D L.struct.numBase l) ((bondsOf D i).map (Prod.mk i)) u ∧
      List.Forall₂ (IsStub L.struct.basis D pscale) ((stubsOf D showPeriodic i).map (Prod.mk i)) v := by
  obtain ⟨w, hw⟩ := h.sound.rect
  obtain ⟨r, hr, hm, hg⟩ := hw.getNeighbors hi
  have hlt : ∀ e ∈ r, ∀ p u, D.sel i none p u e = true → e.nbr < D.numSites := by
    intro e he p u hs
    refine h.sound.neighbor r hm e he ?_
    unfold sel at hs
    simp only [levelSel_none, Bool.and_eq_true, decide_eq_true_eq] at hs
    exact hs.1.1
  have hb : ∀ j ∈ bondsOf D i, ∃ s, bondLine D t i j = .ok s := by
    intro j hj
    unfold bondsOf at hj
    rw [hr] at hj
    obtain ⟨e, he, rfl⟩ := List.mem_map.1 hj
    obtain ⟨he, hs⟩ := List.mem_filter.1 he
    obtain ⟨s, hs, -⟩ := bondLine_ok h ht hi (hlt e he _ _ hs)
    exact ⟨s, hs⟩
  obtain ⟨u, hu, hfu⟩ := mapM_total hb
  have hfu' : List.Forall₂ (IsBond D L.struct.numBase l) ((bondsOf D i).map (Prod.mk i)) u := by
    rw [List.forall₂_map_left_iff]
    refine List.forall₂_iff_get.2 ⟨hfu.length_eq, fun k h1 h2 => ?_⟩
    have hk := (List.forall₂_iff_get.1 hfu).2 k h1 h2
    have hj : (bondsOf D i).get ⟨k, h1⟩ ∈ bondsOf D i := List.get_mem _ _
    revert hk hj
    generalize (bondsOf D i).get ⟨k, h1⟩ = j
    generalize u.get ⟨k, h2⟩ = s
    intro hk hj
    unfold bondsOf at hj
    rw [hr] at hj
    obtain ⟨e, he, rfl⟩ := List.mem_map.1 hj
    obtain ⟨he, hs⟩ := List.mem_filter.1 he
    obtain ⟨s', hs', hB⟩ := bondLine_ok h ht hi (hlt e he _ _ hs)
    rw [hk] at hs'
    cases hs'
    exact hB
  have hbo : bondsOf D i = (r.filter (D.sel i none (some false) true)).map Entry.nbr := by
    unfold bondsOf
    rw [hr]
  unfold siteSegments
  rw [hg none (some false) true]
  dsimp only
  rw [← hbo, hu]
  dsimp only
  cases showPeriodic with
  | false => exact ⟨u, [], by simp, hfu', by simp [stubsOf]⟩
  | true =>
    have hso : stubsOf D true i =
        (r.filter (D.sel i none (some true) false)).map fun e => (e.nbr, e.nvec) := by
      unfold stubsOf
      rw [if_pos rfl, hr]
    have hst : ∀ x ∈ stubsOf D true i, ∃ s, stubLine L.struct.basis D t' pscale i x = .ok s ∧
        IsStub L.struct.basis D pscale (i, x) s := by
      intro x hx
      rw [hso] at hx
      obtain ⟨e, he, rfl⟩ := List.mem_map.1 hx
      obtain ⟨he, hs⟩ := List.mem_filter.1 he
      exact stubLine_ok h ht' pscale e.nvec hi (hlt e he _ _ hs)
    obtain ⟨v, hv, hfv⟩ := mapM_total fun x hx => (hst x hx).imp fun _ hs => hs.1
    rw [if_pos rfl, stubLinks_ok hw hr, ← hso]
    dsimp only
    rw [hv]
    refine ⟨u, v, rfl, hfu', ?_⟩
    rw [List.forall₂_map_left_iff]
    refine List.forall₂_iff_get.2 ⟨hfv.length_eq, fun k h1 h2 => ?_⟩
    have hk := (List.forall₂_iff_get.1 hfv).2 k h1 h2
    obtain ⟨s', hs', hB⟩ := hst _ (List.get_mem _ ⟨k, h1⟩)
    rw [hk] at hs'
    cases hs'
    exact hB

theorem count_bonds {i : ℕ} {w : ℕ} (hw : D.Rect w) {nb : List ℕ}
    (h : D.getNeighbors i none (some false) false = .ok nb) (j : ℕ) :
    (bondsOf D i).count j = if i < j then nb.count j else 0 := by
  by_cases hi : i < D.numSites
  · obtain ⟨r, hr, -, hg⟩ := hw.getNeighbors hi
    rw [hg] at h
    cases h
    unfold bondsOf
    rw [hr]
    dsimp only
    rw [List.count_eq_countP, List.count_eq_countP, List.countP_map, List.countP_map,
      List.countP_filter, List.countP_filter]
    split_ifs with hij
    · refine List.countP_congr fun e _ => ?_
      simp only [Function.comp_apply, sel, levelSel_none, Bool.and_eq_true, beq_iff_eq,
        decide_eq_true_eq, Bool.or_eq_true]
      constructor
      · rintro ⟨h1, h2⟩
        exact ⟨h1, ⟨h2.1.1, Or.inl rfl⟩, h2.2⟩
      · rintro ⟨h1, h2⟩
        exact ⟨h1, ⟨h2.1.1, Or.inr (h1 ▸ hij)⟩, h2.2⟩
    · rw [List.countP_eq_zero]
      intro e _ he
      simp only [Function.comp_apply, sel, levelSel_none, Bool.and_eq_true, beq_iff_eq,
        decide_eq_true_eq, Bool.or_eq_true] at he
      obtain ⟨h1, ⟨-, h2⟩, -⟩ := he
      rcases h2 with h2 | h2
      · cases h2
      · exact hij (h1 ▸ h2)
  · rw [hw.getNeighbors_error (by omega)] at h
    cases h

theorem count_stubs {i : ℕ} {r : List (Entry d)} (hr : D.entries[i]? = some r) (j : ℕ)
    (t : Fin d → ℤ) : (stubsOf D true i).count (j, t) =
      r.countP fun e => decide (e.level < D.invalidDistidx ∧ e.per = true ∧ e.nbr = j ∧ e.nvec = t) := by
  unfold stubsOf
  rw [if_pos rfl, hr]
  dsimp only
  rw [List.count_eq_countP, List.countP_map, List.countP_filter]
  refine List.countP_congr fun e _ => ?_
  simp only [Function.comp_apply, sel, levelSel_none, Bool.and_eq_true, beq_iff_eq,
    decide_eq_true_eq, Bool.or_eq_true, Prod.mk.injEq]
  constructor
  · rintro ⟨⟨h1, h2⟩, ⟨h3, -⟩, h4⟩
    exact ⟨h3, h4, h1, h2⟩
  · rintro ⟨h3, h4, h1, h2⟩
    exact ⟨⟨h1, h2⟩, ⟨h3, Or.inl rfl⟩, h4⟩

theorem getPositions_eq (D : LatticeData d ℝ) (α : ℤ) : D.getPositions α =
    (D.indices.zip D.positions).filterMap fun x => if Idx.alpha x.1 = α then some x.2 else none := by
  unfold LatticeData.getPositions maskRow
  generalize D.indices = l
  generalize D.positions = p
  induction l generalizing p with
  | nil => simp
  | cons a l ih =>
    cases p with
    | nil => simp
    | cons q p =>
      specialize ih p
      by_cases ha : Idx.alpha a = α
      · have : (a (Fin.last d) = α) := ha
        simp [ha, this, ih]
      · have : ¬ (a (Fin.last d) = α) := ha
        simp [ha, this, ih]

/-- The segments are a line for each element of `bonds` and each element of `stubs`.  For every site,
`bonds` has each of its regular neighbours with a larger number as often as it is listed; `stubs` has
all its periodic neighbours with their translations as often as they are listed. -/
structure Segments (L : Lattice d ℝ) (D : LatticeData d ℝ) (l : List (ℤ × ℤ × PyVal)) (pscale : ℝ)
    (showPeriodic : Bool) (bonds : List (ℕ × ℕ)) (stubs : List (ℕ × ℕ × (Fin d → ℤ)))
    (segments : List (Segment d ℝ)) : Prop where
  lines : ∃ bs ss, segments.Perm (bs ++ ss) ∧
    List.Forall₂ (IsBond D L.struct.numBase l) bonds bs ∧
    List.Forall₂ (IsStub L.struct.basis D pscale) stubs ss
  bonds_count : ∀ i nb, D.getNeighbors i none (some false) false = .ok nb → ∀ j,
    bonds.count (i, j) = if i < j then nb.count j else 0
  bonds_site : ∀ x ∈ bonds, x.1 < D.numSites
  stubs_count : showPeriodic = true → ∀ i r, D.entries[i]? = some r → ∀ j t, stubs.count (i, j, t) =
    r.countP fun e => decide (e.level < D.invalidDistidx ∧ e.per = true ∧ e.nbr = j ∧ e.nvec = t)
  stubs_site : ∀ x ∈ stubs, x.1 < D.numSites
  no_stubs : showPeriodic = false → stubs = []

/-- C100: `plot` draws every site once at its position, with the radius, name and colour of its atom
(`C0`, `C1`, … for atoms without colour); one line for every pair of regular neighbours, in the colour
of the pair of atoms; for every periodic neighbour a grey line towards the copy of the neighbour beside
the site; and the numbers of the sites beside them. -/
theorem C100_plot (hd : d ≤ 3) (h : Plottable L D) (ragged : Bool) (pscale offset : ℝ)
    (showPeriodic showIndices : Bool) (conColors : Option (List (ℤ × ℤ × PyVal)))
    (hc : ∀ e ∈ conColors.getD [], InRange L.struct.numBase e)
    (hi : showIndices = true → d = 1 → ragged = true) :
    ∃ G bonds stubs, L.plot ragged pscale showPeriodic showIndices offset conColors = .ok G ∧
      G.markers.length = L.struct.numBase ∧
      (∀ (α : ℕ) m, G.markers[α]? = some m → ∃ a c, L.struct.atoms[α]? = some a ∧
        L.world.session.param a "color" = .ok c ∧ L.world.session.param a "radius" = .ok m.radius ∧
        m.label = L.world.session.nameAttr a ∧
        m.color = (if c = .none ∨ c = .str "" ∨ c = .num 0 then .str ("C" ++ toString α) else c) ∧
        m.points = (D.indices.zip D.positions).filterMap fun x =>
          if Idx.alpha x.1 = α then some x.2 else none) ∧
      Segments L D (conColors.getD []) pscale showPeriodic bonds stubs G.segments ∧
      (showIndices = false → G.labels = []) ∧
      (showIndices = true → G.labels.length = D.numSites ∧ ∀ (i : ℕ) (p : Vec d ℝ), D.positions[i]? = some p →
        G.labels[i]? = some (toString i, fun k => p k + offset)) := by
  obtain ⟨w, hw⟩ := h.sound.rect
  obtain ⟨t, ht, hcol⟩ := colors_ok L.struct.numBase (.str "k") conColors hc
  obtain ⟨t', ht', hcol'⟩ := colors_ok L.struct.numBase (PyVal.str "0.5") none (by simp)
  have hpc : ∀ i j, i < L.struct.numBase → j < L.struct.numBase →
      cellAt t' i j = some (.str "0.5") := by
    intro i j hi hj
    obtain ⟨c, h1, h2⟩ := hcol' i j hi hj
    rcases h2 with ⟨-, rfl⟩ | ⟨l1, e, l2, h3, -⟩
    · exact h1
    · simp at h3
  have hmark : ∀ α ∈ List.range L.struct.numBase, ∃ m, L.siteMarkers α = .ok m := by
    intro α hα
    obtain ⟨a, c, r, h1, h2, h3⟩ := h.atoms α (List.mem_range.1 hα)
    unfold siteMarkers
    rw [pyGet_nat, h1]
    dsimp only
    rw [h2, h.data]
    dsimp only
    rw [h3]
    exact ⟨_, rfl⟩
  obtain ⟨ms, hms, hfm⟩ := mapM_total hmark
  obtain ⟨R, bs, ss, hR, hperm, hB, hS⟩ := mapM_collect (l := List.range D.numSites)
    fun i hi => siteSegments_ok h hcol hpc pscale showPeriodic (List.mem_range.1 hi)
  have hlab : ∃ labels, (if showIndices then indexLabels ragged offset D.positions else .ok []) =
      .ok labels ∧ (showIndices = false → labels = []) ∧
      (showIndices = true → labels.length = D.numSites ∧ ∀ (i : ℕ) (p : Vec d ℝ), D.positions[i]? = some p →
        labels[i]? = some (toString i, fun k => p k + offset)) := by
    cases showIndices with
    | false => exact ⟨[], rfl, fun _ => rfl, by simp⟩
    | true =>
      rw [if_pos rfl]
      unfold indexLabels
      rw [if_neg (by
        rintro ⟨h1, h2, -⟩
        rw [hi rfl h1] at h2
        cases h2)]
      refine ⟨_, rfl, by simp, fun _ => ⟨by simp [hw.positions], fun i p hp => ?_⟩⟩
      simp [hp]
  obtain ⟨labels, hl1, hl2, hl3⟩ := hlab
  refine ⟨⟨ms, R.flatten, labels⟩, _, _, ?_, ?_, ?_, ⟨⟨bs, ss, hperm, hB, hS⟩, ?_, ?_, ?_, ?_, ?_⟩, hl2,
    hl3⟩
  · unfold plot
    rw [if_neg (by omega), hms]
    dsimp only
    rw [ht, ht', h.data]
    dsimp only
    rw [hR]
    dsimp only
    rw [hl1]
  · have := hfm.length_eq
    simpa using this.symm
  · intro α m hm
    have hm : ms[α]? = some m := hm
    obtain ⟨hα, hget⟩ := List.getElem?_eq_some_iff.1 hm
    have hα' : α < L.struct.numBase := by
      have := hfm.length_eq
      simp at this
      omega
    have hk := (List.forall₂_iff_get.1 hfm).2 α (by simpa using hα') hα
    obtain ⟨a, c, r, h1, h2, h3⟩ := h.atoms α hα'
    simp only [List.get_eq_getElem, List.getElem_range] at hk
    rw [hget] at hk
    unfold siteMarkers at hk
    rw [pyGet_nat, h1] at hk
    dsimp only at hk
    rw [h2, h.data] at hk
    dsimp only at hk
    rw [h3] at hk
    cases hk
    refine ⟨a, c, h1, h2, h3, rfl, ?_, getPositions_eq D α⟩
    unfold siteColor
    cases c with
    | none => rfl
    | str s => by_cases hs : s = "" <;> simp [PyVal.truthy, hs]
    | num q => by_cases hq : q = 0 <;> simp [PyVal.truthy, hq]
    | obj o => simp [PyVal.truthy]
  · intro i nb hnb j
    rw [count_flatMap_range]
    rw [if_pos, count_bonds hw hnb]
    by_contra hn
    rw [hw.getNeighbors_error (by omega)] at hnb
    cases hnb
  · intro x hx
    obtain ⟨i, h1, h2⟩ := List.mem_flatMap.1 hx
    obtain ⟨j, -, rfl⟩ := List.mem_map.1 h2
    exact List.mem_range.1 h1
  · rintro rfl i r hr j t
    rw [count_flatMap_range, if_pos, count_stubs hr]
    have := (List.getElem?_eq_some_iff.1 hr).1
    rwa [hw.entries_length] at this
  · intro x hx
    obtain ⟨i, h1, h2⟩ := List.mem_flatMap.1 hx
    obtain ⟨j, -, rfl⟩ := List.mem_map.1 h2
    exact List.mem_range.1 h1
  · rintro rfl
    simp [stubsOf]

/-- After any history of configuration calls, `build` and `set_periodic`, the lattice can be plotted
if it has data (with at most 256 different distances) and its atoms have colours and radii. -/
theorem plottable_run (hd : 0 < d) {env : Env ℝ} {w : World d ℝ} (hw : Reachable env w)
    (ops : List (Op d ℝ)) {D : LatticeData d ℝ} (hD : (run env (ofWorld w) ops).data = some D)
    (h256 : D.distvals.length ≤ 256)
    (ha : ∀ a ∈ (run env (ofWorld w) ops).struct.atoms, ∃ c r,
      (run env (ofWorld w) ops).world.session.param a "color" = .ok c ∧
      (run env (ofWorld w) ops).world.session.param a "radius" = .ok r) :
    Plottable (run env (ofWorld w) ops) D := by
  obtain ⟨h1, h2⟩ := run_built hd hw ops
  refine ⟨hD, (C99_history hd hw ops hD h256).1, (h2 D hD).alpha, fun α hα => ?_⟩
  have hlen : α < (run env (ofWorld w) ops).struct.atoms.length :=
    hα.trans_le (h1.good hd).atoms_ge
  obtain ⟨c, r, h3, h4⟩ := ha _ (List.getElem_mem hlen)
  exact ⟨_, c, r, List.getElem?_eq_getElem hlen, h3, h4⟩

/-- C100 for all histories of configuration calls, `build` and `set_periodic`, each of which may
succeed or raise: if the lattice has data (with at most 256 different distances) and its atoms have
colours and radii, `plot` succeeds in up to three dimensions, with one group of markers for each atom
and the lines described by `Segments`.  The grey lines are those of the stored periodic neighbours. -/
theorem C100_history (hd : 0 < d) (hd3 : d ≤ 3) {env : Env ℝ} {w : World d ℝ}
    (hw : Reachable env w) (ops : List (Op d ℝ)) {D : LatticeData d ℝ}
    (hD : (run env (ofWorld w) ops).data = some D) (h256 : D.distvals.length ≤ 256)
    (ha : ∀ a ∈ (run env (ofWorld w) ops).struct.atoms, ∃ c r,
      (run env (ofWorld w) ops).world.session.param a "color" = .ok c ∧
      (run env (ofWorld w) ops).world.session.param a "radius" = .ok r)
    (ragged : Bool) (pscale offset : ℝ) (showPeriodic : Bool) :
    ∃ G bonds stubs, (run env (ofWorld w) ops).plot ragged pscale showPeriodic false offset none =
        .ok G ∧
      G.markers.length = (run env (ofWorld w) ops).struct.numBase ∧
      Segments (run env (ofWorld w) ops) D [] pscale showPeriodic bonds stubs G.segments ∧
      (⊤ ∈ D.distvals → showPeriodic = true → ∀ i j t,
        (i, j, t) ∈ stubs ↔ ∃ x, Per D i j t x) := by
  obtain ⟨G, bonds, stubs, h1, h2, -, h3, -⟩ := C100_plot hd3 (plottable_run hd hw ops hD h256 ha)
    ragged pscale offset showPeriodic false none (by simp) (by simp)
  refine ⟨G, bonds, stubs, h1, h2, h3, fun htop hp i j t => ?_⟩
  have hweak := run_weak hd hw ops hD h256
  have hlev : ∀ l, l < D.invalidDistidx ↔ ∃ x : ℝ, D.distvals[l]? = some (x : WithTop ℝ) := by
    intro l
    constructor
    · intro hl
      obtain ⟨x, hx, hne⟩ := finiteLevel_of_lt hweak.sorted hweak.inv hl
      obtain ⟨y, rfl⟩ := WithTop.ne_top_iff_exists.1 hne
      exact ⟨y, hx⟩
    · rintro ⟨x, hx⟩
      by_contra hn
      have hlt := (List.getElem?_eq_some_iff.1 hx).1
      have hl : l = D.invalidDistidx := by
        have := hweak.inv
        omega
      subst hl
      exact not_finiteLevel hweak.sorted hweak.inv htop ⟨_, hx, WithTop.coe_ne_top⟩
  constructor
  · intro hm
    have hi : i < D.entries.length := by
      obtain ⟨w', hw'⟩ := hweak.sound.rect
      rw [hw'.entries_length]
      exact h3.stubs_site _ hm
    have h0 := List.count_pos_iff.2 hm
    rw [h3.stubs_count hp i _ (List.getElem?_eq_getElem hi) j t, List.countP_pos_iff] at h0
    obtain ⟨e, he, hprop⟩ := h0
    obtain ⟨e1, e2, e3, e4⟩ := of_decide_eq_true hprop
    obtain ⟨x, hx⟩ := (hlev _).1 e1
    exact ⟨x, _, List.getElem?_eq_getElem hi, e, he, e2, e3, e4, hx⟩
  · rintro ⟨x, r, hr, e, he, e2, e3, e4, hx⟩
    rw [← List.count_pos_iff, h3.stubs_count hp i r hr j t, List.countP_pos_iff]
    exact ⟨e, he, decide_eq_true ⟨(hlev _).2 ⟨x, hx⟩, e2, e3, e4⟩⟩

/-- C100: in more than three dimensions plotting raises `ValueError`; a lattice that has atoms but was
not built raises `IndexError`. -/
theorem C100_errors (L : Lattice d ℝ) (ragged : Bool) (pscale offset : ℝ)
    (showPeriodic showIndices : Bool) (conColors : Option (List (ℤ × ℤ × PyVal))) :
    (3 < d → L.plot ragged pscale showPeriodic showIndices offset conColors = .error .value) ∧
    (d ≤ 3 → L.data = none → 0 < L.struct.numBase → ∀ a c, L.struct.atoms[0]? = some a →
      L.world.session.param a "color" = .ok c →
      L.plot ragged pscale showPeriodic showIndices offset conColors = .error .index) := by
  refine ⟨fun h => ?_, fun h1 h2 h3 a c h4 h5 => ?_⟩
  · unfold plot
    rw [if_pos h]
  · unfold plot
    rw [if_neg (by omega)]
    obtain ⟨n, hn⟩ := Nat.exists_eq_succ_of_ne_zero h3.ne'
    rw [hn, List.range_succ_eq_map, List.mapM_cons]
    have : L.siteMarkers 0 = .error .index := by
      unfold siteMarkers
      rw [pyGet_nat, h4]
      dsimp only
      rw [h5, h2]
    rw [this]
    rfl

/-- A lattice with an atom which was not built. -/
example (env : Env ℝ) (s : Session) : ∃ w, Preset.configure env s (LatticeBasis.hypercubic 2 1)
    (Preset.oneAtom (.name "A") 1) = .ok w ∧
    (ofWorld w).plot false (1 / 2) true false (1 / 10) none = .error .index := by
  obtain ⟨w, L, A, D, table, h1, h2, h⟩ := exists_grid (d := 2) (by norm_num) (by norm_num) env s
    (.name "A") ![1, 1] (by decide) true
  obtain ⟨a, a1, -, -, -, -, a3, -⟩ := oneAtom_asked (by norm_num) (atom := .name "A") h1
  refine ⟨w, h1, (C100_errors _ _ _ _ _ _ _).2 (by norm_num) rfl ?_ a _ ?_
    (param_of_getItem (by rfl) a3)⟩
  · have := (Lattice.build_sites (by norm_num) (L := Lattice.ofWorld w) (configure_reachable h1)
      { shape := .size (List.ofFn fun k => ((![1, 1] k : ℕ) : ℝ)) true
        primitive := true }).1
    rw [h2] at this
    have hn : L.world.struct.numBase = 1 := h.numBase
    rw [this] at hn
    change 0 < w.struct.numBase
    exact hn ▸ Nat.one_pos
  · change w.struct.atoms[0]? = some a
    rw [a1]
    rfl

/-- C100: the line to a periodic neighbour has the stored distance scaled by `pscale`; the lines of
the two partners have opposite directions, and for the default scale of one half they meet up to the
translation of the boundary condition. -/
theorem C100_stubs {A : Analysis d ℝ} {pscale : ℝ} (hp : pscale ≠ 0) {i j : ℕ} {t : Fin d → ℤ}
    {s s' : Segment d ℝ} (h : IsStub L.struct.basis D pscale (i, j, t) s)
    (h' : IsStub L.struct.basis D pscale (j, i, -t) s') :
    (∀ x, Image L.struct A D.indices D.positions i j t x →
      x = npRound 6 (Real.sqrt (∑ k, (s.vec k / pscale) ^ 2))) ∧
    (∀ k, s'.vec k = -s.vec k) ∧
    (pscale = 1 / 2 → ∀ k, s'.start k + s'.vec k =
      s.start k + s.vec k + ∑ m, (t m : ℝ) * L.struct.basis.vectors m k) := by
  obtain ⟨q, h1, h2, -, h3⟩ := h
  obtain ⟨q', k1, k2, -, k3⟩ := h'
  dsimp only at h1 h2 h3 k1 k2 k3
  rw [h2] at k1
  rw [h1] at k2
  cases k1
  cases k2
  have hneg : ∀ k, ∑ m, (((-t) m : ℤ) : ℝ) * L.struct.basis.vectors m k =
      - ∑ m, (t m : ℝ) * L.struct.basis.vectors m k := by
    intro k
    rw [← Finset.sum_neg_distrib]
    exact Finset.sum_congr rfl fun m _ => by rw [Pi.neg_apply]; push_cast; ring
  refine ⟨?_, ?_, ?_⟩
  · rintro x ⟨p, q', a, b, e1, e2, -, -, rfl, -⟩
    rw [h1] at e1
    rw [h2] at e2
    cases e1
    cases e2
    congr 2
    refine Finset.sum_congr rfl fun k _ => ?_
    rw [h3, mul_div_cancel_left₀ _ hp]
    ring
  · intro k
    rw [k3, h3, hneg]
    ring
  · rintro rfl k
    rw [k3, h3, hneg]
    ring

/-- The two lines of the ring of three sites: from site 0 half a step to the left, from site 2 half a
step to the right. -/
example : ∃ (b : LatticeBasis 1 ℝ) (D : LatticeData 1 ℝ) (s s' : Segment 1 ℝ),
    IsStub b D (1 / 2) (0, 2, ![3]) s ∧ IsStub b D (1 / 2) (2, 0, -![3]) s' ∧
    s.vec = ![-1 / 2] ∧ s'.vec = ![1 / 2] := by
  obtain ⟨b, -, hv⟩ := LatticeBasis.init_of_det (rows := (1 : Matrix (Fin 1) (Fin 1) ℝ)) (by simp)
  refine ⟨b, ⟨[![0, 0], ![1, 0], ![2, 0]], [![0], ![1], ![2]], [], [], [], [], [], [], 3, 1, none⟩,
    ⟨![0], ![-1 / 2], .str "0.5"⟩, ⟨![2], ![1 / 2], .str "0.5"⟩, ⟨![2], rfl, rfl, rfl, ?_⟩,
    ⟨![0], rfl, rfl, rfl, ?_⟩, rfl, rfl⟩
  · intro k
    fin_cases k
    norm_num [hv]
  · intro k
    fin_cases k
    norm_num [hv]

end Lattice

/-- C100 for the grids of `finite_hypercubic` with a new atom: there is one line for every pair of
cells one step apart, and no other line. -/
theorem C100_grid (hd : 0 < d) (hd3 : d ≤ 3) (env : Env ℝ) (s : Session) (n : String)
    (size : Fin d → ℕ) (hs : ∀ k, 0 < size k) (isInt ragged : Bool) (pscale offset : ℝ)
    (showPeriodic : Bool) :
    ∃ L D G bonds, Preset.finiteHypercubic env s (.size (List.ofFn fun k => (size k : ℝ)) isInt) 1
        (.name n) 1 true none = .ok L ∧ L.data = some D ∧
      L.plot ragged pscale showPeriodic false offset none = .ok G ∧ G.markers.length = 1 ∧
      Lattice.Segments L D [] pscale showPeriodic bonds [] G.segments ∧ bonds.Nodup ∧
      ∀ i j, (i, j) ∈ bonds ↔ i < j ∧ ∃ a b : Idx d, D.indices[i]? = some a ∧
        D.indices[j]? = some b ∧ ∑ k, |b.cell k - a.cell k| = 1 := by
  obtain ⟨w, L, A, D, table, h1, h2, h⟩ := exists_grid hd (by omega) env s (.name n) size hs isInt
  obtain ⟨at', a1, -, -, -, a2, a3, -⟩ := oneAtom_asked hd (atom := .name n) h1
  have hreach := configure_reachable h1
  have hrun : Lattice.run env (Lattice.ofWorld w) [.build
      { shape := .size (List.ofFn fun k => (size k : ℝ)) isInt
        primitive := true }] = L := by
    change ((Lattice.ofWorld w).build env _).1 = L
    rw [h2]
  have hworld : L.world = w := by
    have := (Lattice.build_sites hd (L := Lattice.ofWorld w) hreach
      { shape := .size (List.ofFn fun k => (size k : ℝ)) isInt
        primitive := true }).1
    rw [h2] at this
    exact this
  obtain ⟨G, bonds, stubs, g1, g2, g3, -⟩ := Lattice.C100_history hd hd3 hreach [.build
      { shape := .size (List.ofFn fun k => (size k : ℝ)) isInt
        primitive := true }] (by rw [hrun]; exact h.data) h.levels (by
      rw [hrun]
      change ∀ a ∈ L.world.struct.atoms, _
      rw [hworld, a1]
      intro a ha
      rw [List.mem_singleton.1 ha]
      exact ⟨_, _, param_of_getItem (by rfl) a3, param_of_getItem (by rfl) a2⟩)
      ragged pscale offset showPeriodic
  rw [hrun] at g1 g2 g3
  have hstubs : stubs = [] := by
    cases showPeriodic with
    | false => exact g3.no_stubs rfl
    | true =>
      by_contra hne
      obtain ⟨x, hx⟩ := List.exists_mem_of_ne_nil _ hne
      have hlt := g3.stubs_site x hx
      obtain ⟨i, j, t⟩ := x
      obtain ⟨hc, -⟩ := set_cols h.set h.top h.levels
      have hi : i < D.entries.length := by
        rw [hc.entries_eq, List.length_map, h.length, ← h.sites.length_eq]
        exact hlt
      have h0 := List.count_pos_iff.2 hx
      rw [g3.stubs_count rfl i _ (List.getElem?_eq_getElem hi) j t, List.countP_pos_iff] at h0
      obtain ⟨e, he, hp⟩ := h0
      have hp := (of_decide_eq_true hp).2.1
      obtain ⟨row, hrow⟩ : ∃ row, row = D.entries[i] := ⟨_, rfl⟩
      rw [← hrow] at he
      have hrow' : row ∈ D.entries := hrow ▸ List.getElem_mem hi
      rw [hc.entries_eq] at hrow'
      obtain ⟨r, -, rfl⟩ := List.mem_map.1 hrow'
      obtain ⟨z, -, rfl⟩ := List.mem_map.1 he
      cases hp
  subst hstubs
  classical
  have hmem : ∀ i j, bonds.count (i, j) = if i < j ∧ ∃ a b : Idx d, D.indices[i]? = some a ∧
      D.indices[j]? = some b ∧ ∑ k, |b.cell k - a.cell k| = 1 then 1 else 0 := by
    intro i j
    by_cases hi : i < D.numSites
    · obtain ⟨l, -, hl, hnd, hm⟩ := h.regular hd (List.getElem?_eq_getElem hi)
      rw [g3.bonds_count i l hl j]
      by_cases hij : i < j
      · rw [if_pos hij]
        by_cases hj : j ∈ l
        · rw [List.count_eq_one_of_mem hnd hj, if_pos]
          obtain ⟨b, hb, hsum⟩ := (hm j).1 hj
          exact ⟨hij, _, b, List.getElem?_eq_getElem hi, hb, hsum⟩
        · rw [List.count_eq_zero_of_not_mem hj, if_neg]
          rintro ⟨-, a, b, ha, hb, hsum⟩
          rw [List.getElem?_eq_getElem hi] at ha
          cases ha
          exact hj ((hm j).2 ⟨b, hb, hsum⟩)
      · rw [if_neg hij, if_neg fun hc => hij hc.1]
    · rw [List.count_eq_zero_of_not_mem fun hm => hi (g3.bonds_site _ hm), if_neg]
      rintro ⟨-, a, -, ha, -⟩
      exact hi (List.getElem?_eq_some_iff.1 ha).1
  refine ⟨L, D, G, bonds, ?_, h.data, g1, ?_, g3, ?_, ?_⟩
  · unfold Preset.finiteHypercubic
    rw [h1]
    dsimp only
    rw [h2]
  · rw [g2, h.numBase]
  · rw [List.nodup_iff_count_le_one]
    rintro ⟨i, j⟩
    rw [hmem]
    split_ifs <;> omega
  · intro i j
    rw [← List.count_pos_iff, hmem]
    split_ifs with hc
    · exact ⟨fun _ => hc, fun _ => Nat.one_pos⟩
    · exact ⟨fun h0 => absurd h0 (Nat.lt_irrefl 0), fun h0 => absurd h0 hc⟩

/-- C100 for `finite_hypercubic` with periodic boundaries (three or more cells along each of the
periodic axes): the grey lines are those of the steps across a boundary; they leave the grid at both
ends of every row of cells along a periodic axis. -/
theorem C100_torus_partial (hd : 0 < d) (hd3 : d ≤ 3) (env : Env ℝ) (s : Session) (n : String)
    (size : Fin d → ℕ) (hs : ∀ k, 0 < size k) (isInt : Bool) {axes : List ℕ}
    (hax : ∀ a ∈ axes, a < d) (hne : axes ≠ []) (h3 : ∀ k : Fin d, k.val ∈ axes → 3 ≤ size k)
    (ragged : Bool) (pscale offset : ℝ) :
    ∃ L D G bonds stubs, Preset.finiteHypercubic env s
        (.size (List.ofFn fun k => (size k : ℝ)) isInt) 1 (.name n) 1 true (some (.axes axes)) =
          .ok L ∧ GridOf size axes L ∧ L.data = some D ∧
      L.plot ragged pscale true false offset none = .ok G ∧ G.markers.length = 1 ∧
      Lattice.Segments L D [] pscale true bonds stubs G.segments ∧
      (∀ i j t, (i, j, t) ∈ stubs ↔ ∃ a b : Idx d, D.indices[i]? = some a ∧
        D.indices[j]? = some b ∧ WrapStep size axes a.cell b.cell t) ∧
      ∀ k : Fin d, k.val ∈ axes → ∀ n : Fin d → ℤ, (∀ m, 0 ≤ n m ∧ n m < size m) →
        (n k = 0 → ∃ g ∈ G.segments, (∀ m, g.start m = n m) ∧
          (∀ m, g.vec m = if m = k then -pscale else 0) ∧ g.color = .str "0.5") ∧
        (n k = size k - 1 → ∃ g ∈ G.segments, (∀ m, g.start m = n m) ∧
          (∀ m, g.vec m = if m = k then pscale else 0) ∧ g.color = .str "0.5") := by
  obtain ⟨w, L0, A, D0, table, h1, h2, h⟩ := exists_grid hd (by omega) env s (.name n) size hs isInt
  obtain ⟨L, D, p1, p2, p3, p4, p5, p6, p7⟩ := h.set_periodic hd hs hax hne h3
  obtain ⟨at', a1, -, -, -, a2, a3, -⟩ := oneAtom_asked hd (atom := .name n) h1
  have hreach := configure_reachable h1
  have hb := build_periodic h2 (.axes axes)
  rw [p1] at hb
  obtain ⟨f1, -, -, -, -, f6⟩ := Lattice.setPeriodic_frame env L0 (.axes axes)
  obtain ⟨D', hD', hsame⟩ := f6 D0 h.data
  rw [p1] at hD' f1
  have hD'' : some D = some D' := p2 ▸ hD'
  cases hD''
  have hworld0 : L0.world = w := by
    have := (Lattice.build_sites hd (L := Lattice.ofWorld w) hreach
      { shape := .size (List.ofFn fun k => (size k : ℝ)) isInt
        primitive := true }).1
    rw [h2] at this
    exact this
  have hworld : L.world = w := f1.trans hworld0
  have hrun : Lattice.run env (Lattice.ofWorld w) [.build
      { shape := .size (List.ofFn fun k => (size k : ℝ)) isInt
        primitive := true
        periodic := some (.axes axes) }] = L := by
    change ((Lattice.ofWorld w).build env _).1 = L
    rw [hb]
  obtain ⟨G, bonds, stubs, g1, g2, g3, g4⟩ := Lattice.C100_history hd hd3 hreach [.build
      { shape := .size (List.ofFn fun k => (size k : ℝ)) isInt
        primitive := true
        periodic := some (.axes axes) }] (by rw [hrun]; exact p2)
      (by rw [hsame.distvals]; exact h.levels) (by
      rw [hrun]
      change ∀ a ∈ L.world.struct.atoms, _
      rw [hworld, a1]
      intro a ha
      rw [List.mem_singleton.1 ha]
      exact ⟨_, _, param_of_getItem (by rfl) a3, param_of_getItem (by rfl) a2⟩)
      ragged pscale offset true
  rw [hrun] at g1 g2 g3
  have hst : ∀ i j t, (i, j, t) ∈ stubs ↔ ∃ a b : Idx d, D.indices[i]? = some a ∧
      D.indices[j]? = some b ∧ WrapStep size axes a.cell b.cell t := by
    intro i j t
    rw [g4 (by rw [hsame.distvals]; exact h.top) rfl, p4]
    constructor
    · rintro ⟨x, hx⟩
      exact ((p7 i j t x).1 hx).2
    · intro hx
      exact ⟨1, (p7 i j t 1).2 ⟨rfl, hx⟩⟩
  have hvec : L.struct.basis.vectors = 1 := by
    have := h.vectors
    change L0.world.struct.basis.vectors = 1 at this
    change L.world.struct.basis.vectors = 1
    rw [hworld, ← hworld0, this]
  have hline : ∀ (n m : Fin d → ℤ) (t : Fin d → ℤ), (∀ k, 0 ≤ n k ∧ n k < size k) →
      (∀ k, 0 ≤ m k ∧ m k < size k) → WrapStep size axes n m t →
      ∃ g ∈ G.segments, (∀ k, g.start k = n k) ∧
        (∀ k, g.vec k = pscale * ((m k - t k - n k : ℤ) : ℝ)) ∧ g.color = .str "0.5" := by
    intro n m t hn hm hw
    obtain ⟨i, hi⟩ := List.mem_iff_getElem?.1 ((h.mem n).2 hn)
    obtain ⟨j, hj⟩ := List.mem_iff_getElem?.1 ((h.mem m).2 hm)
    have hmem := (hst i j t).2 ⟨_, _, by rw [p4]; exact hi, by rw [p4]; exact hj, by
      rw [Idx.cell_mk, Idx.cell_mk]; exact hw⟩
    obtain ⟨bs, ss, q1, -, q3⟩ := g3.lines
    obtain ⟨g, hg, q, r1, r2, r3, r4⟩ := forall₂_mem q3.flip hmem
    rw [p5] at r1 r2
    obtain ⟨a, ha, e1⟩ := (h.site _ _).1 r1
    obtain ⟨b, hb', e2⟩ := (h.site _ _).1 r2
    rw [hi] at ha
    rw [hj] at hb'
    cases ha
    cases hb'
    refine ⟨g, q1.mem_iff.2 (List.mem_append_right _ hg), ?_, ?_, r3⟩
    · intro k
      rw [e1, Idx.cell_mk]
    · intro k
      rw [r4, e1, e2, Idx.cell_mk, Idx.cell_mk, hvec]
      have : ∑ x, (t x : ℝ) * (1 : Matrix (Fin d) (Fin d) ℝ) x k = t k := by
        simp [Matrix.one_apply]
      rw [this]
      push_cast
      rfl
  refine ⟨L, D, G, bonds, stubs, ?_, ⟨p3, D, p2, ?_⟩, p2, g1, ?_, g3, hst, ?_⟩
  · unfold Preset.finiteHypercubic
    rw [h1]
    dsimp only
    rw [hb]
  · rw [p4, p5]
    exact ⟨h.sites_spec.1, h.sites_spec.2.1, h.sites_spec.2.2.1, h.sites_spec.2.2.2, p6, p7⟩
  · rw [g2]
    have := h.numBase
    change L0.world.struct.numBase = 1 at this
    change L.world.struct.numBase = 1
    rw [hworld, ← hworld0, this]
  · intro k hk n hn
    have hs3 : (3 : ℤ) ≤ size k := by exact_mod_cast h3 k hk
    constructor
    · intro h0
      obtain ⟨g, hg, e1, e2, e3⟩ := hline n (Function.update n k (size k - 1))
        (Pi.single k (size k : ℤ)) hn (by
          intro m
          by_cases hmk : m = k
          · subst hmk
            rw [Function.update_self]
            omega
          · rw [Function.update_of_ne hmk]
            exact hn m)
        ⟨k, hk, fun m hm => Function.update_of_ne hm _ _,
          Or.inl ⟨rfl, h0, Function.update_self _ _ _⟩⟩
      refine ⟨g, hg, e1, fun m => ?_, e3⟩
      rw [e2]
      by_cases hmk : m = k
      · subst hmk
        rw [Function.update_self, Pi.single_eq_same, if_pos rfl, h0]
        push_cast
        ring
      · rw [Function.update_of_ne hmk, Pi.single_eq_of_ne hmk, if_neg hmk]
        simp
    · intro h0
      obtain ⟨g, hg, e1, e2, e3⟩ := hline n (Function.update n k 0)
        (-Pi.single k (size k : ℤ)) hn (by
          intro m
          by_cases hmk : m = k
          · subst hmk
            rw [Function.update_self]
            omega
          · rw [Function.update_of_ne hmk]
            exact hn m)
        ⟨k, hk, fun m hm => Function.update_of_ne hm _ _,
          Or.inr ⟨rfl, Function.update_self _ _ _, h0⟩⟩
      refine ⟨g, hg, e1, fun m => ?_, e3⟩
      rw [e2]
      by_cases hmk : m = k
      · subst hmk
        rw [Function.update_self, Pi.neg_apply, Pi.single_eq_same, if_pos rfl, h0]
        push_cast
        ring
      · rw [Function.update_of_ne hmk, Pi.neg_apply, Pi.single_eq_of_ne hmk, if_neg hmk]
        simp

/-- The cylinder of three by two cells: half a line leaves the cell (0, 1) to the left. -/
example (env : Env ℝ) (s : Session) : ∃ L G, Preset.finiteHypercubic env s
    (.size (List.ofFn fun k => ((![3, 2] k : ℕ) : ℝ)) true) 1 (.name "A") 1 true
      (some (.axes [0])) = .ok L ∧ L.plot false (1 / 2) true false (1 / 10) none = .ok G ∧
    ∃ g ∈ G.segments, g.start = ![0, 1] ∧ g.vec = ![-1 / 2, 0] ∧ g.color = .str "0.5" := by
  obtain ⟨L, D, G, -, -, h1, -, -, h2, -, -, -, h3⟩ := C100_torus_partial (d := 2) (by norm_num)
    (by norm_num) env s "A" ![3, 2] (by decide) true (axes := [0]) (by decide) (by decide)
    (by decide) false (1 / 2) (1 / 10)
  obtain ⟨g, hg, e1, e2, e3⟩ := (h3 0 (by decide) ![0, 1] (by decide)).1 rfl
  refine ⟨L, G, h1, h2, g, hg, ?_, ?_, e3⟩
  · funext m
    rw [e1]
    fin_cases m <;> simp
  · funext m
    rw [e2]
    fin_cases m <;> norm_num

end Lattpy
