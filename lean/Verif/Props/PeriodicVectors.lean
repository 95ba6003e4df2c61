import Verif.Model.Lattice
import Verif.Props.Shape
import Verif.Props.Spatial
import Verif.Lemmas.Basis
import Verif.Lemmas.Data

/-!
# The translations of periodic boundary conditions (C65)
-/

set_option autoImplicit false
set_option linter.unusedSectionVars false

namespace Lattpy

variable {d : ℕ}

/-! ## spec -/

/-- `v` shifts by one period along each of the axes `S`: by the number of cells between the first and
the last one, both included. -/
def PeriodOf (indices : List (Idx d)) (S : List ℕ) (v : Fin d → ℤ) : Prop :=
  (∀ k : Fin d, k.val ∉ S → v k = 0) ∧
  ∀ k : Fin d, k.val ∈ S → ∃ x y : Idx d, x ∈ indices ∧ y ∈ indices ∧
    v k = x.cell k - y.cell k + 1 ∧ ∀ z : Idx d, z ∈ indices → y.cell k ≤ z.cell k ∧
      z.cell k ≤ x.cell k

/-- The basis vectors point along the Cartesian axes. -/
def Orthogonal (b : LatticeBasis d ℝ) : Prop :=
  ∃ s : Fin d → ℝ, (∀ i, 0 < s i) ∧ LatticeBasis.init (Matrix.diagonal s) = .ok b

namespace Lattice

theorem PeriodOf.unique {indices : List (Idx d)} {S : List ℕ} {v v' : Fin d → ℤ}
    (h : PeriodOf indices S v) (h' : PeriodOf indices S v') : v = v' := by
  funext k
  by_cases hk : k.val ∈ S
  · obtain ⟨x, y, hx, hy, hv, hz⟩ := h.2 k hk
    obtain ⟨x', y', hx', hy', hv', hz'⟩ := h'.2 k hk
    have h1 := hz x' hx'
    have h2 := hz y' hy'
    have h3 := hz' x hx
    have h4 := hz' y hy
    omega
  · rw [h.1 k hk, h'.1 k hk]

theorem periodicVector_primitive (b : LatticeBasis d ℝ) {indices : List (Idx d)}
    (hne : indices ≠ []) {S : List ℕ} (hS : ∀ a ∈ S, a < d) :
    ∃ v, periodicVector b indices S true = .ok v ∧ PeriodOf indices S v := by
  unfold periodicVector
  rw [if_pos rfl]
  match indices, hne with
  | x :: xs, _ =>
    dsimp only
    rw [if_pos (by simpa using hS)]
    refine ⟨_, rfl, ?_, ?_⟩
    · intro k hk
      dsimp only
      rw [if_neg hk]
    · intro k hk
      dsimp only
      rw [if_pos hk]
      have hmax := foldl_max_isGreatest (xs.map fun y : Idx d => y.cell k) (x.cell k)
      have hmin := foldl_min_isLeast (xs.map fun y : Idx d => y.cell k) (x.cell k)
      have key : ∀ t : ℤ, (t = x.cell k ∨ t ∈ xs.map fun y : Idx d => y.cell k) →
          ∃ u : Idx d, u ∈ x :: xs ∧ u.cell k = t := by
        rintro t (rfl | ht)
        · exact ⟨x, by simp, rfl⟩
        · obtain ⟨u, hu, rfl⟩ := List.mem_map.1 ht
          exact ⟨u, by simp [hu], rfl⟩
      obtain ⟨u, hu, hu'⟩ := key _ hmax.1
      obtain ⟨l, hl, hl'⟩ := key _ hmin.1
      refine ⟨u, l, hu, hl, by rw [hu', hl'], ?_⟩
      intro z hz
      have hz' : z.cell k = x.cell k ∨ z.cell k ∈ xs.map fun y : Idx d => y.cell k := by
        rcases List.mem_cons.1 hz with rfl | hz
        · exact Or.inl rfl
        · exact Or.inr (List.mem_map.2 ⟨z, hz, rfl⟩)
      rw [hu', hl']
      exact ⟨hmin.2 hz', hmax.2 hz'⟩

theorem rint_add_two_thirds (z : ℤ) : rint ((z : ℝ) + 2 / 3) = z + 1 := by
  have hf : ⌊(z : ℝ) + 2 / 3⌋ = z := by
    rw [Int.floor_eq_iff]
    constructor <;> linarith
  unfold rint
  simp only [hf]
  rw [if_neg (by linarith), if_pos (by linarith)]

theorem cellSizes_diagonal {b : LatticeBasis d ℝ} {s : Fin d → ℝ} (hs : ∀ i, 0 < s i)
    (hb : b.vectors = Matrix.diagonal s) : cellSizes b = s := by
  match d, b, s, hs, hb with
  | 0, _, _, _, _ => funext k; exact k.elim0
  | n + 1, b, s, hs, hb =>
    funext k
    obtain ⟨hi, lo, h1, h2, h3⟩ := C05_cell_size_partial (fun i => b.vectors i) k
      ⟨k, by rw [hb]; simpa using (hs k).le⟩
    have e1 : hi = s k := by
      refine le_antisymm ?_ (h2.2 (Or.inr ⟨k, by rw [hb]; simp⟩))
      rcases h2.1 with h | ⟨i, h⟩
      · rw [h]; exact (hs k).le
      · rw [← h, hb]
        by_cases hik : i = k
        · rw [hik]; simp
        · simpa [Matrix.diagonal_apply_ne _ hik] using (hs k).le
    have e2 : lo = 0 := by
      refine le_antisymm (h3.2 (Or.inl rfl)) ?_
      rcases h3.1 with h | ⟨i, h⟩
      · rw [h]
      · rw [← h, hb]
        by_cases hik : i = k
        · rw [hik]; simpa using (hs k).le
        · simp [Matrix.diagonal_apply_ne _ hik]
    change cellSize (fun i => b.vectors i) k = s k
    rw [h1, e1, e2, sub_zero]

theorem periodicVector_orthogonal {b : LatticeBasis d ℝ} (hb : Orthogonal b)
    {indices : List (Idx d)} (hne : indices ≠ []) {S : List ℕ} (hS : ∀ a ∈ S, a < d) :
    ∃ v, periodicVector b indices S false = .ok v ∧ PeriodOf indices S v := by
  obtain ⟨s, hs, hinit⟩ := hb
  have hV := LatticeBasis.init_vectors hinit
  have htr : ∀ x : Vec d ℝ, b.transform x = fun k => s k * x k := by
    intro x
    funext k
    have : b.V = Matrix.diagonal s := by
      have := congrArg Matrix.transpose hV
      rw [LatticeBasis.vectors, Matrix.transpose_transpose, Matrix.diagonal_transpose] at this
      exact this
    rw [LatticeBasis.transform, this, Matrix.mulVec_diagonal]
  obtain ⟨lim, hlim, hspec⟩ := AShape.minMax_spec
    (indices.map fun x : Idx d => b.transform fun k => (x.cell k : ℝ)) (by simpa using hne)
  unfold periodicVector
  simp only [Bool.false_eq_true, if_false, hlim]
  rw [if_pos (by simpa using hS)]
  have hit : ∀ x : Vec d ℝ, b.itransform x = fun k => x k / s k := by
    intro x
    have : b.transform (fun k => x k / s k) = x := by
      rw [htr]
      funext k
      exact mul_div_cancel₀ _ (hs k).ne'
    conv_lhs => rw [← this]
    exact LatticeBasis.itransform_transform hinit _
  refine ⟨_, rfl, ?_, ?_⟩
  · intro k hk
    rw [hit]
    dsimp only
    rw [if_neg hk, zero_div]
    exact_mod_cast rint_intCast (K := ℝ) 0
  · intro k hk
    obtain ⟨⟨⟨c1, h1, h1'⟩, h2⟩, ⟨⟨c2, h3, h3'⟩, h4⟩⟩ := hspec k
    obtain ⟨y, hy, rfl⟩ := List.mem_map.1 h1
    obtain ⟨x, hx, rfl⟩ := List.mem_map.1 h3
    rw [htr] at h1' h3'
    refine ⟨x, y, hx, hy, ?_, ?_⟩
    · rw [hit]
      dsimp only
      rw [if_pos hk, cellSizes_diagonal hs hV, h1', h3', ← rint_add_two_thirds]
      congr 1
      push_cast
      have := (hs k).ne'
      field_simp
    · intro z hz
      have hz' := h2 ⟨_, List.mem_map_of_mem hz, rfl⟩
      have hz'' := h4 ⟨_, List.mem_map_of_mem hz, rfl⟩
      rw [h1', htr] at hz'
      rw [h3', htr] at hz''
      have a1 := le_of_mul_le_mul_left hz' (hs k)
      have a2 := le_of_mul_le_mul_left hz'' (hs k)
      exact ⟨by exact_mod_cast a1, by exact_mod_cast a2⟩

/-- Both ways of computing the translations agree for orthogonal lattices. -/
theorem C65_modes_agree {b : LatticeBasis d ℝ} (hb : Orthogonal b)
    {indices : List (Idx d)} (hne : indices ≠ []) {S : List ℕ} (hS : ∀ a ∈ S, a < d) :
    ∃ v, periodicVector b indices S false = .ok v ∧ periodicVector b indices S true = .ok v ∧
      PeriodOf indices S v := by
  obtain ⟨v, h1, h2⟩ := periodicVector_orthogonal hb hne hS
  obtain ⟨v', h1', h2'⟩ := periodicVector_primitive b hne hS
  obtain rfl := PeriodOf.unique h2 h2'
  exact ⟨v, h1, h1', h2⟩

theorem mem_pairsOf {axes : List ℕ} {p : ℕ × ℕ} (h : p ∈ pairsOf axes) :
    p.1 ∈ axes ∧ p.2 ∈ axes := by
  induction axes with
  | nil => cases h
  | cons a l ih =>
    unfold pairsOf at h
    rcases List.mem_append.1 h with h | h
    · obtain ⟨b, hb, rfl⟩ := List.mem_map.1 h
      exact ⟨by simp, hb⟩
    · obtain ⟨h1, h2⟩ := ih h
      exact ⟨List.mem_cons_of_mem _ h1, List.mem_cons_of_mem _ h2⟩

theorem pairsOf_complete {axes : List ℕ} {a b : ℕ} (ha : a ∈ axes) (hb : b ∈ axes) :
    (a, b) ∈ pairsOf axes ∨ (b, a) ∈ pairsOf axes := by
  induction axes with
  | nil => cases ha
  | cons c l ih =>
    unfold pairsOf
    rcases List.mem_cons.1 ha with rfl | ha'
    · exact Or.inl (List.mem_append_left _ (List.mem_map.2 ⟨b, hb, rfl⟩))
    · rcases List.mem_cons.1 hb with rfl | hb'
      · exact Or.inr (List.mem_append_left _ (List.mem_map.2 ⟨a, ha, rfl⟩))
      · rcases ih ha' hb' with h | h
        · exact Or.inl (List.mem_append_right _ h)
        · exact Or.inr (List.mem_append_right _ h)

theorem PeriodOf.pair {indices : List (Idx d)} {a b : Fin d} {p q v : Fin d → ℤ}
    (hab : a ≠ b) (hp : PeriodOf indices [a.val] p) (hq : PeriodOf indices [b.val] q)
    (hv : PeriodOf indices [a.val, b.val] v) : v = p + q := by
  refine PeriodOf.unique hv ⟨?_, ?_⟩
  · intro k hk
    rw [Pi.add_apply, hp.1 k (by simp at hk ⊢; tauto), hq.1 k (by simp at hk ⊢; tauto), add_zero]
  · intro k hk
    by_cases hka : k = a
    · subst hka
      rw [Pi.add_apply, hq.1 k (by simpa [Fin.ext_iff] using hab), add_zero]
      exact hp.2 k (by simp)
    · have hkb : k = b := by
        simp only [List.mem_cons, List.not_mem_nil, or_false] at hk
        rcases hk with hk | hk
        · exact absurd (Fin.ext hk) hka
        · exact Fin.ext hk
      subst hkb
      rw [Pi.add_apply, hp.1 k (by simpa [Fin.ext_iff] using hka), zero_add]
      exact hq.2 k (by simp)

theorem flipTail_pair {indices : List (Idx d)} {a b : Fin d} {p q : Fin d → ℤ}
    (hab : a ≠ b) (hp : PeriodOf indices [a.val] p) (hq : PeriodOf indices [b.val] q) :
    (a.val = 0 → flipTail (p + q) = p - q) ∧ (b.val = 0 → flipTail (p + q) = q - p) ∧
    (a.val ≠ 0 → b.val ≠ 0 → flipTail (p + q) = -(p + q)) := by
  have hab' : a.val ≠ b.val := fun h => hab (Fin.ext h)
  have hp0 : ∀ k : Fin d, k.val ≠ a.val → p k = 0 := fun k hk => hp.1 k (by simpa using hk)
  have hq0 : ∀ k : Fin d, k.val ≠ b.val → q k = 0 := fun k hk => hq.1 k (by simpa using hk)
  refine ⟨?_, ?_, ?_⟩
  · intro ha
    funext k
    unfold flipTail
    split_ifs with hk
    · rw [Pi.add_apply, Pi.sub_apply, hq0 k (by omega)]; ring
    · rw [Pi.add_apply, Pi.sub_apply, hp0 k (by omega)]; ring
  · intro hb
    funext k
    unfold flipTail
    split_ifs with hk
    · rw [Pi.add_apply, Pi.sub_apply, hp0 k (by omega)]; ring
    · rw [Pi.add_apply, Pi.sub_apply, hq0 k (by omega)]; ring
  · intro ha hb
    funext k
    unfold flipTail
    split_ifs with hk
    · rw [Pi.neg_apply, Pi.add_apply, hp0 k (by omega), hq0 k (by omega)]; rfl
    · rfl

theorem flipTail_single {indices : List (Idx d)} {a : Fin d} {p : Fin d → ℤ}
    (hp : PeriodOf indices [a.val] p) : flipTail p = p ∨ flipTail p = -p := by
  by_cases ha : a.val = 0
  · left
    funext k
    unfold flipTail
    split_ifs with hk
    · rfl
    · rw [hp.1 k (by simp; omega)]; rfl
  · right
    funext k
    unfold flipTail
    split_ifs with hk
    · rw [Pi.neg_apply, hp.1 k (by simp; omega)]; rfl
    · rfl

/-- The hypothesis under which the translations are the periods: either the caller asks for
primitive translations or the lattice is orthogonal. -/
theorem periodicVector_spec {b : LatticeBasis d ℝ} {primitive : Bool}
    (hb : primitive = true ∨ Orthogonal b) {indices : List (Idx d)} (hne : indices ≠ [])
    {S : List ℕ} (hS : ∀ a ∈ S, a < d) :
    ∃ v, periodicVector b indices S primitive = .ok v ∧ PeriodOf indices S v := by
  rcases hb with rfl | hb
  · exact periodicVector_primitive b hne hS
  · cases primitive
    · exact periodicVector_orthogonal hb hne hS
    · exact periodicVector_primitive b hne hS

/-- The translations used for the neighbour search across the boundary, for primitive translations
and for orthogonal lattices.  Every periodic axis is covered by its period and every pair of axes by
the sum of the two periods, up to the sign the search tries anyway; the difference of two periods is
covered if one of the axes is the first Cartesian one.  Nothing else is listed. -/
theorem C65_translations_partial {b : LatticeBasis d ℝ} {primitive : Bool}
    (hb : primitive = true ∨ Orthogonal b) {indices : List (Idx d)} (hne : indices ≠ [])
    {axes : List ℕ} (hax : ∀ a ∈ axes, a < d) :
    ∃ vecs, periodicVectors b indices axes primitive = .ok vecs ∧
    ∀ p : Fin d → Fin d → ℤ, (∀ a : Fin d, PeriodOf indices [a.val] (p a)) →
      (∀ a : Fin d, a.val ∈ axes → ∃ v ∈ vecs, v.2 = p a ∨ v.2 = -p a) ∧
      (∀ a c : Fin d, a.val ∈ axes → c.val ∈ axes → a ≠ c →
        (∃ v ∈ vecs, v.2 = p a + p c ∨ v.2 = -(p a + p c)) ∧
        (a.val = 0 ∨ c.val = 0 → ∃ v ∈ vecs, v.2 = p a - p c ∨ v.2 = -(p a - p c))) ∧
      ∀ v ∈ vecs, ∃ a : Fin d, a.val ∈ axes ∧ (v.2 = p a ∨ v.2 = -p a ∨
        ∃ c : Fin d, c.val ∈ axes ∧ a ≠ c ∧
          (v.2 = p a + p c ∨ v.2 = -(p a + p c) ∨ v.2 = p a - p c)) := by
  match axes, hax with
  | [a0], hax =>
    obtain ⟨v, hv, hper⟩ := periodicVector_spec hb hne hax
    refine ⟨[([a0], v)], by simp only [periodicVectors, hv], ?_⟩
    intro p hp
    have ha0 : a0 < d := hax a0 (by simp)
    have hv0 : v = p ⟨a0, ha0⟩ := PeriodOf.unique hper (hp ⟨a0, ha0⟩)
    refine ⟨?_, ?_, ?_⟩
    · intro a ha
      obtain rfl : a = ⟨a0, ha0⟩ := Fin.ext (by simpa using ha)
      exact ⟨_, List.mem_singleton.2 rfl, Or.inl hv0⟩
    · intro a c ha hc hac
      exact absurd (Fin.ext ((List.mem_singleton.1 ha).trans (List.mem_singleton.1 hc).symm)) hac
    · intro w hw
      obtain rfl := List.mem_singleton.1 hw
      exact ⟨⟨a0, ha0⟩, by simp, Or.inl hv0⟩
  | [], _ =>
    refine ⟨[], rfl, fun p _ => ⟨?_, ?_, ?_⟩⟩
    · intro a ha; cases ha
    · intro a c ha; cases ha
    · intro v hv; cases hv
  | a0 :: a1 :: rest, hax =>
    have key : ∀ q : ℕ × ℕ, ∃ l, (q ∈ pairsOf (a0 :: a1 :: rest) →
        pairVectors b indices (a0 :: a1 :: rest).head? primitive q = .ok l) ∧
        (q ∈ pairsOf (a0 :: a1 :: rest) → ∃ v, PeriodOf indices [q.1, q.2] v ∧
          (([q.1, q.2], v) ∈ l) ∧ (q.1 ≠ q.2 → ([q.1, q.2], flipTail v) ∈ l) ∧
          ∀ w ∈ l, w.2 = v ∨ w.2 = flipTail v) := by
      intro q
      by_cases hq : q ∈ pairsOf (a0 :: a1 :: rest)
      · obtain ⟨h1, h2⟩ := mem_pairsOf hq
        obtain ⟨v, hv, hper⟩ := periodicVector_spec hb hne (S := [q.1, q.2]) (by
          intro a ha
          simp only [List.mem_cons, List.not_mem_nil, or_false] at ha
          rcases ha with rfl | rfl
          · exact hax _ h1
          · exact hax _ h2)
        refine ⟨if some q.1 = (a0 :: a1 :: rest).head? ∧ some q.2 = (a0 :: a1 :: rest).head? then
            [([q.1, q.2], v)] else [([q.1, q.2], v), ([q.1, q.2], flipTail v)],
          fun _ => by simp only [pairVectors, hv], fun _ => ⟨v, hper, ?_, ?_, ?_⟩⟩
        · split_ifs <;> simp
        · intro hne'
          rw [if_neg (by
            rintro ⟨e1, e2⟩
            exact hne' (Option.some.inj (e1.trans e2.symm)))]
          simp
        · intro w hw
          split_ifs at hw
          · rw [List.mem_singleton.1 hw]; exact Or.inl rfl
          · simp only [List.mem_cons, List.not_mem_nil, or_false] at hw
            rcases hw with rfl | rfl
            · exact Or.inl rfl
            · exact Or.inr rfl
      · exact ⟨[], fun h => absurd h hq, fun h => absurd h hq⟩
    choose g hg1 hg2 using key
    refine ⟨((pairsOf (a0 :: a1 :: rest)).map g).flatten, ?_, ?_⟩
    · unfold periodicVectors
      rw [mapM_ok _ g _ hg1]
    · intro p hp
      have hmem : ∀ q ∈ pairsOf (a0 :: a1 :: rest), ∀ w ∈ g q,
          w ∈ ((pairsOf (a0 :: a1 :: rest)).map g).flatten := fun q hq w hw =>
        List.mem_flatten.2 ⟨g q, List.mem_map_of_mem hq, hw⟩
      have hself : ∀ (a : Fin d) (v : Fin d → ℤ), PeriodOf indices [a.val, a.val] v → v = p a := by
        intro a v hv
        refine PeriodOf.unique hv ⟨fun k hk => (hp a).1 k (by simpa using hk), fun k hk => ?_⟩
        exact (hp a).2 k (by simpa using hk)
      have hpair : ∀ a c : Fin d, a ≠ c → (a.val, c.val) ∈ pairsOf (a0 :: a1 :: rest) →
          (∃ v ∈ g (a.val, c.val), v.2 = p a + p c) ∧
          (∃ v ∈ g (a.val, c.val), v.2 = flipTail (p a + p c)) := by
        intro a c hac hq
        obtain ⟨v, hper, hm1, hm2, -⟩ := hg2 _ hq
        have hv := PeriodOf.pair hac (hp a) (hp c) hper
        exact ⟨⟨_, hm1, hv⟩, ⟨_, hm2 (fun h => hac (Fin.ext h)), by rw [hv]⟩⟩
      refine ⟨?_, ?_, ?_⟩
      · intro a ha
        have hq : (a.val, a.val) ∈ pairsOf (a0 :: a1 :: rest) := by
          rcases pairsOf_complete ha ha with h | h <;> exact h
        obtain ⟨v, hper, hm1, -, -⟩ := hg2 _ hq
        exact ⟨_, hmem _ hq _ hm1, Or.inl (hself a v hper)⟩
      · intro a c ha hc hac
        rcases pairsOf_complete ha hc with hq | hq
        · obtain ⟨⟨v, hv, hv'⟩, w, hw, hw'⟩ := hpair a c hac hq
          refine ⟨⟨v, hmem _ hq _ hv, Or.inl hv'⟩, fun h0 => ⟨w, hmem _ hq _ hw, ?_⟩⟩
          obtain ⟨f1, f2, -⟩ := flipTail_pair hac (hp a) (hp c)
          rcases h0 with h0 | h0
          · exact Or.inl (hw'.trans (f1 h0))
          · exact Or.inr (by rw [hw', f2 h0, neg_sub])
        · obtain ⟨⟨v, hv, hv'⟩, w, hw, hw'⟩ := hpair c a (Ne.symm hac) hq
          refine ⟨⟨v, hmem _ hq _ hv, Or.inl (by rw [hv', add_comm])⟩,
            fun h0 => ⟨w, hmem _ hq _ hw, ?_⟩⟩
          obtain ⟨f1, f2, -⟩ := flipTail_pair (Ne.symm hac) (hp c) (hp a)
          rcases h0 with h0 | h0
          · exact Or.inl (hw'.trans (f2 h0))
          · exact Or.inr (by rw [hw', f1 h0, neg_sub])
      · intro w hw
        obtain ⟨l, hl, hwl⟩ := List.mem_flatten.1 hw
        obtain ⟨q, hq, rfl⟩ := List.mem_map.1 hl
        obtain ⟨h1, h2⟩ := mem_pairsOf hq
        obtain ⟨v, hper, -, -, hall⟩ := hg2 q hq
        have e1 := hax _ h1
        have e2 := hax _ h2
        by_cases h12 : q.1 = q.2
        · have hv : v = p ⟨q.1, e1⟩ := hself ⟨q.1, e1⟩ v (by rw [← h12] at hper; exact hper)
          refine ⟨⟨q.1, e1⟩, h1, ?_⟩
          rcases hall w hwl with h | h
          · exact Or.inl (h.trans hv)
          · rw [hv] at h
            rcases flipTail_single (hp ⟨q.1, e1⟩) with h' | h'
            · exact Or.inl (h.trans h')
            · exact Or.inr (Or.inl (h.trans h'))
        · have hac : (⟨q.1, e1⟩ : Fin d) ≠ ⟨q.2, e2⟩ := fun h => h12 (by simpa using h)
          have hv : v = p ⟨q.1, e1⟩ + p ⟨q.2, e2⟩ := PeriodOf.pair hac (hp _) (hp _) hper
          obtain ⟨f1, f2, f3⟩ := flipTail_pair hac (hp ⟨q.1, e1⟩) (hp ⟨q.2, e2⟩)
          rcases hall w hwl with h | h
          · exact ⟨⟨q.1, e1⟩, h1, Or.inr (Or.inr ⟨⟨q.2, e2⟩, h2, hac, Or.inl (h.trans hv)⟩)⟩
          · rw [hv] at h
            by_cases z1 : q.1 = 0
            · exact ⟨⟨q.1, e1⟩, h1, Or.inr (Or.inr ⟨⟨q.2, e2⟩, h2, hac,
                Or.inr (Or.inr (h.trans (f1 z1)))⟩)⟩
            · by_cases z2 : q.2 = 0
              · exact ⟨⟨q.2, e2⟩, h2, Or.inr (Or.inr ⟨⟨q.1, e1⟩, h1, Ne.symm hac,
                  Or.inr (Or.inr (h.trans (f2 z2)))⟩)⟩
              · exact ⟨⟨q.1, e1⟩, h1, Or.inr (Or.inr ⟨⟨q.2, e2⟩, h2, hac,
                  Or.inr (Or.inl (h.trans (f3 z1 z2)))⟩)⟩

/-- In at most two dimensions nothing is missing: every shift by 0, 1 or -1 periods along each of at
most two periodic axes is zero or listed up to sign. -/
theorem C65_planar {b : LatticeBasis d ℝ} {primitive : Bool} (hd : d ≤ 2)
    (hb : primitive = true ∨ Orthogonal b) {indices : List (Idx d)} (hne : indices ≠ [])
    {axes : List ℕ} (hax : ∀ a ∈ axes, a < d) {vecs : List (List ℕ × (Fin d → ℤ))}
    (hv : periodicVectors b indices axes primitive = .ok vecs)
    {p : Fin d → Fin d → ℤ} (hp : ∀ a : Fin d, PeriodOf indices [a.val] (p a))
    {a c : Fin d} (ha : a.val ∈ axes) (hc : c.val ∈ axes) (hac : a ≠ c) {s t : ℤ}
    (hs : s ∈ ({-1, 0, 1} : Set ℤ)) (ht : t ∈ ({-1, 0, 1} : Set ℤ)) (hst : (s, t) ≠ (0, 0)) :
    ∃ v ∈ vecs, v.2 = s • p a + t • p c ∨ v.2 = -(s • p a + t • p c) := by
  obtain ⟨vecs', hv', h⟩ := C65_translations_partial hb hne hax
  obtain rfl := Except.ok.inj (hv.symm.trans hv')
  obtain ⟨h1, h2, -⟩ := h p hp
  have h0 : a.val = 0 ∨ c.val = 0 := by
    have : a.val ≠ c.val := fun h => hac (Fin.ext h)
    have := a.isLt
    have := c.isLt
    omega
  obtain ⟨v1, m1, e1⟩ := h1 a ha
  obtain ⟨v2, m2, e2⟩ := h1 c hc
  obtain ⟨⟨v3, m3, e3⟩, h4⟩ := h2 a c ha hc hac
  obtain ⟨v4, m4, e4⟩ := h4 h0
  simp only [Set.mem_insert_iff, Set.mem_singleton_iff] at hs ht
  rcases hs with rfl | rfl | rfl <;> rcases ht with rfl | rfl | rfl
  · exact ⟨v3, m3, by simpa [add_comm, or_comm] using e3⟩
  · exact ⟨v1, m1, by simpa [or_comm] using e1⟩
  · exact ⟨v4, m4, by simpa [sub_eq_add_neg, add_comm, or_comm] using e4⟩
  · exact ⟨v2, m2, by simpa [or_comm] using e2⟩
  · exact absurd rfl hst
  · exact ⟨v2, m2, by simpa using e2⟩
  · exact ⟨v4, m4, by simpa [sub_eq_add_neg, add_comm] using e4⟩
  · exact ⟨v1, m1, by simpa using e1⟩
  · exact ⟨v3, m3, by simpa [add_comm] using e3⟩

/-- Without sites there is no extent and the translations raise (an axis has to be given; with
`axes = []` nothing is computed), and so does an axis the lattice does not have. -/
theorem C65_errors (b : LatticeBasis d ℝ) (primitive : Bool) :
    (∀ (a : ℕ) (axes : List ℕ), ∃ e, periodicVectors b [] (a :: axes) primitive = .error e) ∧
    ∀ (indices : List (Idx d)) (a : ℕ), d ≤ a →
      ∃ e, periodicVectors b indices [a] primitive = .error e := by
  have h0 : ∀ S : List ℕ, ∃ e, periodicVector b ([] : List (Idx d)) S primitive = .error e := by
    intro S
    unfold periodicVector
    cases primitive
    · exact ⟨_, rfl⟩
    · exact ⟨_, rfl⟩
  constructor
  · intro a axes
    match axes with
    | [] =>
      obtain ⟨e, he⟩ := h0 [a]
      exact ⟨e, by simp only [periodicVectors, he]⟩
    | c :: rest =>
      obtain ⟨e, he⟩ := h0 [a, a]
      refine ⟨e, ?_⟩
      simp only [periodicVectors, pairsOf, List.map_cons, List.cons_append, List.mapM_cons,
        pairVectors, he]
      rfl
  · intro indices a ha
    have : ∃ e, periodicVector b indices [a] primitive = .error e := by
      unfold periodicVector
      cases primitive
      · simp only [Bool.false_eq_true, if_false]
        cases hm : AShape.minMax (indices.map fun x : Idx d =>
          b.transform fun k => (x.cell k : ℝ)) with
        | error e => exact ⟨e, rfl⟩
        | ok lim =>
          dsimp only
          rw [if_neg (by simpa using ha)]
          exact ⟨_, rfl⟩
      · rw [if_pos rfl]
        match indices with
        | [] => exact ⟨_, rfl⟩
        | x :: xs =>
          dsimp only
          rw [if_neg (by simpa using ha)]
          exact ⟨_, rfl⟩
    obtain ⟨e, he⟩ := this
    exact ⟨e, by simp only [periodicVectors, he]⟩

/-- In three dimensions the translations miss a diagonal.  `nvec2[1:] *= -1` (lattice.py 543-545)
is meant to turn the sum of two periods into their difference, but for the axes 1 and 2 it changes
both signs.  Here the cells are 0 to 2 in every direction and all three axes are periodic: the
difference of the periods along y and z, `(0, 3, -3)`, is not listed with either sign, while the sum
is listed with both. -/
theorem C65_diagonal_fails (b : LatticeBasis 3 ℝ) :
    ∃ vecs, periodicVectors b [![0, 0, 0, 0], ![2, 2, 2, 0]] [0, 1, 2] true = .ok vecs ∧
      PeriodOf (d := 3) [![0, 0, 0, 0], ![2, 2, 2, 0]] [1] ![0, 3, 0] ∧
      PeriodOf (d := 3) [![0, 0, 0, 0], ![2, 2, 2, 0]] [2] ![0, 0, 3] ∧
      (∀ v ∈ vecs, v.2 ≠ ![0, 3, -3] ∧ v.2 ≠ ![0, -3, 3]) ∧
      (∃ v ∈ vecs, v.2 = ![0, 3, 3]) ∧ ∃ v ∈ vecs, v.2 = ![0, -3, -3] := by
  refine ⟨[([0, 0], ![3, 0, 0]), ([0, 1], ![3, 3, 0]), ([0, 1], ![3, -3, 0]), ([0, 2], ![3, 0, 3]),
    ([0, 2], ![3, 0, -3]), ([1, 1], ![0, 3, 0]), ([1, 1], ![0, -3, 0]), ([1, 2], ![0, 3, 3]),
    ([1, 2], ![0, -3, -3]), ([2, 2], ![0, 0, 3]), ([2, 2], ![0, 0, -3])], ?_, ?_, ?_, ?_, ?_, ?_⟩
  · have e : ∀ (S : List ℕ) (v : Fin 3 → ℤ), S.all (· < 3) = true →
        (v = fun k : Fin 3 => if k.val ∈ S then 3 else 0) →
        periodicVector b [![0, 0, 0, 0], ![2, 2, 2, 0]] S true = .ok v := by
      intro S v hS hv
      unfold periodicVector
      rw [if_pos rfl]
      dsimp only
      rw [if_pos (by simpa using hS), hv]
      congr 1
      funext k
      fin_cases k <;> rfl
    simp only [periodicVectors, pairsOf, List.map_cons, List.map_nil, List.cons_append,
      List.nil_append, List.mapM_cons, List.mapM_nil, pairVectors, List.head?_cons,
      e [0, 0] ![3, 0, 0] rfl (by decide), e [0, 1] ![3, 3, 0] rfl (by decide),
      e [0, 2] ![3, 0, 3] rfl (by decide), e [1, 1] ![0, 3, 0] rfl (by decide),
      e [1, 2] ![0, 3, 3] rfl (by decide), e [2, 2] ![0, 0, 3] rfl (by decide)]
    have f : ∀ v w : Fin 3 → ℤ, (∀ k, flipTail v k = w k) → flipTail v = w := fun v w h => funext h
    rw [f ![3, 3, 0] ![3, -3, 0] (by decide), f ![3, 0, 3] ![3, 0, -3] (by decide),
      f ![0, 3, 0] ![0, -3, 0] (by decide), f ![0, 3, 3] ![0, -3, -3] (by decide),
      f ![0, 0, 3] ![0, 0, -3] (by decide)]
    rfl
  · refine ⟨by decide, ?_⟩
    intro k hk
    refine ⟨![2, 2, 2, 0], ![0, 0, 0, 0], by simp, by simp, ?_, ?_⟩ <;> revert k <;> decide
  · refine ⟨by decide, ?_⟩
    intro k hk
    refine ⟨![2, 2, 2, 0], ![0, 0, 0, 0], by simp, by simp, ?_, ?_⟩ <;> revert k <;> decide
  · decide
  · decide
  · decide

/-- `C65_translations_partial` for a 3 × 2 patch of the square lattice with spacing 2, in both
modes: the hypotheses hold and the difference of the periods is covered. -/
example (primitive : Bool) : ∃ b : LatticeBasis 2 ℝ, Orthogonal b ∧
    ∃ vecs, periodicVectors b [![0, 0, 0], ![2, 0, 0], ![1, 1, 0]] [0, 1] primitive = .ok vecs ∧
      ∃ v ∈ vecs, v.2 = ![3, -2] ∨ v.2 = -![3, -2] := by
  have hdet : IsUnit (Matrix.diagonal (fun _ : Fin 2 => (2 : ℝ))).det := by
    rw [Matrix.det_diagonal]; simp
  obtain ⟨b, hb⟩ : ∃ b, LatticeBasis.init (Matrix.diagonal (fun _ : Fin 2 => (2 : ℝ))) = .ok b :=
    (LatticeBasis.init_eq_ok_iff _).2 hdet.ne_zero
  have ho : Orthogonal b := ⟨_, fun _ => two_pos, hb⟩
  refine ⟨b, ho, ?_⟩
  obtain ⟨vecs, hv, h⟩ := C65_translations_partial (primitive := primitive) (Or.inr ho)
    (indices := [![0, 0, 0], ![2, 0, 0], ![1, 1, 0]]) (by simp) (axes := [0, 1]) (by simp)
  refine ⟨vecs, hv, ?_⟩
  obtain ⟨-, h2, -⟩ := h ![![3, 0], ![0, 2]] (by
    intro a
    fin_cases a
    · refine ⟨by decide, ?_⟩
      intro k hk
      refine ⟨![2, 0, 0], ![0, 0, 0], by simp, by simp, ?_, ?_⟩ <;> revert k <;> decide
    · refine ⟨by decide, ?_⟩
      intro k hk
      refine ⟨![1, 1, 0], ![0, 0, 0], by simp, by simp, ?_, ?_⟩ <;> revert k <;> decide)
  obtain ⟨v, hv, hv'⟩ := (h2 0 1 (by simp) (by simp) (by simp)).2 (Or.inl rfl)
  refine ⟨v, hv, ?_⟩
  have e : (![![3, 0], ![0, 2]] : Fin 2 → Fin 2 → ℤ) 0 - ![![3, 0], ![0, 2]] 1 = ![3, -2] := by
    decide
  rw [e] at hv'
  exact hv'

/-- The cells (0, 0) to (0, 4). -/
def columnCells : List (Idx 2) := [![0, 0, 0], ![0, 1, 0], ![0, 2, 0], ![0, 3, 0], ![0, 4, 0]]

/-- The basis (1, 0), (1/2, 1). -/
noncomputable def obliqueRows : Matrix (Fin 2) (Fin 2) ℝ := !![1, 0; 1 / 2, 1]

theorem oblique_itransform {b : LatticeBasis 2 ℝ} (hb : LatticeBasis.init obliqueRows = .ok b)
    (x : Vec 2 ℝ) : b.itransform x = ![x 0 - x 1 / 2, x 1] := by
  have ht : b.transform ![x 0 - x 1 / 2, x 1] = x := by
    have hV : b.V = obliqueRows.transpose := (LatticeBasis.init_ok hb).1
    funext k
    rw [LatticeBasis.transform, hV]
    fin_cases k <;> simp [obliqueRows, Matrix.mulVec, dotProduct, Fin.sum_univ_two]
    ring
  conv_lhs => rw [← ht]
  exact LatticeBasis.itransform_transform hb _

theorem oblique_transform {b : LatticeBasis 2 ℝ} (hb : LatticeBasis.init obliqueRows = .ok b)
    (x : Vec 2 ℝ) : b.transform x = ![x 0 + x 1 / 2, x 1] := by
  have hV : b.V = obliqueRows.transpose := (LatticeBasis.init_ok hb).1
  funext k
  rw [LatticeBasis.transform, hV]
  fin_cases k <;> simp [obliqueRows, Matrix.mulVec, dotProduct, Fin.sum_univ_two]
  ring

theorem oblique_cellSizes {b : LatticeBasis 2 ℝ} (hb : LatticeBasis.init obliqueRows = .ok b) :
    cellSizes b = ![1, 1] := by
  have hV := LatticeBasis.init_vectors hb
  funext k
  obtain ⟨hi, lo, h1, h2, h3⟩ := C05_cell_size_partial (fun i => b.vectors i) k
    ⟨0, by rw [hV]; fin_cases k <;> simp [obliqueRows]⟩
  change cellSize (fun i => b.vectors i) k = _
  have e1 : hi = 1 := by
    refine le_antisymm ?_ (h2.2 (Or.inr ⟨k, by rw [hV]; fin_cases k <;> simp [obliqueRows]⟩))
    rcases h2.1 with h | ⟨i, h⟩
    · rw [h]; exact zero_le_one
    · rw [← h, hV]; fin_cases i <;> fin_cases k <;> simp [obliqueRows]; norm_num
  have e2 : lo = 0 := by
    refine le_antisymm (h3.2 (Or.inl rfl)) ?_
    rcases h3.1 with h | ⟨i, h⟩
    · rw [h]
    · rw [← h, hV]; fin_cases i <;> fin_cases k <;> simp [obliqueRows]
  rw [h1, e1, e2]
  fin_cases k <;> simp

theorem rint_near {x : ℝ} (z : ℤ) (h1 : (z : ℝ) - 1 / 2 < x) (h2 : x < z + 1 / 2) :
    rint x = z := by
  by_cases hz : (z : ℝ) ≤ x
  · have hf : ⌊x⌋ = z := by
      rw [Int.floor_eq_iff]
      constructor <;> linarith
    unfold rint
    simp only [hf]
    rw [if_pos (by linarith)]
  · have hf : ⌊x⌋ = z - 1 := by
      rw [Int.floor_eq_iff]
      push_cast
      constructor <;> linarith
    unfold rint
    simp only [hf]
    push_cast
    rw [if_neg (by linarith), if_pos (by linarith)]
    ring

theorem oblique_vector {b : LatticeBasis 2 ℝ} (hb : LatticeBasis.init obliqueRows = .ok b) :
    periodicVector b columnCells [0] false = .ok ![3, 0] ∧
    periodicVector b columnCells [1] false = .ok ![-2, 5] ∧
    periodicVector b columnCells [0, 0] false = .ok ![3, 0] ∧
    periodicVector b columnCells [1, 1] false = .ok ![-2, 5] ∧
    periodicVector b columnCells [0, 1] false = .ok ![0, 5] := by
  obtain ⟨lim, hlim, hspec⟩ := AShape.minMax_spec
    (columnCells.map
      fun x : Idx 2 => b.transform fun k => (x.cell k : ℝ)) (by simp [columnCells])
  have hl : (lim 0).1 = 0 ∧ (lim 0).2 = 2 ∧ (lim 1).1 = 0 ∧ (lim 1).2 = 4 := by
    have c0 : Idx.cell (d := 2) ![0, 0, 0] = ![0, 0] := by decide
    have c1 : Idx.cell (d := 2) ![0, 1, 0] = ![0, 1] := by decide
    have c2 : Idx.cell (d := 2) ![0, 2, 0] = ![0, 2] := by decide
    have c3 : Idx.cell (d := 2) ![0, 3, 0] = ![0, 3] := by decide
    have c4 : Idx.cell (d := 2) ![0, 4, 0] = ![0, 4] := by decide
    have h0 := hspec 0
    have h1 := hspec 1
    simp only [columnCells, List.map_cons, List.map_nil, c0, c1, c2, c3, c4,
      oblique_transform hb] at h0 h1
    refine ⟨h0.1.unique ?_, h0.2.unique ?_, h1.1.unique ?_, h1.2.unique ?_⟩
    · constructor
      · exact ⟨_, by simp; exact Or.inl rfl, by simp⟩
      · rintro t ⟨v, hv, rfl⟩
        simp at hv
        rcases hv with rfl | rfl | rfl | rfl | rfl <;> simp <;> norm_num
    · constructor
      · exact ⟨_, by simp; exact Or.inr (Or.inr (Or.inr (Or.inr rfl))), by norm_num⟩
      · rintro t ⟨v, hv, rfl⟩
        simp at hv
        rcases hv with rfl | rfl | rfl | rfl | rfl <;> simp <;> norm_num
    · constructor
      · exact ⟨_, by simp; exact Or.inl rfl, by simp⟩
      · rintro t ⟨v, hv, rfl⟩
        simp at hv
        rcases hv with rfl | rfl | rfl | rfl | rfl <;> simp
    · constructor
      · exact ⟨_, by simp; exact Or.inr (Or.inr (Or.inr (Or.inr rfl))), by norm_num⟩
      · rintro t ⟨v, hv, rfl⟩
        simp at hv
        rcases hv with rfl | rfl | rfl | rfl | rfl <;> simp <;> norm_num
  obtain ⟨l1, l2, l3, l4⟩ := hl
  have e : ∀ (S : List ℕ) (w : Fin 2 → ℤ), S.all (· < 2) = true →
      (∀ k, rint (b.itransform (fun j : Fin 2 =>
        if j.val ∈ S then (lim j).2 - (lim j).1 + cellSizes b j * 2 / 3 else 0) k) = w k) →
      periodicVector b columnCells S false = .ok w := by
    intro S w hS hw
    unfold periodicVector
    simp only [Bool.false_eq_true, if_false, hlim]
    rw [if_pos (by simpa using hS)]
    congr 1
    funext k
    exact hw k
  refine ⟨e _ _ rfl ?_, e _ _ rfl ?_, e _ _ rfl ?_, e _ _ rfl ?_, e _ _ rfl ?_⟩ <;> intro k <;>
    rw [oblique_itransform hb, oblique_cellSizes hb] <;> fin_cases k <;>
    simp [l1, l2, l3, l4] <;> refine rint_near _ ?_ ?_ <;> push_cast <;> norm_num

/-- For oblique lattices and Cartesian axes (the default) the listed translations are not the
combinations of the periods.  The lattice vectors are (1, 0) and (1/2, 1) and the sites are the cells
(0, 0) to (0, 4).  One period along x alone is (3, 0) in units of the lattice vectors and one along y
alone is (-2, 5).  Rounding is done after adding, so their sum (1, 5) is not listed with either sign;
and changing the sign of the second lattice coordinate (lattice.py 544) turns (-2, 5) into (-2, -5), which is no combination of the two periods with factors 0, 1 and -1 at all. -/
theorem C65_oblique_fails {b : LatticeBasis 2 ℝ} (hb : LatticeBasis.init obliqueRows = .ok b) :
    periodicVectors b columnCells [0] false = .ok [([0], ![3, 0])] ∧
    periodicVectors b columnCells [1] false = .ok [([1], ![-2, 5])] ∧
    ∃ vecs, periodicVectors b columnCells [0, 1] false = .ok vecs ∧
      (∀ v ∈ vecs, v.2 ≠ ![1, 5] ∧ v.2 ≠ -![1, 5]) ∧
      ∃ v ∈ vecs, ∀ s ∈ ([-1, 0, 1] : List ℤ), ∀ t ∈ ([-1, 0, 1] : List ℤ),
        v.2 ≠ s • ![3, 0] + t • ![-2, 5] := by
  obtain ⟨h1, h2, h3, h4, h5⟩ := oblique_vector hb
  refine ⟨by simp only [periodicVectors, h1], by simp only [periodicVectors, h2],
    [([0, 0], ![3, 0]), ([0, 1], ![0, 5]), ([0, 1], ![0, -5]), ([1, 1], ![-2, 5]),
      ([1, 1], ![-2, -5])], ?_, by decide, ([1, 1], ![-2, -5]), by simp, by decide⟩
  simp only [periodicVectors, pairsOf, List.map_cons, List.map_nil, List.cons_append,
    List.nil_append, List.mapM_cons, List.mapM_nil, pairVectors, List.head?_cons, h3, h4, h5]
  have f : ∀ v w : Fin 2 → ℤ, (∀ k, flipTail v k = w k) → flipTail v = w := fun v w h => funext h
  rw [f ![0, 5] ![0, -5] (by decide), f ![-2, 5] ![-2, -5] (by decide)]
  rfl

/-- The basis of `C65_oblique_fails` exists. -/
example : ∃ b : LatticeBasis 2 ℝ, LatticeBasis.init obliqueRows = .ok b := by
  refine (LatticeBasis.init_eq_ok_iff _).2 ?_
  simp [obliqueRows, Matrix.det_fin_two]

end Lattice

end Lattpy
