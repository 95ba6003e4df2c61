import Verif.Lemmas.CubicGrid

/-!
# `finite_hypercubic` from the arguments to the neighbours (C98)
-/

set_option autoImplicit false
set_option linter.unusedSectionVars false

namespace Lattpy

open Structure

variable {d : ℕ}

/-! ## spec -/

/-- The cells `x` and `y` differ by one step along one axis; along the periodic axes the last cell
is followed by the first one. -/
def TorusStep (size : Fin d → ℕ) (axes : List ℕ) (x y : Fin d → ℤ) : Prop :=
  ∃ k, (∀ m, m ≠ k → y m = x m) ∧
    (y k = x k + 1 ∨ y k = x k - 1 ∨
      (k.val ∈ axes ∧ ((x k = 0 ∧ y k = size k - 1) ∨ (y k = 0 ∧ x k = size k - 1))))

/-- `y` is reached from `x` by one step across the boundary of a periodic axis; `x` translated by
`t` lies beside `y`. -/
def WrapStep (size : Fin d → ℕ) (axes : List ℕ) (x y t : Fin d → ℤ) : Prop :=
  ∃ k : Fin d, k.val ∈ axes ∧ (∀ m, m ≠ k → y m = x m) ∧
    ((t = Pi.single k (size k : ℤ) ∧ x k = 0 ∧ y k = size k - 1) ∨
      (t = -Pi.single k (size k : ℤ) ∧ y k = 0 ∧ x k = size k - 1))

/-- The sites of `L` are the cells of a `size 0 × … × size (d-1)` grid, each at its own integer
coordinates; the neighbours are one step away, across the boundaries of the axes `axes` too, where
the translation and the distance 1 are recorded. -/
def GridOf (size : Fin d → ℕ) (axes : List ℕ) (L : Lattice d ℝ) : Prop :=
  L.periodicAxes = axes ∧ ∃ D, L.data = some D ∧
    D.indices.length = ∏ k, size k ∧ D.indices.Nodup ∧
    (∀ x : Idx d, x ∈ D.indices ↔ x.alpha = 0 ∧ ∀ k, 0 ≤ x.cell k ∧ x.cell k < size k) ∧
    D.positions = D.indices.map (fun x k => (Idx.cell x k : ℝ)) ∧
    (∀ (i : ℕ) (a : Idx d), D.indices[i]? = some a → ∃ l, L.neighbors i none false = .ok l ∧
      l.Nodup ∧ ∀ j, j ∈ l ↔ ∃ b : Idx d, D.indices[j]? = some b ∧
        TorusStep size axes a.cell b.cell) ∧
    ∀ i j t x, Lattice.Per D i j t x ↔ x = 1 ∧ ∃ a b : Idx d, D.indices[i]? = some a ∧
      D.indices[j]? = some b ∧ WrapStep size axes a.cell b.cell t

/-! ## lemmas -/

namespace IsGrid

variable {env : Env ℝ} {size : Fin d → ℕ} {L : Lattice d ℝ} {A : Analysis d ℝ}
  {D : LatticeData d ℝ} {table : List (List (ℕ × WithTop ℝ))}

theorem site (h : IsGrid env size L A D table) (i : ℕ) (p : Vec d ℝ) : D.positions[i]? = some p ↔
    ∃ a : Idx d, D.indices[i]? = some a ∧ p = fun k => (a.cell k : ℝ) := by
  have hlen := h.sites.length_eq
  constructor
  · intro h2
    obtain ⟨i2, e2⟩ := List.getElem?_eq_some_iff.1 h2
    have i1 : i < D.indices.length := by rw [hlen]; exact i2
    have := h.sites.get i1 i2
    simp only [List.get_eq_getElem, e2] at this
    exact ⟨_, List.getElem?_eq_getElem i1, this⟩
  · rintro ⟨a, h2, rfl⟩
    obtain ⟨i1, e1⟩ := List.getElem?_eq_some_iff.1 h2
    have i2 : i < D.positions.length := by rw [← hlen]; exact i1
    have := h.sites.get i1 i2
    simp only [List.get_eq_getElem, e1] at this
    rw [List.getElem?_eq_getElem i2, this]

theorem index (h : IsGrid env size L A D table) {i : ℕ} {a : Idx d} (ha : D.indices[i]? = some a) :
    a = Idx.mk a.cell 0 ∧ ∀ k, 0 ≤ a.cell k ∧ a.cell k < size k := by
  have hm := List.mem_of_getElem? ha
  have h1 : a = Idx.mk a.cell 0 := by
    conv_lhs => rw [← Idx.mk_cell_alpha a, h.alpha a hm]
  refine ⟨h1, (h.mem a.cell).1 ?_⟩
  rw [← h1]
  exact hm

theorem exists_index (h : IsGrid env size L A D table) {n : Fin d → ℤ}
    (hn : ∀ k, 0 ≤ n k ∧ n k < size k) : ∃ i : ℕ, D.indices[i]? = some (Idx.mk n 0) :=
  List.mem_iff_getElem?.1 ((h.mem n).2 hn)

theorem index_inj (h : IsGrid env size L A D table) {i j : ℕ} {a b : Idx d}
    (ha : D.indices[i]? = some a) (hb : D.indices[j]? = some b) (hab : a.cell = b.cell) : i = j := by
  have : a = b := by rw [(h.index ha).1, (h.index hb).1, hab]
  subst this
  rw [← hb] at ha
  exact (List.getElem?_inj (by
    rw [hb] at ha
    exact (List.getElem?_eq_some_iff.1 ha).1) h.nodup).1 ha

theorem numSites (h : IsGrid env size L A D table) : D.indices.length = ∏ k, size k := by
  have hcard : (Fintype.piFinset fun k => Finset.Ico (0 : ℤ) (size k)).card = ∏ k, size k := by
    rw [Fintype.card_piFinset]
    simp
  rw [← hcard, ← List.toFinset_card_of_nodup h.nodup]
  symm
  refine Finset.card_bij (fun n _ => Idx.mk n 0) ?_ ?_ ?_
  · intro n hn
    rw [List.mem_toFinset, h.mem]
    intro k
    have := Fintype.mem_piFinset.1 hn k
    rwa [Finset.mem_Ico] at this
  · intro n _ m _ hnm
    have := congrArg Idx.cell hnm
    rwa [Idx.cell_mk, Idx.cell_mk] at this
  · intro x hx
    obtain ⟨i, hi⟩ := List.mem_iff_getElem?.1 (List.mem_toFinset.1 hx)
    obtain ⟨h1, h2⟩ := h.index hi
    refine ⟨Idx.cell x, Fintype.mem_piFinset.2 fun k => Finset.mem_Ico.2 (h2 k), h1.symm⟩

/-- Connections of the grid across a translation. -/
theorem image (h : IsGrid env size L A D table) {i j : ℕ} {t : Fin d → ℤ} {x : ℝ} :
    Image L.struct A D.indices D.positions i j t x ↔
      x = 1 ∧ ∃ a b : Idx d, D.indices[i]? = some a ∧ D.indices[j]? = some b ∧
        ∑ k, |a.cell k + t k - b.cell k| = 1 := by
  have hdist : ∀ a b : Idx d, npRound 6 (Real.sqrt (∑ k, ((a.cell k : ℝ) +
      ∑ m, (t m : ℝ) * L.struct.basis.vectors m k - b.cell k) ^ 2)) =
      npRound 6 (Real.sqrt ((∑ k, (a.cell k + t k - b.cell k) ^ 2 : ℤ) : ℝ)) := by
    intro a b
    congr 1
    push_cast
    refine congrArg Real.sqrt (Finset.sum_congr rfl fun k _ => ?_)
    rw [h.vectors]
    simp [Matrix.one_apply]
  constructor
  · rintro ⟨p, q, a, b, h1, h2, h3, h4, h5, h6⟩
    obtain ⟨a', e1, rfl⟩ := (h.site i p).1 h1
    obtain ⟨b', e2, rfl⟩ := (h.site j q).1 h2
    rw [h3] at e1
    rw [h4] at e2
    cases e1
    cases e2
    rw [h.alpha a (List.mem_of_getElem? h3), h.alpha b (List.mem_of_getElem? h4),
      h.configured] at h6
    subst h6
    rw [hdist] at h5
    exact ⟨rfl, a, b, h3, h4, (sum_sq_one _).1 ((round_sqrt_one _).1 h5.symm)⟩
  · rintro ⟨rfl, a, b, h3, h4, h5⟩
    refine ⟨_, _, a, b, (h.site i _).2 ⟨a, h3, rfl⟩, (h.site j _).2 ⟨b, h4, rfl⟩, h3, h4, ?_, ?_⟩
    · rw [hdist]
      exact ((round_sqrt_one _).2 ((sum_sq_one _).2 h5)).symm
    · rw [h.alpha a (List.mem_of_getElem? h3), h.alpha b (List.mem_of_getElem? h4), h.configured]

theorem rows (hd : 0 < d) (h : IsGrid env size L A D table) :
    ∃ width, ∀ (i : ℕ) (row : List (ℕ × WithTop ℝ)), table[i]? = some row →
      row.length = width ∧ (row.map Prod.snd).Pairwise (· ≤ ·) ∧
      (∀ e ∈ row, e.2 = ⊤ → e.1 = D.positions.length) ∧
      (∀ e ∈ row, e.2 ≠ ⊤ → e.1 ≠ i ∧ e.1 < D.positions.length) ∧
      ((row.filter fun e => decide (e.2 ≠ ⊤)).map Prod.fst).Nodup :=
  C45_rows hd h.reach h.analysis D.indices D.positions h.sites.length_eq h.sitesNodup h.comp

theorem regular (hd : 0 < d) (h : IsGrid env size L A D table) {i : ℕ} {a : Idx d}
    (ha : D.indices[i]? = some a) :
    ∃ l, D.getNeighbors i none none false = .ok l ∧
      D.getNeighbors i none (some false) false = .ok l ∧ l.Nodup ∧
      ∀ j, j ∈ l ↔ ∃ b : Idx d, D.indices[j]? = some b ∧ ∑ k, |b.cell k - a.cell k| = 1 := by
  obtain ⟨width, hrows⟩ := h.rows hd
  have hi : i < table.length := by
    rw [h.length, ← h.sites.length_eq]
    exact (List.getElem?_eq_some_iff.1 ha).1
  obtain ⟨l, h1, h2, h3, -⟩ := neighbors_of_links h.set h.top h.levels hi
    (hrows i _ (List.getElem?_eq_getElem hi)).2.2.2.2
  refine ⟨l, h1, ?_, h2, ?_⟩
  · rw [set_regular h.set h.top h.levels hi, h1]
  · intro j
    rw [h3]
    constructor
    · rintro ⟨x, hx⟩
      obtain ⟨-, a', b, e1, e2, e3⟩ := (h.links i j x).1 hx
      rw [ha] at e1
      cases e1
      exact ⟨b, e2, e3⟩
    · rintro ⟨b, e2, e3⟩
      exact ⟨1, (h.links i j 1).2 ⟨rfl, a, b, ha, e2, e3⟩⟩

theorem exists_of_regular (h : IsGrid env size L A D table) {i : ℕ} {o : Option Bool} {l : List ℕ}
    (hl : D.getNeighbors i none o false = .ok l) : ∃ a : Idx d, D.indices[i]? = some a := by
  obtain ⟨width, hr, -⟩ := h.rect
  by_contra hi
  have : ¬ i < D.numSites := by
    intro hlt
    exact hi ⟨_, List.getElem?_eq_getElem (l := D.indices) hlt⟩
  rw [hr.getNeighbors_error (not_lt.1 this)] at hl
  cases hl

/-- The distance 1 is stored if there are two sites along some axis. -/
theorem level (h : IsGrid env size L A D table) (hs : ∀ k, 0 < size k) {k : Fin d}
    (hk : 2 ≤ size k) :
    ∃ n < D.invalidDistidx, D.distvals[n]? = some ((1 : ℝ) : WithTop ℝ) := by
  obtain ⟨i, hi⟩ := h.exists_index (n := 0) fun m => ⟨le_rfl, by simpa using hs m⟩
  obtain ⟨j, hj⟩ := h.exists_index (n := Pi.single k 1) fun m => by
    rcases eq_or_ne m k with rfl | hm
    · rw [Pi.single_eq_same]
      omega
    · rw [Pi.single_eq_of_ne hm]
      exact ⟨le_rfl, by exact_mod_cast hs m⟩
  obtain ⟨row, hrow, he⟩ := (h.links i j 1).2 ⟨rfl, _, _, hi, hj, by
    rw [sum_abs_one]
    refine ⟨k, ?_, fun m hm => ?_⟩ <;> rw [Idx.cell_mk, Idx.cell_mk]
    · simp
    · simp [Pi.single_eq_of_ne hm]⟩
  obtain ⟨-, -, -, -, -, hlev⟩ := set_cols h.set h.top h.levels
  obtain ⟨g1, -, g3⟩ := hlev row (List.mem_of_getElem? hrow) _ he
  exact ⟨_, g3.2 (by simp), g1⟩

/-- The translations of a grid. -/
theorem vecs (h : IsGrid env size L A D table) (hs : ∀ k, 0 < size k) {axes : List ℕ}
    (hax : ∀ a ∈ axes, a < d) :
    ∃ vecs, Lattice.PState env L.world A D axes (L.primitive.getD false) vecs ∧
      (∀ a : Fin d, a.val ∈ axes → ∃ v ∈ vecs, v.2 = Pi.single a (size a : ℤ) ∨
        v.2 = -Pi.single a (size a : ℤ)) ∧
      ∀ v ∈ vecs, ∃ a : Fin d, a.val ∈ axes ∧
        (v.2 = Pi.single a (size a : ℤ) ∨ v.2 = -Pi.single a (size a : ℤ) ∨
        ∃ c : Fin d, c.val ∈ axes ∧ a ≠ c ∧ |v.2 a| = size a ∧ |v.2 c| = size c) := by
  obtain ⟨i0, hi0⟩ := h.exists_index (n := 0) fun m => ⟨le_rfl, by simpa using hs m⟩
  have hne : D.indices ≠ [] := by
    intro h0
    rw [h0] at hi0
    cases hi0
  obtain ⟨vecs, hv, hp⟩ := Lattice.C65_translations_partial (b := L.struct.basis) (primitive := true)
    (Or.inl rfl) hne hax
  obtain ⟨h1, -, h3⟩ := hp (fun a => Pi.single a (size a : ℤ)) (by
    intro a
    refine ⟨fun k hk => Pi.single_eq_of_ne (by rintro rfl; simp at hk) _, ?_⟩
    intro k hk
    have hka : k = a := Fin.ext (by simpa using hk)
    subst hka
    refine ⟨Idx.mk (Pi.single k ((size k : ℤ) - 1)) 0, Idx.mk 0 0, (h.mem _).2 fun m => ?_,
      (h.mem _).2 fun m => ⟨le_rfl, by simpa using hs m⟩, ?_, ?_⟩
    · have := hs k
      rcases eq_or_ne m k with rfl | hm
      · rw [Pi.single_eq_same]
        omega
      · rw [Pi.single_eq_of_ne hm]
        exact ⟨le_rfl, by exact_mod_cast hs m⟩
    · rw [Idx.cell_mk, Idx.cell_mk, Pi.single_eq_same, Pi.single_eq_same]
      simp
    · intro z hz
      obtain ⟨i, hi⟩ := List.mem_iff_getElem?.1 hz
      have := (h.index hi).2 k
      rw [Idx.cell_mk, Idx.cell_mk, Pi.single_eq_same]
      exact ⟨this.1, by omega⟩)
  refine ⟨vecs, ⟨h.reach, h.analysis, h.sites.length_eq, ?_, ?_⟩, h1, ?_⟩
  · intro x hx
    rw [h.alpha x hx, show L.world.struct.numBase = 1 from h.numBase]
    norm_num
  · rw [h.primitive]
    exact hv
  · intro v hv'
    obtain ⟨a, ha, hc⟩ := h3 v hv'
    refine ⟨a, ha, ?_⟩
    rcases hc with hc | hc | ⟨c, hca, hac, hc⟩
    · exact Or.inl hc
    · exact Or.inr (Or.inl hc)
    · refine Or.inr (Or.inr ⟨c, hca, hac, ?_⟩)
      rcases hc with hc | hc | hc <;> rw [hc] <;> simp [Pi.single_eq_of_ne hac,
        Pi.single_eq_of_ne hac.symm]

end IsGrid

/-- Steps inside the box and around it. -/
theorem torusStep_iff (size : Fin d → ℕ) (axes : List ℕ) (x y : Fin d → ℤ) :
    TorusStep size axes x y ↔ ∑ k, |y k - x k| = 1 ∨ ∃ k : Fin d, k.val ∈ axes ∧
      (∀ m, m ≠ k → y m = x m) ∧
      ((x k = 0 ∧ y k = size k - 1) ∨ (y k = 0 ∧ x k = size k - 1)) := by
  rw [sum_abs_one]
  constructor
  · rintro ⟨k, h1, h2 | h2 | ⟨h2, h3⟩⟩
    · refine Or.inl ⟨k, ?_, fun m hm => by rw [h1 m hm, sub_self]⟩
      rw [h2]; simp
    · refine Or.inl ⟨k, ?_, fun m hm => by rw [h1 m hm, sub_self]⟩
      rw [h2]; simp
    · exact Or.inr ⟨k, h2, h1, h3⟩
  · rintro (⟨k, h1, h2⟩ | ⟨k, h1, h2, h3⟩)
    · refine ⟨k, fun m hm => by have := h2 m hm; omega, ?_⟩
      rcases (abs_eq one_pos.le).1 h1 with h | h
      · left; omega
      · right; left; omega
    · exact ⟨k, h2, Or.inr (Or.inr ⟨h1, h3⟩)⟩

/-- Neighbours across the boundary. -/
theorem wrap_step {size : Fin d → ℕ} {k : Fin d} {t x y : Fin d → ℤ}
    (ht : t = Pi.single k (size k : ℤ) ∨ t = -Pi.single k (size k : ℤ))
    (hx : ∀ m, 0 ≤ x m ∧ x m < size m) (hy : ∀ m, 0 ≤ y m ∧ y m < size m) :
    ∑ m, |x m + t m - y m| = 1 ↔ (∀ m, m ≠ k → y m = x m) ∧
      ((t = Pi.single k (size k : ℤ) ∧ x k = 0 ∧ y k = size k - 1) ∨
        (t = -Pi.single k (size k : ℤ) ∧ y k = 0 ∧ x k = size k - 1)) := by
  have hz : ∀ m, m ≠ k → t m = 0 := by
    intro m hm
    rcases ht with ht | ht <;> rw [ht] <;> simp [Pi.single_eq_of_ne hm]
  have hxk := hx k
  have hyk := hy k
  constructor
  · intro h
    obtain ⟨k', h1, h2⟩ := (sum_abs_one _).1 h
    have hkk : k' = k := by
      by_contra hne
      have := h2 k (Ne.symm hne)
      rcases ht with ht | ht
      · rw [ht, Pi.single_eq_same] at this; omega
      · rw [ht, Pi.neg_apply, Pi.single_eq_same] at this; omega
    subst hkk
    refine ⟨fun m hm => ?_, ?_⟩
    · have := h2 m hm
      rw [hz m hm] at this
      omega
    · rcases ht with ht | ht
      · left
        refine ⟨ht, ?_⟩
        rw [ht, Pi.single_eq_same] at h1
        rcases (abs_eq one_pos.le).1 h1 with h | h <;> omega
      · right
        refine ⟨ht, ?_⟩
        rw [ht, Pi.neg_apply, Pi.single_eq_same] at h1
        rcases (abs_eq one_pos.le).1 h1 with h | h <;> omega
  · rintro ⟨h1, h2⟩
    rw [sum_abs_one]
    refine ⟨k, ?_, fun m hm => by rw [h1 m hm, hz m hm]; ring⟩
    rcases h2 with ⟨h2, h3, h4⟩ | ⟨h2, h3, h4⟩
    · rw [h2, Pi.single_eq_same, h3, h4]
      rw [show (0 : ℤ) + size k - (size k - 1) = 1 by ring]; rfl
    · rw [h2, Pi.neg_apply, Pi.single_eq_same, h3, h4]
      rw [show (size k : ℤ) - 1 + -size k - 0 = -1 by ring]; rfl

/-- A step around the grid as a step inside. -/
def wrapDiff (s δ : ℤ) : ℤ := if δ = s - 1 then -1 else if δ = -(s - 1) then 1 else δ

open Classical in
/-- The neighbours of the cell `x` around the grid as neighbours of a cell inside. -/
noncomputable def unwrap (size : Fin d → ℕ) (axes : List ℕ) (x y : Fin d → ℤ) : Fin d → ℤ :=
  fun k => if k.val ∈ axes ∧ 3 ≤ size k then 1 + wrapDiff (size k) (y k - x k) else y k

theorem unwrap_spec {size : Fin d → ℕ} {axes : List ℕ} (h2 : ∀ k : Fin d, k.val ∈ axes → 2 ≤ size k)
    {x y : Fin d → ℤ}
    (hy : ∀ m, 0 ≤ y m ∧ y m < size m) (hs : TorusStep size axes x y) :
    (∀ m, 0 ≤ unwrap size axes x y m ∧ unwrap size axes x y m < size m) ∧
      ∑ k, |unwrap size axes x y k - unwrap size axes x x k| = 1 := by
  obtain ⟨k, h1, hc⟩ := hs
  have hself : ∀ m : Fin d, 3 ≤ size m → wrapDiff (size m) (x m - x m) = 0 := by
    intro m hm
    unfold wrapDiff
    rw [if_neg (by omega), if_neg (by omega)]
    ring
  have hm : ∀ m, m ≠ k → unwrap size axes x y m = unwrap size axes x x m := by
    intro m hm
    unfold unwrap
    rw [h1 m hm]
  have hk : |unwrap size axes x y k - unwrap size axes x x k| = 1 := by
    unfold unwrap
    by_cases hka : k.val ∈ axes ∧ 3 ≤ size k
    · rw [if_pos hka, if_pos hka, hself k hka.2]
      have := hka.2
      unfold wrapDiff
      rcases hc with hc | hc | ⟨-, hc | hc⟩
      · rw [if_neg (by omega), if_neg (by omega), hc]; ring_nf; rfl
      · rw [if_neg (by omega), if_neg (by omega), hc]; ring_nf; rfl
      · rw [if_pos (by omega)]; rfl
      · rw [if_neg (by omega), if_pos (by omega)]; rfl
    · rw [if_neg hka, if_neg hka]
      rcases hc with hc | hc | ⟨hk', hc⟩
      · rw [hc]; ring_nf; rfl
      · rw [hc]; ring_nf; rfl
      · have := h2 k hk'
        have : (size k : ℤ) = 2 := by
          have : ¬ 3 ≤ size k := fun h => hka ⟨hk', h⟩
          omega
        rcases hc with ⟨c1, c2⟩ | ⟨c1, c2⟩ <;> rw [c1, c2, this] <;> rfl
  refine ⟨fun m => ?_, (sum_abs_one _).2 ⟨k, hk, fun m h => by rw [hm m h, sub_self]⟩⟩
  by_cases hma : m.val ∈ axes ∧ 3 ≤ size m
  · have h3m := hma.2
    have hx1 : unwrap size axes x x m = 1 := by
      unfold unwrap
      rw [if_pos hma, hself m hma.2]
      rfl
    rcases eq_or_ne m k with rfl | hmk
    · rw [hx1] at hk
      rcases (abs_eq one_pos.le).1 hk with h | h <;> omega
    · rw [hm m hmk, hx1]
      omega
  · unfold unwrap
    rw [if_neg hma]
    exact hy m

theorem unwrap_inj {size : Fin d → ℕ} {axes : List ℕ}
    {x y z : Fin d → ℤ} (hx : ∀ m, 0 ≤ x m ∧ x m < size m)
    (hy : ∀ m, 0 ≤ y m ∧ y m < size m) (hz : ∀ m, 0 ≤ z m ∧ z m < size m)
    (hsy : TorusStep size axes x y) (hsz : TorusStep size axes x z)
    (h : unwrap size axes x y = unwrap size axes x z) : y = z := by
  have key : ∀ (y : Fin d → ℤ), TorusStep size axes x y → ∀ m, y m = x m ∨ y m = x m + 1 ∨
      y m = x m - 1 ∨ (x m = 0 ∧ y m = size m - 1) ∨ (y m = 0 ∧ x m = size m - 1) := by
    rintro y ⟨k, h1, h2⟩ m
    rcases eq_or_ne m k with rfl | hm
    · tauto
    · exact Or.inl (h1 m hm)
  funext m
  have hm := congrFun h m
  unfold unwrap at hm
  by_cases hma : m.val ∈ axes ∧ 3 ≤ size m
  · rw [if_pos hma, if_pos hma] at hm
    have := hma.2
    have h1 := key y hsy m
    have h2 := key z hsz m
    have h4 := hx m
    have h5 := hy m
    have h6 := hz m
    unfold wrapDiff at hm
    split_ifs at hm <;> omega
  · rw [if_neg hma, if_neg hma] at hm
    exact hm

/-- The rows of the tables have room for the neighbours on the torus. -/
theorem IsGrid.room (hd : 0 < d) {env : Env ℝ} {size : Fin d → ℕ} {L : Lattice d ℝ}
    {A : Analysis d ℝ} {D : LatticeData d ℝ} {table : List (List (ℕ × WithTop ℝ))}
    (h : IsGrid env size L A D table) {axes : List ℕ}
    (h2 : ∀ k : Fin d, k.val ∈ axes → 2 ≤ size k) {width : ℕ} (hr : D.Rect width)
    {i : ℕ} {a : Idx d} (ha : D.indices[i]? = some a) {N : List ℕ} (hnd' : N.Nodup)
    (hall : ∀ j ∈ N, ∃ b : Idx d, D.indices[j]? = some b ∧ TorusStep size axes a.cell b.cell) :
    N.length ≤ width := by
  have hcell : ∀ {i : ℕ} {a : Idx d}, D.indices[i]? = some a →
      ∀ k, 0 ≤ a.cell k ∧ a.cell k < size k := fun ha => (h.index ha).2
  -- compare with a site inside
  obtain ⟨i', hi'⟩ := h.exists_index (n := unwrap size axes a.cell a.cell) (by
    intro m
    have e := hcell ha m
    unfold unwrap
    by_cases hma : m.val ∈ axes ∧ 3 ≤ size m
    · have e3 := hma.2
      rw [if_pos hma]
      unfold wrapDiff
      rw [if_neg (by omega), if_neg (by omega)]
      omega
    · rw [if_neg hma]
      exact e)
  obtain ⟨l', -, hl', -, hm'⟩ := h.regular hd hi'
  have hg : ∀ j ∈ N, ∃ j' ∈ l', ∃ b : Idx d, D.indices[j]? = some b ∧
      D.indices[j']? = some (Idx.mk (unwrap size axes a.cell b.cell) 0) := by
    intro j hj
    obtain ⟨b, hb, hst⟩ := hall j hj
    obtain ⟨u1, u2⟩ := unwrap_spec h2 (hcell hb) hst
    obtain ⟨j', hj'⟩ := h.exists_index u1
    exact ⟨j', (hm' j').2 ⟨_, hj', by rw [Idx.cell_mk, Idx.cell_mk]; exact u2⟩, b, hb, hj'⟩
  choose! g hg1 hg2 using hg
  have hinj : ∀ j ∈ N, ∀ j' ∈ N, g j = g j' → j = j' := by
    intro j hj j' hj' hgg
    obtain ⟨b, hb, e1⟩ := hg2 j hj
    obtain ⟨b', hb', e2⟩ := hg2 j' hj'
    rw [hgg, e2] at e1
    have e3 := congrArg Idx.cell (Option.some.inj e1)
    rw [Idx.cell_mk, Idx.cell_mk] at e3
    obtain ⟨b1, f1, f2⟩ := hall j hj
    obtain ⟨b2, f3, f4⟩ := hall j' hj'
    rw [hb] at f1
    rw [hb'] at f3
    cases f1
    cases f3
    exact h.index_inj hb hb'
      (unwrap_inj (hcell ha) (hcell hb) (hcell hb') f2 f4 e3.symm)
  have hle : (N.map g).length ≤ l'.length := by
    refine List.Subperm.length_le (List.Nodup.subperm ?_ ?_)
    · exact (List.nodup_map_iff_inj_on hnd').2 hinj
    · intro y hy
      obtain ⟨j, hj, rfl⟩ := List.mem_map.1 hy
      exact hg1 j hj
  rw [List.length_map] at hle
  refine le_trans hle ?_
  obtain ⟨r, hr1, hr2, hgn⟩ := hr.getNeighbors (i := i')
    (List.getElem?_eq_some_iff.1 hi').1
  rw [hgn] at hl'
  cases hl'
  rw [List.length_map, ← hr.row_length r hr2]
  exact List.length_filter_le _ _

theorem IsGrid.raw (hd : 0 < d) {env : Env ℝ} {size : Fin d → ℕ} {L : Lattice d ℝ}
    {A : Analysis d ℝ} {D : LatticeData d ℝ} {table : List (List (ℕ × WithTop ℝ))}
    (h : IsGrid env size L A D table) : ∀ y, RawDistance A y → 5 / 10 ^ 6 < y := by
  obtain ⟨cells, m, c, hcells, -, hsym, -, -, hI⟩ := (h.reach.good hd).analysis A h.analysis
  intro y hy
  obtain ⟨a, ha, b, hb, hyl⟩ := hI.mem_raw.1 hy
  have ha0 : a = 0 := by have := h.numBase; unfold Lattice.struct at this; omega
  have hb0 : b = 0 := by have := h.numBase; unfold Lattice.struct at this; omega
  subst ha0 hb0
  obtain ⟨p0, hp0⟩ : ∃ p0, L.struct.positions = [p0] := by
    rw [← List.length_eq_one_iff]
    exact ((h.reach.good hd).positions_length).trans h.numBase
  obtain ⟨hy0, n, -, hyn⟩ := mem_levels.1 (List.mem_of_mem_take hyl)
  have hpos0 : L.struct.positions[0]? = some p0 := by rw [hp0]; rfl
  have hlev : IsLevel L.struct 0 0 y :=
    ⟨hy0, p0, p0, n, hpos0, hpos0, by rw [hyn]; exact siteDist_eq hpos0 hpos0 n⟩
  have := (cubic_level_one hd hp0 h.vectors).2.1 y hlev
  linarith

/-- Connections across the boundary. -/
theorem IsGrid.wrap {env : Env ℝ} {size : Fin d → ℕ} {L : Lattice d ℝ}
    {A : Analysis d ℝ} {D : LatticeData d ℝ} {table : List (List (ℕ × WithTop ℝ))}
    (h : IsGrid env size L A D table) {axes : List ℕ} {vecs : List (List ℕ × (Fin d → ℤ))}
    (hv2 : ∀ v ∈ vecs, ∃ a : Fin d, a.val ∈ axes ∧
        (v.2 = Pi.single a (size a : ℤ) ∨ v.2 = -Pi.single a (size a : ℤ) ∨
        ∃ c : Fin d, c.val ∈ axes ∧ a ≠ c ∧ |v.2 a| = size a ∧ |v.2 c| = size c)) :
    ∀ v ∈ vecs, ∀ t, t = v.2 ∨ t = -v.2 → ∀ (i j : ℕ) (a b : Idx d),
      D.indices[i]? = some a → D.indices[j]? = some b → ∑ k, |a.cell k + t k - b.cell k| = 1 →
      ∃ k : Fin d, k.val ∈ axes ∧
        (t = Pi.single k (size k : ℤ) ∨ t = -Pi.single k (size k : ℤ)) ∧
        (∀ m, m ≠ k → b.cell m = a.cell m) ∧ ((a.cell k = 0 ∧ b.cell k = size k - 1) ∨
          (b.cell k = 0 ∧ a.cell k = size k - 1)) := by
  have hcell : ∀ {i : ℕ} {a : Idx d}, D.indices[i]? = some a →
      ∀ k, 0 ≤ a.cell k ∧ a.cell k < size k := fun ha => (h.index ha).2
  intro v hv t ht i j a b ha hb hsum
  obtain ⟨k, hk, hc⟩ := hv2 v hv
  have hc' : (t = Pi.single k (size k : ℤ) ∨ t = -Pi.single k (size k : ℤ)) ∨
      ∃ c : Fin d, k ≠ c ∧ |t k| = size k ∧ |t c| = size c := by
    rcases hc with hc | hc | ⟨c, -, hkc, h1, h2⟩
    · rcases ht with ht | ht <;> rw [hc] at ht
      · exact Or.inl (Or.inl ht)
      · exact Or.inl (Or.inr ht)
    · rcases ht with ht | ht <;> rw [hc] at ht
      · exact Or.inl (Or.inr ht)
      · rw [neg_neg] at ht
        exact Or.inl (Or.inl ht)
    · refine Or.inr ⟨c, hkc, ?_, ?_⟩ <;> rcases ht with rfl | rfl
      · exact h1
      · rw [Pi.neg_apply, abs_neg, h1]
      · exact h2
      · rw [Pi.neg_apply, abs_neg, h2]
  rcases hc' with ht' | ⟨c, hkc, h1, h2⟩
  · have := (wrap_step ht' (hcell ha) (hcell hb)).1 hsum
    refine ⟨k, hk, ht', this.1, ?_⟩
    rcases this.2 with ⟨-, h1, h2⟩ | ⟨-, h1, h2⟩
    · exact Or.inl ⟨h1, h2⟩
    · exact Or.inr ⟨h1, h2⟩
  · exfalso
    obtain ⟨m, -, hm⟩ := (sum_abs_one _).1 hsum
    have hz : ∀ n : Fin d, |t n| = size n → a.cell n + t n - b.cell n ≠ 0 := by
      intro n hn h0
      have e1 := hcell ha n
      have e2 := hcell hb n
      rcases abs_cases (t n) with ⟨e3, -⟩ | ⟨e3, -⟩ <;> omega
    by_cases hkm : k = m
    · subst hkm
      exact hz c h2 (hm c (Ne.symm hkc))
    · exact hz k h1 (hm k hkm)

/-- The image of a site beside another one: there is no third site as close. -/
theorem IsGrid.closer_le {env : Env ℝ} {size : Fin d → ℕ} {L : Lattice d ℝ}
    {A : Analysis d ℝ} {D : LatticeData d ℝ} {table : List (List (ℕ × WithTop ℝ))}
    (h : IsGrid env size L A D table) (hs : ∀ k, 0 < size k) {k : Fin d} {t : Fin d → ℤ}
    (hvk : t = Pi.single k (size k : ℤ) ∨ t = -Pi.single k (size k : ℤ)) {i j : ℕ} {a b : Idx d}
    (ha : D.indices[i]? = some a) (hb : D.indices[j]? = some b)
    (hsum : ∑ m, |a.cell m + t m - b.cell m| = 1) :
    closer D.positions (L.struct.basis.translate t fun m => (a.cell m : ℝ))
      (fun m => (b.cell m : ℝ)) ≤ 1 := by
  have hcell : ∀ {i : ℕ} {a : Idx d}, D.indices[i]? = some a →
      ∀ k, 0 ≤ a.cell k ∧ a.cell k < size k := fun ha => (h.index ha).2
  have hdist : ∀ c : Fin d → ℤ, distance (fun m => (c m : ℝ))
      (L.struct.basis.translate t fun m => (a.cell m : ℝ)) =
      Real.sqrt ((∑ m, (a.cell m + t m - c m) ^ 2 : ℤ) : ℝ) := by
    intro c
    rw [LatticeBasis.translate_eq, h.vectors]
    unfold distance
    rw [hasSqrt_real]
    push_cast
    refine congrArg Real.sqrt (Finset.sum_congr rfl fun m _ => ?_)
    simp [Matrix.one_apply]
    ring
  unfold closer
  have hsub : (D.positions.filter fun r => decide (distance r
      (L.struct.basis.translate t fun m => (a.cell m : ℝ)) ≤ distance (fun m => (b.cell m : ℝ))
      (L.struct.basis.translate t fun m => (a.cell m : ℝ)))) ⊆
      [fun m => (b.cell m : ℝ)] := by
    intro r hr'
    obtain ⟨hr1, hr2⟩ := List.mem_filter.1 hr'
    obtain ⟨n, hn⟩ := List.mem_iff_getElem?.1 hr1
    obtain ⟨c, hc, rfl⟩ := (h.site n r).1 hn
    have hr2 := of_decide_eq_true hr2
    rw [hdist, hdist, (sum_sq_one _).2 hsum, Int.cast_one, Real.sqrt_one,
      Real.sqrt_le_one] at hr2
    have hle : ∑ m, (a.cell m + t m - c.cell m) ^ 2 ≤ 1 := by exact_mod_cast hr2
    have e1 := hcell ha k
    have e2 := hcell hc k
    have e3 := hcell hb k
    have hvk' : |t k| = size k := by
      rcases hvk with e | e <;> rw [e] <;> simp
    have hne0 : a.cell k + t k - c.cell k ≠ 0 := by
      intro h0
      rcases abs_cases (t k) with ⟨e4, -⟩ | ⟨e4, -⟩ <;> omega
    have h1' : ∑ m, (a.cell m + t m - c.cell m) ^ 2 = 1 := by
      refine le_antisymm hle ?_
      refine le_trans ?_ (Finset.single_le_sum
        (f := fun m => (a.cell m + t m - c.cell m) ^ 2) (fun m _ => sq_nonneg _)
        (Finset.mem_univ k))
      have := sq_pos_of_ne_zero hne0
      omega
    have hc1 := (wrap_step hvk (hcell ha) (hcell hc)).1 ((sum_sq_one _).1 h1')
    have hb1 := (wrap_step hvk (hcell ha) (hcell hb)).1 hsum
    have hpos : (0 : ℤ) < size k := by exact_mod_cast hs k
    have hsk : (Pi.single k (size k : ℤ) : Fin d → ℤ) ≠ -Pi.single k (size k : ℤ) := by
      intro e
      have := congrFun e k
      simp only [Pi.neg_apply, Pi.single_eq_same] at this
      omega
    rw [List.mem_singleton]
    funext m
    congr 1
    rcases eq_or_ne m k with rfl | hm
    · rcases hc1.2 with ⟨t1, c1, c2⟩ | ⟨t1, c1, c2⟩ <;>
        rcases hb1.2 with ⟨t2, b1, b2⟩ | ⟨t2, b1, b2⟩
      · omega
      · exact absurd (t1.symm.trans t2) hsk
      · exact absurd (t2.symm.trans t1) hsk
      · omega
    · rw [hc1.1 m hm, hb1.1 m hm]
  exact ((h.sitesNodup.filter _).subperm hsub).length_le

/-- `set_periodic` on a grid. -/
theorem IsGrid.set_periodic (hd : 0 < d) {env : Env ℝ} {size : Fin d → ℕ} {L : Lattice d ℝ}
    {A : Analysis d ℝ} {D : LatticeData d ℝ} {table : List (List (ℕ × WithTop ℝ))}
    (h : IsGrid env size L A D table) (hs : ∀ k, 0 < size k) {axes : List ℕ}
    (hax : ∀ a ∈ axes, a < d) (hne : axes ≠ []) (h3 : ∀ k : Fin d, k.val ∈ axes → 3 ≤ size k) :
    ∃ L' E, L.setPeriodic env (.axes axes) = (L', .ok ()) ∧ L'.data = some E ∧
      L'.periodicAxes = axes ∧ E.indices = D.indices ∧ E.positions = D.positions ∧
      (∀ (i : ℕ) (a : Idx d), D.indices[i]? = some a → ∃ l, L'.neighbors i none false = .ok l ∧
        l.Nodup ∧ ∀ j, j ∈ l ↔ ∃ b : Idx d, D.indices[j]? = some b ∧
          TorusStep size axes a.cell b.cell) ∧
      ∀ i j t x, Lattice.Per E i j t x ↔ x = 1 ∧ ∃ a b : Idx d, D.indices[i]? = some a ∧
        D.indices[j]? = some b ∧ WrapStep size axes a.cell b.cell t := by
  obtain ⟨vecs, hP, hv1, hv2⟩ := h.vecs hs hax
  obtain ⟨width, hr, -⟩ := h.rect
  obtain ⟨k0, maxDist, hq⟩ := computeNeighbors_params h.analysis h.comp
  have hcell : ∀ {i : ℕ} {a : Idx d}, D.indices[i]? = some a →
      ∀ k, 0 ≤ a.cell k ∧ a.cell k < size k := fun ha => (h.index ha).2
  have hwrap := h.wrap hv2
  have himg : ∀ v ∈ vecs, ∀ t, t = v.2 ∨ t = -v.2 → ∀ i j x,
      Image L.struct A D.indices D.positions i j t x → ∃ a b : Idx d, D.indices[i]? = some a ∧
        D.indices[j]? = some b ∧ ∃ k : Fin d, k.val ∈ axes ∧
        (∀ m, m ≠ k → b.cell m = a.cell m) ∧ ((a.cell k = 0 ∧ b.cell k = size k - 1) ∨
          (b.cell k = 0 ∧ a.cell k = size k - 1)) := by
    intro v hv t ht i j x hx
    obtain ⟨-, a, b, ha, hb, hsum⟩ := h.image.1 hx
    obtain ⟨k, h1, -, h2⟩ := hwrap v hv t ht i j a b ha hb hsum
    exact ⟨a, b, ha, hb, k, h1, h2⟩
  have hReg : ∀ i j, Lattice.Reg D i j → ∃ a b : Idx d, D.indices[i]? = some a ∧
      D.indices[j]? = some b ∧ ∑ k, |b.cell k - a.cell k| = 1 := by
    rintro i j ⟨l, hl, hj⟩
    obtain ⟨a, ha⟩ := h.exists_of_regular hl
    obtain ⟨l', -, hl', -, hm⟩ := h.regular hd ha
    rw [hl] at hl'
    cases hl'
    obtain ⟨b, hb, hsum⟩ := (hm j).1 hj
    exact ⟨a, b, ha, hb, hsum⟩
  have hnot : ∀ x y : Fin d → ℤ, ∑ k, |y k - x k| = 1 → ∀ k : Fin d, k.val ∈ axes →
      ¬ ((x k = 0 ∧ y k = size k - 1) ∨ (y k = 0 ∧ x k = size k - 1)) := by
    intro x y hsum k hk hc
    have e := h3 k hk
    have : |y k - x k| ≤ 1 := hsum ▸ Finset.single_le_sum (f := fun k => |y k - x k|)
      (fun k _ => abs_nonneg _) (Finset.mem_univ k)
    have := abs_le.1 this
    omega
  have hlarge : ∀ i j, Lattice.Reg D i j → ∀ v ∈ vecs, ∀ t, t = v.2 ∨ t = -v.2 → ∀ x,
      ¬ Image L.struct A D.indices D.positions i j t x := by
    intro i j hij v hv t ht x hx
    obtain ⟨a, b, ha, hb, hsum⟩ := hReg i j hij
    obtain ⟨a', b', ha', hb', k, hk, -, hc⟩ := himg v hv t ht i j x hx
    rw [ha] at ha'
    rw [hb] at hb'
    cases ha'
    cases hb'
    exact hnot _ _ hsum k hk hc
  obtain ⟨L', E, h1, h2, hE1, hE2, hE3, h6, h7, h8, h9⟩ := Lattice.C64_set_periodic_partial
    hd hP h.data h.shape hr (set_sorted h.set)
    (set_packed h.set h.top h.levels (by
      obtain ⟨width, hrows⟩ := h.rows hd
      intro row hrow
      obtain ⟨i, hi⟩ := List.mem_iff_getElem?.1 hrow
      exact (hrows i row hi).2.1)) ⟨_, _, hq⟩
    (fun i j hij v hv x => ⟨hlarge i j hij v hv _ (Or.inl rfl) x,
      hlarge i j hij v hv _ (Or.inr rfl) x⟩)
    (by
      intro i l hl J hJ hJi
      obtain ⟨a, ha⟩ := h.exists_of_regular hl
      obtain ⟨l0, -, hl0, hnd, hm⟩ := h.regular hd ha
      rw [hl] at hl0
      cases hl0
      have hJ' : ∀ j ∈ J, ∃ b : Idx d, D.indices[j]? = some b ∧ ∃ k : Fin d, k.val ∈ axes ∧
          (∀ m, m ≠ k → b.cell m = a.cell m) ∧ ((a.cell k = 0 ∧ b.cell k = size k - 1) ∨
          (b.cell k = 0 ∧ a.cell k = size k - 1)) := by
        intro j hj
        obtain ⟨v, hv, x, hx⟩ := hJi j hj
        rcases hx with hx | hx
        · obtain ⟨a', b, ha', hb, hk⟩ := himg v hv _ (Or.inl rfl) i j x hx
          rw [ha] at ha'
          cases ha'
          exact ⟨b, hb, hk⟩
        · obtain ⟨a', b, ha', hb, hk⟩ := himg v hv _ (Or.inr rfl) i j x hx
          rw [ha] at ha'
          cases ha'
          exact ⟨b, hb, hk⟩
      have hall : ∀ j ∈ l ++ J, ∃ b : Idx d, D.indices[j]? = some b ∧
          TorusStep size axes a.cell b.cell := by
        intro j hj
        rcases List.mem_append.1 hj with hj | hj
        · obtain ⟨b, hb, hsum⟩ := (hm j).1 hj
          exact ⟨b, hb, (torusStep_iff _ _ _ _).2 (Or.inl hsum)⟩
        · obtain ⟨b, hb, hk⟩ := hJ' j hj
          exact ⟨b, hb, (torusStep_iff _ _ _ _).2 (Or.inr hk)⟩
      have hnd' : (l ++ J).Nodup := by
        rw [List.nodup_append]
        refine ⟨hnd, hJ, ?_⟩
        intro j hj j' hj' hjj
        subst hjj
        obtain ⟨b, hb, hsum⟩ := (hm j).1 hj
        obtain ⟨b', hb', k, hk, -, hc⟩ := hJ' j hj'
        rw [hb] at hb'
        cases hb'
        exact hnot _ _ hsum k hk hc
      rw [← List.length_append]
      exact h.room hd (fun k hk => by have := h3 k hk; omega) hr ha hnd' hall)
    (by
      rintro i j x ⟨v, hv, hx⟩
      obtain ⟨a, b, -, -, k, hk, -⟩ := himg v hv _ (Or.inl rfl) i j x hx
      obtain ⟨rfl, -⟩ := h.image.1 hx
      exact h.level hs (k := k) (by have := h3 k hk; omega))
  have hraw := h.raw hd
  have hcomplete : ∀ v ∈ vecs, ∀ (k : Fin d), k.val ∈ axes →
      (v.2 = Pi.single k (size k : ℤ) ∨ v.2 = -Pi.single k (size k : ℤ)) →
      ∀ (i j : ℕ) (a b : Idx d), D.indices[i]? = some a → D.indices[j]? = some b →
      ∑ m, |a.cell m + v.2 m - b.cell m| = 1 →
      (Lattice.Reg E i j ∨ ∃ t y, Lattice.Per E i j t y) ∧
      (Lattice.Reg E j i ∨ ∃ t y, Lattice.Per E j i t y) := by
    intro v hv k hk hvk i j a b ha hb hsum
    refine h8 hraw v hv i j 1 _ _ (h.image.2 ⟨rfl, a, b, ha, hb, hsum⟩)
      ((h.site i _).2 ⟨a, ha, rfl⟩) ((h.site j _).2 ⟨b, hb, rfl⟩) ?_
    exact le_trans (h.closer_le hs hvk ha hb hsum) (Nat.le_add_left 1 _)
  have hEreg : ∀ i j, i < D.numSites → Lattice.Reg E i j → Lattice.Reg D i j := by
    rintro i j hi ⟨l, hl, hj⟩
    obtain ⟨l0, g1, g2, -⟩ := h6 i hi
    rw [hl] at g2
    cases g2
    exact ⟨l, g1, hj⟩
  have hper1 : ∀ i j t x, Lattice.Per E i j t x → x = 1 ∧ ∃ a b : Idx d, D.indices[i]? = some a ∧
        D.indices[j]? = some b ∧ WrapStep size axes a.cell b.cell t := by
    intro i j t x hp
    obtain ⟨⟨g1, v, hv, g2⟩, -⟩ := h7 i j t x hp
    obtain ⟨rfl, a, b, ha, hb, hsum⟩ := h.image.1 g1
    obtain ⟨k, hk, htk, -⟩ := hwrap v hv t g2 i j a b ha hb hsum
    obtain ⟨e1, e2⟩ := (wrap_step htk (hcell ha) (hcell hb)).1 hsum
    exact ⟨rfl, a, b, ha, hb, k, hk, e1, e2⟩
  have huniq : ∀ x y t t' : Fin d → ℤ, WrapStep size axes x y t → WrapStep size axes x y t' →
      t = t' := by
    rintro x y t t' ⟨k, hk, h1, h2⟩ ⟨k', hk', h1', h2'⟩
    have e := h3 k hk
    have e' := h3 k' hk'
    have hkk : k = k' := by
      by_contra hne
      have := h1' k hne
      omega
    subst hkk
    rcases h2 with ⟨t1, c1, c2⟩ | ⟨t1, c1, c2⟩ <;> rcases h2' with ⟨t2, b1, b2⟩ | ⟨t2, b1, b2⟩
    · rw [t1, t2]
    · omega
    · omega
    · rw [t1, t2]
  have hnotReg : ∀ (i j : ℕ) (a b : Idx d), D.indices[i]? = some a → D.indices[j]? = some b →
      ∀ t, WrapStep size axes a.cell b.cell t → ¬ Lattice.Reg E i j := by
    rintro i j a b ha hb t ⟨k, hk, -, hc⟩ hreg
    obtain ⟨a', b', ha', hb', hsum⟩ := hReg i j (hEreg i j (List.getElem?_eq_some_iff.1 ha).1 hreg)
    rw [ha] at ha'
    rw [hb] at hb'
    cases ha'
    cases hb'
    refine hnot _ _ hsum k hk ?_
    rcases hc with ⟨-, hc⟩ | ⟨-, hc⟩
    · exact Or.inl hc
    · exact Or.inr hc
  have hper : ∀ i j t x, Lattice.Per E i j t x ↔ x = 1 ∧ ∃ a b : Idx d, D.indices[i]? = some a ∧
        D.indices[j]? = some b ∧ WrapStep size axes a.cell b.cell t := by
    intro i j t x
    refine ⟨hper1 i j t x, ?_⟩
    rintro ⟨rfl, a, b, ha, hb, hw⟩
    have hsome : ∃ t' y, Lattice.Per E i j t' y := by
      have hnr := hnotReg i j a b ha hb t hw
      obtain ⟨k, hk, e1, e2⟩ := hw
      obtain ⟨v, hv, hvk⟩ := hv1 k hk
      have ht : t = Pi.single k (size k : ℤ) ∨ t = -Pi.single k (size k : ℤ) := by
        rcases e2 with ⟨e2, -⟩ | ⟨e2, -⟩
        · exact Or.inl e2
        · exact Or.inr e2
      have hsum := (wrap_step ht (hcell ha) (hcell hb)).2 ⟨e1, e2⟩
      by_cases hvt : v.2 = t
      · rw [← hvt] at hsum
        exact ((hcomplete v hv k hk hvk i j a b ha hb hsum).1).resolve_left hnr
      · have hvt' : v.2 = -t := by
          rcases ht with ht | ht <;> rcases hvk with hvk | hvk
          · exact absurd (hvk.trans ht.symm) hvt
          · rw [hvk, ht]
          · rw [hvk, ht, neg_neg]
          · exact absurd (hvk.trans ht.symm) hvt
        have hsum' : ∑ m, |b.cell m + v.2 m - a.cell m| = 1 := by
          rw [← hsum]
          refine Finset.sum_congr rfl fun m _ => ?_
          rw [hvt', Pi.neg_apply, ← abs_neg]
          congr 1
          ring
        exact ((hcomplete v hv k hk hvk j i b a hb ha hsum').2).resolve_left hnr
    obtain ⟨t', y, hp⟩ := hsome
    obtain ⟨rfl, a', b', ha', hb', hw'⟩ := hper1 i j t' y hp
    rw [ha] at ha'
    rw [hb] at hb'
    cases ha'
    cases hb'
    rw [huniq _ _ _ _ hw hw']
    exact hp
  refine ⟨L', E, h1, h2, h9 ?_, hE1, hE2, ?_, hper⟩
  · obtain ⟨k0, hk0⟩ := List.exists_mem_of_ne_nil axes hne
    let k : Fin d := ⟨k0, hax k0 hk0⟩
    have hk : k.val ∈ axes := hk0
    have e := h3 k hk
    obtain ⟨i, hi⟩ := h.exists_index (n := 0) fun m => ⟨le_rfl, by simpa using hs m⟩
    obtain ⟨j, hj⟩ := h.exists_index (n := Pi.single k ((size k : ℤ) - 1)) fun m => by
      rcases eq_or_ne m k with hm | hm
      · rw [hm, Pi.single_eq_same]
        omega
      · rw [Pi.single_eq_of_ne hm]
        exact ⟨le_rfl, by simpa using hs m⟩
    refine ⟨i, j, Pi.single k (size k : ℤ), 1, (hper _ _ _ _).2 ⟨rfl, _, _, hi, hj, k, hk, ?_, ?_⟩⟩
    · intro m hm
      rw [Idx.cell_mk, Idx.cell_mk, Pi.single_eq_of_ne hm]
      rfl
    · left
      rw [Idx.cell_mk, Idx.cell_mk, Pi.single_eq_same]
      exact ⟨rfl, rfl, rfl⟩
  · intro i a ha
    obtain ⟨l, g1, g2, l', g3, g4, g5, g6⟩ := h6 i (List.getElem?_eq_some_iff.1 ha).1
    obtain ⟨l0, -, k1, k2, k3⟩ := h.regular hd ha
    rw [g1] at k1
    cases k1
    refine ⟨l ++ l', ?_, ?_, ?_⟩
    · unfold Lattice.neighbors
      rw [h2]
      exact g5
    · rw [List.nodup_append]
      refine ⟨k2, g4, ?_⟩
      intro c hc c' hc' hcc
      subst hcc
      obtain ⟨t, x, hp⟩ := (g6 c).1 hc'
      exact (h7 i c t x hp).2.1 ⟨l, g2, hc⟩
    · intro j
      rw [List.mem_append, k3, g6]
      constructor
      · rintro (⟨b, hb, hsum⟩ | ⟨t, x, hp⟩)
        · exact ⟨b, hb, (torusStep_iff _ _ _ _).2 (Or.inl hsum)⟩
        · obtain ⟨-, a', b, ha', hb, k, hk, e1, e2⟩ := hper1 _ _ _ _ hp
          rw [ha] at ha'
          cases ha'
          refine ⟨b, hb, (torusStep_iff _ _ _ _).2 (Or.inr ⟨k, hk, e1, ?_⟩)⟩
          rcases e2 with ⟨-, e2⟩ | ⟨-, e2⟩
          · exact Or.inl e2
          · exact Or.inr e2
      · rintro ⟨b, hb, hst⟩
        rcases (torusStep_iff _ _ _ _).1 hst with hsum | ⟨k, hk, e1, e2⟩
        · exact Or.inl ⟨b, hb, hsum⟩
        · right
          rcases e2 with e2 | e2
          · exact ⟨_, 1, (hper _ _ _ _).2 ⟨rfl, a, b, ha, hb, k, hk, e1, Or.inl ⟨rfl, e2⟩⟩⟩
          · exact ⟨_, 1, (hper _ _ _ _).2 ⟨rfl, a, b, ha, hb, k, hk, e1, Or.inr ⟨rfl, e2⟩⟩⟩

/-- `build` with periodic axes is `build` followed by `set_periodic`. -/
theorem build_periodic {env : Env ℝ} {L L' : Lattice d ℝ} {shape : ShapeArg d ℝ}
    {primitive : Bool} (h : L.build env { shape := shape
                                          primitive := primitive } = (L', .ok ())) (p : PAxis) :
    L.build env { shape := shape
                  primitive := primitive
                  periodic := some p } = L'.setPeriodic env p := by
  unfold Lattice.build at h ⊢
  dsimp only at h ⊢
  cases e1 : Lattice.assertReady L.struct with
  | error e => rw [e1] at h; simp at h
  | ok u =>
    rw [e1] at h
    dsimp only at h ⊢
    cases e2 : Lattice.buildShape L.struct
        { shape := shape
          primitive := primitive } with
    | error e => rw [e2] at h; simp at h
    | ok sh =>
      rw [e2] at h
      have e2' : Lattice.buildShape L.struct
          { shape := shape
            primitive := primitive
            periodic := some p } = .ok sh := e2
      rw [e2']
      dsimp only at h ⊢
      cases e3 : Lattice.buildData env L.struct
          { shape := shape
            primitive := primitive } sh with
      | error e => rw [e3] at h; simp at h
      | ok D =>
        rw [e3] at h
        have e3' : Lattice.buildData env L.struct
            { shape := shape
              primitive := primitive
              periodic := some p } sh = .ok D := e3
        rw [e3']
        dsimp only at h ⊢
        rcases e4 : Lattice.updateShape
            { L with
              data := some D
              primitive := some primitive } with ⟨L1, r⟩
        rw [e4] at h
        cases r with
        | error e => simp at h
        | ok u =>
          dsimp only at h ⊢
          cases h
          rfl

theorem setPeriodic_true (env : Env ℝ) (L : Lattice d ℝ) :
    L.setPeriodic env (.flag true) = L.setPeriodic env (.axes (List.range d)) := rfl

namespace IsGrid

variable {env : Env ℝ} {size : Fin d → ℕ} {L : Lattice d ℝ} {A : Analysis d ℝ}
  {D : LatticeData d ℝ} {table : List (List (ℕ × WithTop ℝ))}

theorem sites_spec (h : IsGrid env size L A D table) :
    D.indices.length = ∏ k, size k ∧ D.indices.Nodup ∧
    (∀ x : Idx d, x ∈ D.indices ↔ x.alpha = 0 ∧ ∀ k, 0 ≤ x.cell k ∧ x.cell k < size k) ∧
    D.positions = D.indices.map fun x k => (Idx.cell x k : ℝ) := by
  refine ⟨h.numSites, h.nodup, ?_, ?_⟩
  · intro x
    constructor
    · intro hx
      obtain ⟨i, hi⟩ := List.mem_iff_getElem?.1 hx
      exact ⟨h.alpha x hx, (h.index hi).2⟩
    · rintro ⟨h1, h2⟩
      have := (h.mem x.cell).2 h2
      rwa [← h1, Idx.mk_cell_alpha] at this
  · have key : ∀ (l : List (Idx d)) (m : List (Vec d ℝ)),
        List.Forall₂ (fun (x : Idx d) p => p = fun k => (x.cell k : ℝ)) l m →
        m = l.map fun x k => (Idx.cell x k : ℝ) := by
      intro l m hlm
      induction hlm with
      | nil => rfl
      | cons h1 _ ih => rw [List.map_cons, ← ih, h1]
    exact key _ _ h.sites

end IsGrid

/-! ## C98 -/

/-- C98: `finite_hypercubic(s)` for a sequence of positive integers is the grid of the cells
`0 ≤ n k < s k`, neighbours being one step away. -/
theorem C98_grid (hd : 0 < d) (hdim : d ≤ 10 ^ 9) (env : Env ℝ) (s : Session) (atom : AtomSpec)
    (size : Fin d → ℕ) (hs : ∀ k, 0 < size k) (isInt : Bool) :
    ∃ L, Preset.finiteHypercubic env s (.size (List.ofFn fun k => (size k : ℝ)) isInt) 1 atom 1
      true none = .ok L ∧ GridOf size [] L := by
  obtain ⟨w, L, A, D, table, h1, h2, h⟩ := exists_grid hd hdim env s atom size hs isInt
  refine ⟨L, ?_, h.periodicAxes, D, h.data, h.sites_spec.1, h.sites_spec.2.1, h.sites_spec.2.2.1,
    h.sites_spec.2.2.2, ?_, ?_⟩
  · unfold Preset.finiteHypercubic
    rw [h1]
    dsimp only
    rw [h2]
  · intro i a ha
    obtain ⟨l, e1, -, e3, e4⟩ := h.regular hd ha
    refine ⟨l, ?_, e3, ?_⟩
    · unfold Lattice.neighbors
      rw [h.data]
      exact e1
    · intro j
      rw [e4]
      refine exists_congr fun b => and_congr_right fun _ => ?_
      rw [torusStep_iff]
      simp
  · intro i j t x
    constructor
    · rintro ⟨r, hr, e, he, hper, -⟩
      rw [(set_cols h.set h.top h.levels).1.entries_eq, List.getElem?_map] at hr
      obtain ⟨row, -, rfl⟩ := Option.map_eq_some_iff.1 hr
      obtain ⟨y, -, rfl⟩ := List.mem_map.1 he
      cases hper
    · rintro ⟨-, a, b, -, -, k, hk, -⟩
      exact absurd hk (List.not_mem_nil)

/-- Ladder of four by two cells: eight sites, the cells (1, 0) and (1, 1) are neighbours, the cells
(0, 0) and (3, 0) are not. -/
example (env : Env ℝ) (s : Session) : ∃ L D, Preset.finiteHypercubic env s
    (.size (List.ofFn fun k => ((![4, 2] k : ℕ) : ℝ)) true) 1 (.name "A") 1 true none = .ok L ∧
    L.data = some D ∧ D.indices.length = 8 ∧
    (∃ i j l : _, D.indices[i]? = some (Idx.mk ![1, 0] 0) ∧
      D.indices[j]? = some (Idx.mk ![1, 1] 0) ∧ L.neighbors i none false = .ok l ∧ j ∈ l) ∧
    ∃ i j l : _, D.indices[i]? = some (Idx.mk ![0, 0] 0) ∧
      D.indices[j]? = some (Idx.mk ![3, 0] 0) ∧ L.neighbors i none false = .ok l ∧ j ∉ l := by
  obtain ⟨L, h, -, D, h1, h2, -, h3, -, h4, -⟩ := C98_grid (d := 2) (by norm_num) (by norm_num)
    env s (.name "A") ![4, 2] (by decide) true
  have hidx : ∀ n : Fin 2 → ℤ, (∀ k, 0 ≤ n k ∧ n k < ((![4, 2] : Fin 2 → ℕ) k : ℤ)) →
      ∃ i : ℕ, D.indices[i]? = some (Idx.mk n 0) := fun n hn =>
    List.mem_iff_getElem?.1 ((h3 _).2 ⟨Idx.alpha_mk _ _, by rw [Idx.cell_mk]; exact hn⟩)
  refine ⟨L, D, h, h1, by rw [h2]; decide, ?_, ?_⟩
  · obtain ⟨i, hi⟩ := hidx ![1, 0] (by decide)
    obtain ⟨j, hj⟩ := hidx ![1, 1] (by decide)
    obtain ⟨l, e1, -, e2⟩ := h4 i _ hi
    refine ⟨i, j, l, hi, hj, e1, (e2 j).2 ⟨_, hj, ?_⟩⟩
    rw [Idx.cell_mk, Idx.cell_mk]
    exact ⟨1, by decide, Or.inl (by decide)⟩
  · obtain ⟨i, hi⟩ := hidx ![0, 0] (by decide)
    obtain ⟨j, hj⟩ := hidx ![3, 0] (by decide)
    obtain ⟨l, e1, -, e2⟩ := h4 i _ hi
    refine ⟨i, j, l, hi, hj, e1, ?_⟩
    rw [e2]
    rintro ⟨b, hb, hst⟩
    rw [hj] at hb
    cases hb
    rw [Idx.cell_mk, Idx.cell_mk, torusStep_iff] at hst
    simp at hst

/-- C98: with `periodic` the grid is closed to a torus along the given axes (three or more cells
along each of them). -/
theorem C98_torus_partial (hd : 0 < d) (hdim : d ≤ 10 ^ 9) (env : Env ℝ) (s : Session)
    (atom : AtomSpec) (size : Fin d → ℕ) (hs : ∀ k, 0 < size k) (isInt : Bool) {axes : List ℕ}
    (hax : ∀ a ∈ axes, a < d) (hne : axes ≠ []) (h3 : ∀ k : Fin d, k.val ∈ axes → 3 ≤ size k) :
    ∃ L, Preset.finiteHypercubic env s (.size (List.ofFn fun k => (size k : ℝ)) isInt) 1 atom 1
      true (some (.axes axes)) = .ok L ∧ GridOf size axes L := by
  obtain ⟨w, L, A, D, table, h1, h2, h⟩ := exists_grid hd hdim env s atom size hs isInt
  obtain ⟨L', E, g1, g2, g3, g4, g5, g6, g7⟩ := h.set_periodic hd hs hax hne h3
  refine ⟨L', ?_, g3, E, g2, ?_⟩
  · unfold Preset.finiteHypercubic
    rw [h1]
    dsimp only
    rw [build_periodic h2, g1]
  · rw [g4, g5]
    exact ⟨h.sites_spec.1, h.sites_spec.2.1, h.sites_spec.2.2.1, h.sites_spec.2.2.2, g6, g7⟩

/-- Cylinder of three by two cells closed along the first axis: the cells (0, 1) and (2, 1) are
neighbours, with the translation by three cells. -/
example (env : Env ℝ) (s : Session) : ∃ L D, Preset.finiteHypercubic env s
    (.size (List.ofFn fun k => ((![3, 2] k : ℕ) : ℝ)) true) 1 (.name "A") 1 true
      (some (.axes [0])) = .ok L ∧ L.data = some D ∧ D.indices.length = 6 ∧
    ∃ i j : ℕ, D.indices[i]? = some (Idx.mk ![0, 1] 0) ∧
      D.indices[j]? = some (Idx.mk ![2, 1] 0) ∧ Lattice.Per D i j ![3, 0] 1 := by
  obtain ⟨L, h, -, D, h1, h2, -, h3, -, -, h4⟩ := C98_torus_partial (d := 2) (by norm_num)
    (by norm_num) env s (.name "A") ![3, 2] (by decide) true (axes := [0]) (by decide) (by decide)
    (by decide)
  have hidx : ∀ n : Fin 2 → ℤ, (∀ k, 0 ≤ n k ∧ n k < ((![3, 2] : Fin 2 → ℕ) k : ℤ)) →
      ∃ i : ℕ, D.indices[i]? = some (Idx.mk n 0) := fun n hn =>
    List.mem_iff_getElem?.1 ((h3 _).2 ⟨Idx.alpha_mk _ _, by rw [Idx.cell_mk]; exact hn⟩)
  obtain ⟨i, hi⟩ := hidx ![0, 1] (by decide)
  obtain ⟨j, hj⟩ := hidx ![2, 1] (by decide)
  refine ⟨L, D, h, h1, by rw [h2]; decide, i, j, hi, hj, (h4 _ _ _ _).2 ⟨rfl, _, _, hi, hj, ?_⟩⟩
  rw [Idx.cell_mk, Idx.cell_mk]
  exact ⟨0, by decide, by decide, Or.inl (by decide)⟩

/-- C98: `periodic=True` closes all axes. -/
theorem C98_all_axes_partial (hd : 0 < d) (hdim : d ≤ 10 ^ 9) (env : Env ℝ) (s : Session)
    (atom : AtomSpec) (size : Fin d → ℕ) (h3 : ∀ k, 3 ≤ size k) (isInt : Bool) :
    ∃ L, Preset.finiteHypercubic env s (.size (List.ofFn fun k => (size k : ℝ)) isInt) 1 atom 1
      true (some (.flag true)) = .ok L ∧ GridOf size (List.range d) L := by
  obtain ⟨w, L, A, D, table, h1, h2, h⟩ := exists_grid hd hdim env s atom size
    (fun k => by have := h3 k; omega) isInt
  obtain ⟨L', E, g1, g2, g3, g4, g5, g6, g7⟩ := h.set_periodic hd
    (fun k => by have := h3 k; omega) (axes := List.range d) (fun a ha => List.mem_range.1 ha)
    (by intro e; rw [List.range_eq_nil] at e; omega) fun k _ => h3 k
  refine ⟨L', ?_, g3, E, g2, ?_⟩
  · unfold Preset.finiteHypercubic
    rw [h1]
    dsimp only
    rw [build_periodic h2, setPeriodic_true, g1]
  · rw [g4, g5]
    exact ⟨h.sites_spec.1, h.sites_spec.2.1, h.sites_spec.2.2.1, h.sites_spec.2.2.2, g6, g7⟩

/-- Three by four torus. -/
example (env : Env ℝ) (s : Session) : ∃ L, Preset.finiteHypercubic env s
    (.size (List.ofFn fun k => ((![3, 4] k : ℕ) : ℝ)) true) 1 (.name "A") 1 true
      (some (.flag true)) = .ok L ∧ GridOf ![3, 4] [0, 1] L :=
  C98_all_axes_partial (by norm_num) (by norm_num) env s _ ![3, 4] (by decide) true

end Lattpy
