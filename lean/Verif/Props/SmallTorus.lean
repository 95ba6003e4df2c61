import Verif.Props.FiniteHypercubic
import Verif.Lemmas.Sound

/-!
# Periodic boundary conditions of small and thin lattices (C45, C64, C98)
-/

set_option autoImplicit false
set_option linter.unusedSectionVars false

namespace Lattpy

open Structure

variable {d : ℕ}

/-! ## neighbour sets on all lattices -/

namespace Lattice

/-- C64, neighbour sets, also for lattices in which regular neighbours are connected by one of the
translations (restricted to data whose rows have no gaps and enough room): the regular neighbours
stay, the new neighbours are connected by one of the translations, listed once and no regular
neighbours; every pair connected by one of the translations (and not cut off by the query size)
consists of neighbours of each other afterwards. -/
theorem C64_neighbors_partial (hd : 0 < d) {env : Env ℝ} {A : Analysis d ℝ} {D : LatticeData d ℝ}
    {axes : List ℕ} {vecs : List (List ℕ × (Fin d → ℤ))} {L : Lattice d ℝ}
    (h : PState env L.world A D axes (L.primitive.getD false) vecs) {width : ℕ}
    (hL : L.data = some D) (hshape : L.shape ≠ none) (hr : D.Rect width)
    (hsort : D.distvals.Pairwise (· < ·))
    (hpack : ∀ (i : ℕ) r, D.entries[i]? = some r → ∃ a b, r = a ++ b ∧
      (∀ e ∈ a, e.level < D.invalidDistidx ∧ e.per = false) ∧
      ∀ e ∈ b, e.level = D.invalidDistidx ∨ e.per = true)
    (hq : ∃ k maxDist, queryParams A = .ok (k, maxDist))
    (hfree : ∀ i l, D.getNeighbors i none (some false) false = .ok l → ∀ J : List ℕ, J.Nodup →
      (∀ j ∈ J, j ∉ l ∧ ∃ v ∈ vecs, ∃ x, Image L.struct A D.indices D.positions i j v.2 x ∨
        Image L.struct A D.indices D.positions i j (-v.2) x) → l.length + J.length ≤ width)
    (hstored : ∀ i j x, (∃ v ∈ vecs, Image L.struct A D.indices D.positions i j v.2 x) →
      ∃ n < D.invalidDistidx, D.distvals[n]? = some (x : WithTop ℝ)) :
    ∃ L' E, L.setPeriodic env (.axes axes) = (L', .ok ()) ∧ L'.data = some E ∧
      E.indices = D.indices ∧ E.positions = D.positions ∧ E.distvals = D.distvals ∧
      (∀ i < D.numSites, ∃ l l', D.getNeighbors i none (some false) false = .ok l ∧
        E.getNeighbors i none (some false) false = .ok l ∧
        E.getNeighbors i none (some true) false = .ok l' ∧
        E.getNeighbors i none none false = .ok (l ++ l') ∧ l'.Nodup ∧
        (∀ j, j ∈ l' ↔ ∃ t x, Per E i j t x) ∧
        ∀ j ∈ l', j ∉ l ∧ ∃ v ∈ vecs, ∃ x, Image L.struct A D.indices D.positions i j v.2 x ∨
          Image L.struct A D.indices D.positions i j (-v.2) x) ∧
      ((∀ y, RawDistance A y → 5 / 10 ^ 6 < y) → ∀ v ∈ vecs, ∀ i j x p q,
        Image L.struct A D.indices D.positions i j v.2 x → D.positions[i]? = some p →
        D.positions[j]? = some q →
        closer D.positions (L.struct.basis.translate v.2 p) q ≤
          (A.rawNum.map List.sum).sum + 1 →
        (∃ l, E.getNeighbors i none none false = .ok l ∧ j ∈ l) ∧
        ∃ l, E.getNeighbors j none none false = .ok l ∧ i ∈ l) ∧
      (∀ i j t x, Per E i j t x → i < D.numSites) ∧
      ((∀ i j t x, ¬ Per E i j t x) → L'.periodicAxes = L.periodicAxes) ∧
      ((∃ i j t x, Per E i j t x) → L'.periodicAxes = axes) := by
  obtain ⟨D0, Q, L', E, hD0, hQ, h0, hset, hE, e1, e2, e3, hreg0, hnbrs, hPer, hkey, hax⟩ :=
    setPeriodic_core hd h hL hshape hr hsort hpack hq hfree hstored
  obtain ⟨s1, s2, -⟩ := removePeriodic_sites hD0
  obtain ⟨hnd, hsym⟩ := h0.links hd hQ
  rw [s1, s2] at hsym
  have hQax : (∃ i j t x, Per E i j t x) → L'.periodicAxes = axes := by
    rintro ⟨i, j, t, x, hper⟩
    obtain ⟨l, hl, -⟩ := (hPer _ _ _ _).1 hper
    have hmem := hkey i (List.ne_nil_of_mem hl)
    rw [hax, if_neg]
    intro he
    rw [List.isEmpty_iff] at he
    rw [he] at hmem
    cases hmem
  refine ⟨L', E, hset, hE, e1, e2, e3, ?_, ?_, ?_, ?_, hQax⟩
  · intro i hi
    obtain ⟨l, h1, h2, h3, h4⟩ := hnbrs i hi
    refine ⟨l, _, h1, h2, h3, h4, ?_, ?_, ?_⟩
    · by_cases hQi : Q.atSite i = []
      · rw [hQi]; simp
      · exact (hsym i _ (hkey i hQi)).2.1
    · intro j
      constructor
      · intro hj
        obtain ⟨m, hm, rfl⟩ := List.mem_map.1 hj
        obtain ⟨⟨x, hx, -⟩, -⟩ := (hsym i _ (hkey i (List.ne_nil_of_mem hm))).2.2.2 m hm
        exact ⟨m.nvec, x, (hPer _ _ _ _).2 ⟨m, hm, rfl, rfl, hx⟩⟩
      · rintro ⟨t, x, hper⟩
        obtain ⟨m, hm, rfl, -⟩ := (hPer _ _ _ _).1 hper
        exact List.mem_map_of_mem hm
    · intro j hj
      obtain ⟨m, hm, rfl⟩ := List.mem_map.1 hj
      obtain ⟨-, -, ⟨ex, hex, hnot⟩, hl⟩ := hsym i _ (hkey i (List.ne_nil_of_mem hm))
      have := (hreg0 i ex hex).2
      rw [h1] at this
      cases this
      exact ⟨hnot m hm, (hl m hm).2⟩
  · intro hres v hv i j x p q himg hp hq' hcount
    obtain ⟨⟨ex, hex, g1⟩, ⟨ex', hex', g2⟩⟩ := C64_complete_partial hd h0 hQ hres hv
      (by rw [s1, s2]; exact himg) (by rw [s2]; exact hp) (by rw [s2]; exact hq')
      (by rw [s2]; exact hcount)
    have key : ∀ a b ex, D0.getNeighbors a none none false = .ok ex →
        (b ∉ ex → ∃ ls, (a, ls) ∈ Q ∧ b ∈ ls.map LatticeData.PLink.nbr) →
        ∃ l, E.getNeighbors a none none false = .ok l ∧ b ∈ l := by
      intro a b ex hex g
      obtain ⟨hi, hexD⟩ := hreg0 a ex hex
      obtain ⟨l, h1, -, -, h4⟩ := hnbrs a hi
      rw [hexD] at h1
      cases h1
      refine ⟨_, h4, ?_⟩
      by_cases hb : b ∈ ex
      · exact List.mem_append_left _ hb
      · obtain ⟨ls, hls, hin⟩ := g hb
        rw [PDict.atSite_of_mem hnd hls]
        exact List.mem_append_right _ hin
    exact ⟨key i j ex hex g1, key j i ex' hex' g2⟩
  · intro i j t x hper
    obtain ⟨l, hl, -⟩ := (hPer _ _ _ _).1 hper
    obtain ⟨-, -, ⟨ex, hex, -⟩, -⟩ := hsym i _ (hkey i (List.ne_nil_of_mem hl))
    exact (hreg0 i ex hex).1
  · intro hno
    rw [hax, if_pos]
    rw [List.isEmpty_iff, List.eq_nil_iff_forall_not_mem]
    rintro ⟨i, ls⟩ hmem
    obtain ⟨hne, -, -, hl⟩ := hsym i ls hmem
    obtain ⟨m, hm⟩ := List.exists_mem_of_ne_nil ls hne
    obtain ⟨⟨x, hx, -⟩, -⟩ := hl m hm
    refine hno i m.nbr m.nvec x ((hPer _ _ _ _).2 ⟨m, ?_, rfl, rfl, hx⟩)
    rw [PDict.atSite_of_mem hnd hmem]
    exact hm

end Lattice

/-! ## the grid -/

theorem step_le {x y : Fin d → ℤ} (h : ∑ k, |y k - x k| = 1) (k : Fin d) : |y k - x k| ≤ 1 :=
  h ▸ Finset.single_le_sum (f := fun k => |y k - x k|) (fun _ _ => abs_nonneg _)
    (Finset.mem_univ k)

namespace IsGrid

variable {env : Env ℝ} {size : Fin d → ℕ} {L : Lattice d ℝ} {A : Analysis d ℝ}
  {D : LatticeData d ℝ} {table : List (List (ℕ × WithTop ℝ))} {axes : List ℕ}
  {vecs : List (List ℕ × (Fin d → ℤ))}

/-- The images across the boundary. -/
theorem images (h : IsGrid env size L A D table)
    (hv2 : ∀ v ∈ vecs, ∃ a : Fin d, a.val ∈ axes ∧
        (v.2 = Pi.single a (size a : ℤ) ∨ v.2 = -Pi.single a (size a : ℤ) ∨
        ∃ c : Fin d, c.val ∈ axes ∧ a ≠ c ∧ |v.2 a| = size a ∧ |v.2 c| = size c)) :
    ∀ v ∈ vecs, ∀ i j x, (Image L.struct A D.indices D.positions i j v.2 x ∨
      Image L.struct A D.indices D.positions i j (-v.2) x) → ∃ a b : Idx d,
        D.indices[i]? = some a ∧ D.indices[j]? = some b ∧ ∃ k : Fin d, k.val ∈ axes ∧
        (∀ m, m ≠ k → b.cell m = a.cell m) ∧ ((a.cell k = 0 ∧ b.cell k = size k - 1) ∨
          (b.cell k = 0 ∧ a.cell k = size k - 1)) := by
  intro v hv i j x hx
  rcases hx with hx | hx
  · obtain ⟨-, a, b, ha, hb, hsum⟩ := h.image.1 hx
    obtain ⟨k, h1, -, h2⟩ := h.wrap hv2 v hv _ (Or.inl rfl) i j a b ha hb hsum
    exact ⟨a, b, ha, hb, k, h1, h2⟩
  · obtain ⟨-, a, b, ha, hb, hsum⟩ := h.image.1 hx
    obtain ⟨k, h1, -, h2⟩ := h.wrap hv2 v hv _ (Or.inr rfl) i j a b ha hb hsum
    exact ⟨a, b, ha, hb, k, h1, h2⟩

theorem packed (h : IsGrid env size L A D table) (hd : 0 < d) (i : ℕ) (r : List (Entry d))
    (hi : D.entries[i]? = some r) : ∃ a b, r = a ++ b ∧
      (∀ e ∈ a, e.level < D.invalidDistidx ∧ e.per = false) ∧
      ∀ e ∈ b, e.level = D.invalidDistidx ∨ e.per = true :=
  set_packed h.set h.top h.levels (by
    obtain ⟨width, hrows⟩ := h.rows hd
    intro row hrow
    obtain ⟨i, hi⟩ := List.mem_iff_getElem?.1 hrow
    exact (hrows i row hi).2.1) i r hi

/-- There is room for the new neighbours. -/
theorem free (h : IsGrid env size L A D table) (hd : 0 < d)
    (h2 : ∀ k : Fin d, k.val ∈ axes → 2 ≤ size k) {width : ℕ} (hr : D.Rect width)
    (hv2 : ∀ v ∈ vecs, ∃ a : Fin d, a.val ∈ axes ∧
        (v.2 = Pi.single a (size a : ℤ) ∨ v.2 = -Pi.single a (size a : ℤ) ∨
        ∃ c : Fin d, c.val ∈ axes ∧ a ≠ c ∧ |v.2 a| = size a ∧ |v.2 c| = size c)) :
    ∀ i l, D.getNeighbors i none (some false) false = .ok l → ∀ J : List ℕ, J.Nodup →
      (∀ j ∈ J, j ∉ l ∧ ∃ v ∈ vecs, ∃ x, Image L.struct A D.indices D.positions i j v.2 x ∨
        Image L.struct A D.indices D.positions i j (-v.2) x) → l.length + J.length ≤ width := by
  intro i l hl J hJ hJi
  obtain ⟨a, ha⟩ := h.exists_of_regular hl
  obtain ⟨l0, -, hl0, hnd, hm⟩ := h.regular hd ha
  rw [hl] at hl0
  cases hl0
  rw [← List.length_append]
  refine h.room hd h2 hr ha ?_ ?_
  · rw [List.nodup_append]
    refine ⟨hnd, hJ, ?_⟩
    rintro j hj j' hj' rfl
    exact (hJi j hj').1 hj
  · intro j hj
    rcases List.mem_append.1 hj with hj | hj
    · obtain ⟨b, hb, hsum⟩ := (hm j).1 hj
      exact ⟨b, hb, (torusStep_iff _ _ _ _).2 (Or.inl hsum)⟩
    · obtain ⟨-, v, hv, x, hx⟩ := hJi j hj
      obtain ⟨a', b, ha', hb, hk⟩ := h.images hv2 v hv i j x hx
      rw [ha] at ha'
      cases ha'
      exact ⟨b, hb, (torusStep_iff _ _ _ _).2 (Or.inr hk)⟩

/-- The distance of the new neighbours is stored. -/
theorem stored (h : IsGrid env size L A D table) (hs : ∀ k, 0 < size k)
    (h2 : ∀ k : Fin d, k.val ∈ axes → 2 ≤ size k)
    (hv2 : ∀ v ∈ vecs, ∃ a : Fin d, a.val ∈ axes ∧
        (v.2 = Pi.single a (size a : ℤ) ∨ v.2 = -Pi.single a (size a : ℤ) ∨
        ∃ c : Fin d, c.val ∈ axes ∧ a ≠ c ∧ |v.2 a| = size a ∧ |v.2 c| = size c)) :
    ∀ i j x, (∃ v ∈ vecs, Image L.struct A D.indices D.positions i j v.2 x) →
      ∃ n < D.invalidDistidx, D.distvals[n]? = some (x : WithTop ℝ) := by
  rintro i j x ⟨v, hv, hx⟩
  obtain ⟨a, b, -, -, k, hk, -⟩ := h.images hv2 v hv i j x (Or.inl hx)
  obtain ⟨rfl, -⟩ := h.image.1 hx
  exact h.level hs (k := k) (h2 k hk)

end IsGrid

/-- `set_periodic` on a grid with two or more cells along the periodic axes: the neighbours are
those on the torus; the axes are recorded if one of them has three or more cells. -/
theorem IsGrid.set_periodic_small (hd : 0 < d) {env : Env ℝ} {size : Fin d → ℕ} {L : Lattice d ℝ}
    {A : Analysis d ℝ} {D : LatticeData d ℝ} {table : List (List (ℕ × WithTop ℝ))}
    (h : IsGrid env size L A D table) (hs : ∀ k, 0 < size k) {axes : List ℕ}
    (hax : ∀ a ∈ axes, a < d) (h2 : ∀ k : Fin d, k.val ∈ axes → 2 ≤ size k) :
    ∃ L' E, L.setPeriodic env (.axes axes) = (L', .ok ()) ∧ L'.data = some E ∧
      ((∃ k : Fin d, k.val ∈ axes ∧ 3 ≤ size k) → L'.periodicAxes = axes) ∧
      ((∀ k : Fin d, k.val ∈ axes → size k = 2) → L'.periodicAxes = []) ∧
      E.indices = D.indices ∧ E.positions = D.positions ∧
      (∀ (i : ℕ) (a : Idx d), D.indices[i]? = some a → ∃ l, L'.neighbors i none false = .ok l ∧
        l.Nodup ∧ ∀ j, j ∈ l ↔ ∃ b : Idx d, D.indices[j]? = some b ∧
          TorusStep size axes a.cell b.cell) := by
  obtain ⟨vecs, hP, hv1, hv2⟩ := h.vecs hs hax
  obtain ⟨width, hr, -⟩ := h.rect
  obtain ⟨k0, maxDist, hq⟩ := computeNeighbors_params h.analysis h.comp
  have hcell : ∀ {i : ℕ} {a : Idx d}, D.indices[i]? = some a →
      ∀ k, 0 ≤ a.cell k ∧ a.cell k < size k := fun ha => (h.index ha).2
  have himg := h.images hv2
  obtain ⟨L', E, g1, g2, g3, g4, -, g6, g7, gs, g8, g9⟩ := Lattice.C64_neighbors_partial hd hP h.data
    h.shape hr (set_sorted h.set) (h.packed hd) ⟨_, _, hq⟩ (h.free hd h2 hr hv2)
    (h.stored hs h2 hv2)
  have hcomplete : ∀ (k : Fin d), k.val ∈ axes → ∀ (i j : ℕ) (a b : Idx d),
      D.indices[i]? = some a → D.indices[j]? = some b → (∀ m, m ≠ k → b.cell m = a.cell m) →
      ((a.cell k = 0 ∧ b.cell k = size k - 1) ∨ (b.cell k = 0 ∧ a.cell k = size k - 1)) →
      ∃ l, E.getNeighbors i none none false = .ok l ∧ j ∈ l := by
    have key : ∀ (k : Fin d), k.val ∈ axes → ∀ (i j : ℕ) (a b : Idx d),
        D.indices[i]? = some a → D.indices[j]? = some b → (∀ m, m ≠ k → b.cell m = a.cell m) →
        (a.cell k = 0 ∧ b.cell k = size k - 1) →
        (∃ l, E.getNeighbors i none none false = .ok l ∧ j ∈ l) ∧
        ∃ l, E.getNeighbors j none none false = .ok l ∧ i ∈ l := by
      intro k hk i j a b ha hb hm hc
      obtain ⟨v, hv, hvk⟩ := hv1 k hk
      have hp : D.positions[i]? = some fun m => (a.cell m : ℝ) := (h.site i _).2 ⟨a, ha, rfl⟩
      have hq' : D.positions[j]? = some fun m => (b.cell m : ℝ) := (h.site j _).2 ⟨b, hb, rfl⟩
      rcases hvk with hvk | hvk
      · have hsum : ∑ m, |a.cell m + v.2 m - b.cell m| = 1 :=
          (wrap_step (Or.inl hvk) (hcell ha) (hcell hb)).2 ⟨hm, Or.inl ⟨hvk, hc⟩⟩
        exact g7 (h.raw hd) v hv i j 1 _ _ (h.image.2 ⟨rfl, a, b, ha, hb, hsum⟩) hp hq'
          (le_trans (h.closer_le hs (Or.inl hvk) ha hb hsum) (Nat.le_add_left 1 _))
      · have hsum : ∑ m, |b.cell m + v.2 m - a.cell m| = 1 :=
          (wrap_step (Or.inr hvk) (hcell hb) (hcell ha)).2
            ⟨fun m hm' => (hm m hm').symm, Or.inr ⟨hvk, hc⟩⟩
        exact (g7 (h.raw hd) v hv j i 1 _ _ (h.image.2 ⟨rfl, b, a, hb, ha, hsum⟩) hq' hp
          (le_trans (h.closer_le hs (Or.inr hvk) hb ha hsum) (Nat.le_add_left 1 _))).symm
    intro k hk i j a b ha hb hm hc
    rcases hc with hc | hc
    · exact (key k hk i j a b ha hb hm hc).1
    · exact (key k hk j i b a hb ha (fun m hm' => (hm m hm').symm) hc).2
  refine ⟨L', E, g1, g2, ?_, ?_, g3, g4, ?_⟩
  · rintro ⟨k, hk, h3⟩
    apply g9
    obtain ⟨i, hi⟩ := h.exists_index (n := 0) fun m => ⟨le_rfl, by simpa using hs m⟩
    obtain ⟨j, hj⟩ := h.exists_index (n := Pi.single k ((size k : ℤ) - 1)) fun m => by
      rcases eq_or_ne m k with hm | hm
      · rw [hm, Pi.single_eq_same]
        omega
      · rw [Pi.single_eq_of_ne hm]
        exact ⟨le_rfl, by simpa using hs m⟩
    obtain ⟨l, hl, hjl⟩ := hcomplete k hk i j _ _ hi hj (by
        intro m hm
        rw [Idx.cell_mk, Idx.cell_mk, Pi.single_eq_of_ne hm]
        rfl) (Or.inl (by rw [Idx.cell_mk, Idx.cell_mk, Pi.single_eq_same]; exact ⟨rfl, rfl⟩))
    obtain ⟨r, r', f1, f2, f3, f4, f5, f6, f7⟩ := g6 i (List.getElem?_eq_some_iff.1 hi).1
    rw [hl] at f4
    cases f4
    rcases List.mem_append.1 hjl with hj' | hj'
    · exfalso
      obtain ⟨l0, -, k1, k2, k3⟩ := h.regular hd hi
      rw [f1] at k1
      cases k1
      obtain ⟨b, hb, hsum⟩ := (k3 j).1 hj'
      rw [hj] at hb
      cases hb
      have := step_le hsum k
      rw [Idx.cell_mk, Idx.cell_mk, Pi.single_eq_same] at this
      have := abs_le.1 this
      rw [Pi.zero_apply] at this
      omega
    · obtain ⟨t, x, hp⟩ := (f6 j).1 hj'
      exact ⟨i, j, t, x, hp⟩
  · intro hall
    rw [g8 ?_, h.periodicAxes]
    intro i j t x hp
    obtain ⟨l, l', f1, f2, f3, f4, f5, f6, f7⟩ := g6 i (gs i j t x hp)
    obtain ⟨hnot, v, hv, y, hy⟩ := f7 j ((f6 j).2 ⟨t, x, hp⟩)
    obtain ⟨a, b, ha, hb, k, hk, hm, hc⟩ := himg v hv i j y hy
    obtain ⟨l0, -, k1, k2, k3⟩ := h.regular hd ha
    rw [f1] at k1
    cases k1
    refine hnot ((k3 j).2 ⟨b, hb, (sum_abs_one _).2 ⟨k, ?_, fun m hm' => ?_⟩⟩)
    · have h22 : (size k : ℤ) = 2 := by exact_mod_cast hall k hk
      rcases hc with ⟨c1, c2⟩ | ⟨c1, c2⟩ <;> rw [c1, c2, h22] <;> rfl
    · rw [hm m hm', sub_self]
  · intro i a ha
    obtain ⟨l, l', f1, f2, f3, f4, f5, f6, f7⟩ := g6 i (List.getElem?_eq_some_iff.1 ha).1
    obtain ⟨l0, -, k1, k2, k3⟩ := h.regular hd ha
    rw [f1] at k1
    cases k1
    refine ⟨l ++ l', ?_, ?_, ?_⟩
    · unfold Lattice.neighbors
      rw [g2]
      exact f4
    · rw [List.nodup_append]
      refine ⟨k2, f5, ?_⟩
      rintro c hc c' hc' rfl
      exact (f7 c hc').1 hc
    · intro j
      constructor
      · intro hj
        rcases List.mem_append.1 hj with hj | hj
        · obtain ⟨b, hb, hsum⟩ := (k3 j).1 hj
          exact ⟨b, hb, (torusStep_iff _ _ _ _).2 (Or.inl hsum)⟩
        · obtain ⟨-, v, hv, x, hx⟩ := f7 j hj
          obtain ⟨a', b, ha', hb, hk⟩ := himg v hv i j x hx
          rw [ha] at ha'
          cases ha'
          exact ⟨b, hb, (torusStep_iff _ _ _ _).2 (Or.inr hk)⟩
      · rintro ⟨b, hb, hst⟩
        rcases (torusStep_iff _ _ _ _).1 hst with hsum | ⟨k, hk, e1, e2⟩
        · exact List.mem_append_left _ ((k3 j).2 ⟨b, hb, hsum⟩)
        · obtain ⟨m, hm, hj⟩ := hcomplete k hk i j a b ha hb e1 e2
          rw [f4] at hm
          cases hm
          exact hj

/-- C98, neighbour sets for two or more cells along the periodic axes: the neighbours are those on
the torus (each listed once).  The axes are recorded as periodic if one of them has three or more
cells; if all have two cells no periodic neighbours and no periodic axes are recorded. -/
theorem C98_neighbors_partial (hd : 0 < d) (hdim : d ≤ 10 ^ 9) (env : Env ℝ) (s : Session)
    (atom : AtomSpec) (size : Fin d → ℕ) (hs : ∀ k, 0 < size k) (isInt : Bool) {axes : List ℕ}
    (hax : ∀ a ∈ axes, a < d) (h2 : ∀ k : Fin d, k.val ∈ axes → 2 ≤ size k) {p : PAxis}
    (hp : p = .axes axes ∨ p = .flag true ∧ axes = List.range d) :
    ∃ L D, Preset.finiteHypercubic env s (.size (List.ofFn fun k => (size k : ℝ)) isInt) 1 atom 1
      true (some p) = .ok L ∧ L.data = some D ∧
      ((∃ k : Fin d, k.val ∈ axes ∧ 3 ≤ size k) → L.periodicAxes = axes) ∧
      ((∀ k : Fin d, k.val ∈ axes → size k = 2) → L.periodicAxes = []) ∧
      D.indices.length = ∏ k, size k ∧ D.indices.Nodup ∧
      (∀ x : Idx d, x ∈ D.indices ↔ x.alpha = 0 ∧ ∀ k, 0 ≤ x.cell k ∧ x.cell k < size k) ∧
      D.positions = D.indices.map (fun x k => (Idx.cell x k : ℝ)) ∧
      ∀ (i : ℕ) (a : Idx d), D.indices[i]? = some a → ∃ l, L.neighbors i none false = .ok l ∧
        l.Nodup ∧ ∀ j, j ∈ l ↔ ∃ b : Idx d, D.indices[j]? = some b ∧
          TorusStep size axes a.cell b.cell := by
  obtain ⟨w, L, A, D, table, h1, h2', h⟩ := exists_grid hd hdim env s atom size hs isInt
  obtain ⟨L', E, g1, g2, g3, g4, g5, g6, g7⟩ := h.set_periodic_small hd hs hax h2
  have hset : L.setPeriodic env p = (L', .ok ()) := by
    rcases hp with rfl | ⟨rfl, rfl⟩
    · exact g1
    · rw [setPeriodic_true]; exact g1
  refine ⟨L', E, ?_, g2, g3, g4, ?_⟩
  · unfold Preset.finiteHypercubic
    rw [h1]
    dsimp only
    rw [build_periodic h2', hset]
  · rw [g5, g6]
    exact ⟨h.sites_spec.1, h.sites_spec.2.1, h.sites_spec.2.2.1, h.sites_spec.2.2.2, g7⟩

/-- Two by three torus: the cells (0, 0) and (0, 2) are neighbours; two by two torus: no periodic
axes. -/
example (env : Env ℝ) (s : Session) : (∃ L D, Preset.finiteHypercubic env s
    (.size (List.ofFn fun k => ((![2, 3] k : ℕ) : ℝ)) true) 1 (.name "A") 1 true
      (some (.flag true)) = .ok L ∧ L.data = some D ∧ L.periodicAxes = [0, 1] ∧
    ∃ i j l, D.indices[i]? = some (Idx.mk ![0, 0] 0) ∧
      D.indices[j]? = some (Idx.mk ![0, 2] 0) ∧ L.neighbors i none false = .ok l ∧ j ∈ l) ∧
    ∃ L : Lattice 2 ℝ, Preset.finiteHypercubic env s
      (.size (List.ofFn fun k => ((![2, 2] k : ℕ) : ℝ)) true) 1 (.name "A") 1 true
        (some (.axes [0, 1])) = .ok L ∧ L.periodicAxes = [] := by
  constructor
  · obtain ⟨L, D, h, h1, h2, -, -, -, h3, -, h4⟩ := C98_neighbors_partial (d := 2) (by norm_num)
      (by norm_num) env s (.name "A") ![2, 3] (by decide) true (axes := [0, 1]) (by decide)
      (by decide) (Or.inr ⟨rfl, by decide⟩)
    have hidx : ∀ n : Fin 2 → ℤ, (∀ k, 0 ≤ n k ∧ n k < ((![2, 3] : Fin 2 → ℕ) k : ℤ)) →
        ∃ i : ℕ, D.indices[i]? = some (Idx.mk n 0) := fun n hn =>
      List.mem_iff_getElem?.1 ((h3 _).2 ⟨Idx.alpha_mk _ _, by rw [Idx.cell_mk]; exact hn⟩)
    obtain ⟨i, hi⟩ := hidx ![0, 0] (by decide)
    obtain ⟨j, hj⟩ := hidx ![0, 2] (by decide)
    obtain ⟨l, e1, -, e2⟩ := h4 i _ hi
    refine ⟨L, D, h, h1, h2 ⟨1, by decide, by decide⟩, i, j, l, hi, hj, e1,
      (e2 j).2 ⟨_, hj, ?_⟩⟩
    rw [Idx.cell_mk, Idx.cell_mk]
    exact ⟨1, by decide, Or.inr (Or.inr ⟨by decide, by decide⟩)⟩
  · obtain ⟨L, D, h, -, -, h2, -⟩ := C98_neighbors_partial (d := 2) (by norm_num)
      (by norm_num) env s (.name "A") ![2, 2] (by decide) true (axes := [0, 1]) (by decide)
      (by decide) (Or.inl rfl)
    exact ⟨L, h, h2 (by decide)⟩

/-! ## the width of the tables -/

/-- C45, no superfluous columns: either some row consists of neighbours only, or all sites have the
same number of neighbours and every row ends with padding. -/
theorem C45_width {env : Env ℝ} {S : Structure d ℝ} (indices : List (Idx d))
    (positions : List (Vec d ℝ)) (hlen : indices.length = positions.length)
    {table : List (List (ℕ × WithTop ℝ))}
    (hok : computeNeighbors env S indices positions = .ok table) :
    (∃ n, ∀ row ∈ table, (row.filter fun e => decide (e.2 ≠ ⊤)).length = n ∧
      (positions.length, ⊤) ∈ row) ∨
    ∃ row ∈ table, ∀ e ∈ row, e.2 ≠ ⊤ := by
  unfold computeNeighbors at hok
  cases hA : S.analysis with
  | none => rw [hA] at hok; cases hok
  | some A =>
    rw [hA] at hok
    dsimp only at hok
    cases hq : queryParams A with
    | error e => rw [hq] at hok; cases hok
    | ok kd =>
      obtain ⟨k, maxDist⟩ := kd
      rw [hq] at hok
      dsimp only at hok
      have hk : 1 ≤ k := by
        unfold queryParams at hq
        dsimp only at hq
        split at hq
        · cases hq
        · cases hq
        · split_ifs at hq
          cases hq
          omega
      obtain ⟨⟨⟨w, hw⟩, -, -⟩, hl⟩ := kdQuery_tableOK env positions hk (maxDist : WithTop ℝ) positions
        (some distDecimals) false true
      generalize List.zipWith List.zip (kdQuery env positions k (maxDist : WithTop ℝ) positions
        (some distDecimals) false true).neighbors (kdQuery env positions k (maxDist : WithTop ℝ)
        positions (some distDecimals) false true).dists = T at hok hw hl
      have hTl : T.length = indices.length := hl.trans hlen.symm
      obtain ⟨hFl, w', hF⟩ := filterNeighbors_rows env A.distMatrix indices T w hTl hw
      have hok := Except.ok.inj hok
      subst hok
      rcases filterNeighbors_width env A.distMatrix indices T with ⟨hW, hW'⟩ | ⟨-, hW⟩
      · left
        refine ⟨w, fun row hrow => ⟨?_, by rw [← hlen]; exact hW' row hrow⟩⟩
        obtain ⟨i, hi⟩ := List.mem_iff_getElem?.1 hrow
        have hiT : i < T.length := by rw [← hFl]; exact (List.getElem?_eq_some_iff.1 hi).1
        have h1 : T[i]? = some T[i] := List.getElem?_eq_getElem hiT
        have h2 : indices[i]? = some (indices[i]'(by rw [← hTl]; exact hiT)) :=
          List.getElem?_eq_getElem _
        obtain ⟨row', g1, -, -, g4, -⟩ := hF i _ _ h1 h2
        rw [hi] at g1
        cases g1
        have g5 := hW i _ _ h1 h2
        have g6 := g4.length_eq
        have g7 : ∀ l : List (ℕ × WithTop ℝ), (∀ e ∈ l, e.2 ≠ ⊤) →
            l.filter (fun e => decide (e.2 ≠ ⊤)) = l := fun l hl =>
          List.filter_eq_self.2 fun e he => by simpa using hl e he
        rw [show (filterRow A.distMatrix indices _ T[i]).filter isLink = _ from g7 _ g5,
          filterRow_length, hw _ (List.getElem_mem hiT)] at g6
        exact g6
      · by_cases hne : ∃ row ∈ filterNeighbors env A.distMatrix indices T indices, row ≠ []
        · exact Or.inr (hW hne)
        · push Not at hne
          by_cases hnil : filterNeighbors env A.distMatrix indices T indices = []
          · left
            rw [hnil]
            exact ⟨0, by simp⟩
          · obtain ⟨row, hrow⟩ := List.exists_mem_of_ne_nil _ hnil
            exact Or.inr ⟨row, hrow, by rw [hne row hrow]; simp⟩

/-- On a 2 × 2 grid all sites have two neighbours and the rows end with padding; on a row of three
sites the one in the middle fills its row. -/
example (env : Env ℝ) (s : Session) :
    (∃ (L : Lattice 2 ℝ) (A : Analysis 2 ℝ) (D : LatticeData 2 ℝ)
      (table : List (List (ℕ × WithTop ℝ))), IsGrid env ![2, 2] L A D table ∧
      ((∃ n, ∀ row ∈ table, (row.filter fun e => decide (e.2 ≠ ⊤)).length = n ∧
        (D.positions.length, ⊤) ∈ row) ∨ ∃ row ∈ table, ∀ e ∈ row, e.2 ≠ ⊤)) ∧
    ∃ (L : Lattice 1 ℝ) (A : Analysis 1 ℝ) (D : LatticeData 1 ℝ)
      (table : List (List (ℕ × WithTop ℝ))), IsGrid env ![3] L A D table ∧
      ((∃ n, ∀ row ∈ table, (row.filter fun e => decide (e.2 ≠ ⊤)).length = n ∧
        (D.positions.length, ⊤) ∈ row) ∨ ∃ row ∈ table, ∀ e ∈ row, e.2 ≠ ⊤) := by
  constructor
  · obtain ⟨w, L, A, D, table, -, -, h⟩ := exists_grid (d := 2) (by norm_num) (by norm_num) env s
      (.name "A") ![2, 2] (by decide) true
    exact ⟨L, A, D, table, h, C45_width D.indices D.positions h.sites.length_eq h.comp⟩
  · obtain ⟨w, L, A, D, table, -, -, h⟩ := exists_grid (d := 1) (by norm_num) (by norm_num) env s
      (.name "A") ![3] (by decide) true
    exact ⟨L, A, D, table, h, C45_width D.indices D.positions h.sites.length_eq h.comp⟩

namespace LatticeData

/-- Writing more links than there is room for. -/
theorem setPeriodicSite_full {K : Type*} [LinearOrder K] {D : LatticeData d K}
    {t : List (List (Entry d))} (c : D.Cols t) (i : ℕ) (a b : List (Entry d))
    (hr : t[i]? = some (a ++ b))
    (ha : ∀ e ∈ a, e.level < D.invalidDistidx ∧ e.per = false)
    (hb : ∀ e ∈ b, D.invalidDistidx ≤ e.level ∨ e.per = true)
    (links : List (PLink d K)) (hfull : b.length < links.length) :
    D.setPeriodicSite i links = if links.length = 1 then .ok D else .error .value := by
  have hreg : D.getNeighbors i none (some false) false = .ok (a.map Entry.nbr) := by
    rw [c.getNeighbors i _ hr, List.filter_append, List.filter_eq_self.2,
      List.filter_eq_nil_iff.2, List.append_nil]
    · intro e he
      rcases hb e he with h | h
      · simp [sel, not_lt.2 h]
      · simp [sel, h]
    · intro e he
      simp [sel, (ha e he).1, (ha e he).2]
  have hn : D.neighbors[i]? = some ((a ++ b).map Entry.nbr) := by rw [c.nbr]; simp [hr]
  unfold setPeriodicSite
  rw [hreg, hn]
  simp only [List.length_map, List.length_append]
  rw [if_neg (by omega)]

/-- `set_periodic` with two or more links for a site without room for them. -/
theorem setPeriodicLoop_error {K : Type*} [LinearOrder K] :
    ∀ (items : List (ℕ × List (PLink d K))) {D : LatticeData d K} {t : List (List (Entry d))},
    D.Cols t → (items.map Prod.fst).Nodup →
    (∀ p ∈ items, ∃ a b, t[p.1]? = some (a ++ b) ∧
      (∀ e ∈ a, e.level < D.invalidDistidx ∧ e.per = false) ∧
      ∀ e ∈ b, D.invalidDistidx ≤ e.level ∨ e.per = true) →
    (∃ p ∈ items, 2 ≤ p.2.length ∧ ∀ a b, t[p.1]? = some (a ++ b) →
      (∀ e ∈ a, e.level < D.invalidDistidx ∧ e.per = false) →
      (∀ e ∈ b, D.invalidDistidx ≤ e.level ∨ e.per = true) → b.length < p.2.length) →
    ∃ E, Lattice.setPeriodicLoop D items = (E, .error .value)
  | [], D, t, c, hnd, hpack, hbad => by obtain ⟨p, hp, -⟩ := hbad; cases hp
  | p :: items, D, t, c, hnd, hpack, hbad => by
    rw [List.map_cons, List.nodup_cons] at hnd
    obtain ⟨a, b, hr, ha, hb⟩ := hpack p (by simp)
    obtain ⟨q, hq, hq2, hqb⟩ := hbad
    unfold Lattice.setPeriodicLoop
    by_cases hfit : p.2.length ≤ b.length
    · have hqi : q ∈ items := by
        rcases List.mem_cons.1 hq with rfl | hq
        · have := hqb a b hr ha hb
          omega
        · exact hq
      obtain ⟨E1, hE1, c1, s1, s2, s3, s4, s5, s6⟩ :=
        setPeriodicSite_cols c p.1 a b hr ha hb p.2 hfit
      have hne : ∀ q ∈ items, q.1 ≠ p.1 := by
        intro q hq heq
        exact hnd.1 (heq ▸ List.mem_map_of_mem hq)
      rw [hE1]
      dsimp only
      refine setPeriodicLoop_error items c1 hnd.2 ?_ ⟨q, hqi, hq2, ?_⟩
      · intro q hq
        obtain ⟨a', b', h1, h2, h3⟩ := hpack q (by simp [hq])
        refine ⟨a', b', ?_, by rw [s5]; exact h2, by rw [s5]; exact h3⟩
        rw [modifyRow_getElem?_ne _ _ (hne q hq)]
        exact h1
      · intro a' b' h1 h2 h3
        rw [modifyRow_getElem?_ne _ _ (hne q hqi)] at h1
        rw [s5] at h2 h3
        exact hqb a' b' h1 h2 h3
    · rw [setPeriodicSite_full c p.1 a b hr ha hb p.2 (by omega)]
      by_cases h1 : p.2.length = 1
      · have hqi : q ∈ items := by
          rcases List.mem_cons.1 hq with rfl | hq
          · omega
          · exact hq
        rw [if_pos h1]
        dsimp only
        exact setPeriodicLoop_error items c hnd.2 (fun q hq => hpack q (by simp [hq]))
          ⟨q, hqi, hq2, hqb⟩
      · rw [if_neg h1]
        exact ⟨D, rfl⟩

end LatticeData

namespace IsGrid

variable {env : Env ℝ} {size : Fin d → ℕ} {L : Lattice d ℝ} {A : Analysis d ℝ}
  {D : LatticeData d ℝ} {table : List (List (ℕ × WithTop ℝ))}

/-- The width of the tables of a grid. -/
theorem width (h : IsGrid env size L A D table) {width : ℕ} (hr : D.Rect width) :
    (∃ n, ∀ i l, D.getNeighbors i none (some false) false = .ok l → l.length = n) ∨
    ∃ i l, D.getNeighbors i none (some false) false = .ok l ∧ l.length = width := by
  obtain ⟨hc, -, -, -, -, hlev⟩ := set_cols h.set h.top h.levels
  have hget : ∀ (i : ℕ) row, table[i]? = some row → ∃ l,
      D.getNeighbors i none (some false) false = .ok l ∧
      l.length = (row.filter fun e => decide (e.2 ≠ ⊤)).length := by
    intro i row hrow
    have hrow' : (table.map fun r => r.map (builtEntry (d := d) D.distvals))[i]? =
        some (row.map (builtEntry D.distvals)) := by
      rw [List.getElem?_map, hrow]
      rfl
    refine ⟨_, hc.getNeighbors i _ hrow' _ _ _, ?_⟩
    rw [List.length_map, List.filter_map, List.length_map]
    congr 1
    refine List.filter_congr fun e he => ?_
    have := (hlev row (List.mem_of_getElem? hrow) e he).2.2
    simp [LatticeData.sel, builtEntry, this]
  rcases C45_width D.indices D.positions h.sites.length_eq h.comp with ⟨n, hn⟩ | ⟨row, hrow, hfin⟩
  · left
    refine ⟨n, fun i l hl => ?_⟩
    have hi : i < table.length := by
      by_contra hi
      have : D.numSites ≤ i := by
        have e1 := h.length
        have e2 := h.sites.length_eq
        change D.indices.length ≤ i
        omega
      rw [hr.getNeighbors_error this] at hl
      cases hl
    obtain ⟨l', g1, g2⟩ := hget i _ (List.getElem?_eq_getElem hi)
    rw [hl] at g1
    cases g1
    rw [g2]
    exact (hn _ (List.getElem_mem hi)).1
  · right
    obtain ⟨i, hi⟩ := List.mem_iff_getElem?.1 hrow
    obtain ⟨l, g1, g2⟩ := hget i row hi
    refine ⟨i, l, g1, ?_⟩
    rw [g2, List.filter_eq_self.2 (fun e he => by simpa using hfin e he)]
    have := hr.row_length (row.map (builtEntry D.distvals)) (by
      rw [hc.entries_eq]; exact List.mem_map_of_mem hrow)
    rwa [List.length_map] at this

end IsGrid

namespace Lattice

open LatticeData (PLink)

variable {env : Env ℝ} {A : Analysis d ℝ} {D : LatticeData d ℝ} {axes : List ℕ}
  {vecs : List (List ℕ × (Fin d → ℤ))}

/-- C64, no room: `set_periodic` raises a `ValueError` if some site has two or more new periodic
neighbours that do not fit into its row of the tables. -/
theorem C64_no_room (hd : 0 < d) {L : Lattice d ℝ}
    (h : PState env L.world A D axes (L.primitive.getD false) vecs) {width : ℕ}
    (hL : L.data = some D) (hshape : L.shape ≠ none) (hr : D.Rect width)
    (hpack : ∀ (i : ℕ) r, D.entries[i]? = some r → ∃ a b, r = a ++ b ∧
      (∀ e ∈ a, e.level < D.invalidDistidx ∧ e.per = false) ∧
      ∀ e ∈ b, e.level = D.invalidDistidx ∨ e.per = true)
    (hq : ∃ k maxDist, queryParams A = .ok (k, maxDist))
    (hres : ∀ y, RawDistance A y → 5 / 10 ^ 6 < y)
    {i : ℕ} {l J : List ℕ} (hl : D.getNeighbors i none (some false) false = .ok l) (hJ : J.Nodup)
    (hJl : ∀ j ∈ J, j ∉ l) (hJi : ∀ j ∈ J, ∃ a b, (a = i ∧ b = j ∨ a = j ∧ b = i) ∧
      ∃ v ∈ vecs, ∃ x p q, Image L.struct A D.indices D.positions a b v.2 x ∧
        D.positions[a]? = some p ∧ D.positions[b]? = some q ∧
        closer D.positions (L.struct.basis.translate v.2 p) q ≤ (A.rawNum.map List.sum).sum + 1)
    (h2 : 2 ≤ J.length) (hfull : width < l.length + J.length) :
    ∃ L', L.setPeriodic env (.axes axes) = (L', .error .value) := by
  obtain ⟨D0, hD0, c0, -, -, -, -, s5, -⟩ := LatticeData.removePeriodic_cols hr.cols
  obtain ⟨s1, s2, -⟩ := removePeriodic_sites hD0
  have h0 : PState env L.world A D0 axes (L.primitive.getD false) vecs :=
    ⟨h.reach, h.analysis, by rw [s1, s2]; exact h.length, by rw [s1]; exact h.alpha, by
      rw [s1]; exact h.vecs⟩
  have hreg0 : ∀ i ex, D0.getNeighbors i none none false = .ok ex →
      i < D.numSites ∧ D.getNeighbors i none (some false) false = .ok ex := by
    intro i ex hex
    have hi := removePeriodic_lt hr hD0 hex
    exact ⟨hi, by rw [← removePeriodic_getNeighbors hr hD0 hi]; exact hex⟩
  obtain ⟨Q, hQ⟩ := h0.exists_result hd hq (by
    intro i hi
    rw [s1] at hi
    rw [removePeriodic_getNeighbors hr hD0 hi]
    obtain ⟨r, -, -, hg⟩ := hr.getNeighbors hi
    exact ⟨_, hg _ _ _⟩)
  obtain ⟨hnd, hsym⟩ := h0.links hd hQ
  have hin : ∀ j ∈ J, j ∈ (Q.atSite i).map PLink.nbr := by
    intro j hj
    obtain ⟨a, b, hab, v, hv, x, p, q, himg, hp, hq', hcount⟩ := hJi j hj
    obtain ⟨⟨ex, hex, g1⟩, ⟨ex', hex', g2⟩⟩ := C64_complete_partial hd h0 hQ hres hv
      (by rw [s1, s2]; exact himg) (by rw [s2]; exact hp) (by rw [s2]; exact hq')
      (by rw [s2]; exact hcount)
    rcases hab with ⟨rfl, rfl⟩ | ⟨rfl, rfl⟩
    · have := (hreg0 _ _ hex).2
      rw [hl] at this
      cases this
      obtain ⟨ls, hls, hin⟩ := g1 (hJl _ hj)
      rw [PDict.atSite_of_mem hnd hls]
      exact hin
    · have := (hreg0 _ _ hex').2
      rw [hl] at this
      cases this
      obtain ⟨ls, hls, hin⟩ := g2 (hJl _ hj)
      rw [PDict.atSite_of_mem hnd hls]
      exact hin
  have hlen : J.length ≤ (Q.atSite i).length := by
    rw [← List.length_map (f := PLink.nbr)]
    exact (List.subperm_of_subset hJ hin).length_le
  have hmem : (i, Q.atSite i) ∈ Q := PDict.mem_of_atSite (by
    intro h0
    rw [h0] at hlen
    simp at hlen
    rw [hlen] at h2
    simp at h2)
  have hclear : ∀ a b : List (Entry d), (∀ e ∈ a, e.level < D.invalidDistidx ∧ e.per = false) →
      (∀ e ∈ b, e.level = D.invalidDistidx ∨ e.per = true) →
      (∀ e ∈ a.map (LatticeData.clearEntry D.invalidIdx D.invalidDistidx),
        e.level < D0.invalidDistidx ∧ e.per = false) ∧
      (∀ e ∈ b.map (LatticeData.clearEntry D.invalidIdx D.invalidDistidx),
        D0.invalidDistidx ≤ e.level ∨ e.per = true) := by
    intro a b ha hb
    constructor
    · intro e he
      obtain ⟨x, hx, rfl⟩ := List.mem_map.1 he
      rw [s5]
      exact ⟨by simp [LatticeData.clearEntry, (ha x hx).2, (ha x hx).1], rfl⟩
    · intro e he
      obtain ⟨x, hx, rfl⟩ := List.mem_map.1 he
      rw [s5]
      left
      rcases hb x hx with h1 | h1 <;> simp [LatticeData.clearEntry, h1]
  obtain ⟨E, hE⟩ := LatticeData.setPeriodicLoop_error Q c0 hnd (by
      intro p hp
      obtain ⟨-, -, ⟨ex, hex, -⟩, -⟩ := hsym p.1 p.2 hp
      obtain ⟨r, hr1, -⟩ := hr.getElem?_entries (hreg0 _ _ hex).1
      obtain ⟨a, b, rfl, g2, g3⟩ := hpack p.1 r hr1
      obtain ⟨f1, f2⟩ := hclear a b g2 g3
      exact ⟨_, _, by rw [List.getElem?_map, hr1, Option.map_some, List.map_append], f1, f2⟩)
    ⟨_, hmem, by dsimp only; omega, by
      intro a b hr1 ha hb
      dsimp only at hr1 ⊢
      have hreg : D0.getNeighbors i none (some false) false = .ok (a.map Entry.nbr) := by
        rw [c0.getNeighbors i _ hr1, List.filter_append, List.filter_eq_self.2,
          List.filter_eq_nil_iff.2, List.append_nil]
        · intro e he
          rcases hb e he with g | g
          · simp [LatticeData.sel, not_lt.2 g]
          · simp [LatticeData.sel, g]
        · intro e he
          simp [LatticeData.sel, (ha e he).1, (ha e he).2]
      obtain ⟨-, -, ⟨ex, hex, -⟩, -⟩ := hsym i _ hmem
      have hall : ∀ e ∈ a ++ b, e.per = false := by
        intro e he
        rw [List.getElem?_map] at hr1
        obtain ⟨r, -, hr2⟩ := Option.map_eq_some_iff.1 hr1
        rw [← hr2] at he
        obtain ⟨e', -, rfl⟩ := List.mem_map.1 he
        rfl
      have hreg' : D0.getNeighbors i none none false = .ok (a.map Entry.nbr) := by
        rw [c0.getNeighbors i _ hr1, List.filter_append, List.filter_eq_self.2,
          List.filter_eq_nil_iff.2, List.append_nil]
        · intro e he
          rcases hb e he with g | g
          · simp [LatticeData.sel, not_lt.2 g]
          · rw [hall e (List.mem_append_right _ he)] at g
            cases g
        · intro e he
          simp [LatticeData.sel, (ha e he).1]
      have := (hreg0 _ _ hreg').2
      rw [hl] at this
      have hla := congrArg List.length (Except.ok.inj this)
      rw [List.length_map] at hla
      have hw : (a ++ b).length = width := by
        rw [List.getElem?_map] at hr1
        obtain ⟨r, hr3, hr2⟩ := Option.map_eq_some_iff.1 hr1
        rw [← hr2, List.length_map]
        exact hr.row_length _ (List.mem_of_getElem? hr3)
      rw [List.length_append] at hw
      omega⟩
  refine ⟨{ L with data := some E }, ?_⟩
  rw [setPeriodic_axes_eq env hL hshape hD0]
  unfold setPeriodicAxes
  dsimp only
  rw [show computePneighbors env ({ L with data := some D0 } : Lattice d ℝ).struct D0 axes
    (L.primitive.getD false) = .ok Q from hQ]
  dsimp only
  rw [if_neg (by
    rw [List.isEmpty_iff]
    intro h0
    rw [h0] at hmem
    cases hmem), removePeriodic_idem hr.cols hD0]
  dsimp only
  rw [hE]

end Lattice

namespace IsGrid

variable {env : Env ℝ} {size : Fin d → ℕ} {L : Lattice d ℝ} {A : Analysis d ℝ}
  {D : LatticeData d ℝ} {table : List (List (ℕ × WithTop ℝ))}

/-- Moving a list of sites by an injective map of the cells. -/
theorem move (h : IsGrid env size L A D table) {l : List ℕ} (hl : l.Nodup)
    (f : (Fin d → ℤ) → Fin d → ℤ)
    (hf : ∀ j ∈ l, ∃ b : Idx d, D.indices[j]? = some b ∧ ∀ k, 0 ≤ f b.cell k ∧ f b.cell k < size k)
    (hinj : ∀ j ∈ l, ∀ j' ∈ l, ∀ b b' : Idx d, D.indices[j]? = some b → D.indices[j']? = some b' →
      f b.cell = f b'.cell → b.cell = b'.cell) :
    ∃ l2 : List ℕ, l2.Nodup ∧ l2.length = l.length ∧ ∀ j ∈ l2, ∃ i ∈ l, ∃ b : Idx d,
      D.indices[i]? = some b ∧ D.indices[j]? = some (Idx.mk (f b.cell) 0) := by
  classical
  have hg : ∀ j : ℕ, ∃ g : ℕ, j ∈ l → ∃ b : Idx d, D.indices[j]? = some b ∧
      D.indices[g]? = some (Idx.mk (f b.cell) 0) := by
    intro j
    by_cases hj : j ∈ l
    · obtain ⟨b, hb, hr⟩ := hf j hj
      obtain ⟨g, hg⟩ := h.exists_index hr
      exact ⟨g, fun _ => ⟨b, hb, hg⟩⟩
    · exact ⟨0, fun h => absurd h hj⟩
  choose g hg using hg
  refine ⟨l.map g, hl.map_on ?_, List.length_map _, ?_⟩
  · intro j hj j' hj' heq
    obtain ⟨b, hb, e1⟩ := hg j hj
    obtain ⟨b', hb', e2⟩ := hg j' hj'
    rw [heq, e2] at e1
    have e3 := (Idx.mk_inj.1 (Option.some.inj e1)).1
    exact h.index_inj hb hb' (hinj j hj j' hj' b b' hb hb' e3.symm)
  · intro j hj
    obtain ⟨i, hi, rfl⟩ := List.mem_map.1 hj
    obtain ⟨b, hb, e⟩ := hg i hi
    exact ⟨i, hi, b, hb, e⟩

/-- `set_periodic` on a grid with a periodic axis of one cell and one of three or more. -/
theorem set_periodic_thin (hd : 0 < d) (h : IsGrid env size L A D table) (hs : ∀ k, 0 < size k)
    {axes : List ℕ} (hax : ∀ a ∈ axes, a < d) {k1 k3 : Fin d} (hk1 : k1.val ∈ axes)
    (h1 : size k1 = 1) (hk3 : k3.val ∈ axes) (h3 : 3 ≤ size k3) :
    ∃ L', L.setPeriodic env (.axes axes) = (L', .error .value) := by
  classical
  obtain ⟨vecs, hP, hv1, hv2⟩ := h.vecs hs hax
  obtain ⟨width, hr, -⟩ := h.rect
  obtain ⟨k0, maxDist, hq⟩ := computeNeighbors_params h.analysis h.comp
  have hcell : ∀ {i : ℕ} {a : Idx d}, D.indices[i]? = some a →
      ∀ k, 0 ≤ a.cell k ∧ a.cell k < size k := fun ha => (h.index ha).2
  -- the width of the tables
  obtain ⟨i', l', hl', hw⟩ : ∃ i l, D.getNeighbors i none (some false) false = .ok l ∧
      l.length = width := by
    refine (h.width hr).resolve_left ?_
    rintro ⟨n, hn⟩
    obtain ⟨i, hi⟩ := h.exists_index (n := 0) fun m => ⟨le_rfl, by simpa using hs m⟩
    obtain ⟨j, hj⟩ := h.exists_index (n := Pi.single k3 1) fun m => by
      rcases eq_or_ne m k3 with rfl | hm
      · rw [Pi.single_eq_same]
        omega
      · rw [Pi.single_eq_of_ne hm]
        exact ⟨le_rfl, by exact_mod_cast hs m⟩
    obtain ⟨l, -, hl, hln, hlm⟩ := h.regular hd hi
    obtain ⟨l2, -, hl2, -, hlm2⟩ := h.regular hd hj
    rw [Idx.cell_mk] at hlm hlm2
    obtain ⟨m, m1, m2, m3⟩ := h.move hln (fun b => b + Pi.single k3 1)
      (by
        intro q hq
        obtain ⟨b, hb, hsum⟩ := (hlm q).1 hq
        refine ⟨b, hb, fun k => ?_⟩
        have := hcell hb k
        have := step_le hsum k
        rw [Pi.zero_apply, sub_zero, abs_le] at this
        rcases eq_or_ne k k3 with rfl | hk
        · rw [Pi.add_apply, Pi.single_eq_same]
          omega
        · rw [Pi.add_apply, Pi.single_eq_of_ne hk]
          omega)
      (fun _ _ _ _ b b' _ _ h => add_right_cancel h)
    have hsub : ∀ q ∈ i :: m, q ∈ l2 := by
      intro q hq
      rw [hlm2]
      rcases List.mem_cons.1 hq with rfl | hq
      · refine ⟨_, hi, ?_⟩
        rw [sum_abs_one]
        refine ⟨k3, ?_, fun m hm => ?_⟩ <;> rw [Idx.cell_mk]
        · simp
        · simp [Pi.single_eq_of_ne hm]
      · obtain ⟨r, hr, b, hb, hq⟩ := m3 q hq
        obtain ⟨b', hb', hsum⟩ := (hlm r).1 hr
        rw [hb] at hb'
        cases hb'
        refine ⟨_, hq, ?_⟩
        rw [Idx.cell_mk]
        simpa using hsum
    have hnd : (i :: m).Nodup := by
      refine List.nodup_cons.2 ⟨fun him => ?_, m1⟩
      obtain ⟨r, hr, b, hb, hq⟩ := m3 i him
      rw [hi] at hq
      have := congrFun (Idx.mk_inj.1 (Option.some.inj hq)).1 k3
      rw [Pi.add_apply, Pi.single_eq_same, Pi.zero_apply] at this
      have := hcell hb k3
      omega
    have := (List.subperm_of_subset hnd hsub).length_le
    rw [List.length_cons, m2, hn i l hl, hn j l2 hl2] at this
    omega
  -- a site at the boundary of the periodic axes only
  let c : Fin d → ℤ := fun k => if k.val ∉ axes ∧ 3 ≤ size k then 1 else 0
  have hc : ∀ k, 0 ≤ c k ∧ c k < size k := by
    intro k
    have := hs k
    dsimp only [c]
    split_ifs <;> omega
  have hc0 : ∀ k : Fin d, k.val ∈ axes ∨ size k ≤ 2 → c k = 0 := by
    intro k hk
    dsimp only [c]
    rw [if_neg]
    rintro ⟨h1, h2⟩
    rcases hk with hk | hk
    · exact h1 hk
    · omega
  have hc1 : ∀ k : Fin d, k.val ∉ axes → 3 ≤ size k → c k = 1 := fun k h1 h2 => if_pos ⟨h1, h2⟩
  clear_value c
  obtain ⟨i, hi⟩ := h.exists_index hc
  obtain ⟨l, -, hl, hln, hlm⟩ := h.regular hd hi
  rw [Idx.cell_mk] at hlm
  obtain ⟨a', ha'⟩ := h.exists_of_regular hl'
  obtain ⟨l1, -, hl1, hln', hlm'⟩ := h.regular hd ha'
  rw [hl'] at hl1
  cases hl1
  have ha0 := hcell ha'
  have hrange : ∀ (b : Fin d → ℤ) (k : Fin d), 0 ≤ (c k + b k - a'.cell k) % (size k : ℤ) ∧
      (c k + b k - a'.cell k) % (size k : ℤ) < size k := fun b k =>
    ⟨Int.emod_nonneg _ (by have := hs k; omega), Int.emod_lt_of_pos _ (by have := hs k; omega)⟩
  have hstep : ∀ b : Fin d → ℤ, (∀ k, 0 ≤ b k ∧ b k < size k) → ∑ k, |b k - a'.cell k| = 1 →
      TorusStep size axes c (fun k => (c k + b k - a'.cell k) % (size k : ℤ)) ∧
      ∃ k, (c k + b k - a'.cell k) % (size k : ℤ) ≠ c k := by
    intro b hb hsum
    obtain ⟨k, e1, e2⟩ := (sum_abs_one _).1 hsum
    have hoth : ∀ m, m ≠ k → (c m + b m - a'.cell m) % (size m : ℤ) = c m := by
      intro m hm
      have e3 := e2 m hm
      rw [show c m + b m - a'.cell m = c m by omega]
      exact Int.emod_eq_of_lt (hc m).1 (hc m).2
    have hbk := hb k
    have hak := ha0 k
    have hval : (c k + b k - a'.cell k) % (size k : ℤ) = c k + 1 ∨
        (c k + b k - a'.cell k) % (size k : ℤ) = c k - 1 ∨
        (k.val ∈ axes ∧ 3 ≤ size k ∧ c k = 0 ∧
          (c k + b k - a'.cell k) % (size k : ℤ) = size k - 1) := by
      by_cases hk3 : 3 ≤ size k
      · by_cases hka : k.val ∈ axes
        · have := hc0 k (Or.inl hka)
          rw [this]
          rcases (abs_eq one_pos.le).1 e1 with e1 | e1
          · left
            rw [show (0 : ℤ) + b k - a'.cell k = 1 by omega]
            exact Int.emod_eq_of_lt (by omega) (by omega)
          · right; right
            refine ⟨hka, hk3, rfl, ?_⟩
            rw [show (0 : ℤ) + b k - a'.cell k = (size k - 1) + size k * (-1) by omega,
              Int.add_mul_emod_self_left]
            exact Int.emod_eq_of_lt (by omega) (by omega)
        · have := hc1 k hka hk3
          rw [this]
          rcases (abs_eq one_pos.le).1 e1 with e1 | e1
          · left
            rw [show (1 : ℤ) + b k - a'.cell k = 2 by omega]
            exact Int.emod_eq_of_lt (by omega) (by omega)
          · right; left
            rw [show (1 : ℤ) + b k - a'.cell k = 0 by omega]
            exact Int.emod_eq_of_lt (by omega) (by omega)
      · have := hc0 k (Or.inr (by omega))
        rw [this]
        left
        rcases (abs_eq one_pos.le).1 e1 with e1 | e1
        · rw [show (0 : ℤ) + b k - a'.cell k = 1 by omega]
          exact Int.emod_eq_of_lt (by omega) (by omega)
        · rw [show (0 : ℤ) + b k - a'.cell k = 1 + size k * (-1) by omega,
            Int.add_mul_emod_self_left]
          exact Int.emod_eq_of_lt (by omega) (by omega)
    refine ⟨⟨k, hoth, ?_⟩, k, by omega⟩
    rcases hval with e | e | ⟨e1, e2, e3, e4⟩
    · exact Or.inl e
    · exact Or.inr (Or.inl e)
    · exact Or.inr (Or.inr ⟨e1, Or.inl ⟨e3, e4⟩⟩)
  obtain ⟨m, m1, m2, m3⟩ := h.move hln'
    (fun b k => (c k + b k - a'.cell k) % (size k : ℤ))
    (by
      intro q hq
      obtain ⟨b, hb, -⟩ := (hlm' q).1 hq
      exact ⟨b, hb, hrange b.cell⟩)
    (by
      intro j _ j' _ b b' hb hb' heq
      funext k
      have e1 : (c k + b.cell k - a'.cell k) % (size k : ℤ) =
        (c k + b'.cell k - a'.cell k) % (size k : ℤ) := congrFun heq k
      have e2 := hcell hb k
      have e3 := hcell hb' k
      have e4 : (b.cell k - b'.cell k) % (size k : ℤ) = 0 := by
        have := Int.emod_eq_emod_iff_emod_sub_eq_zero.1 e1
        rwa [show c k + b.cell k - a'.cell k - (c k + b'.cell k - a'.cell k) =
          b.cell k - b'.cell k by ring] at this
      obtain ⟨q, hq⟩ := Int.dvd_of_emod_eq_zero e4
      have hq0 : q = 0 := by
        by_contra hq0
        rcases lt_or_gt_of_ne hq0 with hlt | hgt
        · nlinarith
        · nlinarith
      rw [hq0] at hq
      omega)
  -- the torus neighbours of the site
  have htorus : ∀ j ∈ i :: m, ∃ b : Idx d, D.indices[j]? = some b ∧
      TorusStep size axes c b.cell := by
    intro j hj
    rcases List.mem_cons.1 hj with rfl | hj
    · refine ⟨_, hi, k1, fun _ _ => by rw [Idx.cell_mk], Or.inr (Or.inr ⟨hk1, Or.inl ?_⟩)⟩
      rw [Idx.cell_mk, hc0 k1 (Or.inl hk1), h1]
      exact ⟨rfl, rfl⟩
    · obtain ⟨r, hr, b, hb, hq⟩ := m3 j hj
      obtain ⟨b', hb', hsum⟩ := (hlm' r).1 hr
      rw [hb] at hb'
      cases hb'
      refine ⟨_, hq, ?_⟩
      rw [Idx.cell_mk]
      exact (hstep _ (hcell hb) hsum).1
  have hnd : (i :: m).Nodup := by
    refine List.nodup_cons.2 ⟨fun him => ?_, m1⟩
    obtain ⟨r, hr, b, hb, hq⟩ := m3 i him
    obtain ⟨b', hb', hsum⟩ := (hlm' r).1 hr
    rw [hb] at hb'
    cases hb'
    rw [hi] at hq
    obtain ⟨k, hk⟩ := (hstep _ (hcell hb) hsum).2
    exact hk (congrFun (Idx.mk_inj.1 (Option.some.inj hq)).1 k).symm
  have hself : i ∉ l := by
    intro hil
    obtain ⟨b, hb, hsum⟩ := (hlm i).1 hil
    rw [hi] at hb
    cases hb
    simp [Idx.cell_mk] at hsum
  -- the site at the other end of the long axis
  obtain ⟨j3, hj3⟩ := h.exists_index (n := Function.update c k3 ((size k3 : ℤ) - 1)) fun k => by
    rcases eq_or_ne k k3 with rfl | hk
    · rw [Function.update_self]
      omega
    · rw [Function.update_of_ne hk]
      exact hc k
  have hj3l : j3 ∉ l := by
    intro hjl
    obtain ⟨b, hb, hsum⟩ := (hlm j3).1 hjl
    rw [hj3] at hb
    cases hb
    have := step_le hsum k3
    rw [Idx.cell_mk, Function.update_self, hc0 k3 (Or.inl hk3), abs_le] at this
    omega
  have hj3i : j3 ≠ i := by
    rintro rfl
    rw [hi] at hj3
    have := congrFun (Idx.mk_inj.1 (Option.some.inj hj3)).1 k3
    rw [Function.update_self, hc0 k3 (Or.inl hk3)] at this
    omega
  have hj3t : TorusStep size axes c (Function.update c k3 ((size k3 : ℤ) - 1)) :=
    ⟨k3, fun m hm => Function.update_of_ne hm _ _, Or.inr (Or.inr ⟨hk3, Or.inl
      ⟨hc0 k3 (Or.inl hk3), Function.update_self ..⟩⟩)⟩
  let J := ((j3 :: i :: m).filter fun j => decide (j ∉ l)).dedup
  have hJm : ∀ j, j ∈ J ↔ j ∈ j3 :: i :: m ∧ j ∉ l := by
    intro j
    rw [List.mem_dedup, List.mem_filter, decide_eq_true_iff]
  refine Lattice.C64_no_room hd hP h.data h.shape hr (h.packed hd) ⟨_, _, hq⟩ (h.raw hd) hl (J := J) (List.nodup_dedup _)
    (fun j hj => ((hJm j).1 hj).2) ?_ ?_ ?_
  · intro j hj
    obtain ⟨hjm, hjl⟩ := (hJm j).1 hj
    obtain ⟨b, hb, hst⟩ : ∃ b : Idx d, D.indices[j]? = some b ∧ TorusStep size axes c b.cell := by
      rcases List.mem_cons.1 hjm with rfl | hjm
      · exact ⟨_, hj3, by rw [Idx.cell_mk]; exact hj3t⟩
      · exact htorus j hjm
    rcases (torusStep_iff _ _ _ _).1 hst with hsum | ⟨k, hk, e1, e2⟩
    · exact absurd ((hlm j).2 ⟨b, hb, hsum⟩) hjl
    · have hp : D.positions[i]? = some fun m => (c m : ℝ) :=
        (h.site i _).2 ⟨_, hi, by rw [Idx.cell_mk]⟩
      have hq' : D.positions[j]? = some fun m => (b.cell m : ℝ) := (h.site j _).2 ⟨b, hb, rfl⟩
      obtain ⟨v, hv, hvk⟩ := hv1 k hk
      have hc' : ∀ m, m ≠ k → c m = b.cell m := fun m hm => (e1 m hm).symm
      have fwd : ∑ m, |c m + v.2 m - b.cell m| = 1 →
          ∃ a b, (a = i ∧ b = j ∨ a = j ∧ b = i) ∧
          ∃ v ∈ vecs, ∃ x p q, Image L.struct A D.indices D.positions a b v.2 x ∧
            D.positions[a]? = some p ∧ D.positions[b]? = some q ∧
            closer D.positions (L.struct.basis.translate v.2 p) q ≤
              (A.rawNum.map List.sum).sum + 1 := by
        intro hsum
        have hsum' : ∑ m, |(Idx.mk c 0 : Idx d).cell m + v.2 m - b.cell m| = 1 := by
          rw [Idx.cell_mk]; exact hsum
        have hcl := h.closer_le hs hvk hi hb hsum'
        rw [Idx.cell_mk] at hcl
        exact ⟨i, j, Or.inl ⟨rfl, rfl⟩, v, hv, 1, _, _, h.image.2 ⟨rfl, _, b, hi, hb, hsum'⟩, hp, hq',
          le_trans hcl (Nat.le_add_left 1 _)⟩
      have bwd : ∑ m, |b.cell m + v.2 m - c m| = 1 →
          ∃ a b, (a = i ∧ b = j ∨ a = j ∧ b = i) ∧
          ∃ v ∈ vecs, ∃ x p q, Image L.struct A D.indices D.positions a b v.2 x ∧
            D.positions[a]? = some p ∧ D.positions[b]? = some q ∧
            closer D.positions (L.struct.basis.translate v.2 p) q ≤
              (A.rawNum.map List.sum).sum + 1 := by
        intro hsum
        have hsum' : ∑ m, |b.cell m + v.2 m - (Idx.mk c 0 : Idx d).cell m| = 1 := by
          rw [Idx.cell_mk]; exact hsum
        have hcl := h.closer_le hs hvk hb hi hsum'
        rw [Idx.cell_mk] at hcl
        exact ⟨j, i, Or.inr ⟨rfl, rfl⟩, v, hv, 1, _, _, h.image.2 ⟨rfl, b, _, hb, hi, hsum'⟩, hq', hp,
          le_trans hcl (Nat.le_add_left 1 _)⟩
      rcases hvk with hvk | hvk <;> rcases e2 with e2 | e2
      · exact fwd ((wrap_step (Or.inl hvk) hc (hcell hb)).2 ⟨e1, Or.inl ⟨hvk, e2⟩⟩)
      · exact bwd ((wrap_step (Or.inl hvk) (hcell hb) hc).2 ⟨hc', Or.inl ⟨hvk, e2⟩⟩)
      · exact bwd ((wrap_step (Or.inr hvk) (hcell hb) hc).2 ⟨hc', Or.inr ⟨hvk, e2⟩⟩)
      · exact fwd ((wrap_step (Or.inr hvk) hc (hcell hb)).2 ⟨e1, Or.inr ⟨hvk, e2⟩⟩)
  · have : ([j3, i] : List ℕ).length ≤ J.length :=
      (List.subperm_of_subset (by simpa using hj3i) (by
        intro j hj
        rw [hJm]
        simp only [List.mem_cons, List.not_mem_nil, or_false] at hj
        rcases hj with rfl | rfl
        · exact ⟨by simp, hj3l⟩
        · exact ⟨by simp, hself⟩)).length_le
    simpa using this
  · have : (i :: m).length ≤ (l ++ J).length :=
      (List.subperm_of_subset hnd (by
        intro j hj
        rw [List.mem_append]
        by_cases hjl : j ∈ l
        · exact Or.inl hjl
        · exact Or.inr ((hJm j).2 ⟨List.mem_cons_of_mem _ hj, hjl⟩))).length_le
    rw [List.length_cons, m2, hw, List.length_append] at this
    omega

end IsGrid

/-- C98, thin: `finite_hypercubic` with a periodic axis of one cell and a periodic axis of three or
more cells raises a `ValueError`: each site would be its own neighbour, the table has no column for
that. -/
theorem C98_thin_fails (hd : 0 < d) (hdim : d ≤ 10 ^ 9) (env : Env ℝ) (s : Session)
    (atom : AtomSpec) (size : Fin d → ℕ) (hs : ∀ k, 0 < size k) (isInt : Bool) {axes : List ℕ}
    (hax : ∀ a ∈ axes, a < d) {k1 k3 : Fin d} (hk1 : k1.val ∈ axes) (h1 : size k1 = 1)
    (hk3 : k3.val ∈ axes) (h3 : 3 ≤ size k3) {p : PAxis}
    (hp : p = .axes axes ∨ p = .flag true ∧ axes = List.range d) :
    Preset.finiteHypercubic (d := d) env s (.size (List.ofFn fun k => (size k : ℝ)) isInt) 1 atom 1
      true (some p) = .error .value := by
  obtain ⟨w, L, A, D, table, e1, e2, h⟩ := exists_grid hd hdim env s atom size hs isInt
  obtain ⟨L', g⟩ := h.set_periodic_thin hd hs hax hk1 h1 hk3 h3
  have hset : L.setPeriodic env p = (L', .error .value) := by
    rcases hp with rfl | ⟨rfl, rfl⟩
    · exact g
    · rw [setPeriodic_true]; exact g
  unfold Preset.finiteHypercubic
  rw [e1]
  dsimp only
  rw [build_periodic e2, hset]

/-- `finite_hypercubic((1, 3), periodic=True)` raises a `ValueError`. -/
example (env : Env ℝ) (s : Session) :
    Preset.finiteHypercubic (d := 2) env s
      (.size (List.ofFn fun k : Fin 2 => ((![1, 3] k : ℕ) : ℝ)) true) 1 (.name "A") 1 true (some (.flag true)) = .error .value :=
  C98_thin_fails (d := 2) (by norm_num) (by norm_num) env s (.name "A") ![1, 3] (by decide) true
    (axes := [0, 1]) (by decide) (k1 := 0) (k3 := 1) (by decide) (by decide) (by decide)
    (by decide) (Or.inr ⟨rfl, by decide⟩)

/-! ## two cells along a periodic axis -/

namespace Lattice

/-- The first translation tried is the one along the first axis. -/
theorem periodicVectors_head {b : LatticeBasis d ℝ} {indices : List (Idx d)} {a0 a1 : ℕ}
    {rest : List ℕ} {primitive : Bool} {vecs : List (List ℕ × (Fin d → ℤ))}
    (h : periodicVectors b indices (a0 :: a1 :: rest) primitive = .ok vecs) :
    ∃ t vecs', periodicVector b indices [a0, a0] primitive = .ok t ∧
      vecs = ([a0, a0], t) :: vecs' := by
  unfold periodicVectors at h
  dsimp only at h
  rw [show pairsOf (a0 :: a1 :: rest) = (a0, a0) ::
    ((a1 :: rest).map (fun b => (a0, b)) ++ pairsOf (a1 :: rest)) from rfl, List.mapM_cons] at h
  cases hv : periodicVector b indices [a0, a0] primitive with
  | error e =>
    have hp : pairVectors b indices (a0 :: a1 :: rest).head? primitive (a0, a0) = .error e := by
      unfold pairVectors
      rw [hv]
    rw [hp] at h
    cases h
  | ok t =>
    have hp : pairVectors b indices (a0 :: a1 :: rest).head? primitive (a0, a0) =
        .ok [([a0, a0], t)] := by
      unfold pairVectors
      rw [hv]
      dsimp only
      rw [if_pos ⟨rfl, rfl⟩]
    rw [hp] at h
    cases hm : ((a1 :: rest).map (fun b => (a0, b)) ++ pairsOf (a1 :: rest)).mapM
        (pairVectors b indices (a0 :: a1 :: rest).head? primitive) with
    | error e =>
      rw [hm] at h
      cases h
    | ok l =>
      rw [hm] at h
      have h := Except.ok.inj h
      exact ⟨t, l.flatten, rfl, h.symm⟩

/-- If all new neighbours are the same site, its link carries the data of the first entry found. -/
theorem pFinal_first {ex : List ℕ} {l0 : LatticeData.PLink d ℝ} {ls : List (LatticeData.PLink d ℝ)}
    {j : ℕ} (hall : ∀ l ∈ l0 :: ls, l.nbr ∉ ex → l.nbr = j) {l : LatticeData.PLink d ℝ}
    (hl : l ∈ pFinal ex (l0 :: ls)) : l = { l0 with nbr := j } := by
  unfold pFinal at hl
  dsimp only at hl
  obtain ⟨j', hj', e⟩ := List.mem_filterMap.1 hl
  have hn : ∀ c ∈ ((l0 :: ls).map LatticeData.PLink.nbr).filter (fun j => decide (j ∉ ex)),
      c = j := by
    intro c hc
    obtain ⟨h1, h2⟩ := List.mem_filter.1 hc
    obtain ⟨l', hl', rfl⟩ := List.mem_map.1 h1
    exact hall l' hl' (by simpa using h2)
  generalize ((l0 :: ls).map LatticeData.PLink.nbr).filter (fun j => decide (j ∉ ex)) = N at *
  have hm : j' ∈ N := by
    unfold npUnique at hj'
    rw [List.mem_insertionSort, List.mem_dedup] at hj'
    exact hj'
  cases N with
  | nil => cases hm
  | cons c N =>
    have h1 := hn c (by simp)
    have h2 := hn j' hm
    subst h1
    subst h2
    rw [List.idxOf_cons_self, List.getElem?_cons_zero, Option.map_some] at e
    exact (Option.some.inj e).symm

end Lattice

/-- C98 with two cells along a periodic axis: `finite_hypercubic((2, 3), periodic=True)`.  The site
in cell (0, 2) becomes a periodic neighbour of the one in cell (0, 0) with the translation (2, 0), by
two cells along the *first* axis, instead of (0, 3): the entry for the neighbour across the first
axis (which is a regular neighbour too) is removed from the list of neighbours, but not from the
lists of translations read in parallel (lattice.py 626-636). -/
theorem C98_small_fails (env : Env ℝ) (s : Session) (atom : AtomSpec) :
    ∃ (L : Lattice 2 ℝ) (E : LatticeData 2 ℝ) (i j : ℕ),
      Preset.finiteHypercubic env s (.size (List.ofFn fun k : Fin 2 => ((![2, 3] k : ℕ) : ℝ)) true)
        1 atom 1 true (some (.flag true)) = .ok L ∧ L.data = some E ∧
      E.indices[i]? = some (Idx.mk ![0, 0] 0) ∧ E.indices[j]? = some (Idx.mk ![0, 2] 0) ∧
      Lattice.Per E i j ![2, 0] 1 ∧ ¬ WrapStep ![2, 3] [0, 1] ![0, 0] ![0, 2] ![2, 0] ∧
      WrapStep ![2, 3] [0, 1] ![0, 0] ![0, 2] ![0, 3] ∧ ¬ ∃ x, Lattice.Per E i j ![0, 3] x := by
  have hd : 0 < 2 := by norm_num
  have hs : ∀ k : Fin 2, 0 < (![2, 3] : Fin 2 → ℕ) k := by decide
  have hax : ∀ a ∈ [0, 1], a < 2 := by decide
  have h2 : ∀ k : Fin 2, k.val ∈ [0, 1] → 2 ≤ (![2, 3] : Fin 2 → ℕ) k := by decide
  obtain ⟨w, L, A, D, table, hw1, hw2, h⟩ := exists_grid hd (by norm_num) env s atom ![2, 3] hs true
  obtain ⟨vecs, hP, hv1, hv2⟩ := h.vecs hs hax
  obtain ⟨width, hr, -⟩ := h.rect
  obtain ⟨k0, maxDist0, hq⟩ := computeNeighbors_params h.analysis h.comp
  obtain ⟨D0, Q, L', E, hD0, hQ, h0, hset, hE, e1, e2, e3, hreg0, hnbrs, hPer, hkey, -⟩ :=
    Lattice.setPeriodic_core hd hP h.data h.shape hr (set_sorted h.set) (h.packed hd) ⟨_, _, hq⟩
      (h.free hd h2 hr hv2) (h.stored hs h2 hv2)
  obtain ⟨s1, s2, -⟩ := removePeriodic_sites hD0
  have hidx : ∀ n : Fin 2 → ℤ, (∀ k, 0 ≤ n k ∧ n k < (![2, 3] : Fin 2 → ℕ) k) → ∃ i : ℕ,
      D.indices[i]? = some (Idx.mk n 0) := fun n hn => h.exists_index hn
  obtain ⟨i, hi⟩ := hidx ![0, 0] (by decide)
  obtain ⟨j, hj⟩ := hidx ![0, 2] (by decide)
  obtain ⟨jB, hjB⟩ := hidx ![1, 0] (by decide)
  have hcell : ∀ {i : ℕ} {a : Idx 2}, D.indices[i]? = some a →
      ∀ k, 0 ≤ a.cell k ∧ a.cell k < (![2, 3] : Fin 2 → ℕ) k := fun ha => (h.index ha).2
  -- the first translation
  obtain ⟨t0, vecs', ht0, rfl⟩ := Lattice.periodicVectors_head hP.vecs
  have ht0' : t0 = Pi.single 0 2 := by
    obtain ⟨t, ht, hper⟩ := Lattice.periodicVector_spec (b := L.world.struct.basis)
      (primitive := true) (Or.inl rfl) (indices := D.indices) (by
        intro h0
        rw [h0] at hi
        cases hi) (S := [0, 0]) (by decide)
    rw [h.primitive] at ht0
    have : t = t0 := Except.ok.inj (ht.symm.trans ht0)
    subst this
    have h1 := hper.1 1 (by decide)
    obtain ⟨x, y, hx, hy, hxy, hz⟩ := hper.2 0 (by decide)
    obtain ⟨ix, hx⟩ := List.mem_iff_getElem?.1 hx
    obtain ⟨iy, hy⟩ := List.mem_iff_getElem?.1 hy
    have c1 := hcell hx 0
    have c2 := hcell hy 0
    have c3 := hz _ (List.mem_of_getElem? hi)
    have c4 := hz _ (List.mem_of_getElem? hjB)
    rw [Idx.cell_mk] at c3 c4
    simp at c1 c2 c3 c4
    funext k
    fin_cases k
    · simp; omega
    · simpa using h1
  -- the regular neighbours
  obtain ⟨ex, -, hex, -, hexm⟩ := h.regular hd hi
  rw [Idx.cell_mk] at hexm
  have hjBex : jB ∈ ex := by
    refine (hexm jB).2 ⟨_, hjB, ?_⟩
    rw [Idx.cell_mk]
    simp [Fin.sum_univ_two]
  have hjex : j ∉ ex := by
    intro hjex
    obtain ⟨b, hb, hsum⟩ := (hexm j).1 hjex
    rw [hj] at hb
    cases hb
    rw [Idx.cell_mk] at hsum
    simp [Fin.sum_univ_two] at hsum
  -- all links found lead to the two sites
  obtain ⟨k, maxDist, hq', hQ1, -, -⟩ := h0.result hQ
  obtain ⟨hat, hnd⟩ := Lattice.atSite_pCollect env L.world.struct A k maxDist D0.indices
    D0.positions (([0, 0], t0) :: vecs') fun v => (h0.table hd hq' v).2.1
  have hall : ∀ l ∈ (Lattice.pCollect env L.world.struct A k maxDist D0.indices D0.positions
      (([0, 0], t0) :: vecs')).atSite i, l.nbr ∉ ex → l.nbr = j := by
    intro l hl hne
    obtain ⟨⟨x, -, himg⟩, v, hv, -, ht⟩ := h0.collect hd hq' i l hl
    rw [s1, s2] at himg
    obtain ⟨a, b, ha, hb, m, hm, g1, g2⟩ := h.images hv2 v hv i l.nbr x (by
      rcases ht with ht | ht
      · left; rw [← ht]; exact himg
      · right; rw [← ht]; exact himg)
    rw [hi] at ha
    cases ha
    rw [Idx.cell_mk] at g1 g2
    fin_cases m
    · exfalso
      refine hne ?_
      have hb1 := g1 1 (by decide)
      have hb0 : b.cell 0 = 1 := by
        simp at g2
        omega
      have : l.nbr = jB := by
        refine h.index_inj hb hjB ?_
        rw [Idx.cell_mk]
        funext m
        fin_cases m
        · exact hb0
        · simpa using hb1
      rw [this]
      exact hjBex
    · have hb1 := g1 0 (by decide)
      have hb0 : b.cell 1 = 2 := by
        simp at g2
        omega
      refine h.index_inj hb hj ?_
      rw [Idx.cell_mk]
      funext m
      fin_cases m
      · simpa using hb1
      · exact hb0
  -- the first link found
  have hfirst : ∀ l ∈ (Lattice.pTable env L.world.struct A k maxDist D0.indices D0.positions
      t0).zipIdx.flatMap (fun r => Lattice.contrib D0.indices.length [0, 0] t0 r.2 r.1 i),
      l.nvec = t0 ∧ l.dist = ((1 : ℝ) : WithTop ℝ) := by
    intro l hl
    have hl' : l ∈ (Lattice.pCollect env L.world.struct A k maxDist D0.indices D0.positions
        (([0, 0], t0) :: vecs')).atSite i := by
      rw [hat, List.flatMap_cons]
      exact List.mem_append_left _ hl
    obtain ⟨⟨x, hx, himg⟩, -⟩ := h0.collect hd hq' i l hl'
    rw [s1, s2] at himg
    obtain ⟨rfl, a, b, ha, hb, hsum⟩ := h.image.1 himg
    refine ⟨?_, hx⟩
    obtain ⟨⟨row, site⟩, -, hl⟩ := List.mem_flatMap.1 hl
    rcases (Lattice.mem_contrib.1 hl).2 with ⟨-, hn, -⟩ | ⟨-, -, hn, -⟩
    · exact hn
    · exfalso
      rw [hi] at ha
      cases ha
      rw [hn, ht0'] at hsum
      have hw := (wrap_step (size := ![2, 3]) (k := 0) (t := -Pi.single 0 2) (Or.inr rfl)
        (hcell hi) (hcell hb)).1 hsum
      rcases hw.2 with ⟨g, -⟩ | ⟨-, -, g⟩
      · have := congrFun g 0
        simp at this
      · rw [Idx.cell_mk] at g
        simp at g
  have hpos : ∀ {i : ℕ} {n : Fin 2 → ℤ}, D.indices[i]? = some (Idx.mk n 0) →
      D.positions[i]? = some fun m => (n m : ℝ) := fun {i n} hi =>
    (h.site i _).2 ⟨_, hi, by rw [Idx.cell_mk]⟩
  obtain ⟨l0, X, hX⟩ : ∃ l0 X, (Lattice.pTable env L.world.struct A k maxDist D0.indices
      D0.positions t0).zipIdx.flatMap
        (fun r => Lattice.contrib D0.indices.length [0, 0] t0 r.2 r.1 i) = l0 :: X := by
    have hsum : ∑ m, |(Idx.mk ![0, 0] 0 : Idx 2).cell m + t0 m -
        (Idx.mk ![1, 0] 0 : Idx 2).cell m| = 1 := by
      rw [ht0', Idx.cell_mk, Idx.cell_mk]
      simp [Fin.sum_univ_two]
    have hcl := h.closer_le hs (k := 0) (t := t0) (Or.inl ht0') hi hjB hsum
    rw [Idx.cell_mk, Idx.cell_mk] at hcl
    obtain ⟨row, hrow, hmem⟩ := (h0.table hd hq' t0).2.2.2 (h.raw hd) i jB 1 _ _
      (by rw [s1, s2]; exact h.image.2 ⟨rfl, _, _, hi, hjB, hsum⟩)
      (by rw [s2]; exact hpos hi) (by rw [s2]; exact hpos hjB)
      (by rw [s2]; exact le_trans hcl (Nat.le_add_left 1 _))
    refine List.exists_cons_of_ne_nil (List.ne_nil_of_mem (a := ⟨jB, ((1 : ℝ) : WithTop ℝ), t0,
      [0, 0]⟩) (List.mem_flatMap.2 ⟨(row, i), List.mem_zipIdx_iff_getElem?.2 hrow, ?_⟩))
    exact Lattice.mem_contrib.2 ⟨rfl, Or.inl ⟨rfl, rfl, by
      rw [s1]; exact (List.getElem?_eq_some_iff.1 hjB).1, hmem⟩⟩
  have hl0 := hfirst l0 (by rw [hX]; simp)
  rw [hat, List.flatMap_cons, hX, List.cons_append] at hall
  -- the link stored for the second site
  have hlinks : ∃ ls, (i, ls) ∈ Q ∧ j ∈ ls.map LatticeData.PLink.nbr := by
    obtain ⟨v, hv, hvk⟩ := hv1 1 (by decide)
    have fin : (∃ ex, D0.getNeighbors i none none false = .ok ex ∧
        (j ∉ ex → ∃ ls, (i, ls) ∈ Q ∧ j ∈ ls.map LatticeData.PLink.nbr)) →
        ∃ ls, (i, ls) ∈ Q ∧ j ∈ ls.map LatticeData.PLink.nbr := by
      rintro ⟨ex', hex', g⟩
      have := (hreg0 i ex' hex').2
      rw [hex] at this
      cases this
      exact g hjex
    rcases hvk with hvk | hvk
    · have hsum : ∑ m, |(Idx.mk ![0, 0] 0 : Idx 2).cell m + v.2 m -
          (Idx.mk ![0, 2] 0 : Idx 2).cell m| = 1 := by
        rw [hvk, Idx.cell_mk, Idx.cell_mk]
        simp [Fin.sum_univ_two]
      have hcl := h.closer_le hs (k := 1) (t := v.2) (Or.inl hvk) hi hj hsum
      rw [Idx.cell_mk, Idx.cell_mk] at hcl
      exact fin (Lattice.C64_complete_partial hd h0 hQ (h.raw hd) hv
        (by rw [s1, s2]; exact h.image.2 ⟨rfl, _, _, hi, hj, hsum⟩)
        (by rw [s2]; exact hpos hi) (by rw [s2]; exact hpos hj)
        (by rw [s2]; exact le_trans hcl (Nat.le_add_left 1 _))).1
    · have hsum : ∑ m, |(Idx.mk ![0, 2] 0 : Idx 2).cell m + v.2 m -
          (Idx.mk ![0, 0] 0 : Idx 2).cell m| = 1 := by
        rw [hvk, Idx.cell_mk, Idx.cell_mk]
        simp [Fin.sum_univ_two]
      have hcl := h.closer_le hs (k := 1) (t := v.2) (Or.inr hvk) hj hi hsum
      rw [Idx.cell_mk, Idx.cell_mk] at hcl
      exact fin (Lattice.C64_complete_partial hd h0 hQ (h.raw hd) hv
        (by rw [s1, s2]; exact h.image.2 ⟨rfl, _, _, hj, hi, hsum⟩)
        (by rw [s2]; exact hpos hj) (by rw [s2]; exact hpos hi)
        (by rw [s2]; exact le_trans hcl (Nat.le_add_left 1 _))).2
  obtain ⟨ls, hls, hjls⟩ := hlinks
  obtain ⟨hQnd, -⟩ := h0.links hd hQ
  have hatQ := Lattice.PDict.atSite_of_mem hQnd hls
  obtain ⟨ms, ex', hm, hex', hls', -⟩ := hQ1 i ls hls
  have := (hreg0 i ex' hex').2
  rw [hex] at this
  cases this
  have hms := Lattice.PDict.atSite_of_mem hnd hm
  rw [hat, List.flatMap_cons, hX, List.cons_append] at hms
  rw [← hms] at hls'
  have hone : ∀ l ∈ ls, l = { l0 with nbr := j } := by
    intro l hl
    rw [hls'] at hl
    exact Lattice.pFinal_first hall hl
  have ht2 : t0 = ![2, 0] := by
    rw [ht0']
    funext m
    fin_cases m <;> rfl
  refine ⟨L', E, i, j, ?_, hE, by rw [e1]; exact hi, by rw [e1]; exact hj, ?_, ?_, ?_, ?_⟩
  · unfold Preset.finiteHypercubic
    rw [hw1]
    dsimp only
    rw [build_periodic hw2, setPeriodic_true, show List.range 2 = [0, 1] by decide, hset]
  · obtain ⟨l, hl, hlj⟩ := List.mem_map.1 hjls
    rw [hPer]
    refine ⟨l, by rw [hatQ]; exact hl, hlj, ?_, ?_⟩
    · rw [hone l hl, ← ht2]
      exact hl0.1
    · rw [hone l hl]
      exact hl0.2
  · rintro ⟨k, -, h1, ⟨h3, h4⟩ | ⟨h3, h4⟩⟩
    · fin_cases k
      · simp at h4
      · have := congrFun h3 0
        simp at this
    · fin_cases k <;> simp at h4
  · refine ⟨1, by decide, by decide, Or.inl ⟨?_, by decide, by decide⟩⟩
    funext m
    fin_cases m <;> rfl
  · rintro ⟨x, hx⟩
    obtain ⟨l, hl, -, hlt, -⟩ := (hPer _ _ _ _).1 hx
    rw [hatQ] at hl
    rw [hone l hl] at hlt
    have : l0.nvec = ![0, 3] := hlt
    rw [hl0.1, ht2] at this
    have := congrFun this 0
    simp at this

end Lattpy
