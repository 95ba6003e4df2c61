import Verif.Props.AppendTorus
import Verif.Props.SmallTorus
import Verif.Props.PeriodicRing

/-!
# The translations are symmetries of a periodic lattice (C124)

`set_periodic` stores the translated neighbours of the sites at the boundary.  If it does so
correctly, no site of a block of whole cells is distinguished: moving all sites by the same number
of cells, around the periodic axes, maps neighbours to neighbours.
-/

set_option autoImplicit false
set_option linter.unusedSectionVars false

namespace Lattpy

open Structure World Preset

variable {d : ℕ}

/-! ## specification -/

/-- The site `i'` is the copy of the site `i` in the cell which is `s` further, counted around the
periodic axes. -/
def MovedSite (D : LatticeData d ℝ) (size : Fin d → ℕ) (axes : List ℕ) (s : Fin d → ℤ) (i i' : ℕ) :
    Prop :=
  ∃ a a' : Idx d, D.indices[i]? = some a ∧ D.indices[i']? = some a' ∧ a'.alpha = a.alpha ∧
    ∀ k, (size k : ℤ) ∣ a'.cell k - (a.cell k + s k) ∧
      (k.val ∉ axes → a'.cell k = a.cell k + s k)

/-- Moving all sites along the periodic axes permutes the sites and maps the neighbours of every
site to the neighbours of the moved site; in particular the numbers of neighbours are the same. -/
def Homogeneous (D : LatticeData d ℝ) (size : Fin d → ℕ) (axes : List ℕ) (L : Lattice d ℝ) : Prop :=
  ∀ s : Fin d → ℤ, (∀ k : Fin d, k.val ∉ axes → s k = 0) →
    ∃ σ : Equiv.Perm (Fin D.numSites),
      (∀ i i' : Fin D.numSites, MovedSite D size axes s i i' ↔ i' = σ i) ∧
      ∀ i : Fin D.numSites, ∃ l l', L.neighbors i none false = .ok l ∧
        L.neighbors (σ i) none false = .ok l' ∧ l.length = l'.length ∧
        (∀ j ∈ l, j < D.numSites) ∧ (∀ j ∈ l', j < D.numSites) ∧
        ∀ j : Fin D.numSites, j.val ∈ l ↔ (σ j).val ∈ l'

/-! ## lemmas -/

theorem length_eq_card {n : ℕ} {l : List ℕ} (hl : l.Nodup) (hn : ∀ j ∈ l, j < n) :
    l.length = (Finset.univ.filter fun j : Fin n => j.val ∈ l).card := by
  rw [← List.toFinset_card_of_nodup hl, ← Finset.card_map Fin.valEmbedding]
  congr 1
  ext j
  simp only [List.mem_toFinset, Finset.mem_map, Finset.mem_filter, Finset.mem_univ, true_and,
    Fin.valEmbedding_apply]
  exact ⟨fun h => ⟨⟨j, hn j h⟩, h, rfl⟩, by rintro ⟨k, hk, rfl⟩; exact hk⟩

theorem IsShift.add {size : Fin d → ℕ} {axes : List ℕ} {t u : Fin d → ℤ}
    (h : IsShift size axes t) (h' : IsShift size axes u) : IsShift size axes (t + u) := fun k =>
  ⟨(h k).1.add (h' k).1, fun hk => by rw [Pi.add_apply, (h k).2 hk, (h' k).2 hk, add_zero]⟩

theorem moved_shift {D : LatticeData d ℝ} {size : Fin d → ℕ} {axes : List ℕ} {s : Fin d → ℤ}
    {i i' : ℕ} {a a' : Idx d} (h : MovedSite D size axes s i i') (ha : D.indices[i]? = some a)
    (ha' : D.indices[i']? = some a') :
    a'.alpha = a.alpha ∧ IsShift size axes (fun k => a'.cell k - (a.cell k + s k)) := by
  obtain ⟨b, b', h1, h2, h3, h4⟩ := h
  cases h1.symm.trans ha
  cases h2.symm.trans ha'
  exact ⟨h3, fun k => ⟨(h4 k).1, fun hk => sub_eq_zero.2 ((h4 k).2 hk)⟩⟩

/-- The sites are the atoms `0, …, n - 1` of all cells of a block. -/
def CellBlock (n : ℤ) (D : LatticeData d ℝ) (lo : Fin d → ℤ) (size : Fin d → ℕ) : Prop :=
  ∀ x : Idx d, x ∈ D.indices ↔
    (0 ≤ x.alpha ∧ x.alpha < n) ∧ ∀ k, lo k ≤ x.cell k ∧ x.cell k < lo k + size k

/-- Two cells of the block which differ by a shift are the same. -/
theorem shift_unique {n : ℤ} {D : LatticeData d ℝ} {lo : Fin d → ℤ} {size : Fin d → ℕ}
    (hw : CellBlock n D lo size) {axes : List ℕ} {a b : Idx d} (ha : a ∈ D.indices)
    (hb : b ∈ D.indices) (hα : a.alpha = b.alpha)
    (h : IsShift size axes (fun k => a.cell k - b.cell k)) : a = b := by
  rw [← Idx.mk_cell_alpha a, ← Idx.mk_cell_alpha b, hα]
  congr 1
  funext k
  have h1 := ((hw a).1 ha).2 k
  have h2 := ((hw b).1 hb).2 k
  have h0 : (size k : ℤ) ∣ a.cell k - b.cell k := (h k).1
  have h3 := Int.eq_zero_of_abs_lt_dvd h0 (by rw [abs_lt]; constructor <;> omega)
  omega

/-- The moved site exists. -/
theorem exists_moved {n : ℤ} {D : LatticeData d ℝ} {lo : Fin d → ℤ} {size : Fin d → ℕ}
    (hw : CellBlock n D lo size) {axes : List ℕ} {s : Fin d → ℤ}
    (hs : ∀ k : Fin d, k.val ∉ axes → s k = 0) (i : Fin D.numSites) :
    ∃ i' : Fin D.numSites, MovedSite D size axes s i i' := by
  have hi : i.val < D.indices.length := i.isLt
  have ha := (hw D.indices[i.val]).1 (List.getElem_mem hi)
  have hget := List.getElem?_eq_getElem hi
  obtain ⟨a, e⟩ : ∃ a : Idx d, a = D.indices[i.val] := ⟨_, rfl⟩
  rw [← e] at ha hget
  let c : Fin d → ℤ := fun k => if k.val ∈ axes then lo k + (a.cell k + s k - lo k) % size k
    else a.cell k
  have hc : Idx.mk c a.alpha ∈ D.indices := by
    rw [hw, Idx.alpha_mk, Idx.cell_mk]
    refine ⟨ha.1, fun k => ?_⟩
    have hk := ha.2 k
    have hpos : (0 : ℤ) < size k := by omega
    show lo k ≤ (if _ then _ else _) ∧ (if _ then _ else _) < _
    split
    · have h1 := Int.emod_nonneg (a.cell k + s k - lo k) hpos.ne'
      have h2 := Int.emod_lt_of_pos (a.cell k + s k - lo k) hpos
      exact ⟨by linarith, by linarith⟩
    · exact hk
  obtain ⟨i', hi', e⟩ := List.getElem_of_mem hc
  refine ⟨⟨i', hi'⟩, a, Idx.mk c a.alpha, hget, ?_, Idx.alpha_mk _ _, ?_⟩
  · rw [← e]
    exact List.getElem?_eq_getElem hi'
  · intro k
    rw [Idx.cell_mk]
    by_cases hk : k.val ∈ axes
    · refine ⟨?_, fun h => absurd hk h⟩
      show (size k : ℤ) ∣ (if _ then _ else _) - _
      rw [if_pos hk]
      have := Int.emod_add_mul_ediv (a.cell k + s k - lo k) (size k)
      exact ⟨-((a.cell k + s k - lo k) / size k), by linarith⟩
    · have e : c k = a.cell k := if_neg hk
      rw [e, hs k hk]
      exact ⟨by simp, fun _ => by simp⟩

/-- The images of a pair of sites and of the moved pair. -/
theorem image_moved {S : Structure d ℝ} {D : LatticeData d ℝ}
    (hsites : List.Forall₂ (IsSitePos S) D.indices D.positions) {size : Fin d → ℕ} {axes : List ℕ}
    {r : ℝ} {s : Fin d → ℤ} {i j i' j' : ℕ} (hi : MovedSite D size axes s i i')
    (hj : MovedSite D size axes s j j')
    (h : ∃ t, IsShift size axes t ∧ ImageAt S D r i j t) :
    ∃ t, IsShift size axes t ∧ ImageAt S D r i' j' t := by
  obtain ⟨t, ht, p, q, hp, hq, hr⟩ := h
  obtain ⟨a, a', ha, ha', -⟩ := id hi
  obtain ⟨b, b', hb, hb', -⟩ := id hj
  obtain ⟨hα, hu⟩ := moved_shift hi ha ha'
  obtain ⟨hβ, hv⟩ := moved_shift hj hb hb'
  have hpos : ∀ {n : ℕ} {x : Idx d}, D.indices[n]? = some x →
      ∃ z, D.positions[n]? = some z ∧ IsSitePos S x z := by
    intro n x hx
    have hn := (List.getElem?_eq_some_iff.1 hx).1
    have hn' : n < D.positions.length := hsites.length_eq ▸ hn
    refine ⟨_, List.getElem?_eq_getElem hn', ?_⟩
    have := hsites.get hn hn'
    simp only [List.get_eq_getElem] at this
    rwa [(List.getElem?_eq_some_iff.1 hx).2] at this
  obtain ⟨_, e1, α, ra, f1, f2, rfl⟩ := hpos ha
  obtain ⟨_, e2, β, rb, g1, g2, rfl⟩ := hpos hb
  obtain ⟨_, e1', α', ra', f1', f2', rfl⟩ := hpos ha'
  obtain ⟨_, e2', β', rb', g1', g2', rfl⟩ := hpos hb'
  obtain rfl : α' = α := by omega
  obtain rfl : β' = β := by omega
  cases f2.symm.trans f2'
  cases g2.symm.trans g2'
  cases e1.symm.trans hp
  cases e2.symm.trans hq
  refine ⟨t + ((fun k => b'.cell k - (b.cell k + s k)) + -(fun k => a'.cell k - (a.cell k + s k))),
    ht.add (hv.add hu.neg), _, _, e1', e2', ?_⟩
  rw [← hr]
  congr 1
  refine Finset.sum_congr rfl fun k _ => ?_
  congr 1
  simp only [Pi.add_apply, Pi.neg_apply, Int.cast_add, Int.cast_neg, Int.cast_sub, add_mul,
    neg_mul, sub_mul, Finset.sum_add_distrib, Finset.sum_neg_distrib, Finset.sum_sub_distrib]
  ring

theorem moved_neg {D : LatticeData d ℝ} {size : Fin d → ℕ} {axes : List ℕ} {s : Fin d → ℤ}
    {i i' : ℕ} (h : MovedSite D size axes s i i') : MovedSite D size axes (-s) i' i := by
  obtain ⟨a, a', h1, h2, h3, h4⟩ := h
  refine ⟨a', a, h2, h1, h3.symm, fun k => ⟨?_, fun hk => ?_⟩⟩
  · have := (dvd_neg).2 (h4 k).1
    rw [Pi.neg_apply]
    rwa [show -(a'.cell k - (a.cell k + s k)) = a.cell k - (a'.cell k + -s k) by ring] at this
  · have := (h4 k).2 hk
    rw [Pi.neg_apply]
    omega

/-- If the neighbours are given by a relation which is compatible with moving the sites, the lattice
is homogeneous. -/
theorem homogeneous_of {n : ℤ} {D : LatticeData d ℝ} (hnd : D.indices.Nodup)
    {lo : Fin d → ℤ} {size : Fin d → ℕ} (hw : CellBlock n D lo size) {axes : List ℕ}
    {L : Lattice d ℝ} {R : ℕ → ℕ → Prop}
    (hnb : ∀ i < D.numSites, ∃ l, L.neighbors i none false = .ok l ∧ l.Nodup ∧ ∀ j, j ∈ l ↔ R i j)
    (hlt : ∀ {i j : ℕ}, R i j → j < D.numSites)
    (hR : ∀ {s : Fin d → ℤ} {i j i' j' : ℕ}, MovedSite D size axes s i i' →
      MovedSite D size axes s j j' → R i j → R i' j') : Homogeneous D size axes L := by
  intro s hs
  choose f hf using exists_moved hw hs
  have hget : ∀ i : Fin D.numSites, D.indices[i.val]? = some D.indices[i.val] := fun i =>
    List.getElem?_eq_getElem i.isLt
  have hinj : Function.Injective f := by
    intro i j hij
    have h1 := moved_shift (hf i) (hget i) (hget (f i))
    have h2 := hf j
    rw [← hij] at h2
    have h2 := moved_shift h2 (hget j) (hget (f i))
    have h3 : D.indices[i.val] = D.indices[j.val] := by
      refine shift_unique hw (List.getElem_mem i.isLt) (List.getElem_mem j.isLt)
        (h1.1.symm.trans h2.1) (axes := axes) ?_
      have := h2.2.add h1.2.neg
      convert this using 1
      funext k
      simp only [Pi.add_apply, Pi.neg_apply]
      ring
    exact Fin.ext ((List.Nodup.getElem_inj_iff hnd).1 h3)
  refine ⟨Equiv.ofBijective f (Finite.injective_iff_bijective.1 hinj), fun i i' => ⟨fun h => ?_, ?_⟩,
    fun i => ?_⟩
  · rw [Equiv.ofBijective_apply]
    have h1 := moved_shift (hf i) (hget i) (hget (f i))
    have h2 := moved_shift h (hget i) (hget i')
    have h3 : D.indices[i'.val] = D.indices[(f i).val] := by
      refine shift_unique hw (List.getElem_mem i'.isLt) (List.getElem_mem (f i).isLt)
        (h2.1.trans h1.1.symm) (axes := axes) ?_
      have := h2.2.add h1.2.neg
      convert this using 1
      funext k
      simp only [Pi.add_apply, Pi.neg_apply]
      ring
    exact Fin.ext ((List.Nodup.getElem_inj_iff hnd).1 h3)
  · rintro rfl
    exact hf i
  · obtain ⟨l, h1, h2, h3⟩ := hnb i i.isLt
    obtain ⟨l', h1', h2', h3'⟩ := hnb (f i) (f i).isLt
    have hn : ∀ j ∈ l, j < D.numSites := fun j hj => hlt ((h3 j).1 hj)
    have hn' : ∀ j ∈ l', j < D.numSites := fun j hj => hlt ((h3' j).1 hj)
    have hiff : ∀ j : Fin D.numSites, j.val ∈ l ↔ (f j).val ∈ l' := fun j => by
      rw [h3, h3']
      exact ⟨hR (hf i) (hf j), hR (moved_neg (hf i)) (moved_neg (hf j))⟩
    refine ⟨l, l', h1, h1', ?_, hn, hn', hiff⟩
    rw [length_eq_card h2 hn, length_eq_card h2' hn']
    refine Finset.card_equiv (Equiv.ofBijective f (Finite.injective_iff_bijective.1 hinj))
      fun j => ?_
    rw [Finset.mem_filter, Finset.mem_filter, Equiv.ofBijective_apply, hiff j]
    simp

theorem torus_homogeneous {S : Structure d ℝ} {D : LatticeData d ℝ}
    (hsites : List.Forall₂ (IsSitePos S) D.indices D.positions) (hnd : D.indices.Nodup)
    {lo : Fin d → ℤ} {size : Fin d → ℕ} (hw : WholeCells S D lo size) {axes : List ℕ} {r : ℝ}
    {L : Lattice d ℝ} (hT : IsTorus S D size axes r L) : Homogeneous D size axes L := by
  obtain ⟨E, -, -, -, hnb, -⟩ := hT
  refine homogeneous_of (n := S.numBase) hnd hw hnb ?_ (image_moved hsites)
  rintro n j ⟨t, -, p, q, -, hq, -⟩
  have := (List.getElem?_eq_some_iff.1 hq).1
  rw [← hsites.length_eq] at this
  exact this

/-- A step on the torus, for cells of the box. -/
theorem torusStep_moved {size : Fin d → ℕ} {axes : List ℕ} {s x y x' y' : Fin d → ℤ}
    (hx' : ∀ k, 0 ≤ x' k ∧ x' k < size k) (hy' : ∀ k, 0 ≤ y' k ∧ y' k < size k)
    (hx : IsShift size axes (fun k => x' k - (x k + s k)))
    (hy : IsShift size axes (fun k => y' k - (y k + s k))) (h : TorusStep size axes x y) :
    TorusStep size axes x' y' := by
  obtain ⟨k, h1, h2⟩ := h
  have hd : ∀ m, (size m : ℤ) ∣ (y' m - x' m) - (y m - x m) := fun m => by
    have := ((hy m).1).sub (hx m).1
    dsimp only at this
    rwa [show y' m - (y m + s m) - (x' m - (x m + s m)) = y' m - x' m - (y m - x m) by ring] at this
  refine ⟨k, fun m hm => ?_, ?_⟩
  · have e := hd m
    rw [h1 m hm, sub_self, sub_zero] at e
    have := Int.eq_zero_of_abs_lt_dvd e (by
      have := hx' m; have := hy' m
      rw [abs_lt]; constructor <;> omega)
    omega
  · by_cases hk : k.val ∈ axes
    · have hor : (size k : ℤ) ∣ (y' k - x' k) - 1 ∨ (size k : ℤ) ∣ (y' k - x' k) + 1 := by
        have e := hd k
        rcases h2 with h2 | h2 | ⟨-, ⟨h2, h3⟩ | ⟨h2, h3⟩⟩
        · left; rwa [show y k - x k = 1 by omega] at e
        · right; rwa [show y k - x k = -1 by omega, sub_neg_eq_add] at e
        · right
          rw [show y' k - x' k - (y k - x k) = y' k - x' k + 1 - size k by omega] at e
          exact (Int.dvd_iff_dvd_of_dvd_sub (by simp)).1 e
        · left
          rw [show y' k - x' k - (y k - x k) = y' k - x' k - 1 + size k by omega] at e
          exact (dvd_add_left (dvd_refl _)).1 e
      have b1 := hx' k
      have b2 := hy' k
      rcases hor with ⟨q, hq⟩ | ⟨q, hq⟩
      · have hq1 : -1 ≤ q := by
          by_contra hc
          have : (size k : ℤ) * q ≤ size k * (-2) :=
            mul_le_mul_of_nonneg_left (by omega) (by omega)
          omega
        have hq2 : q ≤ 0 := by
          by_contra hc
          have : (size k : ℤ) * 1 ≤ size k * q :=
            mul_le_mul_of_nonneg_left (by omega) (by omega)
          omega
        obtain rfl | rfl : q = 0 ∨ q = -1 := by omega
        · left; omega
        · right; right; exact ⟨hk, Or.inr ⟨by omega, by omega⟩⟩
      · have hq1 : 0 ≤ q := by
          by_contra hc
          have : (size k : ℤ) * q ≤ size k * (-1) :=
            mul_le_mul_of_nonneg_left (by omega) (by omega)
          omega
        have hq2 : q ≤ 1 := by
          by_contra hc
          have : (size k : ℤ) * 2 ≤ size k * q :=
            mul_le_mul_of_nonneg_left (by omega) (by omega)
          omega
        obtain rfl | rfl : q = 0 ∨ q = 1 := by omega
        · right; left; omega
        · right; right; exact ⟨hk, Or.inl ⟨by omega, by omega⟩⟩
    · have e1 : x' k - (x k + s k) = 0 := (hx k).2 hk
      have e2 : y' k - (y k + s k) = 0 := (hy k).2 hk
      rcases h2 with h2 | h2 | h2
      · left; omega
      · right; left; omega
      · exact absurd h2.1 hk

/-! ## C124 -/

/-- C124: a built block of whole cells, made periodic along any axes with at least three cells, has
all translations along these axes as symmetries. -/
theorem C124_torus_partial (hd : 0 < d) {env : Env ℝ} {L L' : Lattice d ℝ}
    (hr : Reachable env L.world) {r : ℝ} {N : ℕ → Set (Idx d)} (h : NearestOnly L.world r N)
    (hst : NearSteps N) {a : BuildArgs d ℝ} (hm : a.minNeighbors = none) (hp : a.periodic = none)
    (hb : a.bits = none) (hok : L.build env a = (L', .ok ()))
    (hprim : a.primitive = true ∨ Orthogonal L.struct.basis) {D : LatticeData d ℝ}
    (hD : L'.data = some D) {lo : Fin d → ℤ} {size : Fin d → ℕ}
    (hw : WholeCells L.struct D lo size) {axes : List ℕ} (hax : ∀ k ∈ axes, k < d)
    (h3 : ∀ k : Fin d, k.val ∈ axes → 3 ≤ size k) :
    ∃ L'', L'.setPeriodic env (.axes axes) = (L'', .ok ()) ∧ Homogeneous D size axes L'' := by
  obtain ⟨L'', h1, h2, -⟩ := C111_torus_partial hd hr h hst hm hp hb hok hprim hD hw hax h3
  obtain ⟨hworld, -, A, table, hT⟩ := exists_isTiled hd hr h hst hm hp hb hok hD hw
  have hS : L'.struct = L.struct := congrArg World.struct hworld
  have hsites := (hT.tiling hd).sites
  rw [hS] at hsites
  exact ⟨L'', h1, torus_homogeneous hsites (hT.tiling hd).nodup hw h2⟩

/-- C124 for lattices joined by any number of `append`s: the joints are not distinguished either. -/
theorem C124_joined_partial (hd : 0 < d) {env : Env ℝ} {L M : Lattice d ℝ}
    (hr : Reachable env L.world) {r : ℝ} {N : ℕ → Set (Idx d)} (h : NearestOnly L.world r N)
    (hst : NearSteps N) (hround : r ≤ npRound 6 r) {lo : Fin d → ℤ} {size : Fin d → ℕ}
    (hM : Joined env L M lo size) {axes : List ℕ} (hax : ∀ k ∈ axes, k < d)
    (h3 : ∀ k : Fin d, k.val ∈ axes → 3 ≤ size k) :
    ∃ E M', M.data = some E ∧ M.setPeriodic env (.axes axes) = (M', .ok ()) ∧
      Homogeneous E size axes M' := by
  obtain ⟨E, M', h1, h2, h3, h4, -⟩ := C111_joined_partial hd hr h hst hround hM hax h3
  obtain ⟨E', hE⟩ := hM.data hd hr h hst hround
  obtain ⟨A, hT⟩ := hE.tiling
  have hS : M.struct = L.struct := congrArg World.struct hE.world
  have hsites := hT.sites
  rw [hS] at hsites
  cases h1.symm.trans hT.data
  exact ⟨E, M', h1, h3, torus_homogeneous hsites hT.nodup h2 h4⟩

/-- C124 for `finite_hypercubic`: two or more cells along the periodic axes are enough. -/
theorem C124_hypercubic_partial (hd : 0 < d) (hdim : d ≤ 10 ^ 9) (env : Env ℝ) (s : Session)
    (atom : AtomSpec) (size : Fin d → ℕ) (hs : ∀ k, 0 < size k) (isInt : Bool) {axes : List ℕ}
    (hax : ∀ a ∈ axes, a < d) (h2 : ∀ k : Fin d, k.val ∈ axes → 2 ≤ size k) {p : PAxis}
    (hp : p = .axes axes ∨ p = .flag true ∧ axes = List.range d) :
    ∃ L D, Preset.finiteHypercubic env s (.size (List.ofFn fun k => (size k : ℝ)) isInt) 1 atom 1
      true (some p) = .ok L ∧ L.data = some D ∧ D.numSites = ∏ k, size k ∧
      Homogeneous D size axes L := by
  obtain ⟨L, D, h1, h2, -, -, h3, hnd, hw, -, hnb⟩ :=
    C98_neighbors_partial hd hdim env s atom size hs isInt hax h2 hp
  have hw' : CellBlock 1 D 0 size := by
    intro x
    rw [hw]
    refine and_congr ⟨fun h => by omega, fun h => by omega⟩ (forall_congr' fun k => ?_)
    rw [Pi.zero_apply, zero_add]
  refine ⟨L, D, h1, h2, h3, homogeneous_of (n := 1) hnd hw'
    (R := fun i j => ∃ a b : Idx d, D.indices[i]? = some a ∧ D.indices[j]? = some b ∧
      TorusStep size axes a.cell b.cell) ?_ ?_ ?_⟩
  · intro i hi
    have hi' : i < D.indices.length := hi
    obtain ⟨l, e1, e2, e3⟩ := hnb i _ (List.getElem?_eq_getElem hi')
    refine ⟨l, e1, e2, fun j => (e3 j).trans ⟨fun ⟨b, g1, g2⟩ => ⟨_, b,
      List.getElem?_eq_getElem hi', g1, g2⟩, ?_⟩⟩
    rintro ⟨a, b, g1, g2, g3⟩
    cases g1.symm.trans (List.getElem?_eq_getElem hi')
    exact ⟨b, g2, g3⟩
  · rintro i j ⟨a, b, -, g2, -⟩
    exact (List.getElem?_eq_some_iff.1 g2).1
  · rintro s i j i' j' hi hj ⟨a, b, g1, g2, g3⟩
    obtain ⟨x, a', k1, k2, -⟩ := id hi
    obtain ⟨y, b', k3, k4, -⟩ := id hj
    exact ⟨a', b', k2, k4, torusStep_moved ((hw a').1 (List.mem_of_getElem? k2)).2
      ((hw b').1 (List.mem_of_getElem? k4)).2 (moved_shift hi g1 k2).2 (moved_shift hj g2 k4).2 g3⟩

/-- C124 for a chain with any number `nb` of neighbour shells and more than `2 nb` sites. -/
theorem C124_ring_partial (env : Env ℝ) {nb N : ℕ} (hN : 2 * nb ≤ N) (hnb : 0 < nb) {w : World 1 ℝ}
    {A : Analysis 1 ℝ} {L : Lattice 1 ℝ} {D : LatticeData 1 ℝ}
    {table : List (List (ℕ × WithTop ℝ))}
    (h : IsBuiltChain env nb N (fun _ => true) w A L D table) :
    ∃ L', L.setPeriodic env (.axes [0]) = (L', .ok ()) ∧
      Homogeneous D (fun _ => N + 1) [0] L' := by
  obtain ⟨L', E, h1, -, -, -, -, hnb, -⟩ := C64_ring_partial env hN hnb h
  have hn : D.numSites = N + 1 := by
    show D.indices.length = _
    rw [h.indices, List.length_map, chainCells_true, List.length_range]
  have hsite : ∀ {i : ℕ} {x : Idx 1}, D.indices[i]? = some x →
      i < N + 1 ∧ x = Idx.mk (fun _ => (i : ℤ)) 0 := fun {i x} hx => (h.ring_site.2 x).1 hx
  have hw : CellBlock 1 D 0 (fun _ => N + 1) := by
    intro x
    rw [List.mem_iff_getElem?]
    constructor
    · rintro ⟨i, hi⟩
      obtain ⟨hi', rfl⟩ := hsite hi
      rw [Idx.alpha_mk, Idx.cell_mk]
      refine ⟨by norm_num, fun k => ?_⟩
      simp only [Pi.zero_apply]
      omega
    · rintro ⟨g1, g2⟩
      have g := g2 0
      rw [Pi.zero_apply, zero_add] at g
      dsimp only at g
      refine ⟨(Idx.cell x 0).toNat, (h.ring_site.2 x).2 ⟨by omega, ?_⟩⟩
      rw [← Idx.mk_cell_alpha x, Idx.cell_mk, show Idx.alpha x = 0 by omega]
      congr 1
      funext k
      rw [Fin.eq_zero k]
      omega
  have hnd : D.indices.Nodup := by
    rw [List.nodup_iff_getElem?_ne_getElem?]
    intro i j hij hj he
    have hi := hsite (List.getElem?_eq_getElem (lt_trans hij hj))
    have hj' := hsite (List.getElem?_eq_getElem hj)
    have e : D.indices[i] = D.indices[j] := by
      rw [List.getElem?_eq_getElem (lt_trans hij hj), List.getElem?_eq_getElem hj] at he
      exact Option.some.inj he
    rw [hi.2, hj'.2, Idx.mk_inj] at e
    have := congrFun e.1 0
    omega
  refine ⟨L', h1, homogeneous_of (n := 1) hnd hw (R := fun i j => i < N + 1 ∧ j < N + 1 ∧
    ∃ m : ℕ, 0 < m ∧ m ≤ nb ∧ (((N + 1 : ℕ) : ℤ) ∣ (j : ℤ) - i - m ∨
      ((N + 1 : ℕ) : ℤ) ∣ (i : ℤ) - j - m)) ?_ ?_ ?_⟩
  · intro i hi
    rw [hn] at hi
    obtain ⟨l, e1, e2, -, e3⟩ := hnb i hi
    refine ⟨l, e1, e2, fun j => (e3 j).trans ?_⟩
    have key : ∀ {a b m : ℕ}, a < N + 1 →
        (a = (b + m) % (N + 1) ↔ ((N + 1 : ℕ) : ℤ) ∣ (a : ℤ) - b - m) := by
      intro a b m ha
      rw [sub_sub, ← Nat.cast_add b m, ← Nat.modEq_iff_dvd]
      unfold Nat.ModEq
      rw [Nat.mod_eq_of_lt ha, eq_comm]
    constructor
    · rintro ⟨g1, m, m0, m1, g2⟩
      exact ⟨hi, g1, m, m0, m1, g2.imp (key g1).1 (key hi).1⟩
    · rintro ⟨-, g1, m, m0, m1, g2⟩
      exact ⟨g1, m, m0, m1, g2.imp (key g1).2 (key hi).2⟩
  · rintro i j ⟨-, g, -⟩
    rw [hn]
    exact g
  · rintro s i j i' j' hi hj ⟨-, -, m, m0, m1, g⟩
    obtain ⟨x, x', k1, k2, -⟩ := id hi
    obtain ⟨y, y', k3, k4, -⟩ := id hj
    have d1 := ((moved_shift hi k1 k2).2 0).1
    have d2 := ((moved_shift hj k3 k4).2 0).1
    obtain ⟨-, rfl⟩ := hsite k1
    obtain ⟨c1, rfl⟩ := hsite k2
    obtain ⟨-, rfl⟩ := hsite k3
    obtain ⟨c2, rfl⟩ := hsite k4
    simp only [Idx.cell_mk] at d1 d2
    refine ⟨c1, c2, m, m0, m1, g.imp (fun g => ?_) fun g => ?_⟩
    · have := (g.add d2).sub d1
      rwa [show (j : ℤ) - i - m + (j' - (j + s 0)) - (i' - (i + s 0)) = j' - i' - m by ring] at this
    · have := (g.add d1).sub d2
      rwa [show (i : ℤ) - j - m + (i' - (i + s 0)) - (j' - (j + s 0)) = i' - j' - m by ring] at this

/-- A ring of eight sites with three neighbour shells. -/
example (env : Env ℝ) : ∃ w A L D table L', IsBuiltChain env 3 7 (fun _ => true) w A L D table ∧
    L.setPeriodic env (.axes [0]) = (L', .ok ()) ∧ Homogeneous D (fun _ => 8) [0] L' := by
  obtain ⟨w, A, L, D, table, h⟩ := exists_isBuiltChain env (nb := 3) (by norm_num) (by norm_num) 7
    (fun _ => true) (by rw [chainCells_true]; norm_num)
  obtain ⟨L', h1, h2⟩ := C124_ring_partial env (by norm_num) (by norm_num) h
  exact ⟨w, A, L, D, table, L', h, h1, h2⟩

/-- The periodic 2 × 5 square lattice. -/
example (env : Env ℝ) (s : Session) : ∃ L D, Preset.finiteHypercubic env s
    (.size (List.ofFn fun k => ((![2, 5] k : ℕ) : ℝ)) true) 1 .none 1 true (some (.flag true)) = .ok L ∧
    L.data = some D ∧ D.numSites = 10 ∧ Homogeneous D ![2, 5] [0, 1] L :=
  C124_hypercubic_partial two_pos (by norm_num) env s .none ![2, 5]
    (by intro k; fin_cases k <;> simp) true (by simp) (by intro k; fin_cases k <;> simp)
    (Or.inr ⟨rfl, rfl⟩)

/-- C124 for `graphene`. -/
theorem C124_graphene_partial (env : Env ℝ) (s : Session) (a : ℝ) (ha : 1 ≤ a)
    (m : Fin 2 → ℕ) (σ : Vec 2 ℝ) (isInt : Bool) (hm : ∀ k, 3 ≤ m k)
    (hσ : ∀ k, (m k : ℝ) - 2 / 3 ≤ σ k ∧ σ k < m k - 1 / 1000 ∧ 3 * σ k ≤ 2 * (a * (σ 0 + σ 1)))
    (axes : List ℕ) (hax : ∀ k ∈ axes, k < 2) :
    ∃ w L D L', graphene env s a = .ok w ∧
      (Lattice.ofWorld w).build env (primitiveBox σ isInt) = (L, .ok ()) ∧ L.data = some D ∧
      WholeCells w.struct D 0 m ∧
      L.setPeriodic env (.axes axes) = (L', .ok ()) ∧ Homogeneous D m axes L' := by
  obtain ⟨w, h1, hr, hN, -, -, hB⟩ := graphene_block env s a ha
  obtain ⟨L, D, b, c, hw⟩ := hB m σ isInt hm hσ
  obtain ⟨L', h2, h3⟩ := C124_torus_partial (L := Lattice.ofWorld w) two_pos hr hN
    (nearSteps_planar le_rfl honeySets_steps) rfl rfl rfl b (Or.inl rfl) c hw hax fun k _ => hm k
  exact ⟨w, L, D, L', h1, b, c, hw, h2, h3⟩

/-- A periodic graphene sheet of 10 × 18 cells, periodic in one direction. -/
example (env : Env ℝ) (s : Session) : ∃ w L D L', graphene env s 1 = .ok w ∧
    (Lattice.ofWorld w).build env (primitiveBox ![19 / 2, 35 / 2] false) = (L, .ok ()) ∧
    L.data = some D ∧ WholeCells w.struct D 0 ![10, 18] ∧
    L.setPeriodic env (.axes [1]) = (L', .ok ()) ∧ Homogeneous D ![10, 18] [1] L' :=
  C124_graphene_partial env s 1 le_rfl ![10, 18] ![19 / 2, 35 / 2] false
    (by intro k; fin_cases k <;> simp) (by intro k; fin_cases k <;> norm_num) [1] (by simp)

end Lattpy
