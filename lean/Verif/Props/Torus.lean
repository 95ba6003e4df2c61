import Verif.Props.PresetBuild
import Verif.Props.FiniteHypercubic

/-!
# Lattices of whole cells with periodic axes are tori (C111)
-/

set_option autoImplicit false
set_option linter.unusedSectionVars false

namespace Lattpy

open Structure World Preset

variable {d : ℕ}

/-! ## spec -/

/-- The sites are all atoms of whole cells: in direction `k` of the `size k` cells from `lo k` on. -/
def WholeCells (S : Structure d ℝ) (D : LatticeData d ℝ) (lo : Fin d → ℤ) (size : Fin d → ℕ) :
    Prop :=
  ∀ x : Idx d, x ∈ D.indices ↔ (0 ≤ x.alpha ∧ x.alpha < S.numBase) ∧
    ∀ k, lo k ≤ x.cell k ∧ x.cell k < lo k + size k

/-- A shift by whole periods along the periodic axes, and by nothing along the others. -/
def IsShift (size : Fin d → ℕ) (axes : List ℕ) (t : Fin d → ℤ) : Prop :=
  ∀ k : Fin d, (size k : ℤ) ∣ t k ∧ (k.val ∉ axes → t k = 0)

/-- Site `i` shifted by `t` cells is at the distance `r` from site `j`. -/
def ImageAt (S : Structure d ℝ) (D : LatticeData d ℝ) (r : ℝ) (i j : ℕ) (t : Fin d → ℤ) : Prop :=
  ∃ p q : Vec d ℝ, D.positions[i]? = some p ∧ D.positions[j]? = some q ∧
    Real.sqrt (∑ k, (p k + ∑ m, (t m : ℝ) * S.basis.vectors m k - q k) ^ 2) = r

/-- The neighbours are at most one cell away, in two directions at the same time only if one of them
is the first or the steps in both go the same way. -/
def NearSteps (N : ℕ → Set (Idx d)) : Prop :=
  ∀ (α : ℕ), ∀ x ∈ N α, (∀ k, |Idx.cell x k| ≤ 1) ∧
    ∀ a c : Fin d, a ≠ c → Idx.cell x a ≠ 0 → Idx.cell x c ≠ 0 →
      (∀ m, m ≠ a → m ≠ c → Idx.cell x m = 0) ∧
      (Idx.cell x a = Idx.cell x c ∨ a.val = 0 ∨ c.val = 0)

/-- The lattice is the data `D` with the periodic axes `axes`, as a torus: the neighbours of a site
are the sites one of whose copies, shifted by whole periods, is at the distance `r`, each listed
once; the stored translation of a neighbour across the boundary is the shift. -/
def IsTorus (S : Structure d ℝ) (D : LatticeData d ℝ) (size : Fin d → ℕ) (axes : List ℕ) (r : ℝ)
    (L : Lattice d ℝ) : Prop :=
  ∃ E, L.data = some E ∧ E.indices = D.indices ∧ E.positions = D.positions ∧
    (∀ i < D.numSites, ∃ l, L.neighbors i none false = .ok l ∧ l.Nodup ∧
      ∀ j, j ∈ l ↔ ∃ t, IsShift size axes t ∧ ImageAt S D r i j t) ∧
    (∀ i j t x, Lattice.Per E i j t x ↔
      x = npRound 6 r ∧ t ≠ 0 ∧ IsShift size axes t ∧ ImageAt S D r i j t) ∧
    ((∃ i j t, t ≠ 0 ∧ IsShift size axes t ∧ ImageAt S D r i j t) → L.periodicAxes = axes)

/-! ## lemmas -/

theorem IsShift.neg {size : Fin d → ℕ} {axes : List ℕ} {t : Fin d → ℤ} (h : IsShift size axes t) :
    IsShift size axes (-t) := fun k =>
  ⟨(Int.dvd_neg).2 (h k).1, fun hk => by rw [Pi.neg_apply, (h k).2 hk, neg_zero]⟩

theorem isShift_zero (size : Fin d → ℕ) (axes : List ℕ) : IsShift size axes 0 :=
  fun _ => ⟨dvd_zero _, fun _ => rfl⟩

/-- Two shifts which differ by less than a period are the same. -/
theorem IsShift.eq {size : Fin d → ℕ} {axes : List ℕ} (h3 : ∀ k : Fin d, k.val ∈ axes → 3 ≤ size k)
    {t t' : Fin d → ℤ} (h : IsShift size axes t) (h' : IsShift size axes t')
    (hle : ∀ k, |t k - t' k| ≤ 2) : t = t' := by
  funext k
  by_cases hk : k.val ∈ axes
  · have e := h3 k hk
    by_contra hne
    have := Int.le_of_dvd (abs_pos.2 (sub_ne_zero.2 hne))
      ((dvd_abs _ _).2 (dvd_sub (h k).1 (h' k).1))
    have := hle k
    omega
  · rw [(h k).2 hk, (h' k).2 hk]

theorem shifted_site (S : Structure d ℝ) {a : Idx d} {p : Vec d ℝ} (hp : IsSitePos S a p)
    (t : Fin d → ℤ) : IsSitePos S (Idx.mk (a.cell + t) a.alpha) (S.basis.translate t p) := by
  obtain ⟨α, ra, h1, h2, rfl⟩ := hp
  refine ⟨α, ra, by rw [Idx.alpha_mk, h1], h2, ?_⟩
  rw [LatticeBasis.translate_eq]
  funext k
  simp only [Idx.cell_mk, Pi.add_apply, Int.cast_add, add_mul, Finset.sum_add_distrib]
  ring

theorem shifted_dist (S : Structure d ℝ) (p q : Vec d ℝ) (t : Fin d → ℤ) :
    Real.sqrt (∑ k, (p k + ∑ m, (t m : ℝ) * S.basis.vectors m k - q k) ^ 2) =
      distance q (S.basis.translate t p) := by
  rw [distance_comm, LatticeBasis.translate_eq]
  unfold distance
  rw [hasSqrt_real]
  simp only [pow_two]

/-- Two sites with the same index are at the same place. -/
theorem site_unique {S : Structure d ℝ} {a : Idx d} {p q : Vec d ℝ} (hp : IsSitePos S a p)
    (hq : IsSitePos S a q) : p = q := by
  obtain ⟨α, ra, h1, h2, rfl⟩ := hp
  obtain ⟨β, rb, h3, h4, rfl⟩ := hq
  have : α = β := by omega
  subst this
  rw [h2] at h4
  cases h4
  rfl

/-- A built lattice whose sites are those of whole cells. -/
structure IsTiled (env : Env ℝ) (L : Lattice d ℝ) (r : ℝ) (N : ℕ → Set (Idx d))
    (A : Analysis d ℝ) (D : LatticeData d ℝ) (table : List (List (ℕ × WithTop ℝ)))
    (lo : Fin d → ℤ) (size : Fin d → ℕ) : Prop where
  reach : Reachable env L.world
  near : NearestOnly L.world r N
  steps : NearSteps N
  analysis : L.struct.analysis = some A
  data : L.data = some D
  sites : List.Forall₂ (IsSitePos L.struct) D.indices D.positions
  nodup : D.indices.Nodup
  comp : computeNeighbors env L.struct D.indices D.positions = .ok table
  set : LatticeData.set D.indices D.positions (table.map fun r => r.map Prod.fst)
    (table.map fun r => r.map Prod.snd) = .ok D
  rect : ∃ width, D.Rect width
  shape : L.shape ≠ none
  whole : WholeCells L.struct D lo size

namespace IsTiled

variable {env : Env ℝ} {L : Lattice d ℝ} {r : ℝ} {N : ℕ → Set (Idx d)} {A : Analysis d ℝ}
  {D : LatticeData d ℝ} {table : List (List (ℕ × WithTop ℝ))} {lo : Fin d → ℤ} {size : Fin d → ℕ}

theorem posNodup (h : IsTiled env L r N A D table lo size) : D.positions.Nodup :=
  positions_nodup h.near.distinct h.sites h.nodup

theorem length (hd : 0 < d) (h : IsTiled env L r N A D table lo size) :
    table.length = D.positions.length :=
  (h.near.table hd h.reach h.analysis h.sites h.nodup h.comp).2.1

theorem levels (hd : 0 < d) (h : IsTiled env L r N A D table lo size) :
    ⊤ ∈ D.distvals ∧ D.distvals.length ≤ 256 := by
  obtain ⟨row, hrow, -⟩ := set_nonempty h.set
  have h0 : 0 < D.positions.length := by
    rw [← h.length hd]
    exact List.length_pos_of_mem hrow
  obtain ⟨D', hset', -, -, htop, h256, -⟩ :=
    h.near.data hd h.reach h.analysis h.sites h.nodup h0 h.comp
  rw [h.set] at hset'
  cases hset'
  exact ⟨htop, h256⟩

theorem links (hd : 0 < d) (h : IsTiled env L r N A D table lo size) (i j : ℕ) (x : ℝ) :
    Linked table i j x ↔ x = npRound 6 r ∧ ImageAt L.struct D r i j 0 := by
  have := (h.near.table hd h.reach h.analysis h.sites h.nodup h.comp).2.2.1 i j x
  rw [this]
  have ht : ∀ p, L.struct.basis.translate 0 p = p := by
    intro p
    rw [LatticeBasis.translate_eq]
    simp
  unfold ImageAt
  simp only [shifted_dist, ht]

/-- The neighbours of a site before `set_periodic`. -/
theorem regular (hd : 0 < d) (h : IsTiled env L r N A D table lo size) {i : ℕ} {a : Idx d}
    (ha : D.indices[i]? = some a) : ∃ l, D.getNeighbors i none (some false) false = .ok l ∧
      l.Nodup ∧ ∀ j, j ∈ l ↔ ImageAt L.struct D r i j 0 := by
  obtain ⟨htop, h256⟩ := h.levels hd
  obtain ⟨width, hrows⟩ := C45_rows hd h.reach h.analysis D.indices D.positions h.sites.length_eq
    h.posNodup h.comp
  have hi : i < table.length := by
    rw [h.length hd, ← h.sites.length_eq]
    exact (List.getElem?_eq_some_iff.1 ha).1
  obtain ⟨l, h1, h2, h3, -⟩ := neighbors_of_links h.set htop h256 hi
    (hrows i _ (List.getElem?_eq_getElem hi)).2.2.2.2
  refine ⟨l, by rw [set_regular h.set htop h256 hi, h1], h2, fun j => ?_⟩
  rw [h3]
  exact ⟨fun ⟨x, hx⟩ => ((h.links hd i j x).1 hx).2, fun hj => ⟨_, (h.links hd i j _).2 ⟨rfl, hj⟩⟩⟩

end IsTiled

/-- A lattice whose sites are those of whole cells and whose links are the pairs at the distance `r`,
built or joined from built blocks. -/
structure IsTiling (env : Env ℝ) (L : Lattice d ℝ) (r : ℝ) (N : ℕ → Set (Idx d))
    (A : Analysis d ℝ) (D : LatticeData d ℝ) (lo : Fin d → ℤ) (size : Fin d → ℕ) : Prop where
  reach : Reachable env L.world
  near : NearestOnly L.world r N
  steps : NearSteps N
  analysis : L.struct.analysis = some A
  params : ∃ k R, queryParams A = .ok (k, R)
  data : L.data = some D
  sites : List.Forall₂ (IsSitePos L.struct) D.indices D.positions
  nodup : D.indices.Nodup
  ne : D.indices ≠ []
  rect : ∃ width, D.Rect width
  sorted : D.distvals.Pairwise (· < ·)
  packed : ∀ (i : ℕ) (q : List (Entry d)), D.entries[i]? = some q → ∃ a b, q = a ++ b ∧
    (∀ e ∈ a, e.level < D.invalidDistidx ∧ e.per = false) ∧
    ∀ e ∈ b, e.level = D.invalidDistidx ∨ e.per = true
  regular : ∀ {i : ℕ} {a : Idx d}, D.indices[i]? = some a →
    ∃ l, D.getNeighbors i none (some false) false = .ok l ∧
      l.Nodup ∧ ∀ j, j ∈ l ↔ ImageAt L.struct D r i j 0
  stored : ∀ {i j : ℕ}, ImageAt L.struct D r i j 0 →
    ∃ n < D.invalidDistidx, D.distvals[n]? = some ((npRound 6 r : ℝ) : WithTop ℝ)
  shape : L.shape ≠ none
  whole : WholeCells L.struct D lo size

/-- Built lattices. -/
theorem IsTiled.tiling {env : Env ℝ} {L : Lattice d ℝ} {r : ℝ} {N : ℕ → Set (Idx d)}
    {A : Analysis d ℝ} {D : LatticeData d ℝ} {table : List (List (ℕ × WithTop ℝ))}
    {lo : Fin d → ℤ} {size : Fin d → ℕ} (hd : 0 < d)
    (h : IsTiled env L r N A D table lo size) : IsTiling env L r N A D lo size := by
  obtain ⟨htop, h256⟩ := h.levels hd
  exact
    { reach := h.reach
      near := h.near
      steps := h.steps
      analysis := h.analysis
      params := computeNeighbors_params h.analysis h.comp
      data := h.data
      sites := h.sites
      nodup := h.nodup
      ne := by
        obtain ⟨row, hrow, -⟩ := set_nonempty h.set
        have := h.length hd
        rw [← h.sites.length_eq] at this
        rw [← List.length_pos_iff_ne_nil, ← this]
        exact List.length_pos_of_mem hrow
      rect := h.rect
      sorted := set_sorted h.set
      packed := set_packed h.set htop h256 (by
        obtain ⟨width, hrows⟩ := C45_rows hd h.reach h.analysis D.indices D.positions
          h.sites.length_eq h.posNodup h.comp
        intro row hrow
        obtain ⟨i, hi⟩ := List.mem_iff_getElem?.1 hrow
        exact (hrows i row hi).2.1)
      regular := h.regular hd
      stored := by
        intro i j hI
        obtain ⟨row, hrow, he⟩ := (h.links hd i j _).2 ⟨rfl, hI⟩
        obtain ⟨-, -, -, -, -, hlev⟩ := set_cols h.set htop h256
        obtain ⟨g1, -, g3⟩ := hlev row (List.mem_of_getElem? hrow) _ he
        exact ⟨_, g3.2 (by simp), g1⟩
      shape := h.shape
      whole := h.whole }

namespace IsTiling

variable {env : Env ℝ} {L : Lattice d ℝ} {r : ℝ} {N : ℕ → Set (Idx d)} {A : Analysis d ℝ}
  {D : LatticeData d ℝ} {lo : Fin d → ℤ} {size : Fin d → ℕ}

theorem get (h : IsTiling env L r N A D lo size) {i : ℕ} {a : Idx d}
    (ha : D.indices[i]? = some a) : ∃ p, D.positions[i]? = some p ∧ IsSitePos L.struct a p := by
  obtain ⟨i1, e1⟩ := List.getElem?_eq_some_iff.1 ha
  have i2 : i < D.positions.length := by rw [← h.sites.length_eq]; exact i1
  have := h.sites.get i1 i2
  simp only [List.get_eq_getElem, e1] at this
  exact ⟨_, List.getElem?_eq_getElem i2, this⟩

theorem get' (h : IsTiling env L r N A D lo size) {i : ℕ} {p : Vec d ℝ}
    (hp : D.positions[i]? = some p) : ∃ a, D.indices[i]? = some a ∧ IsSitePos L.struct a p := by
  obtain ⟨i2, e2⟩ := List.getElem?_eq_some_iff.1 hp
  have i1 : i < D.indices.length := by rw [h.sites.length_eq]; exact i2
  have := h.sites.get i1 i2
  simp only [List.get_eq_getElem, e2] at this
  exact ⟨_, List.getElem?_eq_getElem i1, this⟩

theorem box (h : IsTiling env L r N A D lo size) {i : ℕ} {a : Idx d}
    (ha : D.indices[i]? = some a) (k : Fin d) : lo k ≤ a.cell k ∧ a.cell k < lo k + size k :=
  ((h.whole a).1 (List.mem_of_getElem? ha)).2 k

theorem alpha (h : IsTiling env L r N A D lo size) {i : ℕ} {a : Idx d}
    (ha : D.indices[i]? = some a) : 0 ≤ a.alpha ∧ a.alpha < L.struct.numBase :=
  ((h.whole a).1 (List.mem_of_getElem? ha)).1

theorem inj (h : IsTiling env L r N A D lo size) {i j : ℕ} {a : Idx d}
    (ha : D.indices[i]? = some a) (hb : D.indices[j]? = some a) : i = j := by
  rw [← hb] at ha
  exact ((List.getElem?_inj (by rw [hb] at ha; exact (List.getElem?_eq_some_iff.1 ha).1)
    h.nodup).1 ha)

theorem index (h : IsTiling env L r N A D lo size) {i : ℕ} {a : Idx d}
    (ha : D.indices[i]? = some a) {n : Fin d → ℤ} (hn : ∀ k, lo k ≤ n k ∧ n k < lo k + size k) :
    ∃ j : ℕ, D.indices[j]? = some (Idx.mk n a.alpha) := by
  apply List.mem_iff_getElem?.1
  rw [h.whole]
  exact ⟨by rw [Idx.alpha_mk]; exact h.alpha ha, by rw [Idx.cell_mk]; exact hn⟩

/-- The distance of an image depends only on the atoms and the difference of the cells. -/
theorem image_congr (h : IsTiling env L r N A D lo size) {i j i' j' : ℕ} {a b a' b' : Idx d}
    (ha : D.indices[i]? = some a) (hb : D.indices[j]? = some b) (ha' : D.indices[i']? = some a')
    (hb' : D.indices[j']? = some b') (e1 : a'.alpha = a.alpha) (e2 : b'.alpha = b.alpha)
    {t t' : Fin d → ℤ} (he : b'.cell - a'.cell - t' = b.cell - a.cell - t)
    (hI : ImageAt L.struct D r i j t) : ImageAt L.struct D r i' j' t' := by
  obtain ⟨p', hp', hs'⟩ := h.get ha'
  obtain ⟨q', hq', hq's⟩ := h.get hb'
  obtain ⟨p, hp, hs⟩ := h.get ha
  obtain ⟨q, hq, hqs⟩ := h.get hb
  obtain ⟨p0, q0, f1, f2, f3⟩ := hI
  rw [hp] at f1
  rw [hq] at f2
  cases f1
  cases f2
  refine ⟨p', q', hp', hq', ?_⟩
  rw [← f3]
  have g1 := shifted_site L.struct hs t
  have g1' := shifted_site L.struct hs' t'
  rw [shifted_dist, shifted_dist]
  obtain ⟨α, β, ra, rb, c1, c2, c3, c4, c5⟩ := site_distance g1 hqs
  obtain ⟨α', β', ra', rb', c1', c2', c3', c4', c5'⟩ := site_distance g1' hq's
  rw [Idx.alpha_mk] at c1 c1'
  have : α' = α := by omega
  subst this
  have : β' = β := by omega
  subst this
  rw [c3] at c3'
  rw [c4] at c4'
  cases c3'
  cases c4'
  rw [c5, c5', Idx.cell_mk, Idx.cell_mk, ← sub_sub, ← sub_sub, he]

/-- An image at the nearest distance is a neighbour in the infinite lattice. -/
theorem image_step (h : IsTiling env L r N A D lo size) {i j : ℕ} {t : Fin d → ℤ}
    (hI : ImageAt L.struct D r i j t) : ∃ a b : Idx d, D.indices[i]? = some a ∧
      D.indices[j]? = some b ∧ ∃ α β : ℕ, a.alpha = α ∧ b.alpha = β ∧
        Idx.mk (b.cell - a.cell - t) (β : ℤ) ∈ N α := by
  obtain ⟨p, q, hp, hq, hd⟩ := hI
  obtain ⟨a, ha, hs⟩ : ∃ a : Idx d, D.indices[i]? = some a ∧ IsSitePos L.struct a p := h.get' hp
  obtain ⟨b, hb, hqs⟩ : ∃ a : Idx d, D.indices[j]? = some a ∧ IsSitePos L.struct a q := h.get' hq
  have g1 := shifted_site L.struct hs t
  rw [shifted_dist] at hd
  have hne : Idx.mk (a.cell + t) a.alpha ≠ b := by
    intro hne
    rw [hne] at g1
    rw [site_unique g1 hqs, distance_self] at hd
    exact h.near.pos.ne hd
  obtain ⟨α, β, e1, e2, ⟨-, hc⟩ | hc⟩ := h.near.sites g1 hqs hne
  · rw [Idx.alpha_mk] at e1
    rw [Idx.cell_mk, ← sub_sub] at hc
    exact ⟨a, b, ha, hb, α, β, e1, e2, hc⟩
  · have := h.near.pos
    linarith

theorem image_bound (h : IsTiling env L r N A D lo size) {i j : ℕ} {t : Fin d → ℤ}
    (hI : ImageAt L.struct D r i j t) {a b : Idx d} (ha : D.indices[i]? = some a)
    (hb : D.indices[j]? = some b) (k : Fin d) : |b.cell k - a.cell k - t k| ≤ 1 := by
  obtain ⟨a', b', ha', hb', α, β, -, -, hN⟩ := h.image_step hI
  rw [ha] at ha'
  rw [hb] at hb'
  cases ha'
  cases hb'
  have := (h.steps α _ hN).1 k
  rwa [Idx.cell_mk] at this

/-- `Image` of the theorems on `set_periodic`. -/
theorem image_iff (hd : 0 < d) (h : IsTiling env L r N A D lo size) {i j : ℕ}
    {t : Fin d → ℤ} {x : ℝ} : Image L.struct A D.indices D.positions i j t x ↔
      x = npRound 6 r ∧ ImageAt L.struct D r i j t := by
  have hpos := h.near.pos
  have hD := h.near.resolved
  have hrd := abs_le.1 h.near.round
  constructor
  · rintro ⟨p, q, a, b, hp, hq, ha, hb, hx, hcf⟩
    have hx0 := h.near.configured hd h.reach h.analysis hcf
    refine ⟨hx0, p, q, hp, hq, ?_⟩
    obtain ⟨p', hp', hs⟩ := h.get ha
    obtain ⟨q', hq', hqs⟩ := h.get hb
    rw [hp] at hp'
    rw [hq] at hq'
    cases hp'
    cases hq'
    have g1 := shifted_site L.struct hs t
    rw [shifted_dist] at hx ⊢
    by_cases hne : Idx.mk (a.cell + t) a.alpha = b
    · exfalso
      rw [hne] at g1
      rw [site_unique g1 hqs, distance_self, npRound_zero, hx0] at hx
      norm_num at hrd hD
      linarith
    · obtain ⟨α, β, -, -, ⟨hc, -⟩ | hc⟩ := h.near.sites g1 hqs hne
      · exact hc
      · exfalso
        have h1 := abs_le.1 (abs_npRound_sub_le 6 (distance q (L.struct.basis.translate t p)))
        rw [← hx, hx0] at h1
        norm_num at h1 hrd hD
        linarith
  · rintro ⟨rfl, hI⟩
    obtain ⟨a, b, ha, hb, α, β, e1, e2, hN⟩ := h.image_step hI
    obtain ⟨p, q, hp, hq, hdist⟩ := hI
    refine ⟨p, q, a, b, hp, hq, ha, hb, by rw [hdist], ?_⟩
    rw [e1, e2]
    refine h.near.configured_of hd h.reach h.analysis ?_ hN
    have := (h.alpha ha).2
    have hw : L.world.struct.numBase = L.struct.numBase := rfl
    omega

theorem exists_of_regular (h : IsTiling env L r N A D lo size) {i : ℕ} {o : Option Bool}
    {l : List ℕ} (hl : D.getNeighbors i none o false = .ok l) :
    ∃ a : Idx d, D.indices[i]? = some a := by
  obtain ⟨width, hr⟩ := h.rect
  by_contra hi
  have : ¬ i < D.numSites := by
    intro hlt
    exact hi ⟨_, List.getElem?_eq_getElem (l := D.indices) hlt⟩
  rw [hr.getNeighbors_error (not_lt.1 this)] at hl
  cases hl

variable {axes : List ℕ}

/-- The pair of sites inside the lattice which corresponds to a pair across the boundary. -/
theorem interior (h : IsTiling env L r N A D lo size)
    (h3 : ∀ k : Fin d, k.val ∈ axes → 3 ≤ size k) {i : ℕ} {a : Idx d}
    (ha : D.indices[i]? = some a) : ∃ i' : ℕ, ∀ (j : ℕ) (b : Idx d) (t : Fin d → ℤ),
      D.indices[j]? = some b → IsShift size axes t → ImageAt L.struct D r i j t →
      ∃ j' : ℕ, ∃ c : Fin d → ℤ, D.indices[j']? = some (Idx.mk (c + (b.cell - a.cell - t)) b.alpha) ∧
        D.indices[i']? = some (Idx.mk c a.alpha) ∧ ImageAt L.struct D r i' j' 0 := by
  classical
  set c : Fin d → ℤ := fun k => if k.val ∈ axes then lo k + 1 else a.cell k with hc
  obtain ⟨i', hi'⟩ := h.index ha (n := c) (by
    intro k
    have e := h.box ha k
    rw [hc]
    dsimp only
    split_ifs with hk
    · have := h3 k hk
      omega
    · exact e)
  refine ⟨i', ?_⟩
  intro j b t hb ht hI
  obtain ⟨j', hj'⟩ := h.index hb (n := c + (b.cell - a.cell - t)) (by
    intro k
    have e := h.box hb k
    have e1 := h.image_bound hI ha hb k
    rw [abs_le] at e1
    simp only [Pi.add_apply, Pi.sub_apply, hc]
    split_ifs with hk
    · have := h3 k hk
      omega
    · rw [(ht k).2 hk]
      omega)
  refine ⟨j', c, hj', hi', h.image_congr ha hb hi' hj' (Idx.alpha_mk _ _) (Idx.alpha_mk _ _) ?_ hI⟩
  rw [Idx.cell_mk, Idx.cell_mk]
  funext k
  simp

/-- The rows of the tables have room for the neighbours on the torus. -/
theorem room (h : IsTiling env L r N A D lo size)
    (h3 : ∀ k : Fin d, k.val ∈ axes → 3 ≤ size k) {width : ℕ} (hr : D.Rect width) {i : ℕ}
    {a : Idx d} (ha : D.indices[i]? = some a) {M : List ℕ} (hM : M.Nodup)
    (hall : ∀ j ∈ M, ∃ t, IsShift size axes t ∧ ImageAt L.struct D r i j t) : M.length ≤ width := by
  obtain ⟨i', hi'⟩ := h.interior h3 ha
  by_cases hM0 : M = []
  · rw [hM0]; simp
  have hg : ∀ j ∈ M, ∃ j' : ℕ, ∃ (b : Idx d) (t c : Fin d → ℤ), D.indices[j]? = some b ∧
      IsShift size axes t ∧ D.indices[i']? = some (Idx.mk c a.alpha) ∧
      D.indices[j']? = some (Idx.mk (c + (b.cell - a.cell - t)) b.alpha) ∧
      ImageAt L.struct D r i' j' 0 := by
    intro j hj
    obtain ⟨t, ht, hI⟩ := hall j hj
    obtain ⟨-, b, -, hb, -⟩ := h.image_step hI
    obtain ⟨j', c, e1, e2, e3⟩ := hi' j b t hb ht hI
    exact ⟨j', b, t, c, hb, ht, e2, e1, e3⟩
  choose! g b t c g1 g2 g3 g4 g5 using hg
  obtain ⟨j0, hj0⟩ := List.exists_mem_of_ne_nil M hM0
  obtain ⟨l', hl', hnd', hm'⟩ := h.regular (g3 j0 hj0)
  have hinj : ∀ j ∈ M, ∀ j' ∈ M, g j = g j' → j = j' := by
    intro j hj j' hj' hgg
    have e1 := g4 j hj
    rw [hgg, g4 j' hj', Option.some_inj, Idx.mk_inj] at e1
    have e2 := g3 j hj
    rw [g3 j' hj', Option.some_inj, Idx.mk_inj] at e2
    have hk : ∀ k, (b j).cell k = (b j').cell k := by
      intro k
      have f1 := congrFun e1.1 k
      have f2 := congrFun e2.1 k
      simp only [Pi.add_apply, Pi.sub_apply] at f1
      have b1 := h.box (g1 j hj) k
      have b2 := h.box (g1 j' hj') k
      have hdv : (size k : ℤ) ∣ (b j).cell k - (b j').cell k := by
        have := dvd_sub (g2 j hj k).1 (g2 j' hj' k).1
        have he : (b j).cell k - (b j').cell k = t j k - t j' k := by omega
        rwa [he]
      by_contra hne
      have := Int.le_of_dvd (abs_pos.2 (sub_ne_zero.2 hne)) ((dvd_abs _ _).2 hdv)
      rcases abs_cases ((b j).cell k - (b j').cell k) with ⟨e, -⟩ | ⟨e, -⟩ <;> omega
    have hbb : b j = b j' := by
      rw [← Idx.mk_cell_alpha (b j), ← Idx.mk_cell_alpha (b j'), funext hk, e1.2]
    have := g1 j hj
    rw [hbb] at this
    exact h.inj this (g1 j' hj')
  have hle : (M.map g).length ≤ l'.length := by
    refine List.Subperm.length_le (List.Nodup.subperm ?_ ?_)
    · exact (List.nodup_map_iff_inj_on hM).2 hinj
    · intro y hy
      obtain ⟨j, hj, rfl⟩ := List.mem_map.1 hy
      exact (hm' _).2 (g5 j hj)
  rw [List.length_map] at hle
  refine le_trans hle ?_
  obtain ⟨row, hr1, hr2, hgn⟩ := hr.getNeighbors (i := i')
    (List.getElem?_eq_some_iff.1 (g3 j0 hj0)).1
  rw [hgn] at hl'
  cases hl'
  rw [List.length_map, ← hr.row_length row hr2]
  exact List.length_filter_le _ _

/-- The distance is stored if some pair is connected. -/
theorem level (h : IsTiling env L r N A D lo size)
    (h3 : ∀ k : Fin d, k.val ∈ axes → 3 ≤ size k) {i j : ℕ} {t : Fin d → ℤ}
    (ht : IsShift size axes t) (hI : ImageAt L.struct D r i j t) :
    ∃ n < D.invalidDistidx, D.distvals[n]? = some ((npRound 6 r : ℝ) : WithTop ℝ) := by
  obtain ⟨a, b, ha, hb, -⟩ := h.image_step hI
  obtain ⟨i', hi'⟩ := h.interior h3 ha
  obtain ⟨j', c, -, -, e3⟩ := hi' j b t hb ht hI
  exact h.stored e3

/-- The translations tried by `set_periodic`. -/
theorem vecs (h : IsTiling env L r N A D lo size) (hs : ∀ k, 0 < size k)
    (hax : ∀ a ∈ axes, a < d) (hb : L.primitive.getD false = true ∨ Orthogonal L.struct.basis) :
    ∃ vecs, Lattice.PState env L.world A D axes (L.primitive.getD false) vecs ∧
      (∀ v ∈ vecs, v.2 ≠ 0 ∧ IsShift size axes v.2) ∧
      ∀ i j t, t ≠ 0 → IsShift size axes t → ImageAt L.struct D r i j t →
        ∃ v ∈ vecs, v.2 = t ∨ v.2 = -t := by
  have hne := h.ne
  obtain ⟨x0, hx0⟩ := List.exists_mem_of_ne_nil _ hne
  obtain ⟨i0, hi0⟩ : ∃ i : ℕ, D.indices[i]? = some x0 := List.mem_iff_getElem?.1 hx0
  obtain ⟨vecs, hv, hp⟩ := Lattice.C65_translations_partial hb hne hax
  obtain ⟨h1, h2, h4⟩ := hp (fun a => Pi.single a (size a : ℤ)) (by
    intro a
    refine ⟨fun k hk => Pi.single_eq_of_ne (by rintro rfl; simp at hk) _, ?_⟩
    intro k hk
    have hka : k = a := Fin.ext (by simpa using hk)
    subst hka
    obtain ⟨i1, hi1⟩ := h.index hi0 (n := fun m => lo m + size m - 1) fun m => by
      have := hs m
      omega
    obtain ⟨i2, hi2⟩ := h.index hi0 (n := lo) fun m => by
      have := hs m
      omega
    refine ⟨_, _, List.mem_of_getElem? hi1, List.mem_of_getElem? hi2, ?_, ?_⟩
    · rw [Idx.cell_mk, Idx.cell_mk, Pi.single_eq_same]
      ring
    · intro z hz
      obtain ⟨i, hi⟩ := List.mem_iff_getElem?.1 hz
      have := h.box hi k
      rw [Idx.cell_mk, Idx.cell_mk]
      exact ⟨this.1, by omega⟩)
  have hsh1 : ∀ a : Fin d, a.val ∈ axes → IsShift size axes (Pi.single a (size a : ℤ)) := by
    intro a ha k
    rcases eq_or_ne k a with rfl | hka
    · rw [Pi.single_eq_same]
      exact ⟨dvd_rfl, fun hk => absurd ha hk⟩
    · rw [Pi.single_eq_of_ne hka]
      exact ⟨dvd_zero _, fun _ => rfl⟩
  have hadd : ∀ t t' : Fin d → ℤ, IsShift size axes t → IsShift size axes t' →
      IsShift size axes (t + t') := fun t t' h h' k =>
    ⟨dvd_add (h k).1 (h' k).1, fun hk => by rw [Pi.add_apply, (h k).2 hk, (h' k).2 hk, add_zero]⟩
  refine ⟨vecs, ⟨h.reach, h.analysis, h.sites.length_eq, fun x hx => ((h.whole x).1 hx).1, hv⟩,
    ?_, ?_⟩
  · intro v hv'
    obtain ⟨a, ha, hc⟩ := h4 v hv'
    have hsa := hs a
    have hne0 : ∀ {t : Fin d → ℤ}, |t a| = size a → t ≠ 0 := by
      rintro t ht rfl
      simp at ht
      omega
    rcases hc with hc | hc | ⟨c, hca, hac, hc | hc | hc⟩ <;> rw [hc]
    · exact ⟨hne0 (by simp), hsh1 a ha⟩
    · exact ⟨hne0 (by simp), (hsh1 a ha).neg⟩
    · exact ⟨hne0 (by simp [Pi.single_eq_of_ne hac]), hadd _ _ (hsh1 a ha) (hsh1 c hca)⟩
    · exact ⟨hne0 (by simp [Pi.single_eq_of_ne hac]), (hadd _ _ (hsh1 a ha) (hsh1 c hca)).neg⟩
    · refine ⟨hne0 (by simp [Pi.single_eq_of_ne hac]), ?_⟩
      rw [sub_eq_add_neg]
      exact hadd _ _ (hsh1 a ha) (hsh1 c hca).neg
  · intro i j t ht0 ht hI
    obtain ⟨a, b, ha, hb, α, β, -, -, hN⟩ := h.image_step hI
    obtain ⟨hst1, hst2⟩ := h.steps α _ hN
    rw [Idx.cell_mk] at hst1 hst2
    set n := b.cell - a.cell - t with hn
    have hk : ∀ k, t k = 0 ∨ (k.val ∈ axes ∧ t k = size k ∧ n k = -1) ∨
        (k.val ∈ axes ∧ t k = -size k ∧ n k = 1) := by
      intro k
      by_cases hk0 : t k = 0
      · exact Or.inl hk0
      have hka : k.val ∈ axes := by
        by_contra hka
        exact hk0 ((ht k).2 hka)
      have e1 := Int.le_of_dvd (abs_pos.2 hk0) ((dvd_abs _ _).2 (ht k).1)
      have e2 := abs_le.1 (hst1 k)
      have e3 := h.box ha k
      have e4 := h.box hb k
      have e5 : n k = b.cell k - a.cell k - t k := rfl
      right
      rcases abs_cases (t k) with ⟨e6, -⟩ | ⟨e6, -⟩
      · left
        exact ⟨hka, by omega, by omega⟩
      · right
        exact ⟨hka, by omega, by omega⟩
    have hn0 : ∀ k, t k ≠ 0 → n k ≠ 0 := by
      intro k hk0
      rcases hk k with e | ⟨-, -, e⟩ | ⟨-, -, e⟩
      · exact absurd e hk0
      · rw [e]; norm_num
      · rw [e]; norm_num
    obtain ⟨k, hk0⟩ : ∃ k, t k ≠ 0 := by
      by_contra hall
      push Not at hall
      exact ht0 (funext hall)
    by_cases hother : ∀ m, m ≠ k → t m = 0
    · have hka : k.val ∈ axes := by
        by_contra hka
        exact hk0 ((ht k).2 hka)
      have : t = Pi.single k (t k) := by
        funext m
        rcases eq_or_ne m k with rfl | hm
        · rw [Pi.single_eq_same]
        · rw [Pi.single_eq_of_ne hm, hother m hm]
      obtain ⟨v, hv1, hv2⟩ := h1 k hka
      refine ⟨v, hv1, ?_⟩
      rcases hk k with e | ⟨-, e, -⟩ | ⟨-, e, -⟩
      · exact absurd e hk0
      · rw [this, e]
        exact hv2
      · rw [this, e, Pi.single_neg, neg_neg]
        exact hv2.symm
    · push Not at hother
      obtain ⟨m, hmk, hm0⟩ := hother
      obtain ⟨g1, g2⟩ := hst2 k m hmk.symm (hn0 k hk0) (hn0 m hm0)
      have hka : k.val ∈ axes := by
        by_contra hka
        exact hk0 ((ht k).2 hka)
      have hma : m.val ∈ axes := by
        by_contra hma
        exact hm0 ((ht m).2 hma)
      have hrest : ∀ l, l ≠ k → l ≠ m → t l = 0 := by
        intro l hl1 hl2
        by_contra hl
        exact hn0 l hl (g1 l hl1 hl2)
      have hsum : t = Pi.single k (t k) + Pi.single m (t m) := by
        funext l
        rw [Pi.add_apply]
        rcases eq_or_ne l k with rfl | hl1
        · rw [Pi.single_eq_same, Pi.single_eq_of_ne hmk.symm, add_zero]
        · rcases eq_or_ne l m with rfl | hl2
          · rw [Pi.single_eq_same, Pi.single_eq_of_ne hl1, zero_add]
          · rw [Pi.single_eq_of_ne hl1, Pi.single_eq_of_ne hl2, hrest l hl1 hl2, add_zero]
      obtain ⟨⟨v, hv1, hv2⟩, hw⟩ := h2 k m hka hma hmk.symm
      rcases hk k with e | ⟨-, e, f⟩ | ⟨-, e, f⟩
      · exact absurd e hk0
      all_goals
        rcases hk m with e' | ⟨-, e', f'⟩ | ⟨-, e', f'⟩
        · exact absurd e' hm0
        all_goals rw [e, e'] at hsum
      · exact ⟨v, hv1, by rw [hsum]; exact hv2⟩
      · obtain ⟨w, hw1, hw2⟩ := hw (g2.resolve_left (by rw [f, f']; norm_num))
        refine ⟨w, hw1, ?_⟩
        rw [hsum, Pi.single_neg, ← sub_eq_add_neg]
        exact hw2
      · obtain ⟨w, hw1, hw2⟩ := hw (g2.resolve_left (by rw [f, f']; norm_num))
        refine ⟨w, hw1, ?_⟩
        rw [hsum, Pi.single_neg]
        rcases hw2 with hw2 | hw2 <;> rw [hw2]
        · right; abel
        · left; abel
      · refine ⟨v, hv1, ?_⟩
        rw [hsum, Pi.single_neg, Pi.single_neg, ← neg_add, neg_neg]
        exact hv2.symm

/-- Two sites are connected by at most one shift. -/
theorem shift_unique (h : IsTiling env L r N A D lo size)
    (h3 : ∀ k : Fin d, k.val ∈ axes → 3 ≤ size k) (i j : ℕ) (t t' : Fin d → ℤ)
    (ht : IsShift size axes t) (ht' : IsShift size axes t') (hI : ImageAt L.struct D r i j t)
    (hI' : ImageAt L.struct D r i j t') : t = t' := by
  obtain ⟨a, b, ha, hb, -⟩ := h.image_step hI
  refine ht.eq h3 ht' fun k => ?_
  have e1 := abs_le.1 (h.image_bound hI ha hb k)
  have e2 := abs_le.1 (h.image_bound hI' ha hb k)
  rw [abs_le]
  constructor <;> omega

/-- `set_periodic` on a lattice of whole cells. -/
theorem torus (hd : 0 < d) (h : IsTiling env L r N A D lo size) (hs : ∀ k, 0 < size k)
    (hax : ∀ a ∈ axes, a < d) (h3 : ∀ k : Fin d, k.val ∈ axes → 3 ≤ size k)
    (hb : L.primitive.getD false = true ∨ Orthogonal L.struct.basis) :
    ∃ L', L.setPeriodic env (.axes axes) = (L', .ok ()) ∧
      IsTorus L.struct D size axes r L' := by
  obtain ⟨vecs, hP, hv1, hv2⟩ := h.vecs hs hax hb
  obtain ⟨width, hr⟩ := h.rect
  have huniq := h.shift_unique h3
  have hReg : ∀ i j, Lattice.Reg D i j → ImageAt L.struct D r i j 0 := by
    rintro i j ⟨l, hl, hj⟩
    obtain ⟨a, ha⟩ := h.exists_of_regular hl
    obtain ⟨l', hl', -, hm⟩ := h.regular ha
    rw [hl] at hl'
    cases hl'
    exact (hm j).1 hj
  have hsgn : ∀ v ∈ vecs, ∀ t, t = v.2 ∨ t = -v.2 → t ≠ 0 ∧ IsShift size axes t := by
    rintro v hv t (rfl | rfl)
    · exact hv1 v hv
    · exact ⟨neg_ne_zero.2 (hv1 v hv).1, (hv1 v hv).2.neg⟩
  have hlarge : ∀ i j, Lattice.Reg D i j → ∀ v ∈ vecs, ∀ t, t = v.2 ∨ t = -v.2 → ∀ x,
      ¬ Image L.struct A D.indices D.positions i j t x := by
    intro i j hij v hv t ht x hx
    obtain ⟨g1, g2⟩ := hsgn v hv t ht
    exact g1 (huniq i j _ _ g2 (isShift_zero size axes) ((h.image_iff hd).1 hx).2 (hReg i j hij))
  obtain ⟨L', E, e1, e2, hE1, hE2, hE3, h6, h7, h8, h9⟩ := Lattice.C64_set_periodic_partial
    hd hP h.data h.shape hr h.sorted h.packed h.params
    (fun i j hij v hv x => ⟨hlarge i j hij v hv _ (Or.inl rfl) x,
      hlarge i j hij v hv _ (Or.inr rfl) x⟩)
    (by
      intro i l hl J hJ hJi
      obtain ⟨a, ha⟩ := h.exists_of_regular hl
      obtain ⟨l0, hl0, hnd, hm⟩ := h.regular ha
      rw [hl] at hl0
      cases hl0
      have hJ' : ∀ j ∈ J, ∃ t, t ≠ 0 ∧ IsShift size axes t ∧ ImageAt L.struct D r i j t := by
        intro j hj
        obtain ⟨v, hv, x, hx | hx⟩ := hJi j hj
        · exact ⟨_, (hv1 v hv).1, (hv1 v hv).2, ((h.image_iff hd).1 hx).2⟩
        · exact ⟨_, (hsgn v hv _ (Or.inr rfl)).1, (hsgn v hv _ (Or.inr rfl)).2,
            ((h.image_iff hd).1 hx).2⟩
      have hnd' : (l ++ J).Nodup := by
        rw [List.nodup_append]
        refine ⟨hnd, hJ, ?_⟩
        rintro j hj j' hj' rfl
        obtain ⟨t, g1, g2, g3⟩ := hJ' j hj'
        exact g1 (huniq i j _ _ g2 (isShift_zero size axes) g3 ((hm j).1 hj))
      rw [← List.length_append]
      refine h.room h3 hr ha hnd' fun j hj => ?_
      rcases List.mem_append.1 hj with hj | hj
      · exact ⟨0, isShift_zero size axes, (hm j).1 hj⟩
      · obtain ⟨t, -, g2, g3⟩ := hJ' j hj
        exact ⟨t, g2, g3⟩)
    (by
      rintro i j x ⟨v, hv, hx⟩
      obtain ⟨rfl, hI⟩ := (h.image_iff hd).1 hx
      exact h.level h3 (hv1 v hv).2 hI)
  have hraw := h.near.raw hd h.reach h.analysis
  have hEreg : ∀ i j, i < D.numSites → Lattice.Reg E i j → Lattice.Reg D i j := by
    rintro i j hi ⟨l, hl, hj⟩
    obtain ⟨l0, g1, g2, -⟩ := h6 i hi
    rw [hl] at g2
    cases g2
    exact ⟨l, g1, hj⟩
  have hper1 : ∀ i j t x, Lattice.Per E i j t x →
      x = npRound 6 r ∧ t ≠ 0 ∧ IsShift size axes t ∧ ImageAt L.struct D r i j t := by
    intro i j t x hp
    obtain ⟨⟨g1, v, hv, g2⟩, -⟩ := h7 i j t x hp
    obtain ⟨g3, g4⟩ := (h.image_iff hd).1 g1
    obtain ⟨g5, g6⟩ := hsgn v hv t g2
    exact ⟨g3, g5, g6, g4⟩
  have hcomplete : ∀ v ∈ vecs, ∀ i j, ImageAt L.struct D r i j v.2 →
      (Lattice.Reg E i j ∨ ∃ t y, Lattice.Per E i j t y) ∧
      (Lattice.Reg E j i ∨ ∃ t y, Lattice.Per E j i t y) := by
    intro v hv i j hI
    obtain ⟨p, q, hp, hq, hdist⟩ := id hI
    refine h8 hraw v hv i j _ p q ((h.image_iff hd).2 ⟨rfl, hI⟩) hp hq ?_
    obtain ⟨a, ha, hs⟩ := h.get' hp
    rw [shifted_dist] at hdist
    exact h.near.closer_site hd h.reach h.analysis h.sites h.nodup (shifted_site L.struct hs v.2)
      hdist
  have hsym : ∀ i j t, ImageAt L.struct D r i j t → ImageAt L.struct D r j i (-t) := by
    rintro i j t ⟨p, q, hp, hq, hdist⟩
    refine ⟨q, p, hq, hp, ?_⟩
    rw [← hdist]
    congr 1
    refine Finset.sum_congr rfl fun k _ => ?_
    simp only [Pi.neg_apply, Int.cast_neg, neg_mul, Finset.sum_neg_distrib]
    ring
  have hlt : ∀ i j t, ImageAt L.struct D r i j t → i < D.numSites := by
    intro i j t hI
    obtain ⟨a, -, ha, -⟩ := h.image_step hI
    exact (List.getElem?_eq_some_iff.1 ha).1
  have hper : ∀ i j t x, Lattice.Per E i j t x ↔
      x = npRound 6 r ∧ t ≠ 0 ∧ IsShift size axes t ∧ ImageAt L.struct D r i j t := by
    intro i j t x
    refine ⟨hper1 i j t x, ?_⟩
    rintro ⟨rfl, ht0, ht, hI⟩
    have hnr : ¬ Lattice.Reg E i j := by
      intro hreg
      exact ht0 (huniq i j _ _ ht (isShift_zero size axes) hI
        (hReg i j (hEreg i j (hlt i j t hI) hreg)))
    obtain ⟨t', y, hp⟩ : ∃ t' y, Lattice.Per E i j t' y := by
      obtain ⟨v, hv, hvt | hvt⟩ := hv2 i j t ht0 ht hI
      · rw [← hvt] at hI
        exact ((hcomplete v hv i j hI).1).resolve_left hnr
      · have := hsym i j t hI
        rw [← hvt] at this
        exact ((hcomplete v hv j i this).2).resolve_left hnr
    obtain ⟨rfl, -, g2, g3⟩ := hper1 i j t' y hp
    rw [huniq i j t t' ht g2 hI g3]
    exact hp
  refine ⟨L', e1, E, e2, hE1, hE2, ?_, hper, ?_⟩
  · intro i hi
    obtain ⟨l, g1, g2, l', g3, g4, g5, g6⟩ := h6 i hi
    obtain ⟨l0, k1, k2, k3⟩ := h.regular (List.getElem?_eq_getElem (l := D.indices) hi)
    rw [g1] at k1
    cases k1
    refine ⟨l ++ l', ?_, ?_, ?_⟩
    · unfold Lattice.neighbors
      rw [e2]
      exact g5
    · rw [List.nodup_append]
      refine ⟨k2, g4, ?_⟩
      rintro c hc c' hc' rfl
      obtain ⟨t, x, hp⟩ := (g6 c).1 hc'
      exact (h7 i c t x hp).2.1 ⟨l, g2, hc⟩
    · intro j
      rw [List.mem_append, k3, g6]
      constructor
      · rintro (hI | ⟨t, x, hp⟩)
        · exact ⟨0, isShift_zero size axes, hI⟩
        · obtain ⟨-, -, k4, k5⟩ := hper1 _ _ _ _ hp
          exact ⟨t, k4, k5⟩
      · rintro ⟨t, ht, hI⟩
        by_cases ht0 : t = 0
        · rw [ht0] at hI
          exact Or.inl hI
        · exact Or.inr ⟨t, _, (hper i j t _).2 ⟨rfl, ht0, ht, hI⟩⟩
  · rintro ⟨i, j, t, ht⟩
    exact h9 ⟨i, j, t, _, (hper i j t _).2 ⟨rfl, ht⟩⟩

/-- Cells of the lattice which differ by whole periods are the same. -/
theorem same (h : IsTiling env L r N A D lo size) {i j : ℕ} {a b : Idx d}
    (ha : D.indices[i]? = some a) (hb : D.indices[j]? = some b) (hα : a.alpha = b.alpha)
    (hdv : ∀ k, (size k : ℤ) ∣ a.cell k - b.cell k) : i = j := by
  have hk : ∀ k, a.cell k = b.cell k := by
    intro k
    have b1 := h.box ha k
    have b2 := h.box hb k
    by_contra hne
    have := Int.le_of_dvd (abs_pos.2 (sub_ne_zero.2 hne)) ((dvd_abs _ _).2 (hdv k))
    rcases abs_cases (a.cell k - b.cell k) with ⟨e, -⟩ | ⟨e, -⟩ <;> omega
  have hbb : a = b := by
    rw [← Idx.mk_cell_alpha a, ← Idx.mk_cell_alpha b, funext hk, hα]
  rw [hbb] at ha
  exact h.inj ha hb

/-- The images as sites of the infinite lattice. -/
theorem image_site (h : IsTiling env L r N A D lo size) {i j : ℕ} {p : Vec d ℝ}
    (hp : D.positions[i]? = some p) {b : Idx d} (hb : D.indices[j]? = some b) (t : Fin d → ℤ) :
    ImageAt L.struct D r i j t ↔
      ∃ q, IsSitePos L.struct (Idx.mk (b.cell - t) b.alpha) q ∧ distance q p = r := by
  obtain ⟨q, hq, hqs⟩ := h.get hb
  have hs := shifted_site L.struct hqs (-t)
  rw [← sub_eq_add_neg] at hs
  have hdist : distance (L.struct.basis.translate (-t) q) p =
      distance q (L.struct.basis.translate t p) := by
    rw [LatticeBasis.translate_eq, LatticeBasis.translate_eq]
    unfold distance
    rw [hasSqrt_real, hasSqrt_real]
    refine congrArg Real.sqrt (Finset.sum_congr rfl fun k _ => ?_)
    simp only [Pi.neg_apply, Int.cast_neg, neg_mul, Finset.sum_neg_distrib]
    ring
  constructor
  · rintro ⟨p', q', hp', hq', hd⟩
    rw [hp] at hp'
    rw [hq] at hq'
    cases hp'
    cases hq'
    rw [shifted_dist] at hd
    exact ⟨_, hs, by rw [hdist, hd]⟩
  · rintro ⟨q', hq's, hd⟩
    refine ⟨p, q, hp, hq, ?_⟩
    rw [shifted_dist, ← hdist, site_unique hs hq's, hd]

/-- A lattice which is periodic in all directions has no boundary. -/
theorem bulk (hd : 0 < d) (h : IsTiling env L r N A D lo size) (hs : ∀ k, 0 < size k)
    (h3 : ∀ k : Fin d, k.val ∈ axes → 3 ≤ size k) (hall : ∀ k : Fin d, k.val ∈ axes)
    {i : ℕ} {p : Vec d ℝ} (hp : D.positions[i]? = some p)
    {l : List ℕ} (hnd : l.Nodup)
    (hl : ∀ j, j ∈ l ↔ ∃ t, IsShift size axes t ∧ ImageAt L.struct D r i j t) :
    l.length = {x : Idx d | ∃ q, IsSitePos L.struct x q ∧ distance q p = r}.ncard := by
  classical
  have hg : ∀ j ∈ l, ∃ (b : Idx d) (t : Fin d → ℤ), D.indices[j]? = some b ∧
      IsShift size axes t ∧ ImageAt L.struct D r i j t := by
    intro j hj
    obtain ⟨t, ht, hI⟩ := (hl j).1 hj
    obtain ⟨-, b, -, hb, -⟩ := h.image_step hI
    exact ⟨b, t, hb, ht, hI⟩
  choose! b t g1 g2 g3 using hg
  have himage : ((l.toFinset.image fun j => Idx.mk ((b j).cell - t j) (b j).alpha :
      Finset (Idx d)) : Set (Idx d)) =
      {x : Idx d | ∃ q, IsSitePos L.struct x q ∧ distance q p = r} := by
    ext x
    simp only [Finset.coe_image, Set.mem_image, Finset.mem_coe, List.mem_toFinset,
      Set.mem_ofPred_eq]
    constructor
    · rintro ⟨j, hj, rfl⟩
      exact (h.image_site hp (g1 j hj) (t j)).1 (g3 j hj)
    · rintro ⟨q, hq, hdist⟩
      obtain ⟨β, rb, e1, e2, -⟩ := id hq
      have hβ : β < L.struct.numBase := by
        have := (h.reach.good hd).positions_length
        have e3 := (List.getElem?_eq_some_iff.1 e2).1
        unfold Lattice.struct at e3 ⊢
        omega
      set c : Fin d → ℤ := fun k => lo k + (x.cell k - lo k) % (size k : ℤ) with hc
      have hpos : ∀ k, (0 : ℤ) < size k := fun k => by exact_mod_cast hs k
      obtain ⟨j, hj⟩ : ∃ j : ℕ, D.indices[j]? = some (Idx.mk c x.alpha) := by
        apply List.mem_iff_getElem?.1
        rw [h.whole, Idx.alpha_mk, Idx.cell_mk]
        refine ⟨⟨by omega, by omega⟩, fun k => ?_⟩
        have := Int.emod_nonneg (x.cell k - lo k) (hpos k).ne'
        have := Int.emod_lt_of_pos (x.cell k - lo k) (hpos k)
        simp only [hc]
        omega
      have hsh : IsShift size axes (c - x.cell) := by
        intro k
        refine ⟨?_, fun hk => absurd (hall k) hk⟩
        refine ⟨-((x.cell k - lo k) / size k), ?_⟩
        have := Int.mul_ediv_add_emod (x.cell k - lo k) (size k)
        simp only [hc, Pi.sub_apply]
        linarith
      have hI : ImageAt L.struct D r i j (c - x.cell) := by
        rw [h.image_site hp hj]
        refine ⟨q, ?_, hdist⟩
        rw [Idx.cell_mk, Idx.alpha_mk, sub_sub_cancel, Idx.mk_cell_alpha]
        exact hq
      have hjl : j ∈ l := (hl j).2 ⟨_, hsh, hI⟩
      refine ⟨j, hjl, ?_⟩
      have hbj : b j = Idx.mk c x.alpha := by
        have := g1 j hjl
        rw [hj] at this
        exact (Option.some.inj this).symm
      rw [hbj, ← h.shift_unique h3 i j _ _ hsh (g2 j hjl) hI (g3 j hjl), Idx.cell_mk,
        Idx.alpha_mk, sub_sub_cancel, Idx.mk_cell_alpha]
  rw [← himage, Set.ncard_coe_finset, Finset.card_image_of_injOn, List.toFinset_card_of_nodup hnd]
  intro j hj j' hj' he
  rw [Finset.mem_coe, List.mem_toFinset] at hj hj'
  simp only [Idx.mk_inj] at he
  refine h.same (g1 j hj) (g1 j' hj') he.2 fun k => ?_
  have := congrFun he.1 k
  simp only [Pi.sub_apply] at this
  have e : (b j).cell k - (b j').cell k = t j k - t j' k := by omega
  rw [e]
  exact dvd_sub (g2 j hj k).1 (g2 j' hj' k).1

/-- `set_periodic` on a lattice of whole cells, with the number of neighbours. -/
theorem periodic (hd : 0 < d) (h : IsTiling env L r N A D lo size)
    (hax : ∀ a ∈ axes, a < d) (h3 : ∀ k : Fin d, k.val ∈ axes → 3 ≤ size k)
    (hb : L.primitive.getD false = true ∨ Orthogonal L.struct.basis) :
    ∃ L', L.setPeriodic env (.axes axes) = (L', .ok ()) ∧
      IsTorus L.struct D size axes r L' ∧
      ((∀ k : Fin d, k.val ∈ axes) → ∀ (i : ℕ) (p : Vec d ℝ), D.positions[i]? = some p →
        ∃ l, L'.neighbors i none false = .ok l ∧
          l.length = {x : Idx d | ∃ q, IsSitePos L.struct x q ∧ distance q p = r}.ncard) := by
  have hs : ∀ k, 0 < size k := by
    have h0 : 0 < D.indices.length := List.length_pos_iff_ne_nil.2 h.ne
    intro k
    have := h.box (List.getElem?_eq_getElem h0) k
    omega
  obtain ⟨L', h1, h2⟩ := h.torus hd hs hax h3 hb
  refine ⟨L', h1, h2, ?_⟩
  intro hall i p hp
  obtain ⟨E, -, -, -, h4, -⟩ := h2
  obtain ⟨a, ha, -⟩ := h.get' hp
  obtain ⟨l, h5, h6, h7⟩ := h4 i (List.getElem?_eq_some_iff.1 ha).1
  exact ⟨l, h5, h.bulk hd hs h3 hall hp h6 h7⟩

end IsTiling

/-- What a successful build of whole cells gives. -/
theorem exists_isTiled (hd : 0 < d) {env : Env ℝ} {L L' : Lattice d ℝ}
    (hr : Reachable env L.world) {r : ℝ} {N : ℕ → Set (Idx d)} (h : NearestOnly L.world r N)
    (hst : NearSteps N) {a : BuildArgs d ℝ} (hm : a.minNeighbors = none) (hp : a.periodic = none)
    (hb : a.bits = none) (hok : L.build env a = (L', .ok ())) {D : LatticeData d ℝ}
    (hD : L'.data = some D) {lo : Fin d → ℤ} {size : Fin d → ℕ}
    (hw : WholeCells L.struct D lo size) :
    L'.world = L.world ∧ L'.primitive = some a.primitive ∧
    ∃ A table, IsTiled env L' r N A D table lo size := by
  obtain ⟨A, D', table, hA, hD', hworld, hsites, hnd, hcomp, hset⟩ :=
    build_table hd hr hm hp hb hok
  rw [hD] at hD'
  cases hD'
  obtain ⟨row, hrow, -⟩ := set_nonempty hset
  have h0 : 0 < D.positions.length := by
    rw [← (h.table hd hr hA hsites hnd hcomp).2.1]
    exact List.length_pos_of_mem hrow
  obtain ⟨D', hset', -, -, htop, h256, -⟩ := h.data hd hr hA hsites hnd h0 hcomp
  rw [hset] at hset'
  cases hset'
  obtain ⟨D', hD', hrect⟩ := build_rect hd hr h.distinct hm hp hb hok
  rw [hD] at hD'
  cases hD'
  obtain ⟨width, hrect, -⟩ := hrect htop h256
  have hS : L'.struct = L.struct := congrArg World.struct hworld
  obtain ⟨A', sh, D', lo', hi', -, -, -, -, hL'⟩ := Lattice.build_ok hp hok
  refine ⟨hworld, by rw [hL'], A, table, ?_⟩
  exact
    { reach := by rw [hworld]; exact hr
      near := by rw [hworld]; exact h
      steps := hst
      analysis := by rw [hS]; exact hA
      data := hD
      sites := by rw [hS]; exact hsites
      nodup := hnd
      comp := by rw [hS]; exact hcomp
      set := hset
      rect := ⟨width, hrect⟩
      shape := by rw [hL']; simp
      whole := by rw [hS]; exact hw }

/-! ## C111 -/

/-- C111 for structures whose connections are those between nearest sites at most one cell away (in
a form for which all translations are tried, see `NearSteps`): if the built sites are those of whole
cells, `set_periodic` succeeds for axes along which there are at least three cells, and makes the
lattice a torus. -/
theorem C111_torus_partial (hd : 0 < d) {env : Env ℝ} {L L' : Lattice d ℝ}
    (hr : Reachable env L.world) {r : ℝ} {N : ℕ → Set (Idx d)} (h : NearestOnly L.world r N)
    (hst : NearSteps N) {a : BuildArgs d ℝ} (hm : a.minNeighbors = none) (hp : a.periodic = none)
    (hb : a.bits = none) (hok : L.build env a = (L', .ok ()))
    (hprim : a.primitive = true ∨ Orthogonal L.struct.basis) {D : LatticeData d ℝ}
    (hD : L'.data = some D) {lo : Fin d → ℤ} {size : Fin d → ℕ}
    (hw : WholeCells L.struct D lo size) {axes : List ℕ} (hax : ∀ k ∈ axes, k < d)
    (h3 : ∀ k : Fin d, k.val ∈ axes → 3 ≤ size k) :
    ∃ L'', L'.setPeriodic env (.axes axes) = (L'', .ok ()) ∧
      IsTorus L.struct D size axes r L'' ∧
      ((∀ k : Fin d, k.val ∈ axes) → ∀ (i : ℕ) (p : Vec d ℝ), D.positions[i]? = some p →
        ∃ l, L''.neighbors i none false = .ok l ∧
          l.length = {x : Idx d | ∃ q, IsSitePos L.struct x q ∧ distance q p = r}.ncard) := by
  obtain ⟨hworld, hprim', A, table, hT⟩ := exists_isTiled hd hr h hst hm hp hb hok hD hw
  have hS : L'.struct = L.struct := congrArg World.struct hworld
  have := (hT.tiling hd).periodic hd hax h3 (by rw [hprim', hS]; exact hprim)
  rwa [hS] at this

/-- In one and two dimensions all translations are tried. -/
theorem nearSteps_planar (hd : d ≤ 2) {N : ℕ → Set (Idx d)}
    (h : ∀ (α : ℕ), ∀ x ∈ N α, ∀ k, |Idx.cell x k| ≤ 1) : NearSteps N := by
  intro α x hx
  refine ⟨h α x hx, fun a c hac _ _ => ⟨fun m h1 h2 => ?_, Or.inr ?_⟩⟩
  · exfalso
    have := a.isLt
    have := c.isLt
    have := m.isLt
    have : a.val ≠ c.val := fun e => hac (Fin.ext e)
    have : m.val ≠ a.val := fun e => h1 (Fin.ext e)
    have : m.val ≠ c.val := fun e => h2 (Fin.ext e)
    omega
  · have : a.val ≠ c.val := fun e => hac (Fin.ext e)
    have := a.isLt
    have := c.isLt
    omega

end Lattpy
