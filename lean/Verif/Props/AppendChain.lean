import Verif.Props.Append
import Verif.Props.PeriodicRing

/-!
# Property C68 for chains
-/

set_option autoImplicit false
set_option linter.unusedSectionVars false

namespace Lattpy

open Structure LatticeData

/-! ## spec -/

/-- The links of a site in cell `z` to the sites in the cells `c`, numbered from `offset`: all other
sites up to the distance `nb`. -/
noncomputable def chainFrom (nb : ℕ) (z : ℤ) (c : List ℤ) (offset : ℕ) :
    List (ℕ × Option (WithTop ℝ)) :=
  (c.zipIdx offset).filterMap fun p =>
    if p.1 ≠ z ∧ (p.1 - z).natAbs ≤ nb then
      some (p.2, some (((p.1 - z).natAbs : ℝ) : WithTop ℝ))
    else none

theorem chainFrom_append (nb : ℕ) (z : ℤ) (c1 c2 : List ℤ) (offset : ℕ) :
    chainFrom nb z (c1 ++ c2) offset =
      chainFrom nb z c1 offset ++ chainFrom nb z c2 (offset + c1.length) := by
  unfold chainFrom
  rw [List.zipIdx_append, List.filterMap_append]

theorem chainFrom_cons (nb : ℕ) (z x : ℤ) (c : List ℤ) (offset : ℕ) :
    chainFrom nb z (x :: c) offset = (if x ≠ z ∧ (x - z).natAbs ≤ nb then
      [(offset, some (((x - z).natAbs : ℝ) : WithTop ℝ))] else []) ++
      chainFrom nb z c (offset + 1) := by
  unfold chainFrom
  rw [List.zipIdx_cons, List.filterMap_cons]
  split
  · rename_i h
    split at h
    · cases h
    · rename_i h2; rw [if_neg h2]; rfl
  · rename_i y h
    split at h
    · rename_i h2; rw [if_pos h2]; cases h; rfl
    · cases h

theorem chainFrom_shift (nb : ℕ) (z t : ℤ) (c : List ℤ) (offset : ℕ) :
    chainFrom nb (z + t) (c.map (· + t)) offset = chainFrom nb z c offset := by
  induction c generalizing offset with
  | nil => rfl
  | cons x c ih =>
    rw [List.map_cons, chainFrom_cons, chainFrom_cons, ih]
    have h1 : x + t - (z + t) = x - z := by ring
    have h2 : x + t ≠ z + t ↔ x ≠ z := by simp
    rw [h1]
    simp only [h2]

theorem chainFrom_offset (nb : ℕ) (z : ℤ) (c : List ℤ) (n offset : ℕ) :
    (chainFrom nb z c offset).map (fun p => (p.1 + n, p.2)) = chainFrom nb z c (offset + n) := by
  induction c generalizing offset with
  | nil => rfl
  | cons x c ih =>
    rw [chainFrom_cons, chainFrom_cons, List.map_append, ih]
    congr 1
    · split <;> rfl
    · congr 1; omega

theorem mem_chainFrom {nb : ℕ} {z : ℤ} {c : List ℤ} {offset j : ℕ} {y : Option (WithTop ℝ)} :
    (j, y) ∈ chainFrom nb z c offset ↔ offset ≤ j ∧ ∃ x, c[j - offset]? = some x ∧ x ≠ z ∧
      (x - z).natAbs ≤ nb ∧ y = some (((x - z).natAbs : ℝ) : WithTop ℝ) := by
  unfold chainFrom
  rw [List.mem_filterMap]
  constructor
  · rintro ⟨p, hp, h⟩
    obtain ⟨h1, h2, h3⟩ := List.mem_zipIdx hp
    split at h
    · rename_i hc
      cases h
      exact ⟨h1, p.1, by rw [h3]; simp, hc.1, hc.2, rfl⟩
    · cases h
  · rintro ⟨h1, x, hx, h2, h3, rfl⟩
    refine ⟨(x, j), ?_, by rw [if_pos ⟨h2, h3⟩]⟩
    rw [List.mem_zipIdx_iff_le_and_getElem?_sub]
    exact ⟨h1, hx⟩

theorem chainFrom_nodup (nb : ℕ) (z : ℤ) (c : List ℤ) (offset : ℕ) :
    ((chainFrom nb z c offset).map Prod.fst).Nodup := by
  induction c generalizing offset with
  | nil => simp [chainFrom]
  | cons x c ih =>
    rw [chainFrom_cons, List.map_append]
    split
    · rw [List.map_cons, List.map_nil, List.singleton_append, List.nodup_cons]
      refine ⟨?_, ih _⟩
      intro h
      obtain ⟨p, hp, h⟩ := List.mem_map.1 h
      have := (mem_chainFrom.1 (show (p.1, p.2) ∈ _ from hp)).1
      dsimp only at h
      omega
    · rw [List.map_nil, List.nil_append]
      exact ih _

/-- No site of a chain has more than `2 nb` links. -/
theorem chainFrom_length_le (nb : ℕ) (z : ℤ) {c : List ℤ} (hc : c.Nodup) (offset : ℕ) :
    (chainFrom nb z c offset).length ≤ 2 * nb := by
  have h1 : (chainFrom nb z c offset).length =
      (c.filter fun x => decide (x ≠ z ∧ (x - z).natAbs ≤ nb)).length := by
    clear hc
    induction c generalizing offset with
    | nil => rfl
    | cons x c ih =>
      rw [chainFrom_cons, List.length_append, ih, List.filter_cons]
      simp only [decide_eq_true_eq]
      split <;> simp [Nat.add_comm]
  rw [h1]
  have h2 : (c.filter fun x => decide (x ≠ z ∧ (x - z).natAbs ≤ nb)).toFinset ⊆
      (Finset.Icc (z - nb) (z + nb)).erase z := by
    intro x hx
    rw [List.mem_toFinset, List.mem_filter, decide_eq_true_eq] at hx
    rw [Finset.mem_erase, Finset.mem_Icc]
    exact ⟨hx.2.1, by omega, by omega⟩
  have h3 := Finset.card_le_card h2
  rw [List.toFinset_card_of_nodup (hc.filter _), Finset.card_erase_of_mem (by
    rw [Finset.mem_Icc]; omega), Int.card_Icc] at h3
  omega

theorem linksWithin_chain {nb : ℕ} {r : ℝ} (h1 : (nb : ℝ) ≤ r) (h2 : r < nb + 1)
    {vals : List (WithTop ℝ)} (hall : ∀ m : ℕ, 0 < m → m ≤ nb → ((m : ℝ) : WithTop ℝ) ∈ vals)
    {z : ℤ} {c : List ℤ} (hz : z ∉ c) (offset : ℕ) :
    linksWithin vals (fun _ : Fin 1 => (z : ℝ)) (c.map fun x : ℤ => fun _ : Fin 1 => (x : ℝ)) r
      offset = chainFrom nb z c offset := by
  induction c generalizing offset with
  | nil => rfl
  | cons x c ih =>
    rw [chainFrom_cons, ← ih (fun h => hz (by simp [h]))]
    have hxz : x ≠ z := fun h => hz (by simp [h])
    have hd : distance (fun _ : Fin 1 => (z : ℝ)) (fun _ => (x : ℝ)) = ((x - z).natAbs : ℝ) := by
      rw [distance_one, Nat.cast_natAbs, Int.cast_abs, abs_sub_comm]
      push_cast
      rfl
    have hle : ((x - z).natAbs : ℝ) ≤ r ↔ (x - z).natAbs ≤ nb := by
      constructor
      · intro h
        have : ((x - z).natAbs : ℝ) < ((nb + 1 : ℕ) : ℝ) := by push_cast; linarith
        have : (x - z).natAbs < nb + 1 := by exact_mod_cast this
        omega
      · intro h
        have : ((x - z).natAbs : ℝ) ≤ nb := by exact_mod_cast h
        linarith
    unfold linksWithin
    rw [List.map_cons, List.length_cons, List.range_succ_eq_map, List.filter_cons, List.filter_map]
    simp only [List.getD_cons_zero, decide_eq_true_eq, hd, hle, ne_eq, hxz, not_false_eq_true,
      true_and]
    split
    · rename_i hx
      have hst : storedLink vals (offset + 0) (((x - z).natAbs : ℝ) : WithTop ℝ) =
          some (offset, some (((x - z).natAbs : ℝ) : WithTop ℝ)) := by
        unfold storedLink
        rw [storedAbove_of_mem (hall _ (by omega) hx), if_neg (by simp)]
        rfl
      rw [List.filterMap_cons, List.getD_cons_zero, hd, hst]
      simp [List.filterMap_map, Function.comp_def, Nat.add_assoc, Nat.add_comm 1]
    · simp [List.filterMap_map, Function.comp_def, Nat.add_assoc, Nat.add_comm 1]

/-- The data of a chain with the cells `c` and `nb` neighbour shells, rows of width `w`. -/
structure ChainData (nb : ℕ) (c : List ℤ) (w : ℕ) (D : LatticeData 1 ℝ) : Prop where
  rect : D.Rect w
  entry : ∀ r ∈ D.entries, ∀ e ∈ r,
      e.level < D.invalidDistidx ∧ e.nbr ≠ D.invalidIdx ∨ e.level = D.invalidDistidx
  sorted : D.distvals.Pairwise (· < ·)
  top : D.distvals[D.invalidDistidx]? = some ⊤
  indices : D.indices = c.map fun z : ℤ => Idx.mk (fun _ => z) 0
  positions : D.positions = c.map fun z : ℤ => fun _ => (z : ℝ)
  links : ∀ i z, c[i]? = some z → (D.linksOf i).Perm (chainFrom nb z c 0)
  nodup : c.Nodup
  ne : c ≠ []

theorem zip_self_eq {α : Type*} (r : List α) : r.zip r = r.map fun a => (a, a) := by
  induction r with
  | nil => rfl
  | cons x r ih => simp [ih]

/-- The stored row of a site, read through `distvals[distances]`. -/
theorem row_links {d : ℕ} {K : Type*} [LinearOrder K] {D : LatticeData d K}
    (hc : D.Cols D.entries) (hs : D.distvals.Pairwise (· < ·))
    (ht : D.distvals[D.invalidDistidx]? = some ⊤)
    (hl : ∀ r ∈ D.entries, ∀ e ∈ r, e.level ≤ D.invalidDistidx) {j : ℕ} {nr : List ℕ}
    {dr : List (WithTop K)} (hn : D.neighbors[j]? = some nr) (hd : D.distTable[j]? = some dr) :
    ((nr.zip dr).filter fun p => decide (p.2 ≠ ⊤)).map (fun p => (p.1, some p.2)) =
      D.linksOf j := by
  rw [hc.nbr, List.getElem?_map, Option.map_eq_some_iff] at hn
  obtain ⟨r, hr, rfl⟩ := hn
  unfold distTable at hd
  rw [hc.level, List.getElem?_map, List.getElem?_map, hr] at hd
  obtain rfl := Option.some.inj hd
  have hm := List.mem_of_getElem? hr
  dsimp only
  rw [linksOf_of_row hc hr, List.map_map, List.zip_map, zip_self_eq, List.map_map, List.filter_map,
    List.map_map]
  have hget : ∀ e ∈ r, D.distvals[e.level]? = some (D.distvals.getD e.level ⊤) := by
    intro e he
    have h1 := (List.getElem?_eq_some_iff.1 ht).1
    have h2 : e.level < D.distvals.length := lt_of_le_of_lt (hl r hm e he) h1
    rw [List.getD_eq_getElem?_getD, List.getElem?_eq_getElem h2]
    rfl
  have hf : ∀ e ∈ r, (D.distvals.getD e.level ⊤ ≠ ⊤ ↔ e.level < D.invalidDistidx) := by
    intro e he
    obtain ⟨t1, t2⟩ := List.getElem?_eq_some_iff.1 ht
    have h2 : e.level < D.distvals.length := lt_of_le_of_lt (hl r hm e he) t1
    constructor
    · intro h
      refine lt_of_le_of_ne (hl r hm e he) fun h' => h ?_
      rw [List.getD_eq_getElem?_getD, h', ht]
      rfl
    · intro h h'
      have := List.pairwise_iff_getElem.1 hs _ _ h2 t1 h
      rw [t2] at this
      have h3 := hget e he
      rw [h', List.getElem?_eq_getElem h2] at h3
      rw [Option.some.inj h3] at this
      exact lt_irrefl _ this
  have he : r.filter ((fun p : ℕ × WithTop K => decide (p.2 ≠ ⊤)) ∘ (Prod.map Entry.nbr
      ((fun x => D.distvals.getD x ⊤) ∘ Entry.level) ∘ fun a => (a, a))) =
      r.filter fun e => decide (e.level < D.invalidDistidx) := by
    apply List.filter_congr
    intro e he
    simp only [Function.comp_apply, Prod.map_apply, hf e he]
  rw [he]
  apply List.map_congr_left
  intro e he
  simp only [Function.comp_apply, Prod.map_apply, hget e (List.mem_filter.1 he).1]

namespace ChainData

variable {nb : ℕ} {c : List ℤ} {w : ℕ} {D : LatticeData 1 ℝ}

theorem numSites (h : ChainData nb c w D) : D.numSites = c.length := by
  unfold LatticeData.numSites
  rw [h.indices, List.length_map]

theorem level_le (h : ChainData nb c w D) : ∀ r ∈ D.entries, ∀ e ∈ r,
    e.level ≤ D.invalidDistidx := by
  intro r hr e he
  rcases h.entry r hr e he with h1 | h1 <;> omega

/-- The distances in the table. -/
theorem mem_table (h : ChainData nb c w D) {x : WithTop ℝ} (hx : x ∈ D.distTable.flatten) :
    x = ⊤ ∨ ∃ m : ℕ, 0 < m ∧ m ≤ nb ∧ x = ((m : ℝ) : WithTop ℝ) ∧
      ∃ a ∈ c, ∃ b ∈ c, m = (b - a).natAbs := by
  obtain ⟨dr, hdr, hxd⟩ := List.mem_flatten.1 hx
  obtain ⟨j, hj⟩ := List.mem_iff_getElem?.1 hdr
  have hlen : D.distTable.length = D.neighbors.length := by
    unfold distTable
    rw [List.length_map, h.rect.distances.1, h.rect.neighbors.1]
  have hjl : j < D.neighbors.length := by
    rw [← hlen]; exact (List.getElem?_eq_some_iff.1 hj).1
  have hrow := row_links h.rect.cols h.sorted h.top h.level_le (List.getElem?_eq_getElem hjl) hj
  by_cases htop : x = ⊤
  · exact Or.inl htop
  right
  obtain ⟨m, hm⟩ := List.mem_iff_getElem?.1 hxd
  have hw1 : (D.neighbors[j]).length = w := h.rect.neighbors.2 _ (List.getElem_mem _)
  have hw2 : dr.length = w := by
    unfold distTable at hdr
    obtain ⟨q, hq, rfl⟩ := List.mem_map.1 hdr
    rw [List.length_map]
    exact h.rect.distances.2 q hq
  have hml : m < (D.neighbors[j]).length := by
    rw [hw1, ← hw2]; exact (List.getElem?_eq_some_iff.1 hm).1
  have hmem : ((D.neighbors[j])[m], some x) ∈ D.linksOf j := by
    rw [← hrow]
    refine List.mem_map.2 ⟨((D.neighbors[j])[m], x), List.mem_filter.2 ⟨?_, by simpa using htop⟩, rfl⟩
    refine List.mem_of_getElem? (i := m) ?_
    rw [List.getElem?_zip_eq_some]
    exact ⟨List.getElem?_eq_getElem hml, hm⟩
  have hjc : j < c.length := by
    rw [h.rect.neighbors.1, h.numSites] at hjl; exact hjl
  obtain ⟨-, y, h1, h2, h3, h4⟩ := mem_chainFrom.1
    ((h.links j _ (List.getElem?_eq_getElem hjc)).mem_iff.1 hmem)
  exact ⟨_, by omega, h3, Option.some.inj h4, _, List.getElem_mem hjc, _, List.mem_of_getElem? h1,
    rfl⟩

/-- Stored distances. -/
theorem table_mem (h : ChainData nb c w D) {a b : ℤ} (ha : a ∈ c) (hb : b ∈ c) (hab : a ≠ b)
    (hle : (b - a).natAbs ≤ nb) : (((b - a).natAbs : ℝ) : WithTop ℝ) ∈ D.distTable.flatten := by
  obtain ⟨i, hi⟩ := List.mem_iff_getElem?.1 ha
  obtain ⟨j, hj⟩ := List.mem_iff_getElem?.1 hb
  have hmem := (h.links i a hi).mem_iff.2 (mem_chainFrom.2 ⟨Nat.zero_le _, b,
    (by simpa using hj : c[j - 0]? = some b), hab.symm, hle, rfl⟩)
  have hil : i < D.neighbors.length := by
    rw [h.rect.neighbors.1, h.numSites]; exact (List.getElem?_eq_some_iff.1 hi).1
  have hlen : D.distTable.length = D.neighbors.length := by
    unfold distTable
    rw [List.length_map, h.rect.distances.1, h.rect.neighbors.1]
  have hil2 : i < D.distTable.length := by rw [hlen]; exact hil
  rw [← row_links h.rect.cols h.sorted h.top h.level_le (List.getElem?_eq_getElem hil)
    (List.getElem?_eq_getElem hil2)] at hmem
  obtain ⟨p, hp, hpe⟩ := List.mem_map.1 hmem
  have h2 := (List.of_mem_zip (show (p.1, p.2) ∈ _ from (List.mem_filter.1 hp).1)).2
  have h3 := Option.some.inj (congrArg Prod.snd hpe)
  rw [h3] at h2
  exact List.mem_flatten.2 ⟨_, List.getElem_mem hil2, h2⟩

end ChainData

theorem set_tables {d : ℕ} {K : Type*} [LinearOrder K] {indices : List (Idx d)}
    {positions : List (Vec d K)} {table : List (List (ℕ × WithTop K))} {D : LatticeData d K}
    (hset : LatticeData.set indices positions (table.map fun r => r.map Prod.fst)
        (table.map fun r => r.map Prod.snd) = .ok D) (htop : ⊤ ∈ D.distvals)
    (h256 : D.distvals.length ≤ 256) :
    D.neighbors = (table.map fun r => r.map Prod.fst) ∧
    D.distTable = table.map fun r => r.map Prod.snd := by
  obtain ⟨hc, -, -, -, -, hlev⟩ := set_cols hset htop h256
  constructor
  · rw [hc.nbr, List.map_map]
    apply List.map_congr_left
    intro r hr
    rw [Function.comp_apply, List.map_map]
    rfl
  · unfold distTable
    rw [hc.level, List.map_map, List.map_map]
    apply List.map_congr_left
    intro r hr
    rw [Function.comp_apply, Function.comp_apply, List.map_map, List.map_map]
    apply List.map_congr_left
    intro e he
    have := (hlev r hr e he).1
    simp only [Function.comp_apply]
    change D.distvals.getD (searchsorted D.distvals e.2) ⊤ = e.2
    rw [List.getD_eq_getElem?_getD, this]
    rfl

/-- The radius of the search for interface links. -/
def ShellRadius (nb : ℕ) (A : Analysis 1 ℝ) (r : ℝ) : Prop :=
  (∃ k, queryParams A = .ok (k, r)) ∧ (nb : ℝ) ≤ r ∧ r < nb + 1

namespace IsBuiltChain

variable {env : Env ℝ} {nb N : ℕ} {keep : ℕ → Bool} {w : World 1 ℝ} {A : Analysis 1 ℝ}
  {L : Lattice 1 ℝ} {D : LatticeData 1 ℝ} {table : List (List (ℕ × WithTop ℝ))}

theorem radius (h : IsBuiltChain env nb N keep w A L D table) (hnb : 0 < nb) :
    ∃ r, ShellRadius nb A r := by
  obtain ⟨cells, m, c, hcells, -, hsym, -, -, hI⟩ :=
    (h.reach.good Nat.one_pos).analysis A h.analysis
  obtain ⟨k, r, hq⟩ := computeNeighbors_params h.analysis h.comp
  refine ⟨r, ⟨k, hq⟩, ?_⟩
  obtain ⟨-, -, -, M, y, hr, hy, hymin, hM, hmax⟩ := hI.queryParams hq
  have hnum : w.struct.numBase = 1 := by
    rw [← (h.reach.good Nat.one_pos).positions_length, h.positions]; rfl
  have h1 : (nb : ℝ) ≤ M := hmax 0 0 nb ((h.configured _).2 ⟨nb, hnb, le_rfl, rfl⟩)
  have hy1 : y ≤ 1 := hymin 1 h.raw
  have hy0 : 0 ≤ y := by
    obtain ⟨a, ha, b, hb, hyl⟩ := hI.mem_raw.1 hy
    exact le_of_lt (mem_levels.1 (List.mem_of_mem_take hyl)).1
  have h2 : M ≤ nb := by
    rcases hM with rfl | ⟨a, b, hab⟩
    · positivity
    · obtain ⟨x0, x1, row, l, g1, g2, g3⟩ := hab
      have hdim : a = 0 ∧ b = 0 := by
        rw [hI.distMatrix, hnum] at g1
        have k1 : a.toNat < 1 := by simpa using (List.getElem?_eq_some_iff.1 g1).1
        have ka : a = 0 := by omega
        subst ka
        have k2 : row = (List.range 1).map fun b =>
            (w.struct.levels cells 0 b).take (c.entry 0 b) := by
          simpa using g1.symm
        rw [k2] at g2
        have k3 : b.toNat < 1 := by simpa using (List.getElem?_eq_some_iff.1 g2).1
        exact ⟨rfl, by omega⟩
      obtain ⟨rfl, rfl⟩ := hdim
      obtain ⟨m, -, hm, hMm⟩ := (h.configured M).1 ⟨le_rfl, le_rfl, row, l, g1, g2, g3⟩
      rw [hMm]
      exact_mod_cast hm
  constructor <;> linarith

/-- The cells of a built chain, as integers. -/
def cells (N : ℕ) (keep : ℕ → Bool) : List ℤ := (chainCells N keep).map fun i : ℕ => (i : ℤ)

theorem chainData (h : IsBuiltChain env nb N keep w A L D table)
    (hne : 0 < (chainCells N keep).length) {width : ℕ} (hr : D.Rect width) :
    ChainData nb (cells N keep) width D := by
  obtain ⟨-, -, hv⟩ := h.rect
  obtain ⟨hc, -, -, hii, -, hlev⟩ := set_cols h.set h.top h.levels
  have hnd : (cells N keep).Nodup := by
    refine (cells_nodup N keep).map ?_
    intro i j hij
    exact Int.ofNat_inj.1 hij
  constructor
  · exact hr
  · intro r hr e he
    rcases hv.entry r hr e he with h1 | h1
    · left
      rw [hv.invalidIdx]
      exact ⟨h1.1, by omega⟩
    · exact Or.inr h1.1
  · exact h.sorted
  · obtain ⟨row, hrow, e, he, hx⟩ := (Lattpy.mem_distvals h.set _).1 h.top
    obtain ⟨g1, g2, g3⟩ := hlev row hrow e he
    rw [hx] at g1 g2 g3
    have : searchsorted D.distvals ⊤ = D.invalidDistidx := by
      by_contra hne
      exact absurd rfl (g3.1 (lt_of_le_of_ne g2 hne))
    rwa [this] at g1
  · rw [h.indices, cells, List.map_map]
    rfl
  · rw [h.sites, cells, List.map_map]
    apply List.map_congr_left
    intro i _
    funext k
    simp
  · intro i z hz
    have hi : i < (chainCells N keep).length := by
      have := (List.getElem?_eq_some_iff.1 hz).1
      rwa [cells, List.length_map] at this
    have hit : i < table.length := by rw [h.length]; exact hi
    have hrow := List.getElem?_eq_getElem hit
    obtain ⟨width', hrows⟩ := h.rows
    have hlinks : D.linksOf i = ((table[i]).filter fun p => decide (p.2 ≠ ⊤)).map
        (fun p => (p.1, some p.2)) := by
      rw [linksOf_of_row (r := (table[i]).map (builtEntry D.distvals)) hc (by
        rw [List.getElem?_map, hrow]; rfl), List.filter_map, List.map_map]
      have : (table[i]).filter ((fun e : Entry 1 => decide (e.level < D.invalidDistidx)) ∘
          builtEntry D.distvals) = (table[i]).filter fun p => decide (p.2 ≠ ⊤) := by
        apply List.filter_congr
        intro e he
        have := (hlev _ (List.getElem_mem hit) e he).2.2
        rw [Function.comp_apply, decide_eq_decide]
        exact this
      rw [this]
      apply List.map_congr_left
      intro e he
      have := (hlev _ (List.getElem_mem hit) e (List.mem_filter.1 he).1).1
      rw [Function.comp_apply]
      exact Prod.ext rfl this
    rw [hlinks]
    refine (List.perm_ext_iff_of_nodup ?_ ?_).2 ?_
    · refine List.Nodup.of_map Prod.fst ?_
      rw [List.map_map]
      exact (hrows i _ hrow).2.2.2.2
    · exact (chainFrom_nodup nb z _ 0).of_map
    · rintro ⟨j, y⟩
      rw [mem_chainFrom]
      obtain ⟨a, ha, haz⟩ : ∃ a : ℕ, (chainCells N keep)[i]? = some a ∧ (a : ℤ) = z := by
        rw [cells, List.getElem?_map, Option.map_eq_some_iff] at hz
        exact hz
      constructor
      · intro hy
        obtain ⟨p, hp, hpe⟩ := List.mem_map.1 hy
        obtain ⟨hp1, hp2⟩ := List.mem_filter.1 hp
        obtain ⟨x, hx⟩ := WithTop.ne_top_iff_exists.1 (of_decide_eq_true hp2)
        obtain ⟨a', b, e1, e2, e3, e4, e5, e6⟩ := (h.links i p.1 x).1 ⟨_, hrow, by
          rw [hx]; exact hp1⟩
        rw [ha] at e1
        cases e1
        cases hpe
        refine ⟨Nat.zero_le _, (b : ℤ), ?_, ?_, ?_, ?_⟩
        · rw [cells, List.getElem?_map, Nat.sub_zero, e2]; rfl
        · rw [← haz]; exact_mod_cast e3.symm
        · omega
        · rw [← hx, e4, ← haz, Nat.cast_natAbs, Int.cast_abs]
          push_cast
          rfl
      · rintro ⟨-, x, hx, h2, h3, rfl⟩
        obtain ⟨b, hb, hbx⟩ : ∃ b : ℕ, (chainCells N keep)[j]? = some b ∧ (b : ℤ) = x := by
          rw [cells, List.getElem?_map, Nat.sub_zero, Option.map_eq_some_iff] at hx
          exact hx
        obtain ⟨row, hrow', he⟩ := (h.links i j _).2 ⟨a, b, ha, hb, by
          rintro rfl; exact h2 (hbx.symm.trans haz), rfl, by omega, by omega⟩
        rw [hrow] at hrow'
        cases hrow'
        refine List.mem_map.2 ⟨_, List.mem_filter.2 ⟨he, by simp⟩, ?_⟩
        rw [← haz, ← hbx, Nat.cast_natAbs, Int.cast_abs]
        push_cast
        rfl
  · exact hnd
  · rw [cells, ne_eq, List.map_eq_nil_iff]
    exact List.ne_nil_of_length_pos hne

end IsBuiltChain

theorem LatticeData.Open.rect {d : ℕ} {K : Type*} [LinearOrder K] {E : LatticeData d K} {N w : ℕ}
    (h : E.Open N w) (hp : E.positions.length = E.numSites) (hN : E.numSites = N) : E.Rect w := by
  have key : ∀ {α : Type} (f : Entry d → α), (E.entries.map (List.map f)).length = E.numSites ∧
      ∀ r ∈ E.entries.map (List.map f), r.length = w := by
    intro α f
    refine ⟨by rw [List.length_map, h.length, hN], ?_⟩
    intro r hr
    obtain ⟨q, hq, rfl⟩ := List.mem_map.1 hr
    rw [List.length_map]
    exact (h.rows q hq).1
  constructor
  · exact hp
  · rw [h.cols.nbr]; exact key _
  · rw [h.cols.level]; exact key _
  · rw [h.cols.per]; exact key _
  · rw [h.cols.nvec]; exact key _
  · rw [h.cols.axes]; exact key _

theorem subperm_eq_length {α : Type*} {s l : List α} (h : s.Subperm l) (hl : s.length = l.length) :
    s.Perm l := by
  obtain ⟨t, ht, hs⟩ := h
  have := hs.eq_of_length (by rw [← hl, ht.length_eq])
  rw [← this]
  exact ht.symm

namespace Lattice

/-- The interface of two chains. -/
theorem chain_interface (env : Env ℝ) {L : Lattice 1 ℝ} {D D2 : LatticeData 1 ℝ}
    (hdata : L.data = some D) {A : Analysis 1 ℝ} (hA : L.struct.analysis = some A) {nb : ℕ}
    (h255 : nb ≤ 255) {k : ℕ} {r : ℝ} (hq : queryParams A = .ok (k, r)) {c1 c2 : List ℤ} {w1 w2 : ℕ}
    (h1 : ChainData nb c1 w1 D) (h2 : ChainData nb c2 w2 D2) (hinf : ⊤ ∈ D2.distTable.flatten)
    {side : Bool} {v : Fin 1 → ℤ}
    (hvec : periodicVector L.struct.basis (if side then D.indices else D2.indices) [0]
      (L.primitive.getD false) = .ok v) :
    ∃ L' E, L.appendSites env D2.indices D2.positions D2.neighbors D2.distTable 0 side none false =
        (L', .ok ()) ∧
      L'.data = some E ∧ L'.world = L.world ∧ L'.primitive = L.primitive ∧
      L'.periodicAxes = L.periodicAxes ∧
      E.indices = D.indices ++ D2.indices.map (shiftIdx (if side then v else -v)) ∧
      E.positions = D.positions ++
        D2.positions.map (L.struct.basis.translate (if side then v else -v)) ∧
      E.Open (c1.length + c2.length) (max w1 w2) ∧
      E.invalidIdx = c1.length + c2.length ∧
      (∀ i < c1.length, ∃ s, s.Subperm (linksWithin (D.distTable.flatten ++ D2.distTable.flatten)
          (D.positions.getD i 0)
          (D2.positions.map (L.struct.basis.translate (if side then v else -v))) r c1.length) ∧
        s.length = min (max w1 w2 - (D.linksOf i).length)
          (linksWithin (D.distTable.flatten ++ D2.distTable.flatten) (D.positions.getD i 0)
          (D2.positions.map (L.struct.basis.translate (if side then v else -v))) r
            c1.length).length ∧
        (E.linksOf i).Perm (D.linksOf i ++ s)) ∧
      (∀ (j : ℕ) q nr dr, D2.positions[j]? = some q → D2.neighbors[j]? = some nr →
        D2.distTable[j]? = some dr →
        ∃ s, s.Subperm (linksWithin (D.distTable.flatten ++ D2.distTable.flatten)
            (L.struct.basis.translate (if side then v else -v) q) D.positions r 0) ∧
          s.length = min (max w1 w2 - ((nr.zip dr).filter fun p => decide (p.2 ≠ ⊤)).length)
            (linksWithin (D.distTable.flatten ++ D2.distTable.flatten)
              (L.struct.basis.translate (if side then v else -v) q) D.positions r 0).length ∧
          (E.linksOf (c1.length + j)).Perm ((((nr.zip dr).filter fun p => decide (p.2 ≠ ⊤)).map
            fun p => (p.1 + c1.length, some p.2)) ++ s)) := by
  have hl2 : D2.positions.length = c2.length := by rw [h2.positions, List.length_map]
  have hi2 : D2.indices.length = c2.length := by rw [h2.indices, List.length_map]
  have hlen2 : D2.distTable.length = D2.distances.length := by
    unfold distTable; rw [List.length_map]
  have hrow2 : ∀ q ∈ D2.distTable, q.length = w2 := by
    unfold distTable
    intro q hq
    obtain ⟨q', hq', rfl⟩ := List.mem_map.1 hq
    rw [List.length_map]
    exact h2.rect.distances.2 q' hq'
  have hw2 : 0 < w2 := by
    obtain ⟨q, hq, hx⟩ := List.mem_flatten.1 hinf
    rw [← hrow2 q hq]
    exact List.length_pos_of_mem hx
  have key :=
    C68_interface_partial env hdata hA hq h1.rect h1.entry
      (by rw [h1.numSites]; exact List.length_pos_of_ne_nil h1.ne) h1.sorted h1.top D2.indices
      D2.positions D2.neighbors D2.distTable (by rw [hl2, hi2])
      (by rw [hi2]; exact List.length_pos_of_ne_nil h2.ne) hw2
      ⟨h2.rect.neighbors.1, h2.rect.neighbors.2⟩ ⟨by rw [hlen2]; exact h2.rect.distances.1, hrow2⟩
      (by
        intro j nr dr hnr hdr p hp hpt
        have hmem : (p.1, some p.2) ∈ D2.linksOf j := by
          rw [← row_links h2.rect.cols h2.sorted h2.top h2.level_le hnr hdr]
          exact List.mem_map.2 ⟨p, List.mem_filter.2 ⟨hp, by simpa using hpt⟩, rfl⟩
        have hj : j < c2.length := by
          rw [← h2.numSites, ← h2.rect.neighbors.1]
          exact (List.getElem?_eq_some_iff.1 hnr).1
        obtain ⟨-, x, hx, -⟩ := mem_chainFrom.1
          ((h2.links j _ (List.getElem?_eq_getElem hj)).mem_iff.1 hmem)
        rw [hi2]
        simpa using (List.getElem?_eq_some_iff.1 hx).1.le)
      (Or.inr (Or.inl hinf))
      (by
        have hsub : (⊤ :: (D.distTable.flatten ++ D2.distTable.flatten)).dedup ⊆
            ⊤ :: (List.range nb).map fun m : ℕ => (((m + 1 : ℕ) : ℝ) : WithTop ℝ) := by
          intro x hx
          rw [List.mem_dedup, List.mem_cons, List.mem_append] at hx
          have key : x = ⊤ ∨ ∃ m : ℕ, 0 < m ∧ m ≤ nb ∧ x = ((m : ℝ) : WithTop ℝ) := by
            rcases hx with hx | hx | hx
            · exact Or.inl hx
            · exact (h1.mem_table hx).imp_right fun ⟨m, m1, m2, m3, _⟩ => ⟨m, m1, m2, m3⟩
            · exact (h2.mem_table hx).imp_right fun ⟨m, m1, m2, m3, _⟩ => ⟨m, m1, m2, m3⟩
          rcases key with rfl | ⟨m, m1, m2, rfl⟩
          · exact List.mem_cons_self
          · refine List.mem_cons_of_mem _ (List.mem_map.2 ⟨m - 1, List.mem_range.2 (by omega), ?_⟩)
            rw [Nat.sub_add_cancel m1]
        have := ((List.nodup_dedup _).subperm hsub).length_le
        rw [List.length_cons, List.length_map, List.length_range] at this
        omega)
      hvec
  rw [h1.numSites, hi2] at key
  exact key

/-- One chain joined to another.  If no two sites coincide and the rows have room for `2 nb`
neighbours, the result is the chain of all sites. -/
theorem chain_step (env : Env ℝ) {L : Lattice 1 ℝ} {D D2 : LatticeData 1 ℝ}
    (hdata : L.data = some D) {A : Analysis 1 ℝ} (hA : L.struct.analysis = some A) {nb : ℕ}
    (h255 : nb ≤ 255) {r : ℝ} (hr : ShellRadius nb A r) (hb : L.struct.basis = chainBasis 1)
    {c1 c2 : List ℤ} {w1 w2 : ℕ}
    (h1 : ChainData nb c1 w1 D) (h2 : ChainData nb c2 w2 D2) (hw : 2 * nb ≤ max w1 w2)
    (hinf : ⊤ ∈ D2.distTable.flatten)
    (hall : ∀ m : ℕ, 0 < m → m ≤ nb → ((m : ℝ) : WithTop ℝ) ∈
      D.distTable.flatten ++ D2.distTable.flatten)
    {side : Bool} {v : Fin 1 → ℤ}
    (hvec : periodicVector L.struct.basis (if side then D.indices else D2.indices) [0]
      (L.primitive.getD false) = .ok v)
    (hdisj : ∀ x ∈ c1, ∀ y ∈ c2, x ≠ y + (if side then v else -v) 0) :
    ∃ L' E, L.appendSites env D2.indices D2.positions D2.neighbors D2.distTable 0 side none false =
        (L', .ok ()) ∧
      L'.data = some E ∧ L'.world = L.world ∧ L'.primitive = L.primitive ∧
      L'.periodicAxes = L.periodicAxes ∧
      ChainData nb (c1 ++ c2.map (· + (if side then v else -v) 0)) (max w1 w2) E := by
  obtain ⟨⟨k, hq⟩, hr1, hr2⟩ := hr
  set n : Fin 1 → ℤ := if side then v else -v with hn
  have hl1 : D.positions.length = c1.length := by rw [h1.positions, List.length_map]
  have hl2 : D2.positions.length = c2.length := by rw [h2.positions, List.length_map]
  have hi2 : D2.indices.length = c2.length := by rw [h2.indices, List.length_map]
  have hlen2 : D2.distTable.length = D2.distances.length := by
    unfold distTable; rw [List.length_map]
  have htr : ∀ y : ℤ, L.struct.basis.translate n (fun _ => (y : ℝ)) =
      fun _ => ((y + n 0 : ℤ) : ℝ) := by
    intro y
    funext k
    rw [hb, chain_translate]
    push_cast
    ring
  have hpos2 : D2.positions.map (L.struct.basis.translate n) =
      (c2.map (· + n 0)).map fun z : ℤ => fun _ => (z : ℝ) := by
    rw [h2.positions, List.map_map, List.map_map]
    apply List.map_congr_left
    intro y _
    exact htr y
  have hnd : (c1 ++ c2.map (· + n 0)).Nodup := by
    rw [List.nodup_append]
    refine ⟨h1.nodup, h2.nodup.map fun a b hab => by simpa using hab, ?_⟩
    intro x hx y hy
    obtain ⟨y', hy', rfl⟩ := List.mem_map.1 hy
    exact hdisj x hx y' hy'
  obtain ⟨L', E, e1, e2, e3, e4, e5, e6, e7, e8, e9, e10, e11⟩ :=
    chain_interface env hdata hA h255 hq h1 h2 hinf hvec
  rw [← hn, hpos2] at e10
  rw [← hn, h1.positions] at e11
  have hlinks : ∀ i z, (c1 ++ c2.map (· + n 0))[i]? = some z →
      (E.linksOf i).Perm (chainFrom nb z (c1 ++ c2.map (· + n 0)) 0) := by
    intro i z hz
    have htot := chainFrom_length_le nb z hnd 0
    rw [chainFrom_append, Nat.zero_add] at htot ⊢
    rw [List.length_append] at htot
    by_cases hi : i < c1.length
    · rw [List.getElem?_append_left hi] at hz
      obtain ⟨s, s1, s2, s3⟩ := e10 i hi
      have hp : D.positions.getD i 0 = fun _ => (z : ℝ) := by
        rw [h1.positions, List.getD_eq_getElem?_getD, List.getElem?_map, hz]; rfl
      have hzm : z ∉ c2.map (· + n 0) := by
        intro hm
        obtain ⟨y, hy, rfl⟩ := List.mem_map.1 hm
        exact hdisj _ (List.mem_of_getElem? hz) y hy rfl
      rw [hp, linksWithin_chain hr1 hr2 hall hzm] at s1 s2
      have hli := h1.links i z hz
      have := hli.length_eq
      have hs := subperm_eq_length s1 (by rw [s2]; omega)
      exact s3.trans (hli.append hs)
    · rw [List.getElem?_append_right (by omega), List.getElem?_map, Option.map_eq_some_iff] at hz
      obtain ⟨y, hy, rfl⟩ := hz
      have hj : i - c1.length < c2.length := (List.getElem?_eq_some_iff.1 hy).1
      have hnl : i - c1.length < D2.neighbors.length := by
        rw [h2.rect.neighbors.1, h2.numSites]; exact hj
      have hdl : i - c1.length < D2.distTable.length := by
        rw [hlen2, h2.rect.distances.1, h2.numSites]; exact hj
      obtain ⟨s, s1, s2, s3⟩ := e11 (i - c1.length) (fun _ => (y : ℝ)) _ _ (by
        rw [h2.positions, List.getElem?_map, hy]; rfl) (List.getElem?_eq_getElem hnl)
        (List.getElem?_eq_getElem hdl)
      have hrl := row_links h2.rect.cols h2.sorted h2.top h2.level_le
        (List.getElem?_eq_getElem hnl) (List.getElem?_eq_getElem hdl)
      have hzm : y + n 0 ∉ c1 := fun hm => hdisj _ hm y (List.mem_of_getElem? hy) rfl
      rw [htr, linksWithin_chain hr1 hr2 hall hzm] at s1 s2
      have hli := h2.links _ y hy
      have hlen := hli.length_eq
      rw [← hrl, List.length_map] at hlen
      rw [chainFrom_shift] at htot ⊢
      have hs := subperm_eq_length s1 (by
        rw [s2, hlen]
        have := congrArg List.length (chainFrom_offset nb y c2 c1.length 0)
        rw [List.length_map, Nat.zero_add] at this
        omega)
      rw [show c1.length + (i - c1.length) = i by omega] at s3
      refine s3.trans (List.Perm.trans ?_ List.perm_append_comm)
      refine List.Perm.append ?_ hs
      rw [show chainFrom nb y c2 c1.length = chainFrom nb y c2 (0 + c1.length) by rw [Nat.zero_add],
        ← chainFrom_offset]
      refine List.Perm.trans ?_ (hli.map _)
      rw [← hrl, List.map_map]
      rfl
  refine ⟨L', E, e1, e2, e3, e4, e5, ?_⟩
  have hpl : E.positions.length = c1.length + c2.length := by
    rw [e7, List.length_append, List.length_map, hl1, hl2]
  have hil : E.numSites = c1.length + c2.length := by
    unfold LatticeData.numSites
    rw [e6, List.length_append, List.length_map, hi2, h1.indices, List.length_map]
  constructor
  · exact e8.rect (by rw [hpl, hil]) hil
  · intro q hq e he
    obtain ⟨-, ⟨a, b, hab, ha, hb'⟩, -⟩ := e8.rows q hq
    rw [hab, List.mem_append] at he
    rcases he with he | he
    · left
      refine ⟨ha e he, ?_⟩
      obtain ⟨i, hi⟩ := List.mem_iff_getElem?.1 hq
      have hic : i < (c1 ++ c2.map (· + n 0)).length := by
        rw [List.length_append, List.length_map, ← e8.length]
        exact (List.getElem?_eq_some_iff.1 hi).1
      have hmem : (e.nbr, E.distvals[e.level]?) ∈ E.linksOf i := by
        rw [linksOf_of_row e8.cols hi]
        refine List.mem_map.2 ⟨e, List.mem_filter.2 ⟨?_, by simpa using ha e he⟩, rfl⟩
        rw [hab]
        exact List.mem_append_left _ he
      obtain ⟨-, x, hx, -⟩ := mem_chainFrom.1
        ((hlinks i _ (List.getElem?_eq_getElem hic)).mem_iff.1 hmem)
      have := (List.getElem?_eq_some_iff.1 hx).1
      rw [List.length_append, List.length_map] at this
      omega
    · exact Or.inr (hb' e he)
  · exact e8.sorted
  · exact e8.top
  · rw [e6, h1.indices, h2.indices, List.map_append, List.map_map, List.map_map]
    congr 1
    apply List.map_congr_left
    intro y _
    rw [← hn]
    simp only [Function.comp_apply, shiftIdx, Idx.cell_mk, Idx.alpha_mk]
    congr 1
    funext k
    rw [Subsingleton.elim k 0]
  · rw [e7, ← hn, hpos2, h1.positions, List.map_append]
  · exact hlinks
  · exact hnd
  · intro h
    exact h1.ne (List.append_eq_nil_iff.1 h).1

/-! ## spec -/

/-- The neighbour lists of `L` are those of a chain with `nb` shells and sites at `c`: the
neighbours of a site are the other sites up to the distance `nb`, each listed once, and the
neighbours at the level of `m` are those at the distance `m`. -/
def HasChainNeighbors (nb : ℕ) (c : List ℤ) (L : Lattice 1 ℝ) : Prop :=
  ∃ D, L.data = some D ∧ D.positions = c.map (fun z : ℤ => fun _ => (z : ℝ)) ∧
    ∀ (i : ℕ) (a : ℤ), c[i]? = some a →
      (∃ l, L.neighbors i none false = .ok l ∧ l.Nodup ∧
        ∀ j, j ∈ l ↔ ∃ b, c[j]? = some b ∧ b ≠ a ∧ (b - a).natAbs ≤ nb) ∧
      ∀ n m : ℕ, D.distvals[n]? = some ((m : ℝ) : WithTop ℝ) →
        ∃ l, L.neighbors i (some n) false = .ok l ∧ l.Nodup ∧
          ∀ j, j ∈ l ↔ ∃ b, c[j]? = some b ∧ b ≠ a ∧ (b - a).natAbs ≤ nb ∧ (b - a).natAbs = m

end Lattice

theorem ChainData.hasNeighbors {nb : ℕ} {c : List ℤ} {w : ℕ} {D : LatticeData 1 ℝ}
    (h : ChainData nb c w D) {L : Lattice 1 ℝ} (hL : L.data = some D) :
    L.HasChainNeighbors nb c := by
  refine ⟨D, hL, h.positions, ?_⟩
  intro i a ha
  have hi : i < D.numSites := by rw [h.numSites]; exact (List.getElem?_eq_some_iff.1 ha).1
  obtain ⟨r, hr, hm⟩ := h.rect.getElem?_entries hi
  have hl := h.links i a ha
  have hnd : ((D.linksOf i).map Prod.fst).Nodup :=
    ((hl.map Prod.fst).nodup_iff).2 (chainFrom_nodup nb a c 0)
  have hn : ∀ dist, L.neighbors i dist false = D.getNeighbors i dist none false := by
    intro dist
    unfold Lattice.neighbors
    rw [hL]
  constructor
  · refine ⟨_, by rw [hn]; exact getNeighbors_linksOf h.rect.cols hr, hnd, ?_⟩
    intro j
    rw [List.mem_map]
    constructor
    · rintro ⟨p, hp, rfl⟩
      obtain ⟨-, b, h1, h2, h3, -⟩ := mem_chainFrom.1 (hl.mem_iff.1 (show (p.1, p.2) ∈ _ from hp))
      exact ⟨b, h1, h2, h3⟩
    · rintro ⟨b, h1, h2, h3⟩
      exact ⟨(j, _), hl.mem_iff.2 (mem_chainFrom.2 ⟨Nat.zero_le _, b, h1, h2, h3, rfl⟩), rfl⟩
  · intro n m hnm
    have hsel : D.sel i (some n) none false = fun e : Entry 1 => decide (e.level = n) := by
      funext e; simp [sel]
    obtain ⟨t1, t2⟩ := List.getElem?_eq_some_iff.1 h.top
    obtain ⟨n1, n2⟩ := List.getElem?_eq_some_iff.1 hnm
    have hninv : n < D.invalidDistidx := by
      by_contra hge
      rcases Nat.lt_or_ge D.invalidDistidx n with hlt | hge'
      · have := List.pairwise_iff_getElem.1 h.sorted _ _ t1 n1 hlt
        rw [t2] at this
        exact not_top_lt this
      · have : n = D.invalidDistidx := by omega
        subst this
        rw [t2] at n2
        exact absurd n2 (by simp)
    have hlev : ∀ e ∈ r, (e.level = n ↔ e.level < D.invalidDistidx ∧
        D.distvals[e.level]? = some ((m : ℝ) : WithTop ℝ)) := by
      intro e he
      constructor
      · rintro rfl
        exact ⟨hninv, hnm⟩
      · rintro ⟨-, h2⟩
        obtain ⟨e1, e2⟩ := List.getElem?_eq_some_iff.1 h2
        rcases lt_trichotomy e.level n with hlt | heq | hlt
        · have := List.pairwise_iff_getElem.1 h.sorted _ _ e1 n1 hlt
          rw [e2, n2] at this
          exact absurd this (lt_irrefl _)
        · exact heq
        · have := List.pairwise_iff_getElem.1 h.sorted _ _ n1 e1 hlt
          rw [e2, n2] at this
          exact absurd this (lt_irrefl _)
    refine ⟨_, by rw [hn, h.rect.cols.getNeighbors i r hr, hsel], ?_, ?_⟩
    · refine List.Nodup.sublist (List.Sublist.map _ ?_) (by
        rw [linksOf_of_row h.rect.cols hr, List.map_map] at hnd; exact hnd)
      have : r.filter (fun e => decide (e.level = n)) = (r.filter fun e =>
          decide (e.level < D.invalidDistidx)).filter fun e => decide (e.level = n) := by
        rw [List.filter_filter]
        apply List.filter_congr
        intro e _
        rw [Bool.eq_iff_iff, Bool.and_eq_true]
        simp only [decide_eq_true_eq]
        omega
      rw [this]
      exact List.filter_sublist
    · intro j
      have hmem : (j, some ((m : ℝ) : WithTop ℝ)) ∈ D.linksOf i ↔
          j ∈ (r.filter fun e => decide (e.level = n)).map Entry.nbr := by
        rw [linksOf_of_row h.rect.cols hr, List.mem_map, List.mem_map]
        constructor
        · rintro ⟨e, he, hee⟩
          obtain ⟨e1, e2⟩ := List.mem_filter.1 he
          have h1 : e.nbr = j := congrArg Prod.fst hee
          have h2 : D.distvals[e.level]? = some ((m : ℝ) : WithTop ℝ) := congrArg Prod.snd hee
          exact ⟨e, List.mem_filter.2 ⟨e1, by
            rw [decide_eq_true_eq]
            exact (hlev e e1).2 ⟨of_decide_eq_true e2, h2⟩⟩, h1⟩
        · rintro ⟨e, he, rfl⟩
          obtain ⟨e1, e2⟩ := List.mem_filter.1 he
          have := (hlev e e1).1 (of_decide_eq_true e2)
          exact ⟨e, List.mem_filter.2 ⟨e1, by simpa using this.1⟩, by rw [this.2]⟩
      rw [← hmem, hl.mem_iff, mem_chainFrom]
      constructor
      · rintro ⟨-, b, h1, h2, h3, h4⟩
        refine ⟨b, h1, h2, h3, ?_⟩
        have := WithTop.coe_injective (Option.some.inj h4)
        exact_mod_cast this.symm
      · rintro ⟨b, h1, h2, h3, h4⟩
        exact ⟨Nat.zero_le _, b, h1, h2, h3, by rw [h4]⟩

theorem chainBasis_orthogonal : Orthogonal (chainBasis 1) :=
  ⟨fun _ => 1, fun _ => one_pos, by
    rw [← chain_init one_pos]
    congr 1
    ext i j
    rw [Subsingleton.elim i j]
    simp [chainRows]⟩

theorem ChainData.period {nb : ℕ} {c : List ℤ} {w : ℕ} {D : LatticeData 1 ℝ}
    (h : ChainData nb c w D) : ∃ v, Lattice.periodicVector (chainBasis 1) D.indices [0] false = .ok v ∧
      ∃ x ∈ c, ∃ y ∈ c, v 0 = x - y + 1 ∧ ∀ z ∈ c, y ≤ z ∧ z ≤ x := by
  obtain ⟨v, hv, -, hp⟩ := Lattice.periodicVector_spec (Or.inr chainBasis_orthogonal)
    (primitive := false) (indices := D.indices) (by
      rw [h.indices]; simpa using h.ne) (S := [0]) (by simp)
  refine ⟨v, hv, ?_⟩
  obtain ⟨x, y, hx, hy, hxy, hz⟩ := hp 0 (by simp)
  rw [h.indices] at hx hy hz
  obtain ⟨x', hx', rfl⟩ := List.mem_map.1 hx
  obtain ⟨y', hy', rfl⟩ := List.mem_map.1 hy
  simp only [Idx.cell_mk] at hxy hz
  refine ⟨x', hx', y', hy', hxy, ?_⟩
  intro z hz'
  have := hz _ (List.mem_map_of_mem hz')
  simpa using this

/-- The cells `0 … n - 1`. -/
def cellsFrom (n : ℕ) : List ℤ := (List.range n).map fun i : ℕ => (i : ℤ)

theorem cells_true (N : ℕ) : IsBuiltChain.cells N (fun _ => true) = cellsFrom (N + 1) := by
  rw [IsBuiltChain.cells, chainCells_true]
  rfl

theorem mem_cellsFrom {n : ℕ} {z : ℤ} : z ∈ cellsFrom n ↔ 0 ≤ z ∧ z < n := by
  rw [cellsFrom, List.mem_map]
  constructor
  · rintro ⟨i, hi, rfl⟩
    rw [List.mem_range] at hi
    omega
  · rintro ⟨h1, h2⟩
    exact ⟨z.toNat, List.mem_range.2 (by omega), by omega⟩

theorem cellsFrom_append (n m : ℕ) :
    cellsFrom n ++ (cellsFrom m).map (· + (n : ℤ)) = cellsFrom (n + m) := by
  unfold cellsFrom
  rw [List.range_add, List.map_append, List.map_map, List.map_map]
  congr 1
  apply List.map_congr_left
  intro i _
  simp only [Function.comp_apply]
  push_cast
  ring

theorem ChainData.period_from {nb n w : ℕ} {D : LatticeData 1 ℝ}
    (h : ChainData nb (cellsFrom n) w D) :
    ∃ v, Lattice.periodicVector (chainBasis 1) D.indices [0] false = .ok v ∧ v 0 = n := by
  obtain ⟨v, hv, x, hx, y, hy, hxy, hz⟩ := h.period
  refine ⟨v, hv, ?_⟩
  rw [mem_cellsFrom] at hx hy
  have h1 := hz 0 (mem_cellsFrom.2 (by omega))
  have h2 := hz (n - 1) (mem_cellsFrom.2 (by omega))
  omega

namespace IsBuiltChain

variable {env : Env ℝ} {nb N : ℕ} {keep : ℕ → Bool} {w : World 1 ℝ} {A : Analysis 1 ℝ}
  {L : Lattice 1 ℝ} {D : LatticeData 1 ℝ} {table : List (List (ℕ × WithTop ℝ))}

theorem full (h : IsBuiltChain env nb N (fun _ => true) w A L D table) :
    ∃ width, ChainData nb (cellsFrom (N + 1)) width D ∧ (2 * nb ≤ N → 2 * nb ≤ width) := by
  have hne : 0 < (chainCells N fun _ => true).length := by rw [chainCells_true]; simp
  by_cases hN : 2 * nb ≤ N
  · obtain ⟨-, -, -, width, hr, hw⟩ := h.ring_params hN
    exact ⟨width, by rw [← cells_true]; exact h.chainData hne hr, fun _ => hw⟩
  · obtain ⟨width, hr, -⟩ := h.rect
    exact ⟨width, by rw [← cells_true]; exact h.chainData hne hr, fun hc => absurd hc hN⟩

theorem inf_mem (h : IsBuiltChain env nb N keep w A L D table) : ⊤ ∈ D.distTable.flatten := by
  rw [(set_tables h.set h.top h.levels).2]
  obtain ⟨row, hrow, e, he, hx⟩ := (Lattpy.mem_distvals h.set _).1 h.top
  exact List.mem_flatten.2 ⟨_, List.mem_map_of_mem hrow, List.mem_map.2 ⟨e, he, hx⟩⟩

end IsBuiltChain

theorem ChainData.all_mem {nb n w : ℕ} {D : LatticeData 1 ℝ} (h : ChainData nb (cellsFrom n) w D)
    (hn : nb < n) {m : ℕ} (h0 : 0 < m) (hm : m ≤ nb) :
    ((m : ℝ) : WithTop ℝ) ∈ D.distTable.flatten := by
  have := h.table_mem (a := 0) (b := m) (mem_cellsFrom.2 (by omega)) (mem_cellsFrom.2 (by omega))
    (by omega) (by omega)
  simpa using this

namespace Lattice

/-- Two chains with the cells `0 … n1-1` and `0 … n2-1` joined at either side. -/
theorem chain_join (env : Env ℝ) {L : Lattice 1 ℝ} {D D2 : LatticeData 1 ℝ}
    (hdata : L.data = some D) {A : Analysis 1 ℝ} (hA : L.struct.analysis = some A) {nb : ℕ}
    (h255 : nb ≤ 255) {r : ℝ} (hr : ShellRadius nb A r) (hb : L.struct.basis = chainBasis 1)
    (hprim : L.primitive = some false) {n1 n2 w1 w2 : ℕ}
    (h1 : ChainData nb (cellsFrom n1) w1 D) (h2 : ChainData nb (cellsFrom n2) w2 D2)
    (hn : nb < max n1 n2) (hw : 2 * nb ≤ max w1 w2)
    (hinf : ⊤ ∈ D2.distTable.flatten) (side : Bool) :
    ∃ L' E, L.appendSites env D2.indices D2.positions D2.neighbors D2.distTable 0 side none false =
        (L', .ok ()) ∧
      L'.data = some E ∧ L'.world = L.world ∧ L'.primitive = L.primitive ∧
      L'.periodicAxes = L.periodicAxes ∧
      ChainData nb (cellsFrom n1 ++ (cellsFrom n2).map (· + if side then (n1 : ℤ) else -(n2 : ℤ)))
        (max w1 w2) E := by
  have hall : ∀ m : ℕ, 0 < m → m ≤ nb → ((m : ℝ) : WithTop ℝ) ∈
      D.distTable.flatten ++ D2.distTable.flatten := by
    intro m m0 m1
    rw [List.mem_append]
    rcases lt_max_iff.1 hn with hn | hn
    · exact Or.inl (h1.all_mem hn m0 m1)
    · exact Or.inr (h2.all_mem hn m0 m1)
  obtain ⟨v1, hv1, hv1'⟩ := h1.period_from
  obtain ⟨v2, hv2, hv2'⟩ := h2.period_from
  cases side
  · obtain ⟨L', E, e1, e2, e3, e4, e5, e6⟩ := chain_step env hdata hA h255 hr hb h1 h2 hw hinf hall
      (side := false) (v := v2) (by rw [hb, hprim]; exact hv2) (by
        intro x hx y hy
        rw [mem_cellsFrom] at hx hy
        simp only [Bool.false_eq_true, if_false, Pi.neg_apply, hv2']
        omega)
    refine ⟨L', E, e1, e2, e3, e4, e5, ?_⟩
    simpa [hv2'] using e6
  · obtain ⟨L', E, e1, e2, e3, e4, e5, e6⟩ := chain_step env hdata hA h255 hr hb h1 h2 hw hinf hall
      (side := true) (v := v1) (by rw [hb, hprim]; exact hv1) (by
        intro x hx y hy
        rw [mem_cellsFrom] at hx hy
        simp only [if_true, hv1']
        omega)
    refine ⟨L', E, e1, e2, e3, e4, e5, ?_⟩
    simpa [hv1'] using e6

/-- C68 for two chains (one atom per unit cell, `nb` neighbour shells) one of which has more than
`2 nb` sites: after `append` on either side the neighbours are exactly the sites up to the distance
`nb`, and the levels are right. -/
theorem C68_chain_partial (env : Env ℝ) {nb N M : ℕ} (hnb : 0 < nb) (h255 : nb ≤ 255)
    (hNM : 2 * nb ≤ max N M) {w : World 1 ℝ} {A : Analysis 1 ℝ} {L L2 : Lattice 1 ℝ}
    {D D2 : LatticeData 1 ℝ} {table table2 : List (List (ℕ × WithTop ℝ))}
    (h1 : IsBuiltChain env nb N (fun _ => true) w A L D table)
    (h2 : IsBuiltChain env nb M (fun _ => true) w A L2 D2 table2) (side : Bool) :
    ∃ L', L.append env L2 0 side none false = (L', .ok ()) ∧ L'.world = L.world ∧
      L'.HasChainNeighbors nb (cellsFrom (N + 1) ++
        (cellsFrom (M + 1)).map (· + if side then (N + 1 : ℤ) else -(M + 1 : ℤ))) := by
  obtain ⟨r, hr⟩ := h1.radius hnb
  obtain ⟨w1, c1, hw1⟩ := h1.full
  obtain ⟨w2, c2, hw2⟩ := h2.full
  obtain ⟨L', E, e1, e2, e3, -, -, e6⟩ := chain_join env h1.data
    (by unfold Lattice.struct; rw [h1.world]; exact h1.analysis) h255 hr
    (by unfold Lattice.struct; rw [h1.world]; exact h1.basis) h1.primitive c1 c2
    (by rcases le_max_iff.1 hNM with h | h
        · exact lt_max_of_lt_left (by omega)
        · exact lt_max_of_lt_right (by omega))
    (by rcases le_max_iff.1 hNM with h | h
        · exact le_max_of_le_left (hw1 h)
        · exact le_max_of_le_right (hw2 h)) h2.inf_mem side
  refine ⟨L', ?_, e3, ?_⟩
  · unfold Lattice.append
    rw [h2.data]
    exact e1
  · have := e6.hasNeighbors e2
    push_cast at this
    exact this

/-- A chain of four sites and one of three: the last site of the first chain and the first site of
the second become neighbours. -/
example (env : Env ℝ) : ∃ (L L2 L' : Lattice 1 ℝ) (l : List ℕ),
    L.append env L2 0 true none false = (L', .ok ()) ∧ L'.neighbors 3 none false = .ok l ∧
      4 ∈ l := by
  obtain ⟨w, A, h⟩ := exists_isBuiltChains env (nb := 1) (by norm_num) (by norm_num)
  obtain ⟨L, D, table, h1⟩ := h 3 (fun _ => true) (by rw [chainCells_true]; simp)
  obtain ⟨L2, D2, table2, h2⟩ := h 2 (fun _ => true) (by rw [chainCells_true]; simp)
  obtain ⟨L', e1, -, E, -, -, e3⟩ := C68_chain_partial env (by norm_num) (by norm_num) (by norm_num)
    h1 h2 true
  obtain ⟨⟨l, f1, -, f3⟩, -⟩ := e3 3 3 (by simp [cellsFrom, List.range_succ])
  exact ⟨L, L2, L', l, e1, f1, (f3 4).2 ⟨4, by simp [cellsFrom, List.range_succ], by norm_num,
    by norm_num⟩⟩

/-- A chain built directly. -/
theorem C68_direct {env : Env ℝ} {nb N : ℕ} {w : World 1 ℝ} {A : Analysis 1 ℝ} {L : Lattice 1 ℝ}
    {D : LatticeData 1 ℝ} {table : List (List (ℕ × WithTop ℝ))}
    (h : IsBuiltChain env nb N (fun _ => true) w A L D table) :
    L.HasChainNeighbors nb (cellsFrom (N + 1)) := by
  obtain ⟨w1, c1, -⟩ := h.full
  exact c1.hasNeighbors h.data

/-- New data has no periodic neighbours to clear. -/
theorem set_cleared {d : ℕ} {indices : List (Idx d)} {positions : List (Vec d ℝ)}
    {neighbors : List (List ℕ)} {distances : List (List (WithTop ℝ))} {D : LatticeData d ℝ}
    (h : LatticeData.set indices positions neighbors distances = .ok D) :
    D.clearedNeighbors = D.neighbors := by
  rcases set_cases indices positions neighbors distances with ⟨-, h'⟩ | ⟨-, D', h', -, -, h3, -, -, h6⟩
  · rw [h] at h'; cases h'
  · rw [h] at h'
    cases h'
    unfold LatticeData.clearedNeighbors
    rw [h6, h3]
    have h2 : ∀ (inv : ℕ) (r : List ℕ), List.zipWith (fun n (b : Bool) => if b then inv else n) r
        (r.map fun _ => false) = r := by
      intro inv r
      induction r with
      | nil => rfl
      | cons x r ih => simp only [List.map_cons, List.zipWith_cons_cons, ih]; rfl
    clear h h3 h6
    induction neighbors with
    | nil => rfl
    | cons r t ih => rw [List.map_cons, List.zipWith_cons_cons, h2, ih]

/-- C68 for `repeat`: repeating a chain of more than `2 nb` sites `num` times on the positive side
gives the neighbour lists of the chain of `(num + 1) (N + 1)` sites, which are those of the chain
built directly (`C68_direct`). -/
theorem C68_repeat_partial (env : Env ℝ) {nb N : ℕ} (hnb : 0 < nb) (h255 : nb ≤ 255)
    (hN : 2 * nb ≤ N) {w : World 1 ℝ} {A : Analysis 1 ℝ} {L : Lattice 1 ℝ}
    {D : LatticeData 1 ℝ} {table : List (List (ℕ × WithTop ℝ))}
    (h : IsBuiltChain env nb N (fun _ => true) w A L D table) (num : ℕ) :
    ∃ L', L.repeat env num 0 true none false = (L', .ok ()) ∧ L'.world = L.world ∧
      L'.HasChainNeighbors nb (cellsFrom ((num + 1) * (N + 1))) := by
  obtain ⟨r, hr⟩ := h.radius hnb
  obtain ⟨width, c1, hw1⟩ := h.full
  have key : ∀ (num : ℕ) (n : ℕ) (L1 : Lattice 1 ℝ) (D1 : LatticeData 1 ℝ),
      L1.data = some D1 → L1.world = w → L1.primitive = some false →
      ChainData nb (cellsFrom n) width D1 →
      ∃ L' E, repeatLoop env D 0 true none false num D.neighbors L1 = (L', .ok ()) ∧
        L'.data = some E ∧
        L'.world = w ∧ ChainData nb (cellsFrom (n + num * (N + 1))) width E := by
    intro num
    induction num with
    | zero =>
      intro n L1 D1 g1 g2 g3 g4
      exact ⟨L1, D1, rfl, g1, g2, by simpa using g4⟩
    | succ num ih =>
      intro n L1 D1 g1 g2 g3 g4
      obtain ⟨L', E, e1, e2, e3, e4, -, e6⟩ := chain_join env g1
        (by unfold Lattice.struct; rw [g2]; exact h.analysis) h255 hr
        (by unfold Lattice.struct; rw [g2]; exact h.basis) g3 g4 c1
        (lt_max_of_lt_right (by omega)) (by rw [max_self]; exact hw1 hN) h.inf_mem true
      rw [if_pos rfl, cellsFrom_append, max_self] at e6
      obtain ⟨M, F, f1, f2, f3, f4⟩ := ih (n + (N + 1)) L' E e2 (e3.trans g2) (e4.trans g3) e6
      refine ⟨M, F, ?_, f2, f3, ?_⟩
      · rw [repeatLoop, e1, set_cleared h.set]
        exact f1
      · convert f4 using 2
        ring
  obtain ⟨L', E, e1, e2, e3, e4⟩ := key num (N + 1) L D h.data h.world h.primitive c1
  refine ⟨L', ?_, e3.trans h.world.symm, ?_⟩
  · unfold Lattice.repeat
    rw [h.data]
    exact e1
  · have := e4.hasNeighbors e2
    rwa [show N + 1 + num * (N + 1) = (num + 1) * (N + 1) by ring] at this

/-- A chain of three sites repeated five times has eighteen sites in a row. -/
example (env : Env ℝ) : ∃ (L L' : Lattice 1 ℝ), L.repeat env 5 0 true none false = (L', .ok ()) ∧
    L'.HasChainNeighbors 1 (cellsFrom 18) := by
  obtain ⟨w, A, h⟩ := exists_isBuiltChains env (nb := 1) (by norm_num) (by norm_num)
  obtain ⟨L, D, table, h1⟩ := h 2 (fun _ => true) (by rw [chainCells_true]; simp)
  obtain ⟨L', e1, -, e3⟩ := C68_repeat_partial env (by norm_num) (by norm_num) (by norm_num) h1 5
  exact ⟨L, L', e1, e3⟩

/-- The sites of a unit chain given by its length. -/
theorem chain_buildIndices_size {S : Structure 1 ℝ} (hS : S.positions.length = S.numBase)
    (h0 : S.numBase = 1) (hb : S.basis = chainBasis 1) (hpos : S.positions = [0]) (M : ℕ) :
    S.buildIndices (.size (List.ofFn fun _ : Fin 1 => (M : ℝ)) false) false none true none none =
      .ok ((List.range (M + 1)).map fun i : ℕ => Idx.mk (fun _ => (i : ℤ)) 0,
        (List.range (M + 1)).map fun i : ℕ => fun _ => (i : ℝ)) := by
  have hp0 : S.posOf 0 0 = 0 := by simp [posOf, hpos]
  have hN : ⌊(1 : ℝ)⁻¹ * (M : ℝ)⌋ = M := by simp
  have hnv : S.buildTranslationVectors (.size (List.ofFn fun _ : Fin 1 => (M : ℝ)) false) false none
      false none 0 = .ok ((List.range (M + 2)).map fun i : ℕ => fun _ => (i : ℤ) - 1) := by
    have h1 := chain_nvecs hb (x := (M : ℝ)) (by positivity) hN
    rw [buildTranslationVectors_eq _ Nat.one_pos] at h1 ⊢
    have hreg : S.buildRegion (.shape (.box (fun _ => (M : ℝ)) 0 none)) false none =
        .ok ((fun _ => 0), fun _ => (M : ℝ)) := by
      unfold buildRegion
      dsimp only
      rw [box1_limits (by positivity)]
      simp
    have hreg2 : S.buildRegion (.size (List.ofFn fun _ : Fin 1 => (M : ℝ)) false) false none =
        .ok ((fun _ => 0), fun _ => (M : ℝ)) := by
      unfold buildRegion
      dsimp only
      rw [toVec_ofFn]
      rfl
    rw [hreg] at h1
    rw [hreg2]
    exact h1
  rw [buildIndices_none hS (by omega) hnv (by
    intro points
    unfold checkError checkPoints
    rw [if_pos rfl]
    dsimp only
    rw [toVec_ofFn]
    rfl)]
  have hlist : siteList S.numBase ((List.range (M + 2)).map fun i : ℕ => fun _ => (i : ℤ) - 1) =
      Idx.mk (fun _ : Fin 1 => (-1 : ℤ)) 0 ::
        (List.range (M + 1)).map fun i : ℕ => Idx.mk (fun _ => (i : ℤ)) 0 := by
    rw [h0, List.range_succ_eq_map, List.map_cons, List.map_map]
    unfold siteList
    rw [List.flatMap_cons, List.flatMap_map]
    simp [← List.map_eq_flatMap]
  have hacc : ∀ z : ℤ, S.accepts (.size (List.ofFn fun _ : Fin 1 => (M : ℝ)) false) false none
      (1 / 1000) (S.sitePos (Idx.mk (fun _ => z) 0)) = decide (0 ≤ z ∧ z ≤ M) := by
    intro z
    have := chain_sitePos hb (fun _ => z) 0
    simp only [Nat.cast_zero] at this
    unfold accepts
    dsimp only
    rw [toVec_ofFn, decide_eq_decide]
    simp only [Fin.forall_fin_one, this, hp0, Option.getD_none, Pi.zero_apply, Bool.false_eq_true,
      if_false]
    constructor
    · rintro ⟨h1, h2⟩
      have h3 : ((-1 : ℤ) : ℝ) < z := by push_cast; linarith
      have h4 : (z : ℝ) ≤ ((M : ℤ) : ℝ) := by push_cast; linarith
      have h3 : -1 < z := by exact_mod_cast h3
      have h4 : z ≤ M := by exact_mod_cast h4
      omega
    · rintro ⟨h1, h2⟩
      have h1 : (0 : ℝ) ≤ z := by exact_mod_cast h1
      have h2 : (z : ℝ) ≤ M := by exact_mod_cast h2
      constructor <;> linarith
  have hfil : (siteList S.numBase ((List.range (M + 2)).map fun i : ℕ => fun _ => (i : ℤ) - 1)).filter
      (fun idx => !true || S.accepts (.size (List.ofFn fun _ : Fin 1 => (M : ℝ)) false) false none
        (1 / 1000) (S.sitePos idx)) =
      (List.range (M + 1)).map fun i : ℕ => Idx.mk (fun _ => (i : ℤ)) 0 := by
    rw [hlist, List.filter_cons_of_neg (by
      rw [hacc]; simp), List.filter_eq_self]
    intro x hx
    obtain ⟨i, hi, rfl⟩ := List.mem_map.1 hx
    rw [List.mem_range] at hi
    rw [hacc]
    simp only [Bool.not_true, Bool.false_or, decide_eq_true_eq]
    omega
  rw [hfil, List.map_map]
  congr 2
  apply List.map_congr_left
  intro i _
  funext k
  have := chain_sitePos hb (fun _ => (i : ℤ)) 0 k
  simp only [Nat.cast_zero] at this
  rw [Function.comp_apply, this, hp0]
  simp

/-- C68 for `extend`: a chain extended by the length `M` is the chain with a built chain of `M + 1`
sites appended. -/
theorem C68_extend_partial (env : Env ℝ) {nb N M : ℕ} {w : World 1 ℝ} {A : Analysis 1 ℝ}
    {L L2 : Lattice 1 ℝ} {D D2 : LatticeData 1 ℝ} {table table2 : List (List (ℕ × WithTop ℝ))}
    (h1 : IsBuiltChain env nb N (fun _ => true) w A L D table)
    (h2 : IsBuiltChain env nb M (fun _ => true) w A L2 D2 table2) (side : Bool) :
    L.extend env (M : ℝ) 0 side none false = L.append env L2 0 side none false := by
  have hs : L.struct = w.struct := by unfold Lattice.struct; rw [h1.world]
  obtain ⟨sh, hsh⟩ := Option.ne_none_iff_exists'.1 h1.shape
  have hlen := (h1.reach.good Nat.one_pos).positions_length
  have hnum : w.struct.numBase = 1 := by rw [← hlen, h1.positions]; rfl
  have hbi := chain_buildIndices_size hlen hnum h1.basis h1.positions M
  obtain ⟨t1, t2⟩ := set_tables h2.set h2.top h2.levels
  have hi2 := h2.indices
  have hp2 := h2.sites
  rw [chainCells_true] at hi2 hp2
  rw [← hi2, ← hp2] at hbi
  unfold Lattice.append
  rw [h2.data]
  dsimp only
  rw [t1, t2]
  unfold Lattice.extend
  rw [hsh]
  dsimp only
  rw [if_pos Nat.one_pos, hs, h1.primitive]
  have hd : (List.ofFn fun k : Fin 1 => if k.val = 0 then (M : ℝ) else sh k) =
      List.ofFn fun _ : Fin 1 => (M : ℝ) := by simp
  rw [hd, Option.getD_some, hbi]
  dsimp only
  rw [h2.comp]

/-- A chain of four sites extended by the length `2` has seven sites in a row. -/
example (env : Env ℝ) : ∃ (L L' : Lattice 1 ℝ), L.extend env 2 0 true none false = (L', .ok ()) ∧
    L'.HasChainNeighbors 1 (cellsFrom 7) := by
  obtain ⟨w, A, h⟩ := exists_isBuiltChains env (nb := 1) (by norm_num) (by norm_num)
  obtain ⟨L, D, table, h1⟩ := h 3 (fun _ => true) (by rw [chainCells_true]; simp)
  obtain ⟨L2, D2, table2, h2⟩ := h 2 (fun _ => true) (by rw [chainCells_true]; simp)
  obtain ⟨L', e1, -, e3⟩ := C68_chain_partial env (by norm_num) (by norm_num) (by norm_num)
    h1 h2 true
  have he := C68_extend_partial env h1 h2 true
  push_cast at he
  rw [← he] at e1
  refine ⟨L, L', e1, ?_⟩
  have h0 := cellsFrom_append 4 3
  rw [← h0]
  convert e3 using 4
  simp

end Lattice

end Lattpy
