import Verif.Lemmas.BuiltChain
import Verif.Props.Periodic

/-!
# The periodic chain
-/

set_option autoImplicit false
set_option linter.unusedSectionVars false

namespace Lattpy

open Structure

theorem sorted_split {α K : Type*} [LinearOrder K] : ∀ {row : List (α × WithTop K)},
    (row.map Prod.snd).Pairwise (· ≤ ·) →
    ∃ a b, row = a ++ b ∧ (∀ e ∈ a, e.2 ≠ ⊤) ∧ ∀ e ∈ b, e.2 = ⊤
  | [], _ => ⟨[], [], rfl, by simp, by simp⟩
  | e :: row, h => by
    rw [List.map_cons, List.pairwise_cons] at h
    by_cases he : e.2 = ⊤
    · refine ⟨[], e :: row, rfl, by simp, ?_⟩
      intro x hx
      rcases List.mem_cons.1 hx with rfl | hx
      · exact he
      · have := h.1 _ (List.mem_map_of_mem hx)
        rw [he] at this
        exact top_le_iff.1 this
    · obtain ⟨a, b, h1, h2, h3⟩ := sorted_split h.2
      refine ⟨e :: a, b, by rw [h1]; rfl, ?_, h3⟩
      intro x hx
      rcases List.mem_cons.1 hx with rfl | hx
      · exact he
      · exact h2 x hx

/-- The rows stored by `set` for a padded and sorted table have no gaps. -/
theorem set_packed {d : ℕ} {K : Type*} [LinearOrder K] {indices : List (Idx d)}
    {positions : List (Vec d K)} {table : List (List (ℕ × WithTop K))} {D : LatticeData d K}
    (hset : LatticeData.set indices positions (table.map fun r => r.map Prod.fst)
        (table.map fun r => r.map Prod.snd) = .ok D) (htop : ⊤ ∈ D.distvals)
    (h256 : D.distvals.length ≤ 256)
    (hs : ∀ row ∈ table, (row.map Prod.snd).Pairwise (· ≤ ·)) :
    ∀ (i : ℕ) r, D.entries[i]? = some r → ∃ a b, r = a ++ b ∧
      (∀ e ∈ a, e.level < D.invalidDistidx ∧ e.per = false) ∧
      ∀ e ∈ b, e.level = D.invalidDistidx ∨ e.per = true := by
  obtain ⟨hc, -, -, -, -, hlev⟩ := set_cols hset htop h256
  intro i r hr
  rw [hc.entries_eq, List.getElem?_map, Option.map_eq_some_iff] at hr
  obtain ⟨row, hrow, rfl⟩ := hr
  have hm := List.mem_of_getElem? hrow
  obtain ⟨a, b, rfl, h2, h3⟩ := sorted_split (hs row hm)
  refine ⟨a.map (builtEntry D.distvals), b.map (builtEntry D.distvals), List.map_append, ?_, ?_⟩
  · intro e he
    obtain ⟨x, hx, rfl⟩ := List.mem_map.1 he
    exact ⟨(hlev _ hm x (List.mem_append_left _ hx)).2.2.2 (h2 x hx), rfl⟩
  · intro e he
    obtain ⟨x, hx, rfl⟩ := List.mem_map.1 he
    obtain ⟨-, g2, g3⟩ := hlev _ hm x (List.mem_append_right _ hx)
    left
    refine le_antisymm g2 ?_
    by_contra hlt
    exact (g3.1 (not_le.1 hlt)) (h3 x hx)

theorem rint_two_thirds (N : ℕ) : rint ((N : ℝ) - 0 + 1 * 2 / 3) = (N : ℤ) + 1 := by
  have hf : ⌊(N : ℝ) - 0 + 1 * 2 / 3⌋ = (N : ℤ) := by
    rw [Int.floor_eq_iff]
    push_cast
    constructor <;> linarith
  unfold rint
  simp only [hf]
  rw [if_neg (by push_cast; linarith), if_pos (by push_cast; linarith)]

/-- The translation of the unit chain with cells `0 … N`. -/
theorem chain_periodicVectors (N : ℕ) :
    Lattice.periodicVectors (chainBasis 1)
      ((List.range (N + 1)).map fun i : ℕ => Idx.mk (fun _ : Fin 1 => (i : ℤ)) 0) [0] false =
      .ok [([0], fun _ => (N : ℤ) + 1)] := by
  have htr : ∀ x : Vec 1 ℝ, (chainBasis 1).transform x = x := by
    intro x
    funext k
    rw [Subsingleton.elim k 0]
    simp [LatticeBasis.transform, chainBasis, chainRows, Matrix.mulVec, dotProduct]
  have hitr : ∀ x : Vec 1 ℝ, (chainBasis 1).itransform x = x := by
    intro x
    funext k
    rw [Subsingleton.elim k 0]
    simp [LatticeBasis.itransform, chainBasis, chainRows, Matrix.mulVec, dotProduct]
  have hcs : Lattice.cellSizes (chainBasis 1) = fun _ => (1 : ℝ) := by
    funext k
    unfold Lattice.cellSizes LatticeBasis.cellSize cellSize
    simp [chain_vectors, vmax, vmin]
  obtain ⟨lim, hlim, hspec⟩ := AShape.minMax_spec (((List.range (N + 1)).map fun i : ℕ =>
    Idx.mk (fun _ : Fin 1 => (i : ℤ)) 0).map fun x : Idx 1 =>
      (chainBasis 1).transform fun k => (x.cell k : ℝ)) (by simp)
  have hmem : ∀ c : Vec 1 ℝ, c ∈ (((List.range (N + 1)).map fun i : ℕ =>
      Idx.mk (fun _ : Fin 1 => (i : ℤ)) 0).map fun x : Idx 1 =>
        (chainBasis 1).transform fun k => (x.cell k : ℝ)) ↔ ∃ i : ℕ, i ≤ N ∧ c 0 = i := by
    intro c
    rw [List.map_map, List.mem_map]
    constructor
    · rintro ⟨i, hi, rfl⟩
      refine ⟨i, by rw [List.mem_range] at hi; omega, ?_⟩
      simp [htr]
    · rintro ⟨i, hi, hc⟩
      refine ⟨i, by rw [List.mem_range]; omega, ?_⟩
      funext k
      rw [Subsingleton.elim k 0, hc]
      simp [htr]
  have hl : lim = fun _ => ((0 : ℝ), (N : ℝ)) := by
    funext k
    rw [Subsingleton.elim k 0]
    obtain ⟨⟨⟨c1, h2, h3⟩, h1⟩, ⟨⟨c2, h4, h5⟩, h6⟩⟩ := hspec 0
    have a0 := h1 ⟨fun _ => 0, (hmem _).2 ⟨0, by omega, by simp⟩, rfl⟩
    have ax := h6 ⟨fun _ => (N : ℝ), (hmem _).2 ⟨N, by omega, rfl⟩, rfl⟩
    obtain ⟨i, hi, hc⟩ := (hmem _).1 h2
    obtain ⟨j, hj, hc'⟩ := (hmem _).1 h4
    have hj' : (j : ℝ) ≤ N := by exact_mod_cast hj
    have hi' : (0 : ℝ) ≤ i := by positivity
    dsimp only at a0 ax h3 h5
    refine Prod.ext ?_ ?_ <;> dsimp only <;> linarith
  unfold Lattice.periodicVectors Lattice.periodicVector
  simp only [Bool.false_eq_true, if_false, hlim, hl]
  rw [if_pos (by simp)]
  simp only [hitr, hcs]
  congr 3
  funext k
  rw [Subsingleton.elim k 0]
  simp only [Fin.val_zero, List.mem_singleton, if_true]
  exact rint_two_thirds N

/-- Data stored by `set` have regular neighbours only. -/
theorem set_regular {d : ℕ} {K : Type*} [LinearOrder K] {indices : List (Idx d)}
    {positions : List (Vec d K)} {table : List (List (ℕ × WithTop K))} {D : LatticeData d K}
    (hset : LatticeData.set indices positions (table.map fun r => r.map Prod.fst)
        (table.map fun r => r.map Prod.snd) = .ok D) (htop : ⊤ ∈ D.distvals)
    (h256 : D.distvals.length ≤ 256) {i : ℕ} (hi : i < table.length) :
    D.getNeighbors i none (some false) false = D.getNeighbors i none none false := by
  obtain ⟨hc, -⟩ := set_cols hset htop h256
  have hrow : (table.map fun r => r.map (builtEntry (d := d) D.distvals))[i]? =
      some (table[i].map (builtEntry D.distvals)) := by
    rw [List.getElem?_map, List.getElem?_eq_getElem hi]
    rfl
  rw [hc.getNeighbors i _ hrow, hc.getNeighbors i _ hrow]
  congr 2
  refine List.filter_congr fun e he => ?_
  obtain ⟨x, -, rfl⟩ := List.mem_map.1 he
  simp [LatticeData.sel, builtEntry]

/-! ### counting on a ring -/

/-- The sites of a ring of `n` sites up to `nb` steps away from site `i`. -/
def ringList (n nb i : ℕ) : List ℕ :=
  (List.range' 1 nb ++ List.range' (n - nb) nb).map fun t => (i + t) % n

theorem ringList_length (n nb i : ℕ) : (ringList n nb i).length = 2 * nb := by
  simp [ringList]; omega

theorem ringList_nodup {n nb : ℕ} (h : 2 * nb < n) (i : ℕ) : (ringList n nb i).Nodup := by
  unfold ringList
  refine List.Nodup.map_on ?_ ?_
  · intro x hx y hy hxy
    have hlt : ∀ z ∈ List.range' 1 nb ++ List.range' (n - nb) nb, z < n := by
      intro z hz
      rcases List.mem_append.1 hz with hz | hz <;> rw [List.mem_range'_1] at hz <;> omega
    have : x ≡ y [MOD n] := Nat.ModEq.add_left_cancel' i hxy
    exact this.eq_of_lt_of_lt (hlt x hx) (hlt y hy)
  · rw [List.nodup_append]
    refine ⟨List.nodup_range', List.nodup_range', ?_⟩
    intro a ha b hb
    rw [List.mem_range'_1] at ha hb
    omega

theorem mem_ringList {n nb i j : ℕ} (h : 2 * nb < n) (hi : i < n) (hj : j < n) :
    j ∈ ringList n nb i ↔ i ≠ j ∧
      ((j ≤ i + nb ∧ i ≤ j + nb) ∨ i + n ≤ j + nb ∨ j + n ≤ i + nb) := by
  have hmod : ∀ t, t < n → (i + t) % n = if i + t < n then i + t else i + t - n := by
    intro t ht
    split_ifs with hlt
    · exact Nat.mod_eq_of_lt hlt
    · rw [Nat.mod_eq_sub_mod (by omega), Nat.mod_eq_of_lt (by omega)]
  unfold ringList
  rw [List.mem_map]
  constructor
  · rintro ⟨t, ht, rfl⟩
    rcases List.mem_append.1 ht with ht | ht <;> rw [List.mem_range'_1] at ht <;>
      rw [hmod t (by omega)] <;> split_ifs <;> omega
  · rintro ⟨hne, hc⟩
    have : ∃ t, t < n ∧ (i + t = j ∨ i + t = j + n) := by
      by_cases hij : i ≤ j
      · exact ⟨j - i, by omega, Or.inl (by omega)⟩
      · exact ⟨j + n - i, by omega, Or.inr (by omega)⟩
    obtain ⟨t, ht, hij⟩ := this
    refine ⟨t, ?_, by rw [hmod t ht]; split_ifs <;> omega⟩
    rw [List.mem_append, List.mem_range'_1, List.mem_range'_1]
    omega

theorem ring_steps {n nb i j : ℕ} (h : 2 * nb < n) (hi : i < n) (hj : j < n) :
    j ∈ ringList n nb i ↔ ∃ m, 0 < m ∧ m ≤ nb ∧ (j = (i + m) % n ∨ i = (j + m) % n) := by
  have hmod : ∀ a t, a < n → t < n → (a + t) % n = if a + t < n then a + t else a + t - n := by
    intro a t ha ht
    split_ifs with hlt
    · exact Nat.mod_eq_of_lt hlt
    · rw [Nat.mod_eq_sub_mod (by omega), Nat.mod_eq_of_lt (by omega)]
  rw [mem_ringList h hi hj]
  constructor
  · rintro ⟨hne, hc⟩
    by_cases h1 : i < j ∧ j ≤ i + nb
    · exact ⟨j - i, by omega, by omega, Or.inl (by
        rw [hmod i _ hi (by omega)]; split_ifs <;> omega)⟩
    by_cases h2 : j < i ∧ i ≤ j + nb
    · exact ⟨i - j, by omega, by omega, Or.inr (by
        rw [hmod j _ hj (by omega)]; split_ifs <;> omega)⟩
    by_cases h3 : i < j
    · exact ⟨i + n - j, by omega, by omega, Or.inr (by
        rw [hmod j _ hj (by omega)]; split_ifs <;> omega)⟩
    · exact ⟨j + n - i, by omega, by omega, Or.inl (by
        rw [hmod i _ hi (by omega)]; split_ifs <;> omega)⟩
  · rintro ⟨m, h1, h2, h3 | h3⟩
    · rw [hmod i m hi (by omega)] at h3
      split_ifs at h3 <;> omega
    · rw [hmod j m hj (by omega)] at h3
      split_ifs at h3 <;> omega

end Lattpy
