import Verif.Props.LatticeSummary
import Verif.Lemmas.LatticeHistory
import Verif.Props.LatticeBuild

/-!
# C92: the positions of one atom and the limits of the indices
-/

set_option autoImplicit false
set_option linter.unusedSectionVars false

namespace Lattpy
variable {d : ℕ}

/-- `lo` and `hi` are the smallest and largest components of the integer vectors `rows`. -/
def IntBounds {m : ℕ} (rows : List (Fin m → ℤ)) (lo hi : Fin m → ℤ) : Prop :=
  ∀ k, IsLeast {t | ∃ r ∈ rows, t = r k} (lo k) ∧ IsGreatest {t | ∃ r ∈ rows, t = r k} (hi k)

/-- `ps` are the positions of the sites of the atom `alpha`, in the order of the sites. -/
def PositionsOf (indices : List (Idx d)) (positions : List (Vec d ℝ)) (alpha : ℤ)
    (ps : List (Vec d ℝ)) : Prop :=
  ∃ sites : List ℕ, sites.Pairwise (· < ·) ∧
    (∀ i, i ∈ sites ↔ ∃ x, indices[i]? = some x ∧ x.alpha = alpha) ∧
    List.Forall₂ (fun i p => positions[i]? = some p) sites ps

theorem intBounds_fold {m : ℕ} (v : Fin m → ℤ) (vs : List (Fin m → ℤ)) :
    IntBounds (v :: vs) (fun k => (vs.map fun x => x k).foldl min (v k))
      (fun k => (vs.map fun x => x k).foldl max (v k)) := by
  intro k
  have hset : {t | ∃ x ∈ v :: vs, t = x k} = {t | t = v k ∨ t ∈ vs.map fun x => x k} := by
    ext t; simp [eq_comm]
  dsimp only
  rw [hset]
  exact ⟨foldl_min_isLeast _ _, foldl_max_isGreatest _ _⟩

theorem intBounds_unique {m : ℕ} {rows : List (Fin m → ℤ)} {lo hi lo' hi' : Fin m → ℤ}
    (h : IntBounds rows lo hi) (h' : IntBounds rows lo' hi') : lo = lo' ∧ hi = hi' :=
  ⟨funext fun k => (h k).1.unique (h' k).1, funext fun k => (h k).2.unique (h' k).2⟩

/-- C92: the index limits are the smallest and largest index of every column, the cell limits and
the translation limits those of the cells; data without sites raises a `ValueError`. -/
theorem C92_limits (D : LatticeData d ℝ) :
    (D.indices = [] → D.getIndexLimits = .error .value ∧ D.getCellLimits = .error .value ∧
      D.getTranslationLimits = .error .value) ∧
    (D.indices ≠ [] → ∃ lo hi lo' hi', D.getIndexLimits = .ok (lo, hi) ∧
      D.getCellLimits = .ok (lo', hi') ∧ D.getTranslationLimits = .ok (lo', hi') ∧
      IntBounds D.indices lo hi ∧ IntBounds (D.indices.map Idx.cell) lo' hi') := by
  constructor
  · intro h
    unfold LatticeData.getTranslationLimits LatticeData.getIndexLimits LatticeData.getCellLimits
    rw [h]
    exact ⟨rfl, rfl, rfl⟩
  · intro h
    cases hx : D.indices with
    | nil => exact absurd hx h
    | cons v vs =>
      have h1 := intBounds_fold v vs
      have h2 := intBounds_fold (Idx.cell v) (vs.map Idx.cell)
      have hc : IntBounds (Idx.cell v :: vs.map Idx.cell)
          (fun k => (vs.map fun x => x k.castSucc).foldl min (v k.castSucc))
          (fun k => (vs.map fun x => x k.castSucc).foldl max (v k.castSucc)) := by
        intro k
        have := h1 k.castSucc
        have hset : {t | ∃ r ∈ Idx.cell v :: vs.map Idx.cell, t = r k} =
            {t | ∃ r ∈ v :: vs, t = r k.castSucc} := by
          ext t
          simp [Idx.cell]
        rw [hset]
        exact this
      obtain ⟨e1, e2⟩ := intBounds_unique h2 hc
      refine ⟨_, _, _, _, ?_, ?_, ?_, h1, h2⟩
      · unfold LatticeData.getIndexLimits
        rw [hx]
      · unfold LatticeData.getCellLimits
        rw [hx]
        rfl
      · unfold LatticeData.getTranslationLimits LatticeData.getIndexLimits
        rw [hx]
        dsimp only
        rw [e1, e2]

theorem maskRow_positions (indices : List (Idx d)) (positions : List (Vec d ℝ))
    (h : positions.length = indices.length) (alpha : ℤ) :
    PositionsOf indices positions alpha
      (maskRow positions (indices.map fun r => decide (r (Fin.last d) = alpha))) := by
  have hp : positions = (List.range indices.length).map fun i => (positions[i]?).getD 0 := by
    apply List.ext_getElem
    · simp [h]
    · intro i h1 h2
      simp [h1]
  have hm : (indices.map fun r => decide (r (Fin.last d) = alpha)) =
      (List.range indices.length).map fun i =>
        decide (((indices[i]?).getD 0) (Fin.last d) = alpha) := by
    apply List.ext_getElem
    · simp
    · intro i h1 h2
      have : i < indices.length := by simpa using h1
      simp [this]
  rw [hm]
  conv in maskRow _ _ => rw [hp]
  rw [maskRow_map]
  refine ⟨(List.range indices.length).filter fun i =>
    decide (((indices[i]?).getD 0) (Fin.last d) = alpha), List.pairwise_lt_range.filter _,
    fun i => ?_, ?_⟩
  · simp only [List.mem_filter, List.mem_range, decide_eq_true_eq]
    constructor
    · rintro ⟨h1, h2⟩
      refine ⟨indices[i], List.getElem?_eq_getElem h1, ?_⟩
      rw [List.getElem?_eq_getElem h1] at h2
      exact h2
    · rintro ⟨x, h1, h2⟩
      refine ⟨(List.getElem?_eq_some_iff.1 h1).1, ?_⟩
      rw [h1]
      exact h2
  · rw [List.forall₂_map_right_iff, List.forall₂_same]
    intro i hi
    have : i < positions.length := by
      rw [h]
      exact List.mem_range.1 (List.mem_filter.1 hi).1
    simp [this]

/-- C92: `get_positions(alpha)` lists the positions of the sites of that atom in order. -/
theorem C92_positions (D : LatticeData d ℝ) (h : D.positions.length = D.indices.length) (alpha : ℤ) :
    PositionsOf D.indices D.positions alpha (D.getPositions alpha) :=
  maskRow_positions D.indices D.positions h alpha

/-- C92 for the data a build leaves behind (whatever its arguments, and also if it raises): the
positions of an atom are its position in the unit cell moved by lattice vectors within the cell
limits, every site of the atom is listed, and numbers that belong to no atom have no positions. -/
theorem C92_build (hd : 0 < d) {env : Env ℝ} {L : Lattice d ℝ} (h : Reachable env L.world)
    (a : BuildArgs d ℝ) {D : LatticeData d ℝ} (hD : (L.build env a).1.data = some D) (alpha : ℤ) :
    PositionsOf D.indices D.positions alpha (D.getPositions alpha) ∧
    (∀ p ∈ D.getPositions alpha, ∃ (b : ℕ) (r : Vec d ℝ) (n lo hi : Fin d → ℤ), alpha = b ∧
      L.struct.positions[b]? = some r ∧ D.getCellLimits = .ok (lo, hi) ∧
      (∀ k, lo k ≤ n k ∧ n k ≤ hi k) ∧
      p = fun k => r k + ∑ i, (n i : ℝ) * L.struct.basis.vectors i k) ∧
    (alpha < 0 ∨ (L.struct.numBase : ℤ) ≤ alpha → D.getPositions alpha = []) := by
  obtain ⟨-, hs⟩ := Lattice.build_sites hd h a
  obtain ⟨hsites, -⟩ := hs D hD
  have hpo := C92_positions D hsites.length_eq.symm alpha
  have hmem : ∀ p ∈ D.getPositions alpha, ∃ x : Idx d, x ∈ D.indices ∧
      x.alpha = alpha ∧ IsSitePos L.struct x p := by
    intro p hp
    obtain ⟨sites, -, h2, h3⟩ := hpo
    obtain ⟨j, hj, rfl⟩ := List.mem_iff_getElem.1 hp
    have hj' : j < sites.length := by rw [h3.length_eq]; exact hj
    have h4 := h3.get hj' hj
    obtain ⟨x, hx, hxa⟩ := (h2 sites[j]).1 (List.getElem_mem _)
    obtain ⟨h5, h6⟩ := List.getElem?_eq_some_iff.1 hx
    obtain ⟨h7, h8⟩ := List.getElem?_eq_some_iff.1 h4
    refine ⟨x, List.mem_of_getElem? hx, hxa, ?_⟩
    have := hsites.get h5 h7
    simp only [List.get_eq_getElem] at this h8
    rw [h6, h8] at this
    exact this
  refine ⟨hpo, ?_, ?_⟩
  · intro p hp
    obtain ⟨x, hx, rfl, b, r, h1, h2, h3⟩ := hmem p hp
    obtain ⟨lo, hi, lo', hi', -, h4, -, -, h5⟩ := (C92_limits D).2 (List.ne_nil_of_mem hx)
    refine ⟨b, r, x.cell, lo', hi', h1, h2, h4, fun k => ?_, h3⟩
    have hin : x.cell k ∈ {t | ∃ r ∈ D.indices.map Idx.cell, t = r k} :=
      ⟨x.cell, List.mem_map_of_mem hx, rfl⟩
    exact ⟨(h5 k).1.2 hin, (h5 k).2.2 hin⟩
  · intro hal
    rw [List.eq_nil_iff_forall_not_mem]
    intro p hp
    obtain ⟨x, hx, rfl, -⟩ := hmem p hp
    have := alpha_range hd h hsites x hx
    rcases hal with h1 | h1
    · omega
    · have h2 : x.alpha < (L.struct.numBase : ℤ) := this.2
      omega

/-- Four sites of two atoms: the second atom is at the sites 1 and 2. -/
example : ∃ D : LatticeData 1 ℝ, D.indices = [![0, 0], ![-1, 1], ![2, 1], ![1, 0]] ∧
    D.getPositions 1 = [![-1 / 2], ![5 / 2]] ∧ D.getCellLimits = .ok (![-1], ![2]) := by
  refine ⟨⟨[![0, 0], ![-1, 1], ![2, 1], ![1, 0]], [![0], ![-1 / 2], ![5 / 2], ![1]], [], [], [], [],
    [], [], 4, 0, none⟩, rfl, ?_, ?_⟩
  · simp [LatticeData.getPositions, maskRow]
  · simp only [LatticeData.getCellLimits, List.map_cons, List.map_nil]
    congr 2 <;> funext k <;> fin_cases k <;> rfl

end Lattpy
