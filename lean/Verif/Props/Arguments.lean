import Verif.Model.Arguments
import Verif.Props.AppendChain

/-!
# C114: the functions leave their arguments unchanged
-/

set_option autoImplicit false

namespace Lattpy
open Structure

variable {d : ℕ}

/-- Call a function twice with the same object: the two results. -/
def callTwice {σ α : Type*} (f : σ → Outcome σ α) (x : σ) : Except PyErr α × Except PyErr α :=
  ((f x).2, (f (f x).1).2)

/-- C114 for everything but arrays of floats with `relative` or `primitive`: the numbers in the object
given as `shape` are the same after `check_points` and `build_indices` (whether they raise or not), and
a second call with the same object gives the same result. -/
theorem C114_unchanged_partial (S : Structure d ℝ) (obj : SizeObj) (isInt relative : Bool)
    (h : obj = .sequence ∨ isInt = true ∨ relative = false) (points : List (Vec d ℝ))
    (pos : Option (Vec d ℝ)) (tol : ℝ) (check : Bool)
    (callback : Option (List (Idx d) → List (Vec d ℝ) → List Bool)) (bits : Option ℕ)
    (dims : List ℝ) :
    (S.checkPointsArg points obj isInt relative pos tol dims).1 = dims ∧
    (S.buildIndicesArg obj isInt relative pos check callback bits dims).1 = dims ∧
    (∀ r, callTwice (S.checkPointsArg points obj isInt relative pos tol) dims = r → r.1 = r.2) ∧
    ∀ r, callTwice (S.buildIndicesArg obj isInt relative pos check callback bits) dims = r →
      r.1 = r.2 := by
  have h0 : S.sizeAfter obj dims isInt relative = dims := by
    unfold sizeAfter
    split
    · simp at h
    · rfl
  have h1 : (S.checkPointsArg points obj isInt relative pos tol dims).1 = dims := h0
  have h2 : (S.buildIndicesArg obj isInt relative pos check callback bits dims).1 = dims := by
    unfold buildIndicesArg
    dsimp only
    rw [h0, ite_self]
    split <;> rfl
  refine ⟨h1, h2, ?_, ?_⟩
  · rintro r rfl
    unfold callTwice
    rw [h1]
  · rintro r rfl
    unfold callTwice
    rw [h2]

/-- C114, the first call: its result is the same for an array and for a list of the same numbers, and
that of the function without state. -/
theorem C114_first_call (S : Structure d ℝ) (obj obj' : SizeObj) (isInt relative : Bool)
    (points : List (Vec d ℝ)) (pos : Option (Vec d ℝ)) (tol : ℝ) (check : Bool)
    (callback : Option (List (Idx d) → List (Vec d ℝ) → List Bool)) (bits : Option ℕ)
    (dims : List ℝ) :
    (S.checkPointsArg points obj isInt relative pos tol dims).2 =
      (S.checkPointsArg points obj' isInt relative pos tol dims).2 ∧
    (S.checkPointsArg points obj isInt relative pos tol dims).2 =
      S.checkPoints points (.size dims isInt) relative pos tol ∧
    (S.buildIndicesArg obj isInt relative pos check callback bits dims).2 =
      (S.buildIndicesArg obj' isInt relative pos check callback bits dims).2 ∧
    (S.buildIndicesArg obj isInt relative pos check callback bits dims).2 =
      S.buildIndices (.size dims isInt) relative pos check callback bits :=
  ⟨rfl, rfl, rfl, rfl⟩

/-- C114: `build_indices` keeps every object, also an array, if the points are not checked or if the
cells cannot be made (then it raises the same error again). -/
theorem C114_unchecked (S : Structure d ℝ) (obj : SizeObj) (isInt primitive : Bool)
    (pos : Option (Vec d ℝ)) (check : Bool)
    (callback : Option (List (Idx d) → List (Vec d ℝ) → List Bool)) (bits : Option ℕ) (dims : List ℝ)
    (h : check = false ∨
      ∃ e, S.buildTranslationVectors (.size dims isInt) primitive pos false bits 0 = .error e) :
    (S.buildIndicesArg obj isInt primitive pos check callback bits dims).1 = dims ∧
    ∀ r, callTwice (S.buildIndicesArg obj isInt primitive pos check callback bits) dims = r →
      r.1 = r.2 := by
  have h1 : (S.buildIndicesArg obj isInt primitive pos check callback bits dims).1 = dims := by
    unfold buildIndicesArg
    dsimp only
    rcases h with rfl | ⟨e, he⟩
    · rw [if_neg (by simp)]
      split <;> rfl
    · have : ∃ e', S.buildIndices (.size dims isInt) primitive pos false none bits = .error e' := by
        unfold buildIndices
        rw [he]
        exact ⟨e, rfl⟩
      obtain ⟨e', he'⟩ := this
      rw [he']
  refine ⟨h1, ?_⟩
  rintro r rfl
  unfold callTwice
  rw [h1]

/-- A shape with the wrong number of entries, as an array: it raises and is kept. -/
example (S : Structure 2 ℝ) :
    (S.buildIndicesArg .array false true none true none none [3, 4, 5]).1 = [3, 4, 5] :=
  (C114_unchecked S .array false true none true none none [3, 4, 5] (Or.inr ⟨.value, by
    unfold buildTranslationVectors buildRegion
    simp [toVec]⟩)).1

/-- C114 fails for every structure and every array of floats with `relative=True`: `check_points` adds
the relative margin to the array of the caller. -/
theorem C114_check_points_fails (S : Structure d ℝ) (size : Vec d ℝ) (points : List (Vec d ℝ))
    (pos : Option (Vec d ℝ)) (tol : ℝ) :
    (S.checkPointsArg points .array false true pos tol (List.ofFn size)).1 =
      List.ofFn fun k => size k + (S.maxVector k - 1 / 10 * norm2 (S.basis.vectors k)) := by
  change S.sizeAfter .array (List.ofFn size) false true = _
  unfold sizeAfter
  rw [toVec_ofFn]
  rfl

theorem chain_margin {S : Structure 1 ℝ} (hb : S.basis = chainBasis 1) (k : Fin 1) :
    S.maxVector k = 1 ∧ norm2 (S.basis.vectors k) = 1 ∧ S.relativeMargin k = 9 / 10 := by
  have hv : ∀ i j, S.basis.vectors i j = 1 := fun i j => by rw [hb, chain_vectors]
  have h1 : S.maxVector k = 1 := by
    unfold maxVector
    simp [hv, List.finRange_succ]
  have h2 : norm2 (S.basis.vectors k) = 1 := by
    unfold norm2
    simp [hv, hasSqrt_real]
  refine ⟨h1, h2, ?_⟩
  unfold relativeMargin
  rw [h1, h2]
  norm_num

/-- The sites of a unit chain of `x` cells, for `x` not an integer in general. -/
theorem chain_buildIndices_primitive {S : Structure 1 ℝ} (hS : S.positions.length = S.numBase)
    (h0 : S.numBase = 1) (hb : S.basis = chainBasis 1) (hpos : S.positions = [0]) {x : ℝ} {N : ℕ}
    (hx : 1 / 10 ≤ x) (hN : ⌊x - 1 / 10⌋ = N) :
    S.buildIndices (.size (List.ofFn fun _ : Fin 1 => x) false) true none true none none =
      .ok ((List.range (N + 1)).map fun i : ℕ => Idx.mk (fun _ => (i : ℤ)) 0,
        (List.range (N + 1)).map fun i : ℕ => fun _ => (i : ℝ)) := by
  have hp0 : S.posOf 0 0 = 0 := by simp [posOf, hpos]
  have hfl := Int.floor_eq_iff.1 hN
  have hx0 : 0 ≤ x - 1 / 10 := by linarith
  have hN' : ⌊(1 : ℝ)⁻¹ * (x - 1 / 10)⌋ = N := by rw [inv_one, one_mul, hN]
  have hnv : S.buildTranslationVectors (.size (List.ofFn fun _ : Fin 1 => x) false) true none
      false none 0 = .ok ((List.range (N + 2)).map fun i : ℕ => fun _ => (i : ℤ) - 1) := by
    have h1 := chain_nvecs hb hx0 hN'
    rw [buildTranslationVectors_eq _ Nat.one_pos] at h1 ⊢
    have hreg : S.buildRegion (.shape (.box (fun _ => x - 1 / 10) 0 none)) false none =
        .ok ((fun _ => 0), fun _ => x - 1 / 10) := by
      unfold buildRegion
      dsimp only
      rw [box1_limits hx0]
      simp
    have hreg2 : S.buildRegion (.size (List.ofFn fun _ : Fin 1 => x) false) true none =
        .ok ((fun _ => 0), fun _ => x - 1 / 10) := by
      unfold buildRegion
      dsimp only
      rw [toVec_ofFn]
      dsimp only
      rw [if_pos rfl]
      congr 2
      funext k
      rw [(chain_margin hb k).1, (chain_margin hb k).2.1, mul_one, mul_one]
    rw [hreg] at h1
    rw [hreg2]
    exact h1
  rw [buildIndices_none hS (by omega) hnv (by
    intro points
    unfold checkError checkPoints
    rw [if_pos rfl]
    dsimp only
    rw [toVec_ofFn]
    rfl)]
  have hlist : siteList S.numBase ((List.range (N + 2)).map fun i : ℕ => fun _ => (i : ℤ) - 1) =
      Idx.mk (fun _ : Fin 1 => (-1 : ℤ)) 0 ::
        (List.range (N + 1)).map fun i : ℕ => Idx.mk (fun _ => (i : ℤ)) 0 := by
    rw [h0, List.range_succ_eq_map, List.map_cons, List.map_map]
    unfold siteList
    rw [List.flatMap_cons, List.flatMap_map]
    simp [← List.map_eq_flatMap]
  have hacc : ∀ z : ℤ, S.accepts (.size (List.ofFn fun _ : Fin 1 => x) false) true none
      (1 / 1000) (S.sitePos (Idx.mk (fun _ => z) 0)) = decide (-(1 / 1000 : ℝ) ≤ z ∧
        (z : ℝ) ≤ x + 9 / 10) := by
    intro z
    have := chain_sitePos hb (fun _ => z) 0
    simp only [Nat.cast_zero] at this
    unfold accepts
    dsimp only
    rw [toVec_ofFn, decide_eq_decide]
    simp only [Fin.forall_fin_one, this, hp0, Option.getD_none, Pi.zero_apply, if_true, Pi.add_apply,
      (chain_margin hb 0).2.2]
    constructor
    · rintro ⟨h1, h2⟩
      constructor <;> linarith
    · rintro ⟨h1, h2⟩
      constructor <;> linarith
  have hfil : (siteList S.numBase ((List.range (N + 2)).map fun i : ℕ => fun _ => (i : ℤ) - 1)).filter
      (fun idx => !true || S.accepts (.size (List.ofFn fun _ : Fin 1 => x) false) true none
        (1 / 1000) (S.sitePos idx)) =
      (List.range (N + 1)).map fun i : ℕ => Idx.mk (fun _ => (i : ℤ)) 0 := by
    rw [hlist, List.filter_cons_of_neg (by
      rw [hacc]; norm_num), List.filter_eq_self]
    intro y hy
    obtain ⟨i, hi, rfl⟩ := List.mem_map.1 hy
    rw [List.mem_range] at hi
    rw [hacc]
    simp only [Bool.not_true, Bool.false_or, decide_eq_true_eq]
    have h1 : (i : ℝ) ≤ N := by exact_mod_cast Nat.lt_succ_iff.1 hi
    have h2 : (0 : ℝ) ≤ i := by positivity
    have h3 := hfl.1
    push_cast at h3 ⊢
    constructor <;> linarith
  rw [hfil, List.map_map]
  congr 2
  apply List.map_congr_left
  intro i _
  funext k
  have := chain_sitePos hb (fun _ => (i : ℤ)) 0 k
  simp only [Nat.cast_zero] at this
  rw [Function.comp_apply, this, hp0]
  simp

/-- C114 fails: `build_indices(shape, primitive=True)` of the unit chain, called twice with the same
array `shape = np.array([3.0])`, returns three sites at the first and four at the second call. -/
theorem C114_build_indices_fails (env : Env ℝ) :
    ∃ (w : World 1 ℝ) (r1 r2 : List (Idx 1) × List (Vec 1 ℝ)), Reachable env w ∧
      callTwice (w.struct.buildIndicesArg .array false true none true none none) [3] =
        (.ok r1, .ok r2) ∧ r1.1.length = 3 ∧ r2.1.length = 4 := by
  obtain ⟨w, A, cells, c, hr, hb, hp, hn, -⟩ := exists_chain env one_pos 0 Nat.one_pos
  have hlen := (hr.good Nat.one_pos).positions_length
  have hp' : w.struct.positions = [0] := hp
  have e1 := chain_buildIndices_primitive hlen hn hb hp' (x := 3) (N := 2) (by norm_num)
    (by rw [Int.floor_eq_iff]; norm_num)
  have e2 := chain_buildIndices_primitive hlen hn hb hp' (x := 3 + 9 / 10) (N := 3) (by norm_num)
    (by rw [Int.floor_eq_iff]; norm_num)
  have hl1 : (List.ofFn fun _ : Fin 1 => (3 : ℝ)) = [3] := by simp
  rw [hl1] at e1
  have hstate : (w.struct.buildIndicesArg .array false true none true none none [3]).1 =
      List.ofFn fun _ : Fin 1 => (3 + 9 / 10 : ℝ) := by
    unfold buildIndicesArg
    dsimp only
    have hok : ∃ r, w.struct.buildIndices (.size [3] false) true none false none none = .ok r := by
      rw [buildIndices_eq hlen (by omega)] at e1 ⊢
      cases hnv : w.struct.buildTranslationVectors (.size [3] false) true none false none 0 with
      | error e => rw [hnv] at e1; cases e1
      | ok nvecs => exact ⟨_, rfl⟩
    obtain ⟨r, hok⟩ := hok
    rw [hok]
    dsimp only
    rw [if_pos rfl]
    have := C114_check_points_fails w.struct (fun _ => 3) [] none 0
    rw [hl1] at this
    change w.struct.sizeAfter .array [3] false true = _ at this
    rw [this]
    congr 1
    funext k
    rw [(chain_margin hb k).1, (chain_margin hb k).2.1]
    norm_num
  have hcall : callTwice (w.struct.buildIndicesArg .array false true none true none none) [3] =
      (w.struct.buildIndices (.size [3] false) true none true none none,
        w.struct.buildIndices (.size (List.ofFn fun _ : Fin 1 => (3 + 9 / 10 : ℝ)) false) true none true
          none none) := by
    unfold callTwice
    rw [hstate]
    rfl
  rw [e1, e2] at hcall
  exact ⟨w, _, _, hr, hcall, by simp, by simp⟩

/-- A list of sizes, as in most calls, with `primitive=True`. -/
example : (SizeObj.sequence = .sequence ∨ false = true ∨ true = false) := Or.inl rfl

end Lattpy
