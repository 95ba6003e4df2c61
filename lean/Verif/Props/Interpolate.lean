import Verif.Model.Interpolate
import Verif.Props.Grid

/-!
# C113: interpolation of values to a regular grid
-/

set_option autoImplicit false

namespace Lattpy

/-- The `i`-th of `n` evenly spaced numbers from `lo` to `hi`. -/
def Spaced (lo hi : ℝ) (n : ℤ) (i : ℕ) (x : ℝ) : Prop := (x - lo) * (n - 1) = i * (hi - lo)

/-- `lo` and `hi` are the smallest and the largest coordinate `k` of the points. -/
def AxisExtent (positions : List (Vec 2 ℝ)) (k : Fin 2) (lo hi : ℝ) : Prop :=
  (∃ p ∈ positions, p k = lo) ∧ (∃ p ∈ positions, p k = hi) ∧ ∀ p ∈ positions, lo ≤ p k ∧ p k ≤ hi

theorem foldl_min_extent (a : ℝ) (l : List ℝ) :
    l.foldl min a ∈ a :: l ∧ ∀ x ∈ a :: l, l.foldl min a ≤ x := by
  induction l generalizing a with
  | nil => simp
  | cons b l ih =>
    obtain ⟨h1, h2⟩ := ih (min a b)
    rw [List.foldl_cons]
    constructor
    · rcases List.mem_cons.1 h1 with h | h
      · rw [h]
        rcases min_choice a b with h | h <;> rw [h] <;> simp
      · exact List.mem_cons_of_mem _ (List.mem_cons_of_mem _ h)
    · intro x hx
      have h3 := h2 _ List.mem_cons_self
      rcases List.mem_cons.1 hx with rfl | hx
      · exact h3.trans (min_le_left _ _)
      · rcases List.mem_cons.1 hx with rfl | hx
        · exact h3.trans (min_le_right _ _)
        · exact h2 x (List.mem_cons_of_mem _ hx)

theorem foldl_max_extent (a : ℝ) (l : List ℝ) :
    l.foldl max a ∈ a :: l ∧ ∀ x ∈ a :: l, x ≤ l.foldl max a := by
  induction l generalizing a with
  | nil => simp
  | cons b l ih =>
    obtain ⟨h1, h2⟩ := ih (max a b)
    rw [List.foldl_cons]
    constructor
    · rcases List.mem_cons.1 h1 with h | h
      · rw [h]
        rcases max_choice a b with h | h <;> rw [h] <;> simp
      · exact List.mem_cons_of_mem _ (List.mem_cons_of_mem _ h)
    · intro x hx
      have h3 := h2 _ List.mem_cons_self
      rcases List.mem_cons.1 hx with rfl | hx
      · exact (le_max_left _ _).trans h3
      · rcases List.mem_cons.1 hx with rfl | hx
        · exact (le_max_right _ _).trans h3
        · exact h2 x (List.mem_cons_of_mem _ hx)

theorem minMaxList_extent {positions : List (Vec 2 ℝ)} (h : positions ≠ []) (k : Fin 2) :
    ∃ lo hi, minMaxList (positions.map fun p => p k) = .ok (lo, hi) ∧ AxisExtent positions k lo hi := by
  obtain ⟨p, l, rfl⟩ := List.exists_cons_of_ne_nil h
  obtain ⟨h1, h2⟩ := foldl_min_extent (p k) (l.map fun p => p k)
  obtain ⟨h3, h4⟩ := foldl_max_extent (p k) (l.map fun p => p k)
  rw [← List.map_cons (f := fun p : Vec 2 ℝ => p k)] at h1 h2 h3 h4
  refine ⟨_, _, rfl, ?_, ?_, ?_⟩
  · simpa only [List.mem_map] using h1
  · simpa only [List.mem_map] using h3
  · intro q hq
    exact ⟨h2 _ (List.mem_map_of_mem hq), h4 _ (List.mem_map_of_mem hq)⟩

theorem npLinspace_get (lo hi : ℝ) {n : ℤ} (hn : 2 ≤ n) :
    ∃ r, npLinspace lo hi n true = .ok r ∧ r.length = n.toNat ∧
      ∀ (i : ℕ) (x : ℝ), r[i]? = some x → Spaced lo hi n i x := by
  unfold npLinspace
  rw [if_neg (by omega)]
  refine ⟨_, rfl, by simp, ?_⟩
  intro i x hx
  rw [List.getElem?_map, Option.map_eq_some_iff] at hx
  obtain ⟨j, hj, rfl⟩ := hx
  obtain ⟨hj1, rfl⟩ := List.getElem?_eq_some_iff.1 hj
  rw [List.getElem_range]
  have h1 : ((n - 1 : ℤ) : ℝ) ≠ 0 := by
    have : (0 : ℤ) < n - 1 := by omega
    exact_mod_cast this.ne'
  have h2 : ¬ (n - 1 ≤ 0) := by omega
  simp only [if_true, if_neg h2]
  unfold Spaced
  push_cast at h1 ⊢
  field_simp
  ring

/-- C113 for at least two grid lines in each direction and points in the plane, for every interpolation
that accepts the points and values: the three tables have `num[1]` rows and `num[0]` columns.  Entry
`(j, i)` of the first is the `i`-th of `num[0]` evenly spaced numbers from the smallest x coordinate
minus the offset to the largest plus the offset, entry `(j, i)` of the second the `j`-th of `num[1]`
numbers for y, and entry `(j, i)` of the third the interpolated value at this point or, if there is
none, the fill value. -/
theorem C113_grid_partial (g : Griddata ℝ) {positions : List (Vec 2 ℝ)} (hp : positions ≠ [])
    (values : List ℝ) {num : ℤ × ℤ} (h1 : 2 ≤ num.1) (h2 : 2 ≤ num.2) (offset : ℝ × ℝ) (fill : ℝ)
    {f : ℝ → ℝ → Option ℝ}
    (hf : g.interp (positions.map fun p => (p 0, p 1)) values = .ok f) :
    ∃ T x0 x1 y0 y1, interpolateToGrid g positions values num offset fill = .ok T ∧
      AxisExtent positions 0 x0 x1 ∧ AxisExtent positions 1 y0 y1 ∧
      (∀ t ∈ [T.xx, T.yy, T.zz], t.length = num.2.toNat ∧ ∀ r ∈ t, r.length = num.1.toNat) ∧
      ∀ (j i : ℕ) (rx ry rz : List ℝ) (x y z : ℝ), T.xx[j]? = some rx → T.yy[j]? = some ry →
        T.zz[j]? = some rz → rx[i]? = some x → ry[i]? = some y → rz[i]? = some z →
        Spaced (x0 - offset.1) (x1 + offset.1) num.1 i x ∧
        Spaced (y0 - offset.2) (y1 + offset.2) num.2 j y ∧
        (∀ v, f x y = some v → z = v) ∧ (f x y = none → z = fill) := by
  obtain ⟨x0, x1, ex, hx⟩ := minMaxList_extent hp 0
  obtain ⟨y0, y1, ey, hy⟩ := minMaxList_extent hp 1
  obtain ⟨xi, exi, hxl, hxi⟩ := npLinspace_get (x0 - offset.1) (x1 + offset.1) h1
  obtain ⟨yi, eyi, hyl, hyi⟩ := npLinspace_get (y0 - offset.2) (y1 + offset.2) h2
  have hz : (positions.map fun p => p 0).zip (positions.map fun p => p 1) =
      positions.map fun p => (p 0, p 1) := by
    rw [List.zip_map']
  have e : interpolateToGrid g positions values num offset fill = .ok ⟨yi.map fun _ => xi,
      yi.map fun y => xi.map fun _ => y, yi.map fun y => xi.map fun x => (f x y).getD fill⟩ := by
    unfold interpolateToGrid
    simp [List.finRange_succ, ex, ey, exi, eyi, hz, hf]
  refine ⟨_, x0, x1, y0, y1, e, hx, hy, ?_, ?_⟩
  · intro t ht
    simp only [List.mem_cons, List.not_mem_nil, or_false] at ht
    rcases ht with rfl | rfl | rfl
    · simp [hyl, hxl]
    · simp [hyl, hxl]
    · simp [hyl, hxl]
  · intro j i rx ry rz x y z hrx hry hrz hix hiy hiz
    dsimp only at hrx hry hrz
    rw [List.getElem?_map, Option.map_eq_some_iff] at hrx hry hrz
    obtain ⟨a, ha, rfl⟩ := hrx
    obtain ⟨b, hb, rfl⟩ := hry
    obtain ⟨c, hc, rfl⟩ := hrz
    rw [hb, Option.some.injEq] at ha hc
    subst ha hc
    rw [List.getElem?_map, Option.map_eq_some_iff] at hiy hiz
    obtain ⟨x', hx', rfl⟩ := hiy
    obtain ⟨x'', hx'', rfl⟩ := hiz
    rw [hix, Option.some.injEq] at hx' hx''
    subst hx' hx''
    refine ⟨hxi i x hix, hyi j _ hb, ?_, ?_⟩
    · intro v hv
      rw [hv]
      rfl
    · intro hv
      rw [hv]
      rfl

/-- C113, ends of the grid: the first column is at the smallest x coordinate minus the offset, the last
column at the largest plus the offset, and no other column lies between two neighbouring ones. -/
theorem C113_ends {lo hi : ℝ} {n : ℤ} (hn : 2 ≤ n) (x : ℝ) :
    (Spaced lo hi n 0 x ↔ x = lo) ∧ (Spaced lo hi n (n - 1).toNat x ↔ x = hi) ∧
    ∀ i x', Spaced lo hi n i x → Spaced lo hi n (i + 1) x' → x' = x + (hi - lo) / (n - 1) := by
  have h1 : (n : ℝ) - 1 ≠ 0 := by
    have : (0 : ℤ) < n - 1 := by omega
    exact_mod_cast this.ne'
  unfold Spaced
  refine ⟨?_, ?_, ?_⟩
  · rw [Nat.cast_zero, zero_mul, mul_eq_zero, or_iff_left h1, sub_eq_zero]
  · have : (((n - 1).toNat : ℕ) : ℝ) = n - 1 := by
      have : (((n - 1).toNat : ℤ) : ℝ) = ((n - 1 : ℤ) : ℝ) := by rw [Int.toNat_of_nonneg (by omega)]
      push_cast at this
      exact this
    rw [this]
    constructor
    · intro h
      have := mul_left_cancel₀ h1 ((mul_comm _ _).trans h)
      linarith
    · rintro rfl
      ring
  · intro i x' h h'
    push_cast at h'
    field_simp
    linarith

/-- C113, values of the points: if the interpolation reproduces the given values at the points (as the
methods of `griddata` do for different points), every grid point that is one of the points has its
value. -/
theorem C113_points (g : Griddata ℝ) {positions : List (Vec 2 ℝ)} {values : List ℝ} {num : ℤ × ℤ}
    {offset : ℝ × ℝ} {fill : ℝ} {f : ℝ → ℝ → Option ℝ}
    (hf : g.interp (positions.map fun p => (p 0, p 1)) values = .ok f)
    (hexact : ∀ (k : ℕ) p v, positions[k]? = some p → values[k]? = some v → f (p 0) (p 1) = some v)
    {T : GridTables ℝ} (hT : interpolateToGrid g positions values num offset fill = .ok T)
    {j i : ℕ} {rx ry rz : List ℝ} {x y z : ℝ} (hrx : T.xx[j]? = some rx) (hry : T.yy[j]? = some ry)
    (hrz : T.zz[j]? = some rz) (hx : rx[i]? = some x) (hy : ry[i]? = some y) (hz : rz[i]? = some z)
    {k : ℕ} {p : Vec 2 ℝ} {v : ℝ} (hk : positions[k]? = some p) (hv : values[k]? = some v)
    (h0 : p 0 = x) (h1 : p 1 = y) : z = v := by
  have hzip : (positions.map fun p => p 0).zip (positions.map fun p => p 1) =
      positions.map fun p => (p 0, p 1) := by
    rw [List.zip_map']
  have hcols : (List.finRange 2).map (fun k => positions.map fun p => p k) =
      [positions.map fun p => p 0, positions.map fun p => p 1] := by
    simp [List.finRange_succ]
  unfold interpolateToGrid at hT
  rw [hcols] at hT
  dsimp only at hT
  split at hT
  · cases hT
  split at hT
  · cases hT
  split at hT
  · cases hT
  split at hT
  · cases hT
  rw [hzip, hf] at hT
  cases hT
  dsimp only at hrx hry hrz
  rw [List.getElem?_map, Option.map_eq_some_iff] at hrx hry hrz
  obtain ⟨a, ha, rfl⟩ := hrx
  obtain ⟨b, hb, rfl⟩ := hry
  obtain ⟨c, hc, rfl⟩ := hrz
  rw [hb, Option.some.injEq] at ha hc
  subst ha hc
  rw [List.getElem?_map, Option.map_eq_some_iff] at hy hz
  obtain ⟨x', hx', rfl⟩ := hy
  obtain ⟨x'', hx'', rfl⟩ := hz
  rw [hx, Option.some.injEq] at hx' hx''
  subst hx' hx''
  rw [← h0, ← h1, hexact k p v hk hv]
  rfl

/-- C113, errors: without points, with points that do not have two coordinates, and with a negative
number of grid lines a `ValueError` is raised; an exception of the interpolation is passed on. -/
theorem C113_errors (g : Griddata ℝ) {d : ℕ} (positions : List (Vec d ℝ)) (values : List ℝ)
    (num : ℤ × ℤ) (offset : ℝ × ℝ) (fill : ℝ) :
    ((d ≠ 2 ∨ positions = [] ∨ num.1 < 0 ∨ num.2 < 0) →
      interpolateToGrid g positions values num offset fill = .error .value) ∧
    ∀ (e : PyErr) (hd : d = 2), positions ≠ [] → 0 ≤ num.1 → 0 ≤ num.2 →
      g.interp (positions.map fun p => (p (hd ▸ 0), p (hd ▸ 1))) values = .error e →
      interpolateToGrid g positions values num offset fill = .error e := by
  have hcols : ∀ ps : List (Vec 2 ℝ), (List.finRange 2).map (fun k => ps.map fun p => p k) =
      [ps.map fun p => p 0, ps.map fun p => p 1] := by
    intro ps
    simp [List.finRange_succ]
  constructor
  · intro h
    by_cases hd : d = 2
    · subst hd
      unfold interpolateToGrid
      rw [hcols]
      dsimp only
      by_cases hp : positions = []
      · subst hp
        rfl
      obtain ⟨x0, x1, ex, -⟩ := minMaxList_extent hp 0
      obtain ⟨y0, y1, ey, -⟩ := minMaxList_extent hp 1
      rw [ex, ey]
      dsimp only
      by_cases h1 : num.1 < 0
      · rw [show npLinspace (x0 - offset.1) (x1 + offset.1) num.1 true = .error .value from if_pos h1]
      · obtain ⟨xi, exi, -⟩ := npLinspace_ok (x0 - offset.1) (x1 + offset.1) (not_lt.1 h1) true
        rw [exi]
        dsimp only
        have h2 : num.2 < 0 := by tauto
        rw [show npLinspace (y0 - offset.2) (y1 + offset.2) num.2 true = .error .value from if_pos h2]
    · unfold interpolateToGrid
      split
      · rename_i x y hxy
        have := congrArg List.length hxy
        simp at this
        exact absurd this hd
      · rfl
  · rintro e rfl hp h1 h2 he
    unfold interpolateToGrid
    rw [hcols]
    obtain ⟨x0, x1, ex, -⟩ := minMaxList_extent hp 0
    obtain ⟨y0, y1, ey, -⟩ := minMaxList_extent hp 1
    obtain ⟨xi, exi, -⟩ := npLinspace_ok (x0 - offset.1) (x1 + offset.1) h1 true
    obtain ⟨yi, eyi, -⟩ := npLinspace_ok (y0 - offset.2) (y1 + offset.2) h2 true
    have hzip : (positions.map fun p => p 0).zip (positions.map fun p => p 1) =
        positions.map fun p => (p 0, p 1) := by
      rw [List.zip_map']
    dsimp only
    rw [ex]
    dsimp only
    rw [exi, ey]
    dsimp only
    rw [eyi]
    dsimp only
    rw [hzip]
    dsimp only at he
    rw [he]

/-- C113 fails for a single grid line: with `num = (1, 1)` the grid of the corners of a triangle has
only the point at the smallest coordinates and does not reach the largest ones. -/
theorem C113_single_fails (g : Griddata ℝ) (values : List ℝ) (fill : ℝ) {f : ℝ → ℝ → Option ℝ}
    (hf : g.interp [(0, 0), (1, 0), (0, 1)] values = .ok f) :
    ∃ T, interpolateToGrid g [![0, 0], ![1, 0], ![0, 1]] values (1, 1) (0, 0) fill = .ok T ∧
      T.xx = [[0]] ∧ T.yy = [[0]] := by
  refine ⟨⟨[[0]], [[0]], [[(f 0 0).getD fill]]⟩, ?_, rfl, rfl⟩
  unfold interpolateToGrid
  simp [List.finRange_succ, minMaxList, npLinspace, hf]

/-- The plane through the values 5, 6 and 7 at the corners of a triangle, on a grid of two by three
lines: the conditions of the theorems above hold, and the largest x coordinate is 1. -/
example : let g : Griddata ℝ := ⟨fun _ _ => .ok fun x y => some (5 + x + 2 * y)⟩
    let ps : List (Vec 2 ℝ) := [![0, 0], ![1, 0], ![0, 1]]
    (∃ f, g.interp (ps.map fun p => (p 0, p 1)) [5, 6, 7] = .ok f ∧
      ∀ (k : ℕ) p v, ps[k]? = some p → ([5, 6, 7] : List ℝ)[k]? = some v → f (p 0) (p 1) = some v) ∧
    ∃ T x0, interpolateToGrid g ps [5, 6, 7] (2, 3) (0, 0) 0 = .ok T ∧ AxisExtent ps 0 x0 1 := by
  intro g ps
  refine ⟨⟨_, rfl, ?_⟩, ?_⟩
  · intro k p v hp hv
    rcases k with _ | _ | _ | k
    · cases hp
      cases hv
      norm_num
    · cases hp
      cases hv
      norm_num
    · cases hp
      cases hv
      norm_num
    · simp [ps] at hp
  · obtain ⟨T, x0, x1, y0, y1, h1, h2, -⟩ := C113_grid_partial g (positions := ps) (by simp [ps])
      [5, 6, 7] (num := (2, 3)) (by norm_num) (by norm_num) (0, 0) 0 rfl
    refine ⟨T, x0, h1, ?_⟩
    have : x1 = 1 := by
      obtain ⟨-, ⟨p, hp, rfl⟩, h⟩ := h2
      have h3 := (h ![1, 0] (by simp [ps])).2
      simp only [ps, List.mem_cons, List.not_mem_nil, or_false] at hp
      rcases hp with rfl | rfl | rfl
      · norm_num at h3
      · rfl
      · norm_num at h3
    rw [← this]
    exact h2

end Lattpy
