import Verif.Model.Grid
import Verif.Lemmas.Spatial
import Verif.Lemmas.Data
import Verif.Props.WignerSeitz

/-!
# C90, C91: grids of vectors
-/

set_option autoImplicit false
set_option linter.unusedSectionVars false

namespace Lattpy
variable {d : ℕ}

/-- `x` is one of the numbers `start, start + step, ...` before `stop`. -/
def InSlice (start stop step x : ℝ) : Prop :=
  ∃ n : ℕ, x = start + n * step ∧ (0 < step → x < stop) ∧ (step < 0 → stop < x)

theorem inSlice_iff {start stop step : ℝ} (hs : step ≠ 0) (x : ℝ) :
    InSlice start stop step x ↔
      ∃ n : ℕ, n < ⌈(stop - start) / step⌉.toNat ∧ x = n * step + start := by
  have key : ∀ n : ℕ, n < ⌈(stop - start) / step⌉.toNat ↔
      ((0 < step → start + n * step < stop) ∧ (step < 0 → stop < start + n * step)) := by
    intro n
    have h1 : n < ⌈(stop - start) / step⌉.toNat ↔ ((n : ℤ) : ℝ) < (stop - start) / step := by
      rw [← Int.lt_ceil]
      omega
    rw [h1, Int.cast_natCast]
    rcases lt_or_gt_of_ne hs with h | h
    · rw [lt_div_iff_of_neg h]
      constructor
      · intro h2
        exact ⟨fun h3 => absurd h3 (by linarith), fun _ => by linarith⟩
      · intro h2
        linarith [h2.2 h]
    · rw [lt_div_iff₀ h]
      constructor
      · intro h2
        exact ⟨fun _ => by linarith, fun h3 => absurd h3 (by linarith)⟩
      · intro h2
        linarith [h2.1 h]
  unfold InSlice
  constructor
  · rintro ⟨n, rfl, h1, h2⟩
    exact ⟨n, (key n).2 ⟨h1, h2⟩, by ring⟩
  · rintro ⟨n, hn, rfl⟩
    have := (key n).1 hn
    refine ⟨n, by ring, ?_, ?_⟩
    · intro h
      linarith [this.1 h]
    · intro h
      linarith [this.2 h]

theorem boxList_nodup {α : Type*} : {d : ℕ} → (r : Fin d → List α) → (∀ k, (r k).Nodup) →
    (boxList r).Nodup
  | 0, r, _ => by simp [boxList]
  | d + 1, r, h => by
      simp only [boxList]
      rw [List.nodup_flatMap]
      constructor
      · intro x _
        refine (boxList_nodup _ fun k => h k.succ).map ?_
        intro a b hab
        exact (Fin.cons_inj.1 hab).2
      · refine (h 0).imp ?_
        intro x y hxy
        rw [Function.onFun, List.disjoint_left]
        intro v h1 h2
        obtain ⟨a, -, rfl⟩ := List.mem_map.1 h1
        obtain ⟨b, -, hb⟩ := List.mem_map.1 h2
        exact hxy (Fin.cons_inj.1 hb).1.symm

theorem sizes_ok (start stop step : Vec d ℝ) (hs : ∀ k, step k ≠ 0) :
    ((List.finRange d).mapM fun k => sliceSize (start k) (stop k) (step k)) =
      .ok ((List.finRange d).map fun k => ⌈(stop k - start k) / step k⌉) := by
  apply mapM_ok
  intro k _
  unfold sliceSize
  rw [if_neg (hs k)]

/-- The rows of `vrange`. -/
theorem vrange_ok (hd : 0 < d) (start stop step : Vec d ℝ) (hs : ∀ k, step k ≠ 0)
    (hle : ∀ k, -1 < (stop k - start k) / step k) (ax : Option (Fin d)) :
    vrange start stop step ax = .ok (
      let array := (boxList fun k => List.range ⌈(stop k - start k) / step k⌉.toNat).map
        fun i k => (i k : ℝ) * step k + start k
      match ax with
        | none => array
        | some ax => stableSortBy (fun v => v ax) array) := by
  unfold vrange
  rw [sizes_ok start stop step hs]
  dsimp only
  have hneg : ¬ (d = 0 ∨ ∃ n ∈ (List.finRange d).map fun k => ⌈(stop k - start k) / step k⌉, n < 0) := by
    rintro (h | ⟨n, hn, h0⟩)
    · omega
    · obtain ⟨k, -, rfl⟩ := List.mem_map.1 hn
      have h1 : (-1 : ℤ) < ⌈(stop k - start k) / step k⌉ := by
        rw [Int.lt_ceil]
        push_cast
        exact hle k
      omega
  rw [if_neg hneg]
  cases ax <;> rfl

/-- C90: the rows are the vectors of the interval, each once, sorted by the chosen component. -/
theorem C90_vectors (hd : 0 < d) (start stop step : Vec d ℝ) (hs : ∀ k, step k ≠ 0)
    (hle : ∀ k, -1 < (stop k - start k) / step k) (ax : Option (Fin d)) :
    ∃ r, vrange start stop step ax = .ok r ∧ r.Nodup ∧
      (∀ v, v ∈ r ↔ ∀ k, InSlice (start k) (stop k) (step k) (v k)) ∧
      ∀ k, ax = some k → r.Pairwise fun u v => u k ≤ v k := by
  set array := (boxList fun k => List.range ⌈(stop k - start k) / step k⌉.toNat).map
    fun i k => (i k : ℝ) * step k + start k with harray
  have hmem : ∀ v, v ∈ array ↔ ∀ k, InSlice (start k) (stop k) (step k) (v k) := by
    intro v
    simp only [harray, List.mem_map, mem_boxList, List.mem_range]
    constructor
    · rintro ⟨i, hi, rfl⟩ k
      exact (inSlice_iff (hs k) _).2 ⟨i k, hi k, rfl⟩
    · intro h
      choose i hi he using fun k => (inSlice_iff (hs k) _).1 (h k)
      exact ⟨i, hi, funext fun k => (he k).symm⟩
  have hnd : array.Nodup := by
    refine (boxList_nodup _ fun k => List.nodup_range).map ?_
    intro i j hij
    funext k
    have := congrFun hij k
    dsimp only at this
    have h1 : (i k : ℝ) * step k = j k * step k := by linarith
    exact_mod_cast mul_right_cancel₀ (hs k) h1
  refine ⟨_, vrange_ok hd start stop step hs hle ax, ?_⟩
  cases ax with
  | none => exact ⟨hnd, hmem, by simp⟩
  | some ax =>
    dsimp only
    refine ⟨(stableSortBy_perm _ _).nodup_iff.2 hnd, ?_, ?_⟩
    · intro v
      rw [(stableSortBy_perm _ _).mem_iff]
      exact hmem v
    · intro k hk
      cases hk
      exact stableSortBy_pairwise _ _

/-- C90: an interval that ends a whole step or more before its start is a `ValueError`. -/
theorem C90_reversed (start stop step : Vec d ℝ) (hs : ∀ k, step k ≠ 0) (k : Fin d)
    (hk : (stop k - start k) / step k ≤ -1) (ax : Option (Fin d)) :
    vrange start stop step ax = .error .value := by
  unfold vrange
  rw [sizes_ok start stop step hs]
  dsimp only
  rw [if_pos]
  refine Or.inr ⟨_, List.mem_map.2 ⟨k, List.mem_finRange k, rfl⟩, ?_⟩
  have h1 : ⌈(stop k - start k) / step k⌉ ≤ -1 := by
    rw [Int.ceil_le]
    push_cast
    exact hk
  omega

/-- C90 with the default arguments: the vectors of natural numbers below the limits. -/
theorem C90_default (hd : 0 < d) (stop : Vec d ℝ) (h : ∀ k, 0 ≤ stop k) :
    ∃ r, vrangeStop hd stop = .ok r ∧ r.Nodup ∧
      (∀ v, v ∈ r ↔ ∀ k, ∃ n : ℕ, v k = n ∧ (n : ℝ) < stop k) ∧
      r.Pairwise fun u v => u ⟨0, hd⟩ ≤ v ⟨0, hd⟩ := by
  obtain ⟨r, h1, h2, h3, h4⟩ := C90_vectors hd 0 stop (fun _ => 1) (by simp)
    (by intro k; have := h k; simp; linarith) (some ⟨0, hd⟩)
  refine ⟨r, h1, h2, ?_, h4 _ rfl⟩
  intro v
  rw [h3]
  refine forall_congr' fun k => ?_
  unfold InSlice
  constructor
  · rintro ⟨n, hn, h5, -⟩
    have e : v k = n := by simpa using hn
    exact ⟨n, e, by rw [← e]; exact h5 one_pos⟩
  · rintro ⟨n, hn, h5⟩
    exact ⟨n, by simpa using hn, fun _ => by rw [hn]; exact h5, fun h => absurd h (by norm_num)⟩

/-- C90: a zero step raises. -/
theorem C90_zero_step (start stop step : Vec d ℝ) (k : Fin d) (hk : step k = 0)
    (ax : Option (Fin d)) : ∃ e, vrange start stop step ax = .error e := by
  unfold vrange
  cases h : (List.finRange d).mapM fun k => sliceSize (start k) (stop k) (step k) with
  | error e => exact ⟨e, rfl⟩
  | ok sizes =>
    exfalso
    have : ∀ (l : List (Fin d)) (r : List ℤ), k ∈ l →
        (l.mapM fun k => sliceSize (start k) (stop k) (step k)) ≠ .ok r := by
      intro l
      induction l with
      | nil => simp
      | cons j l ih =>
        intro r hj hr
        rw [List.mapM_cons] at hr
        rcases List.mem_cons.1 hj with rfl | hj
        · unfold sliceSize at hr
          rw [if_pos hk] at hr
          split_ifs at hr <;> cases hr
        · cases hs : sliceSize (start j) (stop j) (step j) with
          | error e => rw [hs] at hr; cases hr
          | ok n =>
            cases hm : l.mapM fun k => sliceSize (start k) (stop k) (step k) with
            | error e => rw [hs, hm] at hr; cases hr
            | ok t => exact ih t hj hm
    exact this _ _ (List.mem_finRange k) h

/-- Three quarters of a step: one row per combination. -/
example : ∃ r, vrange (![0, 1] : Vec 2 ℝ) ![1, 0] ![1 / 2, -3 / 4] (some 0) = .ok r ∧
    ![1 / 2, 1 / 4] ∈ r ∧ ![1, 1] ∉ r := by
  obtain ⟨r, h1, -, h2, -⟩ := C90_vectors two_pos (![0, 1] : Vec 2 ℝ) ![1, 0] ![1 / 2, -3 / 4]
    (by intro k; fin_cases k <;> norm_num) (by intro k; fin_cases k <;> norm_num) (some 0)
  refine ⟨r, h1, ?_, ?_⟩
  · rw [h2]
    intro k
    fin_cases k
    · exact ⟨1, by norm_num, fun _ => by norm_num, fun h => by norm_num at h⟩
    · exact ⟨1, by norm_num, fun h => by norm_num at h, fun _ => by norm_num⟩
  · rw [h2]
    intro h
    obtain ⟨n, -, h3, -⟩ := h 0
    have := h3 (by norm_num)
    norm_num at this

/-! ## C91 -/

open WSCell

/-- `x` is one of `n` evenly spaced numbers starting at `lo`; the spacing divides the interval into
`n` parts, or into `n - 1` parts if the end point is included. -/
def OnAxis (lo hi : ℝ) (n : ℤ) (endpoint : Bool) (x : ℝ) : Prop :=
  ∃ i : ℕ, (i : ℤ) < n ∧ (x - lo) * (if endpoint then (n : ℝ) - 1 else n) = i * (hi - lo) ∧
    (n = 1 → x = lo)

theorem npLinspace_ok (lo hi : ℝ) {n : ℤ} (hn : 0 ≤ n) (endpoint : Bool) :
    ∃ r, npLinspace lo hi n endpoint = .ok r ∧ r.length = n.toNat ∧
      ∀ x, x ∈ r ↔ OnAxis lo hi n endpoint x := by
  unfold npLinspace
  rw [if_neg (by omega)]
  refine ⟨_, rfl, by simp, ?_⟩
  intro x
  simp only [List.mem_map, List.mem_range]
  unfold OnAxis
  have hdiv : ((if endpoint then n - 1 else n : ℤ) : ℝ) = if endpoint then (n : ℝ) - 1 else n := by
    cases endpoint <;> simp
  by_cases h0 : (if endpoint then n - 1 else n) ≤ 0
  · simp only [if_pos h0]
    constructor
    · rintro ⟨i, hi, rfl⟩
      have h1 : n = 1 := by
        cases endpoint <;> simp at h0 <;> omega
      exact ⟨0, by omega, by simp, fun _ => rfl⟩
    · rintro ⟨i, hi, -, h1⟩
      have h2 : n = 1 := by
        cases endpoint <;> simp at h0 <;> omega
      exact ⟨0, by omega, (h1 h2).symm⟩
  · simp only [if_neg h0]
    have h1 : (0 : ℝ) < ((if endpoint then n - 1 else n : ℤ) : ℝ) := by
      exact_mod_cast not_le.1 h0
    rw [hdiv] at h1
    have hd := h1.ne'
    simp only [hdiv]
    constructor
    · rintro ⟨i, hi, rfl⟩
      refine ⟨i, by omega, by field_simp; ring, ?_⟩
      rintro rfl
      have : i = 0 := by omega
      subst this
      simp
    · rintro ⟨i, hi, he, -⟩
      refine ⟨i, by omega, ?_⟩
      field_simp
      linarith

theorem arange_ok (lo hi : ℝ) {s : ℝ} (hs : s ≠ 0) :
    ∃ r, arange lo hi s = .ok r ∧ ∀ x, x ∈ r ↔ InSlice lo hi s x := by
  unfold arange
  rw [if_neg hs]
  refine ⟨_, rfl, ?_⟩
  intro x
  rw [inSlice_iff hs]
  simp only [List.mem_map, List.mem_range]
  refine exists_congr fun n => and_congr_right fun _ => ?_
  constructor
  · rintro rfl
    ring
  · rintro rfl
    ring

theorem xySwap_swap (k : Fin d) : xySwap (xySwap k) = k := by
  unfold xySwap
  split_ifs <;> simp

theorem meshgrid_ok (env : Env ℝ) (w : WSCell d ℝ) {l : Fin d → ℝ × ℝ} {offset : ℝ}
    (hl : w.scaledLimits offset = .ok l) {arg : GridArg d ℝ} (harg : arg ≠ .none)
    (check endpoint : Bool) {P : Fin d → ℝ → Prop} {m : Fin d → List ℝ}
    (hax : ∀ k, axisValues arg endpoint l k = .ok (m k)) (hm : ∀ k x, x ∈ m k ↔ P k x) :
    ∃ pts : List (Vec d ℝ), w.meshgrid env arg offset check endpoint =
        .ok (pts.map fun v => if check = true ∧ w.check env v = false then none else some v) ∧
      (∀ v, v ∈ pts ↔ ∀ k, P k (v k)) ∧ pts.length = ∏ k, (m k).length := by
  have hmap : (List.finRange d).mapM (axisValues arg endpoint l) =
      .ok ((List.finRange d).map m) := mapM_ok _ _ _ fun k _ => hax k
  have hget : ∀ k : Fin d, (((List.finRange d).map m)[k.val]?).getD [] = m k := by
    intro k
    simp
  refine ⟨(boxList fun k => m (xySwap k)).map fun v k => v (xySwap k), ?_, ?_, ?_⟩
  · unfold meshgrid
    cases arg with
    | none => exact absurd rfl harg
    | nums n =>
      dsimp only
      rw [hl]
      dsimp only
      rw [hmap]
      dsimp only
      simp only [hget]
      congr 2
      funext v
      simp
    | steps n =>
      dsimp only
      rw [hl]
      dsimp only
      rw [hmap]
      dsimp only
      simp only [hget]
      congr 2
      funext v
      simp
  · intro v
    simp only [List.mem_map, mem_boxList]
    constructor
    · rintro ⟨u, hu, rfl⟩ k
      have := hu (xySwap k)
      rw [xySwap_swap] at this
      exact (hm k _).1 this
    · intro h
      refine ⟨fun k => v (xySwap k), fun k => (hm _ _).2 (h _), ?_⟩
      funext k
      change v (xySwap (xySwap k)) = v k
      rw [xySwap_swap]
  · rw [List.length_map, length_boxList]
    refine Fintype.prod_equiv ⟨xySwap, xySwap, xySwap_swap, xySwap_swap⟩ _ _ fun k => rfl

/-- `lo` and `hi` are the smallest and the largest coordinates of the vertices on every axis. -/
def Extent (vertices : List (Vec d ℝ)) (lo hi : Fin d → ℝ) : Prop :=
  ∀ k, IsLeast {t | ∃ v ∈ vertices, t = v k} (lo k) ∧
    IsGreatest {t | ∃ v ∈ vertices, t = v k} (hi k)

theorem scaledLimits_ok (w : WSCell d ℝ) (hv : w.vertices ≠ []) {lo hi : Fin d → ℝ}
    (h : Extent w.vertices lo hi) (offset : ℝ) :
    w.scaledLimits offset = .ok fun k => (lo k * (1 + offset), hi k * (1 + offset)) := by
  obtain ⟨l, hl, hext⟩ := (C18_limits w).2 hv
  unfold scaledLimits
  rw [hl]
  dsimp only
  congr 1
  funext k
  rw [(hext k).1.unique (h k).1, (hext k).2.unique (h k).2]

/-- C91 with numbers of points: the vectors of the grid are the combinations of `n k` evenly spaced
numbers on every axis, from the smallest to the largest coordinate of the vertices (both stretched
by `1 + offset`).  With `check` a vector is replaced by NaN exactly if `check` rejects it. -/
theorem C91_nums (env : Env ℝ) (w : WSCell d ℝ) (hv : w.vertices ≠ []) {lo hi : Fin d → ℝ}
    (h : Extent w.vertices lo hi) (n : Fin d → ℤ) (hn : ∀ k, 0 ≤ n k) (offset : ℝ)
    (check endpoint : Bool) :
    ∃ pts : List (Vec d ℝ), w.meshgrid env (.nums n) offset check endpoint =
        .ok (pts.map fun v => if check = true ∧ w.check env v = false then none else some v) ∧
      (∀ v, v ∈ pts ↔ ∀ k, OnAxis (lo k * (1 + offset)) (hi k * (1 + offset)) (n k) endpoint
        (v k)) ∧
      (pts.length : ℤ) = ∏ k, n k := by
  choose m hm1 hm2 hm3 using fun k => npLinspace_ok (lo k * (1 + offset)) (hi k * (1 + offset))
    (hn k) endpoint
  obtain ⟨pts, h1, h2, h3⟩ := meshgrid_ok env w (scaledLimits_ok w hv h offset)
    (arg := .nums n) (by simp) check endpoint hm1 hm3
  refine ⟨pts, h1, h2, ?_⟩
  rw [h3]
  push_cast
  refine Finset.prod_congr rfl fun k _ => ?_
  rw [hm2 k]
  exact Int.toNat_of_nonneg (hn k)

/-- C91 with step sizes: on every axis the numbers from the smallest coordinate of the vertices in
steps of `s k` below the largest one. -/
theorem C91_steps (env : Env ℝ) (w : WSCell d ℝ) (hv : w.vertices ≠ []) {lo hi : Fin d → ℝ}
    (h : Extent w.vertices lo hi) (s : Vec d ℝ) (hs : ∀ k, s k ≠ 0) (offset : ℝ)
    (check endpoint : Bool) :
    ∃ pts : List (Vec d ℝ), w.meshgrid env (.steps s) offset check endpoint =
        .ok (pts.map fun v => if check = true ∧ w.check env v = false then none else some v) ∧
      ∀ v, v ∈ pts ↔ ∀ k, InSlice (lo k * (1 + offset)) (hi k * (1 + offset)) (s k) (v k) := by
  choose m hm1 hm2 using fun k => arange_ok (lo k * (1 + offset)) (hi k * (1 + offset)) (hs k)
  obtain ⟨pts, h1, h2, -⟩ := meshgrid_ok env w (scaledLimits_ok w hv h offset)
    (arg := .steps s) (by simp) check endpoint hm1 hm2
  exact ⟨pts, h1, h2⟩

theorem mapM_error {α β : Type*} (f : α → Except PyErr β) (e : PyErr) (l : List α)
    (h : ∀ x ∈ l, (∃ y, f x = .ok y) ∨ f x = .error e) (hx : ∃ x ∈ l, f x = .error e) :
    l.mapM f = .error e := by
  induction l with
  | nil => simp at hx
  | cons a l ih =>
    rw [List.mapM_cons]
    rcases h a (by simp) with ⟨y, hy⟩ | hy
    · rw [hy]
      obtain ⟨x, hx1, hx2⟩ := hx
      rcases List.mem_cons.1 hx1 with rfl | hx1
      · rw [hy] at hx2
        cases hx2
      · have := ih (fun x hx => h x (by simp [hx])) ⟨x, hx1, hx2⟩
        change (l.mapM f >>= fun ys => pure (y :: ys)) = _
        rw [this]
        rfl
    · rw [hy]
      rfl

/-- C91, the errors: neither `nums` nor `steps`, a cell without vertices, a negative number of
points or a zero step raise a `ValueError`. -/
theorem C91_errors (env : Env ℝ) (w : WSCell d ℝ) (offset : ℝ) (check endpoint : Bool) :
    w.meshgrid env .none offset check endpoint = .error .value ∧
    (w.vertices = [] → ∀ arg, w.meshgrid env arg offset check endpoint = .error .value) ∧
    (∀ n : Fin d → ℤ, (∃ k, n k < 0) →
      w.meshgrid env (.nums n) offset check endpoint = .error .value) ∧
    ∀ s : Vec d ℝ, (∃ k, s k = 0) →
      w.meshgrid env (.steps s) offset check endpoint = .error .value := by
  have hlim : w.scaledLimits offset = .error .value ∨ ∃ l, w.scaledLimits offset = .ok l := by
    by_cases hv : w.vertices = []
    · left
      unfold scaledLimits
      rw [(C18_limits w).1 hv]
    · right
      obtain ⟨l, hl, -⟩ := (C18_limits w).2 hv
      unfold scaledLimits
      rw [hl]
      exact ⟨_, rfl⟩
  refine ⟨rfl, fun hv arg => ?_, fun n ⟨k, hk⟩ => ?_, fun s ⟨k, hk⟩ => ?_⟩
  · have : w.scaledLimits offset = .error .value := by
      unfold scaledLimits
      rw [(C18_limits w).1 hv]
    unfold meshgrid
    cases arg with
    | none => rfl
    | nums n => dsimp only; rw [this]
    | steps s => dsimp only; rw [this]
  · unfold meshgrid
    dsimp only
    rcases hlim with h | ⟨l, h⟩ <;> rw [h]
    dsimp only
    rw [mapM_error _ .value]
    · intro k _
      by_cases hn : n k < 0
      · right; simp [axisValues, npLinspace, hn]
      · left; simp [axisValues, npLinspace, hn]
    · exact ⟨k, by simp, by simp [axisValues, npLinspace, hk]⟩
  · unfold meshgrid
    dsimp only
    rcases hlim with h | ⟨l, h⟩ <;> rw [h]
    dsimp only
    rw [mapM_error _ .value]
    · intro k _
      by_cases hn : s k = 0
      · right; simp [axisValues, arange, hn]
      · left; simp [axisValues, arange, hn]
    · exact ⟨k, by simp, by simp [axisValues, arange, hk]⟩

theorem flatMap_getElem {α β : Type*} (f : α → List β) (m : ℕ) :
    (l : List α) → (∀ a ∈ l, (f a).length = m) → (i j : ℕ) → j < m →
      (l.flatMap f)[i * m + j]? = (l[i]?).bind fun a => (f a)[j]?
  | [], _, i, j, _ => by simp
  | a :: l, h, 0, j, hj => by
      rw [List.flatMap_cons, List.getElem?_append_left (by rw [h a (by simp)]; omega)]
      simp
  | a :: l, h, i + 1, j, hj => by
      have ha := h a (by simp)
      rw [List.flatMap_cons, List.getElem?_append_right (by rw [ha]; nlinarith), ha,
        show (i + 1) * m + j - m = i * m + j by rw [add_mul]; omega,
        flatMap_getElem f m l (fun a h' => h a (by simp [h'])) i j hj]
      simp

theorem boxList_two {α : Type*} (r : Fin 2 → List α) {i j : ℕ} {a b : α} (ha : (r 0)[j]? = some a)
    (hb : (r 1)[i]? = some b) : (boxList r)[j * (r 1).length + i]? = some ![a, b] := by
  have hi : i < (r 1).length := (List.getElem?_eq_some_iff.1 hb).1
  have e : boxList (fun k : Fin 1 => r k.succ) = (r 1).map fun x => ![x] := by
    simp only [boxList]
    rw [← List.flatMap_pure_eq_map]
    congr 1
  rw [boxList, e, flatMap_getElem _ (r 1).length _ (by simp) _ _ hi, ha]
  simp only [Option.bind_some, List.getElem?_map, hb, Option.map_some]
  congr 1

/-- C91, the layout in two dimensions: the grid has a row for every value of the second coordinate,
along which the first coordinate varies. -/
theorem C91_layout (env : Env ℝ) (w : WSCell 2 ℝ) (hv : w.vertices ≠ []) {lo hi : Fin 2 → ℝ}
    (h : Extent w.vertices lo hi) (n0 n1 : ℕ) (offset : ℝ) {i j : ℕ} (hi' : i < n0) (hj : j < n1) :
    ∃ g, w.meshgrid env (.nums ![n0, n1]) offset false false = .ok g ∧
      g[j * n0 + i]? = some (some ![lo 0 * (1 + offset) + i * ((hi 0 - lo 0) * (1 + offset) / n0),
        lo 1 * (1 + offset) + j * ((hi 1 - lo 1) * (1 + offset) / n1)]) := by
  unfold meshgrid
  dsimp only
  rw [scaledLimits_ok w hv h offset]
  dsimp only
  have hax : ∀ k : Fin 2, axisValues (.nums ![n0, n1]) false
      (fun k => (lo k * (1 + offset), hi k * (1 + offset))) k =
      .ok ((List.range (![n0, n1] k)).map fun i : ℕ =>
        lo k * (1 + offset) + i * ((hi k - lo k) * (1 + offset) / (![n0, n1] k : ℕ))) := by
    intro k
    have h1 : 0 < ![n0, n1] k := by
      fin_cases k
      · exact lt_of_le_of_lt (Nat.zero_le _) hi'
      · exact lt_of_le_of_lt (Nat.zero_le _) hj
    have h2 : (![(n0 : ℤ), n1] k) = ((![n0, n1] k : ℕ) : ℤ) := by fin_cases k <;> rfl
    unfold axisValues npLinspace
    dsimp only
    rw [h2, if_neg (by omega)]
    simp only [Bool.false_eq_true, if_false, Int.toNat_natCast]
    congr 2
    funext i
    rw [if_neg (by omega)]
    push_cast
    ring
  rw [mapM_ok _ _ _ fun k _ => hax k]
  refine ⟨_, rfl, ?_⟩
  have hget : ∀ k : Fin 2, (((List.finRange 2).map fun k : Fin 2 =>
      (List.range (![n0, n1] k)).map fun i : ℕ => lo k * (1 + offset) +
        i * ((hi k - lo k) * (1 + offset) / (![n0, n1] k : ℕ)))[k.val]?).getD [] =
      (List.range (![n0, n1] k)).map fun i : ℕ => lo k * (1 + offset) +
        i * ((hi k - lo k) * (1 + offset) / (![n0, n1] k : ℕ)) := by
    intro k
    fin_cases k <;> rfl
  simp only [hget, Bool.false_and, Bool.false_eq_true, if_false]
  have e0 : xySwap (0 : Fin 2) = 1 := rfl
  have e1 : xySwap (1 : Fin 2) = 0 := rfl
  have := boxList_two (fun k : Fin 2 => (List.range (![n0, n1] (xySwap k))).map fun i : ℕ =>
    lo (xySwap k) * (1 + offset) + i * ((hi (xySwap k) - lo (xySwap k)) * (1 + offset) /
      (![n0, n1] (xySwap k) : ℕ))) (i := i) (j := j)
    (a := lo 1 * (1 + offset) + j * ((hi 1 - lo 1) * (1 + offset) / n1))
    (b := lo 0 * (1 + offset) + i * ((hi 0 - lo 0) * (1 + offset) / n0))
    (by rw [e0]; simp [hj]) (by rw [e1]; simp [hi'])
  rw [show ((List.range (![n0, n1] (xySwap (1 : Fin 2)))).map fun i : ℕ =>
    lo (xySwap (1 : Fin 2)) * (1 + offset) + i * ((hi (xySwap (1 : Fin 2)) -
      lo (xySwap (1 : Fin 2))) * (1 + offset) /
      (![n0, n1] (xySwap (1 : Fin 2)) : ℕ))).length = n0 by rw [e1]; simp] at this
  rw [List.getElem?_map, List.getElem?_map, this]
  simp only [Option.map_some]
  congr 2
  funext k
  fin_cases k <;> rfl

/-- C91 for a cell whose `check` is right (the hypercubic, hexagonal and face-centred cells of C86):
every vector of the grid that is not NaN is at least as close to the origin as to every lattice
point, and grid vectors strictly closer to the origin than to all other lattice points are kept. -/
theorem C91_cell (env : Env ℝ) (w : WSCell d ℝ) {rows : Matrix (Fin d) (Fin d) ℝ}
    (hw : IsCell rows (w.check env)) (arg : GridArg d ℝ) (offset : ℝ) (endpoint : Bool)
    {g g' : List (Option (Vec d ℝ))} (hg : w.meshgrid env arg offset true endpoint = .ok g)
    (hg' : w.meshgrid env arg offset false endpoint = .ok g') :
    g.length = g'.length ∧ ∀ (i : ℕ) (v : Vec d ℝ), g'[i]? = some (some v) →
      (g[i]? = some none ∨ g[i]? = some (some v)) ∧
      (g[i]? = some (some v) → ∀ n, distance v 0 ≤ distance v (latPoint rows n)) ∧
      ((∀ n, n ≠ 0 → distance v 0 < distance v (latPoint rows n)) → g[i]? = some (some v)) := by
  have key : g = g'.map fun o => o.bind fun v => if w.check env v = false then none else some v := by
    unfold meshgrid at hg hg'
    cases arg with
    | none => cases hg
    | nums n =>
      dsimp only at hg hg'
      cases hl : w.scaledLimits offset with
      | error e => rw [hl] at hg; cases hg
      | ok l =>
        rw [hl] at hg hg'
        dsimp only at hg hg'
        cases hm : (List.finRange d).mapM (axisValues (.nums n) endpoint l) with
        | error e => rw [hm] at hg; cases hg
        | ok axes =>
          rw [hm] at hg hg'
          dsimp only at hg hg'
          rw [← Except.ok.inj hg, ← Except.ok.inj hg', List.map_map]
          simp
    | steps n =>
      dsimp only at hg hg'
      cases hl : w.scaledLimits offset with
      | error e => rw [hl] at hg; cases hg
      | ok l =>
        rw [hl] at hg hg'
        dsimp only at hg hg'
        cases hm : (List.finRange d).mapM (axisValues (.steps n) endpoint l) with
        | error e => rw [hm] at hg; cases hg
        | ok axes =>
          rw [hm] at hg hg'
          dsimp only at hg hg'
          rw [← Except.ok.inj hg, ← Except.ok.inj hg', List.map_map]
          simp
  subst key
  refine ⟨by simp, fun i v hi => ?_⟩
  obtain ⟨h1, h2⟩ := hw v
  rw [List.getElem?_map, hi]
  cases hc : w.check env v with
  | true => simp [hc, h1 hc]
  | false =>
    refine ⟨.inl (by simp [hc]), fun h => by simp [hc] at h, fun h => ?_⟩
    rw [h2 h] at hc
    cases hc

/-- A square cell with a grid of two by three points: the corners of the square are on the grid if
the end points are included. -/
example : ∃ b w g, LatticeBasis.hypercubic 2 2 = .ok b ∧ b.wignerSeitzCell (Qhull.exact 2) = .ok w ∧
    w.meshgrid (Env.brute ℝ) (.nums ![2, 3]) 0 false true = .ok g ∧ g.length = 6 ∧
    some ![1, -1] ∈ g ∧ some ![1, 0] ∈ g ∧ some ![0, 0] ∉ g := by
  obtain ⟨b, w, h1, h2, h3, -⟩ := C86_cubic_vertices_partial (d := 2) (by norm_num)
    (Qhull.exact 2) 2 (by norm_num)
  have hh : |(2 : ℝ)| / 2 = 1 := by norm_num
  rw [hh] at h3
  have hin : (fun _ => 1) ∈ w.vertices := (h3 _).2 fun _ => by simp
  have hin' : (fun _ => -1) ∈ w.vertices := (h3 _).2 fun _ => by simp
  have hext : Extent w.vertices (fun _ => -1) (fun _ => 1) := by
    refine fun k => ⟨⟨⟨_, hin', rfl⟩, ?_⟩, ⟨⟨_, hin, rfl⟩, ?_⟩⟩
    · rintro t ⟨v, hv, rfl⟩
      rw [← (h3 v).1 hv k]
      exact neg_abs_le _
    · rintro t ⟨v, hv, rfl⟩
      rw [← (h3 v).1 hv k]
      exact le_abs_self _
  obtain ⟨pts, h4, h5, h6⟩ := C91_nums (Env.brute ℝ) w (List.ne_nil_of_mem hin) hext ![2, 3]
    (fun k => by fin_cases k <;> simp) 0 false true
  refine ⟨b, w, _, h1, h2, h4, ?_, ?_, ?_, ?_⟩
  · rw [List.length_map]
    have : (pts.length : ℤ) = 6 := by rw [h6]; simp [Fin.prod_univ_two]
    omega
  · refine List.mem_map.2 ⟨_, (h5 ![1, -1]).2 fun k => ?_, by simp⟩
    fin_cases k
    · exact ⟨1, by norm_num, by norm_num, by norm_num⟩
    · exact ⟨0, by norm_num, by norm_num, by norm_num⟩
  · refine List.mem_map.2 ⟨_, (h5 ![1, 0]).2 fun k => ?_, by simp⟩
    fin_cases k
    · exact ⟨1, by norm_num, by norm_num, by norm_num⟩
    · exact ⟨1, by norm_num, by norm_num, by norm_num⟩
  · intro h
    obtain ⟨v, hv, he⟩ := List.mem_map.1 h
    have e : v = ![0, 0] := by simpa using he
    subst e
    obtain ⟨i, hi1, hi2, -⟩ := (h5 _).1 hv 0
    norm_num at hi1 hi2
    have : (2 * i : ℝ) = 1 := by linarith
    have : 2 * i = 1 := by exact_mod_cast this
    omega

end Lattpy
