import Verif.Model.Disptools
import Verif.Lemmas.Utils
import Mathlib.Tactic.Linarith
import Mathlib.Tactic.FieldSimp
import Mathlib.Tactic.Ring
import Mathlib.Data.List.GetD

/-! # Properties C73 – C75 (`disptools.py`) -/

set_option autoImplicit false
set_option linter.unusedSectionVars false

namespace Lattpy

/-! ## broadcasting of equally long arrays -/

theorem bcast_of_lt {K : Type*} (p : List K) {n c : ℕ} (h : p.length = n) (hc : c < n) :
    bcast p c = p[c]? := by
  unfold bcast
  by_cases h1 : p.length = 1
  · have : c = 0 := by omega
    rw [if_pos h1, this]
  · rw [if_neg h1]

theorem bzip_eq {K : Type*} (f : K → K → K) (p q : List K) (h : p.length = q.length) :
    bzip f p q = .ok (List.zipWith f p q) := by
  unfold bzip broadcastLen
  rw [if_pos h]
  refine congrArg Except.ok ?_
  have e : (List.range q.length).filterMap (fun c =>
      (bcast p c).bind fun x => (bcast q c).map fun y => f x y) =
      (List.range q.length).filterMap fun c => (List.zipWith f p q)[c]? := by
    apply List.filterMap_congr
    intro c hc
    rw [List.mem_range] at hc
    rw [bcast_of_lt p h hc, bcast_of_lt q rfl hc, List.getElem?_zipWith]
    rw [List.getElem?_eq_getElem (by omega : c < p.length), List.getElem?_eq_getElem hc]
    rfl
  have hl : (List.zipWith f p q).length = q.length := by simp [h]
  rw [e, ← hl]
  generalize List.zipWith f p q = l
  clear e hl h
  apply List.ext_getElem?
  intro i
  induction l using List.reverseRecOn generalizing i with
  | nil => simp
  | append_singleton l a ih =>
    rw [List.length_append, List.length_singleton, List.range_succ, List.filterMap_append]
    have e : (List.range l.length).filterMap (fun c => (l ++ [a])[c]?) =
        (List.range l.length).filterMap fun c => l[c]? := by
      apply List.filterMap_congr
      intro c hc
      rw [List.getElem?_append_left (List.mem_range.1 hc)]
    rw [e, List.ext_getElem? ih]
    simp

/-! ## C73 the built path -/

namespace DispPath
variable {K : Type*} [Field K]

/-- The rows of one section. -/
def sectionRows (n : ℕ) (p q : List K) : List (List K) :=
  (List.range n).map fun k : ℕ =>
    List.zipWith (fun x y => x + (k : K) * ((y - x) / ((n - 1 : ℕ) : K))) p q

theorem linspace_eq (p q : List K) (n : ℕ) (h : p.length = q.length) :
    linspace p q n = .ok (sectionRows n p q) := by
  unfold linspace sectionRows
  simp only [bzip_eq _ p q h]
  generalize List.range n = l
  induction l with
  | nil => rfl
  | cons a l ih => rw [List.mapM_cons, ih]; rfl

theorem addSection_eq (dim n : ℕ) (path : List (List K)) (e : List K × List K)
    (h1 : e.1.length = dim) (h2 : e.2.length = dim) :
    addSection dim n path e = .ok (path ++ sectionRows n e.1 e.2) := by
  unfold addSection broadcastLen
  rw [if_pos (h1.trans h2.symm)]
  dsimp only
  rw [if_pos h2, linspace_eq _ _ _ (h1.trans h2.symm)]

theorem foldlM_addSection (dim n : ℕ) (es : List (List K × List K))
    (h : ∀ e ∈ es, e.1.length = dim ∧ e.2.length = dim) (path : List (List K)) :
    es.foldlM (addSection dim n) path = .ok (path ++ es.flatMap fun e => sectionRows n e.1 e.2) := by
  induction es generalizing path with
  | nil => simp [pure, Except.pure]
  | cons e es ih =>
    rw [List.foldlM_cons, addSection_eq dim n path e (h e (by simp)).1 (h e (by simp)).2]
    change es.foldlM (addSection dim n) (path ++ sectionRows n e.1 e.2) = _
    rw [ih (fun e' he => h e' (by simp [he])), List.flatMap_cons, List.append_assoc]

theorem sectionRows_length (n : ℕ) (p q : List K) : (sectionRows n p q).length = n := by
  simp [sectionRows]

theorem flatMap_block {α β : Type*} (n : ℕ) (f : α → List β) (hf : ∀ a, (f a).length = n)
    (l : List α) (i k : ℕ) (hk : k < n) :
    (l.flatMap f)[i * n + k]? = l[i]?.bind fun a => (f a)[k]? := by
  induction l generalizing i with
  | nil => simp
  | cons a l ih =>
    rw [List.flatMap_cons]
    cases i with
    | zero => simp [List.getElem?_append_left (show k < (f a).length by rw [hf]; exact hk)]
    | succ i =>
      rw [List.getElem?_append_right (by rw [hf]; nlinarith), hf,
        show (i + 1) * n + k - n = i * n + k by rw [Nat.succ_mul]; omega, ih]
      simp

theorem flatMap_block_length {α β : Type*} (n : ℕ) (f : α → List β) (hf : ∀ a, (f a).length = n)
    (l : List α) : (l.flatMap f).length = l.length * n := by
  induction l with
  | nil => simp
  | cons a l ih => rw [List.flatMap_cons, List.length_append, ih, hf, List.length_cons]; ring

/-- The points on the segment from `p` to `q`: `row` is the point at the fraction `t`. -/
def OnSegment (p q row : List K) (t : K) : Prop :=
  row.length = p.length ∧ ∀ (c : ℕ) (x y : K), p[c]? = some x → q[c]? = some y →
    row[c]? = some ((1 - t) * x + t * y)

/-- C73: if all points have the dimension of the path, `build n` succeeds with
`(num_points - 1) * n` rows; row `k` of section `i` divides the segment between the points `i` and
`i + 1` at `k / (n - 1)`; the section begins with point `i` and (for `n ≥ 2`) ends with point
`i + 1`. -/
theorem C73_build_partial [CharZero K] (P : DispPath K) (n : ℕ)
    (hP : ∀ p ∈ P.points, p.length = P.dim) :
    ∃ path, (P.build n).2 = .ok path ∧ path.length = (P.numPoints - 1) * n ∧
      (∀ row ∈ path, row.length = P.dim) ∧
      ∀ (i k : ℕ) (p q : List K), P.points[i]? = some p → P.points[i + 1]? = some q → k < n →
        ∃ row, path[i * n + k]? = some row ∧
          (k = 0 → row = p) ∧
          (2 ≤ n → OnSegment p q row ((k : K) / ((n : K) - 1))) ∧
          (2 ≤ n → k = n - 1 → row = q) := by
  have hedges : P.edges = .ok (P.points.zip P.points.tail) := by
    unfold edges chain
    rw [if_neg (by simp), chain_pairs_eq]
  have hlen : ∀ e ∈ P.points.zip P.points.tail, e.1.length = P.dim ∧ e.2.length = P.dim := by
    intro e he
    have h := List.of_mem_zip (a := e.1) (b := e.2) he
    exact ⟨hP _ h.1, hP _ (List.mem_of_mem_tail h.2)⟩
  have hb : (P.build n).2 =
      .ok ((P.points.zip P.points.tail).flatMap fun e => sectionRows n e.1 e.2) := by
    unfold build
    simp only [hedges]
    rw [foldlM_addSection _ _ _ hlen, List.nil_append]
  refine ⟨_, hb, ?_, ?_, ?_⟩
  · rw [flatMap_block_length n _ (fun e : List K × List K => sectionRows_length n e.1 e.2)]
    simp [numPoints]
  · intro row hrow
    rw [List.mem_flatMap] at hrow
    obtain ⟨e, he, hr⟩ := hrow
    unfold sectionRows at hr
    rw [List.mem_map] at hr
    obtain ⟨k, -, rfl⟩ := hr
    rw [List.length_zipWith, (hlen e he).1, (hlen e he).2, min_self]
  · intro i k p q hp hq hk
    have hz : (P.points.zip P.points.tail)[i]? = some (p, q) := by
      rw [List.getElem?_zip_eq_some]
      exact ⟨hp, by rw [List.getElem?_tail]; exact hq⟩
    have hpq : p.length = q.length :=
      (hP p (List.mem_of_getElem? hp)).trans (hP q (List.mem_of_getElem? hq)).symm
    refine ⟨List.zipWith (fun x y => x + (k : K) * ((y - x) / ((n - 1 : ℕ) : K))) p q, ?_, ?_, ?_, ?_⟩
    · rw [flatMap_block n _ (fun e : List K × List K => sectionRows_length n e.1 e.2) _ _ _ hk, hz]
      simp [sectionRows, hk]
    · rintro rfl
      apply List.ext_getElem (by simp [hpq])
      intro c h1 h2
      simp
    · intro hn
      refine ⟨by simp [hpq], fun c x y hx hy => ?_⟩
      rw [List.getElem?_zipWith, hx, hy]
      have hne : (n : K) - 1 ≠ 0 := by
        intro h0
        have h1 : (n : K) = ((1 : ℕ) : K) := by push_cast; linear_combination h0
        have := Nat.cast_injective (R := K) h1
        omega
      simp only [Nat.cast_sub (by omega : 1 ≤ n), Nat.cast_one]
      refine congrArg some ?_
      field_simp
      ring
    · intro hn hk'
      apply List.ext_getElem (by simp [hpq])
      intro c h1 h2
      have hne : ((n - 1 : ℕ) : K) ≠ 0 := by
        have : n - 1 ≠ 0 := by omega
        exact_mod_cast this
      subst hk'
      simp only [List.getElem_zipWith]
      field_simp
      ring

example : (∀ p ∈ ({ dim := 2, labels := ["a", "b"], points := [[0, 0], [1, 2]], nSect := 0 } :
    DispPath ℚ).points, p.length = 2) := by simp

example : (({ dim := 2, labels := ["a", "b"], points := [[0, 0], [1, 2]], nSect := 0 } :
    DispPath ℚ).build 3).2 = .ok [[0, 0], [1 / 2, 1], [1, 2]] := by decide +kernel

/-! ### histories -/

omit [Field K] in
theorem add_dim (P : DispPath K) (p : List K) (s : String) :
    (P.add p s).dim = if P.dim ≠ 0 then P.dim else p.length := rfl

omit [Field K] in
theorem add_points (P : DispPath K) (p : List K) (s : String) :
    (P.add p s).points = P.points ++ [if P.dim ≠ 0 then p.take P.dim else p] := rfl

/-- The points given to a call. -/
def Op.given : Op K → List (List K)
  | .add p _ => [p]
  | .addPoints ps _ => ps
  | _ => []

omit [Field K] in
theorem addPoints_induction (I : DispPath K → Prop) (ps : List (List K))
    (hadd : ∀ P : DispPath K, I P → ∀ p ∈ ps, ∀ s, I (P.add p s)) (P : DispPath K) (h : I P)
    (ns : Option (List String)) : I (P.addPoints ps ns) := by
  unfold addPoints
  have key : ∀ (l : List (List K × String)) (Q : DispPath K), (∀ x ∈ l, x.1 ∈ ps) → I Q →
      I (l.foldl (fun P p => P.add p.1 p.2) Q) := by
    intro l
    induction l with
    | nil => intro Q _ hQ; exact hQ
    | cons x l ih =>
      intro Q hl hQ
      exact ih _ (fun y hy => hl y (by simp [hy])) (hadd Q hQ x.1 (hl x (by simp)) x.2)
  cases ns with
  | none => exact key _ P (fun x hx => (List.of_mem_zip (a := x.1) (b := x.2) hx).1) h
  | some l => exact key _ P (fun x hx => (List.of_mem_zip (a := x.1) (b := x.2) hx).1) h

theorem run_induction (I : DispPath K → Prop) (ops : List (Op K))
    (hadd : ∀ P : DispPath K, I P → ∀ op ∈ ops, ∀ p ∈ op.given, ∀ s, I (P.add p s))
    (hcycle : ∀ P Q : DispPath K, I P → P.cycle = .ok Q → I Q)
    (hbuild : ∀ (P : DispPath K) (n : ℕ), I P → I (P.build n).1) (P : DispPath K) (h : I P) :
    I (P.run ops) := by
  unfold run
  induction ops generalizing P with
  | nil => exact h
  | cons op ops ih =>
    rw [List.foldl_cons]
    refine ih (fun P hP o ho => hadd P hP o (by simp [ho])) _ ?_
    cases op with
    | add p s => exact hadd P h (.add p s) (by simp) p (by simp [Op.given]) s
    | addPoints ps ns =>
      exact addPoints_induction I ps
        (fun Q hQ p hp s => hadd Q hQ (.addPoints ps ns) (by simp) p hp s) P h ns
    | cycle =>
      change I (match P.cycle with | .ok Q => Q | .error _ => P)
      cases hc : P.cycle with
      | error e => exact h
      | ok Q => exact hcycle P Q h hc
    | build n => exact hbuild P n h

omit [Field K] in
theorem cycle_ok {P Q : DispPath K} (h : P.cycle = .ok Q) :
    ∃ p l, P.points.head? = some p ∧ P.labels.head? = some l ∧
      Q = { P with points := P.points ++ [p], labels := P.labels ++ [l] } := by
  unfold cycle at h
  cases hp : P.points.head? with
  | none => rw [hp] at h; exact absurd h (by simp)
  | some p =>
    cases hl : P.labels.head? with
    | none => rw [hp, hl] at h; exact absurd h (by simp)
    | some l =>
      rw [hp, hl] at h
      exact ⟨p, l, rfl, rfl, (Except.ok.inj h).symm⟩

/-- C73: the hypothesis of `C73_build_partial` holds in every history of calls on a path of
dimension `d > 0` that adds points with at least `d` components (e.g. the predefined points, which
have three). -/
theorem C73_history (d : ℕ) (hd : d ≠ 0) (ops : List (Op K))
    (hops : ∀ op ∈ ops, ∀ p ∈ op.given, d ≤ p.length) :
    let P := (DispPath.new d : DispPath K).run ops
    P.dim = d ∧ ∀ p ∈ P.points, p.length = P.dim := by
  have h := run_induction (fun P : DispPath K => P.dim = d ∧ ∀ p ∈ P.points, p.length = d) ops
    ?_ ?_ ?_ (DispPath.new d) ⟨rfl, by simp [new]⟩
  · refine ⟨h.1, fun p hp => (h.2 p hp).trans h.1.symm⟩
  · rintro P ⟨h1, h2⟩ op hop p hp s
    refine ⟨by rw [add_dim, if_pos (by rw [h1]; exact hd), h1], fun q hq => ?_⟩
    rw [add_points, if_pos (by rw [h1]; exact hd), List.mem_append, List.mem_singleton] at hq
    rcases hq with hq | rfl
    · exact h2 q hq
    · rw [List.length_take, h1]
      exact min_eq_left (hops op hop p hp)
  · rintro P Q ⟨h1, h2⟩ hc
    obtain ⟨p, l, hp, hl, rfl⟩ := cycle_ok hc
    refine ⟨h1, fun q hq => ?_⟩
    rw [List.mem_append, List.mem_singleton] at hq
    rcases hq with hq | rfl
    · exact h2 q hq
    · exact h2 q (List.mem_of_mem_head? hp)
  · rintro P n ⟨h1, h2⟩
    exact ⟨h1, h2⟩

/-- C73: the same without a given dimension, if all points have the same number `d > 0` of
components. -/
theorem C73_history_free (d : ℕ) (hd : d ≠ 0) (ops : List (Op K))
    (hops : ∀ op ∈ ops, ∀ p ∈ op.given, p.length = d) :
    let P := (DispPath.new 0 : DispPath K).run ops
    ∀ p ∈ P.points, p.length = P.dim := by
  have h := run_induction (fun P : DispPath K => (P.dim = 0 → P.points = []) ∧
    (P.dim ≠ 0 → P.dim = d) ∧ ∀ p ∈ P.points, p.length = d) ops
    ?_ ?_ ?_ (DispPath.new 0) ⟨fun _ => rfl, fun h => absurd rfl h, by simp [new]⟩
  · intro P p hp
    by_cases h0 : P.dim = 0
    · rw [h.1 h0] at hp
      simp at hp
    · rw [h.2.1 h0]
      exact h.2.2 p hp
  · rintro P ⟨h1, h2, h3⟩ op hop p hp s
    have hpl := hops op hop p hp
    have hdim : (P.add p s).dim = d := by
      rw [add_dim]
      by_cases h0 : P.dim = 0
      · rw [if_neg (by simpa using h0), hpl]
      · rw [if_pos h0, h2 h0]
    refine ⟨fun h0 => absurd (hdim.symm.trans h0) hd, fun _ => hdim, fun q hq => ?_⟩
    rw [add_points, List.mem_append, List.mem_singleton] at hq
    rcases hq with hq | rfl
    · exact h3 q hq
    · by_cases h0 : P.dim = 0
      · rw [if_neg (by simpa using h0), hpl]
      · rw [if_pos h0, List.length_take, h2 h0, hpl, min_self]
  · rintro P Q ⟨h1, h2, h3⟩ hc
    obtain ⟨p, l, hp, hl, rfl⟩ := cycle_ok hc
    refine ⟨fun h0 => ?_, h2, fun q hq => ?_⟩
    · rw [h1 h0] at hp
      simp at hp
    · rw [List.mem_append, List.mem_singleton] at hq
      rcases hq with hq | rfl
      · exact h3 q hq
      · exact h3 q (List.mem_of_mem_head? hp)
  · rintro P n ⟨h1, h2, h3⟩
    exact ⟨h1, h2, h3⟩

example : ∀ op ∈ [Op.add [(0 : ℝ), 0, 0] "G", Op.addPoints [[1, 2, 3], [4, 5, 6]] none, Op.cycle,
    Op.build 5], ∀ p ∈ op.given, 2 ≤ p.length := by
  simp [Op.given]

/-- C73 fails for a point with missing components: `add` does not check them and NumPy broadcasts a
single number.  The path from `[1, 1]` to the point `[2]` ends at `[2, 2]`. -/
theorem C73_short_point_fails :
    ∃ (ops : List (Op ℚ)) (path : List (List ℚ)),
      let P := (DispPath.new 2 : DispPath ℚ).run ops
      P.numPoints = 2 ∧ (P.build 2).2 = .ok path ∧ path.getLast? ≠ P.points.getLast? :=
  ⟨[.add [1, 1] "a", .add [2] "b"], [[1, 1], [2, 2]], rfl, by decide +kernel, by decide +kernel⟩

/-- C73: two consecutive points of which neither both have the dimension of the path, nor one has
it and the other is a single number, make `build` raise `ValueError` (for instance a point without
components). -/
theorem C73_error (P : DispPath K) (n i : ℕ) (p q : List K) (hp : P.points[i]? = some p)
    (hq : P.points[i + 1]? = some q)
    (hbad : ¬ (p.length = P.dim ∧ (q.length = P.dim ∨ q.length = 1) ∨
      p.length = 1 ∧ q.length = P.dim)) :
    (P.build n).2 = .error .value := by
  have hedges : P.edges = .ok (P.points.zip P.points.tail) := by
    unfold edges chain
    rw [if_neg (by simp), chain_pairs_eq]
  have hz : (p, q) ∈ P.points.zip P.points.tail := by
    refine List.mem_of_getElem? (i := i) ?_
    rw [List.getElem?_zip_eq_some]
    exact ⟨hp, by rw [List.getElem?_tail]; exact hq⟩
  have hsec : ∀ path : List (List K), addSection P.dim n path (p, q) = .error .value := by
    intro path
    unfold addSection broadcastLen
    dsimp only
    split_ifs with h1 h2 h3
    · dsimp only
      rw [if_neg (fun h => hbad (Or.inl ⟨h1.trans h, Or.inl h⟩))]
    · dsimp only
      rw [if_neg (fun h => hbad (Or.inr ⟨h2, h⟩))]
    · dsimp only
      rw [if_neg (fun h => hbad (Or.inl ⟨h, Or.inr h3⟩))]
    · rfl
  have hval : ∀ (path : List (List K)) (e : List K × List K) (er : PyErr),
      addSection P.dim n path e = .error er → er = .value := by
    intro path e er h
    unfold addSection at h
    cases hb : broadcastLen e.1.length e.2.length with
    | error e' =>
      rw [hb] at h
      have : e' = .value := by
        unfold broadcastLen at hb
        split_ifs at hb
        exact (Except.error.inj hb).symm
      rw [← this]
      exact (Except.error.inj h).symm
    | ok c =>
      rw [hb] at h
      dsimp only at h
      split_ifs at h with hc
      · have hl : ∀ l : List ℕ, (∃ r, l.mapM (fun k : ℕ =>
            bzip (fun x y => x + (k : K) * ((y - x) / ((n - 1 : ℕ) : K))) e.1 e.2) =
              (.ok r : Except PyErr _)) := by
          intro l
          induction l with
          | nil => exact ⟨[], rfl⟩
          | cons a l ih =>
            obtain ⟨r, hr⟩ := ih
            rw [List.mapM_cons, hr]
            unfold bzip
            rw [hb]
            exact ⟨_, rfl⟩
        obtain ⟨r, hr⟩ := hl (List.range n)
        unfold linspace at h
        rw [hr] at h
        exact absurd h (by simp)
      · exact (Except.error.inj h).symm
  have key : ∀ (es : List (List K × List K)) (path : List (List K)), (p, q) ∈ es →
      es.foldlM (addSection P.dim n) path = .error .value := by
    intro es
    induction es with
    | nil => intro path h; simp at h
    | cons e es ih =>
      intro path h
      rw [List.foldlM_cons]
      cases hs : addSection P.dim n path e with
      | error er =>
        rw [hval path e er hs]
        rfl
      | ok path' =>
        rw [List.mem_cons] at h
        rcases h with rfl | h
        · rw [hsec] at hs
          exact absurd hs (by simp)
        · exact ih path' h
  unfold build
  simp only [hedges]
  exact key _ _ hz

example : (((DispPath.new 2 : DispPath ℚ).run [.add [1, 1] "a", .add [] "b"]).build 2).2 =
    .error .value := by decide +kernel

end DispPath

/-! ## C74 ticks and labels -/

namespace DispPath
variable {K : Type*} [Field K]

/-- C74: in every history of calls there are as many labels as points and `get_ticks` gives one tick
and one label per point. -/
theorem C74_lengths (d : ℕ) (ops : List (Op K)) :
    let P := (DispPath.new d : DispPath K).run ops
    P.labels.length = P.numPoints ∧ P.getTicks.1.length = P.numPoints ∧
      P.getTicks.2.length = P.numPoints := by
  have h := run_induction (fun P : DispPath K => P.labels.length = P.points.length) ops
    ?_ ?_ ?_ (DispPath.new d) rfl
  · exact ⟨h, by simp [getTicks], h⟩
  · intro P hP op _ p _ s
    simp [add, hP]
  · intro P Q hP hc
    obtain ⟨p, l, hp, hl, rfl⟩ := cycle_ok hc
    simp [hP]
  · intro P n hP
    exact hP

omit [Field K] in
/-- C74: `add` appends one point with its name, or with its number if the name is empty. -/
theorem C74_add (P : DispPath K) (p : List K) (s : String) :
    (P.add p s).numPoints = P.numPoints + 1 ∧
      (∀ i, i < P.numPoints → (P.add p s).points[i]? = P.points[i]?) ∧
      (∀ i, i < P.labels.length → (P.add p s).labels[i]? = P.labels[i]?) ∧
      (P.dim ≠ 0 → (P.add p s).points.getLast? = some (p.take P.dim)) ∧
      (P.dim = 0 → (P.add p s).points.getLast? = some p ∧ (P.add p s).dim = p.length) ∧
      (s ≠ "" → (P.add p s).labels.getLast? = some s) ∧
      (s = "" → (P.add p s).labels.getLast? = some (toString P.numPoints)) := by
  refine ⟨by simp [numPoints, add_points], fun i hi => ?_, fun i hi => ?_, fun h => ?_, fun h => ?_,
    fun h => ?_, fun h => ?_⟩
  · rw [add_points, List.getElem?_append_left hi]
  · unfold add
    rw [List.getElem?_append_left hi]
  · rw [add_points, if_pos h]
    simp
  · rw [add_points, add_dim, if_neg (by simpa using h), if_neg (by simpa using h)]
    simp
  · unfold add
    simp [h]
  · unfold add
    simp [h, numPoints]

omit [Field K] in
/-- C74: `cycle` repeats the first point and its label at the end; without points it raises
`IndexError`. -/
theorem C74_cycle (P : DispPath K) (h : P.labels.length = P.numPoints) :
    (P.numPoints = 0 → P.cycle = .error .index) ∧
    (0 < P.numPoints → ∃ Q, P.cycle = .ok Q ∧ Q.numPoints = P.numPoints + 1 ∧
      Q.points.head? = P.points.head? ∧ Q.points.getLast? = P.points.head? ∧
      Q.labels.getLast? = P.labels.head? ∧
      (∀ i, i < P.numPoints → Q.points[i]? = P.points[i]? ∧ Q.labels[i]? = P.labels[i]?)) := by
  unfold numPoints at *
  constructor
  · intro h0
    unfold cycle
    rw [List.length_eq_zero_iff.1 h0]
    rfl
  · intro h0
    obtain ⟨p, ps, hp⟩ := List.exists_cons_of_length_pos h0
    obtain ⟨l, ls, hl⟩ := List.exists_cons_of_length_pos (h.symm ▸ h0)
    refine ⟨{ P with points := P.points ++ [p], labels := P.labels ++ [l] }, ?_, ?_, ?_, ?_, ?_, ?_⟩
    · unfold cycle
      rw [hp, hl]
      rfl
    · simp
    · simp [hp]
    · rw [List.getLast?_concat, hp]
      rfl
    · rw [List.getLast?_concat, hl]
      rfl
    · intro i hi
      exact ⟨List.getElem?_append_left hi, List.getElem?_append_left (h.symm ▸ hi)⟩

/-- The points named in a call, with their names (empty if none are given; without a name for every
point the remaining points are dropped). -/
def Op.named : Op K → List (List K × String)
  | .add p s => [(p, s)]
  | .addPoints ps none => ps.map fun p => (p, "")
  | .addPoints ps (some ns) => ps.zip ns
  | _ => []

/-- Specification: the points and labels of a path of dimension `d` after a call.  `cycle` repeats the
first point; every other call appends the points it names, cut to `d` components, with their names
or numbers. -/
def listed (d : ℕ) (acc : List (List K × String)) : Op K → List (List K × String)
  | .cycle => acc ++ acc.take 1
  | op => acc ++ op.named.mapIdx fun i p =>
      (p.1.take d, if p.2 = "" then toString (acc.length + i) else p.2)

omit [Field K] in
/-- Adding points one after the other. -/
theorem foldl_add (d : ℕ) (hd : d ≠ 0) (l : List (List K × String)) (P : DispPath K)
    (acc : List (List K × String)) (hP : P.dim = d ∨ (P.dim = 0 ∧ ∀ p ∈ l, p.1.length = d))
    (h1 : P.points = acc.map Prod.fst) (h2 : P.labels = acc.map Prod.snd) :
    let Q := l.foldl (fun P p => P.add p.1 p.2) P
    let r := acc ++ l.mapIdx fun i p =>
      (p.1.take d, if p.2 = "" then toString (acc.length + i) else p.2)
    (Q.dim = d ∨ (Q.dim = 0 ∧ P.dim = 0 ∧ l = [])) ∧ Q.points = r.map Prod.fst ∧
      Q.labels = r.map Prod.snd := by
  induction l generalizing P acc with
  | nil =>
    refine ⟨?_, by simpa using h1, by simpa using h2⟩
    rcases hP with h | h
    · exact Or.inl h
    · exact Or.inr ⟨h.1, h.1, rfl⟩
  | cons p l ih =>
    have hdim : (P.add p.1 p.2).dim = d := by
      rw [add_dim]
      rcases hP with h | ⟨h0, h⟩
      · rw [if_pos (by rw [h]; exact hd), h]
      · rw [if_neg (by simpa using h0), h p (by simp)]
    have hpt : (if P.dim ≠ 0 then p.1.take P.dim else p.1) = p.1.take d := by
      rcases hP with h | ⟨h0, h⟩
      · rw [if_pos (by rw [h]; exact hd), h]
      · rw [if_neg (by simpa using h0), List.take_of_length_le (h p (by simp)).le]
    have key := ih (P.add p.1 p.2)
      (acc ++ [(p.1.take d, if p.2 = "" then toString (acc.length) else p.2)]) (Or.inl hdim)
      (by rw [add_points, hpt, h1]; simp)
      (by
        have hl : P.points.length = acc.length := by rw [h1, List.length_map]
        unfold add
        simp only [h2, hl, List.map_append, List.map_cons, List.map_nil])
    obtain ⟨k1, k2, k3⟩ := key
    have hr : (acc ++ [(p.1.take d, if p.2 = "" then toString (acc.length) else p.2)]) ++
        (l.mapIdx fun i q => (q.1.take d, if q.2 = "" then
          toString ((acc ++ [(p.1.take d, if p.2 = "" then toString (acc.length) else p.2)]).length + i)
          else q.2)) = acc ++ (p :: l).mapIdx fun i p =>
      (p.1.take d, if p.2 = "" then toString (acc.length + i) else p.2) := by
      rw [List.mapIdx_cons, List.append_assoc]
      congr 1
      simp only [List.singleton_append, List.length_append, List.length_singleton, Nat.add_zero]
      congr 2
      funext i p
      rw [Nat.add_assoc, Nat.add_comm 1 i]
    rw [List.foldl_cons]
    refine ⟨?_, by rw [← hr]; exact k2, by rw [← hr]; exact k3⟩
    rcases k1 with k1 | ⟨-, k1, -⟩
    · exact Or.inl k1
    · rw [hdim] at k1
      exact absurd k1 hd

omit [Field K] in
theorem addPoints_eq (P : DispPath K) (ps : List (List K)) (ns : Option (List String)) :
    P.addPoints ps ns = (Op.addPoints ps ns).named.foldl (fun P p => P.add p.1 p.2) P := by
  cases ns with
  | none =>
    have hz : ps.zip (List.replicate ps.length "") = ps.map fun p => (p, "") := by
      induction ps with
      | nil => rfl
      | cons p ps ih => rw [List.length_cons, List.replicate_succ, List.zip_cons_cons, ih]; rfl
    unfold addPoints
    dsimp only [Op.named]
    rw [hz]
  | some ns => rfl

/-- C73 and C74 for whole histories: the points of a path of dimension `d > 0`, or of a path without
a given dimension and points of one dimension `d > 0`, are exactly the points added so far in the
order of the calls, cut to `d` components, `cycle` repeating the first one; and the labels are their
names, or their numbers if they have none. -/
theorem C73_points (d e : ℕ) (hd : d ≠ 0) (ops : List (Op K))
    (he : e = d ∨ e = 0 ∧ ∀ op ∈ ops, ∀ p ∈ op.given, p.length = d) :
    let P := (DispPath.new e : DispPath K).run ops
    P.points = (ops.foldl (listed d) []).map Prod.fst ∧
      P.labels = (ops.foldl (listed d) []).map Prod.snd := by
  have key : ∀ (ops : List (Op K)) (P : DispPath K) (acc : List (List K × String)),
      (P.dim = d ∨ P.dim = 0 ∧ ∀ op ∈ ops, ∀ p ∈ op.given, p.length = d) →
      P.points = acc.map Prod.fst → P.labels = acc.map Prod.snd →
      (P.run ops).points = (ops.foldl (listed d) acc).map Prod.fst ∧
        (P.run ops).labels = (ops.foldl (listed d) acc).map Prod.snd := by
    intro ops
    induction ops with
    | nil => exact fun P acc _ h1 h2 => ⟨h1, h2⟩
    | cons op ops ih =>
      intro P acc hP h1 h2
      have hrun : P.run (op :: ops) = (P.step op).run ops := rfl
      rw [hrun, List.foldl_cons]
      have hadd : (∀ p ∈ op.named, p.1 ∈ op.given) →
          P.step op = op.named.foldl (fun P p => P.add p.1 p.2) P →
          listed d acc op = acc ++ op.named.mapIdx (fun i p =>
            (p.1.take d, if p.2 = "" then toString (acc.length + i) else p.2)) →
          ((P.step op).run ops).points = (ops.foldl (listed d) (listed d acc op)).map Prod.fst ∧
          ((P.step op).run ops).labels = (ops.foldl (listed d) (listed d acc op)).map Prod.snd := by
        intro hg hs hl
        obtain ⟨g1, g2, g3⟩ := foldl_add d hd op.named P acc
          (hP.imp id fun h => ⟨h.1, fun p hp => h.2 op (by simp) _ (hg p hp)⟩) h1 h2
        rw [hl, hs]
        refine ih _ _ ?_ g2 g3
        rcases g1 with g1 | ⟨g1, g4, -⟩
        · exact Or.inl g1
        · rcases hP with h | h
          · exact absurd (h.symm.trans g4) hd
          · exact Or.inr ⟨g1, fun o ho => h.2 o (by simp [ho])⟩
      have hP' : P.dim = d ∨ P.dim = 0 ∧ ∀ op ∈ ops, ∀ p ∈ op.given, p.length = d :=
        hP.imp id fun h => ⟨h.1, fun o ho => h.2 o (by simp [ho])⟩
      cases op with
      | add p s => exact hadd (by simp [Op.named, Op.given]) rfl rfl
      | addPoints ps ns =>
        refine hadd ?_ (addPoints_eq P ps ns) rfl
        intro p hp
        cases ns with
        | none =>
          obtain ⟨q, hq, rfl⟩ := List.mem_map.1 hp
          exact hq
        | some ns => exact (List.of_mem_zip (a := p.1) (b := p.2) hp).1
      | cycle =>
        have hs : (P.step .cycle).dim = P.dim ∧
            (P.step .cycle).points = (acc ++ acc.take 1).map Prod.fst ∧
            (P.step .cycle).labels = (acc ++ acc.take 1).map Prod.snd := by
          unfold step cycle
          rw [h1, h2]
          cases acc with
          | nil => exact ⟨rfl, by simpa using h1, by simpa using h2⟩
          | cons a acc => exact ⟨rfl, by simp, by simp⟩
        exact ih _ _ (by rw [hs.1]; exact hP') hs.2.1 hs.2.2
      | build n =>
        have hl : listed d acc (.build n) = acc := by simp [listed, Op.named]
        rw [hl]
        exact ih _ _ hP' h1 h2
  exact key ops (DispPath.new e) [] he rfl rfl

/-- Points with and without names, closed to a cycle. -/
example : ([Op.add [(0 : ℚ), 0, 0] "G", Op.addPoints [[1, 2, 3], [4, 5, 6]] none, Op.cycle].foldl
    (listed 2) []) = [([0, 0], "G"), ([1, 2], "1"), ([4, 5], "2"), ([0, 0], "G")] := by
  decide +kernel

example : ∀ op ∈ [Op.add [(0 : ℚ), 0] "G", Op.addPoints [[1, 2], [4, 5]] none, Op.cycle],
    ∀ p ∈ op.given, p.length = 2 := by simp [Op.given]

/-- C74 fails for a point with missing components: NumPy broadcasts a single number.  The first row
of the path from the point `[2]` to `[1, 1]` is `[2, 2]`. -/
theorem C74_short_point_fails :
    ∃ (ops : List (Op ℚ)) (path : List (List ℚ)),
      let P := (DispPath.new 2 : DispPath ℚ).run ops
      P.numPoints = 2 ∧ (P.build 2).2 = .ok path ∧ (P.build 2).1.getTicks.1[0]? = some 0 ∧
        path[0]? ≠ P.points[0]? :=
  ⟨[.add [2] "a", .add [1, 1] "b"], [[2, 2], [1, 1]], rfl, by decide +kernel, rfl,
    by decide +kernel⟩

/-- C74: after `build n` (with `n ≥ 1`) of a path whose points have its dimension, tick `i` is the
row of the built path at which point `i` is found, for every point but the last (whose tick is one
past the end). -/
theorem C74_ticks_partial [CharZero K] (P : DispPath K) (n : ℕ) (hn : 0 < n)
    (hP : ∀ p ∈ P.points, p.length = P.dim) :
    ∃ path, (P.build n).2 = .ok path ∧
      (∀ i t, i + 1 < P.numPoints → (P.build n).1.getTicks.1[i]? = some t →
        path[t]? = P.points[i]?) ∧
      (∀ t, 0 < P.numPoints → (P.build n).1.getTicks.1[P.numPoints - 1]? = some t →
        t = path.length) := by
  obtain ⟨path, hb, hlen, -, hrow⟩ := C73_build_partial P n hP
  have htick : ∀ i t, (P.build n).1.getTicks.1[i]? = some t → t = i * n ∧ i < P.numPoints := by
    intro i t ht
    unfold getTicks at ht
    rw [List.getElem?_map, Option.map_eq_some_iff] at ht
    obtain ⟨j, hj, rfl⟩ := ht
    rw [List.getElem?_eq_some_iff] at hj
    obtain ⟨hj, rfl⟩ := hj
    rw [List.getElem_range]
    exact ⟨rfl, by rw [List.length_range] at hj; exact hj⟩
  refine ⟨path, hb, fun i t hi ht => ?_, fun t h0 ht => ?_⟩
  · obtain ⟨rfl, -⟩ := htick i t ht
    unfold numPoints at hi
    obtain ⟨row, hr, h1, -, -⟩ := hrow i 0 P.points[i] P.points[i + 1]
      (List.getElem?_eq_getElem (by omega)) (List.getElem?_eq_getElem hi) hn
    rw [Nat.add_zero] at hr
    rw [hr, h1 rfl, List.getElem?_eq_getElem]
  · obtain ⟨rfl, -⟩ := htick _ t ht
    rw [hlen]

example : (({ dim := 1, labels := ["a", "b"], points := [[0], [1]], nSect := 0 } :
    DispPath ℚ).build 3).1.getTicks = ([0, 3], ["a", "b"]) := by decide +kernel

end DispPath

/-! ## C75 the axis of a dispersion plot -/

section
variable {K : Type*} [Field K] [LinearOrder K] [IsStrictOrderedRing K] [FloorRing K]

/-- Start of section `i`: the sum of the lengths of the sections before. -/
def sectionStart (m : ℕ) (ss : List K) (i : ℕ) : K := (ss.take i).sum * ((m : K) - 1)

omit [LinearOrder K] [IsStrictOrderedRing K] [FloorRing K] in
theorem scaleLoop_eq (m : ℕ) (hm : 0 < m) (ss : List K) (k0 : K) (k ticks : List K) :
    scaleLoop m ss k0 k ticks = .ok
      (k ++ (ss.zipIdx).flatMap (fun p => (List.range m).map fun i : ℕ =>
          k0 + sectionStart m ss p.2 + (i : K) * p.1),
        ticks ++ (List.range ss.length).map fun i => k0 + sectionStart m ss (i + 1)) := by
  induction ss generalizing k0 k ticks with
  | nil => simp [scaleLoop]
  | cons s ss ih =>
    obtain ⟨m', rfl⟩ : ∃ m', m = m' + 1 := ⟨m - 1, by omega⟩
    unfold scaleLoop
    have hl : (k ++ (List.range (m' + 1)).map fun i : ℕ => k0 + (i : K) * s).getLast? =
        some (k0 + (m' : K) * s) := by
      rw [List.range_succ]
      simp
    simp only [hl]
    rw [ih]
    refine congrArg Except.ok (Prod.ext ?_ ?_)
    · dsimp only
      rw [List.zipIdx_cons, List.flatMap_cons, List.append_assoc]
      refine congrArg (k ++ ·) ?_
      refine congrArg₂ (· ++ ·) ?_ ?_
      · simp [sectionStart]
      · rw [List.zipIdx_succ, List.flatMap_map]
        simp only [sectionStart, List.take_succ_cons, List.sum_cons]
        refine List.flatMap_congr fun p _ => ?_
        refine List.map_congr_left fun i _ => ?_
        push_cast
        ring
    · dsimp only
      rw [List.append_assoc]
      refine congrArg (ticks ++ ·) ?_
      rw [List.length_cons, List.range_succ_eq_map, List.map_cons, List.map_map]
      refine congrArg₂ List.cons ?_ ?_
      · simp [sectionStart]
        ring
      · refine List.map_congr_left fun i _ => ?_
        simp only [sectionStart, Function.comp, List.take_succ_cons, List.sum_cons]
        push_cast
        ring

omit [LinearOrder K] [IsStrictOrderedRing K] [FloorRing K] in
theorem sectionStart_succ (m : ℕ) (ss : List K) (i : ℕ) (s : K) (h : ss[i]? = some s) :
    sectionStart m ss (i + 1) = sectionStart m ss i + ((m : K) - 1) * s := by
  unfold sectionStart
  rw [List.take_add_one, h]
  simp
  ring

theorem sectionStart_mono (m : ℕ) (hm : 0 < m) (ss : List K) (h : ∀ s ∈ ss, 0 ≤ s) {i j : ℕ}
    (hij : i ≤ j) : sectionStart m ss i ≤ sectionStart m ss j := by
  unfold sectionStart
  have hm' : (0 : K) ≤ (m : K) - 1 := by
    have : (1 : K) ≤ (m : K) := by exact_mod_cast hm
    linarith
  refine mul_le_mul_of_nonneg_right ?_ hm'
  obtain ⟨l, rfl⟩ := Nat.exists_eq_add_of_le hij
  rw [List.take_add, List.sum_append]
  have : 0 ≤ ((ss.drop i).take l).sum :=
    List.sum_nonneg fun x hx => h x (List.mem_of_mem_drop (List.mem_of_mem_take hx))
  linarith

theorem ceil_section (n m : ℕ) : ⌈((((n + 1) * m : ℕ) : K) / ((n + 1 : ℕ) : K))⌉.toNat = m := by
  have h : ((n + 1 : ℕ) : K) ≠ 0 := by exact_mod_cast Nat.succ_ne_zero n
  rw [Nat.cast_mul, mul_div_cancel_left₀ _ h]
  simp

/-- C75 (restricted to as many scales as sections and a number of values that is a multiple of the
number of sections, `m` values per section): there is one `x` value per point and one tick per path
point; the values of section `i` start at tick `i`, advance by the scale of the section and end at
tick `i + 1`; for non-negative scales neither the values nor the ticks ever decrease. -/
theorem C75_axis_partial (n m : ℕ) (hm : 0 < m) (ss : List K) (hss : ss.length = n + 1) :
    ∃ k ticks : List K, scaleXaxis (n + 2) ((n + 1) * m) (some ss) = .ok (k, ticks) ∧
      k.length = (n + 1) * m ∧ ticks.length = n + 2 ∧ ticks[0]? = some 0 ∧
      (∀ (i j : ℕ) (s : K), ss[i]? = some s → j < m → ∃ t, ticks[i]? = some t ∧
        k[i * m + j]? = some (t + (j : K) * s)) ∧
      (∀ i, i < n + 1 → ticks[i + 1]? = k[i * m + (m - 1)]?) ∧
      ((∀ s ∈ ss, 0 ≤ s) → k.Pairwise (· ≤ ·) ∧ ticks.Pairwise (· ≤ ·)) := by
  set f : K × ℕ → List K := fun p => (List.range m).map fun i : ℕ =>
    0 + sectionStart m ss p.2 + (i : K) * p.1 with hf
  set k := (ss.zipIdx).flatMap f with hk
  set ticks : List K := [0] ++ (List.range ss.length).map fun i => 0 + sectionStart m ss (i + 1)
    with ht
  have hfl : ∀ p, (f p).length = m := fun p => by simp [hf]
  have hres : scaleXaxis (n + 2) ((n + 1) * m) (some ss) = .ok (k, ticks) := by
    unfold scaleXaxis
    dsimp only
    rw [ceil_section, scaleLoop_eq m hm]
    rfl
  have hklen : k.length = (n + 1) * m := by
    rw [hk, DispPath.flatMap_block_length m f hfl, List.length_zipIdx, hss]
  have htick : ∀ i, i < n + 2 → ticks[i]? = some (sectionStart m ss i) := by
    intro i hi
    cases i with
    | zero => simp [ht, sectionStart]
    | succ i =>
      rw [ht, List.singleton_append, List.getElem?_cons_succ, List.getElem?_map,
        List.getElem?_eq_getElem (by simpa [hss] using hi)]
      simp
  have hval : ∀ (i j : ℕ) (s : K), ss[i]? = some s → j < m →
      k[i * m + j]? = some (sectionStart m ss i + (j : K) * s) := by
    intro i j s hs hj
    rw [hk, DispPath.flatMap_block m f hfl _ _ _ hj, List.getElem?_zipIdx, hs]
    simp [hf, hj]
  have hget : ∀ i, i < n + 1 → ∃ s, ss[i]? = some s ∧ s ∈ ss := fun i hi =>
    ⟨ss[i], List.getElem?_eq_getElem (by omega), List.getElem_mem _⟩
  refine ⟨k, ticks, hres, hklen, by simp [ht, hss], by simp [ht], fun i j s hs hj => ?_, fun i hi => ?_,
    fun hpos => ⟨?_, ?_⟩⟩
  · have hi : i < ss.length := by
      by_contra hc
      rw [List.getElem?_eq_none (by omega)] at hs
      exact absurd hs (by simp)
    exact ⟨_, htick i (by omega), hval i j s hs hj⟩
  · obtain ⟨s, hs, -⟩ := hget i hi
    rw [htick (i + 1) (by omega), hval i (m - 1) s hs (by omega), sectionStart_succ m ss i s hs]
    rw [Nat.cast_sub hm, Nat.cast_one]
  · rw [List.pairwise_iff_getElem]
    intro a b ha hb hab
    have hloc : ∀ c, c < k.length → ∃ i j s, c = i * m + j ∧ j < m ∧ i < n + 1 ∧ ss[i]? = some s ∧
        s ∈ ss := by
      intro c hc
      rw [hklen] at hc
      have hi : c / m < n + 1 := Nat.div_lt_of_lt_mul (by rw [mul_comm]; exact hc)
      obtain ⟨s, hs, hs'⟩ := hget _ hi
      exact ⟨c / m, c % m, s, (Nat.div_add_mod' c m).symm, Nat.mod_lt _ hm, hi, hs, hs'⟩
    obtain ⟨i, j, s, rfl, hj, hi, hs, hs'⟩ := hloc a ha
    obtain ⟨i', j', s', rfl, hj', hi', hs2, hs2'⟩ := hloc b hb
    have e1 := hval i j s hs hj
    have e2 := hval i' j' s' hs2 hj'
    rw [List.getElem?_eq_getElem ha] at e1
    rw [List.getElem?_eq_getElem hb] at e2
    rw [Option.some.inj e1, Option.some.inj e2]
    have hsn := hpos s hs'
    have hsn' := hpos s' hs2'
    rcases Nat.lt_trichotomy i i' with h | h | h
    · have h1 := sectionStart_mono m hm ss hpos (Nat.succ_le_of_lt h)
      rw [sectionStart_succ m ss i s hs] at h1
      have h2 : (j : K) ≤ (m : K) - 1 := by
        have : (j : K) + 1 ≤ (m : K) := by exact_mod_cast hj
        linarith
      have h3 : (j : K) * s ≤ ((m : K) - 1) * s := mul_le_mul_of_nonneg_right h2 hsn
      have h4 : 0 ≤ (j' : K) * s' := mul_nonneg (Nat.cast_nonneg _) hsn'
      linarith
    · subst h
      rw [hs] at hs2
      obtain rfl := Option.some.inj hs2
      have h2 : (j : K) ≤ (j' : K) := by
        have : j ≤ j' := by omega
        exact_mod_cast this
      have := mul_le_mul_of_nonneg_right h2 hsn
      linarith
    · exfalso
      have : (i' + 1) * m ≤ i * m := Nat.mul_le_mul_right m h
      rw [Nat.succ_mul] at this
      omega
  · rw [List.pairwise_iff_getElem]
    intro a b ha hb hab
    have hl : ticks.length = n + 2 := by simp [ht, hss]
    have e1 := htick a (by omega)
    have e2 := htick b (by omega)
    rw [List.getElem?_eq_getElem ha] at e1
    rw [List.getElem?_eq_getElem hb] at e2
    rw [Option.some.inj e1, Option.some.inj e2]
    exact sectionStart_mono m hm ss hpos hab.le

omit [IsStrictOrderedRing K] in
/-- C75: without scales all sections have the scale one. -/
theorem C75_default_scales (n len : ℕ) :
    scaleXaxis (n + 2) len (none : Option (List K)) =
      scaleXaxis (n + 2) len (some (List.replicate (n + 1) 1)) := rfl

/-- C75: no axis for less than two points (except without points and with an empty list of scales)
or without values. -/
theorem C75_errors (len : ℕ) (scales : Option (List K)) (s : K) (ss : List K) (n : ℕ) :
    scaleXaxis 1 len scales = .error .zeroDivision ∧
      scaleXaxis 0 len (none : Option (List K)) = .error .value ∧
      scaleXaxis 0 len (some (s :: ss)) = .error .index ∧
      scaleXaxis (n + 2) 0 (some (s :: ss)) = .error .index := by
  refine ⟨by unfold scaleXaxis; cases scales <;> rfl, rfl, rfl, ?_⟩
  unfold scaleXaxis
  simp [scaleLoop]

example : scaleXaxis 3 6 (some [1, 2]) = .ok ([0, 1, 2, 2, 4, 6], [0, 2, (6 : ℚ)]) := by
  decide +kernel

/-- C75 fails when the number of values is not a multiple of the number of sections: `sect_size` is
a fraction and `np.arange` rounds it up.  Three points and five values give an axis of six values. -/
theorem C75_length_fails :
    ∃ (N len : ℕ) (k ticks : List ℚ), scaleXaxis N len none = .ok (k, ticks) ∧ k.length ≠ len :=
  ⟨3, 5, [0, 1, 2, 2, 3, 4], [0, 2, 4], by decide +kernel, by decide⟩

end

/-! ### paths of real points -/

namespace DispPath

/-- Euclidean distance of two points with the same number of components. -/
noncomputable def euclid (p q : List ℝ) : ℝ :=
  Real.sqrt (List.zipWith (fun x y => (x - y) ^ 2) p q).sum

theorem distances_eq (P : DispPath ℝ) (hP : ∀ p ∈ P.points, p.length = P.dim) :
    P.distances = .ok ((P.points.zip P.points.tail).map fun e => euclid e.1 e.2) := by
  have hedges : P.edges = .ok (P.points.zip P.points.tail) := by
    unfold edges chain
    rw [if_neg (by simp), chain_pairs_eq]
  have hlen : ∀ e ∈ P.points.zip P.points.tail, e.1.length = e.2.length := by
    intro e he
    have h := List.of_mem_zip (a := e.1) (b := e.2) he
    exact (hP _ h.1).trans (hP _ (List.mem_of_mem_tail h.2)).symm
  unfold distances
  rw [hedges]
  dsimp only
  generalize P.points.zip P.points.tail = es at hlen
  induction es with
  | nil => rfl
  | cons e es ih =>
    rw [List.mapM_cons, ih (fun e' he' => hlen e' (by simp [he']))]
    have h : pdist e.1 e.2 = .ok (euclid e.1 e.2) := by
      unfold pdist euclid
      rw [bzip_eq _ _ _ (hlen e (by simp))]
      simp only [pow_two]
      rfl
    rw [h]
    rfl

theorem euclid_nonneg (p q : List ℝ) : 0 ≤ euclid p q := Real.sqrt_nonneg _

/-- C75: the scales of a path whose points have its dimension and whose first two points differ are
the lengths of the sections relative to the first one. -/
theorem C75_scales_partial (P : DispPath ℝ) (hP : ∀ p ∈ P.points, p.length = P.dim) (p q : List ℝ)
    (hp : P.points[0]? = some p) (hq : P.points[1]? = some q) (hpq : euclid p q ≠ 0) :
    ∃ ss : List ℝ, P.scales = .ok (some ss) ∧ ss.length = P.numPoints - 1 ∧ (∀ s ∈ ss, 0 ≤ s) ∧
      ∀ (i : ℕ) (x y : List ℝ), P.points[i]? = some x → P.points[i + 1]? = some y →
        ss[i]? = some (euclid x y / euclid p q) := by
  have hz : ∀ (i : ℕ) (x y : List ℝ), P.points[i]? = some x → P.points[i + 1]? = some y →
      (P.points.zip P.points.tail)[i]? = some (x, y) := by
    intro i x y hx hy
    rw [List.getElem?_zip_eq_some]
    exact ⟨hx, by rw [List.getElem?_tail]; exact hy⟩
  have h0 := hz 0 p q hp hq
  cases hE : P.points.zip P.points.tail with
  | nil => rw [hE] at h0; simp at h0
  | cons e es =>
    have he : e = (p, q) := by rw [hE] at h0; simpa using h0
    subst he
    refine ⟨((P.points.zip P.points.tail).map fun e => euclid e.1 e.2).map fun y => y / euclid p q,
      ?_, ?_, ?_, ?_⟩
    · unfold scales
      rw [distances_eq P hP, hE]
      simp only [List.map_cons, if_neg hpq]
    · simp [numPoints]
    · intro s hs
      rw [List.map_map, List.mem_map] at hs
      obtain ⟨e, -, rfl⟩ := hs
      exact div_nonneg (euclid_nonneg _ _) (euclid_nonneg _ _)
    · intro i x y hx hy
      rw [List.map_map, List.getElem?_map, hz i x y hx hy]
      rfl

/-- C75: a dispersion along a built path (`n ≥ 1` values per section) is plotted on an axis with one
value per row of the path, and the distance of the ticks `i` and `i + 1` is the length of the section
`i` relative to the first section, times `n - 1`. -/
theorem C75_path_partial (P : DispPath ℝ) (hP : ∀ p ∈ P.points, p.length = P.dim) (p q : List ℝ)
    (hp : P.points[0]? = some p) (hq : P.points[1]? = some q) (hpq : euclid p q ≠ 0) (n : ℕ)
    (hn : 0 < n) :
    ∃ path ss k ticks, (P.build n).2 = .ok path ∧ P.scales = .ok (some ss) ∧
      scaleXaxis P.numPoints path.length (some ss) = .ok (k, ticks) ∧
      k.length = path.length ∧ ticks.length = P.numPoints ∧
      k.Pairwise (· ≤ ·) ∧
      ∀ (i : ℕ) (x y : List ℝ), P.points[i]? = some x → P.points[i + 1]? = some y →
        ∃ t t', ticks[i]? = some t ∧ ticks[i + 1]? = some t' ∧
          t' - t = ((n : ℝ) - 1) * (euclid x y / euclid p q) := by
  obtain ⟨path, hb, hlen, -, -⟩ := C73_build_partial P n hP
  obtain ⟨ss, hs, hsl, hpos, hval⟩ := C75_scales_partial P hP p q hp hq hpq
  have hN : 2 ≤ P.numPoints := by
    unfold numPoints
    by_contra hc
    rw [List.getElem?_eq_none (by omega)] at hq
    exact absurd hq (by simp)
  obtain ⟨N, hN'⟩ : ∃ N, P.numPoints = N + 2 := ⟨P.numPoints - 2, by omega⟩
  rw [hN'] at hlen hsl
  obtain ⟨k, ticks, hx, hk, ht, -, hin, hout, hmono⟩ := C75_axis_partial N n hn ss hsl
  refine ⟨path, ss, k, ticks, hb, hs, ?_, ?_, ?_, (hmono hpos).1, ?_⟩
  · rw [hN', hlen]
    exact hx
  · rw [hk, hlen]
    rfl
  · rw [ht, hN']
  · intro i x y hx hy
    have hsi := hval i x y hx hy
    have hi : i < N + 1 := by
      by_contra hc
      rw [List.getElem?_eq_none (by rw [hsl]; omega)] at hsi
      exact absurd hsi (by simp)
    obtain ⟨t, ht1, ht2⟩ := hin i (n - 1) _ hsi (by omega)
    refine ⟨t, _, ht1, (hout i hi).trans ht2, ?_⟩
    rw [Nat.cast_sub hn, Nat.cast_one]
    ring

example : euclid [0, 0] [3, 4] ≠ 0 := by
  unfold euclid
  have : (List.zipWith (fun x y => (x - y) ^ 2) [(0 : ℝ), 0] [3, 4]).sum = 25 := by norm_num
  rw [this]
  exact (Real.sqrt_pos.2 (by norm_num)).ne'

/-- C73: the predefined paths. -/
theorem C73_predefined (a : ℝ) (ha : a ≠ 0) :
    (∃ P, chainPath a = .ok P ∧ P.dim = 1 ∧ P.points = [[Real.pi / a], [0], [Real.pi / a]] ∧
      P.labels = ["$X$", "$\\Gamma$", "$X$"]) ∧
    (∃ P, squarePath a = .ok P ∧ P.dim = 2 ∧
      P.points = [[0, 0], [Real.pi / a, 0], [Real.pi / a, Real.pi / a], [0, 0]] ∧
      P.labels = ["$\\Gamma$", "$X$", "$M$", "$\\Gamma$"]) ∧
    (∃ P, cubicPath a = .ok P ∧ P.dim = 3 ∧
      P.points = [[0, 0, 0], [Real.pi / a, 0, 0], [Real.pi / a, Real.pi / a, 0], [0, 0, 0],
        [Real.pi / a, Real.pi / a, Real.pi / a]] ∧
      P.labels = ["$\\Gamma$", "$X$", "$M$", "$\\Gamma$", "$R$"]) := by
  simp [chainPath, squarePath, cubicPath, x, m, r, gamma, cycle, add, new, ha]

/-- C73: the predefined paths need a lattice constant different from zero. -/
theorem C73_predefined_zero :
    chainPath 0 = .error .zeroDivision ∧ squarePath 0 = .error .zeroDivision ∧
      cubicPath 0 = .error .zeroDivision := by
  simp [chainPath, squarePath, cubicPath, x]

end DispPath

end Lattpy
