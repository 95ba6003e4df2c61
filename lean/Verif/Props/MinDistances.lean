import Verif.Props.PeriodicVectors
import Verif.Lemmas.Distance
import Verif.Lemmas.Chain
import Verif.Lemmas.BuiltChain
import Verif.Lemmas.Ring
import Verif.Props.PeriodicRing

/-!
# Minimum distances with periodic boundaries (C66, C77)
-/

set_option autoImplicit false
set_option linter.unusedSectionVars false

namespace Lattpy

variable {d : ℕ}

namespace Lattice

/-- A translation vector exists for every lattice with sites and every list of its axes. -/
theorem periodicVector_ok (b : LatticeBasis d ℝ) (primitive : Bool) {indices : List (Idx d)}
    (hne : indices ≠ []) {S : List ℕ} (hS : ∀ a ∈ S, a < d) :
    ∃ v, periodicVector b indices S primitive = .ok v := by
  cases primitive
  · obtain ⟨lim, hlim, -⟩ := AShape.minMax_spec
      (indices.map fun x : Idx d => b.transform fun k => (x.cell k : ℝ)) (by simpa using hne)
    unfold periodicVector
    simp only [Bool.false_eq_true, if_false, hlim]
    rw [if_pos (by simpa using hS)]
    exact ⟨_, rfl⟩
  · obtain ⟨v, hv, -⟩ := periodicVector_primitive b hne hS
    exact ⟨v, hv⟩

theorem pairVectors_ok (b : LatticeBasis d ℝ) (primitive : Bool) {indices : List (Idx d)}
    (hne : indices ≠ []) (first : Option ℕ) {q : ℕ × ℕ} (h1 : q.1 < d) (h2 : q.2 < d) :
    ∃ l, pairVectors b indices first primitive q = .ok l := by
  obtain ⟨v, hv⟩ := periodicVector_ok b primitive hne (S := [q.1, q.2]) (by
    intro a ha
    simp only [List.mem_cons, List.not_mem_nil, or_false] at ha
    rcases ha with rfl | rfl
    · exact h1
    · exact h2)
  unfold pairVectors
  rw [hv]
  exact ⟨_, rfl⟩

theorem periodicVectors_ok (b : LatticeBasis d ℝ) (primitive : Bool) {indices : List (Idx d)}
    (hne : indices ≠ []) {axes : List ℕ} (hax : ∀ a ∈ axes, a < d) :
    ∃ vecs, periodicVectors b indices axes primitive = .ok vecs := by
  have key : ∃ l, (pairsOf axes).mapM (pairVectors b indices axes.head? primitive) = .ok l := by
    have : ∀ q : ℕ × ℕ, ∃ l, q ∈ pairsOf axes →
        pairVectors b indices axes.head? primitive q = .ok l := by
      intro q
      by_cases hq : q ∈ pairsOf axes
      · obtain ⟨h1, h2⟩ := mem_pairsOf hq
        obtain ⟨l, hl⟩ := pairVectors_ok b primitive hne axes.head? (hax _ h1) (hax _ h2)
        exact ⟨l, fun _ => hl⟩
      · exact ⟨[], fun h => absurd h hq⟩
    choose g hg using this
    exact ⟨_, mapM_ok _ g _ hg⟩
  obtain ⟨l, hl⟩ := key
  match axes, hax, hl with
  | [a], hax, _ =>
    obtain ⟨v, hv⟩ := periodicVector_ok b primitive hne hax
    exact ⟨[([a], v)], by simp only [periodicVectors, hv]⟩
  | [], _, _ => exact ⟨[], rfl⟩
  | a :: c :: rest, _, hl => exact ⟨l.flatten, by unfold periodicVectors; rw [hl]⟩

/-- `minimum_distances(i)` works for every site of a lattice whose periodic axes exist. -/
theorem C66_defined {L : Lattice d ℝ} {D : LatticeData d ℝ} (hdata : L.data = some D)
    (hne : D.indices ≠ []) (hax : ∀ a ∈ L.periodicAxes, a < d) {i : ℕ}
    (hi : i < D.positions.length) : ∃ l, L.minimumDistances i = .ok l := by
  obtain ⟨vecs, hv⟩ := periodicVectors_ok L.struct.basis (L.primitive.getD false) hne hax
  unfold minimumDistances
  simp only [hdata, List.getElem?_eq_getElem hi, hv]
  exact ⟨_, rfl⟩

/-- It raises `IndexError` for a missing site and before the lattice is built. -/
theorem C66_errors (L : Lattice d ℝ) (i : ℕ) :
    (L.data = none → L.minimumDistances i = .error .index) ∧
    ∀ D, L.data = some D → D.positions.length ≤ i → L.minimumDistances i = .error .index := by
  constructor
  · intro h
    unfold minimumDistances
    rw [h]
  · intro D h hi
    unfold minimumDistances
    simp only [h, List.getElem?_eq_none hi]

/-- The entry for site `j` is the least of the direct distance and of the distances between site `j`
and the copies of site `i` shifted by the translation vectors and their negatives; it is at most the
direct distance, not negative, and zero for `j = i`. -/
theorem C66_minimum {L : Lattice d ℝ} {D : LatticeData d ℝ} (hdata : L.data = some D) {i : ℕ}
    {x : Vec d ℝ} (hi : D.positions[i]? = some x) {l : List ℝ}
    (h : L.minimumDistances i = .ok l) :
    l.length = D.positions.length ∧
    ∃ vecs, periodicVectors L.struct.basis D.indices L.periodicAxes
        (L.primitive.getD false) = .ok vecs ∧
    ∀ (j : ℕ) (y : Vec d ℝ), D.positions[j]? = some y → ∃ m, l[j]? = some m ∧
      IsLeast {t | t = distance x y ∨ ∃ v ∈ vecs,
        t = distance (L.struct.basis.translate v.2 x) y ∨
        t = distance (L.struct.basis.translate (-v.2) x) y} m ∧
      m ≤ distance x y ∧ 0 ≤ m ∧ (j = i → m = 0) := by
  unfold minimumDistances at h
  simp only [hdata, hi] at h
  cases hv : periodicVectors L.struct.basis D.indices L.periodicAxes (L.primitive.getD false) with
  | error e => rw [hv] at h; cases h
  | ok vecs =>
    rw [hv] at h
    have h := Except.ok.inj h
    subst h
    refine ⟨by simp, vecs, rfl, ?_⟩
    intro j y hj
    have hl := foldl_min_isLeast ((vecs.flatMap fun v =>
      [L.struct.basis.translate v.2 x, L.struct.basis.translate (-v.2) x]).map
      fun z => distance z y) (distance x y)
    have hset : {t | t = distance x y ∨ t ∈ (vecs.flatMap fun v =>
        [L.struct.basis.translate v.2 x, L.struct.basis.translate (-v.2) x]).map
        fun z => distance z y} = {t | t = distance x y ∨ ∃ v ∈ vecs,
        t = distance (L.struct.basis.translate v.2 x) y ∨
        t = distance (L.struct.basis.translate (-v.2) x) y} := by
      ext t
      simp only [Set.mem_ofPred_eq, List.mem_map, List.mem_flatMap, List.mem_cons, List.not_mem_nil,
        or_false]
      constructor
      · rintro (h | ⟨z, ⟨v, hv, hz⟩, rfl⟩)
        · exact Or.inl h
        · right
          rcases hz with rfl | rfl
          · exact ⟨v, hv, Or.inl rfl⟩
          · exact ⟨v, hv, Or.inr rfl⟩
      · rintro (h | ⟨v, hv, h | h⟩)
        · exact Or.inl h
        · exact Or.inr ⟨_, ⟨v, hv, Or.inl rfl⟩, h.symm⟩
        · exact Or.inr ⟨_, ⟨v, hv, Or.inr rfl⟩, h.symm⟩
    rw [hset] at hl
    have hnn : ∀ t ∈ {t | t = distance x y ∨ ∃ v ∈ vecs,
        t = distance (L.struct.basis.translate v.2 x) y ∨
        t = distance (L.struct.basis.translate (-v.2) x) y}, 0 ≤ t := by
      rintro t (rfl | ⟨v, -, rfl | rfl⟩) <;> exact distance_nonneg _ _
    refine ⟨_, by rw [List.getElem?_map, hj]; rfl, hl, hl.2 (Or.inl rfl), hnn _ hl.1, ?_⟩
    rintro rfl
    obtain rfl : x = y := Option.some.inj (hi.symm.trans hj)
    refine le_antisymm ?_ (hnn _ hl.1)
    exact hl.2 (Or.inl (distance_self x).symm)

theorem distance_translate_swap (b : LatticeBasis d ℝ) (n : Fin d → ℤ) (x y : Vec d ℝ) :
    distance (b.translate n x) y = distance (b.translate (-n) y) x := by
  rw [LatticeBasis.translate_eq, LatticeBasis.translate_eq, distance_comm]
  have := distance_add_right y (fun k => x k + ∑ i, (n i : ℝ) * b.vectors i k)
    (fun k => ∑ i, ((-n) i : ℝ) * b.vectors i k) none
  rw [← this]
  congr 1
  funext k
  simp

/-- The minimum distance from `i` to `j` is that from `j` to `i`. -/
theorem C66_symmetric {L : Lattice d ℝ} {i j : ℕ} {l l' : List ℝ}
    (h : L.minimumDistances i = .ok l) (h' : L.minimumDistances j = .ok l') :
    ∃ m, l[j]? = some m ∧ l'[i]? = some m := by
  have key : ∀ {i : ℕ} {l : List ℝ}, L.minimumDistances i = .ok l →
      ∃ D x, L.data = some D ∧ D.positions[i]? = some x := by
    intro i l h
    unfold minimumDistances at h
    cases hD : L.data with
    | none => rw [hD] at h; cases h
    | some D =>
      simp only [hD] at h
      cases hx : D.positions[i]? with
      | none => rw [hx] at h; cases h
      | some x => exact ⟨D, x, rfl, hx⟩
  obtain ⟨D, x, hD, hx⟩ := key h
  obtain ⟨D', y, hD', hy⟩ := key h'
  obtain rfl := Option.some.inj (hD.symm.trans hD')
  obtain ⟨-, vecs, hv, H⟩ := C66_minimum hD hx h
  obtain ⟨-, vecs', hv', H'⟩ := C66_minimum hD hy h'
  obtain rfl := Except.ok.inj (hv.symm.trans hv')
  obtain ⟨m, hm, hl, -⟩ := H j y hy
  obtain ⟨m', hm', hl', -⟩ := H' i x hx
  have : m = m' := by
    refine hl.unique ?_
    have hset : ∀ t, t ∈ {t | t = distance x y ∨ ∃ v ∈ vecs,
        t = distance (L.struct.basis.translate v.2 x) y ∨
        t = distance (L.struct.basis.translate (-v.2) x) y} ↔ t ∈ {t | t = distance y x ∨
        ∃ v ∈ vecs, t = distance (L.struct.basis.translate v.2 y) x ∨
        t = distance (L.struct.basis.translate (-v.2) y) x} := ?_
    · rw [Set.ext hset]; exact hl'
    intro t
    rw [distance_comm y x none]
    refine or_congr Iff.rfl (exists_congr fun v => and_congr_right fun _ => ?_)
    rw [distance_translate_swap _ v.2 x y, distance_translate_swap _ (-v.2) x y, neg_neg]
    exact or_comm
  subst this
  exact ⟨m, hm, hm'⟩

/-! ## the distance on a ring or torus -/

theorem nearest_image {δ P : ℝ} (h : |δ| ≤ P) :
    ∃ n : ℤ, n ∈ ({-1, 0, 1} : Set ℤ) ∧ ∀ m : ℤ, |δ + n * P| ≤ |δ + m * P| := by
  have hP : 0 ≤ P := (abs_nonneg _).trans h
  obtain ⟨h1, h2⟩ := abs_le.1 h
  have big : ∀ m : ℤ, (m : ℝ) ≤ -1 ∨ (m : ℝ) = 0 ∨ 1 ≤ (m : ℝ) := by
    intro m
    rcases lt_trichotomy m 0 with hm | rfl | hm
    · left; exact_mod_cast (by omega : m ≤ -1)
    · right; left; simp
    · right; right; exact_mod_cast (by omega : 1 ≤ m)
  by_cases h0 : 0 ≤ δ
  · by_cases hh : δ ≤ P / 2
    · refine ⟨0, by simp, fun m => ?_⟩
      rw [Int.cast_zero, zero_mul, add_zero, abs_of_nonneg h0]
      rcases big m with hm | hm | hm
      · refine le_trans ?_ (neg_le_abs _)
        nlinarith
      · rw [hm, zero_mul, add_zero]; exact le_abs_self _
      · refine le_trans ?_ (le_abs_self _)
        nlinarith
    · refine ⟨-1, by simp, fun m => ?_⟩
      push Not at hh
      rw [abs_of_nonpos (by push_cast; linarith)]
      push_cast
      rcases big m with hm | hm | hm
      · refine le_trans ?_ (neg_le_abs _)
        nlinarith
      · rw [hm, zero_mul, add_zero]
        exact le_trans (by linarith) (le_abs_self _)
      · refine le_trans ?_ (le_abs_self _)
        nlinarith
  · push Not at h0
    by_cases hh : -δ ≤ P / 2
    · refine ⟨0, by simp, fun m => ?_⟩
      rw [Int.cast_zero, zero_mul, add_zero, abs_of_neg h0]
      rcases big m with hm | hm | hm
      · refine le_trans ?_ (neg_le_abs _)
        nlinarith
      · rw [hm, zero_mul, add_zero]; exact neg_le_abs _
      · refine le_trans ?_ (le_abs_self _)
        nlinarith
    · refine ⟨1, by simp, fun m => ?_⟩
      push Not at hh
      rw [abs_of_nonneg (by push_cast; linarith)]
      push_cast
      rcases big m with hm | hm | hm
      · refine le_trans ?_ (neg_le_abs _)
        nlinarith
      · rw [hm, zero_mul, add_zero]
        exact le_trans (by linarith) (neg_le_abs _)
      · refine le_trans ?_ (le_abs_self _)
        nlinarith

theorem distance_mono {x y x' y' : Vec d ℝ} (h : ∀ k, |x k - y k| ≤ |x' k - y' k|) :
    distance x y ≤ distance x' y' := by
  unfold distance
  simp only [hasSqrt_real]
  refine Real.sqrt_le_sqrt (Finset.sum_le_sum fun k _ => ?_)
  rw [← abs_mul_abs_self, ← abs_mul_abs_self (x' k - y' k)]
  exact mul_self_le_mul_self (abs_nonneg _) (h k)

theorem translate_orthogonal {b : LatticeBasis d ℝ} {s : Fin d → ℝ}
    (hinit : LatticeBasis.init (Matrix.diagonal s) = .ok b) (n : Fin d → ℤ) (x : Vec d ℝ) :
    b.translate n x = fun k => x k + n k * s k := by
  rw [LatticeBasis.translate_eq, LatticeBasis.init_vectors hinit]
  funext k
  congr 1
  rw [Finset.sum_eq_single k]
  · simp
  · intro i _ hik
    simp [Matrix.diagonal_apply_ne _ hik]
  · intro h; exact absurd (Finset.mem_univ k) h

/-- For orthogonal lattices in one and two dimensions `minimum_distances` gives the distance on the
ring, cylinder or torus obtained by identifying points that differ by whole periods along the periodic
axes: no other whole number of periods gives a smaller distance.  The sites have to be at most
one period apart along each periodic axis, as the sites of a built lattice are. -/
theorem C77_torus_partial {L : Lattice d ℝ} {D : LatticeData d ℝ} (hd : d ≤ 2)
    (hdata : L.data = some D) (hne : D.indices ≠ []) (hax : ∀ a ∈ L.periodicAxes, a < d)
    {s : Fin d → ℝ} (hs : ∀ k, 0 < s k)
    (hinit : LatticeBasis.init (Matrix.diagonal s) = .ok L.struct.basis)
    {p : Fin d → ℤ} (hp : ∀ a : Fin d, PeriodOf D.indices [a.val] (Pi.single a (p a)))
    {i j : ℕ} {x y : Vec d ℝ} (hi : D.positions[i]? = some x) (hj : D.positions[j]? = some y)
    (hnear : ∀ k : Fin d, k.val ∈ L.periodicAxes → |x k - y k| ≤ p k * s k) :
    ∃ l m, L.minimumDistances i = .ok l ∧ l[j]? = some m ∧
      IsLeast {t | ∃ n : Fin d → ℤ, (∀ k : Fin d, k.val ∉ L.periodicAxes → n k = 0) ∧
        t = distance (fun k => x k + n k * (p k * s k)) y} m := by
  have ho : Orthogonal L.struct.basis := ⟨s, hs, hinit⟩
  obtain ⟨l, hl⟩ := C66_defined hdata hne hax (List.getElem?_eq_some_iff.1 hi).1
  obtain ⟨-, vecs, hv, H⟩ := C66_minimum hdata hi hl
  obtain ⟨m, hm, hleast, -⟩ := H j y hj
  refine ⟨l, m, hl, hm, ?_⟩
  obtain ⟨vecs', hv', hcov⟩ := C65_translations_partial
    (primitive := L.primitive.getD false) (Or.inr ho) hne hax
  obtain rfl := Except.ok.inj (hv.symm.trans hv')
  obtain ⟨h1, h2, h3⟩ := hcov (fun a => Pi.single a (p a)) hp
  -- images
  have himg : ∀ n : Fin d → ℤ, distance (L.struct.basis.translate (fun k => n k * p k) x) y =
      distance (fun k => x k + n k * (p k * s k)) y := by
    intro n
    rw [translate_orthogonal hinit]
    congr 1
    funext k
    push_cast
    ring
  have hsingle : ∀ (a : Fin d) (z : ℤ), (Pi.single a (z * p a) : Fin d → ℤ) =
      fun k => (Pi.single a z : Fin d → ℤ) k * p k := by
    intro a z
    funext k
    by_cases hk : k = a
    · subst hk; simp
    · simp [hk]
  have hpc : ∀ (a : Fin d) (z : ℤ), z • (Pi.single a (p a) : Fin d → ℤ) =
      fun k => (Pi.single a z : Fin d → ℤ) k * p k := by
    intro a z
    rw [← hsingle]
    funext k
    by_cases hk : k = a
    · subst hk; simp
    · simp [hk]
  constructor
  · rcases hleast.1 with h | ⟨v, hv, h⟩
    · exact ⟨0, by simp, by simpa using h⟩
    · have hn : ∃ n : Fin d → ℤ, (∀ k : Fin d, k.val ∉ L.periodicAxes → n k = 0) ∧
          v.2 = fun k => n k * p k := by
        obtain ⟨a, ha, hva⟩ := h3 v hv
        have z1 : ∀ (z : ℤ) (k : Fin d), k.val ∉ L.periodicAxes →
            (Pi.single a z : Fin d → ℤ) k = 0 := by
          intro z k hk
          have : k ≠ a := by rintro rfl; exact hk ha
          simp [this]
        rcases hva with hva | hva | ⟨c, hc, -, hva⟩
        · refine ⟨Pi.single a 1, z1 1, ?_⟩
          rw [hva, ← hpc, one_zsmul]
        · refine ⟨Pi.single a (-1), z1 (-1), ?_⟩
          rw [hva, ← hpc, neg_one_zsmul]
        · have z2 : ∀ (z : ℤ) (k : Fin d), k.val ∉ L.periodicAxes →
              (Pi.single c z : Fin d → ℤ) k = 0 := by
            intro z k hk
            have : k ≠ c := by rintro rfl; exact hk hc
            simp [this]
          have hsum : ∀ z z' : ℤ, z • (Pi.single a (p a) : Fin d → ℤ) +
              z' • (Pi.single c (p c) : Fin d → ℤ) = fun k =>
              ((Pi.single a z : Fin d → ℤ) + (Pi.single c z' : Fin d → ℤ)) k * p k := by
            intro z z'
            rw [hpc, hpc]
            funext k
            simp only [Pi.add_apply]
            ring
          rcases hva with hva | hva | hva
          · refine ⟨_, ?_, by rw [hva, ← hsum 1 1, one_zsmul, one_zsmul]⟩
            intro k hk
            rw [Pi.add_apply, z1 1 k hk, z2 1 k hk, add_zero]
          · refine ⟨_, ?_, by
              rw [hva, ← hsum (-1) (-1), neg_one_zsmul, neg_one_zsmul, neg_add]⟩
            intro k hk
            rw [Pi.add_apply, z1 (-1) k hk, z2 (-1) k hk, add_zero]
          · refine ⟨_, ?_, by
              rw [hva, ← hsum 1 (-1), one_zsmul, neg_one_zsmul, sub_eq_add_neg]⟩
            intro k hk
            rw [Pi.add_apply, z1 1 k hk, z2 (-1) k hk, add_zero]
      obtain ⟨n, hn0, hn⟩ := hn
      rcases h with h | h
      · exact ⟨n, hn0, by rw [h, hn, himg]⟩
      · refine ⟨-n, fun k hk => by rw [Pi.neg_apply, hn0 k hk, neg_zero], ?_⟩
        rw [h, hn, ← himg]
        congr 2
        funext k
        simp
  · rintro t ⟨n, hn0, rfl⟩
    -- the best shift along every axis
    have hbest : ∀ k : Fin d, ∃ q : ℤ, q ∈ ({-1, 0, 1} : Set ℤ) ∧
        (k.val ∉ L.periodicAxes → q = 0) ∧
        |x k + q * (p k * s k) - y k| ≤ |x k + n k * (p k * s k) - y k| := by
      intro k
      by_cases hk : k.val ∈ L.periodicAxes
      · obtain ⟨q, hq, hq'⟩ := nearest_image (hnear k hk)
        refine ⟨q, hq, fun h => absurd hk h, ?_⟩
        have := hq' (n k)
        have e : ∀ z : ℝ, x k + z * (p k * s k) - y k = x k - y k + z * (p k * s k) := by
          intro z; ring
        rw [e, e]
        exact this
      · refine ⟨0, by simp, fun _ => rfl, ?_⟩
        rw [hn0 k hk]
    choose q hq hq0 hqle using hbest
    refine le_trans ?_ (distance_mono hqle)
    rw [← himg q]
    by_cases hzero : q = 0
    · subst hzero
      refine hleast.2 (Or.inl ?_)
      rw [himg]
      congr 1
      funext k
      simp
    · obtain ⟨a, ha⟩ : ∃ a, q a ≠ 0 := by
        by_contra hcon
        push Not at hcon
        exact hzero (funext hcon)
      have haa : a.val ∈ L.periodicAxes := by
        by_contra hcon
        exact ha (hq0 a hcon)
      have hfin : ∃ v ∈ vecs, v.2 = (fun k => q k * p k) ∨ v.2 = -(fun k => q k * p k) := by
        by_cases hc : ∃ c, c ≠ a ∧ q c ≠ 0
        · obtain ⟨c, hca, hc⟩ := hc
          have hcc : c.val ∈ L.periodicAxes := by
            by_contra hcon
            exact hc (hq0 c hcon)
          obtain ⟨v, hv', hvv⟩ := C65_planar hd (Or.inr ho) hne hax hv hp haa hcc (Ne.symm hca)
            (hq a) (hq c) (fun h => ha (by simpa using congrArg Prod.fst h))
          refine ⟨v, hv', ?_⟩
          have : (q a • (Pi.single a (p a) : Fin d → ℤ) + q c • (Pi.single c (p c) : Fin d → ℤ)) =
              fun k => q k * p k := by
            rw [hpc, hpc]
            funext k
            have hk : k = a ∨ k = c := by
              have := k.isLt
              have := a.isLt
              have := c.isLt
              have : c.val ≠ a.val := fun h => hca (Fin.ext h)
              have : k.val = a.val ∨ k.val = c.val := by omega
              rcases this with h | h
              · exact Or.inl (Fin.ext h)
              · exact Or.inr (Fin.ext h)
            simp only [Pi.add_apply]
            rcases hk with rfl | rfl
            · simp [Ne.symm hca]
            · simp [hca]
          rw [this] at hvv
          exact hvv
        · push Not at hc
          obtain ⟨v, hv', hvv⟩ := h1 a haa
          refine ⟨v, hv', ?_⟩
          have e : (fun k => q k * p k) = q a • (Pi.single a (p a) : Fin d → ℤ) := by
            rw [hpc]
            funext k
            by_cases hk : k = a
            · subst hk; simp
            · simp [hk, hc k hk]
          rw [e]
          have := hq a
          simp only [Set.mem_insert_iff, Set.mem_singleton_iff] at this
          rcases this with h | h | h
          · rw [h, neg_one_zsmul, neg_neg]; exact hvv.symm
          · exact absurd h ha
          · rw [h, one_zsmul]; exact hvv
      obtain ⟨v, hv', hvv | hvv⟩ := hfin
      · refine hleast.2 (Or.inr ⟨v, hv', Or.inl ?_⟩)
        rw [hvv]
      · refine hleast.2 (Or.inr ⟨v, hv', Or.inr ?_⟩)
        rw [hvv, neg_neg]

/-- In one dimension, for a lattice vector `a > 0` and a period of `p` cells, the minimum distance
of two sites is the distance on the ring of circumference `p a`. -/
theorem C66_ring_partial {L : Lattice 1 ℝ} {D : LatticeData 1 ℝ} (hdata : L.data = some D)
    (hax : L.periodicAxes = [0]) {a : ℝ} (ha : 0 < a)
    (hb : L.struct.basis = chainBasis a) {lo hi : Idx 1} (hlo : lo ∈ D.indices)
    (hhi : hi ∈ D.indices)
    (hall : ∀ z : Idx 1, z ∈ D.indices → lo.cell 0 ≤ z.cell 0 ∧ z.cell 0 ≤ hi.cell 0) {p : ℤ}
    (hp : p = hi.cell 0 - lo.cell 0 + 1) {i j : ℕ} {x y : Vec 1 ℝ}
    (hi : D.positions[i]? = some x) (hj : D.positions[j]? = some y)
    (hnear : |x 0 - y 0| ≤ p * a) :
    ∃ l, L.minimumDistances i = .ok l ∧
      l[j]? = some (min |x 0 - y 0| (p * a - |x 0 - y 0|)) := by
  have hdiag : Matrix.diagonal (fun _ : Fin 1 => a) = chainRows a := by
    ext i j
    rw [Subsingleton.elim i j]
    simp [chainRows]
  obtain ⟨l, m, hl, hm, hleast⟩ := C77_torus_partial (L := L) (D := D) (by norm_num) hdata
    (List.ne_nil_of_mem hlo) (by rw [hax]; simp) (s := fun _ => a) (fun _ => ha)
    (by rw [hdiag, hb]; exact chain_init ha) (p := fun _ => p)
    (by
      intro k
      obtain rfl := Subsingleton.elim k 0
      refine ⟨fun k hk => absurd (by rw [Subsingleton.elim k 0]; simp) hk, fun k _ => ?_⟩
      obtain rfl := Subsingleton.elim k 0
      exact ⟨_, _, hhi, hlo, by rw [hp]; simp, fun z hz => hall z hz⟩)
    hi hj (by
      intro k _
      obtain rfl := Subsingleton.elim k 0
      exact hnear)
  refine ⟨l, hl, ?_⟩
  rw [hm]
  congr 1
  refine hleast.unique ⟨?_, ?_⟩
  · have h0 : ∀ n : ℤ, |x 0 + n * (p * a) - y 0| = |x 0 - y 0 + n * (p * a)| := by
      intro n; congr 1; ring
    rcases le_total (|x 0 - y 0|) (p * a - |x 0 - y 0|) with h | h
    · refine ⟨fun _ => 0, fun _ _ => rfl, ?_⟩
      rw [distance_one, min_eq_left h, h0]
      simp
    · rw [min_eq_right h]
      rcases le_total 0 (x 0 - y 0) with hs | hs
      · refine ⟨fun _ => -1, fun k hk => absurd (by rw [hax, Subsingleton.elim k 0]; simp) hk, ?_⟩
        rw [abs_of_nonneg hs] at hnear ⊢
        rw [distance_one, h0, abs_of_nonpos (by push_cast; linarith)]
        push_cast
        ring
      · refine ⟨fun _ => 1, fun k hk => absurd (by rw [hax, Subsingleton.elim k 0]; simp) hk, ?_⟩
        rw [abs_of_nonpos hs] at hnear ⊢
        rw [distance_one, h0, abs_of_nonneg (by push_cast; linarith)]
        push_cast
        ring
  · rintro t ⟨n, -, rfl⟩
    rw [distance_one]
    have hP : (0 : ℝ) ≤ p * a := (abs_nonneg _).trans hnear
    have e : x 0 + n 0 * (p * a) - y 0 = x 0 - y 0 + n 0 * (p * a) := by ring
    rw [e]
    rcases eq_or_ne (n 0) 0 with h | h
    · rw [h, Int.cast_zero, zero_mul, add_zero]
      exact min_le_left _ _
    · refine (min_le_right _ _).trans ?_
      have h1 : (1 : ℝ) ≤ |(n 0 : ℝ)| := by exact_mod_cast Int.one_le_abs h
      have h2 : |(n 0 : ℝ) * (p * a)| = |(n 0 : ℝ)| * (p * a) := by
        rw [abs_mul, abs_of_nonneg hP]
      have h3 : p * a ≤ |(n 0 : ℝ)| * (p * a) := by nlinarith
      have h4 : |(n 0 : ℝ) * (p * a)| ≤ |x 0 - y 0 + n 0 * (p * a)| + |x 0 - y 0| := by
        have := abs_sub (x 0 - y 0 + n 0 * (p * a)) (x 0 - y 0)
        rwa [add_sub_cancel_left] at this
      linarith

/-- End to end: a chain of `N + 1` sites is built and made periodic.  Then the minimum distance of
two sites is their distance on the ring. -/
theorem C66_chain (env : Env ℝ) {nb N : ℕ} (hN : 2 * nb ≤ N) (hnb : 0 < nb) {w : World 1 ℝ}
    {A : Analysis 1 ℝ} {L : Lattice 1 ℝ} {D : LatticeData 1 ℝ}
    {table : List (List (ℕ × WithTop ℝ))}
    (h : IsBuiltChain env nb N (fun _ => true) w A L D table) :
    ∃ L', L.setPeriodic env (.axes [0]) = (L', .ok ()) ∧ ∀ i < N + 1, ∀ j < N + 1,
      ∃ l, L'.minimumDistances i = .ok l ∧ l.length = N + 1 ∧
        l[j]? = some (min |(i : ℝ) - j| (N + 1 - |(i : ℝ) - j|)) := by
  obtain ⟨L', E, h1, h2, h3, h4, h5, -⟩ := C64_ring_partial env hN hnb h
  obtain ⟨f1, -, -, f4, -⟩ := setPeriodic_frame env L (.axes [0])
  rw [h1] at f1 f4
  refine ⟨L', h1, ?_⟩
  intro i hi j hj
  have hpos : ∀ k < N + 1, E.positions[k]? = some (fun _ => (k : ℝ)) := by
    intro k hk
    rw [h5, h.sites, chainCells_true, List.getElem?_map, List.getElem?_range hk]
    rfl
  have hb : L'.struct.basis = chainBasis 1 := by
    unfold Lattice.struct
    rw [f1, h.world, h.basis]
  have hvec : periodicVectors L'.struct.basis E.indices L'.periodicAxes
      (L'.primitive.getD false) = .ok [([0], fun _ => (N : ℤ) + 1)] := by
    rw [hb, h4, h3, f4, h.primitive, h.indices, chainCells_true]
    exact chain_periodicVectors N
  obtain ⟨l, hl⟩ : ∃ l, L'.minimumDistances i = .ok l := by
    unfold minimumDistances
    simp only [h2, hpos i hi, hvec]
    exact ⟨_, rfl⟩
  obtain ⟨hlen, vecs, hv, H⟩ := C66_minimum h2 (hpos i hi) hl
  obtain rfl := Except.ok.inj (hvec.symm.trans hv)
  obtain ⟨m, hm, hleast, -⟩ := H j _ (hpos j hj)
  refine ⟨l, hl, ?_, ?_⟩
  · rw [hlen, h5, h.sites, chainCells_true]; simp
  · rw [hm]
    congr 1
    refine hleast.unique ?_
    have ht : ∀ n : Fin 1 → ℤ, L'.struct.basis.translate n (fun _ => (i : ℝ)) =
        fun _ => (i : ℝ) + n 0 := by
      intro n
      rw [hb, LatticeBasis.translate_eq]
      funext k
      rw [Subsingleton.elim k 0]
      simp [LatticeBasis.vectors, chainBasis, chainRows]
    have hi' : (i : ℝ) ≤ N := by exact_mod_cast (by omega : i ≤ N)
    have hj' : (j : ℝ) ≤ N := by exact_mod_cast (by omega : j ≤ N)
    have hi0 : (0 : ℝ) ≤ i := Nat.cast_nonneg i
    have hj0 : (0 : ℝ) ≤ j := Nat.cast_nonneg j
    have e1 : |(i : ℝ) + (N + 1) - j| = i + (N + 1) - j := abs_of_pos (by linarith)
    have e2 : |(i : ℝ) - (N + 1) - j| = (N + 1) + j - i := by
      rw [abs_of_neg (by linarith)]; ring
    have hset : ∀ t : ℝ, (t = distance (fun _ : Fin 1 => (i : ℝ)) (fun _ => (j : ℝ)) ∨
        ∃ v ∈ [(([0] : List ℕ), fun _ : Fin 1 => (N : ℤ) + 1)],
        t = distance (L'.struct.basis.translate v.2 fun _ => (i : ℝ)) (fun _ => (j : ℝ)) ∨
        t = distance (L'.struct.basis.translate (-v.2) fun _ => (i : ℝ)) (fun _ => (j : ℝ))) ↔
        (t = |(i : ℝ) - j| ∨ t = i + (N + 1) - j ∨ t = (N + 1) + j - i) := by
      intro t
      simp only [List.mem_singleton, exists_eq_left, ht, distance_one, Pi.neg_apply]
      push_cast
      rw [← sub_eq_add_neg, e1, e2]
    constructor
    · refine (hset _).2 ?_
      rcases le_total (|(i : ℝ) - j|) (N + 1 - |(i : ℝ) - j|) with hle | hle
      · exact Or.inl (min_eq_left hle)
      · rw [min_eq_right hle]
        rcases le_total (i : ℝ) j with hij | hij
        · rw [abs_of_nonpos (by linarith)]
          right; left; ring
        · rw [abs_of_nonneg (by linarith)]
          right; right; ring
    · intro t ht'
      rcases (hset t).1 ht' with rfl | rfl | rfl
      · exact min_le_left _ _
      · exact (min_le_right _ _).trans (by linarith [neg_le_abs ((i : ℝ) - j)])
      · exact (min_le_right _ _).trans (by linarith [le_abs_self ((i : ℝ) - j)])

/-- A ring of seven sites: sites 1 and 6 are two steps apart. -/
example (env : Env ℝ) : ∃ L : Lattice 1 ℝ, ∃ L', L.setPeriodic env (.axes [0]) = (L', .ok ()) ∧
    ∃ l, L'.minimumDistances 1 = .ok l ∧ l.length = 7 ∧ l[6]? = some 2 := by
  obtain ⟨w, A, L, D, table, h⟩ := exists_isBuiltChain env (nb := 1) one_pos (by norm_num) 6
    (fun _ => true) (by rw [chainCells_true]; simp)
  obtain ⟨L', h1, h2⟩ := C66_chain env (by norm_num) one_pos h
  obtain ⟨l, g1, g2, g3⟩ := h2 1 (by norm_num) 6 (by norm_num)
  refine ⟨L, L', h1, l, g1, g2, ?_⟩
  rw [g3]
  norm_num

/-- In one dimension the claim fails when the lattice vector points in the negative direction and
Cartesian axes are used.  The cell size is then computed as 0 (`cell_size` gives the largest minus
the smallest coordinate and only a positive minimum is replaced by 0), so the period is one cell
too short.  Here the lattice vector is -1 and the sites are at 2, 1 and 0: the minimum distance
between the first and the last site comes out as 0, while on the ring of three sites it is 1. -/
theorem C66_ring_fails {L : Lattice 1 ℝ} {D : LatticeData 1 ℝ} (hdata : L.data = some D)
    (hprim : L.primitive = some false) (hb : L.struct.basis = chainBasis (-1))
    (hax : L.periodicAxes = [0])
    (hind : D.indices = [![-2, 0], ![-1, 0], ![0, 0]])
    (hpos : D.positions = [fun _ => 2, fun _ => 1, fun _ => 0]) :
    ∃ l, L.minimumDistances 0 = .ok l ∧ l[2]? = some 0 := by
  have hinit : LatticeBasis.init (chainRows (-1)) = .ok (chainBasis (-1)) :=
    chain_init_of_ne (by norm_num)
  have htr : ∀ x : Vec 1 ℝ, (chainBasis (-1)).transform x = fun k => -x k := by
    intro x
    funext k
    rw [Subsingleton.elim k 0]
    simp [LatticeBasis.transform, chainBasis, chainRows, Matrix.mulVec, dotProduct]
  have hitr : ∀ x : Vec 1 ℝ, (chainBasis (-1)).itransform x = fun k => -x k := by
    intro x
    have : (chainBasis (-1)).transform (fun k => -x k) = x := by rw [htr]; funext k; simp
    conv_lhs => rw [← this]
    exact LatticeBasis.itransform_transform hinit _
  have hcell : cellSizes (chainBasis (-1)) = fun _ => 0 := by
    funext k
    rw [Subsingleton.elim k 0]
    change Lattpy.cellSize (fun i => (chainBasis (-1)).vectors i) 0 = 0
    simp [Lattpy.cellSize, LatticeBasis.vectors, chainBasis, chainRows, vmax, vmin]
    norm_num
  obtain ⟨lim, hlim, hspec⟩ := AShape.minMax_spec
    (([![-2, 0], ![-1, 0], ![0, 0]] : List (Idx 1)).map
      fun x : Idx 1 => (chainBasis (-1)).transform fun k => (x.cell k : ℝ)) (by simp)
  have hl : (lim 0).1 = 0 ∧ (lim 0).2 = 2 := by
    have c0 : Idx.cell (d := 1) ![0, 0] = ![0] := by decide
    have c1 : Idx.cell (d := 1) ![-1, 0] = ![-1] := by decide
    have c2 : Idx.cell (d := 1) ![-2, 0] = ![-2] := by decide
    have h0 := hspec 0
    simp only [List.map_cons, List.map_nil, c0, c1, c2, htr] at h0
    refine ⟨h0.1.unique ?_, h0.2.unique ?_⟩
    · constructor
      · exact ⟨_, by simp; exact Or.inr (Or.inr rfl), by simp⟩
      · rintro t ⟨v, hv, rfl⟩
        simp at hv
        rcases hv with rfl | rfl | rfl <;> simp
    · constructor
      · exact ⟨_, by simp; exact Or.inl rfl, by simp⟩
      · rintro t ⟨v, hv, rfl⟩
        simp at hv
        rcases hv with rfl | rfl | rfl <;> simp
  have hvec : periodicVectors L.struct.basis D.indices L.periodicAxes
      (L.primitive.getD false) = .ok [([0], fun _ => -2)] := by
    rw [hb, hind, hax, hprim]
    simp only [Option.getD_some, periodicVectors]
    have : periodicVector (chainBasis (-1)) [![-2, 0], ![-1, 0], ![0, 0]] [0] false =
        .ok fun _ => -2 := by
      unfold periodicVector
      simp only [Bool.false_eq_true, if_false, hlim]
      rw [if_pos (by simp)]
      congr 1
      funext k
      rw [Subsingleton.elim k 0, hitr, hcell]
      simp only [hl.1, hl.2]
      refine rint_near _ ?_ ?_ <;> norm_num
    rw [this]
  obtain ⟨l, hl⟩ : ∃ l, L.minimumDistances 0 = .ok l := by
    unfold minimumDistances
    simp only [hdata, hpos, hvec, List.getElem?_cons_zero]
    exact ⟨_, rfl⟩
  refine ⟨l, hl, ?_⟩
  obtain ⟨hlen, vecs, hv, H⟩ := C66_minimum hdata (by rw [hpos]; rfl) hl
  obtain rfl := Except.ok.inj (hvec.symm.trans hv)
  obtain ⟨m, hm, hleast, -, hnn, -⟩ := H 2 _ (by rw [hpos]; rfl)
  rw [hm]
  congr 1
  refine le_antisymm (hleast.2 (Or.inr ⟨_, List.mem_singleton.2 rfl, Or.inr ?_⟩)) hnn
  rw [distance_one, hb, LatticeBasis.translate_eq]
  simp [LatticeBasis.vectors, chainBasis, chainRows]

/-- The hypotheses of `C66_ring_fails` can be met. -/
example : ∃ (L : Lattice 1 ℝ) (D : LatticeData 1 ℝ), L.data = some D ∧
    L.primitive = some false ∧ L.struct.basis = chainBasis (-1) ∧ L.periodicAxes = [0] ∧
    D.indices = [![-2, 0], ![-1, 0], ![0, 0]] ∧
    D.positions = [fun _ => 2, fun _ => 1, fun _ => 0] := by
  obtain ⟨w, A, L, D, table, h⟩ := exists_isBuiltChain (Env.brute ℝ) (nb := 1) one_pos (by norm_num) 6
    (fun _ => true) (by rw [chainCells_true]; simp)
  exact ⟨{ L with
    world := { w with struct := { w.struct with basis := chainBasis (-1) } }
    data := some { D with
      indices := [![-2, 0], ![-1, 0], ![0, 0]]
      positions := [fun _ => 2, fun _ => 1, fun _ => 0] }
    periodicAxes := [0]
    primitive := some false }, _, rfl, rfl, rfl, rfl, rfl, rfl⟩

/-- The sites of the counterexample below: cells of a 3 × 3 × 3 box. -/
def boxCells : List (Idx 3) := [![0, 0, 2, 0], ![0, 2, 0, 0], ![0, 0, 0, 0], ![2, 2, 2, 0]]

/-- In three dimensions the distance on the torus is not found, because a diagonal translation is
missing (see `C65_diagonal_fails`).  A cubic lattice with spacing 1 has sites in a 3 × 3 × 3 box
and all axes are periodic.  The sites (0, 0, 2) and (0, 2, 0) are neighbours across an edge of the
box, at the distance √2: shifting the first one by (0, 3, -3) gives (0, 3, -1).
`minimum_distances` reports √5. -/
theorem C77_torus_fails {L : Lattice 3 ℝ} {D : LatticeData 3 ℝ} (hdata : L.data = some D)
    (hprim : L.primitive = some true)
    (hb : LatticeBasis.init (Matrix.diagonal fun _ => 1) = .ok L.struct.basis)
    (hax : L.periodicAxes = [0, 1, 2]) (hind : D.indices = boxCells)
    (hpos : D.positions = boxCells.map fun x k => (Idx.cell x k : ℝ)) :
    ∃ l, L.minimumDistances 0 = .ok l ∧ l[1]? = some (Real.sqrt 5) ∧
      distance (L.struct.basis.translate ![0, 3, -3] ![0, 0, 2]) ![0, 2, 0] = Real.sqrt 2 := by
  have hper : ∀ (S : List ℕ) (v : Fin 3 → ℤ), (∀ a ∈ S, a < 3) →
      (v = fun k : Fin 3 => if k.val ∈ S then 3 else 0) →
      periodicVector L.struct.basis boxCells S true = .ok v := by
    intro S v hS hv
    obtain ⟨v', hv', h'⟩ := periodicVector_primitive L.struct.basis (indices := boxCells)
      (by decide) hS
    have : PeriodOf boxCells S v := by
      subst hv
      refine ⟨fun k hk => if_neg hk, fun k hk => ?_⟩
      refine ⟨![2, 2, 2, 0], ![0, 0, 0, 0], by decide, by decide, ?_, ?_⟩
      · dsimp only
        rw [if_pos hk]
        fin_cases k <;> rfl
      · fin_cases k <;> decide
    rw [hv', PeriodOf.unique h' this]
  have hvec : periodicVectors L.struct.basis D.indices L.periodicAxes (L.primitive.getD false) =
      .ok [([0, 0], ![3, 0, 0]), ([0, 1], ![3, 3, 0]), ([0, 1], ![3, -3, 0]),
        ([0, 2], ![3, 0, 3]), ([0, 2], ![3, 0, -3]), ([1, 1], ![0, 3, 0]), ([1, 1], ![0, -3, 0]),
        ([1, 2], ![0, 3, 3]), ([1, 2], ![0, -3, -3]), ([2, 2], ![0, 0, 3]),
        ([2, 2], ![0, 0, -3])] := by
    rw [hind, hax, hprim]
    simp only [Option.getD_some, periodicVectors, pairsOf, List.map_cons, List.map_nil,
      List.cons_append, List.nil_append, List.mapM_cons, List.mapM_nil, pairVectors,
      List.head?_cons,
      hper [0, 0] ![3, 0, 0] (by decide) (by decide), hper [0, 1] ![3, 3, 0] (by decide) (by decide),
      hper [0, 2] ![3, 0, 3] (by decide) (by decide), hper [1, 1] ![0, 3, 0] (by decide) (by decide),
      hper [1, 2] ![0, 3, 3] (by decide) (by decide), hper [2, 2] ![0, 0, 3] (by decide) (by decide)]
    have f : ∀ v w : Fin 3 → ℤ, (∀ k, flipTail v k = w k) → flipTail v = w := fun v w h => funext h
    rw [f ![3, 3, 0] ![3, -3, 0] (by decide), f ![3, 0, 3] ![3, 0, -3] (by decide),
      f ![0, 3, 0] ![0, -3, 0] (by decide), f ![0, 3, 3] ![0, -3, -3] (by decide),
      f ![0, 0, 3] ![0, 0, -3] (by decide)]
    rfl
  have hp0 : D.positions[0]? = some ![0, 0, 2] := by
    rw [hpos]
    simp only [boxCells, List.map_cons, List.getElem?_cons_zero]
    congr 1
    funext k
    fin_cases k <;> simp [Idx.cell]
  have hp1 : D.positions[1]? = some ![0, 2, 0] := by
    rw [hpos]
    simp only [boxCells, List.map_cons, List.getElem?_cons_zero, List.getElem?_cons_succ]
    congr 1
    funext k
    fin_cases k <;> simp [Idx.cell]
  have hdist : ∀ n : Fin 3 → ℤ, distance (L.struct.basis.translate n ![0, 0, 2]) ![0, 2, 0] =
      Real.sqrt (((n 0 * n 0 + (n 1 - 2) * (n 1 - 2) + (n 2 + 2) * (n 2 + 2) : ℤ) : ℝ)) := by
    intro n
    rw [translate_orthogonal hb]
    unfold distance
    simp only [hasSqrt_real, Fin.sum_univ_three]
    congr 1
    simp
    ring
  obtain ⟨l, hl⟩ : ∃ l, L.minimumDistances 0 = .ok l := by
    unfold minimumDistances
    simp only [hdata, hp0, hvec]
    exact ⟨_, rfl⟩
  refine ⟨l, hl, ?_, ?_⟩
  · obtain ⟨-, vecs, hv, H⟩ := C66_minimum hdata hp0 hl
    obtain rfl := Except.ok.inj (hvec.symm.trans hv)
    obtain ⟨m, hm, hleast, -⟩ := H 1 _ hp1
    rw [hm]
    congr 1
    refine hleast.unique ⟨Or.inr ⟨([1, 1], ![0, 3, 0]), by simp, Or.inl ?_⟩, ?_⟩
    · rw [hdist]
      congr 1
    · have h5 : ∀ n : Fin 3 → ℤ,
          5 ≤ n 0 * n 0 + (n 1 - 2) * (n 1 - 2) + (n 2 + 2) * (n 2 + 2) →
          Real.sqrt 5 ≤ distance (L.struct.basis.translate n ![0, 0, 2]) ![0, 2, 0] := by
        intro n hn
        rw [hdist]
        refine Real.sqrt_le_sqrt ?_
        exact_mod_cast hn
      rintro t (rfl | ⟨v, hv, rfl | rfl⟩)
      · have e : (![0, 0, 2] : Vec 3 ℝ) = L.struct.basis.translate 0 ![0, 0, 2] := by
          rw [translate_orthogonal hb]
          funext k
          simp
        have := h5 0 (by decide)
        rwa [← e] at this
      · refine h5 _ ?_
        revert v
        decide
      · refine h5 _ ?_
        revert v
        decide
  · rw [hdist]
    congr 1

/-- `C77_torus_partial` on a 3 × 2 torus with spacing 1: the sites (0, 0) and (2, 1) are at the
distance √2. -/
example {L : Lattice 2 ℝ} {D : LatticeData 2 ℝ} (hdata : L.data = some D)
    (hb : LatticeBasis.init (Matrix.diagonal fun _ => 1) = .ok L.struct.basis)
    (hax : L.periodicAxes = [0, 1])
    (hind : D.indices = [![0, 0, 0], ![0, 1, 0], ![1, 0, 0], ![1, 1, 0], ![2, 0, 0], ![2, 1, 0]])
    (hpos : D.positions = [![0, 0], ![0, 1], ![1, 0], ![1, 1], ![2, 0], ![2, 1]]) :
    ∃ l m, L.minimumDistances 0 = .ok l ∧ l[5]? = some m ∧ m ≤ Real.sqrt 2 := by
  obtain ⟨l, m, h1, h2, h3⟩ := C77_torus_partial (L := L) (D := D) le_rfl hdata
    (by rw [hind]; simp) (by rw [hax]; simp) (s := fun _ => 1) (fun _ => one_pos) hb
    (p := ![3, 2]) (by
      intro a
      rw [hind]
      fin_cases a
      · refine ⟨by decide, ?_⟩
        intro k hk
        refine ⟨![2, 0, 0], ![0, 0, 0], by simp, by simp, ?_, ?_⟩ <;> revert k <;> decide
      · refine ⟨by decide, ?_⟩
        intro k hk
        refine ⟨![1, 1, 0], ![0, 0, 0], by simp, by simp, ?_, ?_⟩ <;> revert k <;> decide)
    (i := 0) (j := 5) (x := ![0, 0]) (y := ![2, 1]) (by rw [hpos]; rfl) (by rw [hpos]; rfl) (by
      intro k _
      fin_cases k <;> norm_num)
  refine ⟨l, m, h1, h2, h3.2 ⟨![1, 1], by rw [hax]; decide, ?_⟩⟩
  unfold distance
  simp only [hasSqrt_real, Fin.sum_univ_two]
  congr 1
  norm_num

end Lattice

end Lattpy
