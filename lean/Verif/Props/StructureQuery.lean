import Verif.Props.Structure

/-!
# Properties of neighbour and position queries of a structure (C35, C36, C37, C38)
-/

set_option autoImplicit false
set_option linter.unusedSectionVars false

namespace Lattpy

open Structure World

variable {d : ℕ}

/-! ## spec -/

/-- `p` is the position of the site with the given index: position of the atom plus the integer
combination of the basis vectors. -/
def IsSitePos (S : Structure d ℝ) (idx : Idx d) (p : Vec d ℝ) : Prop :=
  ∃ (b : ℕ) (r : Vec d ℝ), idx.alpha = b ∧ S.positions[b]? = some r ∧
    p = fun k => r k + ∑ i, (idx.cell i : ℝ) * S.basis.vectors i k

/-! ## lemmas -/

theorem translate_add_left (b : LatticeBasis d ℝ) (m n : Fin d → ℤ) (r : Vec d ℝ) :
    b.translate (fun k => m k + n k) r = fun k => b.translate m r k + b.translate n 0 k := by
  rw [LatticeBasis.translate_eq, LatticeBasis.translate_eq, LatticeBasis.translate_eq]
  funext k
  simp only [Int.cast_add, add_mul, Finset.sum_add_distrib, Pi.zero_apply, zero_add]
  ring

theorem distance_translate (b : LatticeBasis d ℝ) (m n : Fin d → ℤ) (r q : Vec d ℝ) :
    distance (b.translate (fun k => m k + n k) r) (b.translate n q) = distance (b.translate m r) q := by
  have h1 : b.translate n q = fun k => q k + b.translate n 0 k := by
    rw [LatticeBasis.translate_eq, LatticeBasis.translate_eq]; funext k; simp
  rw [translate_add_left, h1]
  exact distance_add_right _ _ _ none

/-- What a successful neighbour query found. -/
theorem getNeighbors_info {S : Structure d ℝ} (hS : S.Good) {n : Fin d → ℤ} {α k : ℤ}
    {l : List (Idx d)} (hl : S.getNeighbors n α k = .ok l) :
    ∃ (A : Analysis d ℝ) (a : ℕ) (D : NDict d ℝ) (x : ℝ) (pa : Vec d ℝ),
      S.analysis = some A ∧ (α = a ∨ α = (a : ℤ) - S.numBase) ∧ a < S.numBase ∧
      A.base[a]? = some D ∧ S.positions[a]? = some pa ∧
      pyGet D.sortedKeys k = some x ∧ D.WF ∧ l.Nodup ∧ l ≠ [] ∧ 0 < x ∧
      (∀ idx ∈ l, ∃ b : ℕ, b < S.numBase ∧ idx.alpha = b ∧
        npRound 6 (distance (S.basis.translate idx.cell (S.posOf b))
          (S.basis.translate n pa)) = x) := by
  unfold getNeighbors at hl
  split at hl
  · cases hl
  · rename_i A hA
    split at hl
    · cases hl
    · rename_i D hD
      split at hl
      · cases hl
      · rename_i x hx
        split at hl
        · cases hl
        · rename_i idxs hget
          simp only [Except.ok.injEq] at hl
          subst hl
          obtain ⟨cells, m, c, -, -, -, -, -, hI⟩ := hS.analysis A hA
          obtain ⟨a, ha, hDa⟩ := pyGet_eq_some.1 hD
          rw [hI.base_length] at ha
          have hab : a < S.numBase := by
            rw [← hI.base_length]; exact (List.getElem?_eq_some_iff.1 hDa).1
          obtain ⟨hwf, hnd, hmem⟩ := hI.base a D hDa
          have hpa : S.positions[a]? = some (S.posOf a) := by
            rw [List.getElem?_eq_getElem (by rw [hS.positions_length]; exact hab),
              posOf_eq (List.getElem?_eq_getElem _)]
          have hin : (x, idxs) ∈ D := (NDict.get?_eq_some hwf.1).1 hget
          have hpairs : ∀ i ∈ idxs, (x, i) ∈ D.pairs := fun i hi => NDict.mem_pairs.2 ⟨idxs, hin, hi⟩
          have hne : idxs ≠ [] := hwf.2 _ hin
          have hxpos : 0 < x := by
            obtain ⟨i, hi⟩ := List.exists_mem_of_ne_nil _ hne
            obtain ⟨b, -, nn, -, -, h1, h2⟩ := (hmem x i).1 (hpairs i hi)
            have h3 := List.mem_of_mem_take h2
            unfold levels at h3
            rw [mem_npUnique, List.mem_filter] at h3
            have h4 : x ≠ 0 := by simpa using h3.2
            refine lt_of_le_of_ne ?_ h4.symm
            rw [h1]
            unfold siteDist
            have := npRound_mono (n := 6) (distance_nonneg (S.basis.translate nn (S.posOf b))
              (S.posOf a))
            rwa [npRound_zero] at this
          refine ⟨A, a, D, x, S.posOf a, hA, ha, hab, hDa, hpa, hx, hwf, ?_, by simpa using hne,
            hxpos, ?_⟩
          · refine List.Nodup.map ?_ ?_
            · intro i j hij
              unfold shiftIdx at hij
              rw [Idx.mk_inj] at hij
              rw [Idx.ext_iff]
              refine ⟨?_, hij.2⟩
              funext q
              have := congrFun hij.1 q
              simpa using this
            · have hs : (idxs.map fun y => (x, y)).Sublist D.pairs := by
                unfold NDict.pairs
                rw [List.flatMap_def]
                exact List.sublist_flatten_of_mem (List.mem_map.2 ⟨(x, idxs), hin, rfl⟩)
              exact (hnd.sublist hs).of_map _
          · intro idx hidx
            obtain ⟨i, hi, rfl⟩ := List.mem_map.1 hidx
            obtain ⟨b, hb, nn, -, h0, h1, -⟩ := (hmem x i).1 (hpairs i hi)
            refine ⟨b, hb, ?_, ?_⟩
            · simp [shiftIdx, h0]
            · have hcell : (shiftIdx n i).cell = fun q => nn q + n q := by
                simp [shiftIdx, h0]
              rw [hcell, distance_translate, h1]
              rfl

/-! ## chains as witnesses -/

/-- A chain with lattice constant `a` and one atom at `p`, connected to `nb` shells, is a reachable
and analysed structure. -/
theorem exists_chain (env : Env ℝ) {a : ℝ} (ha : 0 < a) (p : ℝ) {nb : ℕ} (hnb : 0 < nb) :
    ∃ (w : World 1 ℝ) (A : Analysis 1 ℝ) (cells : List (Fin 1 → ℤ)) (c : ConnMatrix),
      Reachable env w ∧ w.struct.basis = chainBasis a ∧ w.struct.positions = [fun _ => p] ∧
      w.struct.numBase = 1 ∧ w.struct.atoms = [⟨0, "A", .none, 0⟩] ∧ w.struct.conn = some c ∧
      c.size = 1 ∧ c.entry 0 0 = nb ∧ w.struct.analysis = some A ∧
      IsAnalysis w.struct cells nb c A ∧ (∀ n, n ∈ cells ↔ |n 0| ≤ 2 * (nb : ℤ) + 1) ∧
      cells.Nodup := by
  have h0 := good_ofBasis (chain_init ha)
  have h1 := addAtomAt_ok Nat.one_pos env h0 (fun _ => p) (by simp [ofBasis]) ⟨0, "A", .none, 0⟩ nb rfl
  set S1 := ((ofBasis (chainBasis a)).addAtomAt env (fun _ => p) ⟨0, "A", .none, 0⟩ nb).1 with hS1
  have hr : Reachable env ⟨Session.empty, S1⟩ := by
    refine ⟨_, _, Session.empty, [.addAtom (some [p]) (.obj ⟨0, "A", .none, 0⟩) false nb],
      chain_init ha, ?_⟩
    have hv : (Structure.toVec [p] : Option (Vec 1 ℝ)) = some fun _ => p := by
      unfold Structure.toVec
      rw [dif_pos (by simp)]
      congr 1
      funext i
      have : i = 0 := Subsingleton.elim _ _
      subst this
      rfl
    simp only [World.run, List.foldl_cons, List.foldl_nil, World.call, World.addAtom,
      Structure.atomPos, hv, Bool.false_eq_true, if_false]
    rw [if_neg (by simp [ofBasis]), hS1]
  have hr2 := hr.call .analyze
  have hc : S1.conn = some ((ConnMatrix.zeros 1).fill nb) := h1.2.2.2.2.2.2
  rcases analyze_cases Nat.one_pos env h1.2.1 with ⟨-, h⟩ | ⟨c, hc', hz, -⟩ |
      ⟨c, cells, m, A, hc', hz, hm, hm0, hcells, h, hI⟩
  · rw [hc] at h; cases h
  · rw [hc] at hc'
    simp only [Option.some.injEq] at hc'
    subst hc'
    rw [ConnMatrix.allZero_iff] at hz
    have := hz 0 (Nat.succ_pos _) 0 (Nat.succ_pos _)
    simp [ConnMatrix.fill, ConnMatrix.zeros] at this
    omega
  · have hc2 : c = (ConnMatrix.zeros 1).fill nb := by
      rw [hc] at hc'
      simpa using hc'.symm
    have hmn : m = nb := by
      rw [hc2] at hm
      simpa [ConnMatrix.max?, ConnMatrix.entries, ConnMatrix.fill, ConnMatrix.zeros] using hm.symm
    subst hmn
    have hb : S1.basis = chainBasis a := h1.2.2.2.2.2.1
    rw [hb] at hcells
    obtain ⟨hnd, hcm⟩ := chain_cells ha (2 * m) cells hcells
    have he : ((World.mk Session.empty S1).call env .analyze).1.struct =
        { S1 with frozen := true, analysis := some A } := by
      change (S1.analyze env).1 = _
      rw [h]
    refine ⟨_, A, cells, c, hr2, ?_⟩
    rw [he]
    refine ⟨hb, h1.2.2.2.1, h1.2.2.2.2.1, h1.2.2.1, hc', ?_, ?_, rfl, hI.congr rfl rfl rfl, ?_, hnd⟩
    · rw [hc2]; rfl
    · rw [hc2]; simp [ConnMatrix.fill, ConnMatrix.zeros]
    · intro n; rw [hcm n]; push_cast; rfl

/-- Rounding separates values further apart than the last digit. -/
theorem npRound_lt {n : ℕ} {x y : ℝ} (h : x + 1 / 10 ^ n < y) : npRound n x < npRound n y := by
  have h1 := abs_le.1 (abs_npRound_sub_le n x)
  have h2 := abs_le.1 (abs_npRound_sub_le n y)
  have h3 : (1 : ℝ) / 2 / 10 ^ n + 1 / 2 / 10 ^ n = 1 / 10 ^ n := by ring
  linarith [h1.1, h1.2, h2.1, h2.2]

/-- The multiples of a lattice constant of at least `1e-6` have different rounded values. -/
theorem chain_round {a : ℝ} (ha : 1 / 10 ^ 6 ≤ a) {i j : ℕ} (hij : i < j) :
    npRound 6 ((i : ℝ) * a) < npRound 6 ((j : ℝ) * a) := by
  rcases ha.lt_or_eq with h | h
  · apply npRound_lt
    have : (i : ℝ) + 1 ≤ j := by exact_mod_cast hij
    nlinarith
  · have key : ∀ k : ℕ, npRound 6 ((k : ℝ) * a) = ((k : ℤ) : ℝ) / 10 ^ 6 := by
      intro k
      rw [← h, ← npRound_of_int 6 (k : ℤ)]
      congr 1
      push_cast
      ring
    rw [key, key]
    apply div_lt_div_of_pos_right _ (by positivity)
    exact_mod_cast hij

theorem chain_siteDist {S : Structure 1 ℝ} {a p : ℝ} (ha : 0 < a) (hb : S.basis = chainBasis a)
    (hp : S.positions = [fun _ => p]) (n : Fin 1 → ℤ) :
    S.siteDist 0 0 n = npRound 6 (((n 0).natAbs : ℝ) * a) := by
  have h0 : S.posOf 0 = fun _ => p := posOf_eq (by rw [hp]; rfl)
  unfold siteDist
  rw [h0, hb, chain_translate, distance_one]
  congr 1
  simp only [add_sub_cancel_left]
  rw [abs_mul, abs_of_pos ha, Nat.cast_natAbs, Int.cast_abs]

theorem chain_siteLevels {S : Structure 1 ℝ} {a p : ℝ} (ha : 1 / 10 ^ 6 ≤ a)
    (hb : S.basis = chainBasis a) (hp : S.positions = [fun _ => p]) {cells : List (Fin 1 → ℤ)}
    {M : ℕ} (hcells : ∀ n, n ∈ cells ↔ |n 0| ≤ (M : ℤ)) :
    S.levels cells 0 0 = (List.range M).map fun j : ℕ => npRound 6 (((j + 1 : ℕ) : ℝ) * a) := by
  have ha0 : 0 < a := lt_of_lt_of_le (by positivity) ha
  unfold levels
  refine npUnique_eq ?_ ?_
  · rw [List.pairwise_map]
    exact List.pairwise_lt_range.imp fun hij => chain_round ha (Nat.succ_lt_succ hij)
  · intro x
    simp only [List.mem_map, List.mem_range, List.mem_filter, decide_eq_true_eq]
    have hpos : ∀ j : ℕ, npRound 6 ((j : ℝ) * a) ≠ 0 ↔ j ≠ 0 := by
      intro j
      constructor
      · rintro h rfl; simp [npRound_zero] at h
      · intro h
        have := chain_round ha (Nat.pos_of_ne_zero h)
        simp only [Nat.cast_zero, zero_mul, npRound_zero] at this
        exact this.ne'
    constructor
    · rintro ⟨j, hj, rfl⟩
      refine ⟨⟨fun _ => ((j + 1 : ℕ) : ℤ), ?_, ?_⟩, (hpos (j + 1)).2 (by omega)⟩
      · rw [hcells, Int.abs_eq_natAbs]; omega
      · rw [chain_siteDist ha0 hb hp]; rfl
    · rintro ⟨⟨n, hn, rfl⟩, hx⟩
      rw [chain_siteDist ha0 hb hp] at hx ⊢
      rw [hpos] at hx
      rw [hcells, Int.abs_eq_natAbs] at hn
      refine ⟨(n 0).natAbs - 1, by omega, ?_⟩
      congr 3
      omega

/-- The neighbours found for a chain with lattice constant at least `1e-6`. -/
theorem chain_base {S : Structure 1 ℝ} {a p : ℝ} (ha : 1 / 10 ^ 6 ≤ a)
    (hb : S.basis = chainBasis a) (hp : S.positions = [fun _ => p]) (hn : S.numBase = 1)
    {cells : List (Fin 1 → ℤ)} {nb : ℕ} {c : ConnMatrix} (hc : c.entry 0 0 = nb)
    (hcells : ∀ n, n ∈ cells ↔ |n 0| ≤ 2 * (nb : ℤ) + 1) {A : Analysis 1 ℝ} {m : ℕ}
    (hI : IsAnalysis S cells m c A) :
    ∃ D, A.base = [D] ∧ D.WF ∧ D.pairs.Nodup ∧ ∀ x idx, (x, idx) ∈ D.pairs ↔
      ∃ j : ℕ, 1 ≤ j ∧ j ≤ nb ∧ x = npRound 6 ((j : ℝ) * a) ∧
        (idx = Idx.mk (fun _ => (j : ℤ)) 0 ∨ idx = Idx.mk (fun _ => -(j : ℤ)) 0) := by
  have ha0 : 0 < a := lt_of_lt_of_le (by positivity) ha
  have hlen := hI.base_length
  rw [hn] at hlen
  obtain ⟨D, hD⟩ := List.length_eq_one_iff.1 hlen
  obtain ⟨h1, h2, h3⟩ := hI.base 0 D (by rw [hD]; rfl)
  refine ⟨D, hD, h1, h2, ?_⟩
  intro x idx
  rw [h3]
  have hcells' : ∀ n, n ∈ cells ↔ |n 0| ≤ ((2 * nb + 1 : ℕ) : ℤ) := by
    intro n; rw [hcells n]; push_cast; rfl
  have hmem : ∀ j : ℕ, npRound 6 ((j : ℝ) * a) ∈ (S.levels cells 0 0).take (c.entry 0 0) ↔
      1 ≤ j ∧ j ≤ nb := by
    intro j
    rw [chain_siteLevels ha hb hp hcells', hc, ← List.map_take, List.take_range,
      min_eq_left (by omega : nb ≤ 2 * nb + 1)]
    simp only [List.mem_map, List.mem_range]
    constructor
    · rintro ⟨i, hi, h⟩
      have : i + 1 = j := by
        rcases lt_trichotomy (i + 1) j with h' | h' | h'
        · exact absurd h (chain_round ha h').ne
        · exact h'
        · exact absurd h (chain_round ha h').ne'
      omega
    · rintro ⟨h, h'⟩
      exact ⟨j - 1, by omega, by rw [Nat.sub_add_cancel h]⟩
  constructor
  · rintro ⟨b, hb', n, hncell, rfl, rfl, hx⟩
    rw [hn] at hb'
    have : b = 0 := by omega
    subst this
    rw [chain_siteDist ha0 hb hp, hmem] at hx
    refine ⟨(n 0).natAbs, hx.1, hx.2, chain_siteDist ha0 hb hp n, ?_⟩
    have hn0 : ∀ z : ℤ, n 0 = z → n = fun _ => z := by
      intro z hz; funext k; rw [Subsingleton.elim k 0, hz]
    rcases Int.natAbs_eq (n 0) with h | h
    · left; rw [← hn0 _ h]; rfl
    · right; rw [← hn0 _ h]; rfl
  · rintro ⟨j, hj1, hj2, rfl, h⟩
    have key : ∀ z : ℤ, z.natAbs = j → ∃ b < S.numBase, ∃ n ∈ cells,
        Idx.mk (fun _ => z) 0 = Idx.mk n (b : ℤ) ∧ npRound 6 ((j : ℝ) * a) = S.siteDist 0 b n ∧
        npRound 6 ((j : ℝ) * a) ∈ (S.levels cells 0 b).take (c.entry 0 b) := by
      intro z hz
      refine ⟨0, by omega, fun _ => z, ?_, rfl, ?_, (hmem j).2 ⟨hj1, hj2⟩⟩
      · rw [hcells, Int.abs_eq_natAbs]; omega
      · rw [chain_siteDist ha0 hb hp, hz]
    rcases h with rfl | rfl
    · exact key _ (by omega)
    · exact key _ (by omega)

/-- A neighbour query of a chain. -/
theorem exists_chain_neighbors (env : Env ℝ) {a : ℝ} (ha : 1 / 10 ^ 6 ≤ a) (p : ℝ) :
    ∃ (w : World 1 ℝ), Reachable env w ∧ w.struct.basis = chainBasis a ∧
      w.struct.positions = [fun _ => p] ∧ w.struct.analysis ≠ none ∧
      ∃ l, w.struct.getNeighbors 0 0 0 = .ok l := by
  have ha0 : 0 < a := lt_of_lt_of_le (by positivity) ha
  obtain ⟨w, A, cells, c, hr, hb, hp, hn, -, -, -, hc, hA, hI, hcells, -⟩ :=
    exists_chain env ha0 p Nat.one_pos
  obtain ⟨D, hD, hwf, -, hpairs⟩ := chain_base ha hb hp hn hc hcells hI
  refine ⟨w, hr, hb, hp, by rw [hA]; simp, ?_⟩
  have hmem : (npRound 6 ((1 : ℕ) * a), Idx.mk (fun _ => ((1 : ℕ) : ℤ)) 0) ∈ D.pairs :=
    (hpairs _ _).2 ⟨1, le_rfl, le_rfl, rfl, Or.inl rfl⟩
  have hne : D.sortedKeys ≠ [] := by
    intro h
    have h1 := List.length_insertionSort (· ≤ ·) D.keys
    unfold NDict.sortedKeys at h
    rw [h] at h1
    obtain ⟨xs, hxs, -⟩ := NDict.mem_pairs.1 hmem
    have : D.keys = [] := List.length_eq_zero_iff.1 h1.symm
    have h2 : npRound 6 ((1 : ℕ) * a) ∈ D.keys := List.mem_map.2 ⟨_, hxs, rfl⟩
    rw [this] at h2
    cases h2
  obtain ⟨x, hx⟩ : ∃ x, D.sortedKeys[0]? = some x := by
    cases h : D.sortedKeys with
    | nil => exact absurd h hne
    | cons x xs => exact ⟨x, rfl⟩
  have hxk : x ∈ D.keys := by
    have : x ∈ D.sortedKeys := List.mem_of_getElem? hx
    unfold NDict.sortedKeys at this
    rwa [List.mem_insertionSort] at this
  obtain ⟨⟨x', xs⟩, hxs, hxx⟩ := List.mem_map.1 hxk
  dsimp only at hxx
  subst hxx
  unfold getNeighbors
  rw [hA]
  have h1 : pyGet A.base 0 = some D := pyGet_eq_some.2 ⟨0, Or.inl rfl, by rw [hD]; rfl⟩
  have h2 : pyGet D.sortedKeys 0 = some x' := pyGet_eq_some.2 ⟨0, Or.inl rfl, hx⟩
  dsimp only
  rw [h1]
  dsimp only
  rw [h2]
  dsimp only
  rw [(NDict.get?_eq_some hwf.1).2 hxs]
  exact ⟨_, rfl⟩

/-! ## C35 -/

/-- `get_neighbors(n, alpha, k)` is `get_neighbors(0, alpha, k)` with the cells shifted by `n`, in
the same order; it raises in the same cases. -/
theorem C35_neighbors_covariant (S : Structure d ℝ) (n : Fin d → ℤ) (α k : ℤ) :
    (∀ l, S.getNeighbors 0 α k = .ok l →
      S.getNeighbors n α k = .ok (l.map fun idx => Idx.mk (fun q => idx.cell q + n q) idx.alpha)) ∧
    (∀ e, S.getNeighbors 0 α k = .error e ↔ S.getNeighbors n α k = .error e) := by
  unfold getNeighbors
  cases S.analysis with
  | none => simp
  | some A =>
    dsimp only
    cases pyGet A.base α with
    | none => simp
    | some D =>
      dsimp only
      cases pyGet D.sortedKeys k with
      | none => simp
      | some x =>
        dsimp only
        cases D.get? x with
        | none => simp
        | some idxs =>
          dsimp only
          refine ⟨?_, by simp⟩
          intro l hl
          simp only [Except.ok.injEq] at hl
          subst hl
          congr 1
          rw [List.map_map]
          refine List.map_congr_left ?_
          intro idx _
          simp [shiftIdx]

/-- `get_neighbor_positions(n, alpha, k)` lists the positions of exactly the sites of
`get_neighbors(n, alpha, k)`, in this order, and all of them have the same positive rounded distance
from the site `(n, alpha)`; the sites are distinct and there is at least one. -/
theorem C35_neighbor_positions (hd : 0 < d) {env : Env ℝ} {w : World d ℝ} (h : Reachable env w)
    (n : Fin d → ℤ) (α k : ℤ) {l : List (Idx d)} (hl : w.struct.getNeighbors n α k = .ok l) :
    ∃ (ps : List (Vec d ℝ)) (p0 : Vec d ℝ) (x : ℝ),
      w.struct.getNeighborPositions n α k = .ok ps ∧
      List.Forall₂ (IsSitePos w.struct) l ps ∧ l.Nodup ∧ l ≠ [] ∧
      w.struct.getPosition (some n) α = .ok p0 ∧ 0 < x ∧
      ∀ p ∈ ps, distance p p0 (some 6) = x := by
  have hS := h.good hd
  obtain ⟨A, a, D, x, pa, -, ha, hab, -, hpa, -, -, hnd, hne, hx, hall⟩ := getNeighbors_info hS hl
  refine ⟨l.map fun idx => w.struct.basis.translate idx.cell (w.struct.posOf idx.alpha.toNat),
    w.struct.basis.translate n pa, x, ?_, ?_, hnd, hne, ?_, hx, ?_⟩
  · unfold getNeighborPositions
    rw [hl]
    dsimp only
    unfold getPositions
    apply mapM_ok
    intro idx hidx
    obtain ⟨b, hb, hα, -⟩ := hall idx hidx
    have h1 : w.struct.positions[b]? = some (w.struct.posOf b) := by
      rw [List.getElem?_eq_getElem (by rw [hS.positions_length]; exact hb),
        posOf_eq (List.getElem?_eq_getElem _)]
    have h2 : pyGet w.struct.positions idx.alpha = some (w.struct.posOf b) :=
      pyGet_eq_some.2 ⟨b, Or.inl hα, h1⟩
    rw [h2]
    simp [hα]
  · rw [List.forall₂_map_right_iff, List.forall₂_same]
    intro idx hidx
    obtain ⟨b, hb, hα, -⟩ := hall idx hidx
    have h1 : w.struct.positions[b]? = some (w.struct.posOf b) := by
      rw [List.getElem?_eq_getElem (by rw [hS.positions_length]; exact hb),
        posOf_eq (List.getElem?_eq_getElem _)]
    refine ⟨b, w.struct.posOf b, hα, h1, ?_⟩
    rw [LatticeBasis.translate_eq, hα]
    simp
  · have : pyGet w.struct.positions α = some pa :=
      pyGet_eq_some.2 ⟨a, by rw [hS.positions_length]; exact ha, hpa⟩
    unfold getPosition
    rw [this]
    rfl
  · intro p hp
    obtain ⟨idx, hidx, rfl⟩ := List.mem_map.1 hp
    obtain ⟨b, hb, hα, hdist⟩ := hall idx hidx
    rw [distance_some, ← hdist, hα]
    simp

/-- The neighbours of the site of cell 7 of a chain whose atom is not at the origin. -/
example (env : Env ℝ) : ∃ (w : World 1 ℝ) (l : List (Idx 1)), Reachable env w ∧
    w.struct.positions = [fun _ => 1 / 2] ∧ w.struct.getNeighbors (fun _ => 7) 0 0 = .ok l := by
  obtain ⟨w, hr, -, hp, -, l, hl⟩ := exists_chain_neighbors env (a := 1) (by norm_num) (1 / 2)
  exact ⟨w, _, hr, hp, (C35_neighbors_covariant w.struct (fun _ => 7) 0 0).1 l hl⟩

/-- Higher `distidx` means larger distance. -/
theorem C35_levels_increasing (hd : 0 < d) {env : Env ℝ} {w : World d ℝ} (h : Reachable env w)
    (n : Fin d → ℤ) (α : ℤ) {k k' : ℕ} (hk : k < k') {ps ps' : List (Vec d ℝ)} {p0 : Vec d ℝ}
    (hps : w.struct.getNeighborPositions n α k = .ok ps)
    (hps' : w.struct.getNeighborPositions n α k' = .ok ps')
    (hp0 : w.struct.getPosition (some n) α = .ok p0) {p p' : Vec d ℝ} (hp : p ∈ ps) (hp' : p' ∈ ps') :
    distance p p0 (some 6) < distance p' p0 (some 6) := by
  have hS := h.good hd
  have key : ∀ (k : ℕ) ps, w.struct.getNeighborPositions n α k = .ok ps → ∃ l,
      w.struct.getNeighbors n α k = .ok l ∧ w.struct.getPositions l = .ok ps := by
    intro k ps hps
    unfold getNeighborPositions at hps
    split at hps
    · cases hps
    · rename_i l hl
      exact ⟨l, hl, hps⟩
  -- distance of a listed position
  have key2 : ∀ (k : ℕ) ps, w.struct.getNeighborPositions n α k = .ok ps →
      ∃ (A : Analysis d ℝ) (a : ℕ) (D : NDict d ℝ) (x : ℝ),
      w.struct.analysis = some A ∧ (α = a ∨ α = (a : ℤ) - w.struct.numBase) ∧
      a < w.struct.numBase ∧ A.base[a]? = some D ∧ NDict.WF D ∧ pyGet D.sortedKeys k = some x ∧
      ∀ p ∈ ps, distance p p0 (some 6) = x := by
    intro k ps hps
    obtain ⟨l, hl, hg⟩ := key k ps hps
    obtain ⟨A, a, D, x, pa, h1, h2, h3, h4, h5, h6, h7, -, -, -, hall⟩ := getNeighbors_info hS hl
    refine ⟨A, a, D, x, h1, h2, h3, h4, h7, h6, ?_⟩
    have hpa : w.struct.getPosition (some n) α = .ok (w.struct.basis.translate n pa) := by
      have : pyGet w.struct.positions α = some pa :=
        pyGet_eq_some.2 ⟨a, by rw [hS.positions_length]; exact h2, h5⟩
      unfold getPosition
      rw [this]
      rfl
    rw [hp0] at hpa
    simp only [Except.ok.injEq] at hpa
    subst hpa
    have hps2 : w.struct.getPositions l = .ok (l.map fun idx =>
        w.struct.basis.translate idx.cell (w.struct.posOf idx.alpha.toNat)) := by
      unfold getPositions
      apply mapM_ok
      intro idx hidx
      obtain ⟨b, hb, hα, -⟩ := hall idx hidx
      have h1 : w.struct.positions[b]? = some (w.struct.posOf b) := by
        rw [List.getElem?_eq_getElem (by rw [hS.positions_length]; exact hb),
          posOf_eq (List.getElem?_eq_getElem _)]
      have h2 : pyGet w.struct.positions idx.alpha = some (w.struct.posOf b) :=
        pyGet_eq_some.2 ⟨b, Or.inl hα, h1⟩
      rw [h2]
      simp [hα]
    rw [hg] at hps2
    simp only [Except.ok.injEq] at hps2
    subst hps2
    intro p hp
    obtain ⟨idx, hidx, rfl⟩ := List.mem_map.1 hp
    obtain ⟨b, hb, hα, hdist⟩ := hall idx hidx
    rw [distance_some, ← hdist, hα]
    simp
  obtain ⟨A, a, D, x, e1, e2, e3, e4, e5, e6, e7⟩ := key2 k ps hps
  obtain ⟨A', a', D', x', f1, f2, f3, f4, -, f6, f7⟩ := key2 k' ps' hps'
  rw [e1] at f1
  cases f1
  have haa : a = a' := by omega
  subst haa
  rw [e4] at f4
  cases f4
  rw [e7 p hp, f7 p' hp']
  have hsorted : D.sortedKeys.Pairwise (· < ·) := by
    have h1 : D.sortedKeys = npUnique D.keys := by
      unfold NDict.sortedKeys npUnique
      rw [List.Nodup.dedup e5.1]
    rw [h1]; exact npUnique_pairwise_lt _
  obtain ⟨j, hj, hjx⟩ := pyGet_eq_some.1 e6
  obtain ⟨j', hj', hjx'⟩ := pyGet_eq_some.1 f6
  obtain ⟨hjl, hjx⟩ := List.getElem?_eq_some_iff.1 hjx
  obtain ⟨hjl', hjx'⟩ := List.getElem?_eq_some_iff.1 hjx'
  have : j < j' := by omega
  rw [← hjx, ← hjx']
  exact List.pairwise_iff_getElem.1 hsorted j j' hjl hjl' this

/-- The queries raise exactly if the structure has not been analysed, or the atom number or the
distance number is out of range (negative numbers count from the end). -/
theorem C35_errors (hd : 0 < d) {env : Env ℝ} {w : World d ℝ} (h : Reachable env w)
    (n : Fin d → ℤ) (α k : ℤ) :
    (w.struct.analysis = none → w.struct.getNeighbors n α k = .error .notAnalyzed) ∧
    ∀ A, w.struct.analysis = some A →
      ((∃ l, w.struct.getNeighbors n α k = .ok l) ↔ ∃ (a j : ℕ) (D : NDict d ℝ),
        A.base[a]? = some D ∧ (α = a ∨ α = (a : ℤ) - w.struct.numBase) ∧
        j < D.length ∧ (k = j ∨ k = (j : ℤ) - D.length)) := by
  constructor
  · intro h; simp [getNeighbors, h]
  · intro A hA
    obtain ⟨cells, m, c, -, -, -, -, -, hI⟩ := (h.good hd).analysis A hA
    rw [← hI.base_length]
    have hwf : ∀ D ∈ A.base, NDict.WF D := by
      intro D hD
      obtain ⟨a, ha⟩ := List.getElem?_of_mem hD
      exact (hI.base a D ha).1
    have hlen : ∀ D : NDict d ℝ, D.sortedKeys.length = D.length := by
      intro D; simp [NDict.sortedKeys, NDict.keys]
    unfold getNeighbors
    rw [hA]
    dsimp only
    constructor
    · rintro ⟨l, hl⟩
      split at hl
      · cases hl
      · rename_i D hD
        split at hl
        · cases hl
        · rename_i x hx
          obtain ⟨a, ha, hDa⟩ := pyGet_eq_some.1 hD
          obtain ⟨j, hj, hjx⟩ := pyGet_eq_some.1 hx
          rw [hlen] at hj
          exact ⟨a, j, D, hDa, ha, by rw [← hlen]; exact (List.getElem?_eq_some_iff.1 hjx).1, hj⟩
    · rintro ⟨a, j, D, hDa, ha, hjl, hj⟩
      rw [pyGet_eq_some.2 ⟨a, ha, hDa⟩]
      dsimp only
      rw [pyGet_eq_some.2 ⟨j, by rw [hlen]; exact hj, List.getElem?_eq_getElem (by rw [hlen]; exact hjl)⟩]
      dsimp only
      set x := D.sortedKeys[j]'(by rw [hlen]; exact hjl) with hx
      have hxk : x ∈ D.keys := by
        have : x ∈ D.sortedKeys := List.getElem_mem _
        unfold NDict.sortedKeys at this
        rwa [List.mem_insertionSort] at this
      obtain ⟨⟨x', xs⟩, hp, hxx⟩ := List.mem_map.1 hxk
      dsimp only at hxx
      subst hxx
      rw [(NDict.get?_eq_some (hwf D (List.mem_of_getElem? hDa)).1).2 hp]
      exact ⟨_, rfl⟩

/-! ## C36 -/

/-- What `get_neighbor_vectors(alpha, distidx)` returns for a valid query. -/
theorem getNeighborVectors_ok (hd : 0 < d) {env : Env ℝ} {w : World d ℝ} (h : Reachable env w)
    (α k : ℤ) {l : List (Idx d)} (hl : w.struct.getNeighbors 0 α k = .ok l) :
    ∃ (ps : List (Vec d ℝ)) (p0 : Vec d ℝ) (x : ℝ),
      w.struct.getNeighborPositions 0 α k = .ok ps ∧ w.struct.getPosition none α = .ok p0 ∧
      0 < x ∧ ps.length = l.length ∧ ps ≠ [] ∧
      (∀ z, w.struct.getNeighborVectors α k z =
        .ok ((if z then 0 :: ps else ps).map fun p => p - p0)) ∧
      ∀ p ∈ ps, npRound 6 (norm2 (p - p0)) = x := by
  obtain ⟨ps, p0, x, h1, h2, -, hne, h3, h4, h5⟩ := C35_neighbor_positions hd h 0 α k hl
  have hA : ∃ A, w.struct.analysis = some A := by
    obtain ⟨A, -, -, -, -, hA, -⟩ := getNeighbors_info (h.good hd) hl
    exact ⟨A, hA⟩
  obtain ⟨A, hA⟩ := hA
  have hp0 : pyGet w.struct.positions α = some p0 := by
    unfold getPosition at h3
    split at h3
    · cases h3
    · rename_i r hr
      simp only [Except.ok.injEq] at h3
      rw [hr]
      congr 1
      rw [← h3]
      funext i
      simp [Matrix.mulVec, dotProduct]
  refine ⟨ps, p0, x, h1, by simp [getPosition, hp0], h4, h2.length_eq.symm, ?_, ?_, ?_⟩
  · intro h
    rw [h] at h2
    cases h2
    exact hne rfl
  · intro z
    unfold getNeighborVectors
    rw [hA]
    dsimp only
    rw [hp0, h1]
  · intro p hp
    rw [← h5 p hp, distance_some, distance_eq_dist, norm2_eq_norm, dist_eq_norm]
    rfl

/-- C36, what holds: without `include_zero` the vectors are the differences between the positions
of the neighbours and of the atom, in the order of the neighbours, and their rounded lengths all
agree; with `include_zero` the zero vector comes first if the atom is at the origin. -/
theorem C36_neighbor_vectors_partial (hd : 0 < d) {env : Env ℝ} {w : World d ℝ}
    (h : Reachable env w) (α k : ℤ) {l : List (Idx d)}
    (hl : w.struct.getNeighbors 0 α k = .ok l) :
    ∃ (ps vs : List (Vec d ℝ)) (p0 : Vec d ℝ) (x : ℝ),
      w.struct.getNeighborPositions 0 α k = .ok ps ∧ w.struct.getPosition none α = .ok p0 ∧
      w.struct.getNeighborVectors α k false = .ok vs ∧
      List.Forall₂ (fun p v => ∀ i, p0 i + v i = p i) ps vs ∧ vs.length = l.length ∧
      0 < x ∧ (∀ v ∈ vs, npRound 6 (norm2 v) = x) ∧
      (p0 = 0 → w.struct.getNeighborVectors α k true = .ok (0 :: vs)) := by
  obtain ⟨ps, p0, x, h1, h2, hx, hlen, -, h3, h4⟩ := getNeighborVectors_ok hd h α k hl
  refine ⟨ps, ps.map fun p => p - p0, p0, x, h1, h2, h3 false, ?_, by simp [hlen], hx, ?_, ?_⟩
  · rw [List.forall₂_map_right_iff, List.forall₂_same]
    intro p _ i
    simp
  · intro v hv
    obtain ⟨p, hp, rfl⟩ := List.mem_map.1 hv
    exact h4 p hp
  · rintro rfl
    rw [h3 true]
    simp

/-- The chain with its atom at the origin. -/
example (env : Env ℝ) : ∃ (w : World 1 ℝ) (l : List (Idx 1)), Reachable env w ∧
    w.struct.positions = [fun _ => 0] ∧ w.struct.getNeighbors 0 0 0 = .ok l := by
  obtain ⟨w, hr, -, hp, -, l, hl⟩ := exists_chain_neighbors env (a := 1) (by norm_num) 0
  exact ⟨w, l, hr, hp, hl⟩

/-- C36 fails: with `include_zero` the first vector is minus the position of the atom instead of the
zero vector, because the zero is inserted before the position is subtracted (structure.py 848-853):
for the chain with its atom at 1/2 it is -1/2. -/
theorem C36_include_zero_fails (env : Env ℝ) :
    ∃ (w : World 1 ℝ) (v : Vec 1 ℝ) (vs : List (Vec 1 ℝ)), Reachable env w ∧
      w.struct.positions = [fun _ => 1 / 2] ∧
      w.struct.getNeighborVectors 0 0 true = .ok (v :: vs) ∧ v 0 = -1 / 2 ∧
      0 ∉ v :: vs := by
  obtain ⟨w, hr, -, hp, -, l, hl⟩ := exists_chain_neighbors env (a := 1) (by norm_num) (1 / 2)
  obtain ⟨ps, p0, x, -, h2, hx, -, -, h3, h4⟩ := getNeighborVectors_ok Nat.one_pos hr 0 0 hl
  have hp0 : p0 = fun _ => 1 / 2 := by
    simpa [getPosition, hp, pyGet] using h2.symm
  refine ⟨w, 0 - p0, ps.map fun p => p - p0, hr, hp, h3 true, ?_, ?_⟩
  · rw [hp0]; norm_num
  · intro hmem
    rcases List.mem_cons.1 hmem with h | h
    · have := congrFun h 0
      rw [hp0] at this
      norm_num at this
    · obtain ⟨p, hpm, h⟩ := List.mem_map.1 h
      have := h4 p hpm
      rw [h] at this
      rw [norm2_one] at this
      simp [npRound_zero] at this
      linarith

/-! ## C37 -/

/-- `get_position(n, alpha)` is the position of the atom plus the lattice vector of `n`; negative
atom numbers count from the end, other numbers raise an `IndexError`. -/
theorem C37_get_position (S : Structure d ℝ) (n : Fin d → ℤ) (α : ℤ) :
    (∀ (b : ℕ) (r : Vec d ℝ), S.positions[b]? = some r →
      (α = b ∨ α = (b : ℤ) - S.positions.length) →
      ∃ p, S.getPosition (some n) α = .ok p ∧ S.basis.translate n r = p ∧
        (∀ k, p k = r k + ∑ i, (n i : ℝ) * S.basis.vectors i k) ∧ S.getPosition none α = .ok r) ∧
    (α < -S.positions.length ∨ (S.positions.length : ℤ) ≤ α →
      S.getPosition (some n) α = .error .index ∧ S.getPosition none α = .error .index) := by
  constructor
  · intro b r hr hα
    have h1 : pyGet S.positions α = some r := pyGet_eq_some.2 ⟨b, hα, hr⟩
    refine ⟨S.basis.translate n r, ?_, rfl, ?_, ?_⟩
    · unfold getPosition; rw [h1]; rfl
    · intro k; rw [LatticeBasis.translate_eq]
    · unfold getPosition; rw [h1]
  · intro h
    have := pyGet_eq_none.2 h
    simp [getPosition, this]

example : ∃ S : Structure 1 ℝ, S = ⟨chainBasis 1, [], [fun _ => 0, fun _ => 1 / 2], false, 2, none, none⟩ ∧
    S.positions[1]? = some (fun _ => 1 / 2) ∧ (-1 : ℤ) = (1 : ℤ) - S.positions.length :=
  ⟨_, rfl, rfl, rfl⟩

/-- `get_positions` lists what `get_position` returns for each index; it raises iff one of these
calls raises. -/
theorem C37_get_positions (S : Structure d ℝ) (indices : List (Idx d)) :
    (∀ ps, S.getPositions indices = .ok ps ↔
      List.Forall₂ (fun idx p => S.getPosition (some idx.cell) idx.alpha = .ok p) indices ps) ∧
    (∀ e, S.getPositions indices = .error e →
      e = .index ∧ ∃ idx ∈ indices, S.getPosition (some idx.cell) idx.alpha = .error .index) := by
  have hone : ∀ l : List (Idx d), S.getPositions l =
      l.mapM (fun idx : Idx d => S.getPosition (some idx.cell) idx.alpha) := by
    intro l
    unfold getPositions
    congr 1
    funext idx
    unfold getPosition
    cases pyGet S.positions idx.alpha <;> rfl
  rw [hone]
  induction indices with
  | nil =>
    constructor
    · intro ps
      simp only [List.mapM_nil, List.forall₂_nil_left_iff]
      constructor
      · intro h; cases h; rfl
      · rintro rfl; rfl
    · intro e he; cases he
  | cons idx rest ih =>
    rw [List.mapM_cons]
    cases h1 : S.getPosition (some idx.cell) idx.alpha with
    | error e1 =>
      have he1 : e1 = .index := by
        unfold getPosition at h1
        split at h1 <;> simp_all
      subst he1
      constructor
      · intro ps
        constructor
        · intro h; cases h
        · intro h
          cases h with
          | cons h _ => rw [h1] at h; cases h
      · intro e he
        cases he
        exact ⟨rfl, idx, by simp, h1⟩
    | ok p =>
      cases h2 : rest.mapM (fun idx : Idx d => S.getPosition (some idx.cell) idx.alpha) with
      | error e1 =>
        obtain ⟨he1, i, hi, hi2⟩ := ih.2 e1 h2
        subst he1
        constructor
        · intro ps
          constructor
          · intro h; cases h
          · intro h
            cases h with
            | cons _ h =>
              have := (ih.1 _).2 h
              rw [h2] at this; cases this
        · intro e he
          cases he
          exact ⟨rfl, i, by simp [hi], hi2⟩
      | ok qs =>
        constructor
        · intro ps
          constructor
          · intro h
            cases h
            exact List.Forall₂.cons h1 ((ih.1 _).1 h2)
          · intro h
            cases h with
            | cons ha hb =>
              rw [h1] at ha
              cases ha
              have := (ih.1 _).2 hb
              rw [h2] at this
              cases this
              rfl
        · intro e he; cases he

/-- Distinct indices of existing atoms have distinct positions if no two atoms of the unit cell
differ by a lattice vector. -/
theorem C37_positions_distinct (hd : 0 < d) {env : Env ℝ} {w : World d ℝ} (h : Reachable env w)
    (hdist : ∀ (a b : ℕ) (ra rb : Vec d ℝ), w.struct.positions[a]? = some ra →
      w.struct.positions[b]? = some rb →
      (∃ z : Fin d → ℤ, ∀ k, ra k - rb k = ∑ i, (z i : ℝ) * w.struct.basis.vectors i k) → a = b)
    (n n' : Fin d → ℤ) (a a' : ℕ) {p : Vec d ℝ}
    (h1 : w.struct.getPosition (some n) a = .ok p)
    (h2 : w.struct.getPosition (some n') a' = .ok p) : n = n' ∧ a = a' := by
  obtain ⟨rows, hb⟩ := (h.good hd).basis
  have key : ∀ (n : Fin d → ℤ) (a : ℕ), w.struct.getPosition (some n) a = .ok p →
      ∃ r, w.struct.positions[a]? = some r ∧ w.struct.basis.translate n r = p := by
    intro n a h1
    unfold getPosition at h1
    split at h1
    · cases h1
    · rename_i r hr
      simp only [Except.ok.injEq] at h1
      refine ⟨r, ?_, h1⟩
      unfold pyGet at hr
      rwa [if_pos (by omega), Int.toNat_natCast] at hr
  obtain ⟨r, hr, e1⟩ := key n a h1
  obtain ⟨r', hr', e2⟩ := key n' a' h2
  have hsum : ∀ k, r k - r' k = ∑ i, ((n' i - n i : ℤ) : ℝ) * w.struct.basis.vectors i k := by
    intro k
    have := congrFun (e1.trans e2.symm) k
    rw [LatticeBasis.translate_eq, LatticeBasis.translate_eq] at this
    simp only [Int.cast_sub, sub_mul, Finset.sum_sub_distrib]
    linarith
  have haa : a = a' := hdist a a' r r' hr hr' ⟨fun i => n' i - n i, hsum⟩
  subst haa
  rw [hr] at hr'
  cases hr'
  refine ⟨?_, rfl⟩
  have h3 := congrArg w.struct.basis.itransform (e1.trans e2.symm)
  rw [LatticeBasis.itransform_translate hb, LatticeBasis.itransform_translate hb] at h3
  funext i
  have := congrFun h3 i
  simpa using this

/-- The hypothesis holds for a chain with one atom. -/
example (env : Env ℝ) : ∃ (w : World 1 ℝ), Reachable env w ∧
    ∀ (a b : ℕ) (ra rb : Vec 1 ℝ), w.struct.positions[a]? = some ra →
      w.struct.positions[b]? = some rb → a = b := by
  obtain ⟨w, hr, -, hp, -⟩ := exists_chain_neighbors env (a := 1) (by norm_num) 0
  refine ⟨w, hr, ?_⟩
  intro a b ra rb ha hb
  have h1 := (List.getElem?_eq_some_iff.1 ha).1
  have h2 := (List.getElem?_eq_some_iff.1 hb).1
  rw [hp] at h1 h2
  simp at h1 h2
  omega

/-- `estimate_index` finds the cell of every point whose basis coordinates are less than half away
from those of a lattice point, in particular of the lattice points themselves. -/
theorem C37_estimate_index (hd : 0 < d) {env : Env ℝ} {w : World d ℝ} (h : Reachable env w)
    (n : Fin d → ℤ) (t : Vec d ℝ) (ht : ∀ i, |t i| < 1 / 2) :
    w.struct.estimateIndex
      (fun k => ∑ i, ((n i : ℝ) + t i) * w.struct.basis.vectors i k) = n := by
  obtain ⟨rows, hb⟩ := (h.good hd).basis
  have hx : (fun k => ∑ i, ((n i : ℝ) + t i) * w.struct.basis.vectors i k) =
      w.struct.basis.transform (fun i => (n i : ℝ) + t i) := by
    funext k
    simp only [LatticeBasis.transform, Matrix.mulVec, dotProduct, LatticeBasis.vectors,
      Matrix.transpose_apply]
    exact Finset.sum_congr rfl fun i _ => mul_comm _ _
  funext i
  unfold estimateIndex
  have h1 := LatticeBasis.itransform_transform hb (fun i => (n i : ℝ) + t i)
  rw [hx]
  change rint (w.struct.basis.itransform _ i) = n i
  rw [h1]
  change rint ((n i : ℝ) + t i) = n i
  have h2 := abs_le.1 (abs_rint_sub_le ((n i : ℝ) + t i))
  have h3 := abs_lt.1 (ht i)
  have h4 : ((n i : ℝ) - 1) < (rint ((n i : ℝ) + t i) : ℝ) := by linarith
  have h5 : (rint ((n i : ℝ) + t i) : ℝ) < (n i : ℝ) + 1 := by linarith
  have h6 : n i - 1 < rint ((n i : ℝ) + t i) := by exact_mod_cast h4
  have h7 : rint ((n i : ℝ) + t i) < n i + 1 := by exact_mod_cast h5
  omega

example : ∃ t : Vec 2 ℝ, t = ![2 / 5, -2 / 5] ∧ ∀ i, |t i| < 1 / 2 := by
  refine ⟨_, rfl, ?_⟩
  intro i
  fin_cases i <;> norm_num [abs_lt]

/-! ## C38 -/

theorem addAll_ok (env : Env ℝ) (ps : List (Vec d ℝ)) (as : List Atom) :
    ∀ S : Structure d ℝ, S.frozen = false → S.atoms.length = S.positions.length →
    ps.length = as.length → (S.positions ++ ps).Nodup →
    ∃ S', addAll env S (ps.zip as) = .ok S' ∧ S'.basis = S.basis ∧
      S'.atoms = S.atoms ++ as ∧ S'.positions = S.positions ++ ps ∧ S'.analysis = S.analysis ∧
      S'.numBase = (if ps = [] then S.numBase else S.atoms.length + as.length) := by
  induction ps generalizing as with
  | nil =>
    intro S hf hl hlen hnd
    have : as = [] := List.length_eq_zero_iff.1 hlen.symm
    subst this
    exact ⟨S, rfl, by simp⟩
  | cons p ps ih =>
    intro S hf hl hlen hnd
    obtain ⟨a, as', rfl⟩ : ∃ a as', as = a :: as' := by
      cases as with
      | nil => simp at hlen
      | cons a as' => exact ⟨a, as', rfl⟩
    have hp : p ∉ S.positions := by
      intro h
      rw [List.nodup_append] at hnd
      exact hnd.2.2 p h p (by simp) rfl
    have hadd : S.addAtomAt env p a 0 = ({ S with
        atoms := S.atoms ++ [a]
        positions := S.positions ++ [p]
        numBase := S.atoms.length + 1
        conn := some (ConnMatrix.zeros (S.atoms.length + 1)) }, .ok ()) := by
      simp [addAtomAt, hf, hl]
    obtain ⟨S', h1, h2, h3, h4, h5, h6⟩ := ih as' ({ S with
        atoms := S.atoms ++ [a]
        positions := S.positions ++ [p]
        numBase := S.atoms.length + 1
        conn := some (ConnMatrix.zeros (S.atoms.length + 1)) } : Structure d ℝ) hf (by simp [hl])
        (by simpa using hlen) (by simpa using hnd)
    refine ⟨S', ?_, h2, by simp [h3], by simp [h4], h5, ?_⟩
    · simp only [List.zip_cons_cons, addAll]
      rw [if_neg hp, hadd]
      exact h1
    · rw [h6]
      cases ps with
      | nil =>
        have : as' = [] := by simpa using hlen.symm
        simp [this]
      | cons q qs => simp; omega

theorem computeBaseNeighbors_congr (env : Env ℝ) {S S' : Structure d ℝ} (h1 : S'.basis = S.basis)
    (h2 : S'.positions = S.positions) (h3 : S'.numBase = S.numBase) (m : ℕ) :
    computeBaseNeighbors env S' m = computeBaseNeighbors env S m := by
  obtain ⟨b, at1, p1, f1, n1, c1, a1⟩ := S
  obtain ⟨b', at2, p2, f2, n2, c2, a2⟩ := S'
  dsimp only at h1 h2 h3
  subst h1 h2 h3
  rfl

theorem analyze_eq (env : Env ℝ) {S : Structure d ℝ} {c : ConnMatrix} {m : ℕ}
    {raw : List (List (NDict d ℝ))} (hat : S.atoms ≠ []) (hc : S.conn = some c)
    (hz : c.allZero = false) (hm : c.max? = .ok m)
    (hraw : computeBaseNeighbors env S m = .ok raw) :
    S.analyze env = ({ S with frozen := true, analysis := some (analysisOf c raw) }, .ok ()) := by
  simp [analyze, hat, hc, hz, hm, hraw]

/-- `fromdict(todict(s))`: it raises `NoAtomsError` without atoms and `NoConnectionsError` if all
connections are 0; otherwise it has the vectors, atoms, positions and connections of `s`, and its
analysis is what `analyze` computes for `s`. -/
theorem C38_roundtrip (hd : 0 < d) {env : Env ℝ} {w : World d ℝ} (h : Reachable env w)
    (hcons : w.struct.atoms.length = w.struct.numBase) :
    (w.struct.atoms = [] → fromDict env w.struct.toDict = .error .noAtoms) ∧
    (w.struct.atoms ≠ [] → (∀ c, w.struct.conn = some c →
        ∀ i < c.size, ∀ j < c.size, c.entry i j = 0) →
      fromDict env w.struct.toDict = .error .noConnections) ∧
    (∀ c i j, w.struct.conn = some c → i < c.size → j < c.size → c.entry i j ≠ 0 →
      ∃ S' S'', fromDict env w.struct.toDict = .ok S' ∧
        (∀ i k, S'.basis.vectors i k = w.struct.basis.vectors i k) ∧
        S'.atoms = w.struct.atoms ∧ S'.positions = w.struct.positions ∧
        S'.conn = w.struct.conn ∧ S'.numBase = w.struct.numBase ∧
        w.struct.analyze env = (S'', .ok ()) ∧ S'.analysis = S''.analysis ∧
        S'.analysis ≠ none) := by
  have hS := h.good hd
  set S := w.struct with hSd
  obtain ⟨rows, hb⟩ := hS.basis
  have hinit : LatticeBasis.init S.basis.vectors = .ok S.basis := by
    rw [LatticeBasis.init_vectors hb]; exact hb
  obtain ⟨S1, a1, a2, a3, a4, a5, a6⟩ := addAll_ok env S.positions S.atoms (ofBasis S.basis) rfl rfl
    (by rw [hS.positions_length, hcons]) (by simpa [ofBasis] using hS.positions_nodup)
  simp only [ofBasis, List.nil_append] at a2 a3 a4 a5 a6
  have hfdE : ∀ X e, ({ S1 with conn := S.conn } : Structure d ℝ).analyze env = (X, .error e) →
      fromDict env S.toDict = .error e := by
    intro X e hX
    unfold fromDict toDict
    dsimp only
    rw [hinit]
    dsimp only
    rw [a1]
    dsimp only
    rw [hX]
  have hfdO : ∀ X, ({ S1 with conn := S.conn } : Structure d ℝ).analyze env = (X, .ok ()) →
      fromDict env S.toDict = .ok X := by
    intro X hX
    unfold fromDict toDict
    dsimp only
    rw [hinit]
    dsimp only
    rw [a1]
    dsimp only
    rw [hX]
  have hn : S1.numBase = S.numBase := by
    rw [a6]
    split_ifs with h0
    · rw [← hS.positions_length, h0]; rfl
    · simp [hcons]
  refine ⟨?_, ?_, ?_⟩
  · intro h0
    exact hfdE _ _ (by simp only [analyze, a3, h0]; rfl)
  · intro h0 hz
    obtain ⟨c, hc⟩ : ∃ c, S.conn = some c := by
      cases hc : S.conn with
      | none => exact absurd (hS.conn_none hc).2.1 h0
      | some c => exact ⟨c, rfl⟩
    have hall : c.allZero = true := ConnMatrix.allZero_iff.2 (hz c hc)
    refine hfdE ({ S1 with conn := S.conn } : Structure d ℝ) .noConnections ?_
    simp [analyze, a3, h0, hc, hall]
  · intro c i j hc hi hj hne
    rcases analyze_cases hd env hS with ⟨-, h'⟩ | ⟨c', hc', hz, -⟩ |
      ⟨c', cells, m, A, hc', hz, hm, -, -, hok, -⟩
    · rw [hc] at h'; cases h'
    · rw [hc] at hc'
      cases hc'
      exact absurd (ConnMatrix.allZero_iff.1 hz i hi j hj) hne
    · rw [hc] at hc'
      cases hc'
      have hat : S.atoms ≠ [] := by
        intro h0
        have := (hS.conn_size c hc).2
        rw [← hcons, h0] at this
        simp at this
      have hcomp : computeBaseNeighbors env ({ S1 with conn := S.conn } : Structure d ℝ) m =
          computeBaseNeighbors env S m := computeBaseNeighbors_congr env a2 a4 hn m
      have hraw : ∃ raw, computeBaseNeighbors env S m = .ok raw ∧ A = analysisOf c raw := by
        unfold analyze at hok
        simp only [List.isEmpty_iff, hat, if_false, hc, hz, Bool.false_eq_true, hm] at hok
        cases hcb : computeBaseNeighbors env S m with
        | error e => rw [hcb] at hok; simp at hok
        | ok raw =>
          rw [hcb] at hok
          simp only [Prod.mk.injEq, and_true] at hok
          refine ⟨raw, rfl, ?_⟩
          have := congrArg Structure.analysis hok
          simpa using this.symm
      obtain ⟨raw, hraw, rfl⟩ := hraw
      have hres : ({ S1 with conn := S.conn } : Structure d ℝ).analyze env =
          ({ S1 with
            conn := S.conn
            frozen := true
            analysis := some (analysisOf c raw) }, .ok ()) := by
        have hat1 : S1.atoms ≠ [] := by rw [a3]; exact hat
        exact analyze_eq env hat1 hc hz hm (hcomp.trans hraw)
      refine ⟨_, _, hfdO _ hres, ?_, a3, a4, rfl, hn, hok, rfl, by simp⟩
      intro i k
      change S1.basis.vectors i k = _
      rw [a2]

/-- A chain is a consistent structure with connections. -/
example (env : Env ℝ) : ∃ (w : World 1 ℝ) (c : ConnMatrix), Reachable env w ∧
    w.struct.atoms.length = w.struct.numBase ∧ w.struct.conn = some c ∧ 0 < c.size ∧
    c.entry 0 0 ≠ 0 := by
  obtain ⟨w, A, cells, c, hr, -, -, hn, hat, hc, hsz, he, -⟩ :=
    exists_chain env one_pos 0 Nat.one_pos
  exact ⟨w, c, hr, by rw [hn, hat]; rfl, hc, by omega, by omega⟩

end Lattpy
