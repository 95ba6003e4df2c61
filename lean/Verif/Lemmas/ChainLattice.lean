import Verif.Props.LatticeCubic

/-!
# Built chains

Exact sites of built one-dimensional lattices (for the examples and counterexamples).
-/

set_option autoImplicit false
set_option linter.unusedSectionVars false

namespace Lattpy

open Structure World

theorem box1_limits {x : ℝ} (hx : 0 ≤ x) :
    (AShape.box (fun _ : Fin 1 => x) 0 none).limits = .ok fun _ => ((0 : ℝ), x) := by
  obtain ⟨l, hl, hm⟩ := AShape.minMax_spec (AShape.corners (fun _ : Fin 1 => x) 0 none)
    (AShape.corners_ne _ _ _)
  have hmem : ∀ c : Vec 1 ℝ, c ∈ AShape.corners (fun _ : Fin 1 => x) 0 none ↔
      c 0 = 0 ∨ c 0 = x := by
    intro c
    unfold AShape.corners
    dsimp only
    rw [List.mem_map]
    constructor
    · rintro ⟨e, he, rfl⟩
      have := (mem_boxList _ _).1 he 0
      simpa using this
    · intro h
      refine ⟨c, (mem_boxList _ _).2 ?_, by simp⟩
      intro k
      rw [Subsingleton.elim k 0]
      simpa using h
  have : l = fun _ => ((0 : ℝ), x) := by
    funext k
    rw [Subsingleton.elim k 0]
    obtain ⟨⟨⟨c1, h2, h3⟩, h1⟩, ⟨⟨c2, h4, h5⟩, h6⟩⟩ := hm 0
    have a0 := h1 ⟨fun _ => 0, (hmem _).2 (Or.inl rfl), rfl⟩
    have ax := h6 ⟨fun _ => x, (hmem _).2 (Or.inr rfl), rfl⟩
    rcases (hmem _).1 h2 with e | e <;> rcases (hmem _).1 h4 with f | f <;>
      refine Prod.ext ?_ ?_ <;> dsimp only <;> linarith
  rw [← this]
  exact hl

/-- The translation vectors of a chain of length `x`. -/
theorem chain_nvecs {S : Structure 1 ℝ} {a : ℝ} (hb : S.basis = chainBasis a) {x : ℝ} (hx : 0 ≤ x)
    {N : ℕ} (hN : ⌊a⁻¹ * x⌋ = N) :
    S.buildTranslationVectors (.shape (.box (fun _ => x) 0 none)) false none false none 0 =
      .ok ((List.range (N + 2)).map fun i : ℕ => fun _ => (i : ℤ) - 1) := by
  rw [buildTranslationVectors_eq _ Nat.one_pos]
  have hreg : S.buildRegion (.shape (.box (fun _ => x) 0 none)) false none =
      .ok ((fun _ => 0), fun _ => x) := by
    unfold buildRegion
    dsimp only
    rw [box1_limits hx]
    simp
  rw [hreg]
  dsimp only
  have hlim : S.searchLimits (fun _ => 0) (fun _ => x) = fun _ => (-1, (N : ℤ) + 1) := by
    funext k
    rw [chain_searchLimits hb]
    simp [hN]
  rw [hlim]
  obtain ⟨r, hr, hmem, hnd, hs, -⟩ := vindices_spec (fun _ : Fin 1 => ((-1 : ℤ), (N : ℤ) + 1))
    (by intro k; dsimp only; omega) (some ⟨0, Nat.one_pos⟩) none (by
      intro k i h0 hi
      exact indexWrap_of_lt (k := k) _ (Or.inr le_rfl) h0 hi)
  rw [hr]
  congr 1
  refine List.Perm.eq_of_pairwise (le := fun u v : Fin 1 → ℤ => u 0 ≤ v 0) ?_ hs ?_ ?_
  · intro u v _ _ h1 h2
    funext k
    rw [Subsingleton.elim k 0]
    exact le_antisymm h1 h2
  · rw [List.pairwise_map]
    refine List.pairwise_lt_range.imp ?_
    intro i j hij
    dsimp only
    omega
  · rw [List.perm_ext_iff_of_nodup hnd]
    · intro v
      rw [hmem, List.mem_map]
      constructor
      · intro h
        have := h 0
        dsimp only at this
        refine ⟨(v 0 + 1).toNat, List.mem_range.2 (by omega), ?_⟩
        funext k
        rw [Subsingleton.elim k 0]
        omega
      · rintro ⟨i, hi, rfl⟩ k
        rw [List.mem_range] at hi
        dsimp only
        omega
    · refine List.nodup_range.map ?_
      intro i j hij
      have := congrFun hij 0
      dsimp only at this
      omega

/-- The cells `0 … N`. -/
def cellsTo (N : ℕ) : List (Fin 1 → ℤ) := (List.range (N + 1)).map fun i : ℕ => fun _ => (i : ℤ)

theorem chain_sitePos {S : Structure 1 ℝ} {a : ℝ} (hb : S.basis = chainBasis a) (n : Fin 1 → ℤ)
    (b : ℕ) (k : Fin 1) : S.sitePos (Idx.mk n (b : ℤ)) k = S.posOf b 0 + n 0 * a := by
  unfold sitePos
  rw [hb, chain_translate]
  simp

/-- The sites of a chain with atoms between 0 and `s`, of length `N a + s`. -/
theorem chain_accepted {S : Structure 1 ℝ} {a s : ℝ} (ha : 0 < a) (hb : S.basis = chainBasis a)
    (hs : s < a - 1 / 1000) (hpos : ∀ b < S.numBase, 0 ≤ S.posOf b 0 ∧ S.posOf b 0 ≤ s) (N : ℕ) :
    (siteList S.numBase ((List.range (N + 2)).map fun i : ℕ => fun _ => (i : ℤ) - 1)).filter
      (fun idx => !true || S.accepts (.shape (.box (fun _ => (N : ℝ) * a + s) 0 none)) false none
        (1 / 1000) (S.sitePos idx)) = siteList S.numBase (cellsTo N) := by
  have hacc : ∀ (i : ℤ), -1 ≤ i → i ≤ N → ∀ b < S.numBase,
      (S.accepts (.shape (.box (fun _ => (N : ℝ) * a + s) 0 none)) false none
        (1 / 1000) (S.sitePos (Idx.mk (fun _ => i) (b : ℤ))) = true ↔ 0 ≤ i) := by
    intro i h1 h2 b hbn
    unfold accepts AShape.contains
    simp only [decide_eq_true_eq, Fin.forall_fin_one, Pi.zero_apply, chain_sitePos hb]
    have h2' : (i : ℝ) ≤ N := by exact_mod_cast h2
    obtain ⟨p1, p2⟩ := hpos b hbn
    constructor
    · rintro ⟨h3, -⟩
      by_contra hi
      have : i = -1 := by omega
      subst this
      push_cast at h3
      linarith
    · intro h3
      have h3' : (0 : ℝ) ≤ i := by exact_mod_cast h3
      constructor
      · have := mul_nonneg h3' ha.le
        linarith
      · have := mul_le_mul_of_nonneg_right h2' ha.le
        linarith
  have hsplit : ((List.range (N + 2)).map fun i : ℕ => (fun _ => (i : ℤ) - 1 : Fin 1 → ℤ)) =
      (fun _ => (-1 : ℤ)) :: cellsTo N := by
    rw [List.range_succ_eq_map, List.map_cons, List.map_map]
    congr 1
    refine List.map_congr_left fun i _ => ?_
    funext k
    simp
  rw [hsplit]
  unfold siteList
  rw [List.flatMap_cons, List.filter_append]
  have h1 : ((List.range S.numBase).map fun b : ℕ => Idx.mk (fun _ : Fin 1 => (-1 : ℤ)) (b : ℤ)).filter
      (fun idx => !true || S.accepts (.shape (.box (fun _ => (N : ℝ) * a + s) 0 none)) false none
        (1 / 1000) (S.sitePos idx)) = [] := by
    rw [List.filter_eq_nil_iff]
    intro idx hidx
    obtain ⟨b, hbn, rfl⟩ := List.mem_map.1 hidx
    have := hacc (-1) le_rfl (by omega) b (List.mem_range.1 hbn)
    simp only [Bool.not_true, Bool.false_or]
    rw [this]
    omega
  rw [h1, List.nil_append, List.filter_eq_self]
  intro idx hidx
  obtain ⟨n, hn, hidx⟩ := List.mem_flatMap.1 hidx
  obtain ⟨b, hbn, rfl⟩ := List.mem_map.1 hidx
  obtain ⟨i, hi, rfl⟩ := List.mem_map.1 hn
  rw [List.mem_range] at hi
  simp only [Bool.not_true, Bool.false_or]
  exact (hacc i (by omega) (by omega) b (List.mem_range.1 hbn)).2 (by omega)

theorem chain_buildIndices {S : Structure 1 ℝ} (hS : S.positions.length = S.numBase)
    (h0 : 0 < S.numBase) {a s : ℝ} (ha : 0 < a) (hb : S.basis = chainBasis a) (hs0 : 0 ≤ s)
    (hs : s < a - 1 / 1000) (hpos : ∀ b < S.numBase, 0 ≤ S.posOf b 0 ∧ S.posOf b 0 ≤ s) (N : ℕ) :
    S.buildIndices (.shape (.box (fun _ => (N : ℝ) * a + s) 0 none)) false none true none none =
      .ok (siteList S.numBase (cellsTo N), (siteList S.numBase (cellsTo N)).map S.sitePos) := by
  have hx : 0 ≤ (N : ℝ) * a + s := by positivity
  have hN : ⌊a⁻¹ * ((N : ℝ) * a + s)⌋ = N := by
    rw [Int.floor_eq_iff]
    have e : a⁻¹ * ((N : ℝ) * a + s) = N + a⁻¹ * s := by field_simp
    have h1 : a⁻¹ * s < 1 := by
      rw [inv_mul_lt_iff₀ ha]
      linarith
    have h2 : 0 ≤ a⁻¹ * s := by positivity
    rw [e]
    push_cast
    constructor <;> linarith
  rw [buildIndices_none hS h0 (chain_nvecs hb hx hN)
    (by intro points; unfold checkError checkPoints
        rw [if_pos rfl]
        dsimp only
        have : ∀ l : List (Vec 1 ℝ), ∃ r, l.mapM (fun p => (AShape.box (fun _ : Fin 1 =>
            (N : ℝ) * a + s) 0 none).contains p (1 / 1000)) = .ok r := by
          intro l
          exact ⟨_, mapM_ok _ (fun p => decide (∀ k, (0 : Vec 1 ℝ) k - 1 / 1000 ≤ p k ∧
            p k ≤ (0 : Vec 1 ℝ) k + ((N : ℝ) * a + s) + 1 / 1000)) l (fun _ _ => rfl)⟩
        obtain ⟨r, hr⟩ := this points
        rw [hr])]
  rw [chain_accepted ha hb hs hpos]

/-- A callback keeping some of the sites. -/
def keepSites {d : ℕ} (keep : Idx d → Bool) :
    Option (List (Idx d) → List (Vec d ℝ) → List Bool) := some fun ind _ => ind.map keep

theorem chain_buildIndices_keep {S : Structure 1 ℝ} (hS : S.positions.length = S.numBase)
    (h0 : 0 < S.numBase) {a s : ℝ} (ha : 0 < a) (hb : S.basis = chainBasis a) (hs0 : 0 ≤ s)
    (hs : s < a - 1 / 1000) (hpos : ∀ b < S.numBase, 0 ≤ S.posOf b 0 ∧ S.posOf b 0 ≤ s) (N : ℕ)
    (keep : Idx 1 → Bool) :
    S.buildIndices (.shape (.box (fun _ => (N : ℝ) * a + s) 0 none)) false none true
        (keepSites keep) none =
      .ok ((siteList S.numBase (cellsTo N)).filter keep,
        ((siteList S.numBase (cellsTo N)).filter keep).map S.sitePos) := by
  have h := chain_buildIndices hS h0 ha hb hs0 hs hpos N
  rw [buildIndices_eq hS h0] at h ⊢
  cases hnv : S.buildTranslationVectors (.shape (.box (fun _ => (N : ℝ) * a + s) 0 none)) false none
      false none 0 with
  | error e => rw [hnv] at h; cases h
  | ok nvecs =>
    rw [hnv] at h
    dsimp only at h ⊢
    cases hc : S.checkError ((siteList S.numBase nvecs).map S.sitePos)
        (.shape (.box (fun _ => (N : ℝ) * a + s) 0 none)) false none true with
    | some e => rw [hc] at h; cases h
    | none =>
      rw [hc] at h
      simp only [Except.ok.injEq, Prod.mk.injEq] at h
      rw [h.1]
      dsimp only [keepSites]
      unfold applyMask
      rw [if_pos (by simp), maskRow_map]
      congr 2
      have := maskRow_map (siteList S.numBase (cellsTo N)) id keep
      simpa using this

/-- The sites of the unit chain. -/
def chainCells (N : ℕ) (keep : ℕ → Bool) : List ℕ := (List.range (N + 1)).filter keep

/-- Build arguments for the cells `0 … N` with `keep`. -/
noncomputable def chainArgs (N : ℕ) (keep : ℕ → Bool) : BuildArgs 1 ℝ :=
  { shape := .shape (.box (fun _ => (N : ℝ)) 0 none)
    callback := keepSites fun x => keep (x.cell 0).toNat }

/-- The unit chain with `nb` neighbour shells, cells `0 … N` of which `keep` are kept. -/
theorem exists_built_chains (env : Env ℝ) {nb : ℕ} (hnb : 0 < nb) (h255 : nb ≤ 255) :
    ∃ (w : World 1 ℝ) (A : Analysis 1 ℝ) (c : ConnMatrix), ∀ (N : ℕ) (keep : ℕ → Bool),
      0 < (chainCells N keep).length → ∃ (L : Lattice 1 ℝ)
      (D : LatticeData 1 ℝ) (table : List (List (ℕ × WithTop ℝ))),
      (∃ w0 : World 1 ℝ, Reachable env w0 ∧ w0.struct.positions = [0] ∧ w0.struct.conn = some c ∧
        w0.struct.basis.vectors = 1 ∧ w = (w0.call env .analyze).1 ∧
        w0.struct.analyze env = (w.struct, .ok ())) ∧
      Reachable env w ∧ w.struct.basis = chainBasis 1 ∧ w.struct.positions = [0] ∧
      w.struct.conn = some c ∧ c.size = 1 ∧ c.entry 0 0 = nb ∧ w.struct.analysis = some A ∧
      (Lattice.ofWorld w).build env (chainArgs N keep) = (L, .ok ()) ∧ L.world = w ∧ L.data = some D ∧ L.periodicAxes = [] ∧
      L.primitive = some false ∧ L.shape ≠ none ∧
      D.indices = (chainCells N keep).map (fun i : ℕ => Idx.mk (fun _ => (i : ℤ)) 0) ∧
      D.positions = (chainCells N keep).map (fun i : ℕ => fun _ => (i : ℝ)) ∧
      computeNeighbors env w.struct D.indices D.positions = .ok table ∧
      LatticeData.set D.indices D.positions (table.map fun r => r.map Prod.fst)
        (table.map fun r => r.map Prod.snd) = .ok D ∧ table.length = (chainCells N keep).length ∧
      (∀ i j x, Linked table i j x ↔ ∃ a b : ℕ, (chainCells N keep)[i]? = some a ∧
        (chainCells N keep)[j]? = some b ∧ a ≠ b ∧ x = |(b : ℝ) - a| ∧ b ≤ a + nb ∧ a ≤ b + nb) ∧
      ⊤ ∈ D.distvals ∧ D.distvals.length ≤ 256 ∧
      (∀ x, Configured A 0 0 x ↔ ∃ m : ℕ, 0 < m ∧ m ≤ nb ∧ x = m) ∧ RawDistance A 1 := by
  obtain ⟨w0, A0, cells0, c0, hr0, hb0, hp0, hn0, -, hc0, hs0, hc1, hA0, -⟩ :=
    exists_chain env one_pos 0 hnb
  have hp0 : w0.struct.positions = [0] := hp0
  have hvec : w0.struct.basis.vectors = 1 := by
    rw [hb0]
    ext i j
    rw [chain_vectors, Subsingleton.elim i j]
    simp
  obtain ⟨S', han⟩ := analyze_again Nat.one_pos hr0 hc0 (i := 0) (j := 0) (by omega) (by omega)
    (by omega)
  set w := (w0.call env .analyze).1 with hw
  have hr : Reachable env w := hr0.call .analyze
  have hS' : w.struct = S' := by
    change (w0.struct.analyze env).1 = S'
    rw [han]
  obtain ⟨-, hfp, hfn, hfb, hfc⟩ := analyze_frame Nat.one_pos env (hr0.good Nat.one_pos)
  rw [han] at hfp hfn hfb hfc
  dsimp only at hfp hfn hfb hfc
  rw [← hS'] at hfp hfn hfb hfc han
  obtain ⟨A, hA, hconf, hraw, hone⟩ := cubic_configured Nat.one_pos hr0 hp0 hc0 hvec
    (by rw [hc1]; have : (2 * nb + 1) ^ 2 ≤ 511 ^ 2 := Nat.pow_le_pow_left (by omega) 2; omega) han
  -- the levels of the infinite chain are the positive integers
  have hpos0 : w0.struct.positions[0]? = some 0 := by rw [hp0]; rfl
  have hnorm : ∀ n : Fin 1 → ℤ, npRound 6 (latNorm w0.struct.basis n) = ((n 0).natAbs : ℝ) := by
    intro n
    rw [cubic_latNorm hvec, Fin.sum_univ_one, Real.sqrt_sq_eq_abs, ← npRound_natCast]
    congr 1
    rw [Nat.cast_natAbs, Int.cast_abs]
  have hlat : ∀ n : Fin 1 → ℤ, distance (fun k => (0 : Vec 1 ℝ) k +
      ∑ i, (n i : ℝ) * w0.struct.basis.vectors i k) 0 (some 6) = ((n 0).natAbs : ℝ) := by
    intro n
    rw [← hnorm, distance_some]
    congr 1
    unfold latNorm
    rw [distance_eq_dist, dist_eq_norm, norm2_eq_norm]
    congr 1
    ext k
    simp
  have hlev : ∀ x, IsLevel w0.struct 0 0 x ↔ ∃ m : ℕ, 0 < m ∧ x = m := by
    intro x
    constructor
    · rintro ⟨hx0, ra, rb, n, h1, h2, hx⟩
      rw [hpos0] at h1 h2
      cases h1
      cases h2
      rw [hlat] at hx
      refine ⟨_, ?_, hx⟩
      rw [hx] at hx0
      exact_mod_cast hx0
    · rintro ⟨m, hm, rfl⟩
      refine ⟨by exact_mod_cast hm, 0, 0, fun _ => (m : ℤ), hpos0, hpos0, ?_⟩
      rw [hlat]
      simp
  have hshell : ∀ x, IsShell w0.struct 0 0 nb x ↔ ∃ m : ℕ, 0 < m ∧ m ≤ nb ∧ x = m := by
    have hset : ∀ m : ℕ, {y | IsLevel w0.struct 0 0 y ∧ y < (m : ℝ)} =
        ↑((Finset.Ico 1 m).image fun j : ℕ => (j : ℝ)) := by
      intro m
      ext y
      simp only [Finset.coe_image, Set.mem_image, Finset.mem_coe, Finset.mem_Ico]
      constructor
      · rintro ⟨h1, h2⟩
        obtain ⟨j, hj, rfl⟩ := (hlev y).1 h1
        have h2 : (j : ℝ) < m := h2
        exact ⟨j, ⟨hj, by exact_mod_cast h2⟩, rfl⟩
      · rintro ⟨j, ⟨h1, h2⟩, rfl⟩
        exact ⟨(hlev _).2 ⟨j, h1, rfl⟩, by exact_mod_cast h2⟩
    have hcard : ∀ m : ℕ, {y | IsLevel w0.struct 0 0 y ∧ y < (m : ℝ)}.encard = ((m - 1 : ℕ) : ℕ∞) := by
      intro m
      rw [hset, Set.encard_coe_eq_coe_finsetCard,
        Finset.card_image_of_injective _ Nat.cast_injective, Nat.card_Ico]
    intro x
    constructor
    · rintro ⟨h1, h2⟩
      obtain ⟨m, hm, rfl⟩ := (hlev x).1 h1
      rw [hcard] at h2
      have h2 : m - 1 < nb := by exact_mod_cast h2
      exact ⟨m, hm, by omega, rfl⟩
    · rintro ⟨m, h1, h2, rfl⟩
      refine ⟨(hlev _).2 ⟨m, h1, rfl⟩, ?_⟩
      rw [hcard]
      have : m - 1 < nb := by omega
      exact_mod_cast this
  refine ⟨w, A, c0, fun N keep hne => ?_⟩
  have hbi := chain_buildIndices_keep (S := w.struct) (a := 1) (s := 0)
    (hr.good Nat.one_pos).positions_length (by rw [hfn]; omega) one_pos (by rw [hfb, hb0]) le_rfl
    (by norm_num) (by
      intro b hb
      have : b = 0 := by rw [hfn] at hb; omega
      subst this
      simp [posOf, hfp, hp0]) N (fun x => keep (x.cell 0).toNat)
  have hN : (N : ℝ) * 1 + 0 = N := by ring
  rw [hN] at hbi
  have hnum : w.struct.numBase = 1 := by rw [hfn]; omega
  have hind : (siteList w.struct.numBase (cellsTo N)).filter (fun x => keep (x.cell 0).toNat) =
      (chainCells N keep).map (fun i : ℕ => Idx.mk (fun _ => (i : ℤ)) 0) := by
    rw [hnum]
    have : siteList 1 (cellsTo N) =
        (List.range (N + 1)).map fun i : ℕ => Idx.mk (fun _ => (i : ℤ)) 0 := by
      unfold siteList cellsTo
      rw [List.flatMap_map]
      simp [← List.map_eq_flatMap]
    rw [this, List.filter_map]
    unfold chainCells
    congr 1
  have hposl : ((siteList w.struct.numBase (cellsTo N)).filter
      (fun x => keep (x.cell 0).toNat)).map w.struct.sitePos =
      (chainCells N keep).map (fun i : ℕ => fun _ => (i : ℝ)) := by
    rw [hind, List.map_map]
    refine List.map_congr_left fun i _ => ?_
    funext k
    have := chain_sitePos (S := w.struct) (a := 1) (by rw [hfb, hb0]) (fun _ => (i : ℤ)) 0 k
    simp only [Function.comp_apply]
    simp only [Nat.cast_zero] at this
    rw [this]
    simp [posOf, hfp, hp0]
  rw [hposl, hind] at hbi
  have hcn : (chainCells N keep).Nodup := List.nodup_range.filter _
  have hsites : List.Forall₂ (IsSitePos w0.struct)
      ((chainCells N keep).map (fun i : ℕ => Idx.mk (fun _ => (i : ℤ)) 0))
      ((chainCells N keep).map (fun i : ℕ => fun _ => (i : ℝ))) := by
    rw [List.forall₂_map_left_iff, List.forall₂_map_right_iff, List.forall₂_same]
    intro i _
    refine ⟨0, 0, by simp, by rw [hp0]; rfl, ?_⟩
    funext k
    rw [Fin.sum_univ_one, hb0, chain_vectors]
    simp
  obtain ⟨D, table, hpn, hcomp, hset, hDi, hDp, htl, hlink, htop, h256⟩ := cubic_sites Nat.one_pos
    hr0 hp0 hc0 hvec
    (by rw [hc1]; have : (2 * nb + 1) ^ 2 ≤ 511 ^ 2 := Nat.pow_le_pow_left (by omega) 2; omega)
    (by
      intro x y hy hx hxy
      rw [hc1] at hy ⊢
      obtain ⟨m, hm, hmn, rfl⟩ := (hshell y).1 hy
      obtain ⟨j, hj, rfl⟩ := (hlev x).1 hx
      refine isShell_of_le hy hx ?_
      have : (j : ℝ) < ((m + 1 : ℕ) : ℝ) := by
        push_cast
        norm_num at hxy
        linarith
      have : j < m + 1 := by exact_mod_cast this
      exact_mod_cast (by omega : j ≤ m))
    (by omega) han hsites (hcn.map (by
      intro i j hij
      have := congrArg (fun x : Idx 1 => x.cell 0) hij
      simpa using this)) (by rw [List.length_map]; exact hne)
  obtain ⟨lo, hi, hlim⟩ := Lattice.getLimits_ok (D := D) (by rw [hDp, List.length_map]; exact hne)
  refine ⟨_, D, table, ⟨w0, hr0, hp0, hc0, hvec, rfl, han⟩, hr, by rw [hfb, hb0], by rw [hfp, hp0], by rw [hfc, hc0], hs0, hc1,
    hA, Lattice.build_of (L := Lattice.ofWorld w) (a := chainArgs N keep) hA ?_ rfl hbi hcomp rfl hset hlim rfl, rfl, rfl,
    rfl, rfl, by simp, hDi, hDp, by rw [hDi, hDp]; exact hcomp, by rw [hDi, hDp]; exact hset,
    by rw [htl, List.length_map], ?_, htop, h256, fun x => by rw [hconf, hc1, hshell],
    hraw 1 ((hconf 1).2 hone)⟩
  · intro c hc
    have hc : w.struct.conn = some c := hc
    rw [hfc, hc0] at hc
    cases hc
    by_contra h
    rw [Bool.not_eq_false, ConnMatrix.allZero_iff] at h
    have := h 0 (by omega) 0 (by omega)
    omega
  · intro i j x
    rw [hlink, hc1, hshell]
    unfold SiteDistance
    rw [hDp]
    have hdist : ∀ a b : ℕ, distance (fun _ : Fin 1 => (b : ℝ)) (fun _ => (a : ℝ)) (some 6) =
        (((b : ℤ) - a).natAbs : ℝ) := by
      intro a b
      rw [distance_some, ← npRound_natCast ((b : ℤ) - a).natAbs, distance_one]
      refine congrArg (npRound (K := ℝ) 6) ?_
      rw [Nat.cast_natAbs]
      push_cast
      rfl
    constructor
    · rintro ⟨hij, ⟨p, q, h1, h2, hx⟩, m, hm, hmn, hxm⟩
      rw [List.getElem?_map, Option.map_eq_some_iff] at h1 h2
      obtain ⟨a, ha, rfl⟩ := h1
      obtain ⟨b, hb, rfl⟩ := h2
      rw [hdist] at hx
      have : m = ((b : ℤ) - a).natAbs := by
        rw [hx] at hxm
        exact_mod_cast hxm.symm
      refine ⟨a, b, ha, hb, by omega, ?_, by omega, by omega⟩
      rw [hx, Nat.cast_natAbs]
      push_cast
      rfl
    · rintro ⟨a, b, ha, hb, hab, hx, hle, hle'⟩
      have hx' : x = (((b : ℤ) - a).natAbs : ℝ) := by
        rw [hx, Nat.cast_natAbs]
        push_cast
        rfl
      refine ⟨?_, ⟨fun _ => (a : ℝ), fun _ => (b : ℝ), by rw [List.getElem?_map, ha]; rfl,
        by rw [List.getElem?_map, hb]; rfl, by rw [hdist, hx']⟩, ((b : ℤ) - a).natAbs, by omega,
        by omega, hx'⟩
      rintro rfl
      rw [ha] at hb
      cases hb
      exact hab rfl

theorem exists_built_chain (env : Env ℝ) {nb : ℕ} (hnb : 0 < nb) (h255 : nb ≤ 255) (N : ℕ)
    (keep : ℕ → Bool) (hne : 0 < (chainCells N keep).length) :
    ∃ (w : World 1 ℝ) (A : Analysis 1 ℝ) (c : ConnMatrix) (L : Lattice 1 ℝ)
      (D : LatticeData 1 ℝ) (table : List (List (ℕ × WithTop ℝ))),
      (∃ w0 : World 1 ℝ, Reachable env w0 ∧ w0.struct.positions = [0] ∧ w0.struct.conn = some c ∧
        w0.struct.basis.vectors = 1 ∧ w = (w0.call env .analyze).1 ∧
        w0.struct.analyze env = (w.struct, .ok ())) ∧
      Reachable env w ∧ w.struct.basis = chainBasis 1 ∧ w.struct.positions = [0] ∧
      w.struct.conn = some c ∧ c.size = 1 ∧ c.entry 0 0 = nb ∧ w.struct.analysis = some A ∧
      (Lattice.ofWorld w).build env (chainArgs N keep) = (L, .ok ()) ∧ L.world = w ∧ L.data = some D ∧ L.periodicAxes = [] ∧
      L.primitive = some false ∧ L.shape ≠ none ∧
      D.indices = (chainCells N keep).map (fun i : ℕ => Idx.mk (fun _ => (i : ℤ)) 0) ∧
      D.positions = (chainCells N keep).map (fun i : ℕ => fun _ => (i : ℝ)) ∧
      computeNeighbors env w.struct D.indices D.positions = .ok table ∧
      LatticeData.set D.indices D.positions (table.map fun r => r.map Prod.fst)
        (table.map fun r => r.map Prod.snd) = .ok D ∧ table.length = (chainCells N keep).length ∧
      (∀ i j x, Linked table i j x ↔ ∃ a b : ℕ, (chainCells N keep)[i]? = some a ∧
        (chainCells N keep)[j]? = some b ∧ a ≠ b ∧ x = |(b : ℝ) - a| ∧ b ≤ a + nb ∧ a ≤ b + nb) ∧
      ⊤ ∈ D.distvals ∧ D.distvals.length ≤ 256 ∧
      (∀ x, Configured A 0 0 x ↔ ∃ m : ℕ, 0 < m ∧ m ≤ nb ∧ x = m) ∧ RawDistance A 1 := by
  obtain ⟨w, A, c, h⟩ := exists_built_chains env hnb h255
  obtain ⟨L, D, table, h⟩ := h N keep hne
  exact ⟨w, A, c, L, D, table, h⟩

end Lattpy
