import Verif.Lemmas.ChainLattice

/-!
# A chain of two-atom cells

Atoms at 0 and 3, lattice constant 10, nearest connections of every pair of atoms (for the
counterexamples).
-/

set_option autoImplicit false
set_option linter.unusedSectionVars false

namespace Lattpy

open Structure World

/-- The dimerised chain. -/
structure IsDimer (env : Env ℝ) (w : World 1 ℝ) (A : Analysis 1 ℝ) : Prop where
  reach : Reachable env w
  basis : w.struct.basis = chainBasis 10
  positions : w.struct.positions = [fun _ => 0, fun _ => 3]
  numBase : w.struct.numBase = 2
  conn : ∃ c, w.struct.conn = some c ∧ c.size = 2 ∧ ∀ i j, i < 2 → j < 2 → c.entry i j = 1
  analysis : w.struct.analysis = some A
  configured : ∀ (a b : ℕ) (x : ℝ), Configured A a b x ↔ a < 2 ∧ b < 2 ∧
    x = if a = b then 10 else 3
  raw : ∀ y, RawDistance A y ↔ y = 3 ∨ y = 10
  query : ∃ k, 5 ≤ k ∧ k = (A.rawNum.map List.sum).sum + 1 ∧ queryParams A = .ok (k, 103 / 10)

theorem exists_dimer (env : Env ℝ) : ∃ w A, IsDimer env w A := by
  obtain ⟨w, A, cells, c, hr, hbas, hp, hn, -, hc, hcs, hce, hA, hI, hcells⟩ :=
    exists_structure Nat.one_pos env (chain_init (a := 10) (by norm_num))
      [fun _ => 0, fun _ => 3] (by
      simp only [List.nodup_cons, List.mem_singleton, List.not_mem_nil, not_false_eq_true,
        List.nodup_nil, and_true]
      intro h
      have := congrFun h 0
      norm_num at this) (by simp) Nat.one_pos
  have hnum : w.struct.numBase = 2 := by rw [hn]; rfl
  obtain ⟨hcnd, hcm⟩ := chain_cells (by norm_num) (2 * 1) cells hcells
  have hra : w.struct.positions[0]? = some fun _ => 0 := by rw [hp]; rfl
  have hrb : w.struct.positions[1]? = some fun _ => 3 := by rw [hp]; rfl
  have hsd : ∀ (a b : ℕ) (p q : ℤ), w.struct.positions[a]? = some (fun _ => (p : ℝ)) →
      w.struct.positions[b]? = some (fun _ => (q : ℝ)) → ∀ n : Fin 1 → ℤ,
      w.struct.siteDist a b n = ((q + n 0 * 10 - p).natAbs : ℝ) := by
    intro a b p q h1 h2 n
    rw [siteDist_eq h1 h2, distance_some, distance_one, Fin.sum_univ_one, hbas, chain_vectors,
      ← npRound_natCast (q + n 0 * 10 - p).natAbs]
    refine congrArg (npRound (K := ℝ) 6) ?_
    rw [Nat.cast_natAbs]
    push_cast
    rfl
  have hmem : ∀ z : ℤ, |z| ≤ 1 → (fun _ => z : Fin 1 → ℤ) ∈ cells := by
    intro z hz
    rw [hcm]
    push_cast
    linarith
  have hext : ∀ (n : Fin 1 → ℤ) (z : ℤ), n 0 = z → n = fun _ => z := by
    intro n z h
    funext k
    rw [Subsingleton.elim k 0, h]
  have hsame : ∀ (a : ℕ) (p : ℤ), w.struct.positions[a]? = some (fun _ => (p : ℝ)) →
      (∀ x, x ∈ (w.struct.levels cells a a).take 1 ↔ x = (10 : ℕ)) := by
    intro a p h
    refine (first_level hcnd a a 10 (fun _ => 1) [fun _ => 1, fun _ => -1] (hmem 1 (by norm_num))
      (by norm_num) ?_ ?_ ?_).1
    · rw [hsd a a p p h h]
      norm_num
    · intro n hle
      rw [hsd a a p p h h] at hle ⊢
      have h1 : (p + n 0 * 10 - p).natAbs ≤ 10 := by exact_mod_cast hle
      have h2 : n 0 = 0 ∨ n 0 = 1 ∨ n 0 = -1 := by omega
      rcases h2 with h2 | h2 | h2
      · right; rw [h2]; norm_num
      · left; rw [hext n 1 h2]; simp
      · left; rw [hext n (-1) h2]; simp
    · intro n hn
      rw [hsd a a p p h h]
      simp only [List.mem_cons, List.not_mem_nil, or_false] at hn
      rcases hn with rfl | rfl <;> norm_num
  have hdiff : ∀ (a b : ℕ) (p q : ℤ), w.struct.positions[a]? = some (fun _ => (p : ℝ)) →
      w.struct.positions[b]? = some (fun _ => (q : ℝ)) → (q - p = 3 ∨ q - p = -3) →
      (∀ x, x ∈ (w.struct.levels cells a b).take 1 ↔ x = (3 : ℕ)) := by
    intro a b p q h1 h2 h3
    refine (first_level hcnd a b 3 (fun _ => 0) [fun _ => 0] (hmem 0 (by norm_num))
      (by norm_num) ?_ ?_ ?_).1
    · rw [hsd a b p q h1 h2]
      have : (q + 0 * 10 - p).natAbs = 3 := by omega
      simp only [this]
    · intro n hle
      rw [hsd a b p q h1 h2] at hle
      have h1 : (q + n 0 * 10 - p).natAbs ≤ 3 := by exact_mod_cast hle
      left
      rw [hext n 0 (by omega)]
      simp
    · intro n hn
      rw [hsd a b p q h1 h2]
      simp only [List.mem_cons, List.not_mem_nil, or_false] at hn
      subst hn
      have : (q + 0 * 10 - p).natAbs = 3 := by omega
      simp only [this, le_refl]
  have l00 := hsame 0 0 (by rw [hra]; norm_num)
  have l11 := hsame 1 3 (by rw [hrb]; norm_num)
  have l01 := hdiff 0 1 0 3 (by rw [hra]; norm_num) (by rw [hrb]; norm_num) (by norm_num)
  have l10 := hdiff 1 0 3 0 (by rw [hrb]; norm_num) (by rw [hra]; norm_num) (by norm_num)
  have hlev : ∀ a < 2, ∀ b < 2, ∀ x, x ∈ (w.struct.levels cells a b).take 1 ↔
      x = if a = b then 10 else 3 := by
    intro a ha b hb x
    have ha' : a = 0 ∨ a = 1 := by omega
    have hb' : b = 0 ∨ b = 1 := by omega
    rcases ha' with rfl | rfl <;> rcases hb' with rfl | rfl
    · rw [l00]; norm_num
    · rw [l01]; norm_num
    · rw [l10]; norm_num
    · rw [l11]; norm_num
  have hconf : ∀ (a b : ℕ) (x : ℝ), Configured A a b x ↔ a < 2 ∧ b < 2 ∧
      x = if a = b then 10 else 3 := by
    intro a b x
    rw [hI.configured, hnum]
    simp only [Int.toNat_natCast]
    constructor
    · rintro ⟨-, -, h1, h2, h3⟩
      rw [hce a b (by simpa using h1) (by simpa using h2), hlev a h1 b h2] at h3
      exact ⟨h1, h2, h3⟩
    · rintro ⟨h1, h2, h3⟩
      refine ⟨by omega, by omega, h1, h2, ?_⟩
      rw [hce a b (by simpa using h1) (by simpa using h2), hlev a h1 b h2]
      exact h3
  have hraw : ∀ y, RawDistance A y ↔ y = 3 ∨ y = 10 := by
    intro y
    rw [hI.mem_raw, hnum]
    constructor
    · rintro ⟨a, ha, b, hb, h⟩
      rw [hlev a ha b hb] at h
      split_ifs at h
      · exact Or.inr h
      · exact Or.inl h
    · rintro (h | h)
      · exact ⟨0, by norm_num, 1, by norm_num, (hlev 0 (by norm_num) 1 (by norm_num) y).2 (by simpa)⟩
      · exact ⟨0, by norm_num, 0, by norm_num, (hlev 0 (by norm_num) 0 (by norm_num) y).2 (by simpa)⟩
  obtain ⟨k, md, hq⟩ := hI.queryParams_ok Nat.one_pos (by rw [hnum]; norm_num) (by
    intro a ha b hb
    rw [hnum] at ha hb
    exact List.length_pos_of_mem (List.mem_of_mem_take ((hlev a ha b hb _).2 rfl)))
    ((hconf 0 0 10).2 (by norm_num))
  obtain ⟨hk, hk2, -, M, y, hmd, hy, hymin, hM, hmax⟩ := hI.queryParams hq
  have hM10 : M = 10 := by
    have h1 := hmax _ _ _ ((hconf 0 0 10).2 (by norm_num))
    rcases hM with h | ⟨a, b, h⟩
    · linarith
    · obtain ⟨h0, h0', h2, h3, -⟩ := hI.configured.1 h
      obtain ⟨a', rfl⟩ := Int.eq_ofNat_of_zero_le h0
      obtain ⟨b', rfl⟩ := Int.eq_ofNat_of_zero_le h0'
      obtain ⟨-, -, h⟩ := (hconf a' b' M).1 h
      split_ifs at h <;> linarith
  have hy3 : y = 3 := by
    have h1 := hymin 3 ((hraw 3).2 (Or.inl rfl))
    rcases (hraw y).1 hy with h | h <;> linarith
  have hk5 : 5 ≤ k := by
    have hcount : ∀ a < 2, ∀ b < 2, 1 ≤ (cells.filter fun n => decide
        (w.struct.siteDist a b n ∈ (w.struct.levels cells a b).take 1)).length := by
      intro a ha b hb
      have h1 := (hlev a ha b hb _).2 rfl
      obtain ⟨-, n, hn, hx⟩ := mem_levels.1 (List.mem_of_mem_take h1)
      refine List.length_pos_of_mem (List.mem_filter.2 ⟨hn, ?_⟩)
      rw [decide_eq_true_eq, ← hx]
      exact h1
    have c00 := hcount 0 (by norm_num) 0 (by norm_num)
    have c01 := hcount 0 (by norm_num) 1 (by norm_num)
    have c10 := hcount 1 (by norm_num) 0 (by norm_num)
    have c11 := hcount 1 (by norm_num) 1 (by norm_num)
    rw [hk, hI.rawNum, hnum]
    simp only [List.range_succ, List.range_zero, List.nil_append, List.map_append, List.map_cons,
      List.map_nil, List.sum_append, List.sum_cons, List.sum_nil]
    omega
  refine ⟨w, A, hr, hbas, hp, hnum, ⟨c, hc, hcs, hce⟩, hA, hconf, hraw, k, hk5, hk, ?_⟩
  rw [hq, hmd, hM10, hy3]
  norm_num

/-- The position of atom `s.2` of cell `s.1`. -/
def dimerPos (s : ℕ × ℕ) : ℤ := 10 * s.1 + 3 * s.2

def dimerIdx (s : ℕ × ℕ) : Idx 1 := Idx.mk (fun _ => (s.1 : ℤ)) (s.2 : ℤ)

noncomputable def dimerVec (s : ℕ × ℕ) : Vec 1 ℝ := fun _ => (dimerPos s : ℝ)

theorem dimer_dist (s t : ℕ × ℕ) :
    distance (dimerVec t) (dimerVec s) = (dimerPos t - dimerPos s).natAbs := by
  rw [distance_one, Nat.cast_natAbs]
  unfold dimerVec
  push_cast
  rfl

theorem dimer_dist6 (s t : ℕ × ℕ) :
    distance (dimerVec t) (dimerVec s) (some 6) = (dimerPos t - dimerPos s).natAbs := by
  rw [distance_some, dimer_dist, npRound_natCast]

/-- Whether two atoms at a distance are connected. -/
def dimerLink (s t : ℕ × ℕ) : Prop :=
  (dimerPos t - dimerPos s).natAbs = if s.2 = t.2 then 10 else 3

instance (s t : ℕ × ℕ) : Decidable (dimerLink s t) := by unfold dimerLink; infer_instance

/-- The neighbour table of at most five sites of the dimerised chain. -/
theorem dimer_table {env : Env ℝ} {w : World 1 ℝ} {A : Analysis 1 ℝ} (h : IsDimer env w A)
    (sites : List (ℕ × ℕ)) (hnd : sites.Nodup) (hat : ∀ s ∈ sites, s.2 < 2)
    (hl : sites.length ≤ 5) :
    ∃ (table : List (List (ℕ × WithTop ℝ))) (width : ℕ),
      computeNeighbors env w.struct (sites.map dimerIdx) (sites.map dimerVec) = .ok table ∧
      table.length = sites.length ∧ (∀ row ∈ table, row.length = width) ∧
      (∀ row ∈ table, ((row.filter isLink).map Prod.fst).Nodup) ∧
      (∀ i j x, Linked table i j x ↔ ∃ s t : ℕ × ℕ, sites[i]? = some s ∧ sites[j]? = some t ∧
        i ≠ j ∧ x = ((dimerPos t - dimerPos s).natAbs : ℝ) ∧ dimerLink s t) ∧
      (∀ (i j : ℕ) (s t : ℕ × ℕ), sites[i]? = some s → sites[j]? = some t → i ≠ j →
        (dimerPos t - dimerPos s).natAbs ≤ 10 → ¬ dimerLink s t →
        width = 0 ∨ ∃ row ∈ table, ∀ e ∈ row, e.2 ≠ ⊤) := by
  have hr := h.reach
  have hA := h.analysis
  obtain ⟨cells, m, c, hcells, -, hsym, -, -, hI⟩ := (hr.good Nat.one_pos).analysis A hA
  obtain ⟨k, hk5, hk, hq⟩ := h.query
  have hinj : ∀ s ∈ sites, ∀ t ∈ sites, dimerPos s = dimerPos t → s = t := by
    intro s hs t ht he
    have h1 := hat s hs
    have h2 := hat t ht
    unfold dimerPos at he
    refine Prod.ext ?_ ?_ <;> omega
  have hpn : (sites.map dimerVec).Nodup := by
    refine List.Nodup.map_on ?_ hnd
    intro s hs t ht he
    refine hinj s hs t ht ?_
    have := congrFun he 0
    unfold dimerVec at this
    exact_mod_cast this
  have hlen : (sites.map dimerIdx).length = (sites.map dimerVec).length := by simp
  have hal : ∀ x ∈ sites.map dimerIdx, 0 ≤ x.alpha ∧ x.alpha < w.struct.numBase := by
    intro x hx
    obtain ⟨s, hs, rfl⟩ := List.mem_map.1 hx
    have := hat s hs
    rw [h.numBase]
    unfold dimerIdx
    rw [Idx.alpha_mk]
    omega
  have hconf : ∀ s ∈ sites, ∀ t ∈ sites, (Configured A (dimerIdx s).alpha (dimerIdx t).alpha
      (distance (dimerVec t) (dimerVec s) (some 6)) ↔ dimerLink s t) := by
    intro s hs t ht
    have h1 := hat s hs
    have h2 := hat t ht
    unfold dimerIdx
    rw [Idx.alpha_mk, Idx.alpha_mk, h.configured, dimer_dist6]
    unfold dimerLink
    constructor
    · rintro ⟨-, -, h3⟩
      split_ifs at h3 ⊢
      · exact_mod_cast h3
      · exact_mod_cast h3
    · intro h3
      refine ⟨h1, h2, ?_⟩
      rw [h3]
      split_ifs <;> norm_num
  obtain ⟨table, sel, width, ht, htl, hrows, -, hW2, -⟩ := computeNeighbors_width env hI hA hq
    (sites.map dimerIdx) (sites.map dimerVec) hlen hpn
  obtain ⟨-, hsound, hcompl⟩ := C44_neighbors_partial Nat.one_pos hr hA _ _ hlen hpn hal ht
  obtain ⟨width', hrows'⟩ := C45_rows Nat.one_pos hr hA _ _ hlen hpn ht
  have hgetp : ∀ (i : ℕ) (s : ℕ × ℕ), sites[i]? = some s →
      (sites.map dimerVec)[i]? = some (dimerVec s) := by
    intro i s hs; rw [List.getElem?_map, hs]; rfl
  have hgeti : ∀ (i : ℕ) (s : ℕ × ℕ), sites[i]? = some s →
      (sites.map dimerIdx)[i]? = some (dimerIdx s) := by
    intro i s hs; rw [List.getElem?_map, hs]; rfl
  have hrow : ∀ row ∈ table, ∃ (i : ℕ) (s : ℕ × ℕ), table[i]? = some row ∧ sites[i]? = some s := by
    intro row hrow
    obtain ⟨i, hi⟩ := List.mem_iff_getElem?.1 hrow
    have hi' : i < sites.length := by
      have := (List.getElem?_eq_some_iff.1 hi).1
      rw [htl, List.length_map] at this
      exact this
    exact ⟨i, _, hi, List.getElem?_eq_getElem hi'⟩
  refine ⟨table, width, ht, by rw [htl, List.length_map], ?_, ?_, ?_, ?_⟩
  · intro row hr'
    obtain ⟨i, s, hi, hs⟩ := hrow row hr'
    obtain ⟨row', e1, e2, -⟩ := hrows i _ _ (hgetp i s hs) (hgeti i s hs)
    rw [hi] at e1
    cases e1
    exact e2
  · intro row hr'
    obtain ⟨i, s, hi, hs⟩ := hrow row hr'
    exact (hrows' i row hi).2.2.2.2
  · intro i j x
    constructor
    · intro hlk
      obtain ⟨p, q, a, b, e1, e2, e3, e4, hij, hx, hc⟩ := hsound i j x hlk
      rw [List.getElem?_map, Option.map_eq_some_iff] at e1 e2 e3 e4
      obtain ⟨s, hs, rfl⟩ := e1
      obtain ⟨t, ht', rfl⟩ := e2
      obtain ⟨s', hs', rfl⟩ := e3
      obtain ⟨t', ht'', rfl⟩ := e4
      rw [hs] at hs'
      rw [ht'] at ht''
      cases hs'
      cases ht''
      refine ⟨s, t, hs, ht', hij, by rw [hx, dimer_dist6], ?_⟩
      rw [hx] at hc
      exact (hconf s (List.mem_of_getElem? hs) t (List.mem_of_getElem? ht')).1 hc
    · rintro ⟨s, t, hs, ht', hij, rfl, hlk⟩
      have := hcompl (by
        intro y hy
        rcases (h.raw y).1 hy with rfl | rfl <;> norm_num) i j _ _ _ _ (hgetp i s hs)
        (hgetp j t ht') (hgeti i s hs) (hgeti j t ht') hij
        ((hconf s (List.mem_of_getElem? hs) t (List.mem_of_getElem? ht')).2 hlk) (by
          rw [← hk]
          refine le_trans ?_ (hl.trans hk5)
          unfold closer
          refine (List.length_filter_le _ _).trans ?_
          rw [List.length_map])
      rwa [dimer_dist6] at this
  · intro i j s t hs ht' hij hle hnl
    have hj : j < (sites.map dimerVec).length := by
      rw [List.length_map]; exact (List.getElem?_eq_some_iff.1 ht').1
    have hg : (sites.map dimerVec).getD j 0 = dimerVec t := by
      rw [List.getD_eq_getElem?_getD, hgetp j t ht']; rfl
    obtain ⟨row, -, -, -, -, -, hsel⟩ := hrows i _ _ (hgetp i s hs) (hgeti i s hs)
    refine hW2 i _ _ (hgetp i s hs) (hgeti i s hs) j (hsel j hj (Ne.symm hij) ?_ ?_) ?_
    · rw [hg, dimer_dist]
      have : ((dimerPos t - dimerPos s).natAbs : ℝ) ≤ ((10 : ℕ) : ℝ) := by exact_mod_cast hle
      push_cast at this
      linarith
    · refine le_trans (List.length_filter_le _ _) ?_
      rw [List.length_range, List.length_map]
      omega
    · rw [hg]
      have hb : alphaOf (sites.map dimerIdx) j = (dimerIdx t).alpha := by
        simp [alphaOf, ht']
      rw [hb]
      by_contra hne
      rw [Bool.not_eq_false, connectedAt_iff hI
        (hal _ (List.mem_map.2 ⟨s, List.mem_of_getElem? hs, rfl⟩))
        (hal _ (List.mem_map.2 ⟨t, List.mem_of_getElem? ht', rfl⟩))] at hne
      exact hnl ((hconf s (List.mem_of_getElem? hs) t (List.mem_of_getElem? ht')).1 hne)

/-- The sites built for the cells `0 … N`. -/
theorem dimer_buildIndices {env : Env ℝ} {w : World 1 ℝ} {A : Analysis 1 ℝ} (h : IsDimer env w A)
    (N : ℕ) (keep : ℕ × ℕ → Bool) :
    w.struct.buildIndices (.shape (.box (fun _ => (N : ℝ) * 10 + 3) 0 none)) false none true
        (keepSites fun x => keep ((x.cell 0).toNat, x.alpha.toNat)) none =
      .ok ((((List.range (N + 1)).flatMap fun n => [(n, 0), (n, 1)]).filter keep).map dimerIdx,
        (((List.range (N + 1)).flatMap fun n => [(n, 0), (n, 1)]).filter keep).map dimerVec) := by
  have hbi := chain_buildIndices_keep (S := w.struct) (a := 10) (s := 3)
    (h.reach.good Nat.one_pos).positions_length (by rw [h.numBase]; norm_num) (by norm_num) h.basis
    (by norm_num) (by norm_num) (by
      intro b hb
      rw [h.numBase] at hb
      have hb' : b = 0 ∨ b = 1 := by omega
      rcases hb' with rfl | rfl <;> simp [posOf, h.positions]) N
      (fun x => keep ((x.cell 0).toNat, x.alpha.toNat))
  rw [hbi]
  have hsl : siteList w.struct.numBase (cellsTo N) =
      ((List.range (N + 1)).flatMap fun n => [(n, 0), (n, 1)]).map dimerIdx := by
    rw [h.numBase]
    unfold siteList cellsTo
    rw [List.flatMap_map, List.map_flatMap]
    rfl
  have hf : (siteList w.struct.numBase (cellsTo N)).filter
      (fun x => keep ((x.cell 0).toNat, x.alpha.toNat)) =
      (((List.range (N + 1)).flatMap fun n => [(n, 0), (n, 1)]).filter keep).map dimerIdx := by
    rw [hsl, List.filter_map]
    congr 1
  rw [hf]
  congr 2
  rw [List.map_map]
  refine List.map_congr_left fun s hs => ?_
  have hs2 : s.2 = 0 ∨ s.2 = 1 := by
    obtain ⟨n, -, hn⟩ := List.mem_flatMap.1 (List.mem_of_mem_filter hs)
    simp only [List.mem_cons, List.not_mem_nil, or_false] at hn
    rcases hn with rfl | rfl <;> simp
  funext k
  have := chain_sitePos h.basis (fun _ => (s.1 : ℤ)) s.2 k
  simp only [Function.comp_apply]
  unfold dimerIdx dimerVec dimerPos
  rw [this]
  rcases hs2 with h2 | h2 <;> simp [posOf, h.positions, h2] <;> ring

end Lattpy
