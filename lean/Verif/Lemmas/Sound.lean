import Verif.Spec.Sound
import Verif.Lemmas.LatticeHistory
import Verif.Props.Append

/-!
# Tables that fit together

`TableOK`: tables of neighbours and distances before they are stored.  `SoundQ`: stored tables, for
any notion `Q` of a level that counts.
-/

set_option autoImplicit false
set_option linter.unusedSectionVars false

namespace Lattpy

open Structure World LatticeData

variable {d : ℕ}

/-! ## tables before they are stored -/

/-- A table for `n` sites: rows of one length, entries with a finite distance name a site, no
number exceeds the invalid index `n`. -/
structure TableOK {K : Type*} (n : ℕ) (table : List (List (ℕ × WithTop K))) : Prop where
  width : ∃ w, ∀ r ∈ table, r.length = w
  le : ∀ r ∈ table, ∀ e ∈ r, e.1 ≤ n
  lt : ∀ r ∈ table, ∀ e ∈ r, e.2 ≠ ⊤ → e.1 < n

theorem TableOK.maskCols {K : Type*} {n : ℕ} {table : List (List (ℕ × WithTop K))}
    (h : TableOK n table) (mask : List Bool) : TableOK n (maskCols mask table) := by
  have hsub : ∀ r ∈ Lattpy.maskCols mask table, ∃ s ∈ table, ∀ e ∈ r, e ∈ s := by
    intro r hr
    obtain ⟨s, hs, rfl⟩ := List.mem_map.1 hr
    refine ⟨s, hs, fun e he => ?_⟩
    obtain ⟨p, hp, rfl⟩ := List.mem_map.1 he
    exact (List.of_mem_zip (List.mem_filter.1 hp).1).1
  refine ⟨?_, ?_, ?_⟩
  · obtain ⟨w, hw⟩ := h.width
    refine ⟨(((List.replicate w ()).zip mask).filter fun p => p.2).length, fun r hr => ?_⟩
    obtain ⟨s, hs, rfl⟩ := List.mem_map.1 hr
    have key : ∀ (mask : List Bool) (s : List (ℕ × WithTop K)) (u : List Unit),
        s.length = u.length →
        ((s.zip mask).filter fun p => p.2).length = ((u.zip mask).filter fun p => p.2).length := by
      intro mask
      induction mask with
      | nil => intro s u _; simp
      | cons b mask ih =>
        intro s u hl
        cases s with
        | nil =>
          have : u = [] := List.length_eq_zero_iff.1 hl.symm
          simp [this]
        | cons x s =>
          cases u with
          | nil => simp at hl
          | cons y u =>
            have := ih s u (by simpa using hl)
            cases b <;> simp [this]
    rw [List.length_map]
    exact key mask s _ (by simp [hw s hs])
  · intro r hr e he
    obtain ⟨s, hs, hsub⟩ := hsub r hr
    exact h.le s hs e (hsub e he)
  · intro r hr e he
    obtain ⟨s, hs, hsub⟩ := hsub r hr
    exact h.lt s hs e (hsub e he)

/-- The rows of a table changed one by one. -/
theorem TableOK.map {K : Type*} {n m : ℕ} {table : List (List (ℕ × WithTop K))}
    (h : TableOK n table) (f : List (ℕ × WithTop K) → List (ℕ × WithTop K)) (c : ℕ)
    (hlen : ∀ r ∈ table, (f r).length = r.length + c)
    (hf : ∀ r ∈ table, ∀ e ∈ f r, (e.1 ≤ m ∧ (e.2 ≠ ⊤ → e.1 < m))) : TableOK m (table.map f) := by
  obtain ⟨w, hw⟩ := h.width
  refine ⟨⟨w + c, ?_⟩, ?_, ?_⟩
  · intro r hr
    obtain ⟨s, hs, rfl⟩ := List.mem_map.1 hr
    rw [hlen s hs, hw s hs]
  · intro r hr e he
    obtain ⟨s, hs, rfl⟩ := List.mem_map.1 hr
    exact (hf s hs e he).1
  · intro r hr e he
    obtain ⟨s, hs, rfl⟩ := List.mem_map.1 hr
    exact (hf s hs e he).2

theorem TableOK.filterNeighbors (env : Env ℝ) (dm : List (List (List ℝ))) {indices : List (Idx d)}
    {table : List (List (ℕ × WithTop ℝ))} (h : TableOK indices.length table) (xInd : List (Idx d)) :
    TableOK indices.length (filterNeighbors env dm indices table xInd) := by
  have h1 : TableOK indices.length
      (List.zipWith (fun row (x : Idx d) => filterRow dm indices x.alpha row) table xInd) := by
    obtain ⟨w, hw⟩ := h.width
    have hmem : ∀ r ∈ List.zipWith (fun row (x : Idx d) => filterRow dm indices x.alpha row) table
        xInd, ∃ s ∈ table, ∃ a, r = filterRow dm indices a s := by
      intro r hr
      obtain ⟨i, hi⟩ := List.mem_iff_getElem?.1 hr
      rw [List.getElem?_zipWith] at hi
      cases h1 : table[i]? with
      | none => rw [h1] at hi; simp at hi
      | some s =>
        cases h2 : xInd[i]? with
        | none => rw [h1, h2] at hi; simp at hi
        | some x =>
          rw [h1, h2] at hi
          exact ⟨s, List.mem_of_getElem? h1, Idx.alpha x, (Option.some.inj hi).symm⟩
    have hent : ∀ s ∈ table, ∀ a, ∀ e ∈ filterRow dm indices a s, e ∈ s ∨ e = (indices.length, ⊤) := by
      intro s _ a e he
      obtain ⟨p, hp, rfl⟩ := List.mem_map.1 he
      split_ifs
      · exact Or.inl hp
      · exact Or.inr rfl
    refine ⟨⟨w, ?_⟩, ?_, ?_⟩
    · intro r hr
      obtain ⟨s, hs, a, rfl⟩ := hmem r hr
      rw [filterRow_length, hw s hs]
    · intro r hr e he
      obtain ⟨s, hs, a, rfl⟩ := hmem r hr
      rcases hent s hs a e he with h' | rfl
      · exact h.le s hs e h'
      · exact le_refl _
    · intro r hr e he hne
      obtain ⟨s, hs, a, rfl⟩ := hmem r hr
      rcases hent s hs a e he with h' | rfl
      · exact h.lt s hs e h' hne
      · exact absurd rfl hne
  have h2 := h1.map (m := indices.length)
    (fun row => gather row (env.argsort (row.map Prod.snd))) 0
    (fun r _ => (getElem?_gather_sorted env r).1.length_eq)
    (fun r hr e he => by
      have := (getElem?_gather_sorted env r).1.mem_iff.1 he
      exact ⟨h1.le r hr e this, h1.lt r hr e this⟩)
  unfold Structure.filterNeighbors
  dsimp only
  split_ifs with hall
  · refine h2.map (fun row => row ++ [(indices.length, ⊤)]) 1 (fun r _ => by simp) ?_
    intro r hr e he
    rcases List.mem_append.1 he with he | he
    · exact ⟨h2.le r hr e he, h2.lt r hr e he⟩
    · rw [List.mem_singleton.1 he]
      exact ⟨le_refl _, fun hne => absurd rfl hne⟩
  · exact h2.maskCols _

theorem filterNeighbors_length (env : Env ℝ) (dm : List (List (List ℝ))) (indices : List (Idx d))
    (table : List (List (ℕ × WithTop ℝ))) (xInd : List (Idx d)) :
    (filterNeighbors env dm indices table xInd).length = min table.length xInd.length := by
  unfold filterNeighbors
  dsimp only
  split_ifs <;> simp [maskCols]

/-- The table of a tree query. -/
theorem kdQuery_tableOK (env : Env ℝ) (points : List (Vec d ℝ)) {k : ℕ} (hk : 1 ≤ k)
    (maxDist : WithTop ℝ) (x : List (Vec d ℝ)) (decimals : Option ℕ) (includeZero compact : Bool) :
    let q := kdQuery env points k maxDist x decimals includeZero compact
    TableOK points.length (List.zipWith List.zip q.neighbors q.dists) ∧
      (List.zipWith List.zip q.neighbors q.dists).length = x.length := by
  obtain ⟨sel, drop, w, hS, -, hw, -, -, -, hN, hD⟩ :=
    kdQuery_normal env points k hk maxDist x decimals includeZero compact
  dsimp only
  rw [hN, hD, List.zipWith_map, List.zipWith_self]
  have hrow : ∀ q ∈ x, ((sel q).drop drop.toNat ++
      List.replicate (w - ((sel q).drop drop.toNat).length) points.length).zip
      (((sel q).drop drop.toNat).map
          (fun j => ((rnd decimals (pointDist points q j) : ℝ) : WithTop ℝ)) ++
        List.replicate (w - ((sel q).drop drop.toNat).length) ⊤) =
      ((sel q).drop drop.toNat).map
          (fun j => (j, ((rnd decimals (pointDist points q j) : ℝ) : WithTop ℝ))) ++
        List.replicate (w - ((sel q).drop drop.toNat).length) (points.length, ⊤) := by
    intro q _
    rw [List.zip_append (by simp)]
    congr 1
    · rw [List.zip, List.zipWith_map_right, List.zipWith_self]
    · simp
  rw [List.map_congr_left hrow]
  refine ⟨⟨⟨w, ?_⟩, ?_, ?_⟩, by simp⟩
  · intro r hr
    obtain ⟨q, hq, rfl⟩ := List.mem_map.1 hr
    have := hw q hq
    rw [List.length_append, List.length_map, List.length_replicate]
    omega
  · intro r hr e he
    obtain ⟨q, hq, rfl⟩ := List.mem_map.1 hr
    rcases List.mem_append.1 he with he | he
    · obtain ⟨j, hj, rfl⟩ := List.mem_map.1 he
      exact le_of_lt ((hS q).range j (List.mem_of_mem_drop hj)).1
    · rw [(List.mem_replicate.1 he).2]
  · intro r hr e he hne
    obtain ⟨q, hq, rfl⟩ := List.mem_map.1 hr
    rcases List.mem_append.1 he with he | he
    · obtain ⟨j, hj, rfl⟩ := List.mem_map.1 he
      exact ((hS q).range j (List.mem_of_mem_drop hj)).1
    · rw [(List.mem_replicate.1 he).2] at hne
      exact absurd rfl hne

theorem queryParams_pos {A : Analysis d ℝ} {k : ℕ} {r : ℝ} (h : queryParams A = .ok (k, r)) :
    1 ≤ k := by
  unfold queryParams at h
  dsimp only at h
  split at h
  · cases h
  · cases h
  · split_ifs at h
    cases h
    omega

/-- The table of `compute_neighbors`. -/
theorem computeNeighbors_tableOK {env : Env ℝ} {S : Structure d ℝ} {indices : List (Idx d)}
    {positions : List (Vec d ℝ)} {table : List (List (ℕ × WithTop ℝ))}
    (hlen : indices.length = positions.length)
    (h : computeNeighbors env S indices positions = .ok table) :
    TableOK indices.length table ∧ table.length = indices.length := by
  unfold computeNeighbors at h
  split at h
  · cases h
  · split at h
    · cases h
    · rename_i k r hq
      cases h
      obtain ⟨h1, h2⟩ := kdQuery_tableOK env positions (queryParams_pos hq) (r : WithTop ℝ) positions
        (some distDecimals) false true
      rw [← hlen] at h1
      refine ⟨h1.filterNeighbors env _ _, ?_⟩
      rw [filterNeighbors_length, h2, hlen, min_self]

/-- The table of the sites translated by a vector. -/
theorem pTable_tableOK (env : Env ℝ) (S : Structure d ℝ) (A : Analysis d ℝ) {k : ℕ} (hk : 1 ≤ k)
    (maxDist : ℝ) {indices : List (Idx d)} {positions : List (Vec d ℝ)}
    (hlen : indices.length = positions.length) (nvec : Fin d → ℤ) :
    TableOK indices.length (Lattice.pTable env S A k maxDist indices positions nvec) ∧
      (Lattice.pTable env S A k maxDist indices positions nvec).length = indices.length := by
  obtain ⟨h1, h2⟩ := kdQuery_tableOK env positions hk (maxDist : WithTop ℝ)
    (positions.map (S.basis.translate nvec)) (some distDecimals) false true
  rw [← hlen] at h1
  unfold Lattice.pTable
  dsimp only
  refine ⟨h1.filterNeighbors env _ _, ?_⟩
  rw [filterNeighbors_length, h2]
  simp [hlen]

/-- The table after the removal of dangling sites. -/
theorem dropDangling_tableOK {indices : List (Idx d)} {positions : List (Vec d ℝ)}
    {table : List (List (ℕ × WithTop ℝ))} {m : Option ℕ}
    {r : List (Idx d) × List (Vec d ℝ) × List (List (ℕ × WithTop ℝ))}
    (hlen : indices.length = positions.length) (ht : TableOK indices.length table)
    (htl : table.length = indices.length)
    (hr : Lattice.dropDangling m indices positions table = .ok r) :
    r.1.length = r.2.1.length ∧ TableOK r.1.length r.2.2 ∧ r.2.2.length = r.1.length := by
  cases m with
  | none =>
    simp only [Lattice.dropDangling, Except.ok.injEq] at hr
    subst hr
    exact ⟨hlen, ht, htl⟩
  | some m =>
    simp only [Lattice.dropDangling] at hr
    obtain ⟨sites, hnd, hlt, -, hcount, r1, r2, r3⟩ :=
      filterDangling_ok rfl hlen.symm htl ht.le hr
    have hk : (keptSites sites indices.length).length = newIndex sites indices.length := rfl
    have hkl : ∀ s ∈ keptSites sites indices.length, s < indices.length := by
      intro s hs
      exact List.mem_range.1 (List.mem_filter.1 hs).1
    have g1 : (gather indices (keptSites sites indices.length)).length =
        newIndex sites indices.length := by
      rw [gather_length _ _ hkl, hk]
    have g2 : (gather positions (keptSites sites indices.length)).length =
        newIndex sites indices.length := by
      rw [gather_length _ _ (by rw [← hlen]; exact hkl), hk]
    have g3 : (gather table (keptSites sites indices.length)).length =
        newIndex sites indices.length := by
      rw [gather_length _ _ (by rw [htl]; exact hkl), hk]
    have hsub : ∀ row ∈ gather table (keptSites sites indices.length), row ∈ table :=
      fun row hrow => mem_of_gather hrow
    have h1 : TableOK indices.length (gather table (keptSites sites indices.length)) := by
      obtain ⟨w, hw⟩ := ht.width
      exact ⟨⟨w, fun r hr => hw r (hsub r hr)⟩, fun r hr => ht.le r (hsub r hr),
        fun r hr => ht.lt r (hsub r hr)⟩
    rw [r1, r2, r3, g1, g2]
    refine ⟨rfl, ?_, by rw [List.length_map, g3]⟩
    refine h1.map (fun row => row.map (dropEntry sites indices.length)) 0 (fun r _ => by simp) ?_
    intro row hrow e he
    obtain ⟨p, hp, rfl⟩ := List.mem_map.1 he
    unfold dropEntry
    split_ifs with hs
    · exact ⟨le_refl _, fun hne => absurd rfl hne⟩
    · have hle := h1.le row hrow p hp
      refine ⟨?_, fun hne => ?_⟩
      · rcases Nat.lt_or_eq_of_le hle with hl | hl
        · exact le_of_lt (newIndex_lt sites hl hs)
        · rw [hl]
      · exact newIndex_lt sites (h1.lt row hrow p hp hne) hs

end Lattpy
