import Verif.Props.AppendChain

/-!
# C93: connections between two lattices
-/

set_option autoImplicit false
set_option linter.unusedSectionVars false

namespace Lattpy
open Lattpy.Lattice Structure
variable {d : ℕ}

/-- `r` lists every pair of a point of `P` and a point of `Q` not further apart than `R` once, with
its distance. -/
def PairsWithin (P Q : List (Vec d ℝ)) (R : ℝ) (r : List ((ℕ × ℕ) × ℝ)) : Prop :=
  (r.map Prod.fst).Nodup ∧ ∀ i j x, ((i, j), x) ∈ r ↔
    ∃ p q, P[i]? = some p ∧ Q[j]? = some q ∧ x = distance p q ∧ distance p q ≤ R

theorem connectionNeighbors_pairs {S : Structure d ℝ} {A : Analysis d ℝ} (hA : S.analysis = some A)
    {k : ℕ} {R : ℝ} (hq : queryParams A = .ok (k, R)) (env : Env ℝ) (P Q : List (Vec d ℝ)) :
    ∃ r, connectionNeighbors env S P Q = .ok r ∧ PairsWithin P Q R r ∧
      r.Pairwise fun a b => a.1.1 ≤ b.1.1 := by
  have hball : ∀ p : Vec d ℝ, (env.ball Q.length (fun j => distance p (Q.getD j 0)) R).Perm
      ((List.range Q.length).filter fun j => decide (distance p (Q.getD j 0) ≤ R)) :=
    fun p => env.ball_spec _ _ _
  have hidx : P.zipIdx.Pairwise fun a b => a.2 < b.2 := by
    have : (P.zipIdx.map Prod.snd).Pairwise (· < ·) := by
      rw [List.zipIdx_map_snd]
      exact List.pairwise_lt_range'
    exact List.pairwise_map.1 this
  rw [connectionNeighbors_eq hA hq]
  refine ⟨_, rfl, ⟨?_, ?_⟩, ?_⟩
  · rw [List.map_flatMap, List.nodup_flatMap]
    refine ⟨fun p _ => ?_, ?_⟩
    · rw [List.map_map]
      refine List.Nodup.map ?_ ((hball p.1).nodup_iff.2 (List.nodup_range.filter _))
      intro a b hab
      simpa using hab
    · refine hidx.imp ?_
      intro a b hab x hx hy
      dsimp only at hx hy
      rw [List.map_map] at hx hy
      obtain ⟨u, -, rfl⟩ := List.mem_map.1 hx
      obtain ⟨v, -, h⟩ := List.mem_map.1 hy
      have := congrArg Prod.fst h
      dsimp only [Function.comp_apply] at this
      omega
  · intro i j x
    simp only [List.mem_flatMap, List.mem_map]
    constructor
    · rintro ⟨⟨p, i'⟩, hp, j', hj, he⟩
      have he' : i' = i ∧ j' = j ∧ distance p (Q.getD j' 0) = x := by
        simpa [Prod.mk.injEq, and_assoc] using he
      obtain ⟨rfl, rfl, rfl⟩ := he'
      have hj2 := (hball p).mem_iff.1 hj
      simp only [List.mem_filter, List.mem_range, decide_eq_true_eq] at hj2
      have hq' : Q[j']? = some (Q.getD j' 0) := by simp [hj2.1]
      refine ⟨p, _, ?_, hq', rfl, hj2.2⟩
      rw [List.mem_zipIdx_iff_getElem?] at hp
      exact hp
    · rintro ⟨p, q, hp, hq', rfl, hle⟩
      have e : Q.getD j 0 = q := by simp [hq']
      refine ⟨(p, i), ?_, j, (hball p).mem_iff.2 ?_, by rw [e]⟩
      · rw [List.mem_zipIdx_iff_getElem?]
        exact hp
      · simp only [List.mem_filter, List.mem_range, decide_eq_true_eq]
        exact ⟨(List.getElem?_eq_some_iff.1 hq').1, by rw [e]; exact hle⟩
  · rw [List.pairwise_flatMap]
    refine ⟨fun p _ => ?_, hidx.imp ?_⟩
    · rw [List.pairwise_map]
      exact List.pairwise_of_forall fun _ _ => le_rfl
    · intro a b hab x hx y hy
      obtain ⟨u, -, rfl⟩ := List.mem_map.1 hx
      obtain ⟨v, -, rfl⟩ := List.mem_map.1 hy
      exact hab.le

/-- C93, which pairs `compute_connections` lists: those not further apart than the largest
configured distance plus a tenth of the smallest distance found by `analyze`, each once, ordered by
the first site, with the distance.  All pairs at a configured distance are among them if the
distances found by `analyze` are at least `5e-6` (distances are rounded to six decimals). -/
theorem C93_pairs_partial (hd : 0 < d) {env : Env ℝ} {L M : Lattice d ℝ} (h : Reachable env L.world)
    {A : Analysis d ℝ} (hA : L.struct.analysis = some A) {D E : LatticeData d ℝ}
    (hD : L.data = some D) (hE : M.data = some E) {r : List ((ℕ × ℕ) × ℝ)}
    (hr : L.computeConnections env M = .ok r) :
    ∃ m y, PairsWithin D.positions E.positions (m + y / 10) r ∧
      (r.Pairwise fun a b => a.1.1 ≤ b.1.1) ∧ RawDistance A y ∧ (∀ z, RawDistance A z → y ≤ z) ∧
      (m = 0 ∨ ∃ a b, Configured A a b m) ∧ (∀ a b x, Configured A a b x → x ≤ m) ∧
      (5 / 10 ^ 6 ≤ y → ∀ i j p q a b, D.positions[i]? = some p → E.positions[j]? = some q →
        Configured A a b (distance p q (some 6)) → ((i, j), distance p q) ∈ r) := by
  obtain ⟨cells, n, c, -, -, -, -, -, hI⟩ := (h.good hd).analysis A hA
  have hr' : connectionNeighbors env L.struct D.positions E.positions = .ok r := by
    unfold computeConnections at hr
    rw [hD, hE] at hr
    exact hr
  cases hq : queryParams A with
  | error e =>
    unfold connectionNeighbors at hr'
    rw [hA] at hr'
    dsimp only at hr'
    rw [hq] at hr'
    cases hr'
  | ok v =>
    obtain ⟨k, R⟩ := v
    obtain ⟨-, -, -, m, y, hR, h1, h2, h3, h4⟩ := hI.queryParams hq
    obtain ⟨r', hr2, hp, ho⟩ := connectionNeighbors_pairs hA hq env D.positions E.positions
    rw [hr'] at hr2
    cases hr2
    have hR' : R = m + y / 10 := by rw [hR]; ring
    rw [hR'] at hp
    refine ⟨m, y, hp, ho, h1, h2, h3, h4, ?_⟩
    intro hy i j p q a b hi hj hc
    refine (hp.2 i j _).2 ⟨p, q, hi, hj, rfl, ?_⟩
    have h5 := h4 a b _ hc
    rw [distance_some] at h5
    have h6 := abs_le.1 (abs_npRound_sub_le 6 (distance p q))
    norm_num at h6 hy
    linarith [h6.1]

/-- C93: for lattices with the same configuration the answers of the two lattices are the same
pairs with the sites exchanged. -/
theorem C93_swap {env : Env ℝ} {L M : Lattice d ℝ} (hS : M.struct = L.struct)
    {r : List ((ℕ × ℕ) × ℝ)} (hr : L.computeConnections env M = .ok r) :
    ∃ r', M.computeConnections env L = .ok r' ∧
      r'.Perm (r.map fun e => ((e.1.2, e.1.1), e.2)) := by
  unfold computeConnections at hr ⊢
  rw [hS]
  cases hD : L.data with
  | none =>
    rw [hD] at hr
    cases h : connectionNeighbors env L.struct [] [] with
    | error e => rw [h] at hr; cases hr
    | ok r' => rw [h] at hr; cases hr
  | some D =>
  cases hE : M.data with
  | none =>
    rw [hD, hE] at hr
    cases h : connectionNeighbors env L.struct [] [] with
    | error e => rw [h] at hr; cases hr
    | ok r' => rw [h] at hr; cases hr
  | some E =>
  rw [hD, hE] at hr
  dsimp only at hr ⊢
  cases hA : L.struct.analysis with
  | none => unfold connectionNeighbors at hr; rw [hA] at hr; cases hr
  | some A =>
  cases hq : queryParams A with
  | error e =>
    unfold connectionNeighbors at hr
    rw [hA] at hr
    dsimp only at hr
    rw [hq] at hr
    cases hr
  | ok v =>
  obtain ⟨k, R⟩ := v
  obtain ⟨r1, e1, ⟨n1, m1⟩, -⟩ := connectionNeighbors_pairs hA hq env D.positions E.positions
  obtain ⟨r2, e2, ⟨n2, m2⟩, -⟩ := connectionNeighbors_pairs hA hq env E.positions D.positions
  rw [hr] at e1
  cases e1
  refine ⟨r2, e2, (List.perm_ext_iff_of_nodup (n2.of_map _) ((n1.of_map _).map ?_)).2 ?_⟩
  · rintro ⟨⟨a, b⟩, x⟩ ⟨⟨a', b'⟩, x'⟩ hab
    simp only [Prod.mk.injEq] at hab ⊢
    tauto
  · rintro ⟨⟨j, i⟩, x⟩
    rw [m2, List.mem_map]
    constructor
    · rintro ⟨q, p, hq', hp, rfl, hle⟩
      exact ⟨((i, j), distance q p), (m1 _ _ _).2 ⟨p, q, hp, hq', distance_comm _ _ none,
        by rw [distance_comm]; exact hle⟩, rfl⟩
    · rintro ⟨⟨⟨i', j'⟩, x'⟩, hm, he⟩
      simp only [Prod.mk.injEq] at he
      obtain ⟨⟨rfl, rfl⟩, rfl⟩ := he
      obtain ⟨p, q, hp, hq', rfl, hle⟩ := (m1 _ _ _).1 hm
      exact ⟨q, p, hq', hp, distance_comm _ _ none, by rw [distance_comm]; exact hle⟩

/-- C93: a lattice without data raises. -/
theorem C93_no_data (env : Env ℝ) (L M : Lattice d ℝ) (h : L.data = none ∨ M.data = none) :
    ∃ e, L.computeConnections env M = .error e := by
  unfold computeConnections
  rcases h with h | h
  · rw [h]
    cases connectionNeighbors env L.struct [] [] with
    | error e => exact ⟨e, rfl⟩
    | ok r => exact ⟨_, rfl⟩
  · rw [h]
    cases L.data <;> cases connectionNeighbors env L.struct [] [] with
    | error e => exact ⟨e, rfl⟩
    | ok r => exact ⟨_, rfl⟩

/-- C93 fails: `compute_connections` does not compare the distances with the configured ones.  Of
two chains with nearest neighbours only, the second one with every second site, the sites of the
cell 0 are reported as connected although their distance 0 is not configured. -/
theorem C93_distances_fails (env : Env ℝ) :
    ∃ (w : World 1 ℝ) (A : Analysis 1 ℝ) (L M : Lattice 1 ℝ) (a b : BuildArgs 1 ℝ)
      (r : List ((ℕ × ℕ) × ℝ)),
      Reachable env w ∧ (ofWorld w).build env a = (L, .ok ()) ∧
      (ofWorld w).build env b = (M, .ok ()) ∧ L.struct.analysis = some A ∧
      (∀ x, Configured A 0 0 x ↔ x = 1) ∧ L.computeConnections env M = .ok r ∧
      ((0, 0), 0) ∈ r ∧ ((0, 1), 2) ∉ r := by
  obtain ⟨w, A, hall⟩ := exists_isBuiltChains env one_pos (by norm_num)
  obtain ⟨L, D, t, hL⟩ := hall 2 (fun _ => true) (by decide)
  obtain ⟨M, E, t', hM⟩ := hall 2 (fun i => i % 2 == 0) (by decide)
  obtain ⟨R, ⟨⟨k, hq⟩, hR1, hR2⟩⟩ := hL.radius one_pos
  have hLA : L.struct.analysis = some A := by
    change L.world.struct.analysis = _
    rw [hL.world]
    exact hL.analysis
  obtain ⟨r, hr, ⟨-, hm⟩, -⟩ := connectionNeighbors_pairs hLA hq env D.positions E.positions
  have e1 : chainCells 2 (fun _ => true) = [0, 1, 2] := by decide
  have e2 : chainCells 2 (fun i => i % 2 == 0) = [0, 2] := by decide
  have hDp := hL.sites
  have hEp := hM.sites
  rw [e1] at hDp
  rw [e2] at hEp
  refine ⟨w, A, L, M, _, _, r, hL.reach, hL.build, hM.build, hLA, ?_, ?_, ?_, ?_⟩
  · intro x
    rw [hL.configured]
    constructor
    · rintro ⟨m, h1, h2, rfl⟩
      have : m = 1 := by omega
      simp [this]
    · rintro rfl
      exact ⟨1, one_pos, le_rfl, by simp⟩
  · unfold computeConnections
    rw [hL.data, hM.data]
    exact hr
  · refine (hm _ _ _).2 ⟨_, _, by rw [hDp]; rfl, by rw [hEp]; rfl, ?_, ?_⟩
    · rw [distance_self]
    · rw [distance_self]
      norm_num at hR1
      linarith
  · intro h
    obtain ⟨p, q, hp, hq', he, hle⟩ := (hm _ _ _).1 h
    rw [← he] at hle
    norm_num at hR2
    linarith

/-- Two chains one of which has every second site: the hypotheses of the theorems are met and the
pair at distance 1 is listed. -/
example (env : Env ℝ) : ∃ (w : World 1 ℝ) (L M : Lattice 1 ℝ) (r : List ((ℕ × ℕ) × ℝ)),
    Reachable env w ∧ L.world = w ∧ M.world = w ∧ L.computeConnections env M = .ok r ∧
    ((1, 1), 1) ∈ r := by
  obtain ⟨w, A, hall⟩ := exists_isBuiltChains env one_pos (by norm_num)
  obtain ⟨L, D, t, hL⟩ := hall 2 (fun _ => true) (by decide)
  obtain ⟨M, E, t', hM⟩ := hall 2 (fun i => i % 2 == 0) (by decide)
  obtain ⟨R, ⟨⟨k, hq⟩, hR1, hR2⟩⟩ := hL.radius one_pos
  have hLA : L.struct.analysis = some A := by
    change L.world.struct.analysis = _
    rw [hL.world]
    exact hL.analysis
  obtain ⟨r, hr, ⟨-, hm⟩, -⟩ := connectionNeighbors_pairs hLA hq env D.positions E.positions
  have e1 : chainCells 2 (fun _ => true) = [0, 1, 2] := by decide
  have e2 : chainCells 2 (fun i => i % 2 == 0) = [0, 2] := by decide
  have hDp := hL.sites
  have hEp := hM.sites
  rw [e1] at hDp
  rw [e2] at hEp
  have hx : distance (fun _ : Fin 1 => ((1 : ℕ) : ℝ)) (fun _ => ((2 : ℕ) : ℝ)) = 1 := by
    rw [distance_one]
    norm_num
  refine ⟨w, L, M, r, hL.reach, hL.world, hM.world, ?_, (hm _ _ _).2 ⟨fun _ => ((1 : ℕ) : ℝ),
    fun _ => ((2 : ℕ) : ℝ), by rw [hDp]; rfl, by rw [hEp]; rfl, hx.symm, ?_⟩⟩
  · unfold computeConnections
    rw [hL.data, hM.data]
    exact hr
  · rw [hx]
    norm_num at hR1
    linarith

end Lattpy
