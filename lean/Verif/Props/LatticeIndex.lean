import Verif.Lemmas.LatticeHistory
import Verif.Lemmas.BuiltChain

/-!
# C61: super-index lookups
-/

set_option autoImplicit false
set_option linter.unusedSectionVars false

namespace Lattpy

open Structure World

variable {d : ℕ}

theorem whereIdx_head {α : Type*} (p : α → Bool) (l : List α) (i : ℕ) :
    (whereIdx p l).head? = some i ↔ (∃ a, l[i]? = some a ∧ p a = true) ∧
      ∀ j < i, ∀ b, l[j]? = some b → p b = false := by
  have hs := whereIdx_pairwise p l
  constructor
  · intro h
    cases hw : whereIdx p l with
    | nil => rw [hw] at h; cases h
    | cons j js =>
      rw [hw] at h hs
      cases h
      refine ⟨mem_whereIdx.1 (by rw [hw]; simp), fun j hj b hb => ?_⟩
      by_contra hp
      rw [Bool.not_eq_false] at hp
      have hm : j ∈ whereIdx p l := mem_whereIdx.2 ⟨b, hb, hp⟩
      rw [hw, List.mem_cons] at hm
      rcases hm with rfl | hm
      · omega
      · have := (List.pairwise_cons.1 hs).1 j hm
        omega
  · rintro ⟨h1, h2⟩
    have hm := mem_whereIdx.2 h1
    cases hw : whereIdx p l with
    | nil => rw [hw] at hm; cases hm
    | cons j js =>
      rw [hw] at hs hm
      obtain ⟨b, hb, hp⟩ : ∃ b, l[j]? = some b ∧ p b = true := mem_whereIdx.1 (by rw [hw]; simp)
      rcases List.mem_cons.1 hm with rfl | hm
      · rfl
      · have := (List.pairwise_cons.1 hs).1 i hm
        rw [h2 j this b hb] at hp
        cases hp

theorem whereIdx_head_none {α : Type*} (p : α → Bool) (l : List α) :
    (whereIdx p l).head? = none ↔ ∀ a ∈ l, p a = false := by
  rw [List.head?_eq_none_iff, List.eq_nil_iff_forall_not_mem]
  constructor
  · intro h a ha
    obtain ⟨i, hi⟩ := List.mem_iff_getElem?.1 ha
    by_contra hp
    exact h i (mem_whereIdx.2 ⟨a, hi, by simpa using hp⟩)
  · intro h i hi
    obtain ⟨a, ha, hp⟩ := mem_whereIdx.1 hi
    rw [h a (List.mem_of_getElem? ha)] at hp
    cases hp

/-- Positions differ by at least `atol` in some coordinate. -/
def Separated (atol : ℝ) (p q : Vec d ℝ) : Prop := ∃ k, atol ≤ |p k - q k|

/-- After any history of configuration calls, builds (without an explicit index type) and
`set_periodic` calls, also failing ones: `superindex_from_index` is the inverse of the table of
indices, and returns `None` exactly for indices which are not in the lattice. -/
theorem C61_index (hd : 0 < d) {env : Env ℝ} {w : World d ℝ} (hw : Reachable env w)
    (ops : List (Lattice.Op d ℝ)) (hb : ∀ a, Lattice.Op.build a ∈ ops → a.bits = none)
    {D : LatticeData d ℝ} (hD : (Lattice.run env (Lattice.ofWorld w) ops).data = some D) :
    (∀ i x, (Lattice.run env (Lattice.ofWorld w) ops).superindexFromIndex x = .ok (some i) ↔
      D.indices[i]? = some x) ∧
    ∀ x, (Lattice.run env (Lattice.ofWorld w) ops).superindexFromIndex x = .ok none ↔
      x ∉ D.indices := by
  obtain ⟨-, h⟩ := Lattice.run_sites hd hw ops hb
  obtain ⟨hnd, -⟩ := h D hD
  have hval : ∀ x, (Lattice.run env (Lattice.ofWorld w) ops).superindexFromIndex x =
      .ok (whereIdx (fun y : Idx d => decide (y = x)) D.indices).head? := by
    intro x
    unfold Lattice.superindexFromIndex
    rw [hD]
  refine ⟨fun i x => ?_, fun x => ?_⟩
  · rw [hval, Except.ok.injEq, whereIdx_head]
    constructor
    · rintro ⟨⟨a, ha, hax⟩, -⟩
      rw [ha, of_decide_eq_true hax]
    · intro hx
      refine ⟨⟨x, hx, by simp⟩, fun j hj b hb => ?_⟩
      rw [decide_eq_false_iff_not]
      rintro rfl
      have := (List.getElem?_inj (List.getElem?_eq_some_iff.1 hb).1 hnd).1 (hb.trans hx.symm)
      omega
  · rw [hval, Except.ok.injEq, whereIdx_head_none]
    constructor
    · intro h hx
      have := h x hx
      simp at this
    · intro hx a ha
      rw [decide_eq_false_iff_not]
      rintro rfl
      exact hx ha

/-- `superindex_from_pos(pos, atol)` with any sites: `None` exactly if every site differs from `pos`
by at least `atol` in some coordinate; otherwise the first site that does not.  If all sites are
that far apart from each other, it is the inverse of the table of positions. -/
theorem C61_position_partial {L : Lattice d ℝ} {D : LatticeData d ℝ} (hD : L.data = some D)
    (atol : ℝ) :
    (∀ p, L.superindexFromPos p atol = .ok none ↔ ∀ q ∈ D.positions, Separated atol q p) ∧
    (∀ p i, L.superindexFromPos p atol = .ok (some i) ↔
      (∃ q, D.positions[i]? = some q ∧ ¬ Separated atol q p) ∧
      ∀ j < i, ∀ q, D.positions[j]? = some q → Separated atol q p) ∧
    (0 < atol → D.positions.Pairwise (Separated atol) → ∀ i p, D.positions[i]? = some p →
      L.superindexFromPos p atol = .ok (some i)) := by
  have hval : ∀ p, L.superindexFromPos p atol =
      .ok (whereIdx (fun x : Vec d ℝ => decide (∀ k, |x k - p k| < atol)) D.positions).head? := by
    intro p
    unfold Lattice.superindexFromPos
    rw [hD]
  have hsep : ∀ q p : Vec d ℝ, decide (∀ k, |q k - p k| < atol) = false ↔ Separated atol q p := by
    intro q p
    rw [decide_eq_false_iff_not]
    unfold Separated
    push Not
    rfl
  have hnsep : ∀ q p : Vec d ℝ, decide (∀ k, |q k - p k| < atol) = true ↔ ¬ Separated atol q p := by
    intro q p
    rw [← hsep, Bool.not_eq_false]
  have hsome : ∀ p i, L.superindexFromPos p atol = .ok (some i) ↔
      (∃ q, D.positions[i]? = some q ∧ ¬ Separated atol q p) ∧
      ∀ j < i, ∀ q, D.positions[j]? = some q → Separated atol q p := by
    intro p i
    rw [hval, Except.ok.injEq, whereIdx_head]
    simp only [hsep, hnsep]
  refine ⟨fun p => ?_, hsome, fun h0 hpw i p hp => ?_⟩
  · rw [hval, Except.ok.injEq, whereIdx_head_none]
    simp only [hsep]
  · rw [hsome]
    refine ⟨⟨p, hp, ?_⟩, fun j hj q hq => ?_⟩
    · rintro ⟨k, hk⟩
      rw [sub_self, abs_zero] at hk
      linarith
    · obtain ⟨i1, rfl⟩ := List.getElem?_eq_some_iff.1 hp
      obtain ⟨j1, rfl⟩ := List.getElem?_eq_some_iff.1 hq
      exact List.pairwise_iff_getElem.1 hpw j i j1 i1 hj

/-- The chain with sites at 0, 1 and 3: both lookups. -/
example (env : Env ℝ) : ∃ (w : World 1 ℝ) (ops : List (Lattice.Op 1 ℝ)) (D : LatticeData 1 ℝ),
    Reachable env w ∧ (∀ a, Lattice.Op.build a ∈ ops → a.bits = none) ∧
    (Lattice.run env (Lattice.ofWorld w) ops).data = some D ∧ D.positions.length = 3 ∧
    D.positions.Pairwise (Separated (1 / 10 ^ 4)) ∧
    (Lattice.run env (Lattice.ofWorld w) ops).superindexFromIndex (Idx.mk (fun _ => 3) 0) =
      .ok (some 2) ∧
    (Lattice.run env (Lattice.ofWorld w) ops).superindexFromIndex (Idx.mk (fun _ => 2) 0) =
      .ok none ∧
    (Lattice.run env (Lattice.ofWorld w) ops).superindexFromPos (fun _ => 3) (1 / 10 ^ 4) =
      .ok (some 2) ∧
    (Lattice.run env (Lattice.ofWorld w) ops).superindexFromPos (fun _ => 2) (1 / 10 ^ 4) =
      .ok none := by
  obtain ⟨w, A, L, D, table, h⟩ := exists_isBuiltChain env Nat.one_pos (by norm_num) 3
    (fun i => decide (i ≠ 2)) (by decide)
  have hrun : Lattice.run env (Lattice.ofWorld w)
      [.build (chainArgs 3 fun i => decide (i ≠ 2))] = L := by
    change ((Lattice.ofWorld w).build env _).1 = L
    rw [h.build]
  have hcells : chainCells 3 (fun i => decide (i ≠ 2)) = [0, 1, 3] := by decide
  have hi := h.indices
  have hp := h.sites
  rw [hcells] at hi hp
  simp only [List.map_cons, List.map_nil] at hi hp
  have hb : ∀ a, Lattice.Op.build a ∈ [Lattice.Op.build (chainArgs 3 fun i => decide (i ≠ 2))] →
      a.bits = none := by
    intro a ha
    rw [List.mem_singleton] at ha
    cases ha
    rfl
  have hD : (Lattice.run env (Lattice.ofWorld w)
      [.build (chainArgs 3 fun i => decide (i ≠ 2))]).data = some D := by rw [hrun, h.data]
  obtain ⟨h1, h2⟩ := C61_index Nat.one_pos h.reach _ hb hD
  obtain ⟨g1, -, g3⟩ := C61_position_partial hD (1 / 10 ^ 4)
  have hpw : D.positions.Pairwise (Separated (1 / 10 ^ 4)) := by
    rw [hp]
    simp only [List.pairwise_cons, List.mem_cons, List.not_mem_nil, or_false, false_imp_iff,
      implies_true, List.Pairwise.nil, and_true]
    refine ⟨?_, ?_⟩
    · rintro a (rfl | rfl) <;> exact ⟨0, by norm_num⟩
    · rintro a rfl
      exact ⟨0, by norm_num⟩
  refine ⟨w, _, D, h.reach, hb, hD, by rw [hp]; rfl, hpw, (h1 _ _).2 ?_, (h2 _).2 ?_,
    g3 (by norm_num) hpw 2 _ ?_, (g1 _).2 ?_⟩
  · rw [hi]; rfl
  · rw [hi]
    simp only [List.mem_cons, List.not_mem_nil, or_false, not_or]
    refine ⟨?_, ?_, ?_⟩ <;>
    · intro he
      have := congrArg (fun x : Idx 1 => x.cell 0) he
      simp at this
  · rw [hp]
    simp
  · rw [hp]
    intro q hq
    simp only [List.mem_cons, List.not_mem_nil, or_false] at hq
    rcases hq with rfl | rfl | rfl <;> exact ⟨0, by norm_num⟩

/-- C61 fails for a lattice that has not been built: in one dimension `superindex_from_pos` answers
site 0 for every position. -/
theorem C61_unbuilt_fails (env : Env ℝ) : ∃ (w : World 1 ℝ), Reachable env w ∧
    (Lattice.ofWorld w).data = none ∧
    ∀ p : Vec 1 ℝ, (Lattice.ofWorld w).superindexFromPos p (1 / 10 ^ 4) = .ok (some 0) := by
  obtain ⟨w, A, cells, c, hr, -⟩ := exists_chain env one_pos 0 Nat.one_pos
  exact ⟨w, hr, rfl, fun p => rfl⟩

/-- C61 fails for lattice constants below the default tolerance `atol = 1e-4`: the chain with lattice
constant `5e-5` and sites at `-5e-5`, `0` and `5e-5`; site 1 is at 0, but looking up the position 0
gives site 0. -/
theorem C61_close_sites_fails (env : Env ℝ) : ∃ (w : World 1 ℝ) (a : BuildArgs 1 ℝ)
    (L : Lattice 1 ℝ) (D : LatticeData 1 ℝ), Reachable env w ∧
    w.struct.basis.vectors 0 0 = 5 / 10 ^ 5 ∧ w.struct.positions = [0] ∧
    (Lattice.ofWorld w).build env a = (L, .ok ()) ∧ L.data = some D ∧
    D.positions = [fun _ => -(5 / 10 ^ 5), fun _ => 0, fun _ => 5 / 10 ^ 5] ∧
    L.superindexFromPos (fun _ => 0) (1 / 10 ^ 4) = .ok (some 0) := by
  obtain ⟨w, A, cells, c, hr, hb, hp, hn, -, hc, hcs, hc1, hA, hI, hcells, -⟩ :=
    exists_chain env (a := 5 / 10 ^ 5) (by norm_num) 0 Nat.one_pos
  have hp : w.struct.positions = [0] := hp
  have hgood := hr.good Nat.one_pos
  -- the analysis
  have hr6 : npRound 6 (((0 + 1 : ℕ) : ℝ) * (5 / 10 ^ 5)) = (5 / 10 ^ 5 : ℝ) := by
    have : ((0 + 1 : ℕ) : ℝ) * (5 / 10 ^ 5) = ((50 : ℤ) : ℝ) / 10 ^ 6 := by norm_num
    rw [this, npRound_of_int]
    norm_num
  have hlev : w.struct.levels cells 0 0 = (List.range 3).map fun j : ℕ =>
      npRound 6 (((j + 1 : ℕ) : ℝ) * (5 / 10 ^ 5)) :=
    chain_siteLevels (p := 0) (by norm_num) hb hp (M := 3) (by
      intro n
      rw [hcells]
      norm_num)
  have hconf : Configured A 0 0 (5 / 10 ^ 5) := by
    rw [hI.configured]
    refine ⟨le_rfl, le_rfl, by rw [hn]; norm_num, by rw [hn]; norm_num, ?_⟩
    simp only [Int.toNat_zero]
    rw [hlev, hc1]
    simp only [List.range_succ_eq_map, List.map_cons, List.take_succ_cons, List.mem_cons]
    exact Or.inl hr6.symm
  obtain ⟨k, maxDist, hq⟩ := hI.queryParams_ok Nat.one_pos (by rw [hn]; norm_num) (by
    intro a ha b hb
    rw [hn] at ha hb
    obtain rfl : a = 0 := by omega
    obtain rfl : b = 0 := by omega
    rw [hlev]
    simp) hconf
  obtain ⟨hk, hk2, -⟩ := hI.queryParams hq
  -- the sites
  have ha0 : (0 : ℝ) < 5 / 10 ^ 5 := by norm_num
  have hnv := chain_nvecs hb (x := 5 / 10 ^ 5) ha0.le (N := 1) (by
    rw [inv_mul_cancel₀ ha0.ne']; simp)
  have hbi := buildIndices_none (S := w.struct) hgood.positions_length (by rw [hn]; norm_num)
    (check := true) hnv (by
      intro points
      unfold checkError checkPoints
      rw [if_pos rfl]
      dsimp only
      have : ∀ l : List (Vec 1 ℝ), ∃ r, l.mapM (fun p => (AShape.box (fun _ : Fin 1 =>
          (5 / 10 ^ 5 : ℝ)) 0 none).contains p (1 / 1000)) = .ok r := by
        intro l
        exact ⟨_, mapM_ok _ (fun p => decide (∀ k, (0 : Vec 1 ℝ) k - 1 / 1000 ≤ p k ∧
          p k ≤ (0 : Vec 1 ℝ) k + 5 / 10 ^ 5 + 1 / 1000)) l (fun _ _ => rfl)⟩
      obtain ⟨r, hr⟩ := this points
      rw [hr])
  have hsp : ∀ z : ℤ, w.struct.sitePos (Idx.mk (fun _ => z) 0) = fun _ => (z : ℝ) * (5 / 10 ^ 5) := by
    intro z
    funext k
    have := chain_sitePos hb (fun _ => z) 0 k
    simp only [Nat.cast_zero] at this
    rw [this]
    simp [posOf, hp]
  have hsl : siteList w.struct.numBase ((List.range (1 + 2)).map fun i : ℕ =>
      (fun _ => (i : ℤ) - 1 : Fin 1 → ℤ)) =
      [Idx.mk (fun _ => -1) 0, Idx.mk (fun _ => 0) 0, Idx.mk (fun _ => 1) 0] := by
    rw [hn]
    rfl
  have hall : ∀ idx ∈ ([Idx.mk (fun _ => -1) 0, Idx.mk (fun _ => 0) 0, Idx.mk (fun _ => 1) 0] :
      List (Idx 1)), (!true || w.struct.accepts (.shape (.box (fun _ => 5 / 10 ^ 5) 0 none)) false none
        (1 / 1000) (w.struct.sitePos idx)) = true := by
    intro idx hidx
    simp only [List.mem_cons, List.not_mem_nil, or_false] at hidx
    rcases hidx with rfl | rfl | rfl <;>
    · rw [hsp]
      unfold accepts AShape.contains
      simp only [Bool.not_true, Bool.false_or, decide_eq_true_eq, Pi.zero_apply]
      intro k
      norm_num
  rw [hsl, List.filter_eq_self.2 hall] at hbi
  have hps : ([Idx.mk (fun _ => -1) 0, Idx.mk (fun _ => 0) 0, Idx.mk (fun _ => 1) 0] :
      List (Idx 1)).map w.struct.sitePos =
      [fun _ => -(5 / 10 ^ 5), fun _ => 0, fun _ => 5 / 10 ^ 5] := by
    simp only [List.map_cons, List.map_nil, hsp]
    norm_num
  rw [hps] at hbi
  have hpn : ([fun _ => -(5 / 10 ^ 5), fun _ => 0, fun _ => 5 / 10 ^ 5] : List (Vec 1 ℝ)).Nodup := by
    simp only [List.nodup_cons, List.mem_cons, List.not_mem_nil, or_false, not_or,
      not_false_eq_true, List.nodup_nil, and_true]
    refine ⟨⟨?_, ?_⟩, ?_⟩ <;>
    · intro h
      have := congrFun h 0
      norm_num at this
  obtain ⟨table, hcomp, htl, -⟩ := computeNeighbors_rows env hI hA hq
    [Idx.mk (fun _ => -1) 0, Idx.mk (fun _ => 0) 0, Idx.mk (fun _ => 1) 0] _ rfl hpn
  obtain ⟨-, -, hcompl⟩ := C44_neighbors_partial Nat.one_pos hr hA _ _ rfl hpn (by
    intro x hx
    simp only [List.mem_cons, List.not_mem_nil, or_false] at hx
    rw [hn]
    rcases hx with rfl | rfl | rfl <;> simp) hcomp
  have hdist : distance (fun _ : Fin 1 => (0 : ℝ)) (fun _ => -(5 / 10 ^ 5)) = 5 / 10 ^ 5 := by
    rw [distance_one]
    norm_num
  have hd6 : distance (fun _ : Fin 1 => (0 : ℝ)) (fun _ => -(5 / 10 ^ 5)) (some 6) = 5 / 10 ^ 5 := by
    have h1 : ((0 + 1 : ℕ) : ℝ) * (5 / 10 ^ 5) = 5 / 10 ^ 5 := by norm_num
    rw [h1] at hr6
    rw [distance_some, hdist, hr6]
  have hlink := hcompl (by
    intro y hy
    obtain ⟨a, ha, b, hb', hy⟩ := hI.mem_raw.1 hy
    rw [hn] at ha hb'
    obtain rfl : a = 0 := by omega
    obtain rfl : b = 0 := by omega
    rw [hlev] at hy
    simp only [List.range_succ_eq_map, List.map_cons, List.take_succ_cons, List.mem_cons,
      List.take_zero, List.not_mem_nil, or_false] at hy
    rw [hy, hr6]
    norm_num) 0 1 _ _ _ _ rfl rfl rfl rfl (by norm_num)
    (by rw [hd6]; simpa using hconf) (by
      rw [← hk]
      refine le_trans ?_ hk2
      unfold closer
      rw [hdist]
      have h3 : ¬ distance (fun _ : Fin 1 => (5 / 10 ^ 5 : ℝ)) (fun _ => -(5 / 10 ^ 5)) ≤ 5 / 10 ^ 5 := by
        rw [distance_one]
        norm_num
      rw [List.filter_cons, List.filter_cons, List.filter_cons, decide_eq_false h3]
      simp only [Bool.false_eq_true, if_false, List.filter_nil]
      split_ifs <;> simp)
  obtain ⟨row, hrow, hmem⟩ := hlink
  obtain ⟨D, hset⟩ : ∃ D, LatticeData.set
      [Idx.mk (fun _ => -1) 0, Idx.mk (fun _ => 0) 0, Idx.mk (fun _ => 1) 0]
      [fun _ => -(5 / 10 ^ 5), fun _ => 0, fun _ => 5 / 10 ^ 5] (table.map fun r => r.map Prod.fst)
      (table.map fun r => r.map Prod.snd) = .ok D ∧ D.positions =
      [fun _ => -(5 / 10 ^ 5), fun _ => 0, fun _ => 5 / 10 ^ 5] := by
    rcases set_cases ([Idx.mk (fun _ => -1) 0, Idx.mk (fun _ => 0) 0, Idx.mk (fun _ => 1) 0] :
        List (Idx 1)) ([fun _ => -(5 / 10 ^ 5), fun _ => 0, fun _ => 5 / 10 ^ 5] : List (Vec 1 ℝ))
        (table.map fun r => r.map Prod.fst) (table.map fun r => r.map Prod.snd) with
      ⟨hf, -⟩ | ⟨-, D, h1, -, h2, -⟩
    · have h3 := List.flatten_eq_nil_iff.1 hf _ (List.mem_map.2 ⟨row, List.mem_of_getElem? hrow, rfl⟩)
      rw [List.map_eq_nil_iff] at h3
      rw [h3] at hmem
      cases hmem
    · exact ⟨D, h1, h2⟩
  obtain ⟨hset, hDp⟩ := hset
  obtain ⟨lo, hi, hlim⟩ := Lattice.getLimits_ok (D := D) (by rw [hDp]; simp)
  refine ⟨w, { shape := .shape (.box (fun _ => 5 / 10 ^ 5) 0 none) }, _, D, hr,
    by rw [hb, chain_vectors], hp, Lattice.build_of (L := Lattice.ofWorld w)
      (a := { shape := .shape (.box (fun _ => 5 / 10 ^ 5) 0 none) }) hA ?_ rfl hbi hcomp rfl hset hlim rfl, rfl, hDp, ?_⟩
  · intro c' hc'
    have hc' : w.struct.conn = some c' := hc'
    rw [hc] at hc'
    cases hc'
    by_contra hz
    rw [Bool.not_eq_false, ConnMatrix.allZero_iff] at hz
    have h1 := hz 0 (by omega) 0 (by omega)
    omega
  · refine ((C61_position_partial rfl (1 / 10 ^ 4)).2.1 _ 0).2 ⟨⟨_, by rw [hDp]; rfl, ?_⟩, by simp⟩
    rintro ⟨k, hk⟩
    norm_num at hk

end Lattpy
