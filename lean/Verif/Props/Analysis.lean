import Verif.Lemmas.Levels

/-!
# Properties of the neighbour analysis of a unit cell (C32, C33, C34, C39)
-/

set_option autoImplicit false
set_option linter.unusedSectionVars false

namespace Lattpy

open Structure World

variable {d : ℕ}

/-- The site `idx` is listed as neighbour of atom `a` at distance `x`. -/
def Listed (A : Analysis d ℝ) (a : ℕ) (x : ℝ) (idx : Idx d) : Prop :=
  ∃ (D : NDict d ℝ) (xs : List (Idx d)), A.base[a]? = some D ∧ (x, xs) ∈ D ∧ idx ∈ xs

theorem listed_iff {S : Structure d ℝ} {cells m c A} (hI : IsAnalysis S cells m c A) (a : ℕ) (x : ℝ)
    (idx : Idx d) : Listed A a x idx ↔ a < S.numBase ∧ ∃ b < S.numBase, ∃ n ∈ cells,
      idx = Idx.mk n (b : ℤ) ∧ x = S.siteDist a b n ∧
      x ∈ (S.levels cells a b).take (c.entry a b) := by
  constructor
  · rintro ⟨D, xs, hD, h1, h2⟩
    refine ⟨by rw [← hI.base_length]; exact (List.getElem?_eq_some_iff.1 hD).1, ?_⟩
    exact ((hI.base a D hD).2.2 x idx).1 (NDict.mem_pairs.2 ⟨xs, h1, h2⟩)
  · rintro ⟨ha, h⟩
    have hD : A.base[a]? = some (A.base[a]'(by rw [hI.base_length]; exact ha)) :=
      List.getElem?_eq_getElem _
    obtain ⟨xs, h1, h2⟩ := NDict.mem_pairs.1 (((hI.base a _ hD).2.2 x idx).2 h)
    exact ⟨_, xs, hD, h1, h2⟩

theorem call_analyze_ok (hd : 0 < d) {env : Env ℝ} {w : World d ℝ} (h : Reachable env w)
    {S' : Structure d ℝ} (hok : w.struct.analyze env = (S', .ok ())) :
    ∃ c cells m A, S'.conn = some c ∧ w.struct.conn = some c ∧ S'.analysis = some A ∧
      c.max? = .ok m ∧ 0 < m ∧
      S'.basis.getNeighborCells (2 * m) true (fun a b => decide (a ≤ b)) = .ok cells ∧
      IsAnalysis S' cells m c A ∧ S'.Good ∧ S'.basis = w.struct.basis ∧
      S'.positions = w.struct.positions ∧ S'.numBase = w.struct.numBase := by
  have hG := Good.analyze hd env (h.good hd)
  rcases analyze_cases hd env (h.good hd) with ⟨h1, -⟩ | ⟨c, -, -, h1⟩ |
      ⟨c, cells, m, A, hc, hz, hm, hm0, hcells, h1, hI⟩
  · rw [h1] at hok; cases hok
  · rw [h1] at hok; cases hok
  · rw [h1] at hok hG
    cases hok
    exact ⟨c, cells, m, A, hc, hc, rfl, hm, hm0, hcells, hI.congr rfl rfl rfl, hG, rfl, rfl, rfl⟩

/-! ## C32 -/

/-- After `analyze`, every index listed as neighbour of atom `a` at distance `x` is the index of a
site of the lattice, whose rounded distance from atom `a` is `x > 0`; it is not atom `a` itself. -/
theorem C32_listed_sites (hd : 0 < d) {env : Env ℝ} {w : World d ℝ} (h : Reachable env w)
    {A : Analysis d ℝ} (hA : w.struct.analysis = some A) {a : ℕ} {x : ℝ} {idx : Idx d}
    (hl : Listed A a x idx) :
    ∃ (pa p : Vec d ℝ), w.struct.positions[a]? = some pa ∧ IsSitePos w.struct idx p ∧
      x = distance p pa (some 6) ∧ 0 < x ∧ idx ≠ Idx.mk 0 (a : ℤ) := by
  have hS := h.good hd
  obtain ⟨cells, m, c, -, -, -, -, -, hI⟩ := hS.analysis A hA
  obtain ⟨ha, b, hb, n, hn, rfl, hx, hlev⟩ := (listed_iff hI a x idx).1 hl
  have hpa := exists_pos hS ha
  have hpb := exists_pos hS hb
  have hpos : 0 < x := (mem_levels.1 (List.mem_of_mem_take hlev)).1
  refine ⟨_, _, hpa, ⟨b, _, by simp, hpb, rfl⟩, ?_, hpos, ?_⟩
  · rw [hx, siteDist_eq hpa hpb]; simp
  · intro h0
    rw [Idx.mk_inj] at h0
    obtain ⟨rfl, h1⟩ := h0
    have hba : b = a := by exact_mod_cast h1
    subst hba
    rw [hx] at hpos
    unfold siteDist at hpos
    rw [LatticeBasis.translate_eq] at hpos
    simp [distance_self, npRound_zero] at hpos

/-- No index is listed twice for the same atom, neither at one distance nor at different ones. -/
theorem C32_listed_once (hd : 0 < d) {env : Env ℝ} {w : World d ℝ} (h : Reachable env w)
    {A : Analysis d ℝ} (hA : w.struct.analysis = some A) {a : ℕ} {D : NDict d ℝ}
    (hD : A.base[a]? = some D) :
    (D.map Prod.fst).Nodup ∧ (D.flatMap Prod.snd).Nodup ∧ ∀ p ∈ D, p.2 ≠ [] := by
  have hS := h.good hd
  obtain ⟨cells, m, c, -, -, -, -, -, hI⟩ := hS.analysis A hA
  obtain ⟨hwf, hnd, hmem⟩ := hI.base a D hD
  refine ⟨hwf.1, ?_, hwf.2⟩
  have hmap : D.pairs.map Prod.snd = D.flatMap Prod.snd := by
    unfold NDict.pairs
    rw [List.map_flatMap]
    congr 1
    funext p
    simp
  rw [← hmap]
  refine List.Nodup.map_on ?_ hnd
  rintro ⟨x, i⟩ h1 ⟨y, j⟩ h2 hij
  dsimp only at hij
  subst hij
  obtain ⟨b, hb, n, hn, e1, e2, -⟩ := (hmem x i).1 h1
  obtain ⟨b', hb', n', hn', f1, f2, -⟩ := (hmem y i).1 h2
  rw [e1, Idx.mk_inj] at f1
  obtain ⟨rfl, f3⟩ := f1
  have : b = b' := by exact_mod_cast f3
  subst this
  rw [e2, f2]

/-- After `analyze`, the sites of atom `b` listed as neighbours of atom `a` have at most
`connections[a][b]` different distances; these are the distances stored for the pair, ascending. -/
theorem C32_levels (hd : 0 < d) {env : Env ℝ} {w : World d ℝ} (h : Reachable env w)
    {S' : Structure d ℝ} (hok : w.struct.analyze env = (S', .ok ())) :
    ∃ c A, w.struct.conn = some c ∧ S'.analysis = some A ∧
      ∀ a b, a < w.struct.numBase → b < w.struct.numBase → ∃ row L, A.distMatrix[a]? = some row ∧
        row[b]? = some L ∧ L.length ≤ c.entry a b ∧ L.Pairwise (· < ·) ∧
        ∀ x, x ∈ L ↔ ∃ n, Listed A a x (Idx.mk n (b : ℤ)) := by
  obtain ⟨c, cells, m, A, -, hc, hA, -, -, -, hI, -, -, -, hnum⟩ := call_analyze_ok hd h hok
  refine ⟨c, A, hc, hA, ?_⟩
  intro a b ha hb
  rw [← hnum] at ha hb
  refine ⟨(List.range S'.numBase).map fun b => (S'.levels cells a b).take (c.entry a b),
    (S'.levels cells a b).take (c.entry a b), ?_, ?_, ?_, ?_, ?_⟩
  · rw [hI.distMatrix, List.getElem?_map, List.getElem?_range ha]; rfl
  · rw [List.getElem?_map, List.getElem?_range hb]; rfl
  · rw [List.length_take]; omega
  · exact (npUnique_pairwise_lt _).sublist (List.take_sublist _ _)
  · intro x
    constructor
    · intro hx
      obtain ⟨-, n, hn, e⟩ := mem_levels.1 (List.mem_of_mem_take hx)
      exact ⟨n, (listed_iff hI a x _).2 ⟨ha, b, hb, n, hn, rfl, e, hx⟩⟩
    · rintro ⟨n, hn⟩
      obtain ⟨-, b', -, n', -, e, -, hx⟩ := (listed_iff hI a x _).1 hn
      rw [Idx.mk_inj] at e
      have : b = b' := by exact_mod_cast e.2
      rw [this]
      exact hx

/-- C32, what holds of `num_neighbors`: it is the number of listed neighbours of each atom, if this
is at most 127. -/
theorem C32_num_neighbors_partial (hd : 0 < d) {env : Env ℝ} {w : World d ℝ} (h : Reachable env w)
    {A : Analysis d ℝ} (hA : w.struct.analysis = some A) {a : ℕ} {D : NDict d ℝ}
    (hD : A.base[a]? = some D) (hlen : (D.flatMap Prod.snd).length ≤ 127) :
    A.numNeighbors[a]? = some ((D.flatMap Prod.snd).length : ℤ) := by
  have hS := h.good hd
  obtain ⟨cells, m, c, -, -, -, -, -, hI⟩ := hS.analysis A hA
  have hmap : (D.flatMap Prod.snd).length = D.pairs.length := by
    unfold NDict.pairs
    simp [List.length_flatMap]
  rw [hI.numNeighbors, List.getElem?_map, hD, hmap]
  rw [hmap] at hlen
  simp only [Option.map_some, Option.some.injEq]
  exact wrapSigned_of_lt (by norm_num) (by omega) (by norm_num; omega)

/-- The pairs of the chain with `nb` shells. -/
theorem chain_pairs_length {nb : ℕ} {a : ℝ} {D : NDict 1 ℝ}
    (hnd : D.pairs.Nodup)
    (hp : ∀ x idx, (x, idx) ∈ D.pairs ↔ ∃ j : ℕ, 1 ≤ j ∧ j ≤ nb ∧ x = npRound 6 ((j : ℝ) * a) ∧
        (idx = Idx.mk (fun _ => (j : ℤ)) 0 ∨ idx = Idx.mk (fun _ => -(j : ℤ)) 0)) :
    D.pairs.length = 2 * nb := by
  set f : ℤ → ℝ × Idx 1 := fun z => (npRound 6 ((z.natAbs : ℝ) * a), Idx.mk (fun _ => z) 0) with hf
  have hinj : Function.Injective f := by
    intro z z' hz
    have h1 := (Prod.mk.inj hz).2
    rw [Idx.mk_inj] at h1
    exact congrFun h1.1 0
  set L : List ℤ := (List.range nb).map (fun j : ℕ => ((j : ℤ) + 1)) ++
    (List.range nb).map (fun j : ℕ => -((j : ℤ) + 1)) with hL
  have hLnd : L.Nodup := by
    rw [hL, List.nodup_append]
    refine ⟨List.Nodup.map (fun i j h => by simpa using h) List.nodup_range,
      List.Nodup.map (fun i j h => by simpa using h) List.nodup_range, ?_⟩
    intro x hx y hy hxy
    obtain ⟨i, -, rfl⟩ := List.mem_map.1 hx
    obtain ⟨j, -, rfl⟩ := List.mem_map.1 hy
    omega
  have hperm : D.pairs.Perm (L.map f) := by
    rw [List.perm_ext_iff_of_nodup hnd (hLnd.map hinj)]
    rintro ⟨x, idx⟩
    rw [hp, List.mem_map]
    constructor
    · rintro ⟨j, h1, h2, rfl, rfl | rfl⟩
      · refine ⟨(j : ℤ), ?_, by simp [hf]⟩
        rw [hL, List.mem_append]; left
        exact List.mem_map.2 ⟨j - 1, List.mem_range.2 (by omega), by omega⟩
      · refine ⟨-(j : ℤ), ?_, by simp [hf]⟩
        rw [hL, List.mem_append]; right
        exact List.mem_map.2 ⟨j - 1, List.mem_range.2 (by omega), by omega⟩
    · rintro ⟨z, hz, he⟩
      simp only [hf, Prod.mk.injEq] at he
      obtain ⟨rfl, rfl⟩ := he
      rw [hL, List.mem_append] at hz
      rcases hz with hz | hz
      · obtain ⟨j, hj, rfl⟩ := List.mem_map.1 hz
        rw [List.mem_range] at hj
        exact ⟨j + 1, by omega, by omega, by rw [show ((j : ℤ) + 1).natAbs = j + 1 by omega],
          Or.inl (by push_cast; rfl)⟩
      · obtain ⟨j, hj, rfl⟩ := List.mem_map.1 hz
        rw [List.mem_range] at hj
        exact ⟨j + 1, by omega, by omega, by rw [show (-((j : ℤ) + 1)).natAbs = j + 1 by omega],
          Or.inr (by push_cast; rfl)⟩
  rw [hperm.length_eq, List.length_map, hL]
  simp; omega

/-- A chain with 3 shells has 6 neighbours. -/
example (env : Env ℝ) : ∃ (w : World 1 ℝ) (A : Analysis 1 ℝ) (D : NDict 1 ℝ), Reachable env w ∧
    w.struct.analysis = some A ∧ A.base[0]? = some D ∧ (D.flatMap Prod.snd).length = 6 := by
  obtain ⟨w, A, cells, c, hr, hb, hp, hn, -, -, -, hc, hA, hI, hcells, -⟩ :=
    exists_chain env one_pos 0 (nb := 3) (by norm_num)
  obtain ⟨D, hD, hwf, hnd, hpairs⟩ := chain_base (by norm_num) hb hp hn hc hcells hI
  refine ⟨w, A, D, hr, hA, by rw [hD]; rfl, ?_⟩
  have := chain_pairs_length hnd hpairs
  unfold NDict.pairs at this
  simpa [List.length_flatMap] using this

/-- C32 fails for `num_neighbors`: the numbers are stored as 8-bit integers (structure.py 600). In a
chain with 64 connected shells each atom has 128 neighbours, reported as -128. -/
theorem C32_num_neighbors_fails (env : Env ℝ) :
    ∃ (w : World 1 ℝ) (A : Analysis 1 ℝ) (D : NDict 1 ℝ), Reachable env w ∧
      w.struct.analysis = some A ∧ A.base = [D] ∧ (D.flatMap Prod.snd).length = 128 ∧
      A.numNeighbors = [-128] := by
  obtain ⟨w, A, cells, c, hr, hb, hp, hn, -, -, -, hc, hA, hI, hcells, -⟩ :=
    exists_chain env one_pos 0 (nb := 64) (by norm_num)
  obtain ⟨D, hD, hwf, hnd, hpairs⟩ := chain_base (by norm_num) hb hp hn hc hcells hI
  have hlen := chain_pairs_length hnd hpairs
  refine ⟨w, A, D, hr, hA, hD, ?_, ?_⟩
  · unfold NDict.pairs at hlen
    simpa [List.length_flatMap] using hlen
  · rw [hI.numNeighbors, hD]
    simp only [List.map_cons, List.map_nil, hlen]
    decide

/-! ## C33 -/

/-- The searched cells are symmetric. -/
theorem cells_neg {b : LatticeBasis d ℝ} {D : ℕ} {cells : List (Fin d → ℤ)}
    (h : b.getNeighborCells D true (fun x y => decide (x ≤ y)) = .ok cells) {n : Fin d → ℤ}
    (hn : n ∈ cells) : -n ∈ cells := by
  obtain ⟨maxdist, -, -, h0, hmem⟩ := b.neighborCells_spec _ _ _ _ h
  by_cases hz : n = 0
  · subst hz; simpa using hn
  · rw [hmem _ (by simpa using hz)]
    rw [hmem n hz] at hn
    refine ⟨fun k => by simpa using hn.1 k, ?_⟩
    rw [LatticeBasis.norm2_translate_neg]
    exact hn.2

theorem siteDist_neg (S : Structure d ℝ) (a b : ℕ) (n : Fin d → ℤ) :
    S.siteDist a b n = S.siteDist b a (-n) := by
  unfold siteDist
  rw [distance_comm]
  congr 1
  rw [← distance_translate S.basis (-n) n (S.posOf a) (S.posOf b)]
  congr 1
  rw [LatticeBasis.translate_eq]
  simp

theorem levels_comm (S : Structure d ℝ) {cells : List (Fin d → ℤ)}
    (hneg : ∀ n ∈ cells, -n ∈ cells) (a b : ℕ) : S.levels cells a b = S.levels cells b a := by
  refine eq_of_pairwise_lt (npUnique_pairwise_lt _) (npUnique_pairwise_lt _) ?_
  have key : ∀ (a b : ℕ) x, x ∈ S.levels cells a b → x ∈ S.levels cells b a := by
    intro a b x hx
    obtain ⟨h0, n, hn, rfl⟩ := mem_levels.1 hx
    exact mem_levels.2 ⟨h0, -n, hneg n hn, siteDist_neg S a b n⟩
  exact fun x => ⟨key a b x, key b a x⟩

/-- If atom `b` in cell `n` is a neighbour of atom `a` of the home cell at distance `x`, then atom
`a` in cell `-n` is a neighbour of atom `b` of the home cell at distance `x`. -/
theorem C33_neighbors_symmetric (hd : 0 < d) {env : Env ℝ} {w : World d ℝ} (h : Reachable env w)
    {A : Analysis d ℝ} (hA : w.struct.analysis = some A) (a b : ℕ) (n : Fin d → ℤ) (x : ℝ) :
    Listed A a x (Idx.mk n (b : ℤ)) ↔ Listed A b x (Idx.mk (-n) (a : ℤ)) := by
  have hS := h.good hd
  obtain ⟨cells, m, c, hcells, -, hsym, -, -, hI⟩ := hS.analysis A hA
  have hneg : ∀ n ∈ cells, -n ∈ cells := fun n hn => cells_neg hcells hn
  have key : ∀ (a b : ℕ) (n : Fin d → ℤ), Listed A a x (Idx.mk n (b : ℤ)) →
      Listed A b x (Idx.mk (-n) (a : ℤ)) := by
    intro a b n hl
    obtain ⟨ha, b', hb, n', hn, e, hx, hlev⟩ := (listed_iff hI _ _ _).1 hl
    rw [Idx.mk_inj] at e
    obtain ⟨rfl, e⟩ := e
    have : b = b' := by exact_mod_cast e
    subst this
    refine (listed_iff hI _ _ _).2 ⟨hb, a, ha, -n, hneg n hn, rfl, ?_, ?_⟩
    · rw [← siteDist_neg]; exact hx
    · rw [levels_comm _ hneg b a, hsym b a]; exact hlev
  refine ⟨key a b n, fun hl => ?_⟩
  have := key b a (-n) hl
  rwa [neg_neg] at this

/-- The distance matrix is symmetric. -/
theorem C33_distances_symmetric (hd : 0 < d) {env : Env ℝ} {w : World d ℝ} (h : Reachable env w)
    {A : Analysis d ℝ} (hA : w.struct.analysis = some A) (a b : ℕ)
    (ha : a < w.struct.numBase) (hb : b < w.struct.numBase) :
    ∃ ra rb L, A.distMatrix[a]? = some ra ∧ A.distMatrix[b]? = some rb ∧ ra[b]? = some L ∧
      rb[a]? = some L := by
  have hS := h.good hd
  obtain ⟨cells, m, c, hcells, -, hsym, -, -, hI⟩ := hS.analysis A hA
  have hneg : ∀ n ∈ cells, -n ∈ cells := fun n hn => cells_neg hcells hn
  rw [hI.distMatrix]
  refine ⟨_, _, (w.struct.levels cells a b).take (c.entry a b),
    by rw [List.getElem?_map, List.getElem?_range ha]; rfl,
    by rw [List.getElem?_map, List.getElem?_range hb]; rfl, ?_, ?_⟩
  · rw [List.getElem?_map, List.getElem?_range hb]; rfl
  · rw [List.getElem?_map, List.getElem?_range ha, levels_comm _ hneg a b, hsym a b]; rfl

/-- Right and left neighbours of a chain. -/
example (env : Env ℝ) : ∃ (w : World 1 ℝ) (A : Analysis 1 ℝ), Reachable env w ∧
    w.struct.analysis = some A ∧ 0 < w.struct.numBase ∧
    Listed A 0 (npRound 6 ((1 : ℕ) * 2)) (Idx.mk (fun _ => 1) ((0 : ℕ) : ℤ)) := by
  obtain ⟨w, A, cells, c, hr, hb, hp, hn, -, -, -, hc, hA, hI, hcells, -⟩ :=
    exists_chain env two_pos 0 Nat.one_pos
  obtain ⟨D, hD, hwf, hnd, hpairs⟩ := chain_base (by norm_num) hb hp hn hc hcells hI
  obtain ⟨xs, h1, h2⟩ := NDict.mem_pairs.1 ((hpairs _ _).2 ⟨1, le_rfl, le_rfl, rfl, Or.inl rfl⟩)
  exact ⟨w, A, hr, hA, by omega, D, xs, by rw [hD]; rfl, h1, by simpa using h2⟩

end Lattpy
