import Verif.Props.Complete
import Verif.Model.PresetLattices

/-! Lemmas about nearest neighbours and about the configuration calls of the presets. -/

set_option autoImplicit false
set_option linter.unusedSectionVars false

namespace Lattpy

open Structure

variable {d : ℕ}

/-- Squared length of a lattice vector shifted by `r`. -/
noncomputable def shiftSq (b : LatticeBasis d ℝ) (r : Vec d ℝ) (n : Fin d → ℤ) : ℝ :=
  ∑ k, (r k + ∑ i, (n i : ℝ) * b.vectors i k) ^ 2

theorem shiftSq_nonneg (b : LatticeBasis d ℝ) (r : Vec d ℝ) (n : Fin d → ℤ) : 0 ≤ shiftSq b r n :=
  Finset.sum_nonneg fun _ _ => sq_nonneg _

theorem latNorm_sqrt (b : LatticeBasis d ℝ) (n : Fin d → ℤ) :
    latNorm b n = Real.sqrt (shiftSq b 0 n) := by
  unfold latNorm norm2 shiftSq
  rw [hasSqrt_real]
  congr 1
  exact Finset.sum_congr rfl fun k _ => by simp [sq]

theorem siteDist_sqrt {S : Structure d ℝ} {a b : ℕ} {ra rb : Vec d ℝ}
    (ha : S.positions[a]? = some ra) (hb : S.positions[b]? = some rb) (n : Fin d → ℤ) :
    S.siteDist a b n = npRound 6 (Real.sqrt (shiftSq S.basis (rb - ra) n)) := by
  rw [siteDist_eq ha hb, distance_some]
  congr 1
  unfold distance shiftSq
  simp only [hasSqrt_real]
  congr 1
  refine Finset.sum_congr rfl fun k _ => ?_
  simp only [Pi.sub_apply]
  ring

/-- If at most `2 * nb + 1` different lengths of searched lattice vectors are smaller than that of `n`,
the cell `n` belongs to the searched cells for `nb` shells. -/
theorem mem_cells_few (hd : 0 < d) {nb : ℕ} {b : LatticeBasis d ℝ} {cells : List (Fin d → ℤ)}
    (hcells : b.getNeighborCells (2 * nb) true (fun x y => decide (x ≤ y)) = .ok cells)
    {n : Fin d → ℤ} (hbox : ∀ k, |n k| ≤ 2 * (nb : ℤ) + 1) (F : Finset ℝ) (hF : F.card ≤ 2 * nb + 1)
    (h : ∀ n' : Fin d → ℤ, (∀ k, |n' k| ≤ 2 * (nb : ℤ) + 1) → shiftSq b 0 n' < shiftSq b 0 n →
      shiftSq b 0 n' ∈ F) : n ∈ cells := by
  obtain ⟨M, hM, -, hz0, hmem⟩ := b.neighborCells_spec _ _ _ _ hcells
  simp only [latNorm_eq, decide_eq_true_eq] at hM hmem
  by_cases hn0 : n = 0
  · rw [hn0]; exact hz0.2 rfl
  rw [hmem n hn0]
  refine ⟨by push_cast; simpa using hbox, ?_⟩
  by_contra hlt
  push Not at hlt
  set P := npUnique ((LatticeBasis.factors d (2 * nb)).map fun n => latNorm b n) with hP
  have hPsort : P.Pairwise (· < ·) := npUnique_pairwise_lt _
  have hu : 1 ≤ (npUnique b.norms).length := by
    rw [Nat.one_le_iff_ne_zero, Ne, List.length_eq_zero_iff]
    intro h0
    have : norm2 (b.vectors ⟨0, hd⟩) ∈ npUnique b.norms := by
      rw [mem_npUnique, LatticeBasis.norms, List.mem_map]
      exact ⟨_, List.mem_finRange _, rfl⟩
    rw [h0] at this
    cases this
  set k := 2 * nb + (npUnique b.norms).length with hk
  obtain ⟨hMlt, hMe⟩ := List.getElem?_eq_some_iff.1 hM
  have hsub : ((P.take (k + 1)).toFinset.image fun x => x ^ 2) ⊆ F := by
    intro y hy
    rw [Finset.mem_image] at hy
    obtain ⟨x, hx, rfl⟩ := hy
    rw [List.mem_toFinset, List.mem_take_iff_getElem] at hx
    obtain ⟨i, hi, rfl⟩ := hx
    have hi' : i ≤ k := by omega
    have hle : P[i] ≤ M := by
      rw [← hMe]
      rcases hi'.lt_or_eq with h1 | h1
      · exact (List.pairwise_iff_getElem.1 hPsort _ _ _ _ h1).le
      · simp [h1]
    obtain ⟨n', hn', he⟩ : ∃ n' ∈ LatticeBasis.factors d (2 * nb), latNorm b n' = P[i] := by
      have hmemP : P[i] ∈ P := List.getElem_mem _
      generalize P[i] = y at hmemP
      rw [hP, mem_npUnique, List.mem_map] at hmemP
      exact hmemP
    rw [LatticeBasis.mem_factors] at hn'
    have hlt' : latNorm b n' < latNorm b n := by
      rw [he]
      exact hle.trans_lt hlt
    rw [← he, latNorm_sqrt, Real.sq_sqrt (shiftSq_nonneg _ _ _)]
    refine h n' (by push_cast at hn'; simpa using hn') ?_
    rw [latNorm_sqrt, latNorm_sqrt] at hlt'
    exact lt_of_not_ge fun hge => absurd (Real.sqrt_le_sqrt hge) (not_le.2 hlt')
  have hcard : ((P.take (k + 1)).toFinset.image fun x => x ^ 2).card = k + 1 := by
    rw [Finset.card_image_of_injOn, List.toFinset_card_of_nodup
      ((hP ▸ npUnique_nodup _ : P.Nodup).sublist (List.take_sublist _ _)), List.length_take]
    · omega
    · intro x hx y hy hxy
      have hpos : ∀ z ∈ P.take (k + 1), 0 ≤ z := by
        intro z hz
        have := List.mem_of_mem_take hz
        rw [hP, mem_npUnique, List.mem_map] at this
        obtain ⟨n', -, rfl⟩ := this
        rw [latNorm_sqrt]
        exact Real.sqrt_nonneg _
      have hx' := hpos x (by simpa using hx)
      have hy' := hpos y (by simpa using hy)
      exact (sq_eq_sq₀ hx' hy').1 hxy
  have := Finset.card_le_card hsub
  omega

/-- With one configured distance, the listed neighbours are those at the smallest distance `D`, if
all others are farther by a factor of at least `√2`. -/
theorem listed_nearest {S : Structure d ℝ} {cells m c A} (hI : IsAnalysis S cells m c A) {a b : ℕ}
    {ra rb : Vec d ℝ} (ha : S.positions[a]? = some ra) (hb : S.positions[b]? = some rb)
    (hlen : S.positions.length = S.numBase) (hent : c.entry a b = 1) {D : ℝ} (hD : 1 / 10 ^ 5 ≤ D)
    (N : Set (Fin d → ℤ)) (hne : N.Nonempty)
    (hN : ∀ n ∈ N, n ∈ cells ∧ shiftSq S.basis (rb - ra) n = D ^ 2)
    (hgap : ∀ n, n ∉ N → shiftSq S.basis (rb - ra) n = 0 ∨
      2 * D ^ 2 ≤ shiftSq S.basis (rb - ra) n) (x : ℝ) (n : Fin d → ℤ) :
    Listed A a x (Idx.mk n (b : ℤ)) ↔ x = npRound 6 D ∧ n ∈ N := by
  have hD0 : 0 < D := lt_of_lt_of_le (by positivity) hD
  have hin : ∀ n ∈ N, S.siteDist a b n = npRound 6 D := by
    intro n hn
    rw [siteDist_sqrt ha hb, (hN n hn).2, Real.sqrt_sq hD0.le]
  have hpos : 0 < npRound 6 D := by
    have := chain_round (a := D) (le_trans (by norm_num) hD) (i := 0) (j := 1) one_pos
    simpa [npRound_zero] using this
  have hout : ∀ n, n ∉ N → S.siteDist a b n = 0 ∨ npRound 6 D < S.siteDist a b n := by
    intro n hn
    rw [siteDist_sqrt ha hb]
    rcases hgap n hn with h | h
    · left; rw [h, Real.sqrt_zero, npRound_zero]
    · right
      apply npRound_lt
      rw [Real.lt_sqrt (by positivity)]
      refine lt_of_lt_of_le ?_ h
      have h1 : (1 : ℝ) / 10 ^ 6 ≤ D / 10 := by
        have : (1 : ℝ) / 10 ^ 6 = 1 / 10 ^ 5 / 10 := by norm_num
        linarith
      have h2 : (0 : ℝ) ≤ 1 / 10 ^ 6 := by positivity
      nlinarith
  have hlev : (S.levels cells a b).take 1 = [npRound 6 D] := by
    obtain ⟨n0, hn0⟩ := hne
    have hs : (S.levels cells a b).Pairwise (· < ·) := npUnique_pairwise_lt _
    have hmem : ∀ y, y ∈ (S.levels cells a b).take 1 ↔ y = npRound 6 D := by
      intro y
      rw [mem_take_sorted hs, mem_levels]
      have hlow : ∀ z ∈ S.levels cells a b, npRound 6 D ≤ z := by
        intro z hz
        obtain ⟨hz0, n, -, rfl⟩ := mem_levels.1 hz
        by_cases hn : n ∈ N
        · rw [hin n hn]
        · rcases hout n hn with h | h
          · rw [h] at hz0; exact absurd hz0 (lt_irrefl _)
          · exact h.le
      have hDm : npRound 6 D ∈ S.levels cells a b :=
        mem_levels.2 ⟨hpos, n0, (hN n0 hn0).1, (hin n0 hn0).symm⟩
      constructor
      · rintro ⟨h1, h2⟩
        by_contra hy
        have hlt := lt_of_le_of_ne (hlow y (mem_levels.2 h1)) (Ne.symm hy)
        have : npRound 6 D ∈ (S.levels cells a b).filter fun z => decide (z < y) :=
          List.mem_filter.2 ⟨hDm, by simpa using hlt⟩
        have := List.length_pos_of_mem this
        omega
      · rintro rfl
        refine ⟨mem_levels.1 hDm, ?_⟩
        rw [Nat.lt_one_iff, List.length_eq_zero_iff, List.filter_eq_nil_iff]
        intro z hz
        simpa using hlow z hz
    have hl : ((S.levels cells a b).take 1).length ≤ 1 := by simp
    have h1 := (hmem (npRound 6 D)).2 rfl
    generalize (S.levels cells a b).take 1 = L at *
    match L, hl, h1 with
    | [y], _, h1 =>
      rw [(hmem y).1 (by simp)]
  rw [listed_iff hI]
  have ha' : a < S.numBase := by rw [← hlen]; exact (List.getElem?_eq_some_iff.1 ha).1
  have hb' : b < S.numBase := by rw [← hlen]; exact (List.getElem?_eq_some_iff.1 hb).1
  constructor
  · rintro ⟨-, b', hb1, n', hn', he, hx, hx'⟩
    have h1 : n = n' := by
      have := congrArg Idx.cell he
      simpa using this
    have h2 : b = b' := by
      have := congrArg Idx.alpha he
      simpa using this
    subst h1 h2
    rw [hent, hlev, List.mem_singleton] at hx'
    refine ⟨hx', ?_⟩
    by_contra hn
    rcases hout n hn with h | h
    · rw [← hx, hx'] at h; exact hpos.ne' h
    · rw [← hx, hx'] at h; exact lt_irrefl _ h
  · rintro ⟨rfl, hn⟩
    refine ⟨ha', b, hb', n, (hN n hn).1, rfl, (hin n hn).symm, ?_⟩
    rw [hent, hlev]
    simp

/-- Every listed neighbour is the atom `b` of some cell for some `b` of the unit cell. -/
theorem listed_split {S : Structure d ℝ} {cells m c A} (hI : IsAnalysis S cells m c A) {a : ℕ}
    {x : ℝ} {idx : Idx d} (h : Listed A a x idx) :
    ∃ b < S.numBase, ∃ n, idx = Idx.mk n (b : ℤ) ∧ 0 < c.entry a b := by
  obtain ⟨-, b, hb, n, -, he, -, h2⟩ := (listed_iff hI a x idx).1 h
  refine ⟨b, hb, n, he, ?_⟩
  by_contra h0
  have : c.entry a b = 0 := by omega
  rw [this] at h2
  simp at h2

/-! ## configuration calls -/

namespace Preset

theorem atomPos_none (b : LatticeBasis d ℝ) : atomPos b none false = .ok 0 := rfl

/-- Adding an atom to an unfrozen structure at a free position succeeds. -/
theorem addAtom_ok (hd : 0 < d) (env : Env ℝ) {w : World d ℝ} (hw : w.struct.Good)
    (hf : w.struct.frozen = false) {pos : Option (List ℝ)} {p : Vec d ℝ}
    (hpos : atomPos w.struct.basis pos false = .ok p) (hp : p ∉ w.struct.positions)
    (atom : AtomSpec) :
    ∃ (w' : World d ℝ) (at' : Atom), w.call env (.addAtom pos atom.arg false 0) = (w', .ok ()) ∧
      w'.struct.Good ∧ w'.struct.frozen = false ∧ w'.struct.basis = w.struct.basis ∧
      w'.struct.positions = w.struct.positions ++ [p] ∧
      w'.struct.atoms = w.struct.atoms ++ [at'] ∧
      w'.struct.conn = some ((ConnMatrix.zeros (w.struct.numBase + 1)).fill 0) ∧
      w'.struct.numBase = w.struct.numBase + 1 ∧
      (∀ a, atom = .obj a → at' = a ∧ w'.session = w.session) := by
  have key : ∀ at' : Atom, (w.struct.addAtomAt env p at' 0).1.frozen = false := by
    intro at'
    have hlen := hw.atoms_of_not_frozen hf
    simp [addAtomAt, hf, hlen, hw.positions_length]
  have hnew : ∀ n : Option String, ∃ (s : Session) (at' : Atom),
      w.session.create n (.num (1 / 5)) .none (.num 1) [] = .ok s ∧
        s.atoms.getLast? = some at' := by
    intro n
    unfold Session.create
    rw [if_neg (by simp [PyDict.keys])]
    refine ⟨_, ⟨w.session.counter, match n with
      | none => "A"
      | some n => if n = "" then "A" else n, .num 1, w.session.dicts.length⟩, rfl, ?_⟩
    dsimp only
    exact List.getLast?_concat
  have main : ∀ (s : Session) (at' : Atom) , w.call env (.addAtom pos atom.arg false 0) =
      (⟨s, (w.struct.addAtomAt env p at' 0).1⟩, (w.struct.addAtomAt env p at' 0).2) →
      (∀ a, atom = .obj a → at' = a ∧ s = w.session) → ∃ (w' : World d ℝ) (at' : Atom),
      w.call env (.addAtom pos atom.arg false 0) = (w', .ok ()) ∧
      w'.struct.Good ∧ w'.struct.frozen = false ∧ w'.struct.basis = w.struct.basis ∧
      w'.struct.positions = w.struct.positions ++ [p] ∧
      w'.struct.atoms = w.struct.atoms ++ [at'] ∧
      w'.struct.conn = some ((ConnMatrix.zeros (w.struct.numBase + 1)).fill 0) ∧
      w'.struct.numBase = w.struct.numBase + 1 ∧
      (∀ a, atom = .obj a → at' = a ∧ w'.session = w.session) := by
    intro s at' h hobj
    obtain ⟨h1, h2, h3, h4, h5, h6, h7⟩ := addAtomAt_ok hd env hw p hp at' 0 hf
    rw [h1] at h
    exact ⟨_, at', h, h2, key at', h6, h4, h3, h7, h5, hobj⟩
  cases atom with
  | obj a =>
    refine main w.session a ?_ (by intro a' h; cases h; exact ⟨rfl, rfl⟩)
    change w.addAtom env pos (AtomSpec.obj a).arg false 0 = _
    unfold World.addAtom
    rw [hpos]
    dsimp only
    rw [if_neg hp]
    rfl
  | none =>
    obtain ⟨s, at', h1, h2⟩ := hnew none
    refine main s at' ?_ (by intro a' h; cases h)
    change w.addAtom env pos AtomSpec.none.arg false 0 = _
    unfold World.addAtom AtomSpec.arg
    rw [hpos]
    dsimp only
    rw [if_neg hp, h1]
    dsimp only
    rw [h2]
  | name n =>
    obtain ⟨s, at', h1, h2⟩ := hnew (some n)
    refine main s at' ?_ (by intro a' h; cases h)
    change w.addAtom env pos (AtomSpec.name n).arg false 0 = _
    unfold World.addAtom AtomSpec.arg
    rw [hpos]
    dsimp only
    rw [if_neg hp, h1]
    dsimp only
    rw [h2]

/-- `analyze` succeeds for a connection matrix with a positive entry. -/
theorem analyze_ok (hd : 0 < d) (env : Env ℝ) {S : Structure d ℝ} (hS : S.Good) {c : ConnMatrix}
    (hc : S.conn = some c) {i j : ℕ} (hi : i < c.size) (hj : j < c.size) (h0 : 0 < c.entry i j) :
    ∃ (S' : Structure d ℝ) (cells : List (Fin d → ℤ)) (m : ℕ) (A : Analysis d ℝ),
      S.analyze env = (S', .ok ()) ∧ S'.Good ∧ S'.basis = S.basis ∧ S'.positions = S.positions ∧
      S'.numBase = S.numBase ∧ S'.atoms = S.atoms ∧ S'.conn = some c ∧ S'.analysis = some A ∧
      c.max? = .ok m ∧
      S'.basis.getNeighborCells (2 * m) true (fun a b => decide (a ≤ b)) = .ok cells ∧
      IsAnalysis S' cells m c A := by
  have hG := Good.analyze hd env hS
  rcases analyze_cases hd env hS with ⟨-, h⟩ | ⟨c', hc', hz, -⟩ |
      ⟨c', cells, m, A, hc', hz, hm, hm0, hcells, h, hI⟩
  · rw [hc] at h; cases h
  · rw [hc] at hc'
    cases hc'
    rw [ConnMatrix.allZero_iff] at hz
    have := hz i hi j hj
    omega
  · rw [hc] at hc'
    cases hc'
    rw [h] at hG
    exact ⟨_, cells, m, A, h, hG, rfl, rfl, rfl, rfl, hc, rfl, hm, hcells, hI.congr rfl rfl rfl⟩

theorem calls_cons {env : Env ℝ} {w w' : World d ℝ} {op : World.Op ℝ} {ops : List (World.Op ℝ)}
    (h : w.call env op = (w', .ok ())) : calls env w (op :: ops) = calls env w' ops := by
  rw [calls, h]

/-- A configured preset. -/
structure Configured (w : World d ℝ) (b : LatticeBasis d ℝ) (ps : List (Vec d ℝ))
    (c : ConnMatrix) (m : ℕ) (cells : List (Fin d → ℤ)) (A : Analysis d ℝ) : Prop where
  good : w.struct.Good
  basis : w.struct.basis = b
  positions : w.struct.positions = ps
  atoms : w.struct.atoms.length = ps.length
  conn : w.struct.conn = some c
  size : c.size = ps.length
  analysis : w.struct.analysis = some A
  max : c.max? = .ok m
  searched : b.getNeighborCells (2 * m) true (fun a b => decide (a ≤ b)) = .ok cells
  isAnalysis : IsAnalysis w.struct cells m c A

/-- `add_connections(nb)` on a structure with atoms. -/
theorem connections_ok (hd : 0 < d) (env : Env ℝ) {w : World d ℝ} (hw : w.struct.Good)
    (hf : w.struct.frozen = false) (hne : w.struct.positions ≠ []) {nb : ℕ} (hnb : 0 < nb) :
    ∃ (w' : World d ℝ) (c : ConnMatrix) (cells : List (Fin d → ℤ)) (A : Analysis d ℝ),
      w.call env (.addConnections nb true) = (w', .ok ()) ∧
      Configured w' w.struct.basis w.struct.positions c nb cells A ∧
      ∀ i j, i < w.struct.positions.length → j < w.struct.positions.length → c.entry i j = nb := by
  have hpl := List.length_pos_iff.2 hne
  have hconn : ∃ c0, w.struct.conn = some c0 := by
    cases hc : w.struct.conn with
    | none =>
      have := (hw.conn_none hc).1
      rw [← hw.positions_length] at this
      omega
    | some c0 => exact ⟨c0, rfl⟩
  obtain ⟨c0, hc0⟩ := hconn
  have hsz := hw.conn_size c0 hc0
  have hG : Good ({ w.struct with conn := some (c0.fill nb) } : Structure d ℝ) :=
    hw.setConn (c0.fill nb) hsz.1 hsz.2 (ConnMatrix.fill_symm _ _)
  have hsz' : (c0.fill nb).size = w.struct.positions.length := by
    rw [hw.positions_length]; exact hsz.1
  have hent : ∀ i j, i < w.struct.positions.length → j < w.struct.positions.length →
      (c0.fill nb).entry i j = nb := by
    intro i j hi hj
    rw [hw.positions_length] at hi hj
    exact if_pos ⟨by omega, by omega⟩
  obtain ⟨S', cells, m, A, h1, h2, h3, h4, h5, h6, h7, h8, h9, h10, h11⟩ :=
    analyze_ok hd env hG (c := c0.fill nb) rfl (i := 0) (j := 0) (by rw [hsz']; exact hpl)
      (by rw [hsz']; exact hpl) (by rw [hent 0 0 hpl hpl]; exact hnb)
  have hm : m = nb := by
    have hz : (c0.fill nb).allZero = false := by
      by_contra hz
      rw [Bool.not_eq_false, ConnMatrix.allZero_iff] at hz
      have := hz 0 (by rw [hsz']; exact hpl) 0 (by rw [hsz']; exact hpl)
      rw [hent 0 0 hpl hpl] at this
      omega
    obtain ⟨m', g1, -, -, i, hi, j, hj, hij⟩ := ConnMatrix.max?_ok hz
    rw [h9] at g1
    cases g1
    rw [← hij]
    exact hent i j (by omega) (by omega)
  subst hm
  refine ⟨⟨w.session, S'⟩, _, cells, A, ?_, ⟨h2, h3, h4, ?_, h7, hsz', h8, h9, ?_, h11⟩, hent⟩
  · change ((⟨w.session, (w.struct.addConnections env m true).1⟩ : World d ℝ),
      (w.struct.addConnections env m true).2) = _
    have : w.struct.addConnections env m true =
        ({ w.struct with conn := some (c0.fill m) } : Structure d ℝ).analyze env := by
      simp [addConnections, hc0]
    rw [this, h1]
  · rw [h6, hw.positions_length]
    exact hw.atoms_of_not_frozen hf
  · rw [← h3]; exact h10

/-- The one-atom presets. -/
theorem configure_oneAtom (hd : 0 < d) (env : Env ℝ) (s : Session)
    {rows : Matrix (Fin d) (Fin d) ℝ} {b : LatticeBasis d ℝ} (hb : LatticeBasis.init rows = .ok b)
    (atom : AtomSpec) {nb : ℕ} (hnb : 0 < nb) :
    ∃ (w : World d ℝ) (c : ConnMatrix) (cells : List (Fin d → ℤ)) (A : Analysis d ℝ),
      configure env s (LatticeBasis.init rows) (oneAtom atom nb) = .ok w ∧
      Configured w b [0] c nb cells A ∧ c.entry 0 0 = nb := by
  obtain ⟨w1, at1, h1, hg, hf, hbas, hpos, -⟩ := addAtom_ok hd env (w := ⟨s, ofBasis b⟩)
    (good_ofBasis hb) rfl (pos := none) (atomPos_none _) (by simp [ofBasis]) atom
  have hpos' : w1.struct.positions = [0] := by simpa [ofBasis] using hpos
  obtain ⟨w2, c, cells, A, h2, hC, he⟩ := connections_ok hd env hg hf (by simp [hpos']) hnb
  rw [hbas, hpos'] at hC
  refine ⟨w2, c, cells, A, ?_, hC, he 0 0 (by simp [hpos']) (by simp [hpos'])⟩
  rw [hb]
  unfold configure
  dsimp only
  rw [oneAtom, calls_cons h1, calls_cons h2, calls]

/-- The two-atom presets with all atoms connected. -/
theorem configure_twoAtoms (hd : 0 < d) (env : Env ℝ) (s : Session)
    {rows : Matrix (Fin d) (Fin d) ℝ} {b : LatticeBasis d ℝ} (hb : LatticeBasis.init rows = .ok b)
    (atom1 atom2 : AtomSpec) {p1 p2 : Vec d ℝ} (hne : p1 ≠ p2) {l1 l2 : List ℝ}
    (hl1 : atomPos b (some l1) false = .ok p1) (hl2 : atomPos b (some l2) false = .ok p2)
    {nb : ℕ} (hnb : 0 < nb) :
    ∃ (w : World d ℝ) (c : ConnMatrix) (cells : List (Fin d → ℤ)) (A : Analysis d ℝ),
      configure env s (LatticeBasis.init rows) [.addAtom (some l1) atom1.arg false 0,
        .addAtom (some l2) atom2.arg false 0, .addConnections nb true] = .ok w ∧
      Configured w b [p1, p2] c nb cells A ∧ ∀ i j, i < 2 → j < 2 → c.entry i j = nb := by
  obtain ⟨w1, at1, h1, hg, hf, hbas, hpos, -⟩ := addAtom_ok hd env (w := ⟨s, ofBasis b⟩)
    (good_ofBasis hb) rfl hl1 (by simp [ofBasis]) atom1
  have hpos1 : w1.struct.positions = [p1] := by simpa [ofBasis] using hpos
  have hbas1 : w1.struct.basis = b := hbas
  obtain ⟨w2, at2, h2, hg2, hf2, hbas2, hpos2, -⟩ := addAtom_ok hd env hg hf
    (by rw [hbas1]; exact hl2) (by simpa [hpos1] using hne.symm) atom2
  have hpos2' : w2.struct.positions = [p1, p2] := by rw [hpos2, hpos1]; rfl
  obtain ⟨w3, c, cells, A, h3, hC, he⟩ := connections_ok hd env hg2 hf2 (by simp [hpos2']) hnb
  rw [hbas2, hbas1, hpos2'] at hC
  refine ⟨w3, c, cells, A, ?_, hC, ?_⟩
  · rw [hb]
    unfold configure
    dsimp only
    rw [calls_cons h1, calls_cons h2, calls_cons h3, calls]
  · simpa [hpos2'] using he

/-- The two-atom presets with one connection between the two atoms. -/
theorem configure_pair (hd : 0 < d) (env : Env ℝ) (s : Session)
    {rows : Matrix (Fin d) (Fin d) ℝ} {b : LatticeBasis d ℝ} (hb : LatticeBasis.init rows = .ok b)
    (at1 at2 : Atom) {p1 p2 : Vec d ℝ} (hne : p1 ≠ p2) {l1 l2 : List ℝ}
    (hl1 : atomPos b (some l1) false = .ok p1) (hl2 : atomPos b (some l2) false = .ok p2)
    (r1 r2 : AtomRef)
    (hr : ∀ S : Structure d ℝ, S.atoms = [at1, at2] → getAlpha s S r1 = .ok [0] ∧
      getAlpha s S r2 = .ok [1]) :
    ∃ (w : World d ℝ) (c : ConnMatrix) (cells : List (Fin d → ℤ)) (A : Analysis d ℝ),
      configure env s (LatticeBasis.init rows) [.addAtom (some l1) (.obj at1) false 0,
        .addAtom (some l2) (.obj at2) false 0, .addConnection r1 r2 1 true] = .ok w ∧
      Configured w b [p1, p2] c 1 cells A ∧ w.struct.atoms = [at1, at2] ∧ w.session = s ∧
      c.entry 0 0 = 0 ∧ c.entry 0 1 = 1 ∧ c.entry 1 0 = 1 ∧ c.entry 1 1 = 0 := by
  obtain ⟨w1, a1, h1, hg, hf, hbas, hpos, hat, -, hnum, hobj⟩ := addAtom_ok hd env
    (w := ⟨s, ofBasis b⟩) (good_ofBasis hb) rfl hl1 (by simp [ofBasis]) (.obj at1)
  obtain ⟨rfl, hs1⟩ := hobj _ rfl
  have hpos1 : w1.struct.positions = [p1] := by simpa [ofBasis] using hpos
  have hbas1 : w1.struct.basis = b := hbas
  obtain ⟨w2, a2, h2, hg2, hf2, hbas2, hpos2, hat2, hconn2, hnum2, hobj2⟩ := addAtom_ok hd env hg hf
    (by rw [hbas1]; exact hl2) (by simpa [hpos1] using hne.symm) (.obj at2)
  obtain ⟨rfl, hs2⟩ := hobj2 _ rfl
  have hpos2' : w2.struct.positions = [p1, p2] := by rw [hpos2, hpos1]; rfl
  have hat2' : w2.struct.atoms = [a1, a2] := by rw [hat2, hat]; simp [ofBasis]
  have hs2' : w2.session = s := by rw [hs2, hs1]
  have hnum1 : w1.struct.numBase = 1 := by rw [hnum]; rfl
  rw [hnum1] at hconn2
  set c0 := (ConnMatrix.zeros (1 + 1)).fill 0 with hc0
  have hcp : connectPairs 1 (some c0) [((0 : ℤ), (1 : ℤ))] = .ok (some (c0.setPair 0 1 1)) := rfl
  have hG : Good ({ w2.struct with conn := some (c0.setPair 0 1 1) } : Structure d ℝ) := by
    refine hg2.setConn _ ?_ ?_ ?_
    · rw [hnum2, hnum1]; rfl
    · rw [hnum2]; omega
    · exact (connectPairs_spec 1 _ _ _ hcp (by intro i j; simp [hc0, ConnMatrix.fill,
        ConnMatrix.zeros])).2.1
  obtain ⟨S', cells, m, A, g1, g2, g3, g4, g5, g6, g7, g8, g9, g10, g11⟩ :=
    analyze_ok hd env hG (c := c0.setPair 0 1 1) rfl (i := 0) (j := 1) (by decide) (by decide)
      (by decide)
  have hm : m = 1 := by
    have h : (c0.setPair 0 1 1).max? = .ok 1 := by rfl
    rw [h] at g9
    cases g9
    rfl
  subst hm
  refine ⟨⟨s, S'⟩, _, cells, A, ?_, ⟨g2, by rw [g3]; exact hbas2.trans hbas1, by rw [g4]; exact hpos2',
    by rw [g6, hat2']; rfl, g7, rfl, g8, g9, ?_, g11⟩, by rw [g6]; exact hat2', rfl, rfl, rfl, rfl,
    rfl⟩
  · rw [hb]
    unfold configure
    dsimp only
    have h3 : w2.call env (.addConnection r1 r2 1 true) = (⟨s, S'⟩, .ok ()) := by
      change ((⟨w2.session, (w2.struct.addConnection env w2.session r1 r2 1 true).1⟩ : World d ℝ),
        (w2.struct.addConnection env w2.session r1 r2 1 true).2) = _
      have : w2.struct.addConnection env w2.session r1 r2 1 true =
          ({ w2.struct with conn := some (c0.setPair 0 1 1) } : Structure d ℝ).analyze env := by
        unfold addConnection
        rw [hs2', (hr _ hat2').1, (hr _ hat2').2]
        simp only [List.flatMap_cons, List.map_cons, List.map_nil, List.flatMap_nil,
          List.append_nil]
        rw [hconn2, hcp]
        rfl
      rw [this, g1, hs2']
    exact (calls_cons h1).trans ((calls_cons h2).trans ((calls_cons h3).trans rfl))
  · rw [show b = S'.basis by rw [g3]; exact (hbas2.trans hbas1).symm]; exact g10

end Preset

end Lattpy
