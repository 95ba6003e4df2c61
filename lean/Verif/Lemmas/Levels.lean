import Verif.Props.StructureQuery
import Mathlib.Data.Set.Card

/-! Distance levels of the infinite lattice and what a finite search window finds of them. -/

set_option autoImplicit false
set_option linter.unusedSectionVars false

namespace Lattpy

open Structure World

variable {d : ℕ}

theorem mem_take_sorted {L : List ℝ} (hL : L.Pairwise (· < ·)) (k : ℕ) (x : ℝ) :
    x ∈ L.take k ↔ x ∈ L ∧ (L.filter fun y => decide (y < x)).length < k := by
  induction L generalizing k with
  | nil => simp
  | cons y L ih =>
    rw [List.pairwise_cons] at hL
    cases k with
    | zero => simp
    | succ k =>
      rw [List.take_succ_cons, List.mem_cons, ih hL.2, List.mem_cons, List.filter_cons]
      by_cases hx : x = y
      · subst hx
        have : (L.filter fun z => decide (z < x)) = [] := by
          rw [List.filter_eq_nil_iff]
          intro z hz
          simpa using (hL.1 z hz).le
        simp [this]
      · constructor
        · rintro (h | ⟨h1, h2⟩)
          · exact absurd h hx
          · have : y < x := hL.1 x h1
            simp only [this, decide_true, if_true, List.length_cons]
            exact ⟨Or.inr h1, by omega⟩
        · rintro ⟨h | h1, h2⟩
          · exact absurd h hx
          · have : y < x := hL.1 x h1
            simp only [this, decide_true, if_true, List.length_cons] at h2
            exact Or.inr ⟨h1, by omega⟩

theorem encard_filter {L : List ℝ} (hL : L.Nodup) (p : ℝ → Bool) :
    {y | y ∈ L ∧ p y = true}.encard = ((L.filter p).length : ℕ∞) := by
  have h : {y | y ∈ L ∧ p y = true} = ((L.filter p).toFinset : Set ℝ) := by
    ext y; simp
  rw [h, Set.encard_coe_eq_coe_finsetCard, List.toFinset_card_of_nodup (hL.filter _)]

/-- `x` is a positive rounded distance between atom `a` of the home cell and some site of atom
`b` of the infinite lattice. -/
def IsLevel (S : Structure d ℝ) (a b : ℕ) (x : ℝ) : Prop :=
  0 < x ∧ ∃ (ra rb : Vec d ℝ) (n : Fin d → ℤ), S.positions[a]? = some ra ∧
    S.positions[b]? = some rb ∧
    x = distance (fun k => rb k + ∑ i, (n i : ℝ) * S.basis.vectors i k) ra (some 6)

/-- `x` is one of the `k` smallest levels. -/
def IsShell (S : Structure d ℝ) (a b k : ℕ) (x : ℝ) : Prop :=
  IsLevel S a b x ∧ {y | IsLevel S a b y ∧ y < x}.encard < k

theorem siteDist_eq {S : Structure d ℝ} {a b : ℕ} {ra rb : Vec d ℝ}
    (ha : S.positions[a]? = some ra) (hb : S.positions[b]? = some rb) (n : Fin d → ℤ) :
    S.siteDist a b n =
      distance (fun k => rb k + ∑ i, (n i : ℝ) * S.basis.vectors i k) ra (some 6) := by
  unfold siteDist
  rw [posOf_eq ha, posOf_eq hb, distance_some, LatticeBasis.translate_eq]

theorem siteDist_nonneg (S : Structure d ℝ) (a b : ℕ) (n : Fin d → ℤ) : 0 ≤ S.siteDist a b n := by
  unfold siteDist
  have := npRound_mono (n := 6) (distance_nonneg (S.basis.translate n (S.posOf b)) (S.posOf a))
  rwa [npRound_zero] at this

theorem exists_pos {S : Structure d ℝ} (hS : S.Good) {a : ℕ} (ha : a < S.numBase) :
    S.positions[a]? = some (S.posOf a) := by
  rw [List.getElem?_eq_getElem (by rw [hS.positions_length]; exact ha),
    posOf_eq (List.getElem?_eq_getElem _)]

theorem isLevel_iff {S : Structure d ℝ} (hS : S.Good) {a b : ℕ} (ha : a < S.numBase)
    (hb : b < S.numBase) (x : ℝ) : IsLevel S a b x ↔ 0 < x ∧ ∃ n, x = S.siteDist a b n := by
  unfold IsLevel
  have h1 := exists_pos hS ha
  have h2 := exists_pos hS hb
  constructor
  · rintro ⟨hx, ra, rb, n, e1, e2, h⟩
    exact ⟨hx, n, by rw [siteDist_eq e1 e2]; exact h⟩
  · rintro ⟨hx, n, h⟩
    exact ⟨hx, _, _, n, h1, h2, by rw [h, siteDist_eq h1 h2]⟩

theorem mem_levels {S : Structure d ℝ} {cells : List (Fin d → ℤ)} {a b : ℕ} {x : ℝ} :
    x ∈ S.levels cells a b ↔ 0 < x ∧ ∃ n ∈ cells, x = S.siteDist a b n := by
  unfold levels
  rw [mem_npUnique, List.mem_filter, List.mem_map]
  simp only [decide_eq_true_eq]
  constructor
  · rintro ⟨⟨n, hn, rfl⟩, h⟩
    exact ⟨lt_of_le_of_ne (siteDist_nonneg S a b n) (Ne.symm h), n, hn, rfl⟩
  · rintro ⟨h, n, hn, rfl⟩
    exact ⟨⟨n, hn, rfl⟩, h.ne'⟩

/-- If the searched cells contain all sites up to distance `R`, and there are at least `k` levels
up to `R`, the search finds exactly the sites of the `k` smallest levels. -/
theorem complete_of_window {S : Structure d ℝ} (hS : S.Good) {a b : ℕ} (ha : a < S.numBase)
    (hb : b < S.numBase) {cells : List (Fin d → ℤ)} {R : ℝ} {k : ℕ}
    (hR : ∀ n, S.siteDist a b n ≤ R → n ∈ cells)
    (hk : (k : ℕ∞) ≤ {y | IsLevel S a b y ∧ y ≤ R}.encard) (n : Fin d → ℤ) :
    (n ∈ cells ∧ S.siteDist a b n ∈ (S.levels cells a b).take k) ↔
      IsShell S a b k (S.siteDist a b n) := by
  set x := S.siteDist a b n with hx
  have hsort : (S.levels cells a b).Pairwise (· < ·) := npUnique_pairwise_lt _
  have hnd : (S.levels cells a b).Nodup := npUnique_nodup _
  rw [mem_take_sorted hsort]
  have hle : ∀ y, y ≤ R → (IsLevel S a b y ↔ y ∈ S.levels cells a b) := by
    intro y hy
    rw [isLevel_iff hS ha hb, mem_levels]
    constructor
    · rintro ⟨h1, m, rfl⟩
      exact ⟨h1, m, hR m hy, rfl⟩
    · rintro ⟨h1, m, -, h⟩
      exact ⟨h1, m, h⟩
  have hcard := encard_filter hnd (fun y => decide (y < x))
  simp only [decide_eq_true_eq] at hcard
  by_cases hxR : x ≤ R
  · have hset : {y | IsLevel S a b y ∧ y < x} = {y | y ∈ S.levels cells a b ∧ y < x} := by
      ext y
      change (_ ∧ _) ↔ (_ ∧ _)
      constructor
      · rintro ⟨h1, h2⟩; exact ⟨(hle y (h2.le.trans hxR)).1 h1, h2⟩
      · rintro ⟨h1, h2⟩; exact ⟨(hle y (h2.le.trans hxR)).2 h1, h2⟩
    unfold IsShell
    rw [hset, hcard, hle x hxR, Nat.cast_lt]
    constructor
    · rintro ⟨-, h⟩; exact h
    · intro h; exact ⟨hR n hxR, h⟩
  · push Not at hxR
    constructor
    · rintro ⟨-, -, h⟩
      exfalso
      have hsub : {y | IsLevel S a b y ∧ y ≤ R} ⊆ {y | y ∈ S.levels cells a b ∧ y < x} := by
        rintro y ⟨h1, h2⟩
        exact ⟨(hle y h2).1 h1, h2.trans_lt hxR⟩
      have := hk.trans (Set.encard_le_encard hsub)
      rw [hcard, Nat.cast_le] at this
      omega
    · rintro ⟨-, h⟩
      exfalso
      have hsub : {y | IsLevel S a b y ∧ y ≤ R} ⊆ {y | IsLevel S a b y ∧ y < x} := by
        rintro y ⟨h1, h2⟩
        exact ⟨h1, h2.trans_lt hxR⟩
      exact absurd (hk.trans (Set.encard_le_encard hsub)) (not_le.2 h)

/-! ## structures as witnesses -/

/-- The calls that add atoms at the given positions and connect all of them. -/
noncomputable def buildOps (ps : List (Vec d ℝ)) (nb : ℕ) : List (World.Op ℝ) :=
  ps.map (fun p => .addAtom (some (List.ofFn p)) (.obj ⟨0, "A", .none, 0⟩) false 0) ++
    [.addConnections nb true]

theorem toVec_ofFn (p : Vec d ℝ) : (Structure.toVec (List.ofFn p) : Option (Vec d ℝ)) = some p := by
  unfold Structure.toVec
  rw [dif_pos (by simp)]
  congr 1
  funext i
  simp

/-- Every regular basis with every non-empty list of distinct positions is a reachable structure,
connected to any number of shells and analysed. -/
theorem exists_structure (hd : 0 < d) (env : Env ℝ) {rows : Matrix (Fin d) (Fin d) ℝ}
    {b : LatticeBasis d ℝ} (hb : LatticeBasis.init rows = .ok b) (ps : List (Vec d ℝ))
    (hps : ps.Nodup) (hne : ps ≠ []) {nb : ℕ} (hnb : 0 < nb) :
    ∃ (w : World d ℝ) (A : Analysis d ℝ) (cells : List (Fin d → ℤ)) (c : ConnMatrix),
      Reachable env w ∧ w.struct.basis = b ∧ w.struct.positions = ps ∧
      w.struct.numBase = ps.length ∧ w.struct.atoms.length = ps.length ∧ w.struct.conn = some c ∧
      c.size = ps.length ∧ (∀ i j, i < ps.length → j < ps.length → c.entry i j = nb) ∧
      w.struct.analysis = some A ∧ IsAnalysis w.struct cells nb c A ∧
      b.getNeighborCells (2 * nb) true (fun x y => decide (x ≤ y)) = .ok cells := by
  -- adding the atoms
  have key : ∀ (qs : List (Vec d ℝ)) (w : World d ℝ), w.struct.Good → w.struct.frozen = false →
      (w.struct.positions ++ qs).Nodup →
      ∃ S', World.run env w (qs.map (fun p => .addAtom (some (List.ofFn p))
          (.obj ⟨0, "A", .none, 0⟩) false 0)) = ⟨w.session, S'⟩ ∧ S'.Good ∧ S'.frozen = false ∧
        S'.positions = w.struct.positions ++ qs ∧ S'.basis = w.struct.basis := by
    intro qs
    induction qs with
    | nil => intro w hw hf hnd; exact ⟨w.struct, rfl, hw, hf, by simp, rfl⟩
    | cons q qs ih =>
      intro w hw hf hnd
      have hq : q ∉ w.struct.positions := by
        intro h
        rw [List.nodup_append] at hnd
        exact hnd.2.2 q h q (by simp) rfl
      have h1 := addAtomAt_ok hd env hw q hq ⟨0, "A", .none, 0⟩ 0 hf
      set S1 := (w.struct.addAtomAt env q ⟨0, "A", .none, 0⟩ 0).1 with hS1
      have hf1 : S1.frozen = false := by
        rw [hS1]
        have hlen := hw.atoms_of_not_frozen hf
        simp [addAtomAt, hf, hlen, hw.positions_length]
      have hcall : (w.call env (.addAtom (some (List.ofFn q)) (.obj ⟨0, "A", .none, 0⟩) false 0)).1 =
          ⟨w.session, S1⟩ := by
        change (w.addAtom env _ _ _ _).1 = _
        simp only [World.addAtom, Structure.atomPos, toVec_ofFn, Bool.false_eq_true, if_false]
        rw [if_neg hq]
      obtain ⟨S', h2, h3, h4, h5, h6⟩ := ih ⟨w.session, S1⟩ h1.2.1 hf1 (by
        dsimp only
        rw [h1.2.2.2.1]
        simpa using hnd)
      refine ⟨S', ?_, h3, h4, ?_, ?_⟩
      · rw [List.map_cons]
        unfold World.run at h2 ⊢
        rw [List.foldl_cons, hcall]
        exact h2
      · rw [h5]; dsimp only; rw [h1.2.2.2.1]; simp
      · rw [h6]; exact h1.2.2.2.2.2.1
  obtain ⟨S1, h1, hg, hfr, hpos, hbas⟩ := key ps ⟨Session.empty, ofBasis b⟩ (good_ofBasis hb) rfl
    (by simpa [ofBasis] using hps)
  have hpos' : S1.positions = ps := by simpa [ofBasis] using hpos
  have hbas' : S1.basis = b := hbas
  have hnum : S1.numBase = ps.length := by rw [← hg.positions_length, hpos']
  have hconn : ∃ c0, S1.conn = some c0 := by
    cases hc : S1.conn with
    | none =>
      have := (hg.conn_none hc).1
      rw [hnum] at this
      exact absurd (List.length_eq_zero_iff.1 this) hne
    | some c0 => exact ⟨c0, rfl⟩
  obtain ⟨c0, hc0⟩ := hconn
  have hsz := hg.conn_size c0 hc0
  have hr : Reachable env (World.run env ⟨Session.empty, ofBasis b⟩ (buildOps ps nb)) :=
    ⟨rows, b, Session.empty, _, hb, rfl⟩
  have hrun : World.run env ⟨Session.empty, ofBasis b⟩ (buildOps ps nb) =
      ⟨Session.empty, (S1.addConnections env nb true).1⟩ := by
    unfold buildOps World.run
    rw [List.foldl_append]
    unfold World.run at h1
    rw [h1]
    rfl
  set c := c0.fill nb with hc
  have hS2 : Good ({ S1 with conn := some c } : Structure d ℝ) :=
    hg.setConn c hsz.1 hsz.2 (ConnMatrix.fill_symm _ _)
  have hadd : (S1.addConnections env nb true).1 =
      (({ S1 with conn := some c } : Structure d ℝ).analyze env).1 := by
    simp [addConnections, hc0, hc]
  have hent : ∀ i j, i < ps.length → j < ps.length → c.entry i j = nb := by
    intro i j hi hj
    rw [hc]
    exact if_pos ⟨by omega, by omega⟩
  have hpl : 0 < ps.length := List.length_pos_iff.2 hne
  rcases analyze_cases hd env hS2 with ⟨-, h⟩ | ⟨c', hc', hz, -⟩ |
      ⟨c', cells, m, A, hc', hz, hm, hm0, hcells, h, hI⟩
  · cases h
  · cases hc'
    rw [ConnMatrix.allZero_iff] at hz
    have hszc : c.size = ps.length := by rw [← hnum, ← hsz.1]; rfl
    have := hz 0 (by omega) 0 (by omega)
    rw [hent 0 0 hpl hpl] at this
    omega
  · cases hc'
    have hszc : c.size = ps.length := by rw [← hnum, ← hsz.1]; rfl
    have hmn : m = nb := by
      obtain ⟨m', h1, h2, h3, h4⟩ := ConnMatrix.max?_ok hz
      rw [hm] at h1
      cases h1
      obtain ⟨i, hi, j, hj, hij⟩ := h4
      rw [← hij]
      exact hent i j (by omega) (by omega)
    subst hmn
    refine ⟨_, A, cells, c, hr, ?_⟩
    rw [hrun]
    dsimp only
    rw [hadd, h]
    dsimp only
    refine ⟨hbas', hpos', hnum, ?_, rfl, hszc, hent, rfl, hI.congr rfl rfl rfl, ?_⟩
    · rw [hg.atoms_of_not_frozen hfr, hnum]
    · rw [← hbas']; exact hcells

end Lattpy
