import Verif.Props.Sound
import Verif.Props.FiniteHypercubic
import Verif.Props.FourierPresets
import Verif.Lemmas.MapReady

/-!
# Repeating a periodic lattice (C99)
-/

set_option autoImplicit false
set_option linter.unusedSectionVars false

namespace Lattpy

open Structure World LatticeData

variable {d : ℕ}

/-- The slots of tables that fit together and have an empty slot. -/
theorem Strong.slots {D : LatticeData d ℝ} (h : Strong D) (hf : ∀ r ∈ D.distances, ∀ l ∈ r,
    l ≤ D.invalidDistidx) (htop : ⊤ ∈ D.distvals) :
    D.distvals[D.invalidDistidx]? = some ⊤ ∧ D.invalidIdx = D.numSites ∧ (∃ w, D.Rect w) ∧
    ∀ r ∈ D.entries, ∀ e ∈ r, e.level < D.invalidDistidx ∧ e.nbr < D.numSites ∧
        (∃ x, D.distvals[e.level]? = some x ∧ x ≠ ⊤) ∨
      e.level = D.invalidDistidx := by
  obtain ⟨t, ht⟩ := h.table
  have hlast : D.distvals[D.invalidDistidx]? = some ⊤ := by
    obtain ⟨n, hn⟩ := List.mem_iff_getElem?.1 htop
    have hlt := (List.getElem?_eq_some_iff.1 hn).1
    have hinv := h.inv
    have : n = D.invalidDistidx := by
      by_contra hne
      have h1 : n < D.invalidDistidx := by omega
      have h2 := List.pairwise_iff_getElem.1 h.sorted n D.invalidDistidx hlt (by omega) h1
      rw [(List.getElem?_eq_some_iff.1 hn).2] at h2
      exact not_top_lt h2
    rwa [← this]
  obtain ⟨w, hw⟩ := ht.width
  refine ⟨hlast, ht.invalidIdx, ⟨w, ht.cols.rect ht.positions ht.length hw⟩, fun r hr e he => ?_⟩
  rw [ht.cols.entries_eq] at hr
  have hle : e.level ≤ D.invalidDistidx := by
    refine hf (r.map Entry.level) ?_ _ (List.mem_map_of_mem he)
    rw [ht.cols.level]
    exact List.mem_map_of_mem hr
  rcases lt_or_eq_of_le hle with hlt | heq
  · left
    have hinv := h.inv
    have hl : e.level < D.distvals.length := by omega
    have hx : D.distvals[e.level] ≠ ⊤ := by
      intro hx
      have := List.pairwise_iff_getElem.1 h.sorted e.level D.invalidDistidx hl (by omega) hlt
      rw [hx] at this
      exact not_top_lt this
    have hfin : ∃ x, D.distvals[e.level]? = some x ∧ x ≠ ⊤ :=
      ⟨_, List.getElem?_eq_getElem hl, hx⟩
    exact ⟨hlt, ht.nbr r hr e he hfin, hfin⟩
  · exact Or.inr heq

namespace Lattice

/-- Repeating a lattice with a periodic neighbour and an empty slot twice in one call. -/
theorem repeat_twice (env : Env ℝ) {L : Lattice d ℝ} {D : LatticeData d ℝ}
    (hdata : L.data = some D) {A : Analysis d ℝ} (hA : L.struct.analysis = some A) {k : ℕ} {q : ℝ}
    (hq : queryParams A = .ok (k, q)) (hS : Strong D)
    (hf : ∀ r ∈ D.distances, ∀ l ∈ r, l ≤ D.invalidDistidx) (htop : ⊤ ∈ D.distvals)
    (hinf : ⊤ ∈ D.distTable.flatten) (h256 : D.distvals.length ≤ 256)
    (hb : L.primitive.getD false = true ∨ Orthogonal L.struct.basis) {ax : ℕ} (hax : ax < d)
    {i j : ℕ} {t : Fin d → ℤ} {x : ℝ} (hper : Per D i j t x) :
    ∃ L' E, L.repeat env 2 ax true none false = (L', .ok ()) ∧ L'.data = some E ∧
      E.numSites = 3 * D.numSites ∧
      ∃ l, E.getNeighbors (2 * D.numSites + i) none none false = .ok l ∧ E.numSites ∈ l := by
  obtain ⟨hlast, hii, ⟨w, hR⟩, hslot⟩ := hS.slots hf htop
  obtain ⟨r, hr, e, he, hper, -, -, hx⟩ := hper
  have hpl : D.positions.length = D.indices.length := hR.positions
  have hi : i < D.numSites := by
    have := (List.getElem?_eq_some_iff.1 hr).1
    obtain ⟨t, ht⟩ := hS.table
    rwa [ht.cols.entries_eq, ht.length] at this
  have hne : D.indices ≠ [] := List.ne_nil_of_length_pos (by
    have : 0 < D.numSites := by omega
    exact this)
  have hdt : D.distTable.length = D.numSites ∧ ∀ r ∈ D.distTable, r.length = w := by
    unfold distTable
    refine ⟨by rw [List.length_map]; exact hR.distances.1, fun s hs => ?_⟩
    obtain ⟨s', hs', rfl⟩ := List.mem_map.1 hs
    rw [List.length_map]
    exact hR.distances.2 s' hs'
  have hw : 0 < w := by
    obtain ⟨s, hs, hx⟩ := List.mem_flatten.1 hinf
    rw [← hdt.2 s hs]
    exact List.length_pos_of_mem hx
  have hc := hR.cols
  -- rows of the tables
  have hdrow : ∀ (n : ℕ) dr, D.distTable[n]? = some dr → ∃ s, D.entries[n]? = some s ∧
      dr = s.map fun e => D.distvals.getD e.level ⊤ := by
    intro n dr hdr
    unfold distTable at hdr
    rw [hc.level, List.getElem?_map, Option.map_eq_some_iff] at hdr
    obtain ⟨s, hs, rfl⟩ := hdr
    rw [List.getElem?_map, Option.map_eq_some_iff] at hs
    obtain ⟨s, hs, rfl⟩ := hs
    exact ⟨s, hs, by rw [List.map_map]; rfl⟩
  have hfin : ∀ s ∈ D.entries, ∀ e ∈ s, D.distvals.getD e.level ⊤ ≠ ⊤ → e.nbr < D.numSites := by
    intro s hs e he hne
    rcases hslot s hs e he with h | h
    · exact h.2.1
    · rw [h, List.getD_eq_getElem?_getD, hlast] at hne
      exact absurd rfl hne
  have hsub : ∀ y ∈ D.distTable.flatten, y ∈ D.distvals := by
    intro y hy
    rcases mem_distTable hy with h | h
    · exact h
    · rw [h]; exact htop
  -- the first repetition
  obtain ⟨v, hv, -⟩ := periodicVector_spec (b := L.struct.basis) hb (indices := D.indices) hne
    (S := [ax]) (by simpa using hax)
  obtain ⟨L1, E1, a1, a2, a3, a4, -, a6, a7, a8, a9, -, -⟩ := C68_interface_partial env hdata hA hq hR
    (fun s hs e he => (hslot s hs e he).imp_left fun h => ⟨h.1, by rw [hii]; omega⟩) (by omega)
    hS.sorted hlast D.indices D.positions D.neighbors D.distTable hpl (by
      have : 0 < D.numSites := by omega
      exact this) hw ⟨hR.neighbors.1, hR.neighbors.2⟩ hdt (by
      intro n nr dr hnr hdr p hp hpt
      obtain ⟨s, hs, rfl⟩ := hdrow n dr hdr
      rw [hc.nbr, List.getElem?_map, hs] at hnr
      cases hnr
      rw [List.zip_map', List.mem_map] at hp
      obtain ⟨e, he, rfl⟩ := hp
      exact (hfin s (List.mem_of_getElem? hs) e he hpt).le) (Or.inl hinf) (by
      have : (⊤ :: (D.distTable.flatten ++ D.distTable.flatten)).dedup ⊆ D.distvals := by
        intro y hy
        rw [List.mem_dedup, List.mem_cons, List.mem_append] at hy
        rcases hy with rfl | hy | hy
        · exact htop
        · exact hsub y hy
        · exact hsub y hy
      exact ((List.nodup_dedup _).subperm this).length_le.trans h256)
    (ax := ax) (side := true) hv
  obtain ⟨g1, g2⟩ := appendSites_distvals env hdata (E := E1) (by rw [a1]; exact a2) hS.sorted.nodup
  have hsub1 : E1.distvals ⊆ D.distvals := by
    intro y hy
    rcases g2 y hy with h | h | h
    · exact h
    · rw [h]; exact htop
    · exact hsub y h
  have hE256 : E1.distvals.length ≤ 256 := (g1.subperm hsub1).length_le.trans h256
  have hS1 : Strong E1 := appendData_strong env hdata hS hS ax true none false
    (by rw [a1]; exact a2) hE256
  have hn1 : E1.numSites = 2 * D.numSites := by
    unfold LatticeData.numSites
    rw [a6, List.length_append, List.length_map]
    omega
  have hf1 : ∀ r ∈ E1.distances, ∀ l ∈ r, l ≤ E1.invalidDistidx := by
    intro s hs l hl
    rw [a8.cols.level] at hs
    obtain ⟨s', hs', rfl⟩ := List.mem_map.1 hs
    obtain ⟨e, he, rfl⟩ := List.mem_map.1 hl
    obtain ⟨-, ⟨a, b, rfl, h1, h2⟩, -⟩ := a8.rows s' hs'
    rcases List.mem_append.1 he with he | he
    · exact (h1 e he).le
    · exact (h2 e he).le
  obtain ⟨hlast1, hii1, ⟨w1, hR1⟩, hslot1⟩ := hS1.slots hf1 (List.mem_of_getElem? a8.top)
  -- the table read by the second repetition
  have hcl : D.clearedNeighbors = D.entries.map fun s => s.map fun e =>
      if e.per then D.numSites else e.nbr := by
    unfold LatticeData.clearedNeighbors
    conv_lhs => rw [hc.nbr, hc.per, hii]
    rw [List.zipWith_map, List.zipWith_self]
    refine List.map_congr_left fun s _ => ?_
    rw [List.zipWith_map, List.zipWith_self]
  have hstruct : L1.struct = L.struct := by unfold Lattice.struct; rw [a3]
  have hne1 : E1.indices ≠ [] := by rw [a6]; simp [hne]
  obtain ⟨v1, hv1, -⟩ := periodicVector_spec (b := L.struct.basis) hb (indices := E1.indices) hne1
    (S := [ax]) (by simpa using hax)
  obtain ⟨L2, E2, b1, b2, -, -, -, b6, -, b8, -, -, b11⟩ := C68_interface_partial env a2
    (by rw [hstruct]; exact hA) hq hR1
    (fun s hs e he => (hslot1 s hs e he).imp_left fun h => ⟨h.1, by rw [hii1]; omega⟩) (by omega)
    hS1.sorted hlast1 D.indices D.positions D.clearedNeighbors D.distTable hpl (by
      have : 0 < D.numSites := by omega
      exact this) hw (by
      rw [hcl]
      refine ⟨by rw [List.length_map]; exact hR.entries_length, fun s hs => ?_⟩
      obtain ⟨s', hs', rfl⟩ := List.mem_map.1 hs
      rw [List.length_map]
      exact hR.row_length s' hs') hdt (by
      intro n nr dr hnr hdr p hp hpt
      obtain ⟨s, hs, rfl⟩ := hdrow n dr hdr
      rw [hcl, List.getElem?_map, hs] at hnr
      cases hnr
      rw [List.zip_map', List.mem_map] at hp
      obtain ⟨e, he, rfl⟩ := hp
      have := hfin s (List.mem_of_getElem? hs) e he hpt
      change (if e.per then D.numSites else e.nbr) ≤ D.numSites
      split_ifs <;> omega) (Or.inr (Or.inl hinf)) (by
      have : (⊤ :: (E1.distTable.flatten ++ D.distTable.flatten)).dedup ⊆ D.distvals := by
        intro y hy
        rw [List.mem_dedup, List.mem_cons, List.mem_append] at hy
        rcases hy with rfl | hy | hy
        · exact htop
        · rcases mem_distTable hy with h | h
          · exact hsub1 h
          · rw [h]; exact htop
        · exact hsub y hy
      exact ((List.nodup_dedup _).subperm this).length_le.trans h256)
    (ax := ax) (side := true) (v := v1) (by rw [hstruct, a4]; exact hv1)
  refine ⟨L2, E2, ?_, b2, ?_, ?_⟩
  · unfold Lattice.repeat
    rw [hdata]
    dsimp only
    rw [repeatLoop, a1]
    dsimp only
    rw [repeatLoop, b1]
    rfl
  · unfold LatticeData.numSites at hn1 ⊢
    rw [b6, List.length_append, List.length_map, hn1]
    omega
  · have hn2 : E2.numSites = 3 * D.numSites := by
      unfold LatticeData.numSites at hn1 ⊢
      rw [b6, List.length_append, List.length_map, hn1]
      omega
    obtain ⟨p, hp⟩ : ∃ p, D.positions[i]? = some p :=
      ⟨_, List.getElem?_eq_getElem (by rw [hpl]; exact hi)⟩
    obtain ⟨s, -, -, hs⟩ := b11 i p (r.map fun e => if e.per then D.numSites else e.nbr)
      (r.map fun e => D.distvals.getD e.level ⊤) hp (by rw [hcl, List.getElem?_map, hr]; rfl) (by
        unfold distTable
        rw [hc.level, List.getElem?_map, List.getElem?_map, hr]
        simp only [Option.map_some, List.map_map]
        rfl)
    have hrow : 2 * D.numSites + i < E2.entries.length := by
      rw [b8.length, hn1]
      have : D.indices.length = D.numSites := rfl
      omega
    refine ⟨_, getNeighbors_linksOf b8.cols (List.getElem?_eq_getElem hrow), ?_⟩
    rw [hn1] at hs
    refine List.mem_map.2 ⟨(D.numSites + 2 * D.numSites, some (x : WithTop ℝ)), hs.mem_iff.2 ?_, by
      dsimp only; omega⟩
    refine List.mem_append_left _ (List.mem_map.2 ⟨(D.numSites, (x : WithTop ℝ)), ?_, rfl⟩)
    refine List.mem_filter.2 ⟨?_, by simp⟩
    rw [List.zip_map', List.mem_map]
    refine ⟨e, he, ?_⟩
    rw [if_pos hper, List.getD_eq_getElem?_getD, hx]
    rfl

end Lattice

/-- C99 fails for `repeat` with more than one repetition of a lattice with periodic neighbours.  The
neighbour table that `repeat` reads is the array of the data; the first repetition writes the number
of sites over its periodic neighbours (`remove_periodic`) and leaves the separate table of distances
as it was.  The second repetition appends slots with a finite distance that name no site: a square
lattice of three by three sites, periodic along the first axis and repeated twice, has 27 sites, and
27 is a neighbour of one of them.  All calls succeed. -/
theorem C99_repeat_fails (env : Env ℝ) (s : Session) :
    ∃ (w : World 2 ℝ) (L L' : Lattice 2 ℝ) (E : LatticeData 2 ℝ), Reachable env w ∧
      Lattice.run env (Lattice.ofWorld w) [.build
        { shape := .size (List.ofFn fun k => ((![3, 3] k : ℕ) : ℝ)) true, primitive := true },
        .setPeriodic (.axes [0])] = L ∧ L.Used env ∧ L.Few ∧ L.Padded ∧
      L.repeat env 2 0 true none false = (L', .ok ()) ∧ L'.data = some E ∧ E.numSites = 27 ∧
      ¬ E.Sound ∧
      ∃ i l, E.getNeighbors i none none false = .ok l ∧ 27 ∈ l := by
  obtain ⟨w, L, A, D, table, h1, h2, h⟩ := exists_grid (d := 2) (by norm_num) (by norm_num) env s
    (.name "A") ![3, 3] (by decide) true
  obtain ⟨L', E, g1, g2, -, g4, g5, g6, g7⟩ := h.set_periodic (by norm_num) (by decide)
    (axes := [0]) (by decide) (by decide) (by decide)
  have hw : Reachable env w := configure_reachable h1
  have hrun : Lattice.run env (Lattice.ofWorld w) [.build
      { shape := .size (List.ofFn fun k => ((![3, 3] k : ℕ) : ℝ)) true, primitive := true },
      .setPeriodic (.axes [0])] = L' := by
    simp only [Lattice.run, List.foldl_cons, List.foldl_nil, Lattice.call]
    rw [h2]
    exact congrArg Prod.fst g1
  have hpad : L.Padded := fun D' hD' => by rw [h.data] at hD'; cases hD'; exact h.top
  have hu : L'.Used env := by
    have h3 := Lattice.Used.build (env := env)
      { shape := .size (List.ofFn fun k => ((![3, 3] k : ℕ) : ℝ)) true, primitive := true }
      (Lattice.Used.new hw) (Or.inl rfl)
    rw [h2] at h3
    have h4 := h3.setPeriodic (.axes [0]) hpad
    rw [g1] at h4
    exact h4
  obtain ⟨f1, -, -, f3, -, f6⟩ := Lattice.setPeriodic_frame env L (.axes [0])
  obtain ⟨E', hE', hs⟩ := f6 D h.data
  rw [g1, g2] at hE'
  cases hE'
  rw [g1] at f1 f3
  have hE256 : E.distvals.length ≤ 256 := by rw [hs.distvals]; exact h.levels
  have hEtop : ⊤ ∈ E.distvals := by rw [hs.distvals]; exact h.top
  have hS : Strong E := (hu.strong (by norm_num)).2 E g2 hE256
  have hF : Fresh E := (Lattice.run_fresh (by norm_num) hw _ (by rw [hrun]; exact g2) hE256 hEtop).2
  obtain ⟨hlast, -, ⟨width, hR⟩, hslot⟩ := hS.slots hF.levels hEtop
  have hidx : ∀ n : Fin 2 → ℤ, (∀ k, 0 ≤ n k ∧ n k < ((![3, 3] : Fin 2 → ℕ) k : ℤ)) →
      ∃ i : ℕ, D.indices[i]? = some (Idx.mk n 0) := fun n hn =>
    List.mem_iff_getElem?.1 ((h.mem n).2 hn)
  have hinf : ⊤ ∈ E.distTable.flatten := by
    by_contra hno
    have hall : ∀ r ∈ E.entries, ∀ e ∈ r, e.level < E.invalidDistidx := by
      intro r hr e he
      rcases hslot r hr e he with h3 | h3
      · exact h3.1
      · refine absurd (List.mem_flatten.2 ⟨r.map fun e => E.distvals.getD e.level ⊤, ?_, ?_⟩) hno
        · unfold LatticeData.distTable
          rw [hR.cols.level]
          exact List.mem_map.2 ⟨_, List.mem_map_of_mem hr, by rw [List.map_map]; rfl⟩
        · exact List.mem_map.2 ⟨e, he, by rw [h3, List.getD_eq_getElem?_getD, hlast]; rfl⟩
    have hlen : ∀ (i : ℕ) (a : Idx 2) l, D.indices[i]? = some a →
        L'.neighbors i none false = .ok l → l.length = width := by
      intro i a l ha hl
      obtain ⟨r, -, hr, h4⟩ := hR.getNeighbors (i := i) (by
        unfold LatticeData.numSites
        rw [g4]
        exact (List.getElem?_eq_some_iff.1 ha).1)
      have h5 : L'.neighbors i none false = E.getNeighbors i none none false := by
        unfold Lattice.neighbors
        rw [g2]
      rw [h5, h4] at hl
      cases hl
      rw [List.length_map, List.filter_eq_self.2 (fun e he => by
        simp [LatticeData.sel, LatticeData.levelSel, hall r hr e he])]
      exact hR.row_length r hr
    obtain ⟨i10, hi10⟩ := hidx ![1, 0] (by decide)
    obtain ⟨i11, hi11⟩ := hidx ![1, 1] (by decide)
    obtain ⟨i00, hi00⟩ := hidx ![0, 0] (by decide)
    obtain ⟨i20, hi20⟩ := hidx ![2, 0] (by decide)
    obtain ⟨i01, hi01⟩ := hidx ![0, 1] (by decide)
    obtain ⟨i21, hi21⟩ := hidx ![2, 1] (by decide)
    obtain ⟨i12, hi12⟩ := hidx ![1, 2] (by decide)
    have hinj : ∀ {i j : ℕ} {a : Idx 2}, D.indices[i]? = some a → D.indices[j]? = some a → i = j :=
      fun h3 h4 => (List.getElem?_inj (List.getElem?_eq_some_iff.1 h3).1 h.nodup).1 (h3.trans h4.symm)
    have hdiff : ∀ {i j : ℕ} {x y : Fin 2 → ℤ}, D.indices[i]? = some (Idx.mk x 0) →
        D.indices[j]? = some (Idx.mk y 0) → x ≠ y → i ≠ j := by
      intro i j x y h3 h4 hxy hij
      rw [hij, h4] at h3
      exact hxy (Idx.mk_inj.1 (Option.some.inj h3)).1.symm
    obtain ⟨l0, h30, h40, h50⟩ := g6 i10 _ hi10
    obtain ⟨l1, h31, h41, h51⟩ := g6 i11 _ hi11
    have hl0 : l0.length ≤ 3 := by
      have : l0 ⊆ [i00, i20, i11] := by
        intro x hx
        obtain ⟨b, hb, k, h6, h7⟩ := (h50 x).1 hx
        obtain ⟨h8, h9⟩ := h.index hb
        rw [Idx.cell_mk] at h6 h7
        have hbe : b = Idx.mk b.cell 0 := h8
        simp only [List.mem_cons, List.not_mem_nil, or_false]
        have b0 := h9 0
        have b1 := h9 1
        simp only [Matrix.cons_val_zero, Matrix.cons_val_one] at b0 b1
        have hcell : b.cell = ![0, 0] ∨ b.cell = ![2, 0] ∨ b.cell = ![1, 1] := by
          have hext : ∀ u v : ℤ, b.cell 0 = u → b.cell 1 = v → b.cell = ![u, v] := by
            intro u v hu hv
            funext m
            fin_cases m
            · exact hu
            · exact hv
          fin_cases k
          · have h1' := h6 1 (by decide)
            simp at h7 h1'
            rcases h7 with h7 | h7
            · exact Or.inr (Or.inl (hext _ _ (by omega) h1'))
            · exact Or.inl (hext _ _ (by omega) h1')
          · have h1' := h6 0 (by decide)
            simp at h7 h1'
            rcases h7 with h7 | h7
            · exact Or.inr (Or.inr (hext _ _ h1' (by omega)))
            · omega
        rw [hbe] at hb
        rcases hcell with hc' | hc' | hc' <;> rw [hc'] at hb
        · exact Or.inl (hinj hb hi00)
        · exact Or.inr (Or.inl (hinj hb hi20))
        · exact Or.inr (Or.inr (hinj hb hi11))
      exact (List.subperm_of_subset h40 this).length_le
    have hl1 : 4 ≤ l1.length := by
      have : [i01, i21, i10, i12] ⊆ l1 := by
        intro x hx
        simp only [List.mem_cons, List.not_mem_nil, or_false] at hx
        refine (h51 x).2 ?_
        rcases hx with rfl | rfl | rfl | rfl
        · exact ⟨_, hi01, 0, by rw [Idx.cell_mk, Idx.cell_mk]; decide,
            by rw [Idx.cell_mk, Idx.cell_mk]; decide⟩
        · exact ⟨_, hi21, 0, by rw [Idx.cell_mk, Idx.cell_mk]; decide,
            by rw [Idx.cell_mk, Idx.cell_mk]; decide⟩
        · exact ⟨_, hi10, 1, by rw [Idx.cell_mk, Idx.cell_mk]; decide,
            by rw [Idx.cell_mk, Idx.cell_mk]; decide⟩
        · exact ⟨_, hi12, 1, by rw [Idx.cell_mk, Idx.cell_mk]; decide,
            by rw [Idx.cell_mk, Idx.cell_mk]; decide⟩
      exact (List.subperm_of_subset (by
        simp only [List.nodup_cons, List.mem_cons, List.not_mem_nil, or_false, not_or,
          not_false_eq_true, List.nodup_nil, and_true]
        exact ⟨⟨hdiff hi01 hi21 (by decide), hdiff hi01 hi10 (by decide),
          hdiff hi01 hi12 (by decide)⟩, ⟨hdiff hi21 hi10 (by decide), hdiff hi21 hi12 (by decide)⟩,
          hdiff hi10 hi12 (by decide)⟩) this).length_le
    have := hlen _ _ _ hi10 h30
    have := hlen _ _ _ hi11 h31
    omega
  obtain ⟨i, hi⟩ := hidx ![0, 0] (by decide)
  obtain ⟨j, hj⟩ := hidx ![2, 0] (by decide)
  have hper : Lattice.Per E i j (Pi.single 0 3) 1 := by
    refine (g7 i j _ 1).2 ⟨rfl, _, _, hi, hj, 0, by simp, ?_, Or.inl ⟨rfl, ?_, ?_⟩⟩
    · rw [Idx.cell_mk, Idx.cell_mk]; decide
    · rw [Idx.cell_mk]; rfl
    · rw [Idx.cell_mk]; rfl
  obtain ⟨k0, r0, hq⟩ := computeNeighbors_params h.analysis h.comp
  have hst : L'.struct = L.struct := by unfold Lattice.struct; rw [f1]
  obtain ⟨L2, E2, e1, e2, e3, l, e4, e5⟩ := Lattice.repeat_twice env g2 (by rw [hst]; exact h.analysis)
    hq hS hF.levels hEtop hinf hE256 (Or.inl (by rw [f3, h.primitive]; rfl)) (ax := 0) (by norm_num)
    hper
  have hn : E.numSites = 9 := by
    unfold LatticeData.numSites
    rw [g4, h.sites_spec.1]
    decide
  rw [hn] at e3
  rw [e3] at e5
  refine ⟨w, L', L2, E2, hw, hrun, hu, ?_, ?_, e1, e2, e3, ?_, _, l, e4, e5⟩
  · intro D' hD'; rw [g2] at hD'; cases hD'; exact hE256
  · intro D' hD'; rw [g2] at hD'; cases hD'; exact hEtop
  · intro hsound
    obtain ⟨l', h3, h4⟩ := hsound.getNeighbors.1 (2 * E.numSites + i) (by
      rw [hn, e3]
      have := (List.getElem?_eq_some_iff.1 hi).1
      rw [show D.indices.length = _ from h.sites_spec.1] at this
      rw [show ∏ k, (![3, 3] : Fin 2 → ℕ) k = 9 by decide] at this
      omega) none false
    rw [e4] at h3
    cases h3
    have := h4 _ e5
    omega

end Lattpy
