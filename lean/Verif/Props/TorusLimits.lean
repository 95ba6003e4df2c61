import Verif.Props.TorusPresets
import Verif.Props.PeriodicSound

/-!
# Where periodic lattices are not tori (C111)
-/

set_option autoImplicit false
set_option linter.unusedSectionVars false

namespace Lattpy

open Structure World Preset

variable {d : ℕ}

/-- Sites connected across the boundary are neighbours in the infinite lattice. -/
theorem image_near (hd : 0 < d) {env : Env ℝ} {w : World d ℝ} (hr : Reachable env w) {r : ℝ}
    {N : ℕ → Set (Idx d)} (hN : NearestOnly w r N) {A : Analysis d ℝ}
    (hA : w.struct.analysis = some A) {indices : List (Idx d)} {positions : List (Vec d ℝ)}
    (hsites : List.Forall₂ (IsSitePos w.struct) indices positions) {i j : ℕ} {t : Fin d → ℤ} {x : ℝ}
    (hI : Image w.struct A indices positions i j t x) :
    ∃ a b : Idx d, indices[i]? = some a ∧ indices[j]? = some b ∧ ∃ α β : ℕ, a.alpha = α ∧
      b.alpha = β ∧ Idx.mk (b.cell - a.cell - t) (β : ℤ) ∈ N α := by
  have hpos := hN.pos
  have hD := hN.resolved
  have hrd := abs_le.1 hN.round
  obtain ⟨p, q, a, b, hp, hq, ha, hb, hx, hcf⟩ := hI
  have hx0 := hN.configured hd hr hA hcf
  have hget : ∀ {i : ℕ} {a : Idx d} {p : Vec d ℝ}, indices[i]? = some a → positions[i]? = some p →
      IsSitePos w.struct a p := by
    intro i a p h1 h2
    obtain ⟨i1, e1⟩ := List.getElem?_eq_some_iff.1 h1
    obtain ⟨i2, e2⟩ := List.getElem?_eq_some_iff.1 h2
    have := hsites.get i1 i2
    simpa only [List.get_eq_getElem, e1, e2] using this
  have hs := hget ha hp
  have hqs := hget hb hq
  have g1 := shifted_site w.struct hs t
  rw [shifted_dist] at hx
  by_cases hne : Idx.mk (a.cell + t) a.alpha = b
  · exfalso
    rw [hne] at g1
    rw [site_unique g1 hqs, distance_self, npRound_zero, hx0] at hx
    norm_num at hrd hD
    linarith
  · obtain ⟨α, β, e1, e2, ⟨-, hc⟩ | hc⟩ := hN.sites g1 hqs hne
    · rw [Idx.alpha_mk] at e1
      rw [Idx.cell_mk, ← sub_sub] at hc
      exact ⟨a, b, ha, hb, α, β, e1, e2, hc⟩
    · exfalso
      have h1 := abs_le.1 (abs_npRound_sub_le 6 (distance q (w.struct.basis.translate t p)))
      rw [← hx, hx0] at h1
      norm_num at h1 hrd hD
      linarith

/-- All neighbours after `set_periodic`, for lattices with nearest connections: each is the neighbour
of the site, or of one of its copies shifted by one of the translations, in the infinite lattice. -/
theorem periodic_near (hd : 0 < d) {env : Env ℝ} {w : World d ℝ} (hr : Reachable env w) {r : ℝ}
    {N : ℕ → Set (Idx d)} (hN : NearestOnly w r N) {a : BuildArgs d ℝ} (hm : a.minNeighbors = none)
    (hp : a.periodic = none) (hb : a.bits = none) {L : Lattice d ℝ}
    (hok : (Lattice.ofWorld w).build env a = (L, .ok ())) {D : LatticeData d ℝ}
    (hD : L.data = some D) {axes : List ℕ} {L' : Lattice d ℝ} {res : Except PyErr Unit}
    (hper : L.setPeriodic env (.axes axes) = (L', res)) {i : ℕ} {l : List ℕ}
    (hl : L'.neighbors i none false = .ok l) {j : ℕ} (hj : j ∈ l) :
    ∃ (t : Fin d → ℤ) (x y : Idx d), D.indices[i]? = some x ∧ D.indices[j]? = some y ∧
      (t = 0 ∨ ∃ vecs, Lattice.periodicVectors w.struct.basis D.indices axes a.primitive = .ok vecs ∧
        ∃ v ∈ vecs, t = v.2 ∨ t = -v.2) ∧
      ∃ α β : ℕ, x.alpha = α ∧ y.alpha = β ∧ Idx.mk (y.cell - x.cell - t) (β : ℤ) ∈ N α := by
  obtain ⟨A0, D0, table, hA0, hD0, hworld, hsites, hnd, hcomp, hset⟩ := build_table hd hr hm hp hb hok
  cases hD.symm.trans hD0
  obtain ⟨-, htl, -⟩ := hN.table hd hr hA0 hsites hnd hcomp
  obtain ⟨row, hrow, -⟩ := set_nonempty hset
  have h0 : 0 < D.positions.length := by rw [← htl]; exact List.length_pos_of_mem hrow
  obtain ⟨D', hset', -, -, htop, h256, -⟩ := hN.data hd hr hA0 hsites hnd h0 hcomp
  rw [hset] at hset'
  cases hset'
  obtain ⟨D', hD', -, -, -, hnear⟩ := hN.builds hd hr _ L a rfl hm hp hb hok
  cases hD.symm.trans hD'
  have hrun : Lattice.run env (Lattice.ofWorld w) [.build a] = L := by
    simp only [Lattice.run, List.foldl_cons, List.foldl_nil, Lattice.call]
    rw [hok]
  have hrun' : Lattice.run env (Lattice.ofWorld w) [.build a, .setPeriodic (.axes axes)] = L' := by
    simp only [Lattice.run, List.foldl_cons, List.foldl_nil, Lattice.call]
    rw [hok, hper]
  obtain ⟨hshape, hprim⟩ : L.shape ≠ none ∧ L.primitive.getD false = a.primitive := by
    obtain ⟨-, -, -, -, -, -, -, -, -, rfl⟩ := Lattice.build_ok hp hok
    exact ⟨by simp, rfl⟩
  obtain ⟨E, hE, e1, e2, ⟨hreg, -⟩, himg⟩ := C64_sound hd hr _ hrun hD h256 hshape (.axes axes) hper
  have hEd : E.distvals = D.distvals := by
    obtain ⟨-, -, -, -, -, f6⟩ := Lattice.setPeriodic_frame env L (.axes axes)
    obtain ⟨E', hE', hs⟩ := f6 D hD
    rw [hper] at hE'
    cases hE.symm.trans hE'
    exact hs.distvals
  obtain ⟨t, ht⟩ := (Lattice.run_weak hd hr _ (by rw [hrun']; exact hE) (by rw [hEd]; exact h256)).table
  have c := ht.cols
  unfold Lattice.neighbors at hl
  rw [hE] at hl
  dsimp only at hl
  cases hk : t[i]? with
  | none =>
    have hn : E.neighbors[i]? = none := by rw [c.nbr]; simp [hk]
    unfold LatticeData.getNeighbors LatticeData.neighborMask at hl
    rw [hn] at hl
    rcases E.distances[i]? with _ | x <;> simp at hl
  | some rw =>
    have hl' := hl
    rw [c.getNeighbors i rw hk] at hl'
    cases hl'
    obtain ⟨e, he, rfl⟩ := List.mem_map.1 hj
    obtain ⟨he, hs⟩ := List.mem_filter.1 he
    have hs' : e.level < E.invalidDistidx := by simpa [LatticeData.sel] using hs
    cases hpe : e.per
    · have : Lattice.Reg E i e.nbr := ⟨_, c.getNeighbors i rw hk none (some false) false,
        List.mem_map.2 ⟨e, List.mem_filter.2 ⟨he, by simp [LatticeData.sel, hs', hpe]⟩, rfl⟩⟩
      obtain ⟨l0, hl0, hj0⟩ := hreg i _ this
      obtain ⟨t0, ht0⟩ := (Lattice.run_weak hd hr _ (by rw [hrun]; exact hD) h256).table
      have c0 := ht0.cols
      cases hk0 : t0[i]? with
      | none =>
        have hn : D.neighbors[i]? = none := by rw [c0.nbr]; simp [hk0]
        unfold LatticeData.getNeighbors LatticeData.neighborMask at hl0
        rw [hn] at hl0
        rcases D.distances[i]? with _ | x <;> simp at hl0
      | some r0 =>
        have hi : i < D.numSites := by
          rw [← ht0.length]
          exact (List.getElem?_eq_some_iff.1 hk0).1
        obtain ⟨ln, hln, -, hmem⟩ := hnear i hi
        unfold Lattice.neighbors at hln
        rw [hD] at hln
        dsimp only at hln
        rw [c0.getNeighbors i r0 hk0] at hln hl0
        cases hln
        cases hl0
        obtain ⟨e0, he0, hnb⟩ := List.mem_map.1 hj0
        obtain ⟨he0, hs0⟩ := List.mem_filter.1 he0
        have hs0' : e0.level < D.invalidDistidx ∧ e0.per = false := by
          simpa [LatticeData.sel] using hs0
        obtain ⟨p, q, hp', hq', hdist⟩ := (hmem e.nbr).1 (List.mem_map.2 ⟨e0, List.mem_filter.2
          ⟨he0, by simp [LatticeData.sel, hs0'.1]⟩, hnb⟩)
        have hlen := hsites.length_eq
        have i1 := (List.getElem?_eq_some_iff.1 hp').1
        have i2 := (List.getElem?_eq_some_iff.1 hq').1
        have hsi := hsites.get (hlen ▸ i1) i1
        have hsj := hsites.get (hlen ▸ i2) i2
        simp only [List.get_eq_getElem, (List.getElem?_eq_some_iff.1 hp').2] at hsi
        simp only [List.get_eq_getElem, (List.getElem?_eq_some_iff.1 hq').2] at hsj
        refine ⟨0, _, _, List.getElem?_eq_getElem (hlen ▸ i1), List.getElem?_eq_getElem (hlen ▸ i2),
          Or.inl rfl, ?_⟩
        have hne : D.indices[i]'(hlen ▸ i1) ≠ D.indices[e.nbr]'(hlen ▸ i2) := by
          intro hne
          rw [hne] at hsi
          rw [site_unique hsi hsj, distance_self] at hdist
          exact hN.pos.ne hdist
        obtain ⟨α, β, g1, g2, ⟨-, g3⟩ | g3⟩ := hN.sites hsi hsj hne
        · exact ⟨α, β, g1, g2, by rw [sub_zero]; exact g3⟩
        · have := hN.pos
          rw [hdist] at g3
          linarith
    · obtain ⟨A, vecs, hA, hv, v, hv1, x, hx⟩ := himg i _
        (c.getNeighbors i rw hk none (some true) false) e.nbr
        (List.mem_map.2 ⟨e, List.mem_filter.2 ⟨he, by simp [LatticeData.sel, hs', hpe]⟩, rfl⟩)
      have hS : L.struct = w.struct := congrArg World.struct hworld
      rw [hS] at hA hv hx
      rw [hprim] at hv
      rcases hx with hx | hx
      · obtain ⟨x, y, g⟩ := image_near hd hr hN hA hsites hx
        exact ⟨_, x, y, g.1, g.2.1, Or.inr ⟨vecs, hv, v, hv1, Or.inl rfl⟩, g.2.2⟩
      · obtain ⟨x, y, g⟩ := image_near hd hr hN hA hsites hx
        exact ⟨_, x, y, g.1, g.2.1, Or.inr ⟨vecs, hv, v, hv1, Or.inr rfl⟩, g.2.2⟩

/-- C111 fails for honeycomb lattices of integer size: `build((n, n), primitive=True)` keeps the first
atom of `n + 1` cells in each direction, but the second atom only of `n` (its position in the last
cell is outside of the box).  The cells are not whole, the period is `n + 1`, and after
`set_periodic([0, 1])`, whatever its outcome, not every site has three neighbours: the first site is
left with at most one. -/
theorem C111_honeycomb_fails (env : Env ℝ) (s : Session) (a : ℝ) (ha : 1 ≤ a) (atom : AtomSpec)
    (n : ℕ) (hn : 1 ≤ n) :
    ∃ w L D, honeycomb env s a atom = .ok w ∧
      (Lattice.ofWorld w).build env (primitiveBox (fun _ => (n : ℝ)) true) = (L, .ok ()) ∧
      L.data = some D ∧ ∀ L' res, L.setPeriodic env (.axes [0, 1]) = (L', res) →
        ¬ Coordination L' 3 ∧
        ∃ i : ℕ, D.indices[i]? = some (Idx.mk 0 0) ∧
          ∀ l, L'.neighbors i none false = .ok l → l.Nodup → l.length ≤ 1 := by
  have ha0 : 0 < a := by linarith
  have ha' : 1 / 10 ^ 5 ≤ |a| := by rw [abs_of_pos ha0]; linarith
  obtain ⟨w, at', h1, -, -, h2, h3, h4⟩ := C84_honeycomb_partial env s a ha' atom
  obtain ⟨s', ops, hc⟩ := honeycomb_configure h1
  have hr := configure_reachable hc
  have hv := configure_vectors hc
  obtain ⟨w', -, b, c, cells, A, hb, h1', hC, -, -, -, he, -⟩ := honeycomb_pair env s ha0.ne' atom
  cases h1.symm.trans h1'
  have hN := honey_only ha' hr hv h2 h3 h4
  have h0 : (![0, 0] : Vec 2 ℝ) = 0 := by funext k; fin_cases k <;> rfl
  have hs : c.size = 2 := by rw [hC.size]; rfl
  have hpos := hC.positions
  obtain ⟨rows, hbr⟩ := hC.good.basis
  have hthird := hex_third hbr ha0.ne' hv
  have hn' : (1 : ℝ) ≤ n := by exact_mod_cast hn
  obtain ⟨L, D, g1, g2, g3⟩ := hex_builds hr hN hC ⟨0, by omega, 1, by omega, by omega⟩ ha hv
    (by
      intro p hp k
      rcases List.mem_cons.1 hp with rfl | hp
      · rw [h0, itransform_zero]; norm_num
      · rw [List.mem_singleton.1 hp, hthird]; norm_num) (by rw [hpos, ← h0]; rfl)
    (σ := fun _ => (n : ℝ)) (fun _ => ⟨by linarith, by nlinarith⟩)
    (by linarith) true
  -- the sites
  have hmem : ∀ x : Idx 2, x ∈ D.indices ↔
      (x.alpha = 0 ∧ ∀ k, 0 ≤ x.cell k ∧ x.cell k < n + 1) ∨
      (x.alpha = 1 ∧ ∀ k, 0 ≤ x.cell k ∧ x.cell k < n) := by
    intro x
    have k0 : ∀ k, (-(1 / 1000) ≤ (x.cell k : ℝ) + 0 ∧ (x.cell k : ℝ) + 0 ≤ (n : ℝ) + 1 / 1000) ↔
        0 ≤ x.cell k ∧ x.cell k < n + 1 := by
      intro k
      have := whole_range (n := x.cell k) (m := n + 1) (σ := n) (c := 0) (by norm_num)
        (by push_cast; linarith) (by push_cast; linarith)
      rw [this]
      push_cast
      rw [zero_add]
    have k1 : ∀ k, (-(1 / 1000) ≤ (x.cell k : ℝ) + 1 / 3 ∧
        (x.cell k : ℝ) + 1 / 3 ≤ (n : ℝ) + 1 / 1000) ↔ 0 ≤ x.cell k ∧ x.cell k < n := by
      intro k
      constructor
      · rintro ⟨f1, f2⟩
        have a1 : (-1 : ℝ) < x.cell k := by linarith
        have a1 : -1 < x.cell k := by exact_mod_cast a1
        have a2 : (x.cell k : ℝ) < n := by linarith
        have a2 : x.cell k < (n : ℤ) := by exact_mod_cast a2
        omega
      · rintro ⟨f1, f2⟩
        have a1 : (0 : ℝ) ≤ x.cell k := by exact_mod_cast f1
        have a2 : (x.cell k : ℝ) + 1 ≤ n := by exact_mod_cast f2
        exact ⟨by linarith, by linarith⟩
    rw [g3, hpos]
    constructor
    · rintro ⟨β, p, e1, e2, e3⟩
      have hβ : β < 2 := (List.getElem?_eq_some_iff.1 e2).1
      interval_cases β
      · simp only [List.getElem?_cons_zero, Option.some.injEq] at e2
        subst e2
        rw [h0] at e3
        refine Or.inl ⟨e1, fun k => (k0 k).1 ?_⟩
        have := e3 k
        rwa [itransform_zero] at this
      · simp only [List.getElem?_cons_succ, List.getElem?_cons_zero, Option.some.injEq] at e2
        subst e2
        refine Or.inr ⟨e1, fun k => (k1 k).1 ?_⟩
        have := e3 k
        rwa [hthird] at this
    · rintro (⟨e1, e2⟩ | ⟨e1, e2⟩)
      · refine ⟨0, _, e1, rfl, fun k => ?_⟩
        rw [h0, itransform_zero]
        exact (k0 k).2 (e2 k)
      · refine ⟨1, _, e1, rfl, fun k => ?_⟩
        rw [hthird]
        exact (k1 k).2 (e2 k)
  obtain ⟨i, hi⟩ : ∃ i : ℕ, D.indices[i]? = some (Idx.mk 0 0) := by
    apply List.mem_iff_getElem?.1
    rw [hmem]
    refine Or.inl ⟨Idx.alpha_mk _ _, fun k => ?_⟩
    rw [Idx.cell_mk]
    simp only [Pi.zero_apply]
    omega
  have hnd : D.indices.Nodup := by
    obtain ⟨-, D0, -, -, hD0, -, -, hnd, -⟩ := build_table two_pos hr rfl rfl rfl g1
    cases g2.symm.trans hD0
    exact hnd
  -- the translations
  have hvecs : ∀ vecs, Lattice.periodicVectors w.struct.basis D.indices [0, 1] true = .ok vecs →
      ∀ v ∈ vecs, ∃ k, v.2 k = n + 1 ∨ v.2 k = -(n + 1) := by
    intro vecs hvs v hv'
    obtain ⟨vecs', hvs', hall⟩ := Lattice.C65_translations_partial (b := w.struct.basis)
      (primitive := true) (Or.inl rfl) (indices := D.indices)
      (List.ne_nil_of_mem (List.mem_of_getElem? hi)) (axes := [0, 1]) (by simp)
    rw [hvs] at hvs'
    cases hvs'
    obtain ⟨-, -, h5⟩ := hall (fun a => Pi.single a ((n : ℤ) + 1)) (by
      intro a
      refine ⟨fun k hk => Pi.single_eq_of_ne (by rintro rfl; simp at hk) _, ?_⟩
      intro k hk
      have hka : k = a := Fin.ext (by simpa using hk)
      subst hka
      refine ⟨Idx.mk (fun _ => (n : ℤ)) 0, Idx.mk 0 0, ?_, List.mem_of_getElem? hi, ?_, ?_⟩
      · rw [hmem]
        refine Or.inl ⟨Idx.alpha_mk _ _, fun m => ?_⟩
        rw [Idx.cell_mk]
        omega
      · rw [Idx.cell_mk, Idx.cell_mk, Pi.single_eq_same]
        simp
      · intro z hz
        rw [Idx.cell_mk, Idx.cell_mk]
        rcases (hmem z).1 hz with ⟨-, f⟩ | ⟨-, f⟩
        · have := f k
          simp only [Pi.zero_apply]
          omega
        · have := f k
          simp only [Pi.zero_apply]
          omega)
    obtain ⟨a, -, hcase⟩ := h5 v hv'
    refine ⟨a, ?_⟩
    rcases hcase with hcase | hcase | ⟨c, -, hac, hcase | hcase | hcase⟩ <;> rw [hcase]
    · simp
    · simp
    · simp [Pi.single_eq_of_ne hac]
    · simp [Pi.single_eq_of_ne hac]
    · simp [Pi.single_eq_of_ne hac]
  have key : ∀ L' res, L.setPeriodic env (.axes [0, 1]) = (L', res) →
      ∀ l, L'.neighbors i none false = .ok l → l.Nodup → l.length ≤ 1 := by
    intro L' res hper l hl hlnd
    obtain ⟨j0, hj0⟩ : ∃ j0, ∀ j ∈ l, j = j0 := by
      have hall : ∀ j ∈ l, D.indices[j]? = some (Idx.mk 0 1) := by
        intro j hj
        obtain ⟨t, x, y, f1, f2, f3, α, β, f4, f5, f6⟩ := periodic_near two_pos hr hN rfl rfl rfl g1
          g2 hper hl hj
        rw [hi] at f1
        cases f1
        rw [Idx.alpha_mk] at f4
        obtain rfl : α = 0 := by omega
        rw [Idx.cell_mk, sub_zero] at f6
        unfold honeySets at f6
        rw [if_pos rfl] at f6
        have hβ : β = 1 := by
          rcases f6 with f6 | f6 | f6 <;>
            · have := congrArg Idx.alpha f6
              rw [Idx.alpha_mk, Idx.alpha_mk] at this
              omega
        subst hβ
        have hybox : ∀ k, 0 ≤ y.cell k ∧ y.cell k < n := by
          rcases (hmem y).1 (List.mem_of_getElem? f2) with ⟨f, -⟩ | ⟨-, f⟩
          · omega
          · exact f
        have hstep : ∀ k, y.cell k - t k = 0 ∨ y.cell k - t k = -1 := by
          intro k
          rcases f6 with f6 | f6 | f6 <;>
            · have := congrFun (Idx.mk_inj.1 f6).1 k
              fin_cases k <;> simp at this ⊢ <;> omega
        have ht : ∀ k, t k ≠ n + 1 ∧ t k ≠ -(n + 1) := by
          intro k
          have := hybox k
          have := hstep k
          omega
        have ht0 : t = 0 := by
          rcases f3 with f3 | ⟨vecs, q1, v, q2, q3⟩
          · exact f3
          · exfalso
            obtain ⟨k, hk⟩ := hvecs vecs q1 v q2
            have := ht k
            rcases q3 with rfl | rfl
            · omega
            · simp only [Pi.neg_apply] at this
              omega
        rw [f2, ← Idx.mk_cell_alpha y, f5]
        congr 2
        funext k
        have q1 := hybox k
        have q2 := hstep k
        rw [ht0] at q2
        simp only [Pi.zero_apply] at q2 ⊢
        omega
      cases l with
      | nil => exact ⟨0, by simp⟩
      | cons j0 l =>
        refine ⟨j0, fun j hj => ?_⟩
        have f1 := hall j hj
        have f2 := hall j0 (by simp)
        exact (List.getElem?_inj (List.getElem?_eq_some_iff.1 f1).1 hnd).1 (f1.trans f2.symm)
    have : l.Subperm [j0] := List.Nodup.subperm hlnd fun j hj => by simp [hj0 j hj]
    exact this.length_le
  refine ⟨w, L, D, h1, g1, g2, fun L' res hper => ⟨?_, i, hi, key L' res hper⟩⟩
  rintro ⟨E, hE, -, hco⟩
  obtain ⟨-, -, -, -, -, f6⟩ := Lattice.setPeriodic_frame env L (.axes [0, 1])
  obtain ⟨E', hE', hss⟩ := f6 D g2
  rw [hper] at hE'
  cases hE.symm.trans hE'
  obtain ⟨l, hl, hlnd, hlen⟩ := hco i (by
    rw [hss.numSites]
    exact (List.getElem?_eq_some_iff.1 hi).1)
  have := key L' res hper l hl hlnd
  omega

/-- For example the box of 3 times 3, with sides of length 1. -/
example (env : Env ℝ) (s : Session) (atom : AtomSpec) : ∃ w L, honeycomb env s 1 atom = .ok w ∧
    (Lattice.ofWorld w).build env (primitiveBox (fun _ => (3 : ℝ)) true) = (L, .ok ()) ∧
    ∀ L' res, L.setPeriodic env (.axes [0, 1]) = (L', res) → ¬ Coordination L' 3 := by
  obtain ⟨w, L, D, h1, h2, -, h3⟩ := C111_honeycomb_fails env s 1 le_rfl atom 3 (by norm_num)
  exact ⟨w, L, h1, by exact_mod_cast h2, fun L' res h => (h3 L' res h).1⟩

end Lattpy
