import Verif.Props.Plot
import Verif.Props.SmallTorus

/-!
# What is plotted for periodic lattices with two cells along an axis (C100)
-/

set_option autoImplicit false
set_option linter.unusedSectionVars false

namespace Lattpy

open Structure LatticeData

/-- C100 with two cells along a periodic axis: the plot of `finite_hypercubic((2, 3), periodic=True)`
has a grey line that leaves the corner (0, 0) diagonally, towards (-2, 2), although all links of the
lattice run along the axes.  The translation stored for the neighbour across the second axis is that
of the first axis (C98_small_fails). -/
theorem C100_small_fails (env : Env ℝ) (s : Session) (n : String) (ragged : Bool)
    (pscale offset : ℝ) :
    ∃ L G, Preset.finiteHypercubic env s (.size (List.ofFn fun k : Fin 2 => ((![2, 3] k : ℕ) : ℝ))
        true) 1 (.name n) 1 true (some (.flag true)) = .ok L ∧
      L.plot ragged pscale true false offset none = .ok G ∧
      ∃ g ∈ G.segments, g.start = ![0, 0] ∧ g.vec = ![pscale * -2, pscale * 2] ∧
        g.color = .str "0.5" := by
  obtain ⟨L, D, i, j, hL, p2, hi, hj, hper, -⟩ := C98_small_fails env s (.name n)
  have hs : ∀ k : Fin 2, 0 < (![2, 3] : Fin 2 → ℕ) k := by decide
  obtain ⟨w, L0, A, D0, table, h1, h2, h⟩ := exists_grid (by norm_num) (by norm_num) env s (.name n)
    ![2, 3] hs true
  obtain ⟨at', a1, -, -, -, a2, a3, -⟩ := oneAtom_asked (by norm_num) (atom := .name n) h1
  have hreach := configure_reachable h1
  have hb := build_periodic h2 (.flag true)
  have hset : L0.setPeriodic env (.flag true) = (L, .ok ()) := by
    unfold Preset.finiteHypercubic at hL
    rw [h1] at hL
    dsimp only at hL
    rw [hb] at hL
    generalize L0.setPeriodic env (.flag true) = o at hL
    obtain ⟨L1, e | u⟩ := o
    · cases hL
    · cases hL
      rfl
  rw [hset] at hb
  obtain ⟨f1, -, -, -, -, f6⟩ := Lattice.setPeriodic_frame env L0 (.flag true)
  obtain ⟨D', hD', hsame⟩ := f6 D0 h.data
  rw [hset] at hD' f1
  have hD'' : some D = some D' := p2 ▸ hD'
  cases hD''
  have hworld0 : L0.world = w := by
    have := (Lattice.build_sites (by norm_num) (L := Lattice.ofWorld w) hreach
      { shape := .size (List.ofFn fun k : Fin 2 => ((![2, 3] k : ℕ) : ℝ)) true
        primitive := true }).1
    rw [h2] at this
    exact this
  have hworld : L.world = w := f1.trans hworld0
  have hrun : Lattice.run env (Lattice.ofWorld w) [.build
      { shape := .size (List.ofFn fun k : Fin 2 => ((![2, 3] k : ℕ) : ℝ)) true
        primitive := true
        periodic := some (.flag true) }] = L := by
    change ((Lattice.ofWorld w).build env _).1 = L
    rw [hb]
  obtain ⟨G, bonds, stubs, g1, -, g3, g4⟩ := Lattice.C100_history (by norm_num) (by norm_num)
      hreach [.build
      { shape := .size (List.ofFn fun k : Fin 2 => ((![2, 3] k : ℕ) : ℝ)) true
        primitive := true
        periodic := some (.flag true) }] (by rw [hrun]; exact p2)
      (by rw [hsame.distvals]; exact h.levels) (by
      rw [hrun]
      change ∀ a ∈ L.world.struct.atoms, _
      rw [hworld, a1]
      intro a ha
      rw [List.mem_singleton.1 ha]
      exact ⟨_, _, param_of_getItem (by rfl) a3, param_of_getItem (by rfl) a2⟩)
      ragged pscale offset true
  rw [hrun] at g1 g3
  have hvec : L.struct.basis.vectors = 1 := by
    have := h.vectors
    change L0.world.struct.basis.vectors = 1 at this
    change L.world.struct.basis.vectors = 1
    rw [hworld, ← hworld0, this]
  have hmem := (g4 (by rw [hsame.distvals]; exact h.top) rfl i j _).2 ⟨_, hper⟩
  obtain ⟨bs, ss, q1, -, q3⟩ := g3.lines
  obtain ⟨g, hg, q, r1, r2, r3, r4⟩ := forall₂_mem q3.flip hmem
  rw [hsame.positions] at r1 r2
  rw [hsame.indices] at hi hj
  obtain ⟨a, ha, e1⟩ := (h.site _ _).1 r1
  obtain ⟨b, hb', e2⟩ := (h.site _ _).1 r2
  rw [hi] at ha
  rw [hj] at hb'
  cases ha
  cases hb'
  refine ⟨L, G, hL, g1, g, q1.mem_iff.2 (List.mem_append_right _ hg), ?_, ?_, r3⟩
  · funext k
    rw [e1, Idx.cell_mk]
    fin_cases k <;> simp
  · funext k
    rw [r4, e1, e2, Idx.cell_mk, Idx.cell_mk, hvec]
    fin_cases k <;> simp [Matrix.one_apply]

end Lattpy
