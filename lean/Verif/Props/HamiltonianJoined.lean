import Verif.Props.Hamiltonian
import Verif.Props.AppendChain
import Verif.Lemmas.JoinReady

/-!
# C110: the matrix of lattices joined by `append`, `extend` and `repeat`
-/

set_option autoImplicit false

namespace Lattpy

open DataMap Structure World LatticeData

variable {d : ℕ}

/-- C110 for lattices with any history of configuration calls, `build`, `set_periodic`, `append`,
`extend` and `repeat` (each of which may raise), where the neighbour tables have an empty slot and at
most 256 distances, and the unit cell less than 129 atoms: the matrix filled from the first `dmap()`
has the values of the sites on the diagonal, plus for each time `j` is listed by `neighbors(i, n)` the
value of level `n`. -/
theorem C110_joined_partial (hd : 0 < d) {env : Env ℝ} {L : Lattice d ℝ} (hL : L.Used env)
    {D : LatticeData d ℝ} (hD : L.data = some D) (h256 : D.distvals.length ≤ 256)
    (htop : ⊤ ∈ D.distvals) (h128 : ∀ x ∈ D.indices, Idx.alpha x < 128) {β : Type*}
    [AddCommMonoid β] {assigns : List (Mask × β)} (hdoc : Documented assigns) :
    ∃ m data, (L.dmap env.argsortNat).2 = .ok m ∧ m.fill assigns = .ok data ∧
      (∀ i j, m.bsrEntry data i j = m.csrEntry data i j) ∧
      (0 < D.numSites → m.csrShape = .ok (D.numSites, D.numSites)) ∧
      ∀ (i : ℕ) (x : Idx d), D.indices[i]? = some x → ∃ l : ℕ → List ℕ,
        (∀ n, L.neighbors i (some n) false = .ok (l n)) ∧
        ∀ j, m.csrEntry data i j =
          (if i = j then lastValue (ForSite x.alpha.toNat) assigns else 0) +
            ∑ n ∈ Finset.range D.invalidDistidx, (l n).count j • lastValue (ForLink n) assigns := by
  obtain ⟨h1, h2⟩ := hL.fresh hd D hD
  exact dmap_matrix hD ((hL.strong hd).2 D hD h256).weak (h1 htop h256) h2 h128 hdoc

/-- A chain of three sites appended to a chain of four sites. -/
example (env : Env ℝ) : ∃ (L : Lattice 1 ℝ) (D : LatticeData 1 ℝ), L.data = some D ∧
    D.numSites = 7 ∧ ∃ m data, (L.dmap env.argsortNat).2 = .ok m ∧
      m.fill [(Mask.onsite none, 5), (Mask.hopping (some 0), (7 : ℕ))] = .ok data ∧
      m.csrShape = .ok (7, 7) := by
  obtain ⟨L, D, h1, h2, h3, h4, h5⟩ := exists_joinedChain env
  have h7 : D.numSites = 7 := by
    unfold LatticeData.numSites
    rw [h5]
    rfl
  obtain ⟨m, data, g1, g2, -, g3, -⟩ := C110_joined_partial Nat.one_pos h1 h2 h3 h4
    (assigns := [(Mask.onsite none, 5), (Mask.hopping (some 0), (7 : ℕ))])
    (by
      rw [h5]
      intro x hx
      obtain ⟨z, -, rfl⟩ := List.mem_map.1 hx
      rw [Idx.alpha_mk]
      norm_num)
    (by
      intro p hp
      simp only [List.mem_cons, List.not_mem_nil, or_false] at hp
      rcases hp with rfl | rfl
      · exact ⟨nofun, nofun⟩
      · exact ⟨nofun, fun a ha => by cases ha; rfl⟩)
  rw [h7] at g3
  exact ⟨L, D, h2, h7, m, data, g1, g2, g3 (by norm_num)⟩

end Lattpy
