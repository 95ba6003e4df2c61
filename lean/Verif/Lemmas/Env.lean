import Verif.Lemmas.Np

/-! The library contracts are satisfiable: a concrete `Env` (stable sort, brute force search). -/

set_option autoImplicit false

namespace Lattpy

theorem isArgsort_stable {κ : Type*} [LinearOrder κ] (keys : List κ) (dflt : κ) :
    IsArgsort keys (stableSortBy (fun i => keys.getD i dflt) (List.range keys.length)) := by
  refine ⟨stableSortBy_perm _ _, ?_⟩
  have h1 := stableSortBy_pairwise (fun i => keys.getD i dflt) (List.range keys.length)
  set l := stableSortBy (fun i => keys.getD i dflt) (List.range keys.length) with hl
  have h2 : ∀ i ∈ l, i < keys.length := by
    intro i hi
    rw [hl, (stableSortBy_perm _ _).mem_iff] at hi
    simpa using hi
  have h3 : l.filterMap (fun i => keys[i]?) = l.map (fun i => keys.getD i dflt) := by
    clear_value l
    clear hl h1
    induction l with
    | nil => rfl
    | cons a l ih =>
      have ha := h2 a (by simp)
      rw [List.filterMap_cons, List.getElem?_eq_getElem ha]
      simp only [List.map_cons]
      rw [ih (fun i hi => h2 i (by simp [hi]))]
      simp [ha]
  rw [h3, List.pairwise_map]
  exact h1

/-- Brute force nearest neighbours. -/
def bruteSel {K : Type*} [LinearOrder K] (n : ℕ) (dist : ℕ → K) (k : ℕ) (bound : WithTop K) :
    List ℕ :=
  (stableSortBy dist ((List.range n).filter fun i => decide ((dist i : WithTop K) < bound))).take k

/-- Brute force nearest neighbours with padding. -/
def bruteKNN {K : Type*} [LinearOrder K] (n : ℕ) (dist : ℕ → K) (k : ℕ) (bound : WithTop K) :
    List (WithTop K × ℕ) :=
  let sel := bruteSel n dist k bound
  sel.map (fun i => ((dist i : WithTop K), i)) ++
    List.replicate (k - sel.length) ((⊤ : WithTop K), n)

theorem isKNN_brute {K : Type*} [LinearOrder K] (n : ℕ) (dist : ℕ → K) (k : ℕ)
    (bound : WithTop K) : IsKNN n dist k bound (bruteKNN n dist k bound) := by
  set f := (List.range n).filter fun i => decide ((dist i : WithTop K) < bound) with hf
  have hp : (stableSortBy dist f).Perm f := stableSortBy_perm _ _
  have hs := stableSortBy_pairwise dist f
  have hmem : ∀ i, i ∈ stableSortBy dist f ↔ i < n ∧ (dist i : WithTop K) < bound := by
    intro i
    rw [hp.mem_iff, hf]
    simp
  have hsub : ((stableSortBy dist f).take k).Sublist (stableSortBy dist f) :=
    List.take_sublist _ _
  refine ⟨bruteSel n dist k bound, ?_, ?_, ?_, ?_, ?_, rfl⟩
  · exact hsub.nodup (hp.nodup_iff.2 (List.nodup_range.filter _))
  · simp [bruteSel]
  · intro i hi
    have := (hmem i).1 (hsub.subset hi)
    exact ⟨this.1, this.2.le⟩
  · rw [List.pairwise_map]
    exact hs.sublist hsub
  · intro i hi hb hn
    have hi' := (hmem i).2 ⟨hi, hb⟩
    rw [← List.take_append_drop k (stableSortBy dist f)] at hi' hs
    rcases List.mem_append.1 hi' with h | h
    · exact absurd h hn
    · rw [List.pairwise_append] at hs
      refine ⟨?_, fun j hj => hs.2.2 j hj i h⟩
      have : k < (stableSortBy dist f).length := by
        by_contra hc
        rw [List.drop_eq_nil_of_le (not_lt.1 hc)] at h
        simp at h
      simp only [bruteSel, ← hf, List.length_take]
      omega

/-- A concrete environment. -/
def Env.brute (K : Type*) [LinearOrder K] : Env K where
  argsort keys := stableSortBy (fun i => keys.getD i ⊤) (List.range keys.length)
  argsort_spec keys := isArgsort_stable keys ⊤
  argsortNat keys := stableSortBy (fun i => keys.getD i 0) (List.range keys.length)
  argsortNat_spec keys := isArgsort_stable keys 0
  knn := bruteKNN
  knn_spec := isKNN_brute
  ball n dist r := (List.range n).filter fun i => decide (dist i ≤ r)
  ball_spec _ _ _ := List.Perm.refl _

end Lattpy
