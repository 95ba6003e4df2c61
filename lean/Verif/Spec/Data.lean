import Verif.Model.Data

/-! Vocabulary for the statements about `LatticeData`: the parallel tables seen as one table
of entries. -/

set_option autoImplicit false

namespace Lattpy

/-- One slot of the neighbour table with everything stored about it. -/
structure Entry (d : ℕ) where
  nbr : ℕ
  level : ℕ
  per : Bool
  nvec : Fin d → ℤ
  axes : List ℕ

/-- The slots of one row. -/
def zipRow {d : ℕ} : List ℕ → List ℕ → List Bool → List (Fin d → ℤ) → List (List ℕ) →
    List (Entry d)
  | n :: ns, x :: xs, b :: bs, v :: vs, a :: as => ⟨n, x, b, v, a⟩ :: zipRow ns xs bs vs as
  | _, _, _, _, _ => []

/-- The slots of all rows. -/
def zipTable {d : ℕ} : List (List ℕ) → List (List ℕ) → List (List Bool) →
    List (List (Fin d → ℤ)) → List (List (List ℕ)) → List (List (Entry d))
  | n :: ns, x :: xs, b :: bs, v :: vs, a :: as => zipRow n x b v a :: zipTable ns xs bs vs as
  | _, _, _, _, _ => []

namespace LatticeData
variable {d : ℕ} {K : Type*}

/-- The table of entries. -/
def entries (D : LatticeData d K) : List (List (Entry d)) :=
  zipTable D.neighbors D.distances D.pmask D.pnvecs D.paxes

/-- All tables have one row per site and `w` columns. -/
structure Rect (D : LatticeData d K) (w : ℕ) : Prop where
  positions : D.positions.length = D.numSites
  neighbors : D.neighbors.length = D.numSites ∧ ∀ r ∈ D.neighbors, r.length = w
  distances : D.distances.length = D.numSites ∧ ∀ r ∈ D.distances, r.length = w
  pmask : D.pmask.length = D.numSites ∧ ∀ r ∈ D.pmask, r.length = w
  pnvecs : D.pnvecs.length = D.numSites ∧ ∀ r ∈ D.pnvecs, r.length = w
  paxes : D.paxes.length = D.numSites ∧ ∀ r ∈ D.paxes, r.length = w

/-- The entries are consistent: no level exceeds the invalid one, entries with a valid level
name an existing site, the others hold the invalid index and are not flagged periodic. -/
structure Valid (D : LatticeData d K) : Prop where
  invalidIdx : D.invalidIdx = D.numSites
  entry : ∀ r ∈ D.entries, ∀ e ∈ r,
    (e.level < D.invalidDistidx ∧ e.nbr < D.numSites) ∨
    (e.level = D.invalidDistidx ∧ e.nbr = D.numSites ∧ e.per = false)

/-- The levels are consistent: no level exceeds the invalid one, entries with a valid level name an
existing site (empty slots may hold anything). -/
structure Usable (D : LatticeData d K) : Prop where
  entry : ∀ r ∈ D.entries, ∀ e ∈ r,
    (e.level < D.invalidDistidx ∧ e.nbr < D.numSites) ∨ e.level = D.invalidDistidx

theorem Valid.usable {D : LatticeData d K} (h : D.Valid) : D.Usable :=
  ⟨fun r hr e he => (h.entry r hr e he).imp_right fun h => h.1⟩

/-- The neighbours of site `i` with their distances. -/
def linksOf (D : LatticeData d K) (i : ℕ) : List (ℕ × Option (WithTop K)) :=
  ((D.entries.getD i []).filter fun e => decide (e.level < D.invalidDistidx)).map fun e =>
    (e.nbr, D.distvals[e.level]?)

/-- In row `r` all valid entries come first (no gaps). -/
def PackedRow (D : LatticeData d K) (r : List (Entry d)) : Prop :=
  ∃ a b, r = a ++ b ∧ (∀ e ∈ a, e.level < D.invalidDistidx) ∧
    ∀ e ∈ b, e.level = D.invalidDistidx

end LatticeData

/-- The least of the stored distances `vals` that is not below `x`; infinite if there is none. -/
def storedAbove {K : Type*} [LinearOrder K] (vals : List (WithTop K)) (x : WithTop K) : WithTop K :=
  (vals.filter fun y => decide (x ≤ y)).foldr min ⊤

/-- A link to site `j` at distance `x` as it is stored: at the next larger stored distance, and not
at all if there is none. -/
def storedLink {K : Type*} [LinearOrder K] (vals : List (WithTop K)) (j : ℕ) (x : WithTop K) :
    Option (ℕ × Option (WithTop K)) :=
  if storedAbove vals x = ⊤ then none else some (j, some (storedAbove vals x))

/-- The number site `n` gets when the `sites` are removed: the number of sites before it that
stay. -/
def newIndex (sites : List ℕ) (n : ℕ) : ℕ :=
  ((List.range n).filter fun s => decide (s ∉ sites)).length

end Lattpy
