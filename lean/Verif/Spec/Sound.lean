import Verif.Spec.Data

/-!
# Consistency of the tables of a data object
-/

set_option autoImplicit false

namespace Lattpy
namespace LatticeData
variable {d : ℕ} {K : Type*}

/-- The tables of a data object fit together:
* all tables have one row per site and the same number of columns,
* the invalid index is the number of sites,
* the stored distances are ascending and the invalid level is the last one,
* a slot with a level below the invalid one names an existing site,
* a slot that is not marked as periodic has no translation vector. -/
structure Sound [LT K] (D : LatticeData d K) : Prop where
  rect : ∃ w, D.Rect w
  invalidIdx : D.invalidIdx = D.numSites
  distvals : D.distvals.Pairwise (· < ·)
  invalidDistidx : D.invalidDistidx + 1 = D.distvals.length
  neighbor : ∀ r ∈ D.entries, ∀ e ∈ r, e.level < D.invalidDistidx → e.nbr < D.numSites
  regular : ∀ r ∈ D.entries, ∀ e ∈ r, e.per = false → e.nvec = 0

end LatticeData
end Lattpy
