import Mathlib.Algebra.Order.Floor.Ring
import Mathlib.Algebra.Order.Floor.Semiring
import Mathlib.Data.Fin.Tuple.Basic
import Mathlib.Data.List.Dedup
import Mathlib.Data.List.Sort
import Mathlib.Order.WithBot
import Mathlib.Algebra.BigOperators.Fin
import Mathlib.Data.Rat.Floor

/-!
# NumPy / SciPy primitives

Exact models of the library primitives used by lattpy.  Where the library leaves
a choice open (`np.argsort` is an unstable quicksort, `cKDTree.query` breaks ties
arbitrarily) the primitive is an *oracle*: an arbitrary function satisfying the
documented contract, collected in the structure `Env`.  Theorems about the model
quantify over every `Env`.
-/

set_option autoImplicit false

namespace Lattpy

/-- Python exceptions as values (the classes raised by the modelled code). -/
inductive PyErr where
  | value | index | attribute | type | key | assertion | linalg | zeroDivision
  | siteOccupied | noAtoms | noConnections | notAnalyzed | notBuilt | qhull | overflow
  | notImplemented
  deriving DecidableEq, Repr

/-- A point / vector with `d` components. -/
abbrev Vec (d : ℕ) (K : Type*) := Fin d → K

/-- Square root as used by `math.sqrt`, `np.sqrt`, `np.linalg.norm`; the instance
for `ℝ` is `Real.sqrt`, the one for `ℚ` an approximation used in evaluations only. -/
class HasSqrt (K : Type*) where
  sqrt : K → K

/-! ## Rounding -/

section round
variable {K : Type*} [Field K] [LinearOrder K] [FloorRing K]

/-- `np.rint`: round to the nearest integer, ties to the even one. -/
def rint (x : K) : ℤ :=
  let f := ⌊x⌋
  if x - f < 1 / 2 then f
  else if 1 / 2 < x - f then f + 1
  else if f % 2 = 0 then f else f + 1

/-- `np.round(x, decimals)`. -/
def npRound (decimals : ℕ) (x : K) : K :=
  (rint (x * 10 ^ decimals) : K) / 10 ^ decimals

/-- `np.round` on an array entry that may be infinite (`inf` stays `inf`). -/
def npRoundTop (decimals : ℕ) : WithTop K → WithTop K :=
  WithTop.map (npRound decimals)

end round

/-! ## Sorting and sets -/

/-- `np.sort(np.unique(a))`: ascending list of the distinct values. -/
def npUnique {α : Type*} [LinearOrder α] (l : List α) : List α :=
  l.dedup.insertionSort (· ≤ ·)

/-- Stable sort by a key; `a[np.lexsort([key])]`. -/
def stableSortBy {α κ : Type*} [LinearOrder κ] (key : α → κ) (l : List α) : List α :=
  l.insertionSort (fun a b => key a ≤ key b)

/-- `np.searchsorted(a, v)` (side `left`): number of leading entries `< v`
of a sorted array. -/
def searchsorted {α : Type*} [LinearOrder α] (a : List α) (v : α) : ℕ :=
  (a.takeWhile (fun x => decide (x < v))).length

/-- `itertools.product(r 0, ..., r (d-1))` as vectors: the first axis varies slowest. -/
def boxList {α : Type*} : {d : ℕ} → (Fin d → List α) → List (Fin d → α)
  | 0, _ => [Fin.elim0]
  | _ + 1, r => (r 0).flatMap fun x => (boxList fun k => r k.succ).map fun v => Fin.cons x v

/-- All positions of a list satisfying a predicate: `np.where(mask)[0]`. -/
def whereIdx {α : Type*} (p : α → Bool) (l : List α) : List ℕ :=
  (List.range l.length).filter fun i => match l[i]? with | some a => p a | none => false

/-! ## Oracles -/

/-- Contract of `np.argsort` on one key list: a permutation of the positions that
lists the keys in ascending order (ties in any order). -/
def IsArgsort {κ : Type*} [LinearOrder κ] (keys : List κ) (perm : List ℕ) : Prop :=
  perm.Perm (List.range keys.length) ∧
    (perm.filterMap fun i => keys[i]?).Pairwise (· ≤ ·)

/-- Contract of `scipy.spatial.cKDTree.query(x, k, distance_upper_bound=bound)` for one
query point, `dist i` being the distance of data point `i` (`i < n`) to it: a duplicate
free selection of points not further than `bound`, ascending by distance, at most `k`;
no point strictly below the bound is left out unless the `k` slots are filled with points
that are at least as near; unused slots hold `(inf, n)`.  Ties are broken arbitrarily and
points at exactly the bound may or may not be reported. -/
def IsKNN {K : Type*} [LinearOrder K] (n : ℕ) (dist : ℕ → K) (k : ℕ) (bound : WithTop K)
    (res : List (WithTop K × ℕ)) : Prop :=
  ∃ sel : List ℕ,
    sel.Nodup ∧ sel.length ≤ k ∧
    (∀ i ∈ sel, i < n ∧ (dist i : WithTop K) ≤ bound) ∧
    (sel.map dist).Pairwise (· ≤ ·) ∧
    (∀ i < n, (dist i : WithTop K) < bound → i ∉ sel →
      sel.length = k ∧ ∀ j ∈ sel, dist j ≤ dist i) ∧
    res = sel.map (fun i => ((dist i : WithTop K), i)) ++
      List.replicate (k - sel.length) ((⊤ : WithTop K), n)

/-- Contract of one row of `scipy.spatial.cKDTree.query_ball_tree(other, r)`, `dist i` being the
distance of data point `i` (`i < n`) of the other tree: the points within the (closed) ball, each
once, in any order. -/
def IsBall {K : Type*} [LinearOrder K] (n : ℕ) (dist : ℕ → K) (r : K) (res : List ℕ) : Prop :=
  res.Perm ((List.range n).filter fun i => decide (dist i ≤ r))

/-- The external library functions used by the model, with their contracts. -/
structure Env (K : Type*) [LinearOrder K] where
  /-- `np.argsort` on distances -/
  argsort : List (WithTop K) → List ℕ
  argsort_spec : ∀ keys, IsArgsort keys (argsort keys)
  /-- `np.argsort` on integers -/
  argsortNat : List ℕ → List ℕ
  argsortNat_spec : ∀ keys, IsArgsort keys (argsortNat keys)
  /-- `cKDTree.query`; arguments: number of data points, their distances to the query
  point, `k`, `distance_upper_bound` -/
  knn : (n : ℕ) → (ℕ → K) → (k : ℕ) → (bound : WithTop K) → List (WithTop K × ℕ)
  knn_spec : ∀ n dist k bound, IsKNN n dist k bound (knn n dist k bound)
  /-- one row of `cKDTree.query_ball_tree`; arguments: number of points of the other tree, their
  distances, radius -/
  ball : (n : ℕ) → (ℕ → K) → (r : K) → List ℕ
  ball_spec : ∀ n dist r, IsBall n dist r (ball n dist r)

end Lattpy
