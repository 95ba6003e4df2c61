import Verif.Np
import Mathlib.Analysis.Real.Sqrt
import Mathlib.Algebra.Order.Archimedean.Real.Basic

/-! Instances of the scalar interface: the reals (used in theorems), and the rationals
(used for evaluating the model; the square root is exact for squares of rationals and
otherwise accurate to about `10⁻²⁰`). -/

set_option autoImplicit false

namespace Lattpy

noncomputable instance : HasSqrt ℝ := ⟨Real.sqrt⟩

theorem hasSqrt_real (x : ℝ) : HasSqrt.sqrt x = Real.sqrt x := rfl

/-- Rational square root for evaluation. -/
instance : HasSqrt ℚ := ⟨fun x =>
  if x ≤ 0 then 0
  else
    let n := x.num.toNat * x.den
    let r := Nat.sqrt n
    if r * r = n then (r : ℚ) / x.den
    else (Nat.sqrt (n * 10 ^ 40) : ℚ) / (x.den * 10 ^ 20)⟩

end Lattpy
