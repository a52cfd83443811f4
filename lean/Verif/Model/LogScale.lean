import Verif.Model.Mcts
import Mathlib.Analysis.SpecialFunctions.Log.Basic
import Mathlib.Algebra.Order.Floor.Ring
/-
Model of Log_scale_fn in gomill/mcts_tuners.py.  Floating-point numbers are modelled as real numbers.
-/
namespace Gomill.Mcts

/-- Python's int() of a number: truncation towards zero. -/
noncomputable def truncateReal (q : ℝ) : ℤ := if 0 ≤ q then ⌊q⌋ else ⌈q⌉

/-- mcts_tuners.py:469-480 Log_scale_fn: `none` is an exception when the scale function is made (line 470; the quotient isn't
positive, so that there's no logarithm). -/
noncomputable def logScale (lower upper : ℝ) (integer : Bool) (f : ℝ) : Option ℝ :=
  if lower = 0 then none
  else if upper / lower ≤ 0 then none
  else
    let rate := Real.log (upper / lower)
    let result := Real.exp (rate * f) * lower
    some (if integer then truncateReal (result + 1 / 2) else result)

end Gomill.Mcts
