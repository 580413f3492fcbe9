import Verif.Model.Prelude
import Mathlib.Analysis.SpecialFunctions.Log.Base

/-! Model of the number helpers of `nannos/utils/helpers.py`. -/

namespace Nannos

/-- `int(x)` of a real number: rounds towards zero (`nannos/utils/helpers.py:78`). -/
noncomputable def pyTrunc (x : ℝ) : ℤ := if 0 ≤ x then ⌊x⌋ else ⌈x⌉

/-- `next_power_of_2(x)` (`nannos/utils/helpers.py:77-78`). The logarithm of a negative number is `nan`, of which `int` raises
`ValueError`. -/
noncomputable def nextPowerOf2 (x : ℝ) : Except PyErr ℤ :=
  if x = 0 then .ok 1
  else if x < 0 then .error .valueError
  else .ok (pyTrunc ((2 : ℝ) ^ ⌈Real.logb 2 x⌉))

end Nannos
