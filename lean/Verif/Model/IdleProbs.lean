/-
Model of the numeric part of `idle_error_probs` (models/util.py 70-111) over the real numbers.
-/
import Verif.Model.Py
import Mathlib.Analysis.SpecialFunctions.Exp

namespace SurfaceSim

/-- `idle_error_probs` (models/util.py 70-111); floating-point rounding is not modelled. -/
noncomputable def idleErrorProbsReal (relax deph dur : ℝ) : Except Err (ℝ × ℝ × ℝ) :=
  if relax ≤ 0 then .error .valueError
  else if deph ≤ 0 then .error .valueError
  else if dur ≤ 0 then .error .valueError
  else
    let relaxProb := 1 - Real.exp (-dur / relax)
    let dephProb := 1 - Real.exp (-dur / deph)
    .ok (0.25 * relaxProb, 0.25 * relaxProb, 0.5 * dephProb - 0.25 * relaxProb)

end SurfaceSim
