import Mathlib.Analysis.SpecialFunctions.Trigonometric.Basic
import Mathlib.Analysis.SpecialFunctions.Sqrt

/-! # Small numeric helpers of `DPGO_utils.cpp` -/

namespace Dpgo

/-- `angular2ChordalSO3` (src/DPGO_utils.cpp:514-516). -/
noncomputable def angular2ChordalSO3 (rad : ℝ) : ℝ := 2 * Real.sqrt 2 * Real.sin (rad / 2)

end Dpgo
