import Verif.Model.Dtypes

/-! # Specification: arrays of integers -/

namespace Verif.Spec

/-- The exception raised by a step function that has to write into arrays of integers. -/
def integerError : StepFunction → PyErr
  | .rk4 => .typeError
  | .euler => .typeError
  | .eulerCython => .valueError
  | .rk4Cython => .valueError

/-- Forces that would keep a system at rest in each of the positions `Y`: velocity and acceleration are zero. -/
noncomputable def restForces {n d : ℕ} (T : Fin (n + 2) → ℝ) (Y : Fin (n + 2) → Vec d) (alphaY betaY : Vec d)
    (alphaZ : ℝ) (smooth : Bool) : Fin (n + 2) → Vec d :=
  fun t k =>
    let g := Y (Fin.last (n + 1)) k
    let smoothing :=
      if smooth then betaY k * (g - Y 0 k) * phase (T t) alphaZ (T (Fin.last (n + 1))) (T 0) else 0
    0 - (alphaY k * (betaY k * (g - Y t k) - smoothing))

end Verif.Spec
