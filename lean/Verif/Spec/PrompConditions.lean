import Verif.Spec.Promp
import Mathlib.LinearAlgebra.Matrix.PosDef

/-! # Specification: a ProMP is conditioned on several positions -/

namespace Verif.Spec
open Verif

/-- Arguments of one call of `condition_position`. -/
structure Condition (d : ℕ) where
  yMean : Vec d
  yCov : YCov d
  t : ℝ
  tMax : ℝ

/-- The covariance is not given or it is a symmetric positive semidefinite matrix, and `t_max` is not zero. -/
def Condition.Valid {d : ℕ} (c : Condition d) : Prop :=
  (c.yCov = .none ∨ ∃ R, c.yCov = .full R ∧ R.PosSemidef) ∧ c.tMax ≠ 0

/-- `for c in conditions: promp = promp.condition_position(*c)` -/
noncomputable def conditionAll {d w : ℕ} : ProMP d w → List (Condition d) → Except PyErr (ProMP d w)
  | p, [] => .ok p
  | p, c :: rest =>
    match ((ProMP.conditionPosition c.yMean c.yCov c.t c.tMax).exec p).1 with
    | .ok q => conditionAll q rest
    | .error e => .error e

end Verif.Spec
