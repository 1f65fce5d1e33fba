import Verif.Spec.Dual
import Verif.Spec.Quat
import Verif.Model.Coupling

/-! # Vocabulary for coupling terms -/

namespace Verif.Spec
variable {n : ℕ}

/-- Scalar product. -/
def dot (a b : Vec n) : ℝ := ∑ i, a i * b i

/-- Euclidean length. -/
noncomputable def len (a : Vec n) : ℝ := √(dot a a)

/-- Angle between the direction `d` to an obstacle and the velocity `v`, regularised by `1e-10` so that it is defined
for vectors of length zero. -/
noncomputable def steeringAngle (d v : Vec n) : ℝ := Real.arccos (dot d v / (len d * len v + 1 / 10 ^ 10))

/-- `d` and `v` are parallel or one of them is zero: there are `(a, b) ≠ 0` with `a * d = b * v`. -/
def Collinear (d v : Vec n) : Prop := ∃ a b : ℝ, (a ≠ 0 ∨ b ≠ 0) ∧ ∀ i, a * d i = b * v i

/-- The right arm is displaced by position `p` and orientation `q`, both expressed in the frame of the left arm. -/
def InFormation (p : Vec 3) (q : Vec 4) (y : Vec 14) : Prop :=
  pure (armPosition 1 y) = pure (armPosition 0 y) +
      quat (armOrientation 0 y) * pure p * star (quat (armOrientation 0 y)) ∧
    (quat (armOrientation 1 y) = quat (armOrientation 0 y) * quat q ∨
      quat (armOrientation 1 y) = -(quat (armOrientation 0 y) * quat q))

end Verif.Spec
