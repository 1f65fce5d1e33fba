import Verif.Spec.Cartesian
import Verif.Spec.Dual
import Verif.Spec.Geodesic

/-! # Two quaternions for every orientation -/

namespace Verif.Spec

/-- The unit quaternions that represent the same orientation as `p` are `p` and `-p`. -/
def SameRotation (p q : Vec 4) : Prop := q = p ∨ q = -p

/-- Poses with the same position, and the same orientation up to the sign of its quaternion. -/
structure SamePose (x y : Vec (3 + 4)) : Prop where
  position : position y = position x
  orientation : SameRotation (orientation x) (orientation y)

/-- The orientations do not differ by a rotation of exactly 180 degrees. -/
def NoHalfTurn (p q : Vec 4) : Prop := rotationAngle p q < Real.pi

/-- A coupling term that does not depend on the sign of the quaternion. -/
def IgnoresSign (c : Option PoseCoupling) : Prop := ∀ d, c = some d → ∀ q w, d.rot (-q) w = d.rot q w

end Verif.Spec
