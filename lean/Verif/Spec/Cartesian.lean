import Verif.Model.SpringDamper
import Verif.Spec.Quat

/-! # Poses, and what is assumed of the quaternion library -/

namespace Verif.Spec

/-- Position of a pose `(x, y, z, qw, qx, qy, qz)`. -/
def position (y : Vec (3 + 4)) : Vec 3 := ![y 0, y 1, y 2]

/-- Orientation of a pose. -/
def orientation (y : Vec (3 + 4)) : Vec 4 := ![y 3, y 4, y 5, y 6]

/-- Linear part of a velocity. -/
def linear (v : Vec (3 + 3)) : Vec 3 := ![v 0, v 1, v 2]

/-- Angular part of a velocity. -/
def angular (v : Vec (3 + 3)) : Vec 3 := ![v 3, v 4, v 5]

/-- The quaternion functions used by a step function obey the laws of quaternions. The functions of the Cython version
are part of the repository, nothing is assumed of them. -/
def LawfulStep : QuatStepFunction → Prop
  | .python ops => ∃ eps > 0, LawfulQuatOps ops eps
  | .cython => True

end Verif.Spec
