import Verif.Spec.Dual

/-! # Specification: rotation from one orientation to another -/

namespace Verif.Spec
open Quaternion

/-- `w` is the vector (at most half a turn) of the rotation that turns orientation `p` into orientation `q`; quaternions `q` and `-q`
are the same orientation. Rotations whose quaternion has a vector part shorter than `eps` count as 0. -/
def RotationTo (eps : ℝ) (p q : Vec 4) (w : Vec 3) : Prop :=
  (length w ≤ Real.pi ∧ (NormedSpace.exp ((1 / 2 : ℝ) • pure w) * quat p = quat q ∨
    NormedSpace.exp ((1 / 2 : ℝ) • pure w) * quat p = -quat q)) ∨
  (w = 0 ∧ ‖(quat q * star (quat p)).im‖ < eps)

end Verif.Spec
