import Verif.Spec.Cartesian
import Mathlib.Topology.Algebra.Order.LiminfLimsup
import Mathlib.Analysis.SpecialFunctions.Trigonometric.Inverse

/-!
# Direct motions to a goal orientation

The reference is Mathlib's quaternion exponential: `exp (½ φ u) * q` is the orientation `q` turned by the angle `φ` about
the axis `u`. Unit quaternions `q` and `-q` are the same orientation.
-/

namespace Verif.Spec
open Quaternion Filter

/-- Angle in `[0, π]` of the rotation between two orientations. -/
noncomputable def rotationAngle (p q : Vec 4) : ℝ := 2 * Real.arccos |∑ i, p i * q i|

/-- A sequence of orientations and angular velocities that starts in orientation `q₀` and approaches `goal` directly:
all rotations are about one fixed axis, from the start orientation towards the goal on the shorter way and never beyond
it, the remaining angle never increases, angular velocities never point away from the goal and vanish, and finally
the remaining angle is so small that the vector part of the quaternion between orientation and goal is shorter than
`eps`. -/
structure DirectApproach (goal q₀ : Vec 4) (eps : ℝ) (out : ℕ → Vec 4 × Vec 3) : Prop where
  fixed_axis : ∃ u : Vec 3, length u = 1 ∧ ∀ i, ∃ φ ω : ℝ, 0 ≤ φ ∧ φ ≤ rotationAngle goal q₀ ∧ 0 ≤ ω ∧
    quat (out i).1 = NormedSpace.exp ((1 / 2 : ℝ) • pure (φ • u)) * quat q₀ ∧ (out i).2 = ω • u ∧
    rotationAngle goal (out i).1 = rotationAngle goal q₀ - φ
  antitone : Antitone fun i => rotationAngle goal (out i).1
  reaches : ∀ᶠ i in atTop, Real.sin (rotationAngle goal (out i).1 / 2) < eps
  stops : Tendsto (fun i => (out i).2) atTop (nhds 0)

/-- Sufficiently late orientations are closer to the goal than the angle `tol`, with angular speeds of at most
`√K * tol` (`K` is the stiffness). -/
def ReachesOrientation (goal : Vec 4) (K tol : ℝ) (out : ℕ → Vec 4 × Vec 3) : Prop :=
  ∀ᶠ i in atTop, rotationAngle goal (out i).1 ≤ tol ∧ length (out i).2 ≤ √K * tol

/-- Threshold below which the logarithm of the quaternion functions is 0. -/
def StepThreshold : QuatStepFunction → ℝ → Prop
  | .python ops, eps => 0 < eps ∧ LawfulQuatOps ops eps
  | .cython, eps => eps = 1 / 10 ^ 16

end Verif.Spec
