import Mathlib.Analysis.Calculus.Deriv.Basic
import Verif.Spec.Quat
import Verif.Spec.Geodesic

/-! # Movements of an orientation -/

namespace Verif.Spec
open Quaternion

/-- The unit quaternion of a rotation vector. -/
noncomputable def rot (a : Vec 3) : ℍ[ℝ] := NormedSpace.exp ((1 / 2 : ℝ) • Spec.pure a)

/-- `a` is a rotation vector, not longer than `π`, of the rotation from orientation `q` to orientation `g`. (There is exactly one
if the angle between them is less than `π`.) -/
structure IsRotationTo (g q : Vec 4) (a : Vec 3) : Prop where
  short : length a ≤ Real.pi
  rotation : quat g * star (quat q) = rot a ∨ quat g * star (quat q) = -rot a

/-- A twice continuously differentiable movement of an orientation between the times `t₀` and `t₁`, represented by unit
quaternions `q`, with angular velocity `w` (`q' = w q / 2`) and angular acceleration `acc`. -/
structure OrientationMovement (t₀ t₁ : ℝ) (q : ℝ → Vec 4) (w acc : ℝ → Vec 3) : Prop where
  unit : ∀ t ∈ Set.Icc t₀ t₁, UnitQuat (q t)
  velocity : ∀ t ∈ Set.Icc t₀ t₁,
    HasDerivWithinAt (fun t => quat (q t)) ((1 / 2 : ℝ) • (Spec.pure (w t) * quat (q t))) (Set.Icc t₀ t₁) t
  acceleration : ∀ t ∈ Set.Icc t₀ t₁, ∀ k, HasDerivWithinAt (fun t => w t k) (acc t k) (Set.Icc t₀ t₁) t
  continuous : ∀ k, ContinuousOn (fun t => acc t k) (Set.Icc t₀ t₁)

end Verif.Spec
