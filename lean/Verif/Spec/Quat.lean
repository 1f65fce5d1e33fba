import Verif.Model.Quat
import Mathlib.Analysis.Normed.Algebra.QuaternionExponential

/-!
# Quaternions

Reference: Mathlib's quaternions `ℍ[ℝ]`. `Spec.quat` and `Spec.pure` only rename coordinates.
-/

namespace Verif.Spec
open Quaternion

/-- The array `(w, x, y, z)` as a quaternion. -/
def quat (q : Vec 4) : ℍ[ℝ] := ⟨q 0, q 1, q 2, q 3⟩

/-- A rotation vector as a pure quaternion. -/
def pure (a : Vec 3) : ℍ[ℝ] := ⟨0, a 0, a 1, a 2⟩

/-- Unit quaternions. -/
def UnitQuat (q : Vec 4) : Prop := q 0 ^ 2 + q 1 ^ 2 + q 2 ^ 2 + q 3 ^ 2 = 1

/-- Euclidean length of a rotation vector. -/
noncomputable def length (a : Vec 3) : ℝ := √(a 0 ^ 2 + a 1 ^ 2 + a 2 ^ 2)

/-- What the orientation step functions rely on: on unit quaternions `mul` is the product, `conj` the conjugate; `exp a`
is the quaternion exponential of half the rotation vector; `log q` is a rotation vector of length at most `π` whose
exponential is `q` or `-q`, or 0 if the vector part of `q` is shorter than `eps`. -/
structure LawfulQuatOps (ops : QuatOps) (eps : ℝ) : Prop where
  mul : ∀ p q, UnitQuat p → UnitQuat q → quat (ops.mul p q) = quat p * quat q
  conj : ∀ q, UnitQuat q → quat (ops.conj q) = star (quat q)
  exp : ∀ a, quat (ops.exp a) = NormedSpace.exp ((1 / 2 : ℝ) • pure a)
  log_small : ∀ q, UnitQuat q → √(q 1 ^ 2 + q 2 ^ 2 + q 3 ^ 2) < eps → ops.log q = 0
  log : ∀ q, UnitQuat q → eps ≤ √(q 1 ^ 2 + q 2 ^ 2 + q 3 ^ 2) →
    length (ops.log q) ≤ Real.pi ∧
      (NormedSpace.exp ((1 / 2 : ℝ) • pure (ops.log q)) = quat q ∨
        NormedSpace.exp ((1 / 2 : ℝ) • pure (ops.log q)) = -quat q)

end Verif.Spec
