import Verif.Spec.Dmp
import Verif.Np

/-! # Specification: response of the transformation system to a tracking error

Only the textbook semi-implicit Euler step and the homogeneous linear spring-damper `tau^2 x'' = -alpha (beta x + tau x')`
driven by a force `u` occur here.
-/

namespace Verif.Spec

/-- Semi-implicit (symplectic) Euler step of length `h` of `y'' = A y y'`: velocity first, then position with the new
velocity. -/
noncomputable def semiImplicitEuler {E : Type} [AddCommGroup E] [Module ℝ E] (A : E → E → E) (h : ℝ) (x : E × E) :
    E × E :=
  (x.1 + h • (x.2 + h • A x.1 x.2), x.2 + h • A x.1 x.2)

/-- Acceleration of one dimension of a spring-damper at rest in the origin, driven by the force `u`. -/
noncomputable def drivenSpring (alpha beta tau u : ℝ) (x v : ℝ) : ℝ :=
  (-(alpha * (beta * x + tau * v)) + u) / tau ^ 2

end Verif.Spec
