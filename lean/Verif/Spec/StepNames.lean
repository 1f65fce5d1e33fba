import Verif.Model.CartesianDmp
import Verif.Model.DualCartesian

/-!
# Documented names of the integrators

The names a user can pass as `step_function` and `quaternion_step_function`, as listed in the documentation of `DMP.step`,
`DMP.open_loop`, `CartesianDMP.open_loop` and `DualCartesianDMP.open_loop`, with the functions they stand for.
-/

namespace Verif.Spec
open Verif

/-- Integrators of a (position) DMP and their names. -/
def integrators : List (String × StepFunction) :=
  [("rk4", .rk4), ("euler", .euler), ("rk4-cython", .rk4Cython), ("euler-cython", .eulerCython)]

/-- Integrators of an orientation and their names; the Python one calls the quaternion functions of pytransform3d. -/
def quaternionIntegrators (ops : QuatOps) : List (String × QuatStepFunction) :=
  [("cython", .cython), ("python", .python ops)]

/-- Integrators of a pair of poses and their names. -/
def dualIntegrators (ops : QuatOps) : List (String × DualStepFunction) :=
  [("cython", .cython), ("python", .python ops)]

/-- `name` is not the name of an integrator in the table. -/
def Undocumented {α : Type} (table : List (String × α)) (name : String) : Prop := ∀ f, (name, f) ∉ table

end Verif.Spec
