import Verif.Model.Heap
import Verif.Model.Imitate
import Verif.Model.FinalVelocity
import Verif.Model.CartesianDmp
import Verif.Model.DualImitate
import Verif.Model.SpringDamper
import Verif.Model.StateFollowing

/-!
# The classes of movement primitives as objects in memory
-/

namespace Verif

/-- Rows of an array of shape `(d, m)` from its elements in row-major order. -/
def unflatten {d m : ℕ} (x : Vec (d * m)) : Fin d → Fin m → ℝ := fun k i => x (finProdFinEquiv (k, i))

/-- Elements of an array of shape `(d, m)` in row-major order. -/
def flatten {d m : ℕ} (W : Fin d → Fin m → ℝ) : Vec (d * m) := fun i => W i.divNat i.modNat

/-- `DMP`: `step` copies its result (`dmp/_dmp.py` line 505), `get_weights` is inherited from `WeightParametersMixin`
(`dmp/_base.py` lines 36-44), `reset` from `DMPBase`. -/
noncomputable def dmpClass (d m : ℕ) : HClass (DMP d m) d d (d * m) where
  movement := DMP.toMovement
  weights s := flatten s.ft.weights
  assemble mv x s := { s with toMovement := mv, ft := { s.ft with weights := unflatten x } }
  initialized s := s.initialized
  StepArg := Option (Coupling d) × StepFunction
  step a := DMP.step a.1 a.2
  OpenArg := Option ℝ × Option (Coupling d) × String
  openLoop a := DMP.openLoop a.1 a.2.1 a.2.2
  configure := DMP.configure
  reset := DMP.reset
  setExecutionTime := DMP.setExecutionTime
  setWeights := DMP.setWeights
  ImitateArg _ := ℝ × Bool
  imitate _ a T Y := DMP.imitate T Y a.1 a.2
  stepCopies := true
  resetCopies := true
  imitateDerivatives := false
  getWeights := .view

/-- `DMPWithFinalVelocity`: like `DMP`; `imitate` also configures velocities and accelerations
(`dmp/_dmp_with_final_velocity.py` lines 202-213). -/
noncomputable def fvClass (d m : ℕ) : HClass (FvDMP d m) d d (d * m) where
  movement := DMP.toMovement
  weights s := flatten s.ft.weights
  assemble mv x s := { s with toMovement := mv, ft := { s.ft with weights := unflatten x } }
  initialized s := s.initialized
  StepArg := Option (Coupling d)
  step := FvDMP.step
  OpenArg := Option ℝ × Option (Coupling d)
  openLoop a := FvDMP.openLoop a.1 a.2
  configure := DMP.configure
  reset := DMP.reset
  setExecutionTime := DMP.setExecutionTime
  setWeights := DMP.setWeights
  ImitateArg _ := ℝ
  imitate _ a T Y := FvDMP.imitate T Y a
  stepCopies := true
  resetCopies := true
  imitateDerivatives := true
  getWeights := .view

/-- `CartesianDMP`: `current_y` and `current_yd` are assigned in `__init__` and `reset` and otherwise overwritten
(`dmp/_cartesian_dmp.py` line 307); `get_weights` concatenates (line 447). -/
noncomputable def cartesianClass (m : ℕ) : HClass (CartesianDMP m) (3 + 4) (3 + 3) (3 * m + 3 * m) where
  movement := CartesianDMP.toMovement
  weights s := Fin.append (flatten s.ftPos.weights) (flatten s.ftRot.weights)
  assemble mv x s :=
    { s with
      toMovement := mv
      ftPos := { s.ftPos with weights := unflatten (fun i => x (Fin.castAdd _ i)) }
      ftRot := { s.ftRot with weights := unflatten (fun i => x (Fin.natAdd _ i)) } }
  initialized _ := true
  StepArg := Option PoseCoupling × StepFunction × QuatStepFunction
  step a := CartesianDMP.step a.1 a.2.1 a.2.2
  OpenArg := QuatOps × Option ℝ × Option PoseCoupling × String × String
  openLoop a := CartesianDMP.openLoop a.1 a.2.1 a.2.2.1 a.2.2.2.1 a.2.2.2.2
  configure := CartesianDMP.configure
  reset := CartesianDMP.reset
  setExecutionTime := CartesianDMP.setExecutionTime
  setWeights := CartesianDMP.setWeights
  ImitateArg n := QuatOps × ((Fin (n + 2) → Vec 4) → Fin (n + 2) → Vec 3) × ℝ × Bool
  imitate _ a T Y := CartesianDMP.imitate a.1 a.2.1 T Y a.2.2.1 a.2.2.2
  stepCopies := true
  resetCopies := true
  imitateDerivatives := false
  getWeights := .copy

/-- `DualCartesianDMP`. -/
noncomputable def dualClass (m : ℕ) : HClass (DualCartesianDMP m) 14 12 (12 * m) where
  movement := DualCartesianDMP.toMovement
  weights s := flatten s.ft.weights
  assemble mv x s := { s with toMovement := mv, ft := { s.ft with weights := unflatten x } }
  initialized s := s.initialized
  StepArg := QuatOps × Option DualCoupling × DualStepFunction
  step a := DualCartesianDMP.step a.1 a.2.1 a.2.2
  OpenArg := QuatOps × Option ℝ × Option DualCoupling × String
  openLoop a := DualCartesianDMP.openLoop a.1 a.2.1 a.2.2.1 a.2.2.2
  configure := DualCartesianDMP.configure
  reset := DualCartesianDMP.reset
  setExecutionTime := DualCartesianDMP.setExecutionTime
  setWeights := DualCartesianDMP.setWeights
  ImitateArg n := QuatOps × ((Fin (n + 2) → Vec 4) → Fin (n + 2) → Vec 3) × ℝ × Bool
  imitate _ a T Y := DualCartesianDMP.imitate a.1 a.2.1 T Y a.2.2.1 a.2.2.2
  stepCopies := true
  resetCopies := true
  imitateDerivatives := false
  getWeights := .view

/-- `SpringDamper`: no weights, nothing to learn; `reset` only resets the time (`spring_damper.py` lines 44-47). -/
noncomputable def springDamperClass (d : ℕ) : HClass (SpringDamper d) d d 0 where
  movement := SpringDamper.toMovement
  weights _ := 0
  assemble mv _ s := { s with toMovement := mv }
  initialized s := s.initialized
  StepArg := Option (Coupling d)
  step := SpringDamper.step
  OpenArg := ℝ × Option (Coupling d)
  openLoop a := SpringDamper.openLoop a.1 a.2
  configure := SpringDamper.configure
  reset := SpringDamper.reset
  setExecutionTime _ := throw .attributeError
  setWeights _ := throw .attributeError
  ImitateArg _ := Unit
  imitate _ _ _ _ := throw .attributeError
  stepCopies := true
  resetCopies := false
  imitateDerivatives := false
  getWeights := .missing

/-- `SpringDamperOrientation`. -/
noncomputable def springDamperOrientationClass : HClass SpringDamperOrientation 4 3 0 where
  movement := SpringDamperOrientation.toMovement
  weights _ := 0
  assemble mv _ s := { s with toMovement := mv }
  initialized s := s.initialized
  StepArg := QuatOps × Option RotCoupling
  step a := SpringDamperOrientation.step a.1 a.2
  OpenArg := QuatOps × ℝ × Option RotCoupling
  openLoop a := SpringDamperOrientation.openLoop a.1 a.2.1 a.2.2
  configure := SpringDamperOrientation.configure
  reset := SpringDamperOrientation.reset
  setExecutionTime _ := throw .attributeError
  setWeights _ := throw .attributeError
  ImitateArg _ := Unit
  imitate _ _ _ _ := throw .attributeError
  stepCopies := true
  resetCopies := false
  imitateDerivatives := false
  getWeights := .missing

/-- `StateFollowingDMP`: `step` returns `self.current_y, self.current_yd` (`dmp/_state_following_dmp.py` line 63);
`imitate` is not implemented (line 73), `get_weights` and `set_weights` fail because the forcing term has no weights. -/
noncomputable def stateFollowingClass (d n : ℕ) : HClass (StateFollowingDMP d n) d d 0 where
  movement := StateFollowingDMP.toMovement
  weights _ := 0
  assemble mv _ s := { s with toMovement := mv }
  initialized _ := true
  StepArg := Option (Coupling d)
  step := StateFollowingDMP.step
  OpenArg := Option ℝ × Option (Coupling d)
  openLoop a := do
    let s ← get
    Py.lift (s.openLoop a.1 a.2)
  configure a :=
    Py.zoom StateFollowingDMP.toMovement (fun mv s => { s with toMovement := mv }) (Movement.configure a)
  reset := modify (fun s => { s with toMovement := s.toMovement.reset })
  setExecutionTime _ := throw .attributeError
  setWeights _ := throw .attributeError
  ImitateArg _ := Unit
  imitate _ _ _ _ := throw .notImplementedError
  stepCopies := false
  resetCopies := true
  imitateDerivatives := false
  getWeights := .missing

/-- The modelled classes. -/
inductive IsClass : {S : Type} → {p v w : ℕ} → HClass S p v w → Prop
  | dmp (d m : ℕ) : IsClass (dmpClass d m)
  | finalVelocity (d m : ℕ) : IsClass (fvClass d m)
  | cartesian (m : ℕ) : IsClass (cartesianClass m)
  | dual (m : ℕ) : IsClass (dualClass m)
  | springDamper (d : ℕ) : IsClass (springDamperClass d)
  | springDamperOrientation : IsClass springDamperOrientationClass
  | stateFollowing (d n : ℕ) : IsClass (stateFollowingClass d n)

end Verif
