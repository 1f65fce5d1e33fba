import Verif.Model.DtypesSpring
import Verif.Model.DualCartesian

/-!
# Arrays of integers in `CartesianDMP` and `DualCartesianDMP` (`dmp/_cartesian_dmp.py`, `dmp/_dual_cartesian_dmp.py`)

As in `Model/Dtypes.lean`: an assignment to elements of an array of integers rounds toward zero, an in-place addition of
floating-point numbers raises TypeError, a Cython function that declares `np.ndarray[double]` raises ValueError. A slice
of an array has the data type of the array.
-/

namespace Verif

/-- `dmp_step_quaternion_python`, `dmp/_cartesian_dmp.py` lines 10-139, working on arrays of any data type.
`current_yd += ...` (line 137) raises TypeError for an array of integers. The orientation, however, is assigned
(`current_y[:] = ...`, line 138), so that it is rounded toward zero if `current_y` is an array of integers. -/
noncomputable def QuatStepArgs.stepPyTyped {m : ℕ} (a : QuatStepArgs m) (ops : QuatOps) (ty : Dtypes) (lastT t : ℝ)
    (s : Vec 4 × Vec 3) : Except PyErr Unit × (Vec 4 × Vec 3) :=
  if a.goalT ≤ a.startT then (.error .valueError, s)
  else if t ≤ a.startT then (.ok (), s)
  else if t ≤ lastT then (.ok (), s)
  else match ty.currentYd, intLoop a.intDt t
      (fun dt t s => (fun i => ty.currentY.store ((a.bodyPy ops dt t s).1 i), (a.bodyPy ops dt t s).2)) lastT s with
    | .int, _ => (.error .typeError, s)
    | .float, .error e => (.error e, s)
    | .float, .ok r => (.ok (), r)

/-- Call of a quaternion step function with arrays of given data types. The Cython function declares all eight arrays as
`np.ndarray[double, ndim=1]`, `dmp_fast.pyx` lines 370-383. -/
noncomputable def QuatStepFunction.runTyped {m : ℕ} (qf : QuatStepFunction) (a : QuatStepArgs m) (ty : Dtypes)
    (lastT t : ℝ) (s : Vec 4 × Vec 3) : Except PyErr Unit × (Vec 4 × Vec 3) :=
  match qf with
  | .python ops => a.stepPyTyped ops ty lastT t s
  | .cython =>
    if ty = Dtypes.floats then
      match a.stepCy lastT t s with
      | .error e => (.error e, s)
      | .ok r => (.ok (), r)
    else (.error .valueError, s)

/-- A `CartesianDMP` together with the data types of its arrays. -/
structure TypedCartesianDMP (m : ℕ) extends CartesianDMP m where
  types : Dtypes

namespace TypedCartesianDMP
variable {m : ℕ}

/-- A new object (`base.py` lines 59-75): all arrays contain floating-point numbers. -/
def ofCartesianDMP (s : CartesianDMP m) : TypedCartesianDMP m := { s with types := Dtypes.floats }

/-- `PointToPointMovement.configure`, `base.py` lines 77-130. -/
def configure (a : TypedConfigArgs) : Py (TypedCartesianDMP m) Unit := do
  match a.t with
  | none => pure ()
  | some t => modify (fun s => { s with t := t })
  configureTypedField a.startY (fun x ty (s : TypedCartesianDMP m) => { s with startY := x, types.startY := ty })
  configureTypedField a.startYd (fun x ty (s : TypedCartesianDMP m) => { s with startYd := x, types.startYd := ty })
  configureTypedField a.startYdd (fun x ty (s : TypedCartesianDMP m) => { s with startYdd := x, types.startYdd := ty })
  configureTypedField a.goalY (fun x ty (s : TypedCartesianDMP m) => { s with goalY := x, types.goalY := ty })
  configureTypedField a.goalYd (fun x ty (s : TypedCartesianDMP m) => { s with goalYd := x, types.goalYd := ty })
  configureTypedField a.goalYdd (fun x ty (s : TypedCartesianDMP m) => { s with goalYdd := x, types.goalYdd := ty })

/-- `DMPBase.reset`, `dmp/_base.py` lines 21-26: `np.copy` keeps the data type. -/
def reset : Py (TypedCartesianDMP m) Unit :=
  modify (fun s => { s with toMovement := s.toMovement.reset
                            types.currentY := s.types.startY
                            types.currentYd := s.types.startYd })

/-- `CartesianDMP.step`, `dmp/_cartesian_dmp.py` lines 271-333, after the length assertions:
`self.current_y[:], self.current_yd[:] = last_y, last_yd` (line 310) rounds if the arrays contain integers. -/
noncomputable def step (coupling : Option PoseCoupling) (sf : StepFunction) (qf : QuatStepFunction)
    (lastY : Vec (3 + 4)) (lastYd : Vec (3 + 3)) : Py (TypedCartesianDMP m) (Vec (3 + 4) × Vec (3 + 3)) := do
  modify (fun s => { s with lastT := some s.t })
  modify (fun s => { s with t := s.t + s.dt })
  modify (fun s => { s with currentY := fun i => s.types.currentY.store (lastY i)
                            currentYd := fun i => s.types.currentYd.store (lastYd i) })
  let s ← get
  let rp := sf.runTyped (s.posArgs coupling) s.types (s.lastT.getD 0) s.t (sliceTo s.currentY, sliceTo s.currentYd)
  modify (fun s => { s with
    currentY := hstack rp.2.1 (sliceFrom s.currentY)
    currentYd := hstack rp.2.2 (sliceFrom s.currentYd) })
  Py.lift rp.1
  let s ← get
  let rr := qf.runTyped (s.rotArgs coupling) s.types (s.lastT.getD 0) s.t (sliceFrom s.currentY, sliceFrom s.currentYd)
  modify (fun s => { s with
    currentY := hstack (sliceTo s.currentY) rr.2.1
    currentYd := hstack (sliceTo s.currentYd) rr.2.2 })
  Py.lift rr.1
  let s ← get
  return (s.currentY, s.currentYd)

/-- Data types of the arrays that `dmp_open_loop_quaternion` passes to the step function, `dmp/_cartesian_dmp.py` lines
691-700: velocities and accelerations are `np.zeros(3)`. -/
def rotOpenLoopTypes (ty : Dtypes) : Dtypes :=
  { Dtypes.floats with startY := ty.startY, goalY := ty.goalY, currentY := ty.startY }

/-- `CartesianDMP.open_loop`, `dmp/_cartesian_dmp.py` lines 335-394. -/
noncomputable def openLoop (ops : QuatOps) (runT : Option ℝ) (coupling : Option PoseCoupling)
    (stepFunction quaternionStepFunction : String) : Py (TypedCartesianDMP m) (List ℝ × List (Vec (3 + 4))) := do
  let sf ← Py.lift (StepFunction.lookup stepFunction)
  let s ← get
  let a := s.posOpenLoopArgs coupling
  let p ← Py.lift (openLoopWith a.goalT a.startT s.dt (a.startY, a.startYd) runT
    (fun lastT t x => outcome (sf.runTyped a (TypedDMP.openLoopTypes s.types) lastT t x)))
  let qf ← Py.lift (QuatStepFunction.lookup ops quaternionStepFunction)
  let b := s.rotOpenLoopArgs coupling
  let r ← Py.lift (openLoopWith b.goalT b.startT s.dt (b.startY, b.startYd) runT
    (fun lastT t x => outcome (qf.runTyped b (rotOpenLoopTypes s.types) lastT t x)))
  if p.2.length ≠ r.2.length then throw .valueError
  return (p.1, List.zipWith hstack p.2 r.2)

end TypedCartesianDMP

/-! ## Two arms -/

/-- Call of a dual-arm step function with arrays of given data types. `tyE` is the data type of `tracking_error`, whose
values are used only through floating-point expressions. In `dmp_step_dual_cartesian_python` (`dmp/_dual_cartesian_dmp.py`
lines 91-158) the in-place additions of lines 134 and 156 (velocities) and of line 135 (positions) raise TypeError for
arrays of integers in the first sub-step, if there is one; the contents of the arrays after the exception are those before
it for an array of velocities made of integers, and are not modelled otherwise (the state before is returned). The Cython
function declares all eight arrays as `np.ndarray[double, ndim=1]`, `dmp_fast.pyx` lines 512-521. -/
noncomputable def DualStepFunction.runTyped {m : ℕ} (sf : DualStepFunction) (a : DualStepArgs m) (ty : Dtypes)
    (lastT t : ℝ) (s : Vec 14 × Vec 12) : Except PyErr Unit × (Vec 14 × Vec 12) :=
  match sf with
  | .python ops =>
    let s₀ := if t ≤ a.startT then (fun i => ty.currentY.store (a.startY i), fun i => ty.currentYd.store (a.startYd i)) else s
    if t ≤ lastT then (.ok (), s₀)
    else match ty.currentY, ty.currentYd, a.stepPy ops lastT t s with
      | .float, .float, .error e => (.error e, s₀)
      | .float, .float, .ok r => (.ok (), r)
      | _, _, _ => (.error .typeError, s₀)
  | .cython =>
    if ty = Dtypes.floats then
      match a.stepCy lastT t s with
      | .error e => (.error e, s)
      | .ok r => (.ok (), r)
    else (.error .valueError, s)

/-- A `DualCartesianDMP` together with the data types of its arrays. -/
structure TypedDualCartesianDMP (m : ℕ) extends DualCartesianDMP m where
  types : Dtypes

namespace TypedDualCartesianDMP
variable {m : ℕ}

/-- A new object (`base.py` lines 59-75): all arrays contain floating-point numbers. -/
def ofDualCartesianDMP (s : DualCartesianDMP m) : TypedDualCartesianDMP m := { s with types := Dtypes.floats }

/-- The tracking error, `dmp/_dual_cartesian_dmp.py` lines 307-310: `self.current_y - last_y` is an array of integers if
both arrays are (`tyLast` is the data type of `last_y`); then the differences of orientations that are assigned to its
elements are rounded. -/
noncomputable def trackingError (ops : QuatOps) (tyCurrent tyLast : Dtype) (y lastY : Vec 14) : Vec 14 :=
  match tyCurrent, tyLast with
  | .int, .int => fun i => Dtype.int.store (DualCartesianDMP.trackingError ops y lastY i)
  | _, _ => DualCartesianDMP.trackingError ops y lastY

/-- `DualCartesianDMP.step`, `dmp/_dual_cartesian_dmp.py` lines 269-323, after the length assertions; `tyLast` is the data
type of `last_y`. -/
noncomputable def step (ops : QuatOps) (coupling : Option DualCoupling) (sf : DualStepFunction) (tyLast : Dtype)
    (lastY : Vec 14) (lastYd : Vec 12) : Py (TypedDualCartesianDMP m) (Vec 14 × Vec 12) := do
  modify (fun s => { s with lastT := some s.t })
  modify (fun s => { s with t := s.t + s.dt })
  modify (fun s => if s.initialized then s else
    { s with currentY := s.startY
             currentYd := s.startYd
             initialized := true
             types.currentY := s.types.startY
             types.currentYd := s.types.startYd })
  let s ← get
  let e := trackingError ops s.types.currentY tyLast s.currentY lastY
  modify (fun s => { s with currentY := fun i => s.types.currentY.store (lastY i)
                            currentYd := fun i => s.types.currentYd.store (lastYd i) })
  let s ← get
  let r := sf.runTyped (s.stepArgs coupling e) s.types (s.lastT.getD 0) s.t (s.currentY, s.currentYd)
  modify (fun s => { s with currentY := r.2.1, currentYd := r.2.2 })
  Py.lift r.1
  let s ← get
  return (s.currentY, s.currentYd)

/-- Body of the loop in `open_loop`, `dmp/_dual_cartesian_dmp.py` lines 362-365. In the first iteration `current_y` is a copy
of the start, later it is a copy of the current position of the object. -/
noncomputable def loopBody (ops : QuatOps) (coupling : Option DualCoupling) (sf : DualStepFunction)
    (x : DualCartesianDMP.LoopVars) : Py (TypedDualCartesianDMP m) DualCartesianDMP.LoopVars := do
  let s ← get
  let r ← step ops coupling sf (if x.T.length = 1 then s.types.startY else s.types.currentY) x.y x.yd
  let s ← get
  return { y := r.1, yd := r.2, T := x.T ++ [s.t], Y := x.Y ++ [s.currentY] }

/-- `DualCartesianDMP.open_loop`, `dmp/_dual_cartesian_dmp.py` lines 325-367. -/
noncomputable def openLoop (ops : QuatOps) (runT : Option ℝ) (coupling : Option DualCoupling) (stepFunction : String) :
    Py (TypedDualCartesianDMP m) (List ℝ × List (Vec 14)) := do
  let sf ← Py.lift (DualStepFunction.lookup ops stepFunction)
  let runT := runT.getD (← get).executionTime
  modify (fun s => { s with t := 0 })
  let s ← get
  let x ← Py.while (fun s : TypedDualCartesianDMP m => s.t < runT) (loopBody ops coupling sf)
    { y := s.startY, yd := s.startYd, T := [s.t], Y := [s.startY] }
  modify (fun s => { s with t := 0 })
  return (x.T, x.Y)

end TypedDualCartesianDMP
end Verif
