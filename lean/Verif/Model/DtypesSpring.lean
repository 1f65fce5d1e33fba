import Verif.Model.Dtypes
import Verif.Model.SpringDamper

/-!
# Arrays of integers in spring-damper systems (`spring_damper.py`)

As in `Model/Dtypes.lean`: an assignment to elements of an array of integers rounds toward zero, an in-place addition of
floating-point numbers raises TypeError.
-/

namespace Verif

section
variable {d : ℕ}

/-- `spring_damper_step`, `spring_damper.py` lines 218-242, working on arrays of any data type: the outcome and the
contents of both arrays afterwards. `current_yd += ...` (line 241) and `current_y += ...` (line 242) raise TypeError for
arrays of integers in the first sub-step, if there is one. -/
noncomputable def springDamperStepTyped (tyY tyYd : Dtype) (goalY : Vec d) (k : ℝ) (c : Option ℝ)
    (coupling : Option (Coupling d)) (intDt lastT t : ℝ) (s : Vec d × Vec d) : Except PyErr Unit × (Vec d × Vec d) :=
  let body := springDamperBody goalY k (defaultDamping c k) coupling none
  let dt := if t - lastT < intDt then t - lastT else intDt
  if t ≤ lastT then (.ok (), s)
  else match tyYd, tyY, intLoop intDt t body lastT s with
    | .int, _, _ => (.error .typeError, s)
    | .float, .int, _ => (.error .typeError, (s.1, (body dt (lastT + dt) s).2))
    | .float, .float, .error e => (.error e, s)
    | .float, .float, .ok r => (.ok (), r)

/-- `spring_damper_step_quaternion`, `spring_damper.py` lines 251-280, working on arrays of any data type.
`current_yd += ...` (line 278) raises TypeError for an array of integers. The orientation, however, is assigned
(`current_y[:] = ...`, line 279), so that it is rounded toward zero if `current_y` is an array of integers. -/
noncomputable def springDamperQuatStepTyped (ops : QuatOps) (tyY tyYd : Dtype) (goalY : Vec 4) (k : ℝ) (c : Option ℝ)
    (coupling : Option RotCoupling) (intDt lastT t : ℝ) (s : Vec 4 × Vec 3) : Except PyErr Unit × (Vec 4 × Vec 3) :=
  let body := springDamperQuatBody ops goalY k (defaultDamping c k) coupling none
  if t ≤ lastT then (.ok (), s)
  else match tyYd, intLoop intDt t (fun dt t s => (fun i => tyY.store ((body dt t s).1 i), (body dt t s).2)) lastT s with
    | .int, _ => (.error .typeError, s)
    | .float, .error e => (.error e, s)
    | .float, .ok r => (.ok (), r)

end

/-- The contents of the current arrays if there was no exception. -/
def outcome {σ : Type} (r : Except PyErr Unit × σ) : Except PyErr σ :=
  match r.1 with
  | .error e => .error e
  | .ok () => .ok r.2

/-- A `SpringDamper` together with the data types of its arrays. -/
structure TypedSpringDamper (d : ℕ) extends SpringDamper d where
  types : Dtypes

namespace TypedSpringDamper
variable {d : ℕ}

/-- A new object (`base.py` lines 59-75): all arrays contain floating-point numbers. -/
def ofSpringDamper (s : SpringDamper d) : TypedSpringDamper d := { s with types := Dtypes.floats }

/-- `PointToPointMovement.configure`, `base.py` lines 77-130. -/
def configure (a : TypedConfigArgs) : Py (TypedSpringDamper d) Unit := do
  match a.t with
  | none => pure ()
  | some t => modify (fun s => { s with t := t })
  configureTypedField a.startY (fun x ty (s : TypedSpringDamper d) => { s with startY := x, types.startY := ty })
  configureTypedField a.startYd (fun x ty (s : TypedSpringDamper d) => { s with startYd := x, types.startYd := ty })
  configureTypedField a.startYdd (fun x ty (s : TypedSpringDamper d) => { s with startYdd := x, types.startYdd := ty })
  configureTypedField a.goalY (fun x ty (s : TypedSpringDamper d) => { s with goalY := x, types.goalY := ty })
  configureTypedField a.goalYd (fun x ty (s : TypedSpringDamper d) => { s with goalYd := x, types.goalYd := ty })
  configureTypedField a.goalYdd (fun x ty (s : TypedSpringDamper d) => { s with goalYdd := x, types.goalYdd := ty })

/-- `SpringDamper.step`, `spring_damper.py` lines 49-87: `self.current_y[:], self.current_yd[:] = last_y, last_yd` (line
79) rounds if the arrays contain integers. -/
noncomputable def step (coupling : Option (Coupling d)) (lastY lastYd : Vec d) :
    Py (TypedSpringDamper d) (Vec d × Vec d) := do
  modify (fun s => { s with lastT := some s.t })
  modify (fun s => { s with t := s.t + s.dt })
  modify (fun s => if s.initialized then s else
    { s with currentY := s.startY
             currentYd := s.startYd
             initialized := true
             types.currentY := s.types.startY
             types.currentYd := s.types.startYd })
  modify (fun s => { s with currentY := fun i => s.types.currentY.store (lastY i)
                            currentYd := fun i => s.types.currentYd.store (lastYd i) })
  let s ← get
  let r := springDamperStepTyped s.types.currentY s.types.currentYd s.goalY s.k s.c coupling s.intDt (s.lastT.getD 0)
    s.t (s.currentY, s.currentYd)
  modify (fun s => { s with currentY := r.2.1, currentYd := r.2.2 })
  Py.lift r.1
  return r.2

/-- `SpringDamper.open_loop`, `spring_damper.py` lines 89-113 and 283-297: `np.copy(start_y)` and
`np.zeros_like(start_y)` have the data type of `start_y`. -/
noncomputable def openLoop (runT : ℝ) (coupling : Option (Coupling d)) :
    Py (TypedSpringDamper d) (List ℝ × List (Vec d)) := do
  let s ← get
  Py.lift (openLoopWith runT 0 s.dt (s.startY, (0 : Vec d)) (some runT) (fun lastT t x =>
    outcome (springDamperStepTyped s.types.startY s.types.startY s.goalY s.k s.c coupling s.intDt lastT t x)))

end TypedSpringDamper

/-- A `SpringDamperOrientation` together with the data types of its arrays. -/
structure TypedSpringDamperOrientation extends SpringDamperOrientation where
  types : Dtypes

namespace TypedSpringDamperOrientation

/-- A new object (`base.py` lines 59-75): all arrays contain floating-point numbers. -/
def ofSpringDamper (s : SpringDamperOrientation) : TypedSpringDamperOrientation := { s with types := Dtypes.floats }

/-- `PointToPointMovement.configure`, `base.py` lines 77-130. -/
def configure (a : TypedConfigArgs) : Py TypedSpringDamperOrientation Unit := do
  match a.t with
  | none => pure ()
  | some t => modify (fun s => { s with t := t })
  configureTypedField a.startY
    (fun x ty (s : TypedSpringDamperOrientation) => { s with startY := x, types.startY := ty })
  configureTypedField a.startYd
    (fun x ty (s : TypedSpringDamperOrientation) => { s with startYd := x, types.startYd := ty })
  configureTypedField a.startYdd
    (fun x ty (s : TypedSpringDamperOrientation) => { s with startYdd := x, types.startYdd := ty })
  configureTypedField a.goalY
    (fun x ty (s : TypedSpringDamperOrientation) => { s with goalY := x, types.goalY := ty })
  configureTypedField a.goalYd
    (fun x ty (s : TypedSpringDamperOrientation) => { s with goalYd := x, types.goalYd := ty })
  configureTypedField a.goalYdd
    (fun x ty (s : TypedSpringDamperOrientation) => { s with goalYdd := x, types.goalYdd := ty })

/-- `SpringDamperOrientation.step`, `spring_damper.py` lines 151-189. -/
noncomputable def step (ops : QuatOps) (coupling : Option RotCoupling) (lastY : Vec 4) (lastYd : Vec 3) :
    Py TypedSpringDamperOrientation (Vec 4 × Vec 3) := do
  modify (fun s => { s with lastT := some s.t })
  modify (fun s => { s with t := s.t + s.dt })
  modify (fun s => if s.initialized then s else
    { s with currentY := s.startY
             currentYd := s.startYd
             initialized := true
             types.currentY := s.types.startY
             types.currentYd := s.types.startYd })
  modify (fun s => { s with currentY := fun i => s.types.currentY.store (lastY i)
                            currentYd := fun i => s.types.currentYd.store (lastYd i) })
  let s ← get
  let r := springDamperQuatStepTyped ops s.types.currentY s.types.currentYd s.goalY s.k s.c coupling s.intDt
    (s.lastT.getD 0) s.t (s.currentY, s.currentYd)
  modify (fun s => { s with currentY := r.2.1, currentYd := r.2.2 })
  Py.lift r.1
  return r.2

/-- `SpringDamperOrientation.open_loop`, `spring_damper.py` lines 191-215 and 300-314: the orientation is
`np.copy(start_y)`, an array of the data type of `start_y`; the velocity is `np.zeros(3)`. -/
noncomputable def openLoop (ops : QuatOps) (runT : ℝ) (coupling : Option RotCoupling) :
    Py TypedSpringDamperOrientation (List ℝ × List (Vec 4)) := do
  let s ← get
  Py.lift (openLoopWith runT 0 s.dt (s.startY, (0 : Vec 3)) (some runT) (fun lastT t x =>
    outcome (springDamperQuatStepTyped ops s.types.startY .float s.goalY s.k s.c coupling s.intDt lastT t x)))

end TypedSpringDamperOrientation
end Verif
