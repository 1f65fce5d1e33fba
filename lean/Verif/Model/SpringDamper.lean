import Verif.Model.CartesianDmp

/-!
# Spring-damper systems (`movement_primitives/spring_damper.py`)
-/

namespace Verif

/-- `_default_critically_damped_c`, `spring_damper.py` lines 245-248 (numpy's square root of a negative number is nan). -/
noncomputable def defaultDamping (c : Option ℝ) (k : ℝ) : ℝ :=
  match c with
  | some c => c
  | none => 2 * √k

section
variable {d : ℕ}

/-- `cd`, `cdd` of both spring-damper step functions, `spring_damper.py` lines 232-238 and 265-271: coupling term or
zero, plus the precomputed coupling. -/
def sdCoupling {p v : ℕ} (coupling : Option (Vec p → Vec v → Vec v × Vec v)) (precomputed : Option (Vec v × Vec v))
    (s : Vec p × Vec v) : Vec v × Vec v :=
  let c : Vec v × Vec v := match coupling with
    | some c => c s.1 s.2
    | none => (0, 0)
  match precomputed with
  | some q => (c.1 + q.1, c.2 + q.2)
  | none => c

/-- Loop body of `spring_damper_step`, `spring_damper.py` lines 232-242. -/
noncomputable def springDamperBody (goalY : Vec d) (k c : ℝ) (coupling : Option (Coupling d))
    (precomputed : Option (Vec d × Vec d)) (dt _t : ℝ) (s : Vec d × Vec d) : Vec d × Vec d :=
  let q := sdCoupling coupling precomputed s
  let ydd : Vec d := fun i => k * (goalY i - s.1 i) - c * s.2 i + q.2 i
  let yd' : Vec d := fun i => s.2 i + (dt * ydd i + q.1 i)
  let y' : Vec d := fun i => s.1 i + dt * yd' i
  (y', yd')

/-- `spring_damper_step`, `spring_damper.py` lines 218-242. -/
noncomputable def springDamperStep (goalY : Vec d) (k : ℝ) (c : Option ℝ) (coupling : Option (Coupling d))
    (precomputed : Option (Vec d × Vec d)) (intDt lastT t : ℝ) (s : Vec d × Vec d) : Except PyErr (Vec d × Vec d) :=
  intLoop intDt t (springDamperBody goalY k (defaultDamping c k) coupling precomputed) lastT s

/-- Loop body of `spring_damper_step_quaternion`, `spring_damper.py` lines 265-280; `ops` are the quaternion functions
of pytransform3d. -/
noncomputable def springDamperQuatBody (ops : QuatOps) (goalY : Vec 4) (k c : ℝ) (coupling : Option RotCoupling)
    (precomputed : Option (Vec 3 × Vec 3)) (dt _t : ℝ) (s : Vec 4 × Vec 3) : Vec 4 × Vec 3 :=
  let q := sdCoupling coupling precomputed s
  let ydd : Vec 3 := fun i => k * QuatStepArgs.diff ops goalY s.1 i - c * s.2 i + q.2 i
  let yd' : Vec 3 := fun i => s.2 i + (dt * ydd i + q.1 i)
  (ops.mul (ops.exp (fun i => dt * yd' i)) s.1, yd')

/-- `spring_damper_step_quaternion`, `spring_damper.py` lines 251-280. -/
noncomputable def springDamperQuatStep (ops : QuatOps) (goalY : Vec 4) (k : ℝ) (c : Option ℝ)
    (coupling : Option RotCoupling) (precomputed : Option (Vec 3 × Vec 3)) (intDt lastT t : ℝ) (s : Vec 4 × Vec 3) :
    Except PyErr (Vec 4 × Vec 3) :=
  intLoop intDt t (springDamperQuatBody ops goalY k (defaultDamping c k) coupling precomputed) lastT s

end

/-- Attributes of `SpringDamper`, `spring_damper.py` lines 33-42. -/
structure SpringDamper (d : ℕ) extends Movement d d where
  dt : ℝ
  k : ℝ
  c : Option ℝ
  intDt : ℝ
  initialized : Bool

namespace SpringDamper
variable {d : ℕ}

/-- `SpringDamper.__init__`, `spring_damper.py` lines 33-42 (`configure()` without arguments does nothing). -/
def create (d : ℕ) (dt k : ℝ) (c : Option ℝ) (intDt : ℝ) : SpringDamper d :=
  { Movement.init d d with dt := dt, k := k, c := c, intDt := intDt, initialized := false }

/-- `configure` inherited from `PointToPointMovement`. -/
def configure (a : ConfigArgs) : Py (SpringDamper d) Unit :=
  Py.zoom SpringDamper.toMovement (fun mv s => { s with toMovement := mv }) (Movement.configure a)

/-- `SpringDamper.reset`, `spring_damper.py` lines 44-47: only the time is reset. -/
def reset : Py (SpringDamper d) Unit := modify (fun s => { s with t := 0, lastT := none })

/-- `SpringDamper.step`, `spring_damper.py` lines 49-87. -/
noncomputable def step (coupling : Option (Coupling d)) (lastY lastYd : Vec d) :
    Py (SpringDamper d) (Vec d × Vec d) := do
  modify (fun s => { s with lastT := some s.t })
  modify (fun s => { s with t := s.t + s.dt })
  modify (fun s => if s.initialized then s
    else { s with currentY := s.startY, currentYd := s.startYd, initialized := true })
  modify (fun s => { s with currentY := lastY, currentYd := lastYd })
  let s ← get
  let r ← Py.lift (springDamperStep s.goalY s.k s.c coupling none s.intDt (s.lastT.getD 0) s.t
    (s.currentY, s.currentYd))
  modify (fun s => { s with currentY := r.1, currentYd := r.2 })
  return r

/-- `SpringDamper.open_loop`, `spring_damper.py` lines 89-113, with `spring_damper_open_loop`, lines 283-297: starts at
rest, whatever `start_yd` is. -/
noncomputable def openLoop (runT : ℝ) (coupling : Option (Coupling d)) :
    Py (SpringDamper d) (List ℝ × List (Vec d)) := do
  let s ← get
  Py.lift (openLoopWith runT 0 s.dt (s.startY, (0 : Vec d)) (some runT)
    (springDamperStep s.goalY s.k s.c coupling none s.intDt))

end SpringDamper

/-- Attributes of `SpringDamperOrientation`, `spring_damper.py` lines 135-144. -/
structure SpringDamperOrientation extends Movement 4 3 where
  dt : ℝ
  k : ℝ
  c : Option ℝ
  intDt : ℝ
  initialized : Bool

namespace SpringDamperOrientation

/-- `SpringDamperOrientation.__init__`, `spring_damper.py` lines 135-144. -/
def create (dt k : ℝ) (c : Option ℝ) (intDt : ℝ) : SpringDamperOrientation :=
  { Movement.init 4 3 with dt := dt, k := k, c := c, intDt := intDt, initialized := false }

/-- `configure` inherited from `PointToPointMovement`. -/
def configure (a : ConfigArgs) : Py SpringDamperOrientation Unit :=
  Py.zoom SpringDamperOrientation.toMovement (fun mv s => { s with toMovement := mv }) (Movement.configure a)

/-- `SpringDamperOrientation.reset`, `spring_damper.py` lines 146-149. -/
def reset : Py SpringDamperOrientation Unit := modify (fun s => { s with t := 0, lastT := none })

/-- `SpringDamperOrientation.step`, `spring_damper.py` lines 151-189. -/
noncomputable def step (ops : QuatOps) (coupling : Option RotCoupling) (lastY : Vec 4) (lastYd : Vec 3) :
    Py SpringDamperOrientation (Vec 4 × Vec 3) := do
  modify (fun s => { s with lastT := some s.t })
  modify (fun s => { s with t := s.t + s.dt })
  modify (fun s => if s.initialized then s
    else { s with currentY := s.startY, currentYd := s.startYd, initialized := true })
  modify (fun s => { s with currentY := lastY, currentYd := lastYd })
  let s ← get
  let r ← Py.lift (springDamperQuatStep ops s.goalY s.k s.c coupling none s.intDt (s.lastT.getD 0) s.t
    (s.currentY, s.currentYd))
  modify (fun s => { s with currentY := r.1, currentYd := r.2 })
  return r

/-- `SpringDamperOrientation.open_loop`, `spring_damper.py` lines 191-215, with `spring_damper_open_loop_quaternion`,
lines 300-314. -/
noncomputable def openLoop (ops : QuatOps) (runT : ℝ) (coupling : Option RotCoupling) :
    Py SpringDamperOrientation (List ℝ × List (Vec 4)) := do
  let s ← get
  Py.lift (openLoopWith runT 0 s.dt (s.startY, (0 : Vec 3)) (some runT)
    (springDamperQuatStep ops s.goalY s.k s.c coupling none s.intDt))

end SpringDamperOrientation
end Verif
