import Verif.Model.Forcing

/-!
# Step functions of the regular DMP (`dmp/_dmp.py`, `dmp_fast.pyx`)

Arrays are updated in place by the code; here each function returns the new `(current_y, current_yd)`.
-/

namespace Verif

/-- A coupling term: `coupling(y, yd)` returns `(cd, cdd)`. Modelled as a pure function. -/
abbrev Coupling (d : ℕ) := Vec d → Vec d → Vec d × Vec d

/-- Arguments shared by all step functions (all but `last_t`, `t`, `current_y`, `current_yd`). -/
structure StepArgs (d m : ℕ) where
  goalY : Vec d
  goalYd : Vec d
  goalYdd : Vec d
  startY : Vec d
  startYd : Vec d
  startYdd : Vec d
  goalT : ℝ
  startT : ℝ
  alphaY : Vec d
  betaY : Vec d
  ft : ForcingTerm d m
  coupling : Option (Coupling d) := none
  precomputed : Option (Vec d × Vec d) := none
  intDt : ℝ := 1 / 1000
  pGain : ℝ := 0
  trackingError : Vec d := 0
  smooth : Bool := false

namespace StepArgs
variable {d m : ℕ}

/-- `_dmp_acc`, `dmp/_dmp.py` lines 135-211: acceleration of the transformation system. -/
noncomputable def acc (a : StepArgs d m) (Y V cdd : Vec d) (z executionTime : ℝ) (f tdd : Vec d) : Vec d :=
  let cdd := match a.coupling with
    | some c => (c Y V).2
    | none => cdd
  let smoothing : Vec d := if a.smooth then a.betaY * (a.goalY - a.startY) * (fun _ => z) else 0
  fun k => (a.alphaY k * (a.betaY k * (a.goalY k - Y k) - executionTime * V k - smoothing k)
    + f k + cdd k + tdd k) / executionTime ^ 2

/-- The `cdd` passed to `_dmp_acc`: zeros plus precomputed acceleration, `dmp/_dmp.py` 85-91, 305-311. With
a coupling term the code passes `None`, which `_dmp_acc` replaces. -/
def initialCdd (a : StepArgs d m) : Vec d :=
  match a.precomputed with
  | some (_, cdd) => cdd
  | none => 0

/-- Velocity correction at the end of a (sub-)step, `dmp/_dmp.py` 130-132 and 323-325: coupling evaluated in
the *new* state. A precomputed velocity is never used by the Python functions. -/
noncomputable def addCd (a : StepArgs d m) (executionTime : ℝ) (s : Vec d × Vec d) : Vec d × Vec d :=
  match a.coupling with
  | some c => (s.1, fun k => s.2 k + (c s.1 s.2).1 k / executionTime)
  | none => s

/-- `dmp_step_rk4`, `dmp/_dmp.py` lines 9-132. For `t = last_t` numpy computes `0/0 = nan` in `tdd`; theorems
about this function assume `t ≠ last_t` where it matters. -/
noncomputable def stepRk4 (a : StepArgs d m) (lastT t : ℝ) (s : Vec d × Vec d) :
    Except PyErr (Vec d × Vec d) :=
  let y := s.1
  let yd := s.2
  let cdd := a.initialCdd
  let executionTime := a.goalT - a.startT
  let dt := t - lastT
  let dt2 := (1 / 2) * dt
  let z0 := a.ft.phaseAt t
  let z1 := a.ft.phaseAt (t + dt2)
  let z2 := a.ft.phaseAt (t + dt)
  let tdd : Vec d := fun k => a.pGain * a.trackingError k / dt
  let K0 := a.acc y yd cdd z0 executionTime (a.ft.force z0) tdd
  let C1 : Vec d := yd + dt2 • K0
  let K1 := a.acc (y + dt2 • yd) C1 cdd z1 executionTime (a.ft.force z1) tdd
  let C2 : Vec d := yd + dt2 • K1
  let K2 := a.acc (y + dt2 • C1) C2 cdd z1 executionTime (a.ft.force z1) tdd
  let C3 : Vec d := yd + dt • K2
  let K3 := a.acc (y + dt • C2) C3 cdd z2 executionTime (a.ft.force z2) tdd
  let y' : Vec d := y + dt • (yd + (dt / 6) • (K0 + K1 + K2))
  let yd' : Vec d := yd + (dt / 6) • (K0 + (2 : ℝ) • K1 + (2 : ℝ) • K2 + K3)
  .ok (a.addCd executionTime (y', yd'))

/-- Loop body of `dmp_step_euler`, `dmp/_dmp.py` lines 302-325; `t` is the already advanced `current_t`. -/
noncomputable def eulerBody (a : StepArgs d m) (dt t : ℝ) (s : Vec d × Vec d) : Vec d × Vec d :=
  let executionTime := a.goalT - a.startT
  let z := a.ft.phaseAt t
  let f := a.ft.force z
  let tdd : Vec d := fun k => a.pGain * a.trackingError k / dt
  let ydd := a.acc s.1 s.2 a.initialCdd z executionTime f tdd
  let yd' : Vec d := s.2 + dt • ydd
  let y' : Vec d := s.1 + dt • yd'
  a.addCd executionTime (y', yd')

/-- `dmp_step_euler`, `dmp/_dmp.py` lines 214-325. If `t <= start_t` the function returns copies of the start
state and does not touch `current_y`, `current_yd`. -/
noncomputable def stepEuler (a : StepArgs d m) (lastT t : ℝ) (s : Vec d × Vec d) :
    Except PyErr (Vec d × Vec d) :=
  if a.goalT ≤ a.startT then .error .valueError
  else if t ≤ a.startT then .ok s
  else intLoop a.intDt t a.eulerBody lastT s

/-- `cd`, `cdd` of the Cython Euler step before the tracking error is added, `dmp_fast.pyx` lines 164-171. -/
noncomputable def cyCoupling (a : StepArgs d m) (s : Vec d × Vec d) : Vec d × Vec d :=
  match a.coupling with
  | some c => c s.1 s.2
  | none => match a.precomputed with
    | some p => p
    | none => (0, 0)

/-- Loop body of the Cython `dmp_step`, `dmp_fast.pyx` lines 164-194. -/
noncomputable def eulerBodyCy (a : StepArgs d m) (dt t : ℝ) (s : Vec d × Vec d) : Vec d × Vec d :=
  let executionTime := a.goalT - a.startT
  let cd := (a.cyCoupling s).1
  let cdd : Vec d := fun k => (a.cyCoupling s).2 k + a.pGain * a.trackingError k / dt
  let z := a.ft.phaseAt t
  let f := a.ft.force z
  let ydd : Vec d := fun k =>
    let smoothing := if a.smooth then a.betaY k * (a.goalY k - a.startY k) * z else 0
    (a.alphaY k * (a.betaY k * (a.goalY k - s.1 k) - executionTime * s.2 k - smoothing)
      + f k + cdd k) / executionTime ^ 2
  let yd' : Vec d := fun k => s.2 k + (dt * ydd k + cd k / executionTime)
  let y' : Vec d := fun k => s.1 k + dt * yd' k
  (y', yd')

/-- Cython `dmp_step` (Euler), `dmp_fast.pyx` lines 51-194. If `t <= start_t` the state is set to the start
state and integration continues. -/
noncomputable def stepEulerCy (a : StepArgs d m) (lastT t : ℝ) (s : Vec d × Vec d) :
    Except PyErr (Vec d × Vec d) :=
  if a.goalT ≤ a.startT then .error .valueError
  else
    let s := if t ≤ a.startT then (a.startY, a.startYd) else s
    intLoop a.intDt t a.eulerBodyCy lastT s

/-- Cython `_dmp_acc`, `dmp_fast.pyx` lines 334-364. -/
noncomputable def accCy (a : StepArgs d m) (Y V cdd : Vec d) (z executionTime : ℝ) (f tdd : Vec d) : Vec d :=
  let cdd := match a.coupling with
    | some c => (c Y V).2
    | none => cdd
  fun k =>
    let smoothing := if a.smooth then a.betaY k * (a.goalY k - a.startY k) * z else 0
    (a.alphaY k * (a.betaY k * (a.goalY k - Y k) - executionTime * V k - smoothing)
      + f k + cdd k + tdd k) / executionTime ^ 2

/-- Cython `dmp_step_rk4`, `dmp_fast.pyx` lines 201-331. -/
noncomputable def stepRk4Cy (a : StepArgs d m) (lastT t : ℝ) (s : Vec d × Vec d) :
    Except PyErr (Vec d × Vec d) :=
  let y := s.1
  let yd := s.2
  let cdd := a.initialCdd
  let executionTime := a.goalT - a.startT
  let dt := t - lastT
  let dt2 := (1 / 2) * dt
  let z0 := a.ft.phaseAt t
  let z1 := a.ft.phaseAt (t + dt2)
  let z2 := a.ft.phaseAt (t + dt)
  let tdd : Vec d := fun k => a.pGain / dt * a.trackingError k
  let K0 := a.accCy y yd cdd z0 executionTime (a.ft.force z0) tdd
  let C1 : Vec d := yd + dt2 • K0
  let K1 := a.accCy (y + dt2 • yd) C1 cdd z1 executionTime (a.ft.force z1) tdd
  let C2 : Vec d := yd + dt2 • K1
  let K2 := a.accCy (y + dt2 • C1) C2 cdd z1 executionTime (a.ft.force z1) tdd
  let C3 : Vec d := yd + dt • K2
  let K3 := a.accCy (y + dt • C2) C3 cdd z2 executionTime (a.ft.force z2) tdd
  let y' : Vec d := fun k => y k + dt * (yd k + 2 * C1 k + 2 * C2 k + C3 k) / 6
  let yd' : Vec d := fun k => yd k + dt * (K0 k + 2 * K1 k + 2 * K2 k + K3 k) / 6
  match a.coupling with
  | some c => .ok (y', fun k => yd' k + (c y' yd').1 k / executionTime)
  | none => .ok (y', yd')

end StepArgs

/-- The four step functions of `DMP_STEP_FUNCTIONS`, `dmp/_dmp.py` lines 328-340 (the Cython entries exist
only if the extension is built; the model assumes it is). -/
inductive StepFunction where
  | rk4 | euler | eulerCython | rk4Cython
  deriving DecidableEq, Repr

/-- Lookup in `DMP_STEP_FUNCTIONS`; an unknown name becomes a ValueError (`dmp/_dmp.py` 473-477, 536-540). -/
def StepFunction.lookup (name : String) : Except PyErr StepFunction :=
  if name = "rk4" then .ok .rk4
  else if name = "euler" then .ok .euler
  else if name = "euler-cython" then .ok .eulerCython
  else if name = "rk4-cython" then .ok .rk4Cython
  else .error .valueError

/-- Call of a step function. -/
noncomputable def StepFunction.run {d m : ℕ} : StepFunction → StepArgs d m → ℝ → ℝ → Vec d × Vec d →
    Except PyErr (Vec d × Vec d)
  | .rk4, a => a.stepRk4
  | .euler, a => a.stepEuler
  | .eulerCython, a => a.stepEulerCy
  | .rk4Cython, a => a.stepRk4Cy

/-- `dmp_open_loop`, `dmp/_dmp.py` lines 807-908 (and, with the same loop, `dmp_open_loop_quaternion`,
`dmp/_cartesian_dmp.py` lines 691-717, and the open loops of `spring_damper.py`, lines 283-314), for an arbitrary step
function `step last_t t state`. `np.arange`
raises ZeroDivisionError for `dt = 0`; `Y[0] = ...` raises IndexError for an empty time array. -/
noncomputable def openLoopWith {p v : ℕ} (goalT startT dt : ℝ) (start : Vec p × Vec v) (runT : Option ℝ)
    (step : ℝ → ℝ → Vec p × Vec v → Except PyErr (Vec p × Vec v)) : Except PyErr (List ℝ × List (Vec p)) := do
  let runT := runT.getD goalT
  if dt = 0 then throw .zeroDivisionError
  let n := arangeLen startT (runT + dt) dt
  if n = 0 then throw .indexError
  let T := (List.range n).map (arangeAt startT dt)
  let rows ← loopRows (fun i s => step (arangeAt startT dt i) (arangeAt startT dt (i + 1)) s)
    Prod.fst (n - 1) start 0
  return (T, start.1 :: rows)

/-- `dmp_open_loop` with one of the step functions of the regular DMP. `a` carries all arguments that are passed on to
the step function; `startYd`/`startYdd`/`goalYd`/`goalYdd` of `a` are the (defaulted) arguments. -/
noncomputable def dmpOpenLoop {d m : ℕ} (a : StepArgs d m) (dt : ℝ) (runT : Option ℝ)
    (sf : StepFunction) : Except PyErr (List ℝ × List (Vec d)) :=
  openLoopWith a.goalT a.startT dt (a.startY, a.startYd) runT (sf.run a)

end Verif
