import Verif.Model.FloatClock
import Verif.Model.SpringDamper
import Verif.Model.Dmp

/-!
# Spring-damper systems and DMPs in floating-point arithmetic

As in `Verif/Model/FloatClock.lean`, `rnd` is applied after each arithmetic operation, in the order in which NumPy evaluates the
expressions (`dt * current_ydd + cd` is first computed and then added to `current_yd`). With `rnd = id` the definitions are those of
`Verif/Model/SpringDamper.lean` (`C106_exact`) and `Verif/Model/DmpStep.lean` (`C106_dmp_exact`). Overflow is not modelled. The Cython
functions are assumed to be compiled without fused multiply-add instructions.
-/

namespace Verif

/-- `_default_critically_damped_c`, `spring_damper.py` lines 245-248 (`np.sqrt` is correctly rounded). -/
noncomputable def defaultDampingFl (rnd : ℝ → ℝ) (c : Option ℝ) (k : ℝ) : ℝ :=
  match c with
  | some c => c
  | none => rnd (2 * rnd (√k))

section
variable {d : ℕ}

/-- `cd`, `cdd` of `spring_damper_step`, `spring_damper.py` lines 232-238; the coupling term is an arbitrary function. -/
def sdCouplingFl (rnd : ℝ → ℝ) (coupling : Option (Coupling d)) (precomputed : Option (Vec d × Vec d)) (s : Vec d × Vec d) :
    Vec d × Vec d :=
  let c : Vec d × Vec d := match coupling with
    | some c => c s.1 s.2
    | none => (0, 0)
  match precomputed with
  | some q => (fun i => rnd (c.1 i + q.1 i), fun i => rnd (c.2 i + q.2 i))
  | none => c

/-- Loop body of `spring_damper_step`, `spring_damper.py` lines 232-242. -/
noncomputable def springDamperBodyFl (rnd : ℝ → ℝ) (goalY : Vec d) (k c : ℝ) (coupling : Option (Coupling d))
    (precomputed : Option (Vec d × Vec d)) (dt _t : ℝ) (s : Vec d × Vec d) : Vec d × Vec d :=
  let q := sdCouplingFl rnd coupling precomputed s
  let ydd : Vec d := fun i => rnd (rnd (rnd (k * rnd (goalY i - s.1 i)) - rnd (c * s.2 i)) + q.2 i)
  let yd' : Vec d := fun i => rnd (s.2 i + rnd (rnd (dt * ydd i) + q.1 i))
  let y' : Vec d := fun i => rnd (s.1 i + rnd (dt * yd' i))
  (y', yd')

/-- `spring_damper_step`, `spring_damper.py` lines 218-242. -/
noncomputable def springDamperStepFl (rnd : ℝ → ℝ) (goalY : Vec d) (k : ℝ) (c : Option ℝ) (coupling : Option (Coupling d))
    (precomputed : Option (Vec d × Vec d)) (intDt lastT t : ℝ) (s : Vec d × Vec d) : Except PyErr (Vec d × Vec d) :=
  intLoopFl rnd intDt t (springDamperBodyFl rnd goalY k (defaultDampingFl rnd c k) coupling precomputed) lastT s

/-- `SpringDamper.step`, `spring_damper.py` lines 49-87. -/
noncomputable def SpringDamper.stepFl (rnd : ℝ → ℝ) (coupling : Option (Coupling d)) (lastY lastYd : Vec d) :
    Py (SpringDamper d) (Vec d × Vec d) := do
  modify (fun s => { s with lastT := some s.t })
  modify (fun s => { s with t := rnd (s.t + s.dt) })
  modify (fun s => if s.initialized then s
    else { s with currentY := s.startY, currentYd := s.startYd, initialized := true })
  modify (fun s => { s with currentY := lastY, currentYd := lastYd })
  let s ← get
  let r ← Py.lift (springDamperStepFl rnd s.goalY s.k s.c coupling none s.intDt (s.lastT.getD 0) s.t
    (s.currentY, s.currentYd))
  modify (fun s => { s with currentY := r.1, currentYd := r.2 })
  return r

/-- `SpringDamper.open_loop`, `spring_damper.py` lines 89-113, with `spring_damper_open_loop`, lines 283-297; the times are those of
`arangeTimesFl`. `np.arange` raises ZeroDivisionError for `dt = 0`; `Y[0] = y` raises IndexError for an empty time array. -/
noncomputable def SpringDamper.openLoopFl (rnd : ℝ → ℝ) (runT : ℝ) (coupling : Option (Coupling d)) :
    Py (SpringDamper d) (List ℝ × List (Vec d)) := do
  let s ← get
  if s.dt = 0 then throw .zeroDivisionError
  let T := arangeTimesFl rnd s.dt runT
  if T = [] then throw .indexError
  let rows ← Py.lift (loopRows (fun i x => springDamperStepFl rnd s.goalY s.k s.c coupling none s.intDt (T.getD i 0)
    (T.getD (i + 1) 0) x) Prod.fst (T.length - 1) (s.startY, (0 : Vec d)) 0)
  return (T, s.startY :: rows)

/-- Operations of floating-point arithmetic, and the values that the forcing term has in it: `rnd` rounds, `sq x` is the computed
`x ** 2` (a call of `pow`), `phase t` and `force t` are the computed `forcing_term.phase(t)` and
`forcing_term.forcing_term(phase(t))`, `dmp/_dmp.py` lines 312-313. The forcing term itself (exponential functions, sums and matrix
products of NumPy) is not modelled in floating-point arithmetic: its values are arbitrary. -/
structure FloatOps (d : ℕ) where
  rnd : ℝ → ℝ
  sq : ℝ → ℝ
  phase : ℝ → ℝ
  force : ℝ → Vec d

namespace FloatOps
variable {m : ℕ}

/-- `smoothing` of `_dmp_acc`, `dmp/_dmp.py` lines 198-201 and `dmp_fast.pyx` lines 179-182. -/
def smoothing (o : FloatOps d) (a : StepArgs d m) (t : ℝ) (i : Fin d) : ℝ :=
  if a.smooth then o.rnd (o.rnd (a.betaY i * o.rnd (a.goalY i - a.startY i)) * o.phase t) else 0

/-- `alpha_y * (beta_y * (goal_y - Y) - execution_time * V - smoothing) + f`, `dmp/_dmp.py` lines 202-208 and `dmp_fast.pyx` lines
184-190. -/
def springForce (o : FloatOps d) (a : StepArgs d m) (t : ℝ) (s : Vec d × Vec d) (i : Fin d) : ℝ :=
  o.rnd (o.rnd (a.alphaY i * o.rnd (o.rnd (o.rnd (a.betaY i * o.rnd (a.goalY i - s.1 i)) -
    o.rnd (o.rnd (a.goalT - a.startT) * s.2 i)) - o.smoothing a t i)) + o.force t i)

/-- Loop body of `dmp_step_euler` with `_dmp_acc`, `dmp/_dmp.py` lines 196-211 and 305-325; `t` is the already advanced
`current_t`. -/
noncomputable def eulerBody (o : FloatOps d) (a : StepArgs d m) (dt t : ℝ) (s : Vec d × Vec d) : Vec d × Vec d :=
  let executionTime := o.rnd (a.goalT - a.startT)
  let cdd : Vec d := match a.coupling with
    | some c => (c s.1 s.2).2
    | none => match a.precomputed with
      | some p => fun i => o.rnd (0 + p.2 i)
      | none => 0
  let tdd : Vec d := fun i => o.rnd (o.rnd (a.pGain * a.trackingError i) / dt)
  let ydd : Vec d := fun i => o.rnd (o.rnd (o.rnd (o.springForce a t s i + cdd i) + tdd i) / o.sq executionTime)
  let yd' : Vec d := fun i => o.rnd (s.2 i + o.rnd (dt * ydd i))
  let y' : Vec d := fun i => o.rnd (s.1 i + o.rnd (dt * yd' i))
  match a.coupling with
  | some c => (y', fun i => o.rnd (yd' i + o.rnd ((c y' yd').1 i / executionTime)))
  | none => (y', yd')

/-- `dmp_step_euler`, `dmp/_dmp.py` lines 214-325. -/
noncomputable def stepEuler (o : FloatOps d) (a : StepArgs d m) (lastT t : ℝ) (s : Vec d × Vec d) : Except PyErr (Vec d × Vec d) :=
  if a.goalT ≤ a.startT then .error .valueError
  else if t ≤ a.startT then .ok s
  else intLoopFl o.rnd a.intDt t (o.eulerBody a) lastT s

/-- Loop body of the Cython `dmp_step`, `dmp_fast.pyx` lines 164-194. -/
noncomputable def eulerBodyCy (o : FloatOps d) (a : StepArgs d m) (dt t : ℝ) (s : Vec d × Vec d) : Vec d × Vec d :=
  let executionTime := o.rnd (a.goalT - a.startT)
  let cd := (a.cyCoupling s).1
  let cdd : Vec d := fun i => o.rnd ((a.cyCoupling s).2 i + o.rnd (o.rnd (a.pGain * a.trackingError i) / dt))
  let ydd : Vec d := fun i => o.rnd (o.rnd (o.springForce a t s i + cdd i) / o.sq executionTime)
  let yd' : Vec d := fun i => o.rnd (s.2 i + o.rnd (o.rnd (dt * ydd i) + o.rnd (cd i / executionTime)))
  let y' : Vec d := fun i => o.rnd (s.1 i + o.rnd (dt * yd' i))
  (y', yd')

/-- Cython `dmp_step` (Euler), `dmp_fast.pyx` lines 51-194. -/
noncomputable def stepEulerCy (o : FloatOps d) (a : StepArgs d m) (lastT t : ℝ) (s : Vec d × Vec d) :
    Except PyErr (Vec d × Vec d) :=
  if a.goalT ≤ a.startT then .error .valueError
  else
    let s := if t ≤ a.startT then (a.startY, a.startYd) else s
    intLoopFl o.rnd a.intDt t (o.eulerBodyCy a) lastT s

/-- `_dmp_acc`, `dmp/_dmp.py` lines 135-211 and `dmp_fast.pyx` lines 334-364, with the phase and the forcing term at time `t`. -/
noncomputable def acc (o : FloatOps d) (a : StepArgs d m) (cdd tdd : Vec d) (t : ℝ) (s : Vec d × Vec d) : Vec d :=
  let cdd : Vec d := match a.coupling with
    | some c => (c s.1 s.2).2
    | none => cdd
  fun i => o.rnd (o.rnd (o.rnd (o.springForce a t s i + cdd i) + tdd i) / o.sq (o.rnd (a.goalT - a.startT)))

/-- `x + dt * v`. -/
def axpy (o : FloatOps d) (dt : ℝ) (x v : Vec d) : Vec d := fun i => o.rnd (x i + o.rnd (dt * v i))

/-- Stages of the Runge-Kutta method: `K0`, `C1`, `K1`, `C2`, `K2`, `C3`, `K3`. -/
structure Stages (d : ℕ) where
  K0 : Vec d
  C1 : Vec d
  K1 : Vec d
  C2 : Vec d
  K2 : Vec d
  C3 : Vec d
  K3 : Vec d

/-- The `cdd` passed to `_dmp_acc`, `dmp/_dmp.py` lines 85-91 and `dmp_fast.pyx` lines 286-289. With a coupling term it is replaced
there. -/
def initialCdd (o : FloatOps d) (a : StepArgs d m) : Vec d :=
  match a.precomputed with
  | some p => fun i => o.rnd (0 + p.2 i)
  | none => 0

/-- The stages of `dmp_step_rk4`, `dmp/_dmp.py` lines 85-125 and `dmp_fast.pyx` lines 286-321; `tdd` is the term for the tracking
error, which the two functions compute differently. -/
noncomputable def stages (o : FloatOps d) (a : StepArgs d m) (tdd : Vec d) (dt t : ℝ) (s : Vec d × Vec d) : Stages d :=
  let cdd := o.initialCdd a
  let dt2 := o.rnd (1 / 2 * dt)
  let t1 := o.rnd (t + dt2)
  let t2 := o.rnd (t + dt)
  let K0 := o.acc a cdd tdd t s
  let C1 := o.axpy dt2 s.2 K0
  let K1 := o.acc a cdd tdd t1 (o.axpy dt2 s.1 s.2, C1)
  let C2 := o.axpy dt2 s.2 K1
  let K2 := o.acc a cdd tdd t1 (o.axpy dt2 s.1 C1, C2)
  let C3 := o.axpy dt s.2 K2
  let K3 := o.acc a cdd tdd t2 (o.axpy dt s.1 C2, C3)
  { K0 := K0, C1 := C1, K1 := K1, C2 := C2, K2 := K2, C3 := C3, K3 := K3 }

/-- `a + 2 * b + 2 * c + d`. -/
def weightedSum (o : FloatOps d) (w x y z : Vec d) : Vec d := fun i =>
  o.rnd (o.rnd (o.rnd (w i + o.rnd (2 * x i)) + o.rnd (2 * y i)) + z i)

/-- `current_yd += cd / execution_time`, `dmp/_dmp.py` lines 130-132 and `dmp_fast.pyx` lines 329-331. -/
noncomputable def addCd (o : FloatOps d) (a : StepArgs d m) (s : Vec d × Vec d) : Vec d × Vec d :=
  match a.coupling with
  | some c => (s.1, fun i => o.rnd (s.2 i + o.rnd ((c s.1 s.2).1 i / o.rnd (a.goalT - a.startT))))
  | none => s

/-- `dmp_step_rk4`, `dmp/_dmp.py` lines 9-132. For `t = last_t` numpy computes `0/0 = nan` in `tdd`, as in `StepArgs.stepRk4`. -/
noncomputable def stepRk4 (o : FloatOps d) (a : StepArgs d m) (lastT t : ℝ) (s : Vec d × Vec d) : Except PyErr (Vec d × Vec d) :=
  let dt := o.rnd (t - lastT)
  let q := o.stages a (fun i => o.rnd (o.rnd (a.pGain * a.trackingError i) / dt)) dt t s
  let y' : Vec d := fun i => o.rnd (s.1 i + o.rnd (dt * o.rnd (s.2 i + o.rnd (o.rnd (dt / 6) * o.rnd (o.rnd (q.K0 i + q.K1 i) + q.K2 i)))))
  let yd' : Vec d := fun i => o.rnd (s.2 i + o.rnd (o.rnd (dt / 6) * o.weightedSum q.K0 q.K1 q.K2 q.K3 i))
  .ok (o.addCd a (y', yd'))

/-- Cython `dmp_step_rk4`, `dmp_fast.pyx` lines 201-331. -/
noncomputable def stepRk4Cy (o : FloatOps d) (a : StepArgs d m) (lastT t : ℝ) (s : Vec d × Vec d) :
    Except PyErr (Vec d × Vec d) :=
  let dt := o.rnd (t - lastT)
  let q := o.stages a (fun i => o.rnd (o.rnd (a.pGain / dt) * a.trackingError i)) dt t s
  let y' : Vec d := fun i => o.rnd (s.1 i + o.rnd (o.rnd (dt * o.weightedSum s.2 q.C1 q.C2 q.C3 i) / 6))
  let yd' : Vec d := fun i => o.rnd (s.2 i + o.rnd (o.rnd (dt * o.weightedSum q.K0 q.K1 q.K2 q.K3 i) / 6))
  .ok (o.addCd a (y', yd'))

end FloatOps

/-- Call of a step function of `DMP_STEP_FUNCTIONS`, `dmp/_dmp.py` lines 328-340. -/
noncomputable def StepFunction.runFl {m : ℕ} : StepFunction → FloatOps d → StepArgs d m → ℝ → ℝ → Vec d × Vec d →
    Except PyErr (Vec d × Vec d)
  | .rk4, o, a => o.stepRk4 a
  | .euler, o, a => o.stepEuler a
  | .eulerCython, o, a => o.stepEulerCy a
  | .rk4Cython, o, a => o.stepRk4Cy a

/-- `DMP.step`, `dmp/_dmp.py` lines 479-505, see `DMP.step`. -/
noncomputable def DMP.stepFl {m : ℕ} (o : FloatOps d) (coupling : Option (Coupling d)) (sf : StepFunction) (lastY _lastYd : Vec d) :
    Py (DMP d m) (Vec d × Vec d) := do
  modify (fun s => { s with lastT := some s.t })
  modify (fun s => { s with t := o.rnd (s.t + s.dt) })
  modify (fun s => if s.initialized then s else
    { s with currentY := s.startY, currentYd := s.startYd, initialized := true })
  let s ← get
  let lastT := s.lastT.getD 0
  let trackingError : Vec d := fun i => o.rnd (s.currentY i - lastY i)
  let r ← Py.lift (sf.runFl o (s.stepArgs coupling trackingError) lastT s.t (s.currentY, s.currentYd))
  modify (fun s => { s with currentY := r.1, currentYd := r.2 })
  return r

end
end Verif
