import Verif.Model.FinalVelocity
import Verif.Model.SpringDamper
import Verif.Model.StateFollowing
import Verif.Model.DualCartesian

/-!
# `step` with arrays of any length

The other models of `step` take arrays of the right length. Here `last_y` and `last_yd` are arrays of any length, as in
Python. (`DMP.stepList` of `Model/Dmp` is the same for `DMP`.)
-/

namespace Verif

/-- `assert len(x) == n`. -/
def assertLength (n : ℕ) (x : List ℝ) : Except PyErr (Vec n) := (checkLength n x).mapError (fun _ => .assertionError)

/-- numpy's rule for `a[:] = x` with an array `a` of length `n`, and for `a - x` if `n` is not 1: an array of length 1 is
repeated. -/
def broadcast (n : ℕ) (x : List ℝ) : Except PyErr (Vec n) :=
  if h : x.length = n then .ok (fun i => x[i.val]'(h ▸ i.isLt))
  else if h : x.length = 1 then .ok (fun _ => x[0])
  else .error .valueError

/-- `CartesianDMP.step`, `dmp/_cartesian_dmp.py` lines 302-333. -/
noncomputable def CartesianDMP.stepList {m : ℕ} (coupling : Option PoseCoupling) (sf : StepFunction) (qf : QuatStepFunction)
    (lastY lastYd : List ℝ) : Py (CartesianDMP m) (Vec (3 + 4) × Vec (3 + 3)) := do
  let lastY ← Py.lift (assertLength 7 lastY)
  let lastYd ← Py.lift (assertLength 6 lastYd)
  CartesianDMP.step coupling sf qf lastY lastYd

/-- `DualCartesianDMP.step`, `dmp/_dual_cartesian_dmp.py` lines 296-323. -/
noncomputable def DualCartesianDMP.stepList {m : ℕ} (ops : QuatOps) (coupling : Option DualCoupling) (sf : DualStepFunction)
    (lastY lastYd : List ℝ) : Py (DualCartesianDMP m) (Vec 14 × Vec 12) := do
  let lastY ← Py.lift (assertLength 14 lastY)
  let lastYd ← Py.lift (assertLength 12 lastYd)
  DualCartesianDMP.step ops coupling sf lastY lastYd

/-- `StateFollowingDMP.step`, `dmp/_state_following_dmp.py` lines 45-63. -/
noncomputable def StateFollowingDMP.stepList {d n : ℕ} (coupling : Option (Coupling d)) (lastY lastYd : List ℝ) :
    Py (StateFollowingDMP d n) (Vec d × Vec d) := do
  let lastY ← Py.lift (assertLength d lastY)
  let lastYd ← Py.lift (assertLength d lastYd)
  StateFollowingDMP.step coupling lastY lastYd

/-- `dmp_step_euler_with_constraints`, `dmp/_dmp_with_final_velocity.py` lines 417-459, of a one-dimensional DMP with a
`tracking_error` that does not have length 1: `current_yd += ...` (line 458) raises ValueError in the first sub-step. -/
noncomputable def StepArgs.fvStepMismatch {d m : ℕ} (a : StepArgs d m) (lastT t : ℝ) (s : Vec d × Vec d) :
    Except PyErr (Vec d × Vec d) :=
  if a.goalT ≤ a.startT then .error .valueError
  else if t ≤ a.startT then .ok s
  else do
    let _ ← solveConstraints a.startT a.goalT a.startY a.startYd a.startYdd a.goalY a.goalYd a.goalYdd
    if lastT < t then .error .valueError else .ok s

/-- The call of the step function in `DMPWithFinalVelocity.step`, `dmp/_dmp_with_final_velocity.py` lines 125-139. -/
noncomputable def FvDMP.stepCall {d m : ℕ} (coupling : Option (Coupling d)) (lastY : List ℝ) (s : FvDMP d m) :
    Except PyErr (Vec d × Vec d) :=
  if d = 1 ∧ lastY.length ≠ 1 then
    (DMP.stepArgs s coupling 0).fvStepMismatch (s.lastT.getD 0) s.t (s.currentY, s.currentYd)
  else do
    let y ← broadcast d lastY
    (DMP.stepArgs s coupling (s.currentY - y)).fvStep (s.lastT.getD 0) s.t (s.currentY, s.currentYd)

/-- `DMPWithFinalVelocity.step`, `dmp/_dmp_with_final_velocity.py` lines 116-140: there is no check of the lengths, and
`last_yd` is not used. -/
noncomputable def FvDMP.stepList {d m : ℕ} (coupling : Option (Coupling d)) (lastY _lastYd : List ℝ) :
    Py (FvDMP d m) (Vec d × Vec d) := do
  modify (fun s => { s with lastT := some s.t })
  modify (fun s => { s with t := s.t + s.dt })
  modify (fun s => if s.initialized then s else
    { s with currentY := s.startY, currentYd := s.startYd, initialized := true })
  let s ← get
  let r ← Py.lift (FvDMP.stepCall coupling lastY s)
  modify (fun s => { s with currentY := r.1, currentYd := r.2 })
  return r

/-- `SpringDamper.step`, `spring_damper.py` lines 71-87: there is no check of the lengths; the assignments of line 79 are
made one after the other. -/
noncomputable def SpringDamper.stepList {d : ℕ} (coupling : Option (Coupling d)) (lastY lastYd : List ℝ) :
    Py (SpringDamper d) (Vec d × Vec d) := do
  modify (fun s => { s with lastT := some s.t })
  modify (fun s => { s with t := s.t + s.dt })
  modify (fun s => if s.initialized then s
    else { s with currentY := s.startY, currentYd := s.startYd, initialized := true })
  let y ← Py.lift (broadcast d lastY)
  modify (fun s => { s with currentY := y })
  let yd ← Py.lift (broadcast d lastYd)
  modify (fun s => { s with currentYd := yd })
  let s ← get
  let r ← Py.lift (springDamperStep s.goalY s.k s.c coupling none s.intDt (s.lastT.getD 0) s.t (s.currentY, s.currentYd))
  modify (fun s => { s with currentY := r.1, currentYd := r.2 })
  return r

/-- `SpringDamperOrientation.step`, `spring_damper.py` lines 173-189: as `SpringDamper.step`. -/
noncomputable def SpringDamperOrientation.stepList (ops : QuatOps) (coupling : Option RotCoupling) (lastY lastYd : List ℝ) :
    Py SpringDamperOrientation (Vec 4 × Vec 3) := do
  modify (fun s => { s with lastT := some s.t })
  modify (fun s => { s with t := s.t + s.dt })
  modify (fun s => if s.initialized then s
    else { s with currentY := s.startY, currentYd := s.startYd, initialized := true })
  let y ← Py.lift (broadcast 4 lastY)
  modify (fun s => { s with currentY := y })
  let yd ← Py.lift (broadcast 3 lastYd)
  modify (fun s => { s with currentYd := yd })
  let s ← get
  let r ← Py.lift (springDamperQuatStep ops s.goalY s.k s.c coupling none s.intDt (s.lastT.getD 0) s.t (s.currentY, s.currentYd))
  modify (fun s => { s with currentY := r.1, currentYd := r.2 })
  return r

end Verif
