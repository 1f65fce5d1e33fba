import Verif.Model.Coupling
import Mathlib.Data.Fintype.Card

/-! Model of `CouplingTermDualCartesianTrajectory` of `movement_primitives/dmp/_coupling_terms.py`, a coupling term with
a state: it counts the time itself. The methods of `DualCartesianDMP` are modelled again for such a coupling object. -/

namespace Verif

/-- scipy's `interp1d(T, d, bounds_error=False, fill_value="extrapolate")(x)` for sorted `T` with at least two entries:
`searchsorted`, clipped to `1 … len(T) - 1`, selects the segment, which is extended outside of the data. (Simplified:
scipy sorts unsorted `T`.) -/
noncomputable def interp1d {n : ℕ} (T d : Fin (n + 2) → ℝ) (x : ℝ) : ℝ :=
  let hi : Fin (n + 2) := ⟨max 1 (min (n + 1) (Finset.univ.filter fun j => T j < x).card), by omega⟩
  let lo : Fin (n + 2) := ⟨hi - 1, by omega⟩
  let slope := (d hi - d lo) / (T hi - T lo)
  slope * (x - T lo) + d lo

/-- Attributes of a `CouplingTermDualCartesianTrajectory`, `_coupling_terms.py` lines 565-575. `desired_distance_per_dimension`
and `t` do not exist before `imitate`. -/
structure TrajectoryCoupling where
  offset : Vec 3 × Vec 4
  lf : Vec 2
  dt : ℝ
  couplePosition : Bool
  coupleOrientation : Bool
  k : ℝ
  c1 : ℝ
  c2 : ℝ
  /-- `desired_distance_per_dimension` (position and quaternion) and `t` -/
  learned : Option ((ℝ → Vec 3 × Vec 4) × ℝ)

namespace TrajectoryCoupling

/-- `imitate`, `_coupling_terms.py` lines 577-586. -/
noncomputable def imitate {n : ℕ} (T : Fin (n + 2) → ℝ) (Y : Fin (n + 2) → Vec 14) : Py TrajectoryCoupling Unit :=
  let distance := fun i => right2leftPq (Y i)
  let desired : ℝ → Vec 3 × Vec 4 := fun t =>
    (fun d => interp1d T (fun i => (distance i).1 d) t, fun d => interp1d T (fun i => (distance i).2 d) t)
  modify (fun c => { c with learned := some (desired, 0) })

/-- The value computed by `coupling` when the attributes are `desired` and `t`: `_coupling_terms.py` lines 588-591,
593-597. -/
noncomputable def valueAt (ops : QuatOps) (c : TrajectoryCoupling) (desired : ℝ → Vec 3 × Vec 4) (t : ℝ) : DualCoupling :=
  DualPoseCoupling.coupling ops
    { desired := transformFromPq ((desired t).1 + c.offset.1) ((desired t).2 + c.offset.2)
      lf := c.lf, k := c.k, c1 := c.c1, c2 := c.c2
      couplePosition := c.couplePosition, coupleOrientation := c.coupleOrientation }

/-- `coupling`, `_coupling_terms.py` lines 588-597. -/
noncomputable def coupling (ops : QuatOps) (y : Vec 14) (yd : Vec 12) : Py TrajectoryCoupling (Vec 12 × Vec 12) := do
  let c ← get
  match c.learned with
  | none => throw .attributeError
  | some (desired, t) =>
    modify (fun c => { c with learned := some (desired, t + c.dt) })
    return c.valueAt ops desired t y yd

end TrajectoryCoupling

namespace DualStepArgs
variable {m : ℕ}

/-- `dmp_step_dual_cartesian_python` with a coupling object that is a `CouplingTermDualCartesianTrajectory` with attributes
`desired` and `clock`, `dmp/_dual_cartesian_dmp.py` lines 15-158: every sub-step calls `coupling` (line 108), which
evaluates the trajectory at the object's clock and advances the clock. -/
noncomputable def stepPyTrajectory (a : DualStepArgs m) (ops : QuatOps) (c : TrajectoryCoupling)
    (desired : ℝ → Vec 3 × Vec 4) (clock lastT t : ℝ) (s : Vec 14 × Vec 12) :
    Except PyErr ((Vec 14 × Vec 12) × ℝ) :=
  let s := if t ≤ a.startT then (a.startY, a.startYd) else s
  (intLoop a.intDt t (fun dt t (x : ((Vec 14 × Vec 12) × (Vec 12 × Vec 12)) × ℝ) =>
    ({ a with coupling := some (c.valueAt ops desired x.2) }.bodyPy ops dt t x.1, x.2 + c.dt)) lastT
    ((s, (0, 0)), clock)).map fun x => (x.1.1, x.2)

/-- Cython `dmp_step_dual_cartesian` with a coupling object that is a `CouplingTermDualCartesianTrajectory`,
`dmp_fast.pyx` lines 512-675 (call of `coupling` in line 628). The coupling object uses pytransform3d (`ops`). -/
noncomputable def stepCyTrajectory (a : DualStepArgs m) (ops : QuatOps) (c : TrajectoryCoupling)
    (desired : ℝ → Vec 3 × Vec 4) (clock lastT t : ℝ) (s : Vec 14 × Vec 12) :
    Except PyErr ((Vec 14 × Vec 12) × ℝ) :=
  let s := if t ≤ a.startT then (a.startY, a.startYd) else s
  intLoop a.intDt t (fun dt t (x : (Vec 14 × Vec 12) × ℝ) =>
    ({ a with coupling := some (c.valueAt ops desired x.2) }.bodyCy dt t x.1, x.2 + c.dt)) lastT (s, clock)

end DualStepArgs

/-- Call of a dual-arm step function with a trajectory coupling with attributes `desired` and `clock`. -/
noncomputable def DualStepFunction.runLearned {m : ℕ} (sf : DualStepFunction) (ops : QuatOps) (a : DualStepArgs m)
    (c : TrajectoryCoupling) (desired : ℝ → Vec 3 × Vec 4) (clock lastT t : ℝ) (s : Vec 14 × Vec 12) :
    Except PyErr ((Vec 14 × Vec 12) × ℝ) :=
  match sf with
  | .python ops => a.stepPyTrajectory ops c desired clock lastT t s
  | .cython => a.stepCyTrajectory ops c desired clock lastT t s

/-- Call of a dual-arm step function with a trajectory coupling. An object that has not learned a trajectory raises an
`AttributeError` in the first sub-step. -/
noncomputable def DualStepFunction.runTrajectory {m : ℕ} (sf : DualStepFunction) (ops : QuatOps) (a : DualStepArgs m)
    (c : TrajectoryCoupling) (lastT t : ℝ) (s : Vec 14 × Vec 12) :
    Except PyErr ((Vec 14 × Vec 12) × TrajectoryCoupling) :=
  match c.learned with
  | none =>
    if lastT < t then .error .attributeError
    else .ok (if t ≤ a.startT then (a.startY, a.startYd) else s, c)
  | some (desired, clock) =>
    (sf.runLearned ops a c desired clock lastT t s).map fun r => (r.1, { c with learned := some (desired, r.2) })

namespace DualCartesianDMP
variable {m : ℕ}

/-- `DualCartesianDMP.step(last_y, last_yd, coupling_term)`, `dmp/_dual_cartesian_dmp.py` lines 269-323, with a
trajectory coupling: the state is the DMP and the coupling object. -/
noncomputable def stepTrajectory (ops : QuatOps) (sf : DualStepFunction) (lastY : Vec 14) (lastYd : Vec 12) :
    Py (DualCartesianDMP m × TrajectoryCoupling) (Vec 14 × Vec 12) := do
  modify (fun (s, c) => ({ s with lastT := some s.t }, c))
  modify (fun (s, c) => ({ s with t := s.t + s.dt }, c))
  modify (fun (s, c) =>
    (if s.initialized then s
     else { s with currentY := s.startY, currentYd := s.startYd, initialized := true }, c))
  let e := trackingError ops (← get).1.currentY lastY
  modify (fun (s, c) => ({ s with currentY := lastY, currentYd := lastYd }, c))
  let (s, c) ← get
  let r ← Py.lift (sf.runTrajectory ops (s.stepArgs none e) c (s.lastT.getD 0) s.t (s.currentY, s.currentYd))
  modify (fun (s, _) => ({ s with currentY := r.1.1, currentYd := r.1.2 }, r.2))
  let (s, _) ← get
  return (s.currentY, s.currentYd)

end DualCartesianDMP
end Verif
