import Verif.Model.HeapClasses
import Verif.Model.MinJerk

/-!
# `MinimumJerkTrajectory` in memory

Unlike the other classes (`Model/Heap`) it does not overwrite `current_y` but lets it refer to rows of the arrays `X`, `Xd`.
-/

namespace Verif

/-- Row `i` of an array with `d` columns in the buffer `b` (`X[i]`, a view). -/
def rowView (b d i : ℕ) : View d := ⟨b, fun j => i * d + j.val⟩

/-- Attributes of `MinimumJerkTrajectory`, `minimum_jerk_trajectory.py` lines 21-28 and `base.py` lines 60-75. `X`, `Xd` are the
buffers of the arrays of the same names, `nRows` is their number of rows (0 while they are `None`). Simplification: velocities and
accelerations of start and goal, `t` and `last_t` are left out; the class stores them but never uses them. -/
structure HMinJerk (d : ℕ) where
  startY : View d
  goalY : View d
  currentY : View d
  currentYd : View d
  X : ℕ
  Xd : ℕ
  nRows : ℕ
  executionTime : ℝ
  dt : ℝ
  stepIdx : ℕ
  initialized : Bool

/-- Memory and one object. -/
structure MinJerkWorld (d : ℕ) where
  heap : Heap
  obj : HMinJerk d

/-- A call of the object, or something the caller does with arrays. -/
inductive MinJerkOp (d : ℕ) where
  | configure (startY goalY : Option (View d))
  | reset
  | step (lastY lastYd : View d)
  /-- the caller creates an array -/
  | callerAlloc (n : ℕ) (x : Vec n)
  /-- the caller writes `x[:] = val` -/
  | callerWrite (n : ℕ) (x : View n) (val : Vec n)

namespace MinJerkWorld
variable {d : ℕ}

/-- Constructor, `minimum_jerk_trajectory.py` lines 21-28: new arrays of zeros (`base.py` lines 66-75). The buffers of `X` and
`Xd` do not matter as long as there are no rows; the one of `current_y` is taken. -/
noncomputable def create (executionTime dt : ℝ) (h : Heap) : MinJerkWorld d :=
  let a := h.alloc (0 : Vec d)
  let b := a.2.alloc (0 : Vec d)
  let c := b.2.alloc (0 : Vec d)
  let e := c.2.alloc (0 : Vec d)
  { heap := e.2
    obj := { startY := a.1, goalY := b.1, currentY := c.1, currentYd := e.1, X := c.1.buf, Xd := e.1.buf, nRows := 0
             executionTime := executionTime, dt := dt, stepIdx := 0, initialized := false } }

/-- `self.X, self.Xd, _ = generate_minimum_jerk(...); self.initialized = True`, `minimum_jerk_trajectory.py` lines 55-57:
new arrays. -/
noncomputable def generate (W : MinJerkWorld d) : Except PyErr Unit × MinJerkWorld d :=
  match generateMinimumJerk (W.heap.read W.obj.startY) (W.heap.read W.obj.goalY) W.obj.executionTime W.obj.dt with
  | .error e => (.error e, W)
  | .ok rows =>
    let a := W.heap.alloc (flatten fun i : Fin rows.length => (rows.get i).1)
    let b := a.2.alloc (flatten fun i : Fin rows.length => (rows.get i).2.1)
    (.ok (), { heap := b.2
               obj := { W.obj with X := a.1.buf, Xd := b.1.buf, nRows := rows.length, initialized := true } })

/-- The rest of `step`, `minimum_jerk_trajectory.py` lines 59-63: views of rows become the current state; copies are returned. -/
def advance (W : MinJerkWorld d) : Except PyErr (Option (View d × View d)) × MinJerkWorld d :=
  if W.obj.stepIdx < W.obj.nRows then
    let y := rowView W.obj.X d W.obj.stepIdx
    let yd := rowView W.obj.Xd d W.obj.stepIdx
    let a := W.heap.alloc (W.heap.read y)
    let b := a.2.alloc (W.heap.read yd)
    (.ok (some (a.1, b.1)),
      { heap := b.2, obj := { W.obj with currentY := y, currentYd := yd, stepIdx := W.obj.stepIdx + 1 } })
  else (.error .indexError, W)

/-- `step`, `minimum_jerk_trajectory.py` lines 35-63; the arguments are ignored. -/
noncomputable def step (W : MinJerkWorld d) : Except PyErr (Option (View d × View d)) × MinJerkWorld d :=
  if W.obj.initialized then W.advance
  else
    match W.generate with
    | (.error e, W') => (.error e, W')
    | (.ok _, W') => W'.advance

/-- Effect of one call. `configure`, `base.py` lines 107-117 and 119-121, keeps the references that were passed; `reset`,
`minimum_jerk_trajectory.py` lines 30-33. -/
noncomputable def run : MinJerkOp d → MinJerkWorld d → Except PyErr (Option (View d × View d)) × MinJerkWorld d
  | .configure s g, W =>
    (.ok none, { W with obj := { W.obj with startY := s.getD W.obj.startY, goalY := g.getD W.obj.goalY } })
  | .reset, W => (.ok none, { W with obj := { W.obj with stepIdx := 0, initialized := false } })
  | .step _ _, W => W.step
  | .callerAlloc _ x, W => (.ok none, { W with heap := (W.heap.alloc x).2 })
  | .callerWrite _ x val, W => (.ok none, { W with heap := W.heap.write x val })

/-- Memory and object after a history of calls. -/
noncomputable def runAll (W : MinJerkWorld d) (ops : List (MinJerkOp d)) : MinJerkWorld d :=
  ops.foldl (fun W op => (run op W).2) W

end MinJerkWorld
end Verif
