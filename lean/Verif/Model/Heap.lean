import Verif.Model.Base

/-!
# Arrays in memory

In the other modules an array is a value. NumPy arrays are references to memory: `self.start_y = start_y` stores the
caller's array, `weights_.ravel()` and `Y[0]` are views of another array, `np.copy` allocates, and `x[:] = y` writes into
an existing array. This module models memory and the methods of the movement primitives on it.
-/

namespace Verif

/-- Memory: the elements of each allocated buffer, and the address of the next buffer to be allocated. -/
structure Heap where
  mem : ℕ → ℕ → ℝ
  next : ℕ

/-- A NumPy array with `n` elements: a buffer and the place of each element in it (offset and strides). Two arrays with
the same buffer may share elements. -/
structure View (n : ℕ) where
  buf : ℕ
  idx : Fin n → ℕ

namespace Heap
variable {n : ℕ}

/-- The elements of an array. -/
def read (h : Heap) (x : View n) : Vec n := fun i => h.mem x.buf (x.idx i)

open Classical in
/-- `x[:] = v`: overwrites the elements of an existing array. -/
noncomputable def write (h : Heap) (x : View n) (v : Vec n) : Heap :=
  let buffer : ℕ → ℝ := fun j => if hj : ∃ i, x.idx i = j then v hj.choose else h.mem x.buf j
  { h with mem := Function.update h.mem x.buf buffer }

/-- A new array with the given elements (`np.copy`, `np.zeros`, `np.concatenate`, ...). -/
def alloc (h : Heap) (v : Vec n) : View n × Heap :=
  (⟨h.next, Fin.val⟩,
    { mem := Function.update h.mem h.next (fun j => if hj : j < n then v ⟨j, hj⟩ else 0), next := h.next + 1 })

end Heap

/-- What `get_weights` returns. -/
inductive WeightsPolicy where
  /-- the class has no such method -/
  | missing
  /-- a view of the internal array -/
  | view
  /-- a new array -/
  | copy
  deriving DecidableEq

/-- A class of movement primitives: the value semantics of its methods (with objects of type `S`, modelled in the
other modules) and the facts about references that the value semantics leaves out. `p` and `v` are the numbers of
position and velocity components, `w` is the number of weights. -/
structure HClass (S : Type) (p v w : ℕ) where
  /-- inherited attributes -/
  movement : S → Movement p v
  /-- the weights in the order of `get_weights` -/
  weights : S → Vec w
  /-- replaces inherited attributes and weights -/
  assemble : Movement p v → Vec w → S → S
  /-- the attribute `initialized` (`true` for classes without lazy initialisation) -/
  initialized : S → Bool
  /-- arguments of `step` besides `last_y`, `last_yd` -/
  StepArg : Type
  step : StepArg → Vec p → Vec v → Py S (Vec p × Vec v)
  /-- arguments of `open_loop` -/
  OpenArg : Type
  openLoop : OpenArg → Py S (List ℝ × List (Vec p))
  configure : ConfigArgs → Py S Unit
  reset : Py S Unit
  setExecutionTime : ℝ → Py S Unit
  setWeights : List ℝ → Py S Unit
  /-- arguments of `imitate` besides `T`, `Y` -/
  ImitateArg : ℕ → Type
  imitate : (n : ℕ) → ImitateArg n → (Fin (n + 2) → ℝ) → (Fin (n + 2) → Vec p) → Py S Unit
  /-- `step` ends with `return np.copy(self.current_y), np.copy(self.current_yd)` -/
  stepCopies : Bool
  /-- `reset` assigns new arrays to `current_y`, `current_yd` -/
  resetCopies : Bool
  /-- `imitate` assigns new arrays to the start and goal velocities and accelerations -/
  imitateDerivatives : Bool
  getWeights : WeightsPolicy

/-- An object in memory. Attributes that are arrays which a caller can see or which are modified in place are
references. The other attributes (numbers, and arrays like `alpha_y` that are private copies and never written) are in
`scalars`, whose array entries are not used. Simplification: the weights of `CartesianDMP` are two arrays in the code and
one array here; no reference to them is ever handed out. -/
structure HObj (S : Type) (p v w : ℕ) where
  scalars : S
  startY : View p
  startYd : View v
  startYdd : View v
  goalY : View p
  goalYd : View v
  goalYdd : View v
  currentY : View p
  currentYd : View v
  weights : View w

/-- Memory and one object. -/
structure World (S : Type) (p v w : ℕ) where
  heap : Heap
  obj : HObj S p v w

/-- What a call returns: references to arrays, or (for the freshly created arrays of `open_loop`) their contents. -/
inductive HRet (p v w : ℕ) where
  | none
  | state (y : View p) (yd : View v)
  | trajectory (T : List ℝ) (Y : List (Vec p))
  | weights (x : View w)

/-- Arguments of `configure`: references to arrays of the right length (others are rejected, see `Movement.configure`). -/
structure ViewConfig (p v : ℕ) where
  t : Option ℝ := Option.none
  startY : Option (View p) := Option.none
  startYd : Option (View v) := Option.none
  startYdd : Option (View v) := Option.none
  goalY : Option (View p) := Option.none
  goalYd : Option (View v) := Option.none
  goalYdd : Option (View v) := Option.none

namespace HClass
variable {S : Type} {p v w : ℕ} (C : HClass S p v w)

/-- The attributes that are not references; array entries are set to 0 since they are not used. -/
def strip (s : S) : S :=
  C.assemble { Movement.init p v with t := (C.movement s).t, lastT := (C.movement s).lastT } 0 s

/-- The object as a value: all references are followed. -/
def read (W : World S p v w) : S :=
  C.assemble
    { t := (C.movement W.obj.scalars).t
      lastT := (C.movement W.obj.scalars).lastT
      startY := W.heap.read W.obj.startY
      startYd := W.heap.read W.obj.startYd
      startYdd := W.heap.read W.obj.startYdd
      goalY := W.heap.read W.obj.goalY
      goalYd := W.heap.read W.obj.goalYd
      goalYdd := W.heap.read W.obj.goalYdd
      currentY := W.heap.read W.obj.currentY
      currentYd := W.heap.read W.obj.currentYd }
    (W.heap.read W.obj.weights) W.obj.scalars

/-- Constructor: every array is new (`base.py` lines 63-75 and the constructors of the forcing terms); `s` is the result
of the constructor as a value. -/
def create (s : S) (h : Heap) : World S p v w :=
  let mv := C.movement s
  let a := h.alloc mv.startY
  let b := a.2.alloc mv.startYd
  let c := b.2.alloc mv.startYdd
  let d := c.2.alloc mv.goalY
  let e := d.2.alloc mv.goalYd
  let f := e.2.alloc mv.goalYdd
  let g := f.2.alloc mv.currentY
  let i := g.2.alloc mv.currentYd
  let j := i.2.alloc (C.weights s)
  { heap := j.2
    obj := { scalars := C.strip s, startY := a.1, startYd := b.1, startYdd := c.1, goalY := d.1, goalYd := e.1,
             goalYdd := f.1, currentY := g.1, currentYd := i.1, weights := j.1 } }

/-- `self.current_y = np.copy(self.start_y); self.current_yd = np.copy(self.start_yd)` (`dmp/_dmp.py` lines 482-485,
`dmp/_base.py` lines 25-26, `dmp/_dual_cartesian_dmp.py` lines 302-305, `spring_damper.py` lines 75-77). -/
def copyStart (W : World S p v w) : World S p v w :=
  let a := W.heap.alloc (W.heap.read W.obj.startY)
  let b := a.2.alloc (W.heap.read W.obj.startYd)
  { heap := b.2, obj := { W.obj with currentY := a.1, currentYd := b.1 } }

/-- The effect of a call of the step function: it writes into the arrays `self.current_y` and `self.current_yd`
(`current_y[:] = ...`, `current_y += ...`); numbers such as `self.t` are assigned. Simplification: the arrays are written
once with the final value. Intermediate values can only be seen if start or goal share memory with them. -/
noncomputable def storeCurrent (s : S) (W : World S p v w) : World S p v w :=
  { heap := (W.heap.write W.obj.currentY (C.movement s).currentY).write W.obj.currentYd (C.movement s).currentYd
    obj := { W.obj with scalars := C.strip s } }

/-- A method that integrates: lazy initialisation, integration in place. -/
noncomputable def integrate (s s' : S) (W : World S p v w) : World S p v w :=
  C.storeCurrent s' (if C.initialized s = false ∧ C.initialized s' = true then copyStart W else W)

/-- `return np.copy(self.current_y), np.copy(self.current_yd)`. -/
def returnCopies (y : Vec p) (yd : Vec v) (W : World S p v w) : HRet p v w × World S p v w :=
  let a := W.heap.alloc y
  let b := a.2.alloc yd
  (.state a.1 b.1, { W with heap := b.2 })

/-- What `step` returns: copies, or for `StateFollowingDMP` (`dmp/_state_following_dmp.py` line 63) the arrays
`self.current_y`, `self.current_yd` themselves. -/
def stepReturn (r : Vec p × Vec v) (W : World S p v w) : HRet p v w × World S p v w :=
  if C.stepCopies then returnCopies r.1 r.2 W else (.state W.obj.currentY W.obj.currentYd, W)

/-- `step` (`dmp/_dmp.py` 446-505, `dmp/_dmp_with_final_velocity.py` 94-140, `dmp/_cartesian_dmp.py` 271-333,
`dmp/_dual_cartesian_dmp.py` 270-323, `dmp/_state_following_dmp.py` 45-63, `spring_damper.py` 47-86, 150-189). The
arguments are read first; they are only read. -/
noncomputable def hStep (a : C.StepArg) (lastY : View p) (lastYd : View v) (W : World S p v w) :
    Except PyErr (HRet p v w) × World S p v w :=
  let s := C.read W
  let r := (C.step a (W.heap.read lastY) (W.heap.read lastYd)).exec s
  let W' := C.integrate s r.2 W
  match r.1 with
  | .error e => (.error e, W')
  | .ok q => let x := C.stepReturn q W'; (.ok x.1, x.2)

/-- `open_loop`: what it integrates on `self` (only `DualCartesianDMP`, `dmp/_dual_cartesian_dmp.py` lines 348-367, calls
`self.step`) happens in place; the returned arrays are new. -/
noncomputable def hOpenLoop (a : C.OpenArg) (W : World S p v w) : Except PyErr (HRet p v w) × World S p v w :=
  let s := C.read W
  let r := (C.openLoop a).exec s
  (r.1.map (fun x => .trajectory x.1 x.2), C.integrate s r.2 W)

/-- `configure`, `base.py` lines 78-128: the object keeps the references that were passed. -/
def hConfigure (a : ViewConfig p v) (W : World S p v w) : Except PyErr (HRet p v w) × World S p v w :=
  let s := W.obj.scalars
  let mv := C.movement s
  (.ok .none,
    { W with
      obj := { W.obj with
        scalars := C.strip (C.assemble { mv with t := a.t.getD mv.t } (C.weights s) s)
        startY := a.startY.getD W.obj.startY
        startYd := a.startYd.getD W.obj.startYd
        startYdd := a.startYdd.getD W.obj.startYdd
        goalY := a.goalY.getD W.obj.goalY
        goalYd := a.goalYd.getD W.obj.goalYd
        goalYdd := a.goalYdd.getD W.obj.goalYdd } })

/-- `reset`, `dmp/_base.py` lines 21-26 (new arrays) and `spring_damper.py` lines 44-47, 146-149 (time only). -/
def hReset (W : World S p v w) : Except PyErr (HRet p v w) × World S p v w :=
  let r := C.reset.exec (C.read W)
  let W' := if C.resetCopies then copyStart W else W
  (r.1.map (fun _ => .none), { W' with obj := { W'.obj with scalars := C.strip r.2 } })

/-- `set_execution_time_`: the array of weights is kept (`dmp/_dmp.py` lines 438-442). -/
def hSetExecutionTime (τ : ℝ) (W : World S p v w) : Except PyErr (HRet p v w) × World S p v w :=
  let r := (C.setExecutionTime τ).exec (C.read W)
  (r.1.map (fun _ => .none), { W with obj := { W.obj with scalars := C.strip r.2 } })

/-- `get_weights`: `self.forcing_term.weights_.ravel()` is a view (`dmp/_base.py` lines 36-44); `np.concatenate` makes a
new array (`dmp/_cartesian_dmp.py` lines 439-448). -/
def hGetWeights (W : World S p v w) : Except PyErr (HRet p v w) × World S p v w :=
  match C.getWeights with
  | .missing => (.error .attributeError, W)
  | .view => (.ok (.weights W.obj.weights), W)
  | .copy => let a := W.heap.alloc (W.heap.read W.obj.weights); (.ok (.weights a.1), { W with heap := a.2 })

/-- `set_weights`: `self.forcing_term.weights_[:, :] = ...` writes into the existing array (`dmp/_base.py` lines 46-54,
`dmp/_cartesian_dmp.py` lines 450-462). -/
noncomputable def hSetWeights (x : View w) (W : World S p v w) : Except PyErr (HRet p v w) × World S p v w :=
  let r := (C.setWeights (List.ofFn (W.heap.read x))).exec (C.read W)
  (r.1.map (fun _ => .none),
    { heap := W.heap.write W.obj.weights (C.weights r.2), obj := { W.obj with scalars := C.strip r.2 } })

/-- New arrays for the start and goal velocities and accelerations (rows of the new arrays `Yd`, `Ydd`,
`dmp/_dmp_with_final_velocity.py` lines 202-213 and 313-339). -/
def allocDerivatives (mv : Movement p v) (W : World S p v w) : World S p v w :=
  let a := W.heap.alloc mv.startYd
  let b := a.2.alloc mv.startYdd
  let c := b.2.alloc mv.goalYd
  let d := c.2.alloc mv.goalYdd
  { heap := d.2, obj := { W.obj with startYd := a.1, startYdd := b.1, goalYd := c.1, goalYdd := d.1 } }

/-- `imitate`: the weights are written in place, then `self.configure(start_y=Y[0], goal_y=Y[-1], ...)` stores views of the
first and the last row of the caller's array (`dmp/_dmp.py` lines 584-594 with 689, `dmp/_cartesian_dmp.py` 418-437,
`dmp/_dual_cartesian_dmp.py` 395-428, `dmp/_dmp_with_final_velocity.py` 202-213). `Y i` is row `i` of the caller's
array. -/
noncomputable def hImitate (n : ℕ) (a : C.ImitateArg n) (T : Fin (n + 2) → ℝ) (Y : Fin (n + 2) → View p)
    (W : World S p v w) : Except PyErr (HRet p v w) × World S p v w :=
  let r := (C.imitate n a T (fun i => W.heap.read (Y i))).exec (C.read W)
  let W1 : World S p v w :=
    { heap := W.heap.write W.obj.weights (C.weights r.2), obj := { W.obj with scalars := C.strip r.2 } }
  match r.1 with
  | .error e => (.error e, W1)
  | .ok _ =>
    let W2 : World S p v w := { W1 with obj := { W1.obj with startY := Y 0, goalY := Y (Fin.last (n + 1)) } }
    (.ok .none, if C.imitateDerivatives then allocDerivatives (C.movement r.2) W2 else W2)

/-- A call of the object, or something the caller does with arrays of their own. -/
inductive Op where
  | configure (a : ViewConfig p v)
  | reset
  | step (a : C.StepArg) (lastY : View p) (lastYd : View v)
  | openLoop (a : C.OpenArg)
  | setExecutionTime (τ : ℝ)
  | getWeights
  | setWeights (x : View w)
  | imitate (n : ℕ) (a : C.ImitateArg n) (T : Fin (n + 2) → ℝ) (Y : Fin (n + 2) → View p)
  /-- the caller creates an array -/
  | callerAlloc (n : ℕ) (x : Vec n)
  /-- the caller writes `x[:] = val` -/
  | callerWrite (n : ℕ) (x : View n) (val : Vec n)

/-- Effect of one call: outcome and the memory and object afterwards. -/
noncomputable def run : C.Op → World S p v w → Except PyErr (HRet p v w) × World S p v w
  | .configure a, W => C.hConfigure a W
  | .reset, W => C.hReset W
  | .step a y yd, W => C.hStep a y yd W
  | .openLoop a, W => C.hOpenLoop a W
  | .setExecutionTime τ, W => C.hSetExecutionTime τ W
  | .getWeights, W => C.hGetWeights W
  | .setWeights x, W => C.hSetWeights x W
  | .imitate n a T Y, W => C.hImitate n a T Y W
  | .callerAlloc _ x, W => (.ok .none, { W with heap := (W.heap.alloc x).2 })
  | .callerWrite _ x val, W => (.ok .none, { W with heap := W.heap.write x val })

/-- A history of calls: the outcomes, and the memory and object at the end. -/
noncomputable def runAll : List C.Op → World S p v w → List (Except PyErr (HRet p v w)) × World S p v w
  | [], W => ([], W)
  | op :: ops, W =>
    let r := C.run op W
    let rs := runAll ops r.2
    (r.1 :: rs.1, rs.2)

end HClass
end Verif
