import Verif.Model.FinalVelocity
import Mathlib.Algebra.Order.Floor.Ring

/-!
# Arrays of integers (`dmp/_dmp.py`, `dmp/_dmp_with_final_velocity.py`, `dmp_fast.pyx`, `base.py`)

The other modules treat the numbers in an array as real numbers. In numpy an array made of integers has an integer
data type: an assignment to its elements rounds toward zero, an in-place addition of floating-point numbers raises
TypeError, and a Cython function that declares `np.ndarray[double]` raises ValueError. This module models `DMP` and
`DMPWithFinalVelocity` with the data types of the start, goal and current arrays. Overflow of integers is not
modelled.
-/

namespace Verif

/-- Data type of an array. -/
inductive Dtype where
  | float | int
  deriving DecidableEq, Repr

/-- Rounding toward zero, which is what numpy does with a number that is assigned to an element of an array of
integers. -/
noncomputable def truncate (x : ℝ) : ℝ := if 0 ≤ x then (⌊x⌋ : ℝ) else (⌈x⌉ : ℝ)

/-- The number that is stored by `array[...] = x`. -/
noncomputable def Dtype.store : Dtype → ℝ → ℝ
  | .float, x => x
  | .int, x => truncate x

/-- A 1D array. -/
inductive NumArray where
  | float (x : List ℝ)
  | int (x : List ℤ)

/-- The numbers in a 1D array. -/
def NumArray.values : NumArray → List ℝ
  | .float x => x
  | .int x => List.map (Int.cast : ℤ → ℝ) x

/-- `array.dtype` -/
def NumArray.dtype : NumArray → Dtype
  | .float _ => .float
  | .int _ => .int

/-- The positions of a demonstration, an array of shape (n + 2, d). -/
inductive DemoArray (n d : ℕ) where
  | float (Y : Fin (n + 2) → Vec d)
  | int (Y : Fin (n + 2) → Fin d → ℤ)

/-- The numbers in a demonstration. -/
def DemoArray.values {n d : ℕ} : DemoArray n d → Fin (n + 2) → Vec d
  | .float Y => Y
  | .int Y => fun t k => (Y t k : ℝ)

/-- `Y.dtype` -/
def DemoArray.dtype {n d : ℕ} : DemoArray n d → Dtype
  | .float _ => .float
  | .int _ => .int

/-- Data types of the arrays of a `PointToPointMovement`. -/
structure Dtypes where
  startY : Dtype
  startYd : Dtype
  startYdd : Dtype
  goalY : Dtype
  goalYd : Dtype
  goalYdd : Dtype
  currentY : Dtype
  currentYd : Dtype
  deriving DecidableEq

/-- The arrays of a new object are `np.zeros(...)`, `base.py` lines 59-75. -/
def Dtypes.floats : Dtypes := ⟨.float, .float, .float, .float, .float, .float, .float, .float⟩

/-! ## Step functions -/

namespace StepArgs
variable {d m : ℕ}

/-- Length of the first sub-step of an integration loop, `dmp/_dmp.py` lines 300-302. -/
noncomputable def firstDt (a : StepArgs d m) (lastT t : ℝ) : ℝ := if t - lastT < a.intDt then t - lastT else a.intDt

/-- `current_yd` after line 320 of `dmp/_dmp.py` in the loop body of `dmp_step_euler`. -/
noncomputable def eulerVelocity (a : StepArgs d m) (dt t : ℝ) (s : Vec d × Vec d) : Vec d :=
  let z := a.ft.phaseAt t
  let tdd : Vec d := fun k => a.pGain * a.trackingError k / dt
  s.2 + dt • a.acc s.1 s.2 a.initialCdd z (a.goalT - a.startT) (a.ft.force z) tdd

/-- `dmp_step_rk4`, `dmp/_dmp.py` lines 9-132, working on arrays `current_y`, `current_yd` of any data type: the outcome
and the contents of both arrays afterwards. `current_y += ...` (line 127) and `current_yd += ...` (line 128) raise
TypeError for arrays of integers. -/
noncomputable def stepRk4Typed (a : StepArgs d m) (ty : Dtypes) (lastT t : ℝ) (s : Vec d × Vec d) :
    Except PyErr Unit × (Vec d × Vec d) :=
  match ty.currentY, ty.currentYd, a.stepRk4 lastT t s with
  | .int, _, _ => (.error .typeError, s)
  | .float, _, .error e => (.error e, s)
  | .float, .int, .ok r => (.error .typeError, (r.1, s.2))
  | .float, .float, .ok r => (.ok (), r)

/-- `dmp_step_euler`, `dmp/_dmp.py` lines 214-325, working on arrays of any data type. `current_yd += ...` (line 320) and
`current_y += ...` (line 321) raise TypeError for arrays of integers in the first sub-step, if there is one. -/
noncomputable def stepEulerTyped (a : StepArgs d m) (ty : Dtypes) (lastT t : ℝ) (s : Vec d × Vec d) :
    Except PyErr Unit × (Vec d × Vec d) :=
  if a.goalT ≤ a.startT then (.error .valueError, s)
  else if t ≤ a.startT then (.ok (), s)
  else if t ≤ lastT then (.ok (), s)
  else match ty.currentYd, ty.currentY, intLoop a.intDt t a.eulerBody lastT s with
    | .int, _, _ => (.error .typeError, s)
    | .float, .int, _ =>
      (.error .typeError, (s.1, a.eulerVelocity (a.firstDt lastT t) (lastT + a.firstDt lastT t) s))
    | .float, .float, .error e => (.error e, s)
    | .float, .float, .ok r => (.ok (), r)

/-- A Cython step function declares all eight arrays as `np.ndarray[double, ndim=1]`, `dmp_fast.pyx` lines 51-62 and
201-212: ValueError (buffer dtype mismatch) for an array of integers, before anything else happens. -/
noncomputable def cythonTyped (ty : Dtypes) (r : Except PyErr (Vec d × Vec d)) (s : Vec d × Vec d) :
    Except PyErr Unit × (Vec d × Vec d) :=
  if ty = Dtypes.floats then
    match r with
    | .error e => (.error e, s)
    | .ok r => (.ok (), r)
  else (.error .valueError, s)

/-- `current_yd` after line 458 of `dmp/_dmp_with_final_velocity.py`. -/
noncomputable def fvVelocity (a : StepArgs d m) (c : Fin 6 → Vec d) (dt t : ℝ) (s : Vec d × Vec d) : Vec d :=
  (a.fvBody c dt t s).2

/-- `dmp_step_euler_with_constraints`, `dmp/_dmp_with_final_velocity.py` lines 342-459, working on arrays of any data
type: lines 458 and 459 are in-place additions. -/
noncomputable def fvStepTyped (a : StepArgs d m) (ty : Dtypes) (lastT t : ℝ) (s : Vec d × Vec d) :
    Except PyErr Unit × (Vec d × Vec d) :=
  if a.goalT ≤ a.startT then (.error .valueError, s)
  else if t ≤ a.startT then (.ok (), s)
  else match solveConstraints a.startT a.goalT a.startY a.startYd a.startYdd a.goalY a.goalYd a.goalYdd with
    | .error e => (.error e, s)
    | .ok c =>
      if t ≤ lastT then (.ok (), s)
      else match ty.currentYd, ty.currentY, intLoop a.intDt t (a.fvBody c) lastT s with
        | .int, _, _ => (.error .typeError, s)
        | .float, .int, _ =>
          (.error .typeError, (s.1, a.fvVelocity c (a.firstDt lastT t) (lastT + a.firstDt lastT t) s))
        | .float, .float, .error e => (.error e, s)
        | .float, .float, .ok r => (.ok (), r)

end StepArgs

/-- Call of a step function with arrays of given data types. -/
noncomputable def StepFunction.runTyped {d m : ℕ} (sf : StepFunction) (a : StepArgs d m) (ty : Dtypes) (lastT t : ℝ)
    (s : Vec d × Vec d) : Except PyErr Unit × (Vec d × Vec d) :=
  match sf with
  | .rk4 => a.stepRk4Typed ty lastT t s
  | .euler => a.stepEulerTyped ty lastT t s
  | .eulerCython => StepArgs.cythonTyped ty (a.stepEulerCy lastT t s) s
  | .rk4Cython => StepArgs.cythonTyped ty (a.stepRk4Cy lastT t s) s

/-- The contents of the current arrays if there was no exception. -/
def typedResult {d : ℕ} (r : Except PyErr Unit × (Vec d × Vec d)) : Except PyErr (Vec d × Vec d) :=
  match r.1 with
  | .error e => .error e
  | .ok () => .ok r.2

/-! ## Objects -/

/-- A `DMP` (or `DMPWithFinalVelocity`) together with the data types of its arrays. -/
structure TypedDMP (d m : ℕ) extends DMP d m where
  types : Dtypes

/-- Arguments of `configure` with data types. -/
structure TypedConfigArgs where
  t : Option ℝ := none
  startY : Option NumArray := none
  startYd : Option NumArray := none
  startYdd : Option NumArray := none
  goalY : Option NumArray := none
  goalYd : Option NumArray := none
  goalYdd : Option NumArray := none

/-- The same arguments, without data types. -/
def TypedConfigArgs.values (a : TypedConfigArgs) : ConfigArgs :=
  { t := a.t, startY := a.startY.map NumArray.values, startYd := a.startYd.map NumArray.values
    startYdd := a.startYdd.map NumArray.values, goalY := a.goalY.map NumArray.values
    goalYd := a.goalYd.map NumArray.values, goalYdd := a.goalYdd.map NumArray.values }

/-- One `if x is not None: check_1d_array_length(x, ...); self.x = x` block of `configure`, `base.py` lines 113-130: the
array itself is stored, with its data type. -/
def configureTypedField {σ : Type} {n : ℕ} (arg : Option NumArray) (set : Vec n → Dtype → σ → σ) : Py σ Unit := do
  match arg with
  | none => pure ()
  | some x => do
    let v ← Py.lift (checkLength n x.values)
    modify (set v x.dtype)

namespace TypedDMP
variable {d m n : ℕ}

/-- A new object (`base.py` lines 59-75): all arrays contain floating-point numbers. -/
def ofDMP (s : DMP d m) : TypedDMP d m := { s with types := Dtypes.floats }

/-- `PointToPointMovement.configure`, `base.py` lines 77-130. -/
def configure (a : TypedConfigArgs) : Py (TypedDMP d m) Unit := do
  match a.t with
  | none => pure ()
  | some t => modify (fun s => { s with t := t })
  configureTypedField a.startY (fun x ty (s : TypedDMP d m) => { s with startY := x, types.startY := ty })
  configureTypedField a.startYd (fun x ty (s : TypedDMP d m) => { s with startYd := x, types.startYd := ty })
  configureTypedField a.startYdd (fun x ty (s : TypedDMP d m) => { s with startYdd := x, types.startYdd := ty })
  configureTypedField a.goalY (fun x ty (s : TypedDMP d m) => { s with goalY := x, types.goalY := ty })
  configureTypedField a.goalYd (fun x ty (s : TypedDMP d m) => { s with goalYd := x, types.goalYd := ty })
  configureTypedField a.goalYdd (fun x ty (s : TypedDMP d m) => { s with goalYdd := x, types.goalYdd := ty })

/-- `DMPBase.reset`, `dmp/_base.py` lines 21-26: `np.copy` keeps the data type. -/
def reset : Py (TypedDMP d m) Unit :=
  modify (fun s => { s with toMovement := s.toMovement.reset
                            types.currentY := s.types.startY
                            types.currentYd := s.types.startYd })

/-- `DMP.step` and `DMPWithFinalVelocity.step` (`dmp/_dmp.py` lines 479-505, `dmp/_dmp_with_final_velocity.py` lines
116-140) for a step function `run` that works on the current arrays. -/
noncomputable def stepWith (run : StepArgs d m → Dtypes → ℝ → ℝ → Vec d × Vec d → Except PyErr Unit × (Vec d × Vec d))
    (coupling : Option (Coupling d)) (lastY _lastYd : Vec d) : Py (TypedDMP d m) (Vec d × Vec d) := do
  modify (fun s => { s with lastT := some s.t })
  modify (fun s => { s with t := s.t + s.dt })
  modify (fun s => if s.initialized then s else
    { s with currentY := s.startY
             currentYd := s.startYd
             initialized := true
             types.currentY := s.types.startY
             types.currentYd := s.types.startYd })
  let s ← get
  let r := run (s.toDMP.stepArgs coupling (s.currentY - lastY)) s.types (s.lastT.getD 0) s.t (s.currentY, s.currentYd)
  modify (fun s => { s with currentY := r.2.1, currentYd := r.2.2 })
  Py.lift r.1
  return r.2

/-- `DMP.step`, `dmp/_dmp.py` lines 479-505. -/
noncomputable def step (coupling : Option (Coupling d)) (sf : StepFunction) (lastY lastYd : Vec d) :
    Py (TypedDMP d m) (Vec d × Vec d) := stepWith sf.runTyped coupling lastY lastYd

/-- `DMPWithFinalVelocity.step`, `dmp/_dmp_with_final_velocity.py` lines 94-140. -/
noncomputable def fvStep (coupling : Option (Coupling d)) (lastY lastYd : Vec d) :
    Py (TypedDMP d m) (Vec d × Vec d) := stepWith StepArgs.fvStepTyped coupling lastY lastYd

/-- Data types of the arrays that `dmp_open_loop` passes to the step function if only start and goal position are given,
`dmp/_dmp.py` lines 878-891: `np.zeros_like` and `np.copy` keep the data type. -/
def openLoopTypes (ty : Dtypes) : Dtypes :=
  { startY := ty.startY, startYd := ty.startY, startYdd := ty.startY
    goalY := ty.goalY, goalYd := ty.goalY, goalYdd := ty.goalY
    currentY := ty.startY, currentYd := ty.startY }

/-- `DMP.open_loop`, `dmp/_dmp.py` lines 507-550 and 807-908. -/
noncomputable def openLoop (runT : Option ℝ) (coupling : Option (Coupling d)) (stepFunction : String) :
    Py (TypedDMP d m) (List ℝ × List (Vec d)) := do
  let sf ← Py.lift (StepFunction.lookup stepFunction)
  let s ← get
  let a := s.toDMP.openLoopArgs coupling
  Py.lift (openLoopWith a.goalT a.startT s.dt (a.startY, a.startYd) runT
    (fun lastT t x => typedResult (sf.runTyped a (openLoopTypes s.types) lastT t x)))

/-- Data types of the arrays that `DMPWithFinalVelocity.open_loop` passes to the step function,
`dmp/_dmp_with_final_velocity.py` lines 161-171: all six arrays are given, the current ones are copies. -/
def fvOpenLoopTypes (ty : Dtypes) : Dtypes :=
  { ty with currentY := ty.startY, currentYd := ty.startYd }

/-- `DMPWithFinalVelocity.open_loop`, `dmp/_dmp_with_final_velocity.py` lines 142-171. -/
noncomputable def fvOpenLoop (runT : Option ℝ) (coupling : Option (Coupling d)) :
    Py (TypedDMP d m) (List ℝ × List (Vec d)) := do
  let s ← get
  let a := FvDMP.openLoopArgs s.toDMP coupling
  Py.lift (openLoopWith a.goalT a.startT s.dt (a.startY, a.startYd) runT
    (fun lastT t x => typedResult (a.fvStepTyped (fvOpenLoopTypes s.types) lastT t x)))

end TypedDMP

/-! ## Imitation -/

section
variable {d n : ℕ}

/-- Velocities, `determine_forces` of `dmp/_dmp.py` lines 663-668: `Yd = np.empty_like(Y)` has the data type of the
demonstration, so that the quotients are rounded toward zero if it consists of integers. -/
noncomputable def typedYd (T : Fin (n + 2) → ℝ) (Y : DemoArray n d) (allowFinalVelocity : Bool) :
    Fin (n + 2) → Vec d :=
  fun t k =>
    if t = Fin.last (n + 1) ∧ allowFinalVelocity = false then 0
    else Y.dtype.store (gradient (fun i => Y.values i k) t / gradient T t)

/-- Accelerations, `determine_forces` of `dmp/_dmp.py` lines 669-672; they are computed from the rounded velocities and
are rounded as well. -/
noncomputable def typedYdd (T : Fin (n + 2) → ℝ) (Y : DemoArray n d) (allowFinalVelocity : Bool) :
    Fin (n + 2) → Vec d :=
  fun t k =>
    if t = Fin.last (n + 1) then 0
    else Y.dtype.store (gradient (fun i => typedYd T Y allowFinalVelocity i k) t / gradient T t)

/-- `determine_forces`, `dmp/_dmp.py` lines 662-689. -/
noncomputable def typedForces (T : Fin (n + 2) → ℝ) (Y : DemoArray n d) (alphaY betaY : Vec d)
    (alphaZ : ℝ) (allowFinalVelocity smooth : Bool) : Fin (n + 2) → Vec d :=
  let executionTime := T (Fin.last (n + 1)) - T 0
  let goalY := Y.values (Fin.last (n + 1))
  let startY := Y.values 0
  fun t k =>
    let z := phase (T t) alphaZ (T (Fin.last (n + 1))) (T 0)
    let smoothing := if smooth then betaY k * (goalY k - startY k) * z else 0
    executionTime ^ 2 * typedYdd T Y allowFinalVelocity t k -
      alphaY k * (betaY k * (goalY k - Y.values t k) - typedYd T Y allowFinalVelocity t k * executionTime - smoothing)

/-- `Yd` of `dmp/_dmp_with_final_velocity.py` lines 318-321, rounded if the demonstration consists of integers. -/
noncomputable def typedFvYd (T : Fin (n + 2) → ℝ) (Y : DemoArray n d) : Fin (n + 2) → Vec d :=
  fun i k => Y.dtype.store (backwardDifference T (fun j => Y.values j k) i)

/-- `Ydd` of `dmp/_dmp_with_final_velocity.py` lines 323-326. -/
noncomputable def typedFvYdd (T : Fin (n + 2) → ℝ) (Y : DemoArray n d) : Fin (n + 2) → Vec d :=
  fun i k => Y.dtype.store (backwardDifference T (fun j => typedFvYd T Y j k) i)

/-- `determine_forces`, `dmp/_dmp_with_final_velocity.py` lines 313-339. -/
noncomputable def typedFvForces (T : Fin (n + 2) → ℝ) (Y : DemoArray n d) (alphaY betaY : Vec d) :
    Except PyErr (Fin (n + 2) → Vec d) := do
  let l := Fin.last (n + 1)
  let c ← solveConstraints (T 0) (T l) (Y.values 0) (typedFvYd T Y 0) (typedFvYdd T Y 0)
    (Y.values l) (typedFvYd T Y l) (typedFvYdd T Y l)
  let executionTime := T l - T 0
  return fun t k =>
    let g := applyConstraints (T t) (Y.values l) (T l) c
    executionTime ^ 2 * typedFvYdd T Y t k
      - alphaY k * (betaY k * (g.1 k - Y.values t k) + executionTime * (g.2.1 k - typedFvYd T Y t k))
      - executionTime ^ 2 * g.2.2 k

/-- A row of an array computed with `np.empty_like(Y)`, as an array of the same data type: in an array of integers all
numbers are integers, so that `⌊x⌋` is the number itself. -/
noncomputable def rowArray (ty : Dtype) (x : Vec d) : NumArray :=
  match ty with
  | .float => .float (List.ofFn x)
  | .int => .int (List.ofFn (fun k => ⌊x k⌋))

/-- `Y[i]`: a row of the demonstration. -/
def DemoArray.row (Y : DemoArray n d) (i : Fin (n + 2)) : NumArray :=
  match Y with
  | .float Y => .float (List.ofFn (Y i))
  | .int Y => .int (List.ofFn (Y i))

end

namespace TypedDMP
variable {d m n : ℕ}

/-- `DMP.imitate`, `dmp/_dmp.py` lines 552-594: the weights are computed from the (rounded) velocities and accelerations,
the first and last row of the demonstration become start and goal. -/
noncomputable def imitate (T : Fin (n + 2) → ℝ) (Y : DemoArray n d) (reg : ℝ) (allowFinalVelocity : Bool) :
    Py (TypedDMP d m) Unit := do
  let s ← get
  let w ← Py.lift (dmpImitateWith m T reg s.ft.overlap s.ft.alphaZ
    (.ok (typedForces T Y s.alphaY s.betaY s.ft.alphaZ allowFinalVelocity s.smooth)))
  modify (fun s => { s with ft := { s.ft with weights := w } })
  configure { startY := some (Y.row 0), goalY := some (Y.row (Fin.last (n + 1))) }

/-- `DMPWithFinalVelocity.imitate`, `dmp/_dmp_with_final_velocity.py` lines 173-213. -/
noncomputable def fvImitate (T : Fin (n + 2) → ℝ) (Y : DemoArray n d) (reg : ℝ) : Py (TypedDMP d m) Unit := do
  let s ← get
  let w ← Py.lift (dmpImitateWith m T reg s.ft.overlap s.ft.alphaZ (typedFvForces T Y s.alphaY s.betaY))
  modify (fun s => { s with ft := { s.ft with weights := w } })
  let l := Fin.last (n + 1)
  configure
    { startY := some (Y.row 0), startYd := some (rowArray Y.dtype (typedFvYd T Y 0))
      startYdd := some (rowArray Y.dtype (typedFvYdd T Y 0)), goalY := some (Y.row l)
      goalYd := some (rowArray Y.dtype (typedFvYd T Y l)), goalYdd := some (rowArray Y.dtype (typedFvYdd T Y l)) }

end TypedDMP
end Verif
