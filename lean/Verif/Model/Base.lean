import Verif.Py
import Verif.Np

/-!
# Base class and argument checks (`movement_primitives/base.py`, `movement_primitives/utils.py`)
-/

namespace Verif

/-- An array-like argument of `ensure_1d_array`: a scalar, a 1D array or an array with more dimensions. -/
inductive ArrayLike where
  | scalar (x : ℝ)
  | array1 (x : List ℝ)
  | arrayNd

/-- `check_1d_array_length(var, var_name, expected_length)`, `utils.py` lines 4-29: raises unless the length
is right. The result is the same array, seen as a `Vec n`. -/
def checkLength (n : ℕ) (var : List ℝ) : Except PyErr (Vec n) :=
  if h : var.length = n then .ok (fun i => var[i.val]'(by omega)) else .error .valueError

/-- `ensure_1d_array(value, n_dims, var_name)`, `utils.py` lines 32-62. `np.atleast_1d` turns a scalar into
an array of length one; length one is repeated `n_dims` times; everything else must have length `n_dims`. -/
def ensure1dArray (value : ArrayLike) (nDims : ℕ) : Except PyErr (Vec nDims) :=
  match value with
  | .arrayNd => .error .valueError
  | .scalar x => checkLength nDims (List.replicate nDims x)
  | .array1 xs =>
    let xs' := match xs with
      | [x] => List.replicate nDims x
      | xs => xs
    checkLength nDims xs'

/-- Attributes of `PointToPointMovement`, `base.py` lines 59-75; `p` is `n_dims`, `v` is `n_vel_dims`. -/
structure Movement (p v : ℕ) where
  t : ℝ
  lastT : Option ℝ
  startY : Vec p
  startYd : Vec v
  startYdd : Vec v
  goalY : Vec p
  goalYd : Vec v
  goalYdd : Vec v
  currentY : Vec p
  currentYd : Vec v

/-- `PointToPointMovement.__init__`, `base.py` lines 59-75. -/
def Movement.init (p v : ℕ) : Movement p v :=
  { t := 0, lastT := none, startY := 0, startYd := 0, startYdd := 0,
    goalY := 0, goalYd := 0, goalYdd := 0, currentY := 0, currentYd := 0 }

/-- Arguments of `configure`; an array-like argument is a list of any length. -/
structure ConfigArgs where
  t : Option ℝ := none
  startY : Option (List ℝ) := none
  startYd : Option (List ℝ) := none
  startYdd : Option (List ℝ) := none
  goalY : Option (List ℝ) := none
  goalYd : Option (List ℝ) := none
  goalYdd : Option (List ℝ) := none

/-- One `if x is not None: check_1d_array_length(x, ...); self.x = x` block of `configure`. -/
def configureField {σ : Type} {n : ℕ} (arg : Option (List ℝ)) (set : Vec n → σ → σ) : Py σ Unit := do
  match arg with
  | none => pure ()
  | some x => do
    let x ← Py.lift (checkLength n x)
    modify (set x)

/-- `PointToPointMovement.configure`, `base.py` lines 77-130: the arguments are checked and assigned one
after the other. -/
def Movement.configure {p v : ℕ} (a : ConfigArgs) : Py (Movement p v) Unit := do
  match a.t with
  | none => pure ()
  | some t => modify (fun s => { s with t := t })
  configureField a.startY (fun x (s : Movement p v) => { s with startY := x })
  configureField a.startYd (fun x (s : Movement p v) => { s with startYd := x })
  configureField a.startYdd (fun x (s : Movement p v) => { s with startYdd := x })
  configureField a.goalY (fun x (s : Movement p v) => { s with goalY := x })
  configureField a.goalYd (fun x (s : Movement p v) => { s with goalYd := x })
  configureField a.goalYdd (fun x (s : Movement p v) => { s with goalYdd := x })

/-- `PointToPointMovement.n_steps_open_loop`, `base.py` lines 153-177, for an arbitrary `step` method. -/
def nStepsOpenLoop {σ : Type} {p v : ℕ} (step : Vec p → Vec v → Py σ (Vec p × Vec v)) :
    ℕ → Vec p → Vec v → Py σ (Vec p × Vec v)
  | 0, y, yd => pure (y, yd)
  | n + 1, y, yd => do
    let r ← step y yd
    nStepsOpenLoop step n r.1 r.2

/-- `DMPBase.reset`, `dmp/_base.py` lines 21-26. -/
def Movement.reset {p v : ℕ} (s : Movement p v) : Movement p v :=
  { s with t := 0, lastT := none, currentY := s.startY, currentYd := s.startYd }

end Verif
