import Verif.Model.Io
import Verif.Model.CartesianDmp

/-!
# Classes whose objects are saved: `__dict__` and constructors

Times, gains and time steps are Python floats, numbers of dimensions and weights are Python ints.
-/

namespace Verif

/-- A 1D array. -/
def pyVec {n : ℕ} (x : Vec n) : PyVal := .array [n] x

/-- A 2D array. -/
def pyMat {n k : ℕ} (X : Fin n → Fin k → ℝ) : PyVal := .array [n, k] X

/-- `None` or a float. -/
def pyOpt : Option ℝ → PyVal
  | none => .none
  | some x => .float x

/-- `__dict__` of a `ForcingTerm`, `dmp/_forcing_term.py` lines 37-75. -/
def ForcingTerm.attrs {d m : ℕ} (ft : ForcingTerm d m) : Attrs :=
  Attrs.ofList [("n_weights_per_dim", .int m), ("goal_t", .float ft.goalT), ("start_t", .float ft.startT),
    ("overlap", .float ft.overlap), ("alpha_z", .float ft.alphaZ), ("log_overlap", .float ft.logOverlap),
    ("execution_time", .float ft.executionTime), ("weights_", pyMat ft.weights), ("centers", pyVec ft.centers),
    ("widths", pyVec ft.widths)]

def ForcingTerm.toPy {d m : ℕ} (ft : ForcingTerm d m) : PyVal :=
  .obj "movement_primitives.dmp._forcing_term" "ForcingTerm" ft.attrs

/-- Part of the `__dict__` set by `PointToPointMovement.__init__` and `DMPBase.__init__`, `base.py` lines 59-75 and
`dmp/_base.py` line 21. -/
def Movement.attrs {p v : ℕ} (s : Movement p v) (initialized : Bool) : List (String × PyVal) :=
  [("n_dims", .int p), ("n_vel_dims", .int v), ("t", .float s.t), ("last_t", pyOpt s.lastT),
   ("start_y", pyVec s.startY), ("start_yd", pyVec s.startYd), ("start_ydd", pyVec s.startYdd),
   ("goal_y", pyVec s.goalY), ("goal_yd", pyVec s.goalYd), ("goal_ydd", pyVec s.goalYdd),
   ("current_y", pyVec s.currentY), ("current_yd", pyVec s.currentYd), ("initialized", .bool initialized)]

/-- `__dict__` of a `DMP`, `dmp/_dmp.py` lines 413-433. -/
def DMP.attrs {d m : ℕ} (s : DMP d m) : Attrs :=
  Attrs.ofList (s.toMovement.attrs s.initialized ++
    [("_execution_time", .float s.executionTime), ("dt_", .float s.dt), ("n_weights_per_dim", .int m),
     ("int_dt", .float s.intDt), ("p_gain", .float s.pGain), ("smooth_scaling", .bool s.smooth),
     ("forcing_term", s.ft.toPy), ("alpha_y", pyVec s.alphaY), ("beta_y", pyVec s.betaY)])

/-- A `DMP` as a Python object. -/
def DMP.toPy {d m : ℕ} (s : DMP d m) : PyVal := .obj "movement_primitives.dmp._dmp" "DMP" s.attrs

/-- `__dict__` of a `CartesianDMP`, `dmp/_cartesian_dmp.py` lines 234-256. -/
def CartesianDMP.attrs {m : ℕ} (s : CartesianDMP m) (initialized : Bool) : Attrs :=
  Attrs.ofList (s.toMovement.attrs initialized ++
    [("_execution_time", .float s.executionTime), ("dt_", .float s.dt), ("n_weights_per_dim", .int m),
     ("int_dt", .float s.intDt), ("smooth_scaling", .bool s.smooth), ("forcing_term_pos", s.ftPos.toPy),
     ("forcing_term_rot", s.ftRot.toPy), ("alpha_y", pyVec s.alphaY), ("beta_y", pyVec s.betaY)])

/-- A `CartesianDMP` as a Python object. Its attribute `initialized` is not used by its methods. -/
def CartesianDMP.toPy {m : ℕ} (s : CartesianDMP m) (initialized : Bool) : PyVal :=
  .obj "movement_primitives.dmp._cartesian_dmp" "CartesianDMP" (s.attrs initialized)

/-- `__dict__` of a `ProMP`, `promp.py` lines 54-63. After `imitate` with at least one iteration, `variance` is a
`np.float64` (lines 588-602). -/
def ProMP.attrs {d w : ℕ} (p : ProMP d w) : Attrs :=
  Attrs.ofList ([("n_dims", .int d), ("n_weights_per_dim", .int w), ("n_weights", .int (d * w : ℕ)),
    ("weight_mean", pyVec p.weightMean), ("weight_cov", pyMat fun i j => p.weightCov i j),
    ("centers", pyVec p.centers)] ++
    match p.variance with
    | none => []
    | some x => [("variance", .npFloat x)])

/-- A `ProMP` as a Python object. -/
def ProMP.toPy {d w : ℕ} (p : ProMP d w) : PyVal := .obj "movement_primitives.promp" "ProMP" p.attrs

/-! ## Keyword arguments -/

/-- Value of a float parameter; TypeError for values that arithmetic does not accept. -/
def kwFloat (kw : Attrs) (k : String) (default : ℝ) : Except PyErr ℝ :=
  match kw.get k with
  | none => .ok default
  | some (.float x) => .ok x
  | some (.npFloat x) => .ok x
  | some (.int z) => .ok z
  | some _ => .error .typeError

/-- Value of an int parameter with a default value. -/
def kwInt (kw : Attrs) (k : String) (default : Option ℤ) : Except PyErr ℤ :=
  match kw.get k, default with
  | some (.int z), _ => .ok z
  | none, some z => .ok z
  | _, _ => .error .typeError

/-- Value of a bool parameter with a default value. -/
def kwBool (kw : Attrs) (k : String) (default : Bool) : Except PyErr Bool :=
  match kw.get k with
  | none => .ok default
  | some (.bool b) => .ok b
  | some _ => .error .typeError

/-- `np.atleast_1d` of a float or an array-like, as the argument of `ensure_1d_array`. -/
def kwArrayLike (kw : Attrs) (k : String) (default : ℝ) : Except PyErr ArrayLike :=
  match kw.get k with
  | none => .ok (.scalar default)
  | some v => do
    match ← npArray v with
    | ⟨[], x⟩ => return .scalar x
    | ⟨[_], x⟩ => return .array1 (List.ofFn x)
    | _ => return .arrayNd

/-- `DMP.__init__` with keyword arguments, `dmp/_dmp.py` lines 413-415. -/
noncomputable def DMP.pyClass : PyClass where
  args := ["n_dims", "execution_time", "dt", "n_weights_per_dim", "int_dt", "p_gain", "smooth_scaling", "alpha_y",
    "beta_y"]
  construct := fun kw => do
    let d ← kwInt kw "n_dims" none
    let executionTime ← kwFloat kw "execution_time" 1
    let dt ← kwFloat kw "dt" (1 / 100)
    let m ← kwInt kw "n_weights_per_dim" (some 10)
    let intDt ← kwFloat kw "int_dt" (1 / 1000)
    let pGain ← kwFloat kw "p_gain" 0
    let smooth ← kwBool kw "smooth_scaling" false
    let alphaY ← kwArrayLike kw "alpha_y" 25
    let betaY ← kwArrayLike kw "beta_y" (25 / 4)
    let s ← DMP.create d.toNat m.toNat executionTime dt intDt pGain smooth alphaY betaY
    return s.attrs

/-- `CartesianDMP.__init__` with keyword arguments, `dmp/_cartesian_dmp.py` lines 234-236. -/
noncomputable def CartesianDMP.pyClass : PyClass where
  args := ["execution_time", "dt", "n_weights_per_dim", "int_dt", "smooth_scaling", "alpha_y", "beta_y"]
  construct := fun kw => do
    let executionTime ← kwFloat kw "execution_time" 1
    let dt ← kwFloat kw "dt" (1 / 100)
    let m ← kwInt kw "n_weights_per_dim" (some 10)
    let intDt ← kwFloat kw "int_dt" (1 / 1000)
    let smooth ← kwBool kw "smooth_scaling" false
    let alphaY ← kwArrayLike kw "alpha_y" 25
    let betaY ← kwArrayLike kw "beta_y" (25 / 4)
    let s ← CartesianDMP.create m.toNat executionTime dt intDt smooth alphaY betaY
    return s.attrs false

/-- `ProMP.__init__` with keyword arguments, `promp.py` line 54. -/
noncomputable def ProMP.pyClass : PyClass where
  args := ["n_dims", "n_weights_per_dim"]
  construct := fun kw => do
    let d ← kwInt kw "n_dims" none
    let w ← kwInt kw "n_weights_per_dim" (some 10)
    return (ProMP.init d.toNat w.toNat).attrs

/-- `MinimumJerkTrajectory.__init__` with keyword arguments, `minimum_jerk_trajectory.py` lines 21-28. -/
noncomputable def minimumJerkPyClass : PyClass where
  args := ["n_dims", "execution_time", "dt"]
  construct := fun kw => do
    let d ← kwInt kw "n_dims" none
    let executionTime ← match kw.get "execution_time" with
      | some v => pure v
      | none => throw .typeError
    let dt ← kwFloat kw "dt" (1 / 100)
    return Attrs.ofList ((Movement.attrs (Movement.init d.toNat d.toNat) false).dropLast ++
      [("X", .none), ("Xd", .none), ("execution_time", executionTime), ("dt", .float dt), ("step_idx", .int 0),
       ("initialized", .bool false)])

/-- The modules of the library with the classes above. -/
noncomputable def library : Registry := fun module =>
  if module = "movement_primitives.dmp._dmp" then
    some fun c => if c = "DMP" then some DMP.pyClass else none
  else if module = "movement_primitives.dmp._cartesian_dmp" then
    some fun c => if c = "CartesianDMP" then some CartesianDMP.pyClass else none
  else if module = "movement_primitives.promp" then
    some fun c => if c = "ProMP" then some ProMP.pyClass else none
  else if module = "movement_primitives.minimum_jerk_trajectory" then
    some fun c => if c = "MinimumJerkTrajectory" then some minimumJerkPyClass else none
  else none

end Verif
