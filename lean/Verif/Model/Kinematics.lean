import Verif.Model.Promp
import Mathlib.Analysis.SpecialFunctions.Trigonometric.Inverse
import Mathlib.Data.Fin.VecNotation

/-!
# Kinematics (`movement_primitives/kinematics.py`)

The base class `UrdfTransformManager` belongs to pytransform3d. What the code uses of it is modelled from its
documentation: a dictionary of joints, a dictionary of transforms between frames, the shortest path between two
frames (an arbitrary function of the frames, because the graph does not change when a joint moves), and the
product of the transforms along a path. Loading of URDF files is not modelled.

`scipy.optimize.minimize` is an arbitrary function (`Minimizer`), random numbers are an arbitrary sequence.
-/

namespace Verif
open Matrix

/-- Homogeneous transformation matrices, arrays of shape `(4, 4)`. -/
abbrev Mat4 := Matrix (Fin 4) (Fin 4) ℝ

/-- Entry of `UrdfTransformManager._joints`; `none` is an infinite limit. -/
structure Joint where
  fromFrame : String
  toFrame : String
  child2parent : Mat4
  axis : Vec 3
  lower : Option ℝ
  upper : Option ℝ
  /-- `joint_type == "revolute"` -/
  revolute : Bool

/-- State of a `FastUrdfTransformManager`. -/
structure TransformManager where
  joints : String → Option Joint
  transforms : String × String → Option Mat4
  nodes : List String
  shortestPath : String → String → List String

/-- `min(max(value, limits[0]), limits[1])`, `kinematics.py` line 35. -/
noncomputable def Joint.clip (j : Joint) (value : ℝ) : ℝ :=
  let v := match j.lower with
    | some lo => max value lo
    | none => value
  match j.upper with
  | some hi => min v hi
  | none => v

/-- `_fast_matrix_from_axis_angle(axis, angle)`, `kinematics.py` lines 80-92. -/
noncomputable def fastMatrixFromAxisAngle (axis : Vec 3) (angle : ℝ) : Mat4 :=
  let ux := axis 0
  let uy := axis 1
  let uz := axis 2
  let c := Real.cos angle
  let s := Real.sin angle
  let ci := 1 - c
  let ciux := ci * ux
  let ciuy := ci * uy
  let ciuz := ci * uz
  !![ciux * ux + c, ciux * uy - uz * s, ciux * uz + uy * s, 0;
     ciuy * ux + uz * s, ciuy * uy + c, ciuy * uz - ux * s, 0;
     ciuz * ux - uy * s, ciuz * uy + ux * s, ciuz * uz + c, 0;
     0, 0, 0, 1]

/-- `joint2A = np.eye(4); joint2A[:3, 3] = value * axis`, `kinematics.py` lines 39-40. -/
noncomputable def prismaticTransform (axis : Vec 3) (value : ℝ) : Mat4 :=
  Matrix.of fun i j => if h : i.val < 3 ∧ j.val = 3 then value * axis ⟨i.val, h.1⟩ else (1 : Mat4) i j

/-- `child2parent.dot(joint2A)` for a joint value, `kinematics.py` lines 35-41. -/
noncomputable def Joint.transform (j : Joint) (value : ℝ) : Mat4 :=
  let value := j.clip value
  let joint2A := if j.revolute then fastMatrixFromAxisAngle j.axis value else prismaticTransform j.axis value
  j.child2parent * joint2A

/-- `FastUrdfTransformManager.set_joint(joint_name, value)`, `kinematics.py` lines 20-41; KeyError for an unknown
joint. -/
noncomputable def TransformManager.setJoint (name : String) (value : ℝ) : Py TransformManager Unit := do
  let tm ← get
  match tm.joints name with
  | none => throw .keyError
  | some j =>
    modify fun tm => { tm with transforms := Function.update tm.transforms (j.fromFrame, j.toFrame)
                                (some (j.transform value)) }

/-- `invert_transform` of pytransform3d: transposed rotation and `-R^T p`. -/
noncomputable def invertTransform (A : Mat4) : Mat4 :=
  Matrix.of fun i j =>
    if i.val < 3 then
      if j.val < 3 then A j i
      else -(∑ k : Fin 3, A (k.castSucc) i * A (k.castSucc) 3)
    else if j.val = 3 then 1 else 0

/-- `TransformManager.get_transform(from, to)` of pytransform3d for neighbouring frames: the stored transform or
the inverse of the transform that is stored for the other direction. -/
noncomputable def TransformManager.getTransform (tm : TransformManager) (a b : String) : Except PyErr Mat4 :=
  match tm.transforms (a, b) with
  | some M => .ok M
  | none =>
    match tm.transforms (b, a) with
    | some M => .ok (invertTransform M)
    | none => .error .keyError

/-- `_path_transform(path)` of pytransform3d: concatenates the transforms along the path. -/
noncomputable def TransformManager.pathTransform (tm : TransformManager) : Mat4 → List String → Except PyErr Mat4
  | A, a :: b :: rest => do
    let M ← tm.getTransform a b
    tm.pathTransform (M * A) (b :: rest)
  | A, _ => .ok A

/-- `FastUrdfTransformManager.get_ee2base(ee_index, base_index)`, `kinematics.py` lines 44-60. -/
noncomputable def TransformManager.getEe2base (tm : TransformManager) (ee base : String) : Except PyErr Mat4 :=
  tm.pathTransform 1 (tm.shortestPath ee base)

/-- State of a `Chain`, `kinematics.py` lines 160-178, without its transform manager, which is the state on which
the methods work. Frame indices are represented by the frames. -/
structure Chain (n : ℕ) where
  jointNames : Fin n → String
  baseFrame : String
  eeFrame : String
  jointLimits : Fin n → ℝ × ℝ

/-- `Chain.__init__`, `kinematics.py` lines 160-178: infinite limits are replaced by `-pi` and `pi`; KeyError for
unknown joints, ValueError (`list.index`) for unknown frames. -/
noncomputable def Chain.create (tm : TransformManager) {n : ℕ} (names : Fin n → String) (baseFrame eeFrame : String) :
    Except PyErr (Chain n) := do
  if ∃ i, (tm.joints (names i)).isNone then throw .keyError
  if eeFrame ∉ tm.nodes then throw .valueError
  if baseFrame ∉ tm.nodes then throw .valueError
  return { jointNames := names, baseFrame := baseFrame, eeFrame := eeFrame
           jointLimits := fun i =>
             match tm.joints (names i) with
             | some j => (j.lower.getD (-Real.pi), j.upper.getD Real.pi)
             | none => (0, 0) }

/-- The loop `for i in range(self.n_joints): self.tm.set_joint(...)`, `kinematics.py` lines 193-194. -/
noncomputable def setJoints : List (String × ℝ) → Py TransformManager Unit
  | [] => pure ()
  | (name, value) :: rest => do
    TransformManager.setJoint name value
    setJoints rest

/-- `Chain.forward(joint_angles)`, `kinematics.py` lines 180-195. -/
noncomputable def Chain.forward {n : ℕ} (c : Chain n) (q : Vec n) : Py TransformManager Mat4 := do
  setJoints (List.ofFn fun i => (c.jointNames i, q i))
  let tm ← get
  Py.lift (tm.getEe2base c.eeFrame c.baseFrame)

/-- `Chain.forward_trajectory(Q)`, `kinematics.py` lines 402-418. -/
noncomputable def Chain.forwardTrajectory {n : ℕ} (c : Chain n) : List (Vec n) → Py TransformManager (List Mat4)
  | [] => pure []
  | q :: Q => do
    let H ← c.forward q
    let rest ← c.forwardTrajectory Q
    return H :: rest

/-- `pose_dist(ee2base_desired, ee2base_actual, orientation_weight, position_weight)`, `kinematics.py` lines
493-505; LinAlgError if the actual pose is singular. -/
noncomputable def poseDist (desired actual : Mat4) (orientationWeight positionWeight : ℝ) : Except PyErr ℝ := do
  let inv ← npInv actual
  let M := inv * desired
  let trace := M 0 0 + M 1 1 + M 2 2
  let angle := Real.arccos (min ((trace - 1) / 2) 1)
  let orientationError := min angle (2 * Real.pi - angle)
  let positionError := Real.sqrt (M 0 3 ^ 2 + M 1 3 ^ 2 + M 2 3 ^ 2)
  return orientationWeight * orientationError + positionWeight * positionError

/-- `Chain.ee_pose_error(joint_angles, desired_pose, orientation_weight, position_weight)`, `kinematics.py` lines
197-223. -/
noncomputable def Chain.eePoseError {n : ℕ} (c : Chain n) (q : Vec n) (desired : Mat4)
    (orientationWeight positionWeight : ℝ) : Py TransformManager ℝ := do
  let actual ← c.forward q
  Py.lift (poseDist desired actual orientationWeight positionWeight)

/-- `scipy.optimize.minimize(fun, x0, method=solver, bounds=bounds)`: result `x` and `fun`. -/
abbrev Minimizer (n : ℕ) :=
  (solver : String) → (objective : Vec n → Except PyErr ℝ) → (x0 : Vec n) → (bounds : Fin n → ℝ × ℝ) →
    Except PyErr (Vec n × ℝ)

/-- Arguments that all inverse kinematics functions pass on. -/
structure IKArgs where
  solver : String
  orientationWeight : ℝ
  positionWeight : ℝ

/-- What the inverse kinematics functions can observe and change besides the transform manager: the random
generator (its draws and the number of draws made) and, for the specification, the minimisations that were
started (solver, initial guess and bounds). -/
structure IKWorld (n : ℕ) where
  rand : ℕ → Vec n
  drawn : ℕ
  calls : List (String × Vec n × (Fin n → ℝ × ℝ))

/-- `Chain.inverse(desired_pose, initial_joint_angles, return_error=True, bounds, solver, ...)`, `kinematics.py`
lines 265-277. The objective is the pose error as a function of the joint angles; that it is a function, that is,
does not depend on what the transform manager computed before, is theorem `C48_forward_memoryless`. The joint
values that the optimiser leaves behind in the transform manager are not modelled. -/
noncomputable def Chain.inverse {n : ℕ} (c : Chain n) (tm : TransformManager) (minimize : Minimizer n)
    (desired : Mat4) (initial : Vec n) (bounds : Option (Fin n → ℝ × ℝ)) (args : IKArgs) :
    Py (IKWorld n) (Vec n × ℝ) := do
  let bounds := bounds.getD c.jointLimits
  modify fun w => { w with calls := w.calls ++ [(args.solver, initial, bounds)] }
  Py.lift (minimize args.solver
    (fun q => ((c.eePoseError q desired args.orientationWeight args.positionWeight).exec tm).1) initial bounds)

/-- `_sample_joints_uniform(random_state, bounds)`, `kinematics.py` lines 396-400. -/
noncomputable def Chain.sampleJointsUniform {n : ℕ} (c : Chain n) (bounds : Option (Fin n → ℝ × ℝ)) :
    Py (IKWorld n) (Vec n) := do
  let w ← get
  modify fun w => { w with drawn := w.drawn + 1 }
  let bounds := bounds.getD c.jointLimits
  return fun i => w.rand w.drawn i * ((bounds i).2 - (bounds i).1) + (bounds i).1

/-- `np.argmin(errors)` of a list: index of the first smallest entry (and 0 for the empty list, for which numpy
raises). -/
noncomputable def argmin (errors : List ℝ) : ℕ :=
  errors.findIdx fun e => decide (∀ e' ∈ errors, e ≤ e')

/-- The loop of `inverse_with_random_restarts`, `kinematics.py` lines 318-328; `k` restarts are left. -/
noncomputable def Chain.restartLoop {n : ℕ} (c : Chain n) (tm : TransformManager) (minimize : Minimizer n)
    (desired : Mat4) (tolerance : ℝ) (args : IKArgs) :
    ℕ → List (Vec n) → List ℝ → Py (IKWorld n) (List (Vec n) × List ℝ)
  | 0, Q, errors => pure (Q, errors)
  | k + 1, Q, errors => do
    let q0 ← c.sampleJointsUniform none
    let (q, error) ← c.inverse tm minimize desired q0 none args
    let Q := Q ++ [q]
    let errors := errors ++ [error]
    if error ≤ tolerance then return (Q, errors)
    c.restartLoop tm minimize desired tolerance args k Q errors

/-- `Q[np.argmin(errors)]` -/
noncomputable def pick {n : ℕ} (Q : List (Vec n)) (errors : List ℝ) : Except PyErr (Vec n) :=
  match Q[argmin errors]? with
  | some q => .ok q
  | none => .error .indexError

/-- `Chain.inverse_with_random_restarts`, `kinematics.py` lines 316-331. -/
noncomputable def Chain.inverseWithRandomRestarts {n : ℕ} (c : Chain n) (tm : TransformManager)
    (minimize : Minimizer n) (desired : Mat4) (nRestarts : ℕ) (tolerance : ℝ) (args : IKArgs) :
    Py (IKWorld n) (Vec n) := do
  if ¬ 1 ≤ nRestarts then throw .assertionError
  let (Q, errors) ← c.restartLoop tm minimize desired tolerance args nRestarts [] []
  Py.lift (pick Q errors)

/-- The loop of `local_inverse_with_random_restarts`, `kinematics.py` lines 383-393: the computed bounds are used
for the next initial guess only, not passed to `self.inverse`. -/
noncomputable def Chain.localRestartLoop {n : ℕ} (c : Chain n) (tm : TransformManager) (minimize : Minimizer n)
    (desired : Mat4) (bounds : Fin n → ℝ × ℝ) (tolerance : ℝ) (args : IKArgs) :
    ℕ → Vec n → List (Vec n) → List ℝ → Py (IKWorld n) (List (Vec n) × List ℝ)
  | 0, _, Q, errors => pure (Q, errors)
  | k + 1, q0, Q, errors => do
    let (q, error) ← c.inverse tm minimize desired q0 none args
    let Q := Q ++ [q]
    let errors := errors ++ [error]
    if error ≤ tolerance then return (Q, errors)
    let q' ← c.sampleJointsUniform (some bounds)
    c.localRestartLoop tm minimize desired bounds tolerance args k q' Q errors

/-- `Chain.local_inverse_with_random_restarts`, `kinematics.py` lines 377-394. -/
noncomputable def Chain.localInverseWithRandomRestarts {n : ℕ} (c : Chain n) (tm : TransformManager)
    (minimize : Minimizer n) (desired : Mat4) (jointAngles : Vec n) (interval : ℝ) (nRestarts : ℕ)
    (tolerance : ℝ) (args : IKArgs) : Py (IKWorld n) (Vec n) := do
  if ¬ 1 ≤ nRestarts then throw .assertionError
  let bounds : Fin n → ℝ × ℝ := fun i => (jointAngles i - interval, jointAngles i + interval)
  let (Q, errors) ← c.localRestartLoop tm minimize desired bounds tolerance args nRestarts jointAngles [] []
  Py.lift (pick Q errors)

/-- `Q[t]` of `inverse_trajectory`, `kinematics.py` lines 477-489, from the previous joint angles. With random
restarts the argument `solver` is not passed on: the default "SLSQP" is used. Default values `n_restarts=10`,
`tolerance=1e-3`. -/
noncomputable def Chain.inverseTrajectoryStep {n : ℕ} (c : Chain n) (tm : TransformManager) (minimize : Minimizer n)
    (interval : ℝ) (randomRestarts : Bool) (args : IKArgs) (H : Mat4) (prev : Vec n) : Py (IKWorld n) (Vec n) :=
  if randomRestarts then
    c.localInverseWithRandomRestarts tm minimize H prev interval 10 (1 / 1000) { args with solver := "SLSQP" }
  else do
    let bounds : Fin n → ℝ × ℝ := fun i => (prev i - interval, prev i + interval)
    let r ← c.inverse tm minimize H prev (some bounds) args
    return r.1

/-- The loop over `t` of `inverse_trajectory`, `kinematics.py` lines 474-489. -/
noncomputable def Chain.inverseTrajectoryLoop {n : ℕ} (c : Chain n) (tm : TransformManager) (minimize : Minimizer n)
    (interval : ℝ) (randomRestarts : Bool) (args : IKArgs) :
    List Mat4 → Vec n → Py (IKWorld n) (List (Vec n))
  | [], _ => pure []
  | H :: rest, prev => do
    let q ← c.inverseTrajectoryStep tm minimize interval randomRestarts args H prev
    let Q ← c.inverseTrajectoryLoop tm minimize interval randomRestarts args rest q
    return q :: Q

/-- `Q[0]` of `inverse_trajectory`, `kinematics.py` lines 463-472. -/
noncomputable def Chain.inverseTrajectoryFirst {n : ℕ} (c : Chain n) (tm : TransformManager) (minimize : Minimizer n)
    (initial : Option (Vec n)) (args : IKArgs) (H : Mat4) : Py (IKWorld n) (Vec n) :=
  match initial with
  | none => c.inverseWithRandomRestarts tm minimize H 10 (1 / 1000) { args with solver := "SLSQP" }
  | some q => do
    let r ← c.inverse tm minimize H q none args
    return r.1

/-- `Chain.inverse_trajectory`, `kinematics.py` lines 420-490. IndexError (`H[0]`) for an empty trajectory. -/
noncomputable def Chain.inverseTrajectory {n : ℕ} (c : Chain n) (tm : TransformManager) (minimize : Minimizer n)
    (H : List Mat4) (initial : Option (Vec n)) (interval : ℝ) (randomRestarts : Bool) (args : IKArgs) :
    Py (IKWorld n) (List (Vec n)) :=
  match H with
  | [] => throw .indexError
  | H0 :: rest => do
    let q0 ← c.inverseTrajectoryFirst tm minimize initial args H0
    let Q ← c.inverseTrajectoryLoop tm minimize interval randomRestarts args rest q0
    return q0 :: Q

end Verif
