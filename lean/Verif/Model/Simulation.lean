import Verif.Py
import Verif.Np
import Mathlib.Algebra.Quaternion
import Mathlib.Algebra.Order.Floor.Semiring
import Mathlib.Algebra.Order.Archimedean.Real.Basic
import Mathlib.Analysis.Real.Sqrt
import Mathlib.Logic.Function.Basic
import Mathlib.Data.Fin.VecNotation

/-!
# Simulated robots (`movement_primitives/testing/simulation.py`)

PyBullet is a parameter (`Bullet`): what it computes (physics, forward and inverse kinematics) is arbitrary. Its transforms
and the assignment of motor commands to joints are modelled from its documentation. Loading of robots, the graphical
interface and `get_absolute_path` (lines 173-180) and the real-time mode are not modelled. Joint values are lists of numbers.
-/

namespace Verif.Sim
open Quaternion

/-! ## Poses -/

/-- A pose of PyBullet: position and quaternion with the scalar last. -/
structure BPose where
  pos : Vec 3
  rot : Vec 4

/-- `_pybullet_pose(pose)`, `testing/simulation.py` lines 72-77. -/
def pybulletPose (x : Vec 7) : BPose := { pos := ![x 0, x 1, x 2], rot := ![x 4, x 5, x 6, x 3] }

/-- `_pytransform_pose(pos, rot)`, lines 80-82. -/
def pytransformPose (p : BPose) : Vec 7 := ![p.pos 0, p.pos 1, p.pos 2, p.rot 3, p.rot 0, p.rot 1, p.rot 2]

/-- Quaternion of a PyBullet array. -/
def toQuat (r : Vec 4) : ℍ[ℝ] := ⟨r 3, r 0, r 1, r 2⟩

/-- PyBullet array of a quaternion. -/
def ofQuat (q : ℍ[ℝ]) : Vec 4 := ![q.imI, q.imJ, q.imK, q.re]

/-- The vector `x` rotated by the unit quaternion `q`. -/
noncomputable def rotate (q : ℍ[ℝ]) (x : Vec 3) : Vec 3 :=
  let r := q * ⟨0, x 0, x 1, x 2⟩ * star q
  ![r.imI, r.imJ, r.imK]

/-- `pybullet.multiplyTransforms(*a, *b)`: the product of two rigid transformations, `b` is applied first. (External
library; for unit quaternions.) -/
noncomputable def multiplyTransforms (a b : BPose) : BPose :=
  { pos := a.pos + rotate (toQuat a.rot) b.pos, rot := ofQuat (toQuat a.rot * toQuat b.rot) }

/-- `pybullet.invertTransform(*a)`: the inverse rigid transformation. (External library; for unit quaternions.) -/
noncomputable def invertTransform (a : BPose) : BPose :=
  { pos := -rotate (star (toQuat a.rot)) a.pos, rot := ofQuat (star (toQuat a.rot)) }

/-! ## The simulator -/

/-- Command for a motor of a joint. -/
inductive Motor where
  | position (target : ℝ)
  | velocity (target : ℝ)

/-- State of a simulation: position, velocity and last command of each joint (by index), and everything else. -/
structure World (R : Type) where
  q : ℕ → ℝ
  qd : ℕ → ℝ
  motor : ℕ → Option Motor
  rest : R

/-- What PyBullet computes. `inverseKinematics w link pose` contains one value for each joint that can be moved. -/
structure Bullet (R : Type) where
  isConnected : World R → Bool
  stepSimulation : World R → World R
  linkPose : World R → ℕ → BPose
  linkVelocity : World R → ℕ → Vec 3
  inverseKinematics : World R → ℕ → BPose → Except PyErr (List ℝ)

variable {R : Type}

/-- Command `k` is for joint `indices[k]`, one after the other. -/
def assignMotors : List ℕ → List Motor → (ℕ → Option Motor) → ℕ → Option Motor
  | i :: indices, c :: commands, m => assignMotors indices commands (Function.update m i (some c))
  | _, _, m => m

/-- `pybullet.setJointMotorControlArray(robot, indices, mode, targets)`; lists of different lengths are refused
(`pybullet.error`, represented by ValueError). -/
def setMotors (indices : List ℕ) (commands : List Motor) : Py (World R) Unit :=
  if indices.length ≠ commands.length then throw .valueError
  else modify fun w => { w with motor := assignMotors indices commands w.motor }

/-- `PybulletSimulation.step`, lines 49-52. -/
def step (b : Bullet R) : Py (World R) Unit := do
  let w ← get
  if b.isConnected w = false then throw .assertionError
  modify b.stepSimulation

/-- `PybulletSimulation.sim_loop(n_steps)`, lines 66-69. -/
def simLoop (b : Bullet R) : ℕ → Py (World R) Unit
  | 0 => pure ()
  | n + 1 => do
    let w ← get
    if b.isConnected w = false then pure ()
    else do
      modify b.stepSimulation
      simLoop b n

/-- `PybulletSimulation.sim_loop()`, lines 62-64. -/
noncomputable def simLoopForever (b : Bullet R) : Py (World R) Unit := do
  let w ← get
  let w ← Py.lift (whileLoop (fun w => b.isConnected w = true) b.stepSimulation w)
  set w

/-- `int(x / self.dt)` as the argument of `range`: rounded towards zero, and `range` of a negative number is empty;
ZeroDivisionError for `dt = 0`. -/
noncomputable def nSteps (x dt : ℝ) : Except PyErr ℕ := if dt = 0 then .error .zeroDivisionError else .ok ⌊x / dt⌋₊

/-- What `step_through_cartesian` returns. -/
structure Log (p v : ℕ) where
  desiredPositions : List (Vec p)
  positions : List (Vec p)
  desiredVelocities : List (Vec v)
  velocities : List (Vec v)

/-- A steppable object: its method `step(last_p, last_v)`, with a fixed coupling term. -/
abbrev Steppable (S : Type) (p v : ℕ) := Vec p → Vec v → Py S (Vec p × Vec v)

/-! ## SimulationMockup -/

/-- The loop of `SimulationMockup.step_through_cartesian`, lines 697-707: the results of the calls. -/
def mockupLoop {S : Type} {p v : ℕ} (steppable : Steppable S p v) : ℕ → Vec p → Vec v → Py S (List (Vec p × Vec v))
  | 0, _, _ => pure []
  | n + 1, lastP, lastV => do
    let r ← steppable lastP lastV
    let rest ← mockupLoop steppable n r.1 r.2
    return r :: rest

/-- `SimulationMockup.step_through_cartesian`, lines 691-712. (Simplified: arrays are values,
so the aliasing of C58 with `StateFollowingDMP` is not visible here.) -/
noncomputable def mockupStepThrough {S : Type} {p v : ℕ} (dt : ℝ) (steppable : Steppable S p v) (lastP : Vec p)
    (lastV : Vec v) (executionTime : ℝ) : Py S (Log p v) := do
  let n ← Py.lift (nSteps executionTime dt)
  let rows ← mockupLoop steppable n lastP lastV
  return { desiredPositions := lastP :: rows.map Prod.fst, positions := lastP :: rows.map Prod.fst
           desiredVelocities := lastV :: rows.map Prod.snd, velocities := lastV :: rows.map Prod.snd }

/-! ## UR5Simulation -/

/-- State of all PyBullet instances ("clients") of a process, by number. The first one that is started has number 0. -/
abbrev Clients (R : Type) := ℕ → World R

/-- A call of PyBullet with `physicsClientId=c`. -/
def onClient {α : Type} (c : ℕ) (m : Py (World R) α) : Py (Clients R) α :=
  Py.zoom (fun cs => cs c) (fun w cs => Function.update cs c w) m

/-- A method of the simulation, or of the steppable object, in `step_through_cartesian`. -/
def onSim {W S α : Type} (m : Py W α) : Py (W × S) α := Py.zoom Prod.fst (fun w x => (w, x.2)) m
def onObject {W S α : Type} (m : Py S α) : Py (W × S) α := Py.zoom Prod.snd (fun s x => (x.1, s)) m

/-- `(q - last_q) / self.dt` as velocities, lines 303 and 630: ValueError for arrays of different lengths (numpy would
accept one of length 1; real numbers: division by `dt = 0` gives 0, not infinity). -/
noncomputable def velocityCommand (dt : ℝ) (q lastQ : List ℝ) : Except PyErr (List ℝ) :=
  if q.length ≠ lastQ.length then .error .valueError else .ok (List.zipWith (fun a c => (a - c) / dt) q lastQ)

/-- Attributes of a `UR5Simulation`, lines 197-222. `inv_base_pose` is computed from `base_pose`. -/
structure UR5 where
  dt : ℝ
  /-- `self.client_id`: used by `step` and `sim_loop`; all other calls have no argument `physicsClientId`, so that they are
  calls to client 0 -/
  clientId : ℕ
  basePose : BPose
  eeLink : ℕ
  /-- `self.joint_indices[:self.n_ur5_joints]` -/
  joints : List ℕ

namespace UR5
variable (u : UR5) (b : Bullet R)

/-- Pose passed to the inverse kinematics of PyBullet, lines 237-239. -/
noncomputable def ikTarget (ee2robot : Vec 7) : BPose := multiplyTransforms (pybulletPose ee2robot) u.basePose

/-- `inverse_kinematics(ee2robot)`, lines 224-247. The exception for a result that is not a number is an error of
`b.inverseKinematics` here. -/
noncomputable def inverseKinematics (ee2robot : Vec 7) : Py (Clients R) (List ℝ) := onClient 0 do
  let w ← get
  let q ← Py.lift (b.inverseKinematics w u.eeLink (u.ikTarget ee2robot))
  return q.take 6

/-- `get_joint_state()`, lines 249-267. -/
def getJointState : Py (Clients R) (List ℝ × List ℝ) := onClient 0 do
  let w ← get
  return (u.joints.map w.q, u.joints.map w.qd)

/-- `set_desired_joint_state(joint_state, position_control)`, lines 269-278. -/
def setDesiredJointState (x : List ℝ) (positionControl : Bool) : Py (Clients R) Unit :=
  onClient 0 (setMotors u.joints (x.map (if positionControl then .position else .velocity)))

/-- Pose part of `get_ee_state()`, lines 281-286 and 297. -/
noncomputable def poseOf (w : World R) : Vec 7 :=
  pytransformPose (multiplyTransforms (b.linkPose w u.eeLink) (invertTransform u.basePose))

/-- Velocity part of `get_ee_state(return_velocity=True)`, lines 288-295: the linear velocity is transformed like a
position, the angular velocity is 0. -/
noncomputable def velocityOf (w : World R) : Vec 6 :=
  let v := (multiplyTransforms { pos := b.linkVelocity w u.eeLink, rot := ![0, 0, 0, 1] }
    (invertTransform u.basePose)).pos
  ![v 0, v 1, v 2, 0, 0, 0]

/-- `get_ee_state(return_velocity=True)`, lines 280-297. -/
noncomputable def getEeState : Py (Clients R) (Vec 7 × Vec 6) := onClient 0 do
  let w ← get
  return (u.poseOf b w, u.velocityOf b w)

/-- `set_desired_ee_state(ee_state)`, lines 299-303. -/
noncomputable def setDesiredEeState (x : Vec 7) : Py (Clients R) Unit := do
  let q ← u.inverseKinematics b x
  let last ← u.getJointState
  let v ← Py.lift (velocityCommand u.dt q last.1)
  u.setDesiredJointState v false

/-- `stop()`, lines 305-310. -/
def stop : Py (Clients R) Unit := do
  onClient 0 (setMotors u.joints (List.replicate 6 (.velocity 0)))
  onClient u.clientId (step b)

/-- `goto_ee_state(ee_state, wait_time)`, lines 312-318 (without `text`). -/
noncomputable def gotoEeState (x : Vec 7) (waitTime : ℝ) : Py (Clients R) Unit := do
  let q ← u.inverseKinematics b x
  u.setDesiredJointState q true
  let n ← Py.lift (nSteps waitTime u.dt)
  onClient u.clientId (simLoop b n)

/-- `last_p` of `step_through_cartesian`, lines 328-329. -/
noncomputable def feedback (closedLoop : Bool) (lastP : Vec 7) : Py (Clients R) (Vec 7) :=
  if closedLoop then do
    let x ← u.getEeState b
    return x.1
  else pure lastP

/-- One iteration of `step_through_cartesian`, lines 328-343: the desired and the measured pose and velocity. -/
noncomputable def iteration {S : Type} (steppable : Steppable S 7 6) (closedLoop : Bool) (lastP : Vec 7) (lastV : Vec 6) :
    Py (Clients R × S) ((Vec 7 × Vec 6) × (Vec 7 × Vec 6)) := do
  let lastP ← onSim (u.feedback b closedLoop lastP)
  let r ← onObject (steppable lastP lastV)
  onSim (u.setDesiredEeState b r.1)
  onSim (onClient u.clientId (step b))
  let x ← onSim (u.getEeState b)
  return (r, x)

/-- The loop of `step_through_cartesian`, lines 327-343. -/
noncomputable def loop {S : Type} (steppable : Steppable S 7 6) (closedLoop : Bool) :
    ℕ → Vec 7 → Vec 6 → Py (Clients R × S) (List ((Vec 7 × Vec 6) × (Vec 7 × Vec 6)))
  | 0, _, _ => pure []
  | n + 1, lastP, lastV => do
    let r ← u.iteration b steppable closedLoop lastP lastV
    let rest ← loop steppable closedLoop n r.1.1 r.1.2
    return r :: rest

/-- `step_through_cartesian`, lines 320-350. -/
noncomputable def stepThrough {S : Type} (steppable : Steppable S 7 6) (lastP : Vec 7) (lastV : Vec 6)
    (executionTime : ℝ) (closedLoop : Bool) : Py (Clients R × S) (Log 7 6) := do
  let x ← onSim (u.getEeState b)
  let n ← Py.lift (nSteps executionTime u.dt)
  let rows ← u.loop b steppable closedLoop n lastP lastV
  onSim (u.stop b)
  return { desiredPositions := lastP :: rows.map (·.1.1), positions := x.1 :: rows.map (·.2.1)
           desiredVelocities := lastV :: rows.map (·.1.2), velocities := x.2 :: rows.map (·.2.2) }

end UR5

/-! ## Names and indices of joints and links -/

/-- Joint types of PyBullet, `_joint_type`, lines 822-830 (`JOINT_REVOLUTE` 0, `JOINT_PRISMATIC` 1, `JOINT_SPHERICAL` 2,
`JOINT_PLANAR` 3, `JOINT_FIXED` 4); ValueError for other numbers. -/
def jointType (id : ℕ) : Except PyErr String :=
  match id with
  | 0 => .ok "revolute"
  | 1 => .ok "prismatic"
  | 2 => .ok "spherical"
  | 3 => .ok "planar"
  | 4 => .ok "fixed"
  | _ => .error .valueError

/-- What `getJointInfo` tells about a joint (the entries that are used). -/
structure JointInfo where
  name : String
  type : ℕ
  childLink : String
  parentIndex : ℤ

/-- `UR5Simulation.__init__`, lines 209-217: the first six revolute joints, and the link that is two after the parent of
joint 6. (`pybullet.error` for a robot without joint 6 is represented by IndexError.) -/
def UR5.create (dt : ℝ) (clientId : ℕ) (basePose : BPose) (joints : List JointInfo) : Except PyErr UR5 :=
  match joints[6]? with
  | none => .error .indexError
  | some j =>
    .ok { dt := dt, clientId := clientId, basePose := basePose, eeLink := (j.parentIndex + 2).toNat
          joints := ((List.range joints.length).filter fun i => (joints[i]?.map JointInfo.type) = some 0).take 6 }

/-- Keys of `link_name_to_link_id`: `getBodyInfo` returns the name of the base link as `bytes`, which is not decoded and
different from every `str`. -/
inductive LinkName where
  | bytes (s : String)
  | str (s : String)
  deriving DecidableEq

/-- State of the loop of `analyze_robot`; dictionaries are association lists, new entries are at the front. -/
structure Analysis where
  lastLink : ℤ
  links : List (ℤ × LinkName)
  joints : List (String × ℕ)
  ikJoints : List (String × ℕ)
  ikIndex : ℕ

/-- Lines 784-786 of `analyze_robot`. -/
def addLink (name : String) (s : Analysis) : Analysis :=
  if LinkName.str name ∈ s.links.map Prod.snd then s
  else { s with lastLink := s.lastLink + 1, links := (s.lastLink + 1, .str name) :: s.links }

/-- Lines 789-795 of `analyze_robot`. -/
def addJoint (i : ℕ) (name type : String) (s : Analysis) : Analysis :=
  if type ≠ "fixed" then
    { s with joints := (name, i) :: s.joints, ikJoints := (name, s.ikIndex) :: s.ikJoints, ikIndex := s.ikIndex + 1 }
  else { s with joints := (name, i) :: s.joints }

/-- Body of the loop of `analyze_robot`, lines 775-795, for joint number `i`. -/
def analyzeJoint (i : ℕ) (j : JointInfo) (s : Analysis) : Except PyErr Analysis :=
  if j.parentIndex ∉ (addLink j.childLink s).links.map Prod.fst then .error .assertionError
  else do
    let type ← jointType j.type
    return addJoint i j.name type (addLink j.childLink s)

/-- The loop over the joints with the numbers `i`, `i + 1`, ... -/
def analyzeLoop : ℕ → List JointInfo → Analysis → Except PyErr Analysis
  | _, [], s => .ok s
  | i, j :: js, s => do
    let s ← analyzeJoint i j s
    analyzeLoop (i + 1) js s

/-- Result of `analyze_robot`: look-up of names. -/
structure RobotIndices where
  joint : String → Option ℕ
  link : LinkName → Option ℤ
  ik : String → Option ℕ

/-- `analyze_robot`, lines 755-819. In `link_name_to_link_id` the last entry of the dictionary with a name counts. -/
def analyzeRobot (baseLink : String) (joints : List JointInfo) : Except PyErr RobotIndices := do
  let s ← analyzeLoop 0 joints { lastLink := -1, links := [(-1, .bytes baseLink)], joints := [], ikJoints := [], ikIndex := 0 }
  return { joint := fun n => s.joints.lookup n
           link := fun n => (s.links.map Prod.swap).lookup n
           ik := fun n => s.ikJoints.lookup n }

/-! ## KinematicsChain -/

/-- `d[k]`. -/
def getKey {α : Type} (x : Option α) : Except PyErr α :=
  match x with
  | some a => .ok a
  | none => .error .keyError

/-- Attributes of a `KinematicsChain`. -/
structure IkChain where
  jointIndices : List ℕ
  eeIndex : ℕ
  qIndices : List ℕ

/-- `KinematicsChain.__init__`, lines 391-398, for the results of `analyze_robot`. -/
def IkChain.create (ix : RobotIndices) (eeFrame : String) (joints : List String) : Except PyErr IkChain := do
  let ids ← joints.mapM fun n => getKey (ix.joint n)
  let ee ← getKey (ix.link (.str eeFrame))
  let qs ← joints.mapM fun n => getKey (ix.ik n)
  return { jointIndices := ids, eeIndex := ee.toNat, qIndices := qs }

namespace IkChain
variable (c : IkChain) (b : Bullet R)

/-- `np.linalg.norm(q_current - q_internal) < joint_state_eps`. -/
def reached (eps : ℝ) (q : List ℝ) (w : World R) : Prop :=
  Real.sqrt ((List.zipWith (fun a x => (a - x) ^ 2) q (c.jointIndices.map w.q)).sum) < eps

open Classical in
/-- The loop of `goto_joint_state`, lines 448-454. -/
noncomputable def gotoLoop (eps : ℝ) (q : List ℝ) : ℕ → World R → World R
  | 0, w => w
  | n + 1, w =>
    let w := b.stepSimulation w
    if c.reached eps q w then w else gotoLoop eps q n w

/-- `goto_joint_state(q_current, max_steps_to_joint_state, joint_state_eps)`, lines 441-454. -/
noncomputable def gotoJointState (q : List ℝ) (maxSteps : ℕ) (eps : ℝ) : Py (World R) Unit := do
  setMotors c.jointIndices (q.map .position)
  modify (c.gotoLoop b eps q maxSteps)

/-- `np.asarray(q)[self.q_indices]`. -/
def select (q : List ℝ) : Except PyErr (List ℝ) :=
  c.qIndices.mapM fun i => match q[i]? with
    | some x => .ok x
    | none => .error .indexError

/-- `inverse(desired_ee_state, q_current)`, lines 403-439. -/
noncomputable def inverse (x : Vec 7) (qCurrent : Option (List ℝ)) : Py (World R) (List ℝ) := do
  match qCurrent with
  | some q => c.gotoJointState b q 50 (1 / 1000)
  | none => pure ()
  let q ← Py.lift (b.inverseKinematics (← get) c.eeIndex (pybulletPose x))
  Py.lift (c.select q)

end IkChain

/-! ## RH5Simulation -/

/-- Attributes of an `RH5Simulation`, lines 493-520. -/
structure RH5 where
  dt : ℝ
  leftJoints : List ℕ
  rightJoints : List ℕ
  leftEe : ℕ
  rightEe : ℕ
  leftIk : IkChain
  rightIk : IkChain

/-- The three PyBullet clients of an `RH5Simulation`: robot, left arm and right arm. All calls have the argument
`physicsClientId`. -/
structure RH5World (R : Type) where
  robot : World R
  left : World R
  right : World R

/-- `RH5Simulation.base_pose`, line 507. -/
def identityPose : BPose := { pos := 0, rot := ![0, 0, 0, 1] }

namespace RH5
variable (r : RH5) (b : Bullet R)

/-- `RH5Simulation.__init__`, lines 504-520, for the results of `analyze_robot` for the robot and the two arms. -/
def create (dt : ℝ) (robot leftArm rightArm : RobotIndices) (leftFrame rightFrame : String)
    (leftJoints rightJoints : List String) : Except PyErr RH5 := do
  let lj ← leftJoints.mapM fun n => getKey (robot.joint n)
  let rj ← rightJoints.mapM fun n => getKey (robot.joint n)
  let le ← getKey (robot.link (.str leftFrame))
  let re ← getKey (robot.link (.str rightFrame))
  let lc ← IkChain.create leftArm leftFrame leftJoints
  let rc ← IkChain.create rightArm rightFrame rightJoints
  return { dt := dt, leftJoints := lj, rightJoints := rj, leftEe := le.toNat, rightEe := re.toNat, leftIk := lc, rightIk := rc }

/-- Calls to one of the clients. -/
def onRobot {α : Type} (m : Py (World R) α) : Py (RH5World R) α :=
  Py.zoom RH5World.robot (fun w x => { x with robot := w }) m
def onLeft {α : Type} (m : Py (World R) α) : Py (RH5World R) α :=
  Py.zoom RH5World.left (fun w x => { x with left := w }) m
def onRight {α : Type} (m : Py (World R) α) : Py (RH5World R) α :=
  Py.zoom RH5World.right (fun w x => { x with right := w }) m

/-- `ee2robot[:7]` and `ee2robot[7:]`. -/
def leftPose (x : Vec 14) : Vec 7 := fun i => x (Fin.castAdd 7 i)
def rightPose (x : Vec 14) : Vec 7 := fun i => x (Fin.natAdd 7 i)

/-- `inverse_kinematics(ee2robot)`, lines 522-546. -/
noncomputable def inverseKinematics (x : Vec 14) : Py (RH5World R) (List ℝ) := do
  let w ← onRobot get
  let left ← onLeft (r.leftIk.inverse b (leftPose x) (some (r.leftJoints.map w.q)))
  let w ← onRobot get
  let right ← onRight (r.rightIk.inverse b (rightPose x) (some (r.rightJoints.map w.q)))
  return left ++ right

/-- `get_joint_state()`, lines 548-566. -/
def getJointState : Py (RH5World R) (List ℝ × List ℝ) := onRobot do
  let w ← get
  return ((r.leftJoints ++ r.rightJoints).map w.q, (r.leftJoints ++ r.rightJoints).map w.qd)

/-- `set_desired_joint_state(joint_state, position_control)`, lines 568-589. -/
def setDesiredJointState (x : List ℝ) (positionControl : Bool) : Py (RH5World R) Unit := do
  onRobot (setMotors r.leftJoints
    ((x.take r.leftJoints.length).map (if positionControl then .position else .velocity)))
  onRobot (setMotors r.rightJoints
    ((x.drop r.leftJoints.length).map (if positionControl then .position else .velocity)))

/-- Pose of one end effector in `get_ee_state()`, lines 592-606. -/
noncomputable def armPose (link : ℕ) (w : World R) : Vec 7 :=
  pytransformPose (multiplyTransforms (b.linkPose w link) (invertTransform identityPose))

/-- Result of `get_ee_state()`, lines 591-621. -/
noncomputable def poseOf (w : World R) : Vec 14 :=
  Fin.append (m := 7) (n := 7) (armPose b r.leftEe w) (armPose b r.rightEe w)

/-- `get_ee_state(return_velocity)`, lines 591-621. -/
noncomputable def getEeState (returnVelocity : Bool) : Py (RH5World R) (Vec 14) := onRobot do
  let w ← get
  if returnVelocity then throw .notImplementedError
  return r.poseOf b w

/-- `set_desired_ee_state(ee_state, position_control)`, lines 623-630. -/
noncomputable def setDesiredEeState (x : Vec 14) (positionControl : Bool) : Py (RH5World R) Unit := do
  let q ← r.inverseKinematics b x
  if positionControl then r.setDesiredJointState q true
  else do
    let last ← r.getJointState
    let v ← Py.lift (velocityCommand r.dt q last.1)
    r.setDesiredJointState v false

/-- `goto_ee_state(ee_state, wait_time)`, lines 637-643 (without `text`). -/
noncomputable def gotoEeState (x : Vec 14) (waitTime : ℝ) : Py (RH5World R) Unit := do
  let q ← r.inverseKinematics b x
  r.setDesiredJointState q true
  let n ← Py.lift (nSteps waitTime r.dt)
  onRobot (simLoop b n)

/-- `stop()`, lines 632-635. -/
noncomputable def stop : Py (RH5World R) Unit := do
  let x ← r.getEeState b false
  r.gotoEeState b x 1
  onRobot (step b)

/-- `last_p` of `step_through_cartesian`, lines 653-654. -/
noncomputable def feedback (closedLoop : Bool) (lastP : Vec 14) : Py (RH5World R) (Vec 14) :=
  if closedLoop then r.getEeState b false else pure lastP

/-- One iteration of `step_through_cartesian`, lines 653-669: the desired pose and velocity and the measured pose. -/
noncomputable def iteration {S : Type} (steppable : Steppable S 14 12) (closedLoop : Bool) (lastP : Vec 14)
    (lastV : Vec 12) : Py (RH5World R × S) ((Vec 14 × Vec 12) × Vec 14) := do
  let lastP ← onSim (r.feedback b closedLoop lastP)
  let x ← onObject (steppable lastP lastV)
  onSim (r.setDesiredEeState b x.1 false)
  onSim (onRobot (step b))
  let p ← onSim (r.getEeState b false)
  return (x, p)

/-- The loop of `step_through_cartesian`, lines 652-669. -/
noncomputable def loop {S : Type} (steppable : Steppable S 14 12) (closedLoop : Bool) :
    ℕ → Vec 14 → Vec 12 → Py (RH5World R × S) (List ((Vec 14 × Vec 12) × Vec 14))
  | 0, _, _ => pure []
  | n + 1, lastP, lastV => do
    let x ← r.iteration b steppable closedLoop lastP lastV
    let rest ← loop steppable closedLoop n x.1.1 x.1.2
    return x :: rest

/-- `step_through_cartesian`, lines 645-676: `velocities` are zero and then the desired velocities. -/
noncomputable def stepThrough {S : Type} (steppable : Steppable S 14 12) (lastP : Vec 14) (lastV : Vec 12)
    (executionTime : ℝ) (closedLoop : Bool) : Py (RH5World R × S) (Log 14 12) := do
  let p ← onSim (r.getEeState b false)
  let n ← Py.lift (nSteps executionTime r.dt)
  let rows ← r.loop b steppable closedLoop n lastP lastV
  onSim (r.stop b)
  return { desiredPositions := lastP :: rows.map (·.1.1), positions := p :: rows.map (·.2)
           desiredVelocities := lastV :: rows.map (·.1.2), velocities := 0 :: rows.map (·.1.2) }

end RH5

/-! ## Drawing of trajectories -/

/-- Lines 163-170 of `draw_trajectory`: indices of the key frames, `np.linspace(0, n - 1, n_key_frames, dtype=np.int64)`
(numpy rounds down). One key frame is at 0. -/
noncomputable def keyFrames (n nKeyFrames : ℕ) : List ℤ :=
  (List.range nKeyFrames).map fun i : ℕ =>
    if nKeyFrames ≤ 1 then 0 else ⌊(i : ℝ) * (((n : ℝ) - 1) / ((nKeyFrames : ℝ) - 1))⌋

/-- Pairs of consecutive indices that are connected by lines, lines 167-170. -/
def segments (n : ℕ) : List (ℕ × ℕ) := (List.range (n - 1)).map fun i => (i, i + 1)

end Verif.Sim
