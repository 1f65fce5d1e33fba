import Verif.Model.Simulation

/-! # Specification vocabulary for simulated robots -/

namespace Verif.Spec
open Verif.Sim

/-- The vector `v` rotated by the unit quaternion `w + x i + y j + z k`, by its rotation matrix. -/
def turnedBy (w x y z : ℝ) (v : Vec 3) : Vec 3 :=
  ![(w ^ 2 + x ^ 2 - y ^ 2 - z ^ 2) * v 0 + 2 * (x * y - w * z) * v 1 + 2 * (x * z + w * y) * v 2,
    2 * (x * y + w * z) * v 0 + (w ^ 2 - x ^ 2 + y ^ 2 - z ^ 2) * v 1 + 2 * (y * z - w * x) * v 2,
    2 * (x * z - w * y) * v 0 + 2 * (y * z + w * x) * v 1 + (w ^ 2 - x ^ 2 - y ^ 2 + z ^ 2) * v 2]

/-- The rigid transformation of a pose `(x, y, z, qw, qx, qy, qz)`: where the point `v` of the frame is. -/
def placed (x : Vec 7) (v : Vec 3) : Vec 3 := ![x 0, x 1, x 2] + turnedBy (x 3) (x 4) (x 5) (x 6) v

/-- The rigid transformation of a pose of PyBullet, `(x, y, z), (qx, qy, qz, qw)`. -/
def placedBullet (p : BPose) (v : Vec 3) : Vec 3 := p.pos + turnedBy (p.rot 3) (p.rot 0) (p.rot 1) (p.rot 2) v

/-- The orientation is a unit quaternion. -/
def IsPose (p : BPose) : Prop := p.rot 0 ^ 2 + p.rot 1 ^ 2 + p.rot 2 ^ 2 + p.rot 3 ^ 2 = 1

/-- A joint that is not fixed: its type is not PyBullet's `JOINT_FIXED`. -/
def _root_.Verif.Sim.JointInfo.Movable (j : JointInfo) : Prop := j.type ≠ 4

instance (j : JointInfo) : Decidable j.Movable := inferInstanceAs (Decidable (_ ≠ _))

/-- Numbers of the joints that are not fixed, in ascending order. -/
def movableJoints (js : List JointInfo) : List ℕ :=
  (List.range js.length).filter fun i => decide (∃ h : i < js.length, js[i].Movable)

variable {R : Type}

/-- Calls of `step` with given arguments, one after the other; all results are returned. -/
def feedSteps {S : Type} {p v : ℕ} (step : Vec p → Vec v → Py S (Vec p × Vec v)) :
    List (Vec p × Vec v) → Py S (List (Vec p × Vec v))
  | [] => pure []
  | x :: xs => do
    let r ← step x.1 x.2
    let rest ← feedSteps step xs
    return r :: rest

/-- Joints with a velocity command have moved by `dt` times that velocity after a step of the simulation, and the simulation
is never closed. -/
def FollowsVelocities (b : Bullet R) (dt : ℝ) : Prop :=
  (∀ w, b.isConnected w = true) ∧
  ∀ w i v, w.motor i = some (.velocity v) → (b.stepSimulation w).q i = w.q i + dt * v

/-- For the pose `target` of a link inverse kinematics always has a solution, whose entries `0`, `1`, ... are for the
joints `joints`: with these joint positions the link has that pose. -/
def SolvesIk (b : Bullet R) (link : ℕ) (joints : List ℕ) (target : BPose) : Prop :=
  ∀ w, ∃ q, b.inverseKinematics w link target = .ok q ∧ joints.length ≤ q.length ∧
    ∀ w' : World R, joints.map w'.q = q.take joints.length → b.linkPose w' link = target

/-- The same for a robot whose arm is also simulated separately, by `c`: the entries of the solution are selected by
`c.qIndices`. -/
def SolvesArmIk (b : Bullet R) (c : IkChain) (link : ℕ) (joints : List ℕ) (target : BPose) : Prop :=
  ∀ w, ∃ q qs, b.inverseKinematics w c.eeIndex target = .ok q ∧ c.select q = .ok qs ∧ qs.length = joints.length ∧
    ∀ w' : World R, joints.map w'.q = qs → b.linkPose w' link = target

end Verif.Spec
