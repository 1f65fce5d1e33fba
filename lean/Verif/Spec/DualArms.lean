import Verif.Spec.Dual

/-! # A dual-arm DMP as two Cartesian DMPs -/

namespace Verif.Spec
variable {m : ℕ}

/-- Pose of the left (`arm = 0`) or right arm in a state of length 14. -/
def armPose (arm : Fin 2) (y : Vec 14) : Vec (3 + 4) :=
  if arm = 0 then ![y 0, y 1, y 2, y 3, y 4, y 5, y 6] else ![y 7, y 8, y 9, y 10, y 11, y 12, y 13]

/-- Linear and angular velocity of an arm; also its gains. -/
def armVelocity (arm : Fin 2) (v : Vec 12) : Vec (3 + 3) :=
  if arm = 0 then ![v 0, v 1, v 2, v 3, v 4, v 5] else ![v 6, v 7, v 8, v 9, v 10, v 11]

/-- Pose and velocity of an arm. -/
def armState (arm : Fin 2) (x : Vec 14 × Vec 12) : Vec (3 + 4) × Vec (3 + 3) := (armPose arm x.1, armVelocity arm x.2)

/-- The Cartesian DMP `p` has the same parameters, start, goal and weights as one arm of the dual-arm DMP `s`. -/
structure ArmOf (s : DualCartesianDMP m) (arm : Fin 2) (p : CartesianDMP m) : Prop where
  executionTime : p.executionTime = s.executionTime
  dt : p.dt = s.dt
  intDt : p.intDt = s.intDt
  smooth : p.smooth = s.smooth
  alphaY : p.alphaY = armVelocity arm s.alphaY
  betaY : p.betaY = armVelocity arm s.betaY
  startY : p.startY = armPose arm s.startY
  goalY : p.goalY = armPose arm s.goalY
  positionWeights : ∀ k i, p.ftPos.weights k i = armLinear arm (fun j => s.ft.weights j i) k
  orientationWeights : ∀ k i, p.ftRot.weights k i = armAngular arm (fun j => s.ft.weights j i) k

/-- A step function for orientations that uses the same quaternion functions as a dual-arm step function. -/
def SameQuaternions : DualStepFunction → QuatStepFunction → Prop
  | .python ops, .python ops' => ops = ops'
  | .cython, .cython => True
  | _, _ => False

end Verif.Spec
