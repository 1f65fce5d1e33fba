import Verif.Spec.Frames
import Verif.Spec.Dual

/-! # Vocabulary: two arms in other coordinate frames, other units of time -/

namespace Verif
variable {m : ℕ}

/-- A change of frames of two arms: per arm, positions `x` become `P x + b`, linear velocities `P v`, orientations `R q` and
rotation vectors `Q w`. -/
structure DualFrame where
  P : Fin 2 → Vec 3 → Vec 3
  b : Fin 2 → Vec 3
  R : Fin 2 → Vec 4 → Vec 4
  Q : Fin 2 → Vec 3 → Vec 3

/-- A state of both arms in other frames. -/
def DualFrame.state (F : DualFrame) (y : Vec 14) : Vec 14 :=
  joinState (fun arm => F.P arm (Spec.armPosition arm y) + F.b arm) (fun arm => F.R arm (Spec.armOrientation arm y))

/-- A velocity, acceleration or force of both arms in other frames. -/
def DualFrame.vel (F : DualFrame) (v : Vec 12) : Vec 12 :=
  joinVel (fun arm => F.P arm (Spec.armLinear arm v)) (fun arm => F.Q arm (Spec.armAngular arm v))

/-- A dual-arm DMP in other frames: start, goal, current state and weights change. -/
def DualCartesianDMP.inFrame (F : DualFrame) (s : DualCartesianDMP m) : DualCartesianDMP m :=
  { s with
    startY := F.state s.startY
    startYd := F.vel s.startYd
    startYdd := F.vel s.startYdd
    goalY := F.state s.goalY
    goalYd := F.vel s.goalYd
    goalYdd := F.vel s.goalYdd
    currentY := F.state s.currentY
    currentYd := F.vel s.currentYd
    ft := { s.ft with weights := fun k i => F.vel (fun j => s.ft.weights j i) k } }

/-- The coupling terms `c` and `c'` correspond to each other. -/
def DualCouplingMapped (F : DualFrame) (c c' : Option DualCoupling) : Prop :=
  match c, c' with
  | none, none => True
  | some f, some f' => ∀ y v, (∀ arm, Spec.UnitQuat (Spec.armOrientation arm y)) →
      f' (F.state y) (F.vel v) = (F.vel (f y v).1, F.vel (f y v).2)
  | _, _ => False

/-- Both arms are translated. -/
def DualFrame.translation (b : Fin 2 → Vec 3) : DualFrame where
  P _ := id
  b := b
  R _ := id
  Q _ := id

/-- Other frames are fixed to the bodies. -/
noncomputable def DualFrame.body (r : Fin 2 → Vec 4) : DualFrame where
  P _ := id
  b := 0
  R arm := Spec.turned (r arm)
  Q _ := id

/-- The movement in another world frame, that is rotated by `p` and translated by `b`. (The frames of the two arms may be
moved differently.) -/
noncomputable def DualFrame.world (p : Fin 2 → Vec 4) (b : Fin 2 → Vec 3) : DualFrame where
  P arm := Spec.rotated (p arm)
  b := b
  R arm := Spec.turnedWorld (p arm)
  Q arm := Spec.rotated (p arm)

/-- The quaternion functions of a dual-arm step function do not depend on the world frame. The functions of the Cython version
are part of the repository, nothing is assumed of them. -/
def Spec.DualFrameFree : DualStepFunction → Prop
  | .python ops => Spec.LogRotates ops
  | .cython => True

/-- The forcing term of a dual-arm DMP belongs to its execution time: assigning the same execution time again changes
nothing. -/
def DualCartesianDMP.InTime (s : DualCartesianDMP m) : Prop :=
  (DualCartesianDMP.setExecutionTime s.executionTime).exec s = (.ok (), s)

/-- Times multiplied by `c`, velocities divided by `c`; the gain of the tracking error, that is divided by the length of a
sub-step, is multiplied by `c`. The execution time is not changed here. -/
noncomputable def DualCartesianDMP.inTimeUnit (c : ℝ) (s : DualCartesianDMP m) : DualCartesianDMP m :=
  { s with
    t := c * s.t
    lastT := s.lastT.map (c * ·)
    startYd := c⁻¹ • s.startYd
    startYdd := c⁻¹ • c⁻¹ • s.startYdd
    goalYd := c⁻¹ • s.goalYd
    goalYdd := c⁻¹ • c⁻¹ • s.goalYdd
    currentYd := c⁻¹ • s.currentYd
    dt := c * s.dt
    intDt := c * s.intDt
    pGain := c * s.pGain }

end Verif
