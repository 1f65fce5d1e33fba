import Verif.Spec.Cartesian
import Verif.Model.Dmp
import Verif.Model.SpringDamper
import Mathlib.Algebra.Module.LinearMap.Defs

/-!
# Changes of coordinate frames

Poses are given in a world frame; the orientation `q` is the rotation of a frame that is fixed to the body. Another
choice of the body frame multiplies all orientations by a quaternion from the right, another choice of the world frame
multiplies them from the left, and rotates positions, velocities and rotation vectors.
-/

namespace Verif.Spec
open Quaternion

/-- Coordinates of a quaternion. -/
def coords (x : ℍ[ℝ]) : Vec 4 := ![x.re, x.imI, x.imJ, x.imK]

/-- Orientation `q` after another choice of the body frame: `q r`. -/
noncomputable def turned (r q : Vec 4) : Vec 4 := coords (quat q * quat r)

/-- Orientation `q` in another world frame: `p q`. -/
noncomputable def turnedWorld (p q : Vec 4) : Vec 4 := coords (quat p * quat q)

/-- Coordinates of the vector part of a quaternion. -/
def vecPart (x : ℍ[ℝ]) : Vec 3 := ![x.imI, x.imJ, x.imK]

/-- The vector `v` rotated by `p`: `p v p*`. -/
noncomputable def rotated (p : Vec 4) (v : Vec 3) : Vec 3 := vecPart (quat p * pure v * star (quat p))

/-- Another choice of the body frame changes the orientation of a pose and leaves the position. -/
noncomputable def turnedPose (r : Vec 4) (y : Vec (3 + 4)) : Vec (3 + 4) := Fin.append (position y) (turned r (orientation y))

/-- A pose in another world frame, that is rotated by `p` and translated by `b`. -/
noncomputable def worldPose (p : Vec 4) (b : Vec 3) (y : Vec (3 + 4)) : Vec (3 + 4) :=
  Fin.append (rotated p (position y) + b) (turnedWorld p (orientation y))

/-- A velocity in another world frame. -/
noncomputable def worldVelocity (p : Vec 4) (v : Vec (3 + 3)) : Vec (3 + 3) :=
  Fin.append (rotated p (linear v)) (rotated p (angular v))

/-- The logarithm of a rotation does not depend on the world frame in which it is computed. -/
def LogRotates (ops : QuatOps) : Prop :=
  ∀ p q, UnitQuat p → UnitQuat q → ops.log (coords (quat p * quat q * star (quat p))) = rotated p (ops.log q)

/-- Rotation vectors between neighbours of a sequence of orientations, as documented for pytransform3d's
`quaternion_gradient`: from the previous to the next orientation, divided by two, one-sided at the ends. -/
noncomputable def quaternionGradient (ops : QuatOps) {n : ℕ} (Q : Fin (n + 2) → Vec 4) (t : Fin (n + 2)) : Vec 3 :=
  if t.val = 0 then QuatStepArgs.diff ops (Q 1) (Q 0)
  else if h : t.val + 1 < n + 2 then
    fun k => QuatStepArgs.diff ops (Q ⟨t.val + 1, h⟩) (Q ⟨t.val - 1, by omega⟩) k / 2
  else QuatStepArgs.diff ops (Q t) (Q ⟨t.val - 1, by omega⟩)

/-- The quaternion functions of a step function do not depend on the world frame. The functions of the Cython version are
part of the repository, nothing is assumed of them. -/
def FrameFree : QuatStepFunction → Prop
  | .python ops => LogRotates ops
  | .cython => True

end Verif.Spec

namespace Verif
variable {d d' m : ℕ}

/-- A forcing term whose weights are mapped to other dimensions by a linear map. -/
def ForcingTerm.mapWeights (ft : ForcingTerm d m) (P : Vec d →ₗ[ℝ] Vec d') : ForcingTerm d' m :=
  { ft with weights := fun k i => P (fun j => ft.weights j i) k }

/-- The coupling term `c'` is the coupling term `c` in the coordinates `P y + b`. -/
def CouplingMapped (P : Vec d →ₗ[ℝ] Vec d') (b : Vec d') (c : Option (Coupling d)) (c' : Option (Coupling d')) : Prop :=
  match c, c' with
  | none, none => True
  | some f, some f' => ∀ y v, f' (P y + b) (P v) = (P (f y v).1, P (f y v).2)
  | _, _ => False

/-- A DMP in the coordinates `P y + b`: positions are mapped to `P y + b`, velocities, accelerations and weights by `P`;
the gains are `α` and `β` in every dimension. -/
def DMP.mapped (P : Vec d →ₗ[ℝ] Vec d') (b : Vec d') (α β : ℝ) (s : DMP d m) : DMP d' m where
  t := s.t
  lastT := s.lastT
  startY := P s.startY + b
  startYd := P s.startYd
  startYdd := P s.startYdd
  goalY := P s.goalY + b
  goalYd := P s.goalYd
  goalYdd := P s.goalYdd
  currentY := P s.currentY + b
  currentYd := P s.currentYd
  executionTime := s.executionTime
  dt := s.dt
  intDt := s.intDt
  pGain := s.pGain
  smooth := s.smooth
  ft := s.ft.mapWeights P
  alphaY := fun _ => α
  betaY := fun _ => β
  initialized := s.initialized

/-- A Cartesian DMP after another choice of the body frame: only start, goal and current orientation change. -/
noncomputable def CartesianDMP.turned (r : Vec 4) (s : CartesianDMP m) : CartesianDMP m :=
  { s with
    startY := Spec.turnedPose r s.startY
    goalY := Spec.turnedPose r s.goalY
    currentY := Spec.turnedPose r s.currentY }

/-- A Cartesian DMP in another world frame: poses, velocities, accelerations and weights change. -/
noncomputable def CartesianDMP.inWorld (p : Vec 4) (b : Vec 3) (s : CartesianDMP m) : CartesianDMP m :=
  { s with
    startY := Spec.worldPose p b s.startY
    startYd := Spec.worldVelocity p s.startYd
    startYdd := Spec.worldVelocity p s.startYdd
    goalY := Spec.worldPose p b s.goalY
    goalYd := Spec.worldVelocity p s.goalYd
    goalYdd := Spec.worldVelocity p s.goalYdd
    currentY := Spec.worldPose p b s.currentY
    currentYd := Spec.worldVelocity p s.currentYd
    ftPos := { s.ftPos with weights := fun k i => Spec.rotated p (fun j => s.ftPos.weights j i) k }
    ftRot := { s.ftRot with weights := fun k i => Spec.rotated p (fun j => s.ftRot.weights j i) k } }

/-- The forcing terms of a Cartesian DMP belong to its execution time: assigning the same execution time again changes
nothing. -/
def CartesianDMP.InTime (s : CartesianDMP m) : Prop :=
  (CartesianDMP.setExecutionTime s.executionTime).exec s = (.ok (), s)

/-- A coupling term for poses after another choice of the body frame: it is asked about the old orientation. -/
noncomputable def PoseCoupling.turned (r : Vec 4) (c : PoseCoupling) : PoseCoupling where
  pos := c.pos
  rot := fun q v => c.rot (Spec.turned (Spec.coords (star (Spec.quat r))) q) v

/-- A coupling term for poses in another world frame: it is asked about the old state, its result is rotated. -/
noncomputable def PoseCoupling.inWorld (p : Vec 4) (b : Vec 3) (c : PoseCoupling) : PoseCoupling where
  pos := fun y v =>
    let back := Spec.rotated (Spec.coords (star (Spec.quat p)))
    let r := c.pos (back (y - b)) (back v)
    (Spec.rotated p r.1, Spec.rotated p r.2)
  rot := fun q v =>
    let r := c.rot (Spec.turnedWorld (Spec.coords (star (Spec.quat p))) q)
      (Spec.rotated (Spec.coords (star (Spec.quat p))) v)
    (Spec.rotated p r.1, Spec.rotated p r.2)

/-- The coupling terms `c` and `c'` for orientations correspond to each other under a change of frames that maps
orientations by `fy` and rotation vectors by `fv`. -/
def RotCouplingMapped (fy : Vec 4 → Vec 4) (fv : Vec 3 → Vec 3) (c c' : Option RotCoupling) : Prop :=
  match c, c' with
  | none, none => True
  | some f, some f' => ∀ q v, Spec.UnitQuat q → f' (fy q) (fv v) = (fv (f q v).1, fv (f q v).2)
  | _, _ => False

/-- A spring-damper system in the coordinates `P y + b`. -/
def SpringDamper.mapped (P : Vec d →ₗ[ℝ] Vec d') (b : Vec d') (s : SpringDamper d) : SpringDamper d' where
  t := s.t
  lastT := s.lastT
  startY := P s.startY + b
  startYd := P s.startYd
  startYdd := P s.startYdd
  goalY := P s.goalY + b
  goalYd := P s.goalYd
  goalYdd := P s.goalYdd
  currentY := P s.currentY + b
  currentYd := P s.currentYd
  dt := s.dt
  k := s.k
  c := s.c
  intDt := s.intDt
  initialized := s.initialized

/-- A spring-damper system for orientations in other frames. -/
def SpringDamperOrientation.mapped (fy : Vec 4 → Vec 4) (fv : Vec 3 → Vec 3) (s : SpringDamperOrientation) :
    SpringDamperOrientation :=
  { s with
    startY := fy s.startY
    startYd := fv s.startYd
    startYdd := fv s.startYdd
    goalY := fy s.goalY
    goalYd := fv s.goalYd
    goalYdd := fv s.goalYdd
    currentY := fy s.currentY
    currentYd := fv s.currentYd }

end Verif
