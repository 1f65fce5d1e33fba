import Verif.Model.DualCartesian
import Verif.Spec.Cartesian

/-! # Vocabulary for dual-arm DMPs -/

namespace Verif.Spec
variable {m : ℕ}

/-- Position of the left (`arm = 0`) or right arm in a state of length 14. -/
def armPosition (arm : Fin 2) (y : Vec 14) : Vec 3 :=
  if arm = 0 then ![y 0, y 1, y 2] else ![y 7, y 8, y 9]

/-- Orientation of an arm. -/
def armOrientation (arm : Fin 2) (y : Vec 14) : Vec 4 :=
  if arm = 0 then ![y 3, y 4, y 5, y 6] else ![y 10, y 11, y 12, y 13]

/-- Linear velocity of an arm; also its position gains and forces. -/
def armLinear (arm : Fin 2) (v : Vec 12) : Vec 3 :=
  if arm = 0 then ![v 0, v 1, v 2] else ![v 6, v 7, v 8]

/-- Angular velocity of an arm; also its orientation gains and forces. -/
def armAngular (arm : Fin 2) (v : Vec 12) : Vec 3 :=
  if arm = 0 then ![v 3, v 4, v 5] else ![v 9, v 10, v 11]

/-- The quaternion functions used by a dual-arm step function obey the laws of quaternions. The functions of the Cython
version are part of the repository, nothing is assumed of them. -/
def LawfulDualStep : DualStepFunction → Prop
  | .python ops => ∃ eps > 0, LawfulQuatOps ops eps
  | .cython => True

/-- Both sets of quaternion functions give the same results on unit quaternions. -/
structure AgreeOnUnit (ops ops' : QuatOps) : Prop where
  mul : ∀ p q, UnitQuat p → UnitQuat q → ops.mul p q = ops'.mul p q
  conj : ∀ q, UnitQuat q → ops.conj q = ops'.conj q
  exp : ∀ a, ops.exp a = ops'.exp a
  log : ∀ q, UnitQuat q → ops.log q = ops'.log q

/-- Two objects with the same parameters, start, goal and weights; time and internal state may differ. -/
def SameConfiguration (s s' : DualCartesianDMP m) : Prop :=
  s' = { s with t := s'.t, lastT := s'.lastT, currentY := s'.currentY, currentYd := s'.currentYd,
                initialized := s'.initialized }

/-- Calls that execute a dual-arm DMP. -/
inductive DualCall where
  | step (coupling : Option DualCoupling) (sf : DualStepFunction) (y : Vec 14) (yd : Vec 12)
  | openLoop (runT : Option ℝ) (coupling : Option DualCoupling) (name : String)
  | reset

/-- Object after a call, whether it raises or not. -/
noncomputable def DualCall.after (ops : QuatOps) (s : DualCartesianDMP m) : DualCall → DualCartesianDMP m
  | .step c sf y yd => ((DualCartesianDMP.step ops c sf y yd).exec s).2
  | .openLoop runT c name => ((DualCartesianDMP.openLoop ops runT c name).exec s).2
  | .reset => (DualCartesianDMP.reset.exec s).2

/-- The position of one arm as a regular three-dimensional DMP. -/
def armPosDmp (a : DualStepArgs m) (arm : Fin 2) : StepArgs 3 m :=
  { goalY := armPosition arm a.goalY, goalYd := 0, goalYdd := 0
    startY := armPosition arm a.startY, startYd := armLinear arm a.startYd, startYdd := 0
    goalT := a.goalT, startT := a.startT, alphaY := armLinear arm a.alphaY, betaY := armLinear arm a.betaY
    ft := { a.ft with weights := fun k i => armLinear arm (fun j => a.ft.weights j i) k }
    intDt := a.intDt, smooth := a.smooth }

/-- The orientation of one arm as an orientation DMP. -/
def armRotDmp (a : DualStepArgs m) (arm : Fin 2) : QuatStepArgs m :=
  { goalY := armOrientation arm a.goalY, startY := armOrientation arm a.startY, startYd := armAngular arm a.startYd
    goalT := a.goalT, startT := a.startT, alphaY := armAngular arm a.alphaY, betaY := armAngular arm a.betaY
    ft := { a.ft with weights := fun k i => armAngular arm (fun j => a.ft.weights j i) k }
    intDt := a.intDt, smooth := a.smooth }

/-- The `beta_y` entries that the smooth scaling reads for the positions of the right arm (7, 8, 9) are those of the
positions of the right arm (6, 7, 8). -/
def UniformRightGains (betaY : Vec 12) : Prop := betaY 6 = betaY 7 ∧ betaY 7 = betaY 8 ∧ betaY 8 = betaY 9

/-- Threshold below which the logarithm of the quaternion functions used by a dual-arm step function is 0. -/
def DualThreshold : DualStepFunction → ℝ → Prop
  | .python ops, eps => 0 < eps ∧ LawfulQuatOps ops eps
  | .cython, eps => eps = 1 / 10 ^ 16

end Verif.Spec
