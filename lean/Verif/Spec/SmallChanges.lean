import Verif.Spec.Superposition
import Verif.Spec.Cartesian

/-!
# Movements that are almost the same

Two objects with the same parameters of the dynamical system, whose starts, goals and weights differ by at most `δ`.
-/

namespace Verif
variable {d m : ℕ}

/-- All coordinates differ by at most `δ`. -/
def Spec.Close (δ : ℝ) (x y : Vec d) : Prop := ∀ k, |x k - y k| ≤ δ

/-- All weights differ by at most `δ`. -/
def Spec.CloseWeights (δ : ℝ) (v w : Fin d → Fin m → ℝ) : Prop := ∀ k i, |v k i - w k i| ≤ δ

/-- Two trajectories have the same time stamps, the same number of rows, and their rows differ by at most `δ`. -/
def Spec.CloseRows (δ : ℝ) (r₁ r₂ : List ℝ × List (Vec d)) : Prop :=
  r₁.1 = r₂.1 ∧ List.Forall₂ (Spec.Close δ) r₁.2 r₂.2

open Spec

/-- Two DMPs are the same system, their starts, goals and weights differ by at most `δ`. -/
structure DMP.Near (δ : ℝ) (s₁ s₂ : DMP d m) : Prop where
  system : s₁.SameSystem s₂
  start : Close δ s₁.startY s₂.startY
  goal : Close δ s₁.goalY s₂.goalY
  weights : CloseWeights δ s₁.ft.weights s₂.ft.weights

/-- Also velocities and accelerations at start and goal differ by at most `δ`. -/
structure DMP.NearMotion (δ : ℝ) (s₁ s₂ : DMP d m) : Prop extends DMP.Near δ s₁ s₂ where
  startYd : Close δ s₁.startYd s₂.startYd
  startYdd : Close δ s₁.startYdd s₂.startYdd
  goalYd : Close δ s₁.goalYd s₂.goalYd
  goalYdd : Close δ s₁.goalYdd s₂.goalYdd

/-- Two spring-damper systems with the same parameters whose starts and goals differ by at most `δ`. -/
structure SpringDamper.Near (δ : ℝ) (s₁ s₂ : SpringDamper d) : Prop where
  system : s₁.SameSystem s₂
  start : Close δ s₁.startY s₂.startY
  goal : Close δ s₁.goalY s₂.goalY

/-- Two Cartesian DMPs have the same parameters of their position dynamics. -/
structure CartesianDMP.SamePositionSystem (s₁ s₂ : CartesianDMP m) : Prop where
  executionTime : s₂.executionTime = s₁.executionTime
  dt : s₂.dt = s₁.dt
  intDt : s₂.intDt = s₁.intDt
  smooth : s₂.smooth = s₁.smooth
  ft : s₁.ftPos.SameBasis s₂.ftPos
  alphaY : linear s₂.alphaY = linear s₁.alphaY
  betaY : linear s₂.betaY = linear s₁.betaY

/-- In addition, positions of start and goal and the weights of the positions differ by at most `δ`. -/
structure CartesianDMP.NearPositions (δ : ℝ) (s₁ s₂ : CartesianDMP m) : Prop where
  system : s₁.SamePositionSystem s₂
  start : Close δ (position s₁.startY) (position s₂.startY)
  goal : Close δ (position s₁.goalY) (position s₂.goalY)
  weights : CloseWeights δ s₁.ftPos.weights s₂.ftPos.weights

end Verif
