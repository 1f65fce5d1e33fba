import Verif.Model.Imitate
import Verif.Model.SpringDamper

/-!
# Superposition

Two movements that are executed by the same system, and the movement whose start, goal and weights are the sum of `p` times
those of the first and `q` times those of the second one. With `p + q = 1` this is a movement between the two.
-/

namespace Verif
variable {d m : ℕ}

/-- `p` times the first plus `q` times the second vector. -/
def Spec.mix (p q : ℝ) (x y : Vec d) : Vec d := fun k => p * x k + q * y k

/-- Rows of a trajectory mixed with the rows of another trajectory with the same time stamps. -/
def Spec.mixRows (p q : ℝ) (r₁ r₂ : List ℝ × List (Vec d)) : List ℝ × List (Vec d) :=
  (r₁.1, List.zipWith (Spec.mix p q) r₁.2 r₂.2)

/-- Two trajectories have the same time stamps and the same number of rows. -/
def Spec.SameTimes (r₁ r₂ : List ℝ × List (Vec d)) : Prop := r₁.1 = r₂.1 ∧ r₁.2.length = r₂.2.length

/-- Two forcing terms differ only in their weights. -/
def ForcingTerm.SameBasis (f₁ f₂ : ForcingTerm d m) : Prop := f₂ = { f₁ with weights := f₂.weights }

/-- The forcing term with mixed weights. -/
def ForcingTerm.mix (p q : ℝ) (f₁ f₂ : ForcingTerm d m) : ForcingTerm d m :=
  { f₁ with weights := fun k i => p * f₁.weights k i + q * f₂.weights k i }

open Spec in
/-- Start, goal and current state are mixed. -/
def Movement.mix (p q : ℝ) {n v : ℕ} (s₁ s₂ : Movement n v) : Movement n v :=
  { s₁ with
    startY := Spec.mix p q s₁.startY s₂.startY
    startYd := Spec.mix p q s₁.startYd s₂.startYd
    startYdd := Spec.mix p q s₁.startYdd s₂.startYdd
    goalY := Spec.mix p q s₁.goalY s₂.goalY
    goalYd := Spec.mix p q s₁.goalYd s₂.goalYd
    goalYdd := Spec.mix p q s₁.goalYdd s₂.goalYdd
    currentY := Spec.mix p q s₁.currentY s₂.currentY
    currentYd := Spec.mix p q s₁.currentYd s₂.currentYd }

/-- Two DMPs differ only in start, goal, current state and weights. -/
structure DMP.SameSystem (s₁ s₂ : DMP d m) : Prop where
  t : s₂.t = s₁.t
  lastT : s₂.lastT = s₁.lastT
  executionTime : s₂.executionTime = s₁.executionTime
  dt : s₂.dt = s₁.dt
  intDt : s₂.intDt = s₁.intDt
  pGain : s₂.pGain = s₁.pGain
  smooth : s₂.smooth = s₁.smooth
  ft : s₁.ft.SameBasis s₂.ft
  alphaY : s₂.alphaY = s₁.alphaY
  betaY : s₂.betaY = s₁.betaY
  initialized : s₂.initialized = s₁.initialized

/-- The DMP with mixed start, goal, current state and weights. -/
def DMP.mix (p q : ℝ) (s₁ s₂ : DMP d m) : DMP d m :=
  { s₁ with
    toMovement := s₁.toMovement.mix p q s₂.toMovement
    ft := s₁.ft.mix p q s₂.ft }

/-- Two spring-damper systems differ only in start, goal and current state. -/
structure SpringDamper.SameSystem (s₁ s₂ : SpringDamper d) : Prop where
  t : s₂.t = s₁.t
  lastT : s₂.lastT = s₁.lastT
  dt : s₂.dt = s₁.dt
  k : s₂.k = s₁.k
  c : s₂.c = s₁.c
  intDt : s₂.intDt = s₁.intDt
  initialized : s₂.initialized = s₁.initialized

/-- The spring-damper system with mixed start, goal and current state. -/
def SpringDamper.mix (p q : ℝ) (s₁ s₂ : SpringDamper d) : SpringDamper d :=
  { s₁ with toMovement := s₁.toMovement.mix p q s₂.toMovement }

end Verif
