import Verif.Model.Dmp

/-!
# Disturbed executions

The state that is passed to `step` is measured: it differs from the state that the last call of `step` returned, because the
measurement is not exact or the robot did not follow.
-/

namespace Verif.Spec
variable {p v : ℕ}

/-- All components of two states differ by at most `δ`. -/
def StateWithin (δ : ℝ) (x y : Vec p × Vec v) : Prop := (∀ k, |x.1 k - y.1 k| ≤ δ) ∧ ∀ k, |x.2 k - y.2 k| ≤ δ

/-- The state `fb i` that is passed to call `i` of `step` differs from the initial state `x0` or from the result of the previous
call by at most `δ`. `Measured 0` says that results are fed back. -/
def Measured (δ : ℝ) (x0 : Vec p × Vec v) (fb out : ℕ → Vec p × Vec v) : Prop :=
  StateWithin δ (fb 0) x0 ∧ ∀ i, StateWithin δ (fb (i + 1)) (out i)

/-- The same for positions; nothing is said about velocities. -/
def MeasuredPosition (δ : ℝ) (y0 : Vec p) (fb out : ℕ → Vec p × Vec v) : Prop :=
  (∀ k, |(fb 0).1 k - y0 k| ≤ δ) ∧ ∀ i k, |(fb (i + 1)).1 k - (out i).1 k| ≤ δ

end Verif.Spec
