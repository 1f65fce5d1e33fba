import Mathlib.Analysis.Calculus.Deriv.Basic
import Verif.Props.FinalVelocity

/-! # The differential equation of a DMP with final velocity until its goal time -/

namespace Verif.Spec
variable {d m : ℕ}

/-- Polynomial of degree 5 with coefficients `c`, lowest order first. -/
def quintic (c : Fin 6 → ℝ) (t : ℝ) : ℝ := c 0 + c 1 * t + c 2 * t ^ 2 + c 3 * t ^ 3 + c 4 * t ^ 4 + c 5 * t ^ 5

/-- Its derivative. -/
def quinticD (c : Fin 6 → ℝ) (t : ℝ) : ℝ := c 1 + 2 * c 2 * t + 3 * c 3 * t ^ 2 + 4 * c 4 * t ^ 3 + 5 * c 5 * t ^ 4

/-- Its second derivative. -/
def quinticDD (c : Fin 6 → ℝ) (t : ℝ) : ℝ := 2 * c 2 + 6 * c 3 * t + 12 * c 4 * t ^ 2 + 20 * c 5 * t ^ 3

/-- In dimension `k` the coefficients `c · k` are those of the polynomial that has the position, velocity and acceleration
of the start at time 0 and those of the goal at the end of the execution time. -/
structure ConnectsStartAndGoal (s : DMP d m) (c : Fin 6 → Vec d) : Prop where
  startY : ∀ k, quintic (fun i => c i k) 0 = s.startY k
  startYd : ∀ k, quinticD (fun i => c i k) 0 = s.startYd k
  startYdd : ∀ k, quinticDD (fun i => c i k) 0 = s.startYdd k
  goalY : ∀ k, quintic (fun i => c i k) s.executionTime = s.goalY k
  goalYd : ∀ k, quinticD (fun i => c i k) s.executionTime = s.goalYd k
  goalYdd : ∀ k, quinticDD (fun i => c i k) s.executionTime = s.goalYdd k

/-- Position `y` and velocity `v` solve `τ² (y'' - g'') = α (β (g - y) + τ (g' - y')) + forcing_term(t)`, where `g` is the
polynomial with coefficients `c`, and are equal to `x0` at time `t0`. -/
structure SolvesFv (s : DMP d m) (c : Fin 6 → Vec d) (t0 : ℝ) (x0 : Vec d × Vec d) (y v : ℝ → Vec d) : Prop where
  start : (y t0, v t0) = x0
  velocity : ∀ t k, HasDerivAt (fun t => y t k) (v t k) t
  acceleration : ∀ t k, HasDerivAt (fun t => v t k)
    ((s.alphaY k * (s.betaY k * (quintic (fun i => c i k) t - y t k) +
        s.executionTime * (quinticD (fun i => c i k) t - v t k)) + s.ft.call t k) / s.executionTime ^ 2 +
      quinticDD (fun i => c i k) t) t

end Verif.Spec
