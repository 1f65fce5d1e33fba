import Verif.Model.DmpStep

/-!
# Two coupled dimensions of a movement

Two dimensions with goals `g0`, `g1` and the same gains are coupled by a spring that wants `y0 - y1 = -desired`. The
first one follows with factor `lf0`, the second one with factor `lf1` (0: it leads and ignores the other one). `P` is
the factor of the coupling velocity, `Q` the factor of the coupling acceleration.
-/

namespace Verif.Spec

/-- By how much the goals miss the desired displacement. -/
def conflict (desired g0 g1 : ℝ) : ℝ := g0 - g1 + desired

/-- A Runge-Kutta step of length `h` multiplies deviation `e` and velocity `v` of an oscillator `e'' = -k e - c e'` by
the matrix `r0 + r1 A` with `A = (0, h; -h k, -h c)`. With `a = h c` and `b = h² k` this is `r0`. -/
noncomputable def rkDiag (a b : ℝ) : ℝ := 1 - b / 2 + a * b / 6 - b * (a ^ 2 - b) / 24

/-- The factor `r1` of the Runge-Kutta step. -/
noncomputable def rkSide (a b : ℝ) : ℝ := 1 - a / 2 + (a ^ 2 - b) / 6 + (2 * (a * b) - a ^ 3) / 24

/-- Determinant of the Runge-Kutta step. -/
noncomputable def rkDet (a b : ℝ) : ℝ := rkDiag a b ^ 2 - a * rkDiag a b * rkSide a b + b * rkSide a b ^ 2

/-- Determinant of the difference between identity and Runge-Kutta step. -/
noncomputable def rkGap (a b : ℝ) : ℝ :=
  (1 - rkDiag a b) ^ 2 + a * rkSide a b * (1 - rkDiag a b) + b * rkSide a b ^ 2

/-- Stiffness of the coupling as it acts on the final positions. The coupling velocity is added once per integration
step, not per unit of time, hence the result depends on `int_dt` (Euler) or `dt` (Runge-Kutta). The Python function for
the Euler method adds it after the damping has been evaluated, the Cython function before. -/
noncomputable def couplingStiffness (sf : StepFunction) (dt intDt τ α β S P Q : ℝ) : ℝ :=
  match sf with
  | .euler => P * (τ / intDt - α) + Q
  | .eulerCython => P * (τ / intDt) + Q
  | .rk4 | .rk4Cython =>
    let a := dt * α / τ
    let b := dt ^ 2 * (α * β + S * Q) / τ ^ 2
    P * (τ / dt) * (b * rkSide a b / rkGap a b) + Q

/-- Final positions: goal stiffness `αβ` against coupling stiffness `G`. -/
noncomputable def compromise (αβ G lf0 lf1 desired g0 g1 : ℝ) : ℝ × ℝ :=
  (g0 - lf0 * G / (αβ + (lf0 + lf1) * G) * conflict desired g0 g1,
   g1 + lf1 * G / (αβ + (lf0 + lf1) * G) * conflict desired g0 g1)

/-- The part of the coupling velocity that is left at the end of a step while the movement rests: all of it (Python,
Euler), nothing (Cython, Euler), about one half (Runge-Kutta). -/
noncomputable def velocityFactor (sf : StepFunction) (dt τ α β S Q : ℝ) : ℝ :=
  match sf with
  | .euler => 1
  | .eulerCython => 0
  | .rk4 | .rk4Cython =>
    let a := dt * α / τ
    let b := dt ^ 2 * (α * β + S * Q) / τ ^ 2
    (1 - rkDiag a b) / rkGap a b

/-- Velocities that are reported while the movement rests: factor `F` of the coupling velocity. -/
noncomputable def reportedVelocity (F αβ G τ P lf0 lf1 desired g0 g1 : ℝ) : ℝ × ℝ :=
  (-(F * (P * lf0 / τ * (αβ / (αβ + (lf0 + lf1) * G) * conflict desired g0 g1))),
   F * (P * lf1 / τ * (αβ / (αβ + (lf0 + lf1) * G) * conflict desired g0 g1)))

/-- Integration steps that are small enough for the gains and the coupling. `S` is the sum of the following
factors. The last conditions of the Runge-Kutta methods are those of Schur and Jury for the characteristic polynomial
of one step of the displacement. -/
inductive CoupledStable (sf : StepFunction) (dt intDt τ α β S P Q : ℝ) : Prop
  | euler (hsf : sf = .euler) (hint : 0 < intDt) (n : ℕ) (hn : 0 < n) (hdt : dt = n * intDt) (h1 : intDt * α < τ)
      (h2 : intDt ^ 2 * (α * β + S * Q) + intDt * (S * P) * (τ - intDt * α) + 2 * (intDt * α * τ) < 4 * τ ^ 2)
  | eulerCython (hsf : sf = .eulerCython) (hint : 0 < intDt) (n : ℕ) (hn : 0 < n) (hdt : dt = n * intDt)
      (h2 : intDt ^ 2 * (α * β + S * Q) + intDt * (S * P) * τ + 2 * (intDt * α * τ) < 4 * τ ^ 2)
  | rk4 (hsf : sf = .rk4 ∨ sf = .rk4Cython) (a b : ℝ) (ha : a = dt * α / τ) (hb : b = dt ^ 2 * (α * β + S * Q) / τ ^ 2)
      (h1 : dt * β < τ) (h2 : 2 * (dt * α * τ) < 4 * τ ^ 2 + dt ^ 2 * (α * β))
      (h3 : 0 < rkSide a b) (h4 : rkDiag a b ≤ 1) (h5 : |rkDet a b| < 1)
      (h6 : |2 * rkDiag a b - a * rkSide a b - dt * (S * P) / τ * rkSide a b| < 1 + rkDet a b)

end Verif.Spec
