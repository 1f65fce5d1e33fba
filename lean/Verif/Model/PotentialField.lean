import Verif.Model.Dmp
import Verif.Model.Coupling

/-!
# Potential field of a DMP (`movement_primitives/dmp_potential_field.py`)
-/

namespace Verif

/-- `np.linspace(a, b, n)`: entry `i`, a grid line. -/
noncomputable def gridTick (a b : ℝ) (n : ℕ) (i : Fin n) : ℝ :=
  if n = 1 then a else a + (i : ℝ) * ((b - a) / ((n : ℝ) - 1))

/-- `dmp_transformation_system`, `dmp/_dmp.py` lines 597-607, for one position and velocity. -/
noncomputable def dmpTransformationSystem {d : ℕ} (Y V alphaY betaY goalY goalYd goalYdd startY : Vec d)
    (z executionTime : ℝ) : Vec d := fun k =>
  alphaY k * (betaY k * (goalY k - Y k) + executionTime * (goalYd k - V k) - betaY k * (goalY k - startY k) * z)
    / executionTime ^ 2 + goalYdd k

/-- The arrays returned by `potential_field_2d`. -/
structure PotentialField (n : ℕ) where
  xx : Fin n → Fin n → ℝ
  yy : Fin n → Fin n → ℝ
  ft : Fin n → Fin n → Vec 2
  ts : Fin n → Fin n → Vec 2
  ct : Fin n → Fin n → Vec 2
  acc : Fin n → Fin n → Vec 2

/-- `potential_field_2d(dmp, x_range, y_range, n_ticks, obstacle)`, `dmp_potential_field.py` lines 51-70.
`np.meshgrid(x, y)` returns `xx[i, j] = x[j]` and `yy[i, j] = y[i]`. Simplified: with an obstacle and one tick the array `ct` has
the shape `(2,)` instead of `(1, 1, 2)` because of `np.squeeze` in `obstacle_avoidance_acceleration_2d`; its values are the same. -/
noncomputable def potentialField2d {m : ℕ} (dmp : DMP 2 m) (xRange yRange : ℝ × ℝ) (nTicks : ℕ)
    (obstacle : Option (Vec 2)) : PotentialField nTicks :=
  let xx : Fin nTicks → Fin nTicks → ℝ := fun _ j => gridTick xRange.1 xRange.2 nTicks j
  let yy : Fin nTicks → Fin nTicks → ℝ := fun i _ => gridTick yRange.1 yRange.2 nTicks i
  let Y : Fin nTicks → Fin nTicks → Vec 2 := fun i j => ![xx i j, yy i j]
  let Yd : Fin nTicks → Fin nTicks → Vec 2 := fun _ _ => dmp.currentYd
  let z := dmp.ft.phaseAt dmp.t
  let ts : Fin nTicks → Fin nTicks → Vec 2 := fun i j =>
    dmpTransformationSystem (Y i j) (Yd i j) dmp.alphaY dmp.betaY dmp.goalY dmp.goalYd dmp.goalYdd dmp.startY z
      dmp.executionTime
  let ft : Fin nTicks → Fin nTicks → Vec 2 := fun _ _ k => dmp.ft.call dmp.t k / dmp.executionTime ^ 2
  let ct : Fin nTicks → Fin nTicks → Vec 2 := match obstacle with
    | none => fun _ _ => 0
    | some o => fun i j => obstacleAvoidance2d (Y i j) (Yd i j) o 1000 (20 / Real.pi)
  { xx := xx, yy := yy, ft := ft, ts := ts, ct := ct, acc := fun i j => ft i j + ts i j + ct i j }

end Verif
