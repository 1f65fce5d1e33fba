import Verif.Py
import Verif.Model.PotentialField

/-!
# Plot of the potential field of a DMP (`movement_primitives/dmp_potential_field.py`)

A plot is the list of the calls `ax.quiver(...)`.
-/

namespace Verif

/-- Arguments of `ax.quiver(xx, yy, u, v, scale=..., color=...)`, `dmp_potential_field.py` lines 114-118. -/
structure Quiver (n : ℕ) where
  xx : Fin n → Fin n → ℝ
  yy : Fin n → Fin n → ℝ
  u : Fin n → Fin n → ℝ
  v : Fin n → Fin n → ℝ
  scale : ℝ
  color : String

/-- `np.abs(acc).max()`, `dmp_potential_field.py` line 113: ValueError for an array without elements. -/
noncomputable def absMax {n : ℕ} (acc : Fin n → Fin n → Vec 2) : Except PyErr ℝ :=
  if h : 0 < n then
    .ok ((Finset.univ : Finset (Fin n × Fin n × Fin 2)).sup' ⟨(⟨0, h⟩, ⟨0, h⟩, 0), Finset.mem_univ _⟩
      fun p => |acc p.1 p.2.1 p.2.2|)
  else .error .valueError

/-- Call of `quiver` for one array of vectors, `dmp_potential_field.py` lines 114-118. -/
def quiver {n : ℕ} (F : PotentialField n) (a : Fin n → Fin n → Vec 2) (scale : ℝ) (color : String) :
    Py (List (Quiver n)) Unit :=
  modify (· ++ [{ xx := F.xx, yy := F.yy, u := fun i j => a i j 0, v := fun i j => a i j 1, scale := scale, color := color }])

/-- `plot_potential_field_2d(ax, dmp, x_range, y_range, n_ticks, obstacle, exaggerate_arrows)`, `dmp_potential_field.py` lines
105-118. The four arrays do not share memory (`potential_field_2d` makes new ones), so that each of them is multiplied once.
With an obstacle and one tick, `obstacle_avoidance_acceleration_2d` (`dmp/_coupling_terms.py` line 65, `np.squeeze`) returns
an array of shape `(2,)`, so that `ct[:, :, 0]` in line 116 is an IndexError. Without ticks only `obstacle is None` is meant to be
covered: what pytransform3d does with empty arrays is not modelled. -/
noncomputable def plotPotentialField2d {m : ℕ} (dmp : DMP 2 m) (xRange yRange : ℝ × ℝ) (nTicks : ℕ) (obstacle : Option (Vec 2))
    (exaggerate : ℝ) : Py (List (Quiver nTicks)) Unit := do
  let F := potentialField2d dmp xRange yRange nTicks obstacle
  let ft : Fin nTicks → Fin nTicks → Vec 2 := fun i j k => F.ft i j k * exaggerate
  let ts : Fin nTicks → Fin nTicks → Vec 2 := fun i j k => F.ts i j k * exaggerate
  let ct : Fin nTicks → Fin nTicks → Vec 2 := fun i j k => F.ct i j k * exaggerate
  let acc : Fin nTicks → Fin nTicks → Vec 2 := fun i j k => F.acc i j k * exaggerate
  let largest ← Py.lift (absMax acc)
  let quiverScale := largest * (nTicks : ℝ)
  quiver F ts quiverScale "g"
  quiver F ft quiverScale "r"
  if nTicks = 1 ∧ obstacle.isSome then Py.lift (.error .indexError)
  quiver F ct quiverScale "y"
  quiver F acc quiverScale "k"

end Verif
