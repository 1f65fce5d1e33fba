import Verif.Py
import Verif.Np

/-!
# Time keeping in floating-point arithmetic

The remaining model computes with real numbers. Here the computations with time, on which the control flow of the
loops depends, are modelled with a rounding function `rnd` after each addition, subtraction, multiplication and division. With
`rnd = id` the definitions are those of the remaining model (`C79_exact`).
-/

namespace Verif

/-- The integration loop shared by all Euler-type step functions, see `intLoop`: `dmp/_dmp.py` lines 298-303, `dmp_fast.pyx`
lines 157-162, 472-477 and 617-622, `spring_damper.py` lines 225-230 and 258-263, `dmp/_dmp_with_final_velocity.py` lines
429-434, `dmp/_cartesian_dmp.py` lines 101-106, `dmp/_dual_cartesian_dmp.py` lines 100-105, `dmp/_state_following_dmp.py` lines
144-149. `upd` is the remaining loop body, an arbitrary function. -/
noncomputable def intLoopFl {σ : Type} (rnd : ℝ → ℝ) (intDt t : ℝ) (upd : ℝ → ℝ → σ → σ) (lastT : ℝ) (s : σ) :
    Except PyErr σ :=
  (whileLoop (fun p : ℝ × σ => p.1 < t)
    (fun p =>
      let dt := if rnd (t - p.1) < intDt then rnd (t - p.1) else intDt
      (rnd (p.1 + dt), upd dt (rnd (p.1 + dt)) p.2))
    (lastT, s)).map Prod.snd

/-- Time of an object after `n` calls of `step`: `self.t += self.dt_`, `dmp/_dmp.py` line 482 and the same line in the other
classes; also the time in the loops of `DualCartesianDMP.open_loop` and `state_following_dmp_open_loop`. -/
def clockFl (rnd : ℝ → ℝ) (dt : ℝ) : ℕ → ℝ
  | 0 => 0
  | n + 1 => rnd (clockFl rnd dt n + dt)

/-- Times returned by `DualCartesianDMP.open_loop`, `dmp/_dual_cartesian_dmp.py` lines 357-367, and by
`state_following_dmp_open_loop`, `dmp/_state_following_dmp.py` lines 170-194 with `start_t = 0`: `T = [t]`, then
`while t < run_t: t += dt; T.append(t)`. The state is the pair of `t` and `T`. -/
noncomputable def loopTimesFl (rnd : ℝ → ℝ) (dt runT : ℝ) : Except PyErr (List ℝ) :=
  (whileLoop (fun p : ℝ × List ℝ => p.1 < runT) (fun p => (rnd (p.1 + dt), p.2 ++ [rnd (p.1 + dt)])) (0, [0])).map Prod.snd

/-- Times returned by the other open loops, `T = np.arange(start_t, run_t + dt, dt)` with `start_t = 0`, `dmp/_dmp.py` line 893, `dmp/_cartesian_dmp.py` line 702, `spring_damper.py` lines 289 and 306:
numpy computes the length `ceil((stop - start) / step)` and the entries `start + i * delta`, where
`delta = (start + step) - start`, in double precision (external library, modelled from its documentation and source). -/
noncomputable def arangeTimesFl (rnd : ℝ → ℝ) (dt runT : ℝ) : List ℝ :=
  (List.range ⌈rnd (rnd (rnd (runT + dt) - 0) / dt)⌉₊).map fun i : ℕ => rnd (0 + rnd (i * rnd (rnd (0 + dt) - 0)))

end Verif
