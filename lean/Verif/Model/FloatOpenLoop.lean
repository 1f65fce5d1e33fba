import Verif.Model.FloatStep

/-!
# `DMP.open_loop` in floating-point arithmetic
-/

namespace Verif
variable {d m : ℕ}

/-- `DMP.open_loop`, `dmp/_dmp.py` lines 507-550, with `dmp_open_loop`, lines 878-908, in floating-point arithmetic: the times are those
of `arangeTimesFl` (line 893) and the steps those of `StepFunction.runFl`. `np.arange` raises ZeroDivisionError for `dt = 0`;
`Y[0] = current_y` raises IndexError for an empty time array (line 895). -/
noncomputable def DMP.openLoopFl (o : FloatOps d) (runT : Option ℝ) (coupling : Option (Coupling d)) (stepFunction : String) :
    Py (DMP d m) (List ℝ × List (Vec d)) := do
  let sf ← Py.lift (StepFunction.lookup stepFunction)
  let s ← get
  if s.dt = 0 then throw .zeroDivisionError
  let T := arangeTimesFl o.rnd s.dt (runT.getD s.executionTime)
  if T = [] then throw .indexError
  let rows ← Py.lift (loopRows (fun i x => sf.runFl o (s.openLoopArgs coupling) (T.getD i 0) (T.getD (i + 1) 0) x) Prod.fst
    (T.length - 1) (s.startY, (0 : Vec d)) 0)
  return (T, s.startY :: rows)

end Verif
