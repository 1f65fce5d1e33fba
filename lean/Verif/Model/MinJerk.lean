import Verif.Model.Base
import Mathlib.Algebra.Order.Floor.Ring

/-!
# Minimum jerk trajectories (`data/_minimum_jerk.py`, `minimum_jerk_trajectory.py`)
-/

namespace Verif

/-- `int(x)` of a float: truncation towards zero. -/
noncomputable def pyInt (x : ℝ) : ℤ := if 0 ≤ x then ⌊x⌋ else ⌈x⌉

/-- Position, velocity and acceleration. -/
abbrev Jet (d : ℕ) := Vec d × Vec d × Vec d

/-- Loop body of `generate_minimum_jerk` for index `t`, `data/_minimum_jerk.py` lines 70-98. -/
noncomputable def minJerkBody {d : ℕ} (g : Vec d) (executionTime dt : ℝ) (t : ℕ) (s : Jet d) : Jet d :=
  let tau := executionTime - t * dt
  if dt ≤ tau then
    let x := s.1
    let xd := s.2.1
    let xdd := s.2.2
    let dist : Vec d := fun i => g i - x i
    let a1 : ℝ := 0
    let a0 : Vec d := fun i => xdd i * tau ^ 2
    let v1 : ℝ := 0
    let v0 : Vec d := fun i => xd i * tau
    let c1 : Vec d := fun i => (6 * dist i + (a1 - a0 i) / 2 - 3 * (v0 i + v1)) / tau ^ 5
    let c2 : Vec d := fun i => (-15 * dist i + (3 * a0 i - 2 * a1) / 2 + 8 * v0 i + 7 * v1) / tau ^ 4
    let c3 : Vec d := fun i => (10 * dist i + (a1 - 3 * a0 i) / 2 - 6 * v0 i - 4 * v1) / tau ^ 3
    let c4 : Vec d := fun i => xdd i / 2
    let c5 := xd
    let c6 := x
    (fun i => c1 i * dt ^ 5 + c2 i * dt ^ 4 + c3 i * dt ^ 3 + c4 i * dt ^ 2 + c5 i * dt + c6 i,
      fun i => 5 * c1 i * dt ^ 4 + 4 * c2 i * dt ^ 3 + 3 * c3 i * dt ^ 2 + 2 * c4 i * dt + c5 i,
      fun i => 20 * c1 i * dt ^ 3 + 12 * c2 i * dt ^ 2 + 6 * c3 i * dt + 2 * c4 i)
  else s

/-- Values of `x, xd, xdd` after iteration `t` of the loop, lines 65-102. -/
noncomputable def minJerkState {d : ℕ} (x0 g : Vec d) (executionTime dt : ℝ) : ℕ → Jet d
  | 0 => (x0, 0, 0)
  | t + 1 => minJerkBody g executionTime dt (t + 1) (minJerkState x0 g executionTime dt t)

/-- `generate_minimum_jerk`, `data/_minimum_jerk.py` lines 52-104: rows of `X`, `Xd`, `Xdd`. Start and goal are given with
the same shape (otherwise ValueError). A negative number of rows: `np.zeros` raises ValueError; zero rows: `X[0]` raises
IndexError; `dt = 0`: ZeroDivisionError. -/
noncomputable def generateMinimumJerk {d : ℕ} (start goal : Vec d) (executionTime dt : ℝ) :
    Except PyErr (List (Jet d)) :=
  if dt = 0 then .error .zeroDivisionError
  else
    let nSteps : ℤ := 1 + pyInt (executionTime / dt)
    if nSteps < 0 then .error .valueError
    else if nSteps = 0 then .error .indexError
    else .ok ((List.range nSteps.toNat).map (minJerkState start goal executionTime dt))

/-- Attributes of `MinimumJerkTrajectory`, `minimum_jerk_trajectory.py` lines 21-28; `rows` are the rows of `X`, `Xd`
(empty while they are `None`). -/
structure MinimumJerkTrajectory (d : ℕ) extends Movement d d where
  rows : List (Jet d)
  executionTime : ℝ
  dt : ℝ
  stepIdx : ℕ
  initialized : Bool

namespace MinimumJerkTrajectory
variable {d : ℕ}

/-- `MinimumJerkTrajectory.__init__`, `minimum_jerk_trajectory.py` lines 21-28. -/
def create (d : ℕ) (executionTime dt : ℝ) : MinimumJerkTrajectory d :=
  { Movement.init d d with rows := [], executionTime := executionTime, dt := dt, stepIdx := 0, initialized := false }

/-- `reset`, `minimum_jerk_trajectory.py` lines 30-33. -/
def reset : Py (MinimumJerkTrajectory d) Unit := modify fun s => { s with stepIdx := 0, initialized := false }

/-- `step(last_y, last_yd)`, `minimum_jerk_trajectory.py` lines 54-63. The arguments are ignored by the code. -/
noncomputable def step (_lastY _lastYd : Vec d) : Py (MinimumJerkTrajectory d) (Vec d × Vec d) := do
  let s ← get
  if !s.initialized then
    let rows ← Py.lift (generateMinimumJerk s.startY s.goalY s.executionTime s.dt)
    modify fun s => { s with rows := rows, initialized := true }
  let s ← get
  match s.rows[s.stepIdx]? with
  | none => throw .indexError
  | some r =>
    modify fun s => { s with currentY := r.1, currentYd := r.2.1, stepIdx := s.stepIdx + 1 }
    pure (r.1, r.2.1)

end MinimumJerkTrajectory
end Verif
