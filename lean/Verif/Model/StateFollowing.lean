import Verif.Model.DualCartesian

/-!
# State-following DMP (`movement_primitives/dmp/_state_following_dmp.py`)

`d` is `n_dims`, `n` is `n_viapoints`.
-/

namespace Verif

open scoped BigOperators

/-- Attributes of `StateFollowingForcingTerm`, lines 78-113. -/
structure StateFollowingForcing (d n : ℕ) where
  goalT : ℝ
  startT : ℝ
  alphaZ : ℝ
  viapoints : Fin n → Vec d
  centers : Fin n → ℝ
  widths : Fin n → ℝ

namespace StateFollowingForcing
variable {d n : ℕ}

/-- Centers of `_init_rbfs`, lines 93-106. -/
noncomputable def initCenter (n : ℕ) (goalT startT alphaZ : ℝ) (i : ℕ) : ℝ :=
  if i = 0 then phase startT alphaZ goalT startT
  else phase (i * ((goalT - startT) / n)) alphaZ goalT startT

/-- Widths of `_init_rbfs`, lines 107-113. `garbage` is the content of the uninitialised array `widths = np.empty(...)`;
for one via point `widths[0] = widths[-1]` keeps it. -/
noncomputable def initWidth (n : ℕ) (goalT startT alphaZ logOverlap : ℝ) (garbage : ℕ → ℝ) (i : ℕ) : ℝ :=
  if n = 1 then garbage i
  else
    let j := if i + 1 < n then i else n - 2
    logOverlap / (initCenter n goalT startT alphaZ (j + 1) - initCenter n goalT startT alphaZ j) ^ 2

/-- `StateFollowingForcingTerm.__init__`, lines 78-113. -/
noncomputable def create (d n : ℕ) (goalT startT overlap alphaZ : ℝ) (garbage : ℕ → ℝ) :
    Except PyErr (StateFollowingForcing d n) :=
  if n = 0 then .error .valueError
  else if goalT ≤ startT then .error .valueError
  else if overlap ≤ 0 then .error .valueError
  else .ok
    { goalT := goalT, startT := startT, alphaZ := alphaZ
      viapoints := fun _ => 0
      centers := fun i => initCenter n goalT startT alphaZ i
      widths := fun i => initWidth n goalT startT alphaZ (-Real.log overlap) garbage i }

/-- `_activations(z, normalized=False)`, lines 115-118. `ex` is the exponential function: `Real.exp`, or one that
underflows. -/
def rbf (ex : ℝ → ℝ) (ft : StateFollowingForcing d n) (z : ℝ) (i : Fin n) : ℝ :=
  ex (-ft.widths i * (z - ft.centers i) ^ 2)

/-- `__call__(t)`, lines 123-127 with `_activations(z, normalized=True)`, lines 115-121. -/
noncomputable def call (ft : StateFollowingForcing d n) (t : ℝ) (i : Fin n) : ℝ :=
  let z := phase t ft.alphaZ ft.goalT ft.startT
  ft.rbf Real.exp z i / ∑ j, ft.rbf Real.exp z j

end StateFollowingForcing

/-- Arguments of `state_following_dmp_step` (lines 130-133) except `last_t`, `t`, `current_y`, `current_yd`. -/
structure StateFollowingArgs (d n : ℕ) where
  goalY : Vec d
  goalYd : Vec d
  goalYdd : Vec d
  startY : Vec d
  startYd : Vec d
  startYdd : Vec d
  goalT : ℝ
  startT : ℝ
  alphaY : Vec d
  betaY : Vec d
  ft : StateFollowingForcing d n
  coupling : Option (Coupling d) := none
  precomputed : Option (Vec d × Vec d) := none
  intDt : ℝ := 1 / 1000

namespace StateFollowingArgs
variable {d n : ℕ}

/-- `cd`, `cdd` in the loop, lines 151-157. -/
def couplings (a : StateFollowingArgs d n) (s : Vec d × Vec d) : Vec d × Vec d :=
  let c := match a.coupling with
    | some c => c s.1 s.2
    | none => (0, 0)
  match a.precomputed with
  | some p => (c.1 + p.1, c.2 + p.2)
  | none => c

/-- Loop body of `state_following_dmp_step`, lines 152-167; `t` is the already advanced `current_t`. -/
noncomputable def body (a : StateFollowingArgs d n) (dt t : ℝ) (s : Vec d × Vec d) : Vec d × Vec d :=
  let executionTime := a.goalT - a.startT
  let c := a.couplings s
  let h := a.ft.call t
  let ydd : Vec d := fun k =>
    (∑ i, h i * a.alphaY k * (a.betaY k * (a.ft.viapoints i k - s.1 k) - 1 / 2 * executionTime * s.2 k)
      / (1 / 2 * executionTime) ^ 2) + c.2 k / (1 / 2 * executionTime) ^ 2
  let yd' : Vec d := fun k => s.2 k + (dt * ydd k + c.1 k / (1 / 2 * executionTime))
  let y' : Vec d := fun k => s.1 k + dt * yd' k
  (y', yd')

/-- `state_following_dmp_step`, lines 130-167: the arrays `current_y`, `current_yd` afterwards. -/
noncomputable def step (a : StateFollowingArgs d n) (lastT t : ℝ) (s : Vec d × Vec d) : Except PyErr (Vec d × Vec d) :=
  if a.goalT ≤ a.startT then .error .valueError
  else if t ≤ a.startT then .ok s
  else intLoop a.intDt t a.body lastT s

/-- Local variables of `state_following_dmp_open_loop`. -/
structure Locals (d : ℕ) where
  t : ℝ
  s : Vec d × Vec d
  T : List ℝ
  Y : List (Vec d)

/-- One iteration of the loop of `state_following_dmp_open_loop`, lines 180-193. -/
noncomputable def openLoopBody (a : StateFollowingArgs d n) (dt : ℝ) (_ : Unit) : Py (Locals d) Unit := do
  let l ← get
  let lastT := l.t
  modify fun l => { l with t := lastT + dt }
  let s ← Py.lift (a.step lastT (lastT + dt) l.s)
  modify fun l => { l with s := s, T := l.T ++ [l.t], Y := l.Y ++ [s.1] }

/-- `state_following_dmp_open_loop`, lines 170-194: arrays `T`, `Y`. -/
noncomputable def openLoop (a : StateFollowingArgs d n) (dt : ℝ) (runT : Option ℝ) :
    Except PyErr (List ℝ × List (Vec d)) :=
  let runT := runT.getD a.goalT
  let r := (Py.while (fun l : Locals d => l.t < runT) (a.openLoopBody dt) ()).exec
    { t := a.startT, s := (a.startY, 0), T := [a.startT], Y := [a.startY] }
  r.1.map fun _ => (r.2.T, r.2.Y)

end StateFollowingArgs

/-- Attributes of `StateFollowingDMP`, lines 28-43. -/
structure StateFollowingDMP (d n : ℕ) extends Movement d d where
  executionTime : ℝ
  dt : ℝ
  intDt : ℝ
  alphaY : Vec d
  betaY : Vec d
  ft : StateFollowingForcing d n

namespace StateFollowingDMP
variable {d n : ℕ}

/-- `StateFollowingDMP.__init__`, lines 28-43. -/
noncomputable def create (d n : ℕ) (executionTime dt intDt : ℝ) (alphaY betaY : ArrayLike) (garbage : ℕ → ℝ) :
    Except PyErr (StateFollowingDMP d n) := do
  let alphaZ ← canonicalSystemAlpha (1 / 100) executionTime 0
  let alphaY ← ensure1dArray alphaY d
  let betaY ← ensure1dArray betaY d
  let ft ← StateFollowingForcing.create d n executionTime 0 (1 / 10) alphaZ garbage
  return { Movement.init d d with
    executionTime := executionTime, dt := dt, intDt := intDt, alphaY := alphaY, betaY := betaY, ft := ft }

/-- `configure` inherited from `PointToPointMovement`, `base.py`. -/
def configure (a : ConfigArgs) : Py (StateFollowingDMP d n) Unit :=
  Py.zoom StateFollowingDMP.toMovement (fun mv s => { s with toMovement := mv }) (Movement.configure a)

/-- `reset` inherited from `DMPBase`, `dmp/_base.py` lines 21-26. -/
def reset : Py (StateFollowingDMP d n) Unit :=
  modify (fun s => { s with toMovement := s.toMovement.reset })

/-- Arguments that `step` passes on, lines 52-62. -/
def args (s : StateFollowingDMP d n) (coupling : Option (Coupling d)) : StateFollowingArgs d n :=
  { goalY := s.goalY, goalYd := s.goalYd, goalYdd := s.goalYdd
    startY := s.startY, startYd := s.startYd, startYdd := s.startYdd
    goalT := s.executionTime, startT := 0, alphaY := s.alphaY, betaY := s.betaY, ft := s.ft, coupling := coupling,
    intDt := s.intDt }

/-- `StateFollowingDMP.step`, lines 45-63. Arguments of other lengths: `Model/StepArguments`. -/
noncomputable def step (coupling : Option (Coupling d)) (lastY lastYd : Vec d) :
    Py (StateFollowingDMP d n) (Vec d × Vec d) := do
  let s ← get
  modify fun s => { s with lastT := some s.t, t := s.t + s.dt, currentY := lastY, currentYd := lastYd }
  let r ← Py.lift ((s.args coupling).step s.t (s.t + s.dt) (lastY, lastYd))
  modify fun s => { s with currentY := r.1, currentYd := r.2 }
  return r

/-- `StateFollowingDMP.open_loop`, lines 65-69; the goal velocity, start velocity and accelerations are zero, lines
183-191. -/
noncomputable def openLoop (s : StateFollowingDMP d n) (runT : Option ℝ) (coupling : Option (Coupling d)) :
    Except PyErr (List ℝ × List (Vec d)) :=
  { s.args coupling with goalYd := 0, goalYdd := 0, startYd := 0, startYdd := 0 }.openLoop s.dt runT

end StateFollowingDMP
end Verif
