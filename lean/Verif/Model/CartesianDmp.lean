import Verif.Model.Imitate
import Verif.Model.Quat
import Mathlib.Data.Fin.Tuple.Basic

/-!
# Cartesian DMP (`movement_primitives/dmp/_cartesian_dmp.py`, `dmp_step_quaternion` of `dmp_fast.pyx`)

A pose `(x, y, z, qw, qx, qy, qz)` is a `Vec (3 + 4)`, its velocity a `Vec (3 + 3)`.
-/

namespace Verif

/-- `x[:p]` of an array of length `p + q`. -/
def sliceTo {p q : ℕ} (x : Vec (p + q)) : Vec p := fun i => x (Fin.castAdd q i)

/-- `x[p:]` of an array of length `p + q`. -/
def sliceFrom {p q : ℕ} (x : Vec (p + q)) : Vec q := fun i => x (Fin.natAdd p i)

/-- An array of length `p + q` from its two parts (`np.hstack`, or assignment to both slices). -/
def hstack {p q : ℕ} (x : Vec p) (y : Vec q) : Vec (p + q) := Fin.append x y

/-- A coupling term applied to an orientation: `coupling(y, yd)` returns `(cd, cdd)`. -/
abbrev RotCoupling := Vec 4 → Vec 3 → Vec 3 × Vec 3

/-- Arguments of the quaternion step functions (all but `last_t`, `t`, `current_y`, `current_yd`, and the unused ones:
`goal_yd`, `goal_ydd`, `start_ydd`). -/
structure QuatStepArgs (m : ℕ) where
  goalY : Vec 4
  startY : Vec 4
  startYd : Vec 3
  goalT : ℝ
  startT : ℝ
  alphaY : Vec 3
  betaY : Vec 3
  ft : ForcingTerm 3 m
  coupling : Option RotCoupling := none
  precomputed : Option (Vec 3 × Vec 3) := none
  intDt : ℝ := 1 / 1000
  smooth : Bool := false

namespace QuatStepArgs
variable {m : ℕ}

/-- `compact_axis_angle_from_quaternion(concatenate_quaternions(a, q_conj(b)))`. -/
def diff (ops : QuatOps) (a b : Vec 4) : Vec 3 := ops.log (ops.mul a (ops.conj b))

/-- Update of the state for given `cd`, `cdd`: `dmp/_cartesian_dmp.py` lines 116-139, `dmp_fast.pyx` lines 485-505. -/
noncomputable def update (a : QuatStepArgs m) (ops : QuatOps) (cd cdd : Vec 3) (dt t : ℝ) (s : Vec 4 × Vec 3) :
    Vec 4 × Vec 3 :=
  let executionTime := a.goalT - a.startT
  let z := a.ft.phaseAt t
  let f := a.ft.force z
  let smoothing : Vec 3 := if a.smooth then fun k => a.betaY k * z * diff ops a.goalY a.startY k else 0
  let ydd : Vec 3 := fun k =>
    (a.alphaY k * (a.betaY k * diff ops a.goalY s.1 k - executionTime * s.2 k - smoothing k) + f k + cdd k) /
      executionTime ^ 2
  let yd' : Vec 3 := fun k => s.2 k + (dt * ydd k + cd k / executionTime)
  (ops.mul (ops.exp (fun k => dt * yd' k)) s.1, yd')

/-- Loop body of `dmp_step_quaternion_python`, `dmp/_cartesian_dmp.py` lines 108-139: a precomputed coupling is added to
the one of the coupling term. -/
noncomputable def bodyPy (a : QuatStepArgs m) (ops : QuatOps) (dt t : ℝ) (s : Vec 4 × Vec 3) : Vec 4 × Vec 3 :=
  let c : Vec 3 × Vec 3 := match a.coupling with
    | some c => c s.1 s.2
    | none => (0, 0)
  let c : Vec 3 × Vec 3 := match a.precomputed with
    | some p => (c.1 + p.1, c.2 + p.2)
    | none => c
  a.update ops c.1 c.2 dt t s

/-- `dmp_step_quaternion_python`, `dmp/_cartesian_dmp.py` lines 10-139. -/
noncomputable def stepPy (a : QuatStepArgs m) (ops : QuatOps) (lastT t : ℝ) (s : Vec 4 × Vec 3) :
    Except PyErr (Vec 4 × Vec 3) :=
  if a.goalT ≤ a.startT then .error .valueError
  else if t ≤ a.startT then .ok s
  else intLoop a.intDt t (a.bodyPy ops) lastT s

/-- Loop body of the Cython `dmp_step_quaternion`, `dmp_fast.pyx` lines 479-505: a precomputed coupling is only used
without coupling term. -/
noncomputable def bodyCy (a : QuatStepArgs m) (dt t : ℝ) (s : Vec 4 × Vec 3) : Vec 4 × Vec 3 :=
  let c : Vec 3 × Vec 3 := match a.coupling with
    | some c => c s.1 s.2
    | none => match a.precomputed with
      | some p => p
      | none => (0, 0)
  a.update QuatOps.cython c.1 c.2 dt t s

/-- Cython `dmp_step_quaternion`, `dmp_fast.pyx` lines 371-505. There is no check of `goal_t` (the code divides by 0 if
it equals `start_t`). -/
noncomputable def stepCy (a : QuatStepArgs m) (lastT t : ℝ) (s : Vec 4 × Vec 3) : Except PyErr (Vec 4 × Vec 3) :=
  let s := if t ≤ a.startT then (a.startY, a.startYd) else s
  intLoop a.intDt t a.bodyCy lastT s

end QuatStepArgs

/-- `CARTESIAN_DMP_STEP_FUNCTIONS`, `dmp/_cartesian_dmp.py` lines 142-152. The Python function uses the quaternion
functions of pytransform3d. -/
inductive QuatStepFunction where
  | python (ops : QuatOps)
  | cython

/-- Call of a quaternion step function. -/
noncomputable def QuatStepFunction.run {m : ℕ} (qf : QuatStepFunction) (a : QuatStepArgs m) :
    ℝ → ℝ → Vec 4 × Vec 3 → Except PyErr (Vec 4 × Vec 3) :=
  match qf with
  | .python ops => a.stepPy ops
  | .cython => a.stepCy

/-- Lookup by name, `dmp/_cartesian_dmp.py` lines 378-384. -/
def QuatStepFunction.lookup (ops : QuatOps) (name : String) : Except PyErr QuatStepFunction :=
  if name = "python" then .ok (.python ops)
  else if name = "cython" then .ok .cython
  else .error .valueError

/-- Attributes of a `CartesianDMP`, `dmp/_cartesian_dmp.py` lines 234-247. -/
structure CartesianDMP (m : ℕ) extends Movement (3 + 4) (3 + 3) where
  executionTime : ℝ
  dt : ℝ
  intDt : ℝ
  smooth : Bool
  ftPos : ForcingTerm 3 m
  ftRot : ForcingTerm 3 m
  alphaY : Vec (3 + 3)
  betaY : Vec (3 + 3)

/-- A coupling term of a Cartesian DMP: the object's `coupling` method is called with positions (length 3) and with
orientations (length 4). -/
structure PoseCoupling where
  pos : Coupling 3
  rot : RotCoupling

namespace CartesianDMP
variable {m : ℕ}

/-- `_init_forcing_term`, `dmp/_cartesian_dmp.py` lines 249-256. -/
noncomputable def initForcingTerms (m : ℕ) (executionTime : ℝ) :
    Except PyErr (ForcingTerm 3 m × ForcingTerm 3 m) := do
  let alphaZ ← canonicalSystemAlpha (1 / 100) executionTime 0
  let p ← ForcingTerm.create 3 m executionTime 0 (8 / 10) alphaZ
  let r ← ForcingTerm.create 3 m executionTime 0 (8 / 10) alphaZ
  return (p, r)

/-- `CartesianDMP.__init__`, `dmp/_cartesian_dmp.py` lines 234-247. -/
noncomputable def create (m : ℕ) (executionTime dt intDt : ℝ) (smooth : Bool) (alphaY betaY : ArrayLike) :
    Except PyErr (CartesianDMP m) := do
  let ft ← initForcingTerms m executionTime
  let alphaY ← ensure1dArray alphaY (3 + 3)
  let betaY ← ensure1dArray betaY (3 + 3)
  return { Movement.init (3 + 4) (3 + 3) with
    executionTime := executionTime
    dt := dt
    intDt := intDt
    smooth := smooth
    ftPos := ft.1
    ftRot := ft.2
    alphaY := alphaY
    betaY := betaY }

/-- `set_execution_time_`, `dmp/_cartesian_dmp.py` lines 261-267. -/
noncomputable def setExecutionTime (executionTime : ℝ) : Py (CartesianDMP m) Unit := do
  modify (fun s => { s with executionTime := executionTime })
  let weightsPos := (← get).ftPos.weights
  let weightsRot := (← get).ftRot.weights
  let ft ← Py.lift (initForcingTerms m (← get).executionTime)
  modify (fun s => { s with
    ftPos := { ft.1 with weights := weightsPos }
    ftRot := { ft.2 with weights := weightsRot } })

/-- `configure` inherited from `PointToPointMovement`. -/
def configure (a : ConfigArgs) : Py (CartesianDMP m) Unit :=
  Py.zoom CartesianDMP.toMovement (fun mv s => { s with toMovement := mv }) (Movement.configure a)

/-- `reset` inherited from `DMPBase`. -/
def reset : Py (CartesianDMP m) Unit :=
  modify (fun s => { s with toMovement := s.toMovement.reset })

/-- Arguments of the position step function, `dmp/_cartesian_dmp.py` lines 311-321 (`p_gain` and `tracking_error` have
their defaults 0). -/
def posArgs (s : CartesianDMP m) (coupling : Option PoseCoupling) : StepArgs 3 m :=
  { goalY := sliceTo s.goalY, goalYd := sliceTo s.goalYd, goalYdd := sliceTo s.goalYdd
    startY := sliceTo s.startY, startYd := sliceTo s.startYd, startYdd := sliceTo s.startYdd
    goalT := s.executionTime, startT := 0, alphaY := sliceTo s.alphaY, betaY := sliceTo s.betaY
    ft := s.ftPos, coupling := coupling.map PoseCoupling.pos, precomputed := none
    intDt := s.intDt, pGain := 0, trackingError := 0, smooth := s.smooth }

/-- Arguments of the quaternion step function, `dmp/_cartesian_dmp.py` lines 322-332. -/
def rotArgs (s : CartesianDMP m) (coupling : Option PoseCoupling) : QuatStepArgs m :=
  { goalY := sliceFrom s.goalY, startY := sliceFrom s.startY, startYd := sliceFrom s.startYd
    goalT := s.executionTime, startT := 0, alphaY := sliceFrom s.alphaY, betaY := sliceFrom s.betaY
    ft := s.ftRot, coupling := coupling.map PoseCoupling.rot, precomputed := none
    intDt := s.intDt, smooth := s.smooth }

/-- `CartesianDMP.step`, `dmp/_cartesian_dmp.py` lines 271-333, after the length assertions: the current state is
overwritten with the passed one, then position and orientation are integrated. -/
noncomputable def step (coupling : Option PoseCoupling) (sf : StepFunction) (qf : QuatStepFunction)
    (lastY : Vec (3 + 4)) (lastYd : Vec (3 + 3)) : Py (CartesianDMP m) (Vec (3 + 4) × Vec (3 + 3)) := do
  modify (fun s => { s with lastT := some s.t })
  modify (fun s => { s with t := s.t + s.dt })
  modify (fun s => { s with currentY := lastY, currentYd := lastYd })
  let s ← get
  let rp ← Py.lift (sf.run (s.posArgs coupling) (s.lastT.getD 0) s.t (sliceTo s.currentY, sliceTo s.currentYd))
  modify (fun s => { s with
    currentY := hstack rp.1 (sliceFrom s.currentY)
    currentYd := hstack rp.2 (sliceFrom s.currentYd) })
  let s ← get
  let rr ← Py.lift (qf.run (s.rotArgs coupling) (s.lastT.getD 0) s.t (sliceFrom s.currentY, sliceFrom s.currentYd))
  modify (fun s => { s with
    currentY := hstack (sliceTo s.currentY) rr.1
    currentYd := hstack (sliceTo s.currentYd) rr.2 })
  let s ← get
  return (s.currentY, s.currentYd)

/-- Arguments used by `open_loop` for the position, `dmp/_cartesian_dmp.py` lines 369-377 and `dmp_open_loop`'s
defaults. -/
def posOpenLoopArgs (s : CartesianDMP m) (coupling : Option PoseCoupling) : StepArgs 3 m :=
  { s.posArgs coupling with goalYd := 0, goalYdd := 0, startYd := 0, startYdd := 0 }

/-- Arguments used by `open_loop` for the orientation, `dmp/_cartesian_dmp.py` lines 385-393 and 691-694. -/
def rotOpenLoopArgs (s : CartesianDMP m) (coupling : Option PoseCoupling) : QuatStepArgs m :=
  { s.rotArgs coupling with startYd := 0 }

/-- `CartesianDMP.open_loop`, `dmp/_cartesian_dmp.py` lines 335-394. `ops` are the quaternion functions of pytransform3d.
The object is only read. (`np.hstack` raises ValueError for different numbers of rows.) -/
noncomputable def openLoop (ops : QuatOps) (runT : Option ℝ) (coupling : Option PoseCoupling)
    (stepFunction quaternionStepFunction : String) : Py (CartesianDMP m) (List ℝ × List (Vec (3 + 4))) := do
  let sf ← Py.lift (StepFunction.lookup stepFunction)
  let s ← get
  let p ← Py.lift (dmpOpenLoop (s.posOpenLoopArgs coupling) s.dt runT sf)
  let qf ← Py.lift (QuatStepFunction.lookup ops quaternionStepFunction)
  let a := s.rotOpenLoopArgs coupling
  let r ← Py.lift (openLoopWith a.goalT a.startT s.dt (a.startY, a.startYd) runT (qf.run a))
  if p.2.length ≠ r.2.length then throw .valueError
  return (p.1, List.zipWith hstack p.2 r.2)

/-- Number of elements and rows of `weights.reshape(-1, n_weights_per_dim)` assigned to an array of shape `(3, m)`: the
reshape needs a multiple of `m` elements, the assignment accepts three rows or (by broadcasting) one row. -/
def assignRows (m : ℕ) (w : List ℝ) : Except PyErr (Fin 3 → Fin m → ℝ) :=
  if h : w.length = 3 * m then
    .ok (fun k i => w[m * k.val + i.val]'(by
      have := k.isLt
      have := i.isLt
      have h2 : m * k.val ≤ m * 2 := Nat.mul_le_mul_left _ (by omega)
      omega))
  else if h : w.length = m then .ok (fun _ i => w[i.val]'(by rw [h]; exact i.isLt))
  else .error .valueError

/-- `set_weights`, `dmp/_cartesian_dmp.py` lines 450-462, for an array of any length. -/
def setWeights (w : List ℝ) : Py (CartesianDMP m) Unit := do
  let wp ← Py.lift (assignRows m (w.take (3 * m)))
  modify (fun s => { s with ftPos := { s.ftPos with weights := wp } })
  let wr ← Py.lift (assignRows m (w.drop (3 * m)))
  modify (fun s => { s with ftRot := { s.ftRot with weights := wr } })

/-- `get_weights`, `dmp/_cartesian_dmp.py` lines 439-448. -/
def getWeights (s : CartesianDMP m) : List ℝ :=
  List.ofFn (fun i : Fin (3 * m) => s.ftPos.weights i.divNat i.modNat) ++
    List.ofFn (fun i : Fin (3 * m) => s.ftRot.weights i.divNat i.modNat)

end CartesianDMP

section
variable {n m : ℕ}

/-- Angular velocities of a demonstration, `determine_forces_quaternion` lines 599-603. `qgrad` is pytransform3d's
`quaternion_gradient`. -/
noncomputable def demoRotYd (qgrad : (Fin (n + 2) → Vec 4) → Fin (n + 2) → Vec 3) (T : Fin (n + 2) → ℝ)
    (Y : Fin (n + 2) → Vec 4) (allowFinalVelocity : Bool) : Fin (n + 2) → Vec 3 :=
  fun t k =>
    if t = Fin.last (n + 1) ∧ allowFinalVelocity = false then 0
    else qgrad Y t k / gradient T t

/-- Angular accelerations of a demonstration, `determine_forces_quaternion` lines 605-608. -/
noncomputable def demoRotYdd (qgrad : (Fin (n + 2) → Vec 4) → Fin (n + 2) → Vec 3) (T : Fin (n + 2) → ℝ)
    (Y : Fin (n + 2) → Vec 4) (allowFinalVelocity : Bool) : Fin (n + 2) → Vec 3 :=
  fun t k =>
    if t = Fin.last (n + 1) then 0
    else gradient (fun i => demoRotYd qgrad T Y allowFinalVelocity i k) t / gradient T t

/-- Forces computed by `determine_forces_quaternion`, `dmp/_cartesian_dmp.py` lines 597-628. -/
noncomputable def determineForcesQuaternion (ops : QuatOps) (qgrad : (Fin (n + 2) → Vec 4) → Fin (n + 2) → Vec 3)
    (T : Fin (n + 2) → ℝ) (Y : Fin (n + 2) → Vec 4) (alphaY betaY : Vec 3) (alphaZ : ℝ)
    (allowFinalVelocity smooth : Bool) : Fin (n + 2) → Vec 3 :=
  let Yd := demoRotYd qgrad T Y allowFinalVelocity
  let Ydd := demoRotYdd qgrad T Y allowFinalVelocity
  let executionTime := T (Fin.last (n + 1)) - T 0
  let goalY := Y (Fin.last (n + 1))
  fun t k =>
    let z := phase (T t) alphaZ (T (Fin.last (n + 1))) (T 0)
    let smoothing := if smooth then betaY k * z * QuatStepArgs.diff ops goalY (Y 0) k else 0
    executionTime ^ 2 * Ydd t k -
      alphaY k * (betaY k * QuatStepArgs.diff ops goalY (Y t) k - executionTime * Yd t k - smoothing)

/-- `CartesianDMP.imitate`, `dmp/_cartesian_dmp.py` lines 396-437 (with `dmp_quaternion_imitation`, lines 465-541, whose
structure is that of `dmp_imitate`). -/
noncomputable def CartesianDMP.imitate (ops : QuatOps) (qgrad : (Fin (n + 2) → Vec 4) → Fin (n + 2) → Vec 3)
    (T : Fin (n + 2) → ℝ) (Y : Fin (n + 2) → Vec (3 + 4)) (reg : ℝ) (allowFinalVelocity : Bool) :
    Py (CartesianDMP m) Unit := do
  let s ← get
  let wp ← Py.lift (dmpImitate m T (fun t => sliceTo (Y t)) reg (sliceTo s.alphaY) (sliceTo s.betaY) s.ftPos.overlap
    s.ftPos.alphaZ allowFinalVelocity s.smooth)
  modify (fun s => { s with ftPos := { s.ftPos with weights := wp.1 } })
  let wr ← Py.lift (dmpImitateWith m T reg s.ftRot.overlap s.ftRot.alphaZ
    (.ok (determineForcesQuaternion ops qgrad T (fun t => sliceFrom (Y t)) (sliceFrom s.alphaY) (sliceFrom s.betaY)
      s.ftRot.alphaZ allowFinalVelocity s.smooth)))
  modify (fun s => { s with ftRot := { s.ftRot with weights := wr } })
  CartesianDMP.configure { startY := some (List.ofFn (Y 0)), goalY := some (List.ofFn (Y (Fin.last (n + 1)))) }

end
end Verif
