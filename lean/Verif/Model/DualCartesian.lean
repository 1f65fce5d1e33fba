import Verif.Model.CartesianDmp

/-!
# Dual Cartesian DMP (`movement_primitives/dmp/_dual_cartesian_dmp.py`, `dmp_step_dual_cartesian` of `dmp_fast.pyx`)

The state of two arms is an array of length 14: position (3) and orientation (4) of the left arm, then of the right arm.
Velocities, gains and forces are arrays of length 12: linear (3) and angular (3) part of the left, then of the right arm.
-/

namespace Verif

/-- `Y[7 * arm : 7 * arm + 3]`: position of an arm, the indices `pps` of `dmp/_dual_cartesian_dmp.py` line 11. -/
def armPos (arm : Fin 2) (y : Vec 14) : Vec 3 := fun k => y ⟨7 * arm + k, by omega⟩

/-- `Y[7 * arm + 3 : 7 * arm + 7]`: orientation of an arm, the slices `ops` of lines 114-115 and 138-139. -/
def armRot (arm : Fin 2) (y : Vec 14) : Vec 4 := fun k => y ⟨7 * arm + 3 + k, by omega⟩

/-- `V[6 * arm : 6 * arm + 3]`: linear velocity (gain, force) of an arm, the indices `pvs` of line 12. -/
def armLin (arm : Fin 2) (v : Vec 12) : Vec 3 := fun k => v ⟨6 * arm + k, by omega⟩

/-- `V[6 * arm + 3 : 6 * arm + 6]`: angular velocity (gain, force) of an arm, the slices `ovs` of lines 114-115 and
138-139. -/
def armAng (arm : Fin 2) (v : Vec 12) : Vec 3 := fun k => v ⟨6 * arm + 3 + k, by omega⟩

/-- State whose parts are `p` and `q` (assignment to all slices of an array of length 14). -/
def joinState (p : Fin 2 → Vec 3) (q : Fin 2 → Vec 4) : Vec 14 := fun i =>
  if h : i.val % 7 < 3 then p ⟨i.val / 7, by omega⟩ ⟨i.val % 7, h⟩
  else q ⟨i.val / 7, by omega⟩ ⟨i.val % 7 - 3, by omega⟩

/-- Velocity whose parts are `l` and `w` (assignment to all slices of an array of length 12). -/
def joinVel (l w : Fin 2 → Vec 3) : Vec 12 := fun i =>
  if h : i.val % 6 < 3 then l ⟨i.val / 6, by omega⟩ ⟨i.val % 6, h⟩
  else w ⟨i.val / 6, by omega⟩ ⟨i.val % 6 - 3, by omega⟩

/-- A coupling term of a dual-arm DMP: `coupling(y, yd)` returns `(cd, cdd)`. Simplification: a pure function, i.e.
coupling terms that change with every call are not covered. -/
abbrev DualCoupling := Vec 14 → Vec 12 → Vec 12 × Vec 12

/-- Arguments of the dual-arm step functions (all but `last_t`, `t`, `current_y`, `current_yd`, and the unused ones:
`goal_yd`, `goal_ydd`, `start_ydd`). -/
structure DualStepArgs (m : ℕ) where
  goalY : Vec 14
  startY : Vec 14
  startYd : Vec 12
  goalT : ℝ
  startT : ℝ
  alphaY : Vec 12
  betaY : Vec 12
  ft : ForcingTerm 12 m
  coupling : Option DualCoupling := none
  intDt : ℝ := 1 / 1000
  pGain : ℝ := 0
  trackingError : Option (Vec 14) := none
  smooth : Bool := false

namespace DualStepArgs
variable {m : ℕ}

/-- What the tracking error adds to `cdd`: `dmp/_dual_cartesian_dmp.py` lines 112-117, `dmp_fast.pyx` lines 632-636. -/
noncomputable def correction (a : DualStepArgs m) (ops : QuatOps) (dt : ℝ) : Vec 12 :=
  match a.trackingError with
  | none => 0
  | some e => joinVel (fun arm k => a.pGain * armPos arm e k / dt) (fun arm k => a.pGain * ops.log (armRot arm e) k / dt)

/-- The array `smoothing` of the position, `dmp/_dual_cartesian_dmp.py` lines 119-122, `dmp_fast.pyx` lines 640-643:
`beta_y` (length 12) is indexed with the indices `pps` of an array of length 14. -/
noncomputable def smoothingPos (a : DualStepArgs m) (z : ℝ) (arm : Fin 2) : Vec 3 := fun k =>
  if a.smooth then a.betaY ⟨7 * arm + k, by omega⟩ * (armPos arm a.goalY k - armPos arm a.startY k) * z else 0

/-- Update of the state for given `cd`, `cdd`: `dmp/_dual_cartesian_dmp.py` lines 110-111, 119-158, `dmp_fast.pyx` lines
630-631, 638-675. -/
noncomputable def update (a : DualStepArgs m) (ops : QuatOps) (cd cdd : Vec 12) (dt t : ℝ) (s : Vec 14 × Vec 12) :
    Vec 14 × Vec 12 :=
  let executionTime := a.goalT - a.startT
  let z := a.ft.phaseAt t
  let f := a.ft.force z
  let lin (arm : Fin 2) : Vec 3 := fun k =>
    let ydd := (armLin arm a.alphaY k * (armLin arm a.betaY k * (armPos arm a.goalY k - armPos arm s.1 k)
      - executionTime * armLin arm s.2 k - a.smoothingPos z arm k) + armLin arm f k + armLin arm cdd k) /
        executionTime ^ 2
    armLin arm s.2 k + (dt * ydd + armLin arm cd k / executionTime)
  let pos (arm : Fin 2) : Vec 3 := fun k => armPos arm s.1 k + dt * lin arm k
  let ang (arm : Fin 2) : Vec 3 := fun k =>
    let smoothing := if a.smooth then
        armAng arm a.betaY k * z * QuatStepArgs.diff ops (armRot arm a.goalY) (armRot arm a.startY) k
      else 0
    let ydd := (armAng arm a.alphaY k *
      (armAng arm a.betaY k * QuatStepArgs.diff ops (armRot arm a.goalY) (armRot arm s.1) k
      - executionTime * armAng arm s.2 k - smoothing) + armAng arm f k + armAng arm cdd k) / executionTime ^ 2
    armAng arm s.2 k + (dt * ydd + armAng arm cd k / executionTime)
  let rot (arm : Fin 2) : Vec 4 := ops.mul (ops.exp (fun k => dt * ang arm k)) (armRot arm s.1)
  (joinState pos rot, joinVel lin ang)

/-- Loop body of `dmp_step_dual_cartesian_python`, `dmp/_dual_cartesian_dmp.py` lines 107-158: the arrays `cd`, `cdd`
live outside of the loop. -/
noncomputable def bodyPy (a : DualStepArgs m) (ops : QuatOps) (dt t : ℝ)
    (s : (Vec 14 × Vec 12) × (Vec 12 × Vec 12)) : (Vec 14 × Vec 12) × (Vec 12 × Vec 12) :=
  let c : Vec 12 × Vec 12 := match a.coupling with
    | some c => c s.1.1 s.1.2
    | none => s.2
  let cdd := c.2 + a.correction ops dt
  (a.update ops c.1 cdd dt t s.1, (c.1, cdd))

/-- `dmp_step_dual_cartesian_python`, `dmp/_dual_cartesian_dmp.py` lines 15-158. -/
noncomputable def stepPy (a : DualStepArgs m) (ops : QuatOps) (lastT t : ℝ) (s : Vec 14 × Vec 12) :
    Except PyErr (Vec 14 × Vec 12) :=
  let s := if t ≤ a.startT then (a.startY, a.startYd) else s
  (intLoop a.intDt t (a.bodyPy ops) lastT (s, (0, 0))).map Prod.fst

/-- Loop body of the Cython `dmp_step_dual_cartesian`, `dmp_fast.pyx` lines 624-675: `cd`, `cdd` are reset in every
sub-step. -/
noncomputable def bodyCy (a : DualStepArgs m) (dt t : ℝ) (s : Vec 14 × Vec 12) : Vec 14 × Vec 12 :=
  let c : Vec 12 × Vec 12 := match a.coupling with
    | some c => c s.1 s.2
    | none => (0, 0)
  a.update QuatOps.cython c.1 (c.2 + a.correction QuatOps.cython dt) dt t s

/-- Cython `dmp_step_dual_cartesian`, `dmp_fast.pyx` lines 512-675. -/
noncomputable def stepCy (a : DualStepArgs m) (lastT t : ℝ) (s : Vec 14 × Vec 12) : Except PyErr (Vec 14 × Vec 12) :=
  let s := if t ≤ a.startT then (a.startY, a.startYd) else s
  intLoop a.intDt t a.bodyCy lastT s

end DualStepArgs

/-- `DUAL_CARTESIAN_DMP_STEP_FUNCTIONS`, `dmp/_dual_cartesian_dmp.py` lines 161-171. The Python function uses the
quaternion functions of pytransform3d. -/
inductive DualStepFunction where
  | python (ops : QuatOps)
  | cython

/-- Call of a dual-arm step function. -/
noncomputable def DualStepFunction.run {m : ℕ} (sf : DualStepFunction) (a : DualStepArgs m) :
    ℝ → ℝ → Vec 14 × Vec 12 → Except PyErr (Vec 14 × Vec 12) :=
  match sf with
  | .python ops => a.stepPy ops
  | .cython => a.stepCy

/-- Lookup by name, `dmp/_dual_cartesian_dmp.py` lines 348-353. -/
def DualStepFunction.lookup (ops : QuatOps) (name : String) : Except PyErr DualStepFunction :=
  if name = "python" then .ok (.python ops)
  else if name = "cython" then .ok .cython
  else .error .valueError

/-- `while cond(self): x = body(x)`: a loop in a method, with local variables `x`. An exception ends the loop.
(Not a function of the repository; used for the loops in `open_loop`.) -/
noncomputable def Py.while {σ α : Type} (cond : σ → Prop) (body : α → Py σ α) (x : α) : Py σ α :=
  ExceptT.mk (fun s =>
    match whileLoop (fun p : Except PyErr α × σ => (∃ x, p.1 = .ok x) ∧ cond p.2)
      (fun p => match p.1 with
        | .ok x => (body x).exec p.2
        | .error e => (.error e, p.2)) (.ok x, s) with
    | .ok p => p
    | .error e => (.error e, s))

/-- Attributes of a `DualCartesianDMP`, `dmp/_dual_cartesian_dmp.py` lines 237-250. -/
structure DualCartesianDMP (m : ℕ) extends Movement 14 12 where
  executionTime : ℝ
  dt : ℝ
  intDt : ℝ
  pGain : ℝ
  smooth : Bool
  ft : ForcingTerm 12 m
  alphaY : Vec 12
  betaY : Vec 12
  initialized : Bool

namespace DualCartesianDMP
variable {m : ℕ}

/-- `_init_forcing_term`, `dmp/_dual_cartesian_dmp.py` lines 252-256. -/
noncomputable def initForcingTerm (m : ℕ) (executionTime : ℝ) : Except PyErr (ForcingTerm 12 m) := do
  let alphaZ ← canonicalSystemAlpha (1 / 100) executionTime 0
  ForcingTerm.create 12 m executionTime 0 (8 / 10) alphaZ

/-- `DualCartesianDMP.__init__`, `dmp/_dual_cartesian_dmp.py` lines 237-250. -/
noncomputable def create (m : ℕ) (executionTime dt intDt pGain : ℝ) (smooth : Bool) (alphaY betaY : ArrayLike) :
    Except PyErr (DualCartesianDMP m) := do
  let ft ← initForcingTerm m executionTime
  let alphaY ← ensure1dArray alphaY 12
  let betaY ← ensure1dArray betaY 12
  return { Movement.init 14 12 with
    executionTime := executionTime
    dt := dt
    intDt := intDt
    pGain := pGain
    smooth := smooth
    ft := ft
    alphaY := alphaY
    betaY := betaY
    initialized := false }

/-- `set_execution_time_`, `dmp/_dual_cartesian_dmp.py` lines 261-265. -/
noncomputable def setExecutionTime (executionTime : ℝ) : Py (DualCartesianDMP m) Unit := do
  modify (fun s => { s with executionTime := executionTime })
  let weights := (← get).ft.weights
  let ft ← Py.lift (initForcingTerm m (← get).executionTime)
  modify (fun s => { s with ft := { ft with weights := weights } })

/-- `configure` inherited from `PointToPointMovement`. -/
def configure (a : ConfigArgs) : Py (DualCartesianDMP m) Unit :=
  Py.zoom DualCartesianDMP.toMovement (fun mv s => { s with toMovement := mv }) (Movement.configure a)

/-- `reset` inherited from `DMPBase`: `initialized` is not changed. -/
def reset : Py (DualCartesianDMP m) Unit :=
  modify (fun s => { s with toMovement := s.toMovement.reset })

/-- The tracking error, `dmp/_dual_cartesian_dmp.py` lines 307-310. -/
def trackingError (ops : QuatOps) (currentY lastY : Vec 14) : Vec 14 :=
  joinState (fun arm k => armPos arm currentY k - armPos arm lastY k)
    (fun arm => ops.mul (armRot arm currentY) (ops.conj (armRot arm lastY)))

/-- Arguments of the step function, `dmp/_dual_cartesian_dmp.py` lines 312-321. -/
def stepArgs (s : DualCartesianDMP m) (coupling : Option DualCoupling) (e : Vec 14) : DualStepArgs m :=
  { goalY := s.goalY, startY := s.startY, startYd := s.startYd, goalT := s.executionTime, startT := 0
    alphaY := s.alphaY, betaY := s.betaY, ft := s.ft, coupling := coupling, intDt := s.intDt
    pGain := s.pGain, trackingError := some e, smooth := s.smooth }

/-- `DualCartesianDMP.step`, `dmp/_dual_cartesian_dmp.py` lines 269-323, after the length assertions. `ops` are the
quaternion functions of pytransform3d, used for the tracking error with every step function. -/
noncomputable def step (ops : QuatOps) (coupling : Option DualCoupling) (sf : DualStepFunction) (lastY : Vec 14)
    (lastYd : Vec 12) : Py (DualCartesianDMP m) (Vec 14 × Vec 12) := do
  modify (fun s => { s with lastT := some s.t })
  modify (fun s => { s with t := s.t + s.dt })
  modify (fun s =>
    if s.initialized then s
    else { s with currentY := s.startY, currentYd := s.startYd, initialized := true })
  let e := trackingError ops (← get).currentY lastY
  modify (fun s => { s with currentY := lastY, currentYd := lastYd })
  let s ← get
  let r ← Py.lift (sf.run (s.stepArgs coupling e) (s.lastT.getD 0) s.t (s.currentY, s.currentYd))
  modify (fun s => { s with currentY := r.1, currentYd := r.2 })
  let s ← get
  return (s.currentY, s.currentYd)

/-- Local variables of `open_loop`. -/
structure LoopVars where
  y : Vec 14
  yd : Vec 12
  T : List ℝ
  Y : List (Vec 14)

/-- Body of the loop in `open_loop`, `dmp/_dual_cartesian_dmp.py` lines 362-365. -/
noncomputable def loopBody (ops : QuatOps) (coupling : Option DualCoupling) (sf : DualStepFunction) (x : LoopVars) :
    Py (DualCartesianDMP m) LoopVars := do
  let r ← step ops coupling sf x.y x.yd
  let s ← get
  return { y := r.1, yd := r.2, T := x.T ++ [s.t], Y := x.Y ++ [s.currentY] }

/-- `DualCartesianDMP.open_loop`, `dmp/_dual_cartesian_dmp.py` lines 325-367: the object's own `step` is called, its time
is set to 0 before and after. -/
noncomputable def openLoop (ops : QuatOps) (runT : Option ℝ) (coupling : Option DualCoupling) (stepFunction : String) :
    Py (DualCartesianDMP m) (List ℝ × List (Vec 14)) := do
  let sf ← Py.lift (DualStepFunction.lookup ops stepFunction)
  let runT := runT.getD (← get).executionTime
  modify (fun s => { s with t := 0 })
  let s ← get
  let x ← Py.while (fun s : DualCartesianDMP m => s.t < runT) (loopBody ops coupling sf)
    { y := s.startY, yd := s.startYd, T := [s.t], Y := [s.startY] }
  modify (fun s => { s with t := 0 })
  return (x.T, x.Y)

end DualCartesianDMP
end Verif
