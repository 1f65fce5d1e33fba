import Verif.Model.Base
import Verif.Model.DmpStep

/-!
# The `DMP` class (`movement_primitives/dmp/_dmp.py`, lines 343-594) without imitation
-/

namespace Verif

/-- Attributes of a `DMP`, `dmp/_dmp.py` lines 413-427 (and inherited ones). `n_dims = d` and
`n_weights_per_dim = m` never change after construction. -/
structure DMP (d m : ℕ) extends Movement d d where
  executionTime : ℝ
  dt : ℝ
  intDt : ℝ
  pGain : ℝ
  smooth : Bool
  ft : ForcingTerm d m
  alphaY : Vec d
  betaY : Vec d
  initialized : Bool

namespace DMP
variable {d m : ℕ}

/-- `_init_forcing_term`, `dmp/_dmp.py` lines 429-433. -/
noncomputable def initForcingTerm (d m : ℕ) (executionTime : ℝ) : Except PyErr (ForcingTerm d m) := do
  let alphaZ ← canonicalSystemAlpha (1 / 100) executionTime 0
  ForcingTerm.create d m executionTime 0 (8 / 10) alphaZ

/-- `DMP.__init__`, `dmp/_dmp.py` lines 413-427. -/
noncomputable def create (d m : ℕ) (executionTime dt intDt pGain : ℝ) (smooth : Bool)
    (alphaY betaY : ArrayLike) : Except PyErr (DMP d m) := do
  let ft ← initForcingTerm d m executionTime
  let alphaY ← ensure1dArray alphaY d
  let betaY ← ensure1dArray betaY d
  return { Movement.init d d with
    executionTime := executionTime, dt := dt, intDt := intDt, pGain := pGain, smooth := smooth
    ft := ft, alphaY := alphaY, betaY := betaY, initialized := false }

/-- `set_execution_time_`, `dmp/_dmp.py` lines 438-442: the new value is stored before the forcing term is
rebuilt (which may raise). -/
noncomputable def setExecutionTime (executionTime : ℝ) : Py (DMP d m) Unit := do
  modify (fun s => { s with executionTime := executionTime })
  let weights := (← get).ft.weights
  let ft ← Py.lift (initForcingTerm d m (← get).executionTime)
  modify (fun s => { s with ft := ft })
  modify (fun s => { s with ft := { s.ft with weights := weights } })

/-- `configure` inherited from `PointToPointMovement`. -/
def configure (a : ConfigArgs) : Py (DMP d m) Unit :=
  Py.zoom DMP.toMovement (fun mv s => { s with toMovement := mv }) (Movement.configure a)

/-- `reset` inherited from `DMPBase`, `dmp/_base.py` lines 21-26; `initialized` is not touched. -/
def reset : Py (DMP d m) Unit :=
  modify (fun s => { s with toMovement := s.toMovement.reset })

/-- `get_weights`, `dmp/_base.py` lines 36-44: row-major. -/
def getWeights (s : DMP d m) : List ℝ :=
  List.ofFn (fun i : Fin (d * m) => s.ft.weights i.divNat i.modNat)

/-- `weights.reshape(n_dims, n_weights_per_dim)`: raises ValueError unless the size is `d * m`. -/
def reshapeWeights (d m : ℕ) (w : List ℝ) : Except PyErr (Fin d → Fin m → ℝ) :=
  if h : w.length = d * m then
    .ok (fun k i => w[(finProdFinEquiv (k, i)).val]'(by rw [h]; exact (finProdFinEquiv (k, i)).isLt))
  else .error .valueError

/-- `set_weights`, `dmp/_base.py` lines 46-54. -/
def setWeights (w : List ℝ) : Py (DMP d m) Unit := do
  let w ← Py.lift (reshapeWeights d m w)
  modify (fun s => { s with ft := { s.ft with weights := w } })

/-- Arguments passed by `step` to the step function, `dmp/_dmp.py` lines 492-504. -/
def stepArgs (s : DMP d m) (coupling : Option (Coupling d)) (trackingError : Vec d) : StepArgs d m :=
  { goalY := s.goalY, goalYd := s.goalYd, goalYdd := s.goalYdd
    startY := s.startY, startYd := s.startYd, startYdd := s.startYdd
    goalT := s.executionTime, startT := 0, alphaY := s.alphaY, betaY := s.betaY, ft := s.ft
    coupling := coupling, precomputed := none, intDt := s.intDt, pGain := s.pGain
    trackingError := trackingError, smooth := s.smooth }

/-- `DMP.step` after the lookup of the step function and the length assertions, `dmp/_dmp.py` lines 479-505.
When the step function raises, `t`, `last_t` and the lazily initialised state keep their new values.
`last_yd` is not used by the code. -/
noncomputable def step (coupling : Option (Coupling d)) (sf : StepFunction) (lastY _lastYd : Vec d) :
    Py (DMP d m) (Vec d × Vec d) := do
  modify (fun s => { s with lastT := some s.t })
  modify (fun s => { s with t := s.t + s.dt })
  modify (fun s => if s.initialized then s else
    { s with currentY := s.startY, currentYd := s.startYd, initialized := true })
  let s ← get
  let lastT := s.lastT.getD 0
  let trackingError := s.currentY - lastY
  let r ← Py.lift (sf.run (s.stepArgs coupling trackingError) lastT s.t (s.currentY, s.currentYd))
  modify (fun s => { s with currentY := r.1, currentYd := r.2 })
  return r

/-- `DMP.step`, `dmp/_dmp.py` lines 446-505, for array-likes `last_y`, `last_yd` of any length and any name of
a step function (lines 473-477). -/
noncomputable def stepList (lastY lastYd : List ℝ) (coupling : Option (Coupling d)) (stepFunction : String) :
    Py (DMP d m) (Vec d × Vec d) := do
  let sf ← Py.lift (StepFunction.lookup stepFunction)
  let lastY ← Py.lift ((checkLength d lastY).mapError (fun _ => PyErr.assertionError))
  let lastYd ← Py.lift ((checkLength d lastYd).mapError (fun _ => PyErr.assertionError))
  step coupling sf lastY lastYd

/-- Arguments passed by `open_loop` via `dmp_open_loop` to the step function, `dmp/_dmp.py` lines 542-550 and
897-905: no tracking error, and start/goal velocities and accelerations default to zero. -/
def openLoopArgs (s : DMP d m) (coupling : Option (Coupling d)) : StepArgs d m :=
  { goalY := s.goalY, goalYd := 0, goalYdd := 0, startY := s.startY, startYd := 0, startYdd := 0
    goalT := s.executionTime, startT := 0, alphaY := s.alphaY, betaY := s.betaY, ft := s.ft
    coupling := coupling, precomputed := none, intDt := s.intDt, pGain := 0, trackingError := 0
    smooth := s.smooth }

/-- `DMP.open_loop`, `dmp/_dmp.py` lines 507-550, with the object as state (it is only read). -/
noncomputable def openLoop (runT : Option ℝ) (coupling : Option (Coupling d)) (stepFunction : String) :
    Py (DMP d m) (List ℝ × List (Vec d)) := do
  let sf ← Py.lift (StepFunction.lookup stepFunction)
  let s ← get
  Py.lift (dmpOpenLoop (s.openLoopArgs coupling) s.dt runT sf)

end DMP
end Verif
