import Verif.Model.Imitate
import Mathlib.LinearAlgebra.Matrix.NonsingularInverse

/-!
# DMP with final velocity (`movement_primitives/dmp/_dmp_with_final_velocity.py`)
-/

namespace Verif
open Matrix

/-- `np.linalg.solve(M, Y)`: raises LinAlgError for a singular matrix. -/
noncomputable def linalgSolve {n d : ℕ} (M : Matrix (Fin n) (Fin n) ℝ) (Y : Fin n → Vec d) :
    Except PyErr (Fin n → Vec d) :=
  if M.det = 0 then .error .linAlgError else .ok (fun i k => (M⁻¹ * Matrix.of Y) i k)

/-- The matrix `M` of `solve_constraints`, lines 217-231. -/
def constraintMatrix (t0 t1 : ℝ) : Matrix (Fin 6) (Fin 6) ℝ :=
  !![1, t0, t0 ^ 2, t0 ^ 3, t0 ^ 4, t0 ^ 5;
     0, 1, 2 * t0, 3 * t0 ^ 2, 4 * t0 ^ 3, 5 * t0 ^ 4;
     0, 0, 2, 6 * t0, 12 * t0 ^ 2, 20 * t0 ^ 3;
     1, t1, t1 ^ 2, t1 ^ 3, t1 ^ 4, t1 ^ 5;
     0, 1, 2 * t1, 3 * t1 ^ 2, 4 * t1 ^ 3, 5 * t1 ^ 4;
     0, 0, 2, 6 * t1, 12 * t1 ^ 2, 20 * t1 ^ 3]

/-- `solve_constraints`, lines 216-236. -/
noncomputable def solveConstraints {d : ℕ} (t0 t1 : ℝ) (y0 y0d y0dd y1 y1d y1dd : Vec d) :
    Except PyErr (Fin 6 → Vec d) :=
  linalgSolve (constraintMatrix t0 t1) ![y0, y0d, y0dd, y1, y1d, y1dd]

/-- `apply_constraints`, lines 239-258: reference position, velocity and acceleration. `np.finfo(float).eps` is
`2 ^ (-52)`. -/
noncomputable def applyConstraints {d : ℕ} (t : ℝ) (goalY : Vec d) (goalT : ℝ) (c : Fin 6 → Vec d) :
    Vec d × Vec d × Vec d :=
  if goalT + 1 / 2 ^ 52 < t then (goalY, 0, 0)
  else
    (fun k => c 0 k + t * c 1 k + t ^ 2 * c 2 k + t ^ 3 * c 3 k + t ^ 4 * c 4 k + t ^ 5 * c 5 k,
     fun k => c 1 k + 2 * t * c 2 k + 3 * t ^ 2 * c 3 k + 4 * t ^ 3 * c 4 k + 5 * t ^ 4 * c 5 k,
     fun k => 2 * c 2 k + 6 * t * c 3 k + 12 * t ^ 2 * c 4 k + 20 * t ^ 3 * c 5 k)

section
variable {d n : ℕ}

/-- Backward differences with a leading zero: `X[0] = 0; X[1:] = np.diff(x) / np.diff(T)`, lines 318-326. -/
noncomputable def backwardDifference (T : Fin (n + 2) → ℝ) (x : Fin (n + 2) → ℝ) (i : Fin (n + 2)) : ℝ :=
  if i.val = 0 then 0
  else (x i - x ⟨i.val - 1, by omega⟩) / (T i - T ⟨i.val - 1, by omega⟩)

/-- `Yd` of `determine_forces`, lines 318-321. -/
noncomputable def fvYd (T : Fin (n + 2) → ℝ) (Y : Fin (n + 2) → Vec d) : Fin (n + 2) → Vec d :=
  fun i k => backwardDifference T (fun j => Y j k) i

/-- `Ydd` of `determine_forces`, lines 323-326. -/
noncomputable def fvYdd (T : Fin (n + 2) → ℝ) (Y : Fin (n + 2) → Vec d) : Fin (n + 2) → Vec d :=
  fun i k => backwardDifference T (fun j => fvYd T Y j k) i

/-- `determine_forces`, lines 261-339. -/
noncomputable def fvDetermineForces (T : Fin (n + 2) → ℝ) (Y : Fin (n + 2) → Vec d) (alphaY betaY : Vec d) :
    Except PyErr (Fin (n + 2) → Vec d) := do
  let l := Fin.last (n + 1)
  let c ← solveConstraints (T 0) (T l) (Y 0) (fvYd T Y 0) (fvYdd T Y 0) (Y l) (fvYd T Y l) (fvYdd T Y l)
  let executionTime := T l - T 0
  return fun t k =>
    let g := applyConstraints (T t) (Y l) (T l) c
    executionTime ^ 2 * fvYdd T Y t k
      - alphaY k * (betaY k * (g.1 k - Y t k) + executionTime * (g.2.1 k - fvYd T Y t k))
      - executionTime ^ 2 * g.2.2 k

end

namespace StepArgs
variable {d m : ℕ}

/-- Coupling of one sub-step, lines 436-442: a precomputed coupling is added to the one of the coupling term. -/
noncomputable def fvCoupling (a : StepArgs d m) (s : Vec d × Vec d) : Vec d × Vec d :=
  let c := match a.coupling with
    | some c => c s.1 s.2
    | none => (0, 0)
  match a.precomputed with
  | some p => (c.1 + p.1, c.2 + p.2)
  | none => c

/-- Loop body of `dmp_step_euler_with_constraints`, lines 431-459. -/
noncomputable def fvBody (a : StepArgs d m) (c : Fin 6 → Vec d) (dt t : ℝ) (s : Vec d × Vec d) : Vec d × Vec d :=
  let executionTime := a.goalT - a.startT
  let cc := a.fvCoupling s
  let f := a.ft.force (a.ft.phaseAt t)
  let g := applyConstraints t a.goalY a.goalT c
  let ydd : Vec d := fun k =>
    (a.alphaY k * (a.betaY k * (g.1 k - s.1 k) + executionTime * (g.2.1 k - s.2 k))
      + f k + (cc.2 k + a.pGain * a.trackingError k / dt)) / executionTime ^ 2 + g.2.2 k
  let yd' : Vec d := fun k => s.2 k + (dt * ydd k + cc.1 k / executionTime)
  let y' : Vec d := fun k => s.1 k + dt * yd' k
  (y', yd')

/-- `dmp_step_euler_with_constraints`, lines 342-459. -/
noncomputable def fvStep (a : StepArgs d m) (lastT t : ℝ) (s : Vec d × Vec d) : Except PyErr (Vec d × Vec d) :=
  if a.goalT ≤ a.startT then .error .valueError
  else if t ≤ a.startT then .ok s
  else do
    let c ← solveConstraints a.startT a.goalT a.startY a.startYd a.startYdd a.goalY a.goalYd a.goalYdd
    intLoop a.intDt t (a.fvBody c) lastT s

end StepArgs

/-- `DMPWithFinalVelocity` has the attributes of `DMP`; `smooth_scaling` is `False`. -/
abbrev FvDMP (d m : ℕ) := DMP d m

namespace FvDMP
variable {d m n : ℕ}

/-- `DMPWithFinalVelocity.__init__`, lines 61-81 (the same statements as in `DMP.__init__`). -/
noncomputable def create (d m : ℕ) (executionTime dt intDt pGain : ℝ) (alphaY betaY : ArrayLike) :
    Except PyErr (FvDMP d m) :=
  DMP.create d m executionTime dt intDt pGain false alphaY betaY

/-- `DMPWithFinalVelocity.step`, lines 94-140. -/
noncomputable def step (coupling : Option (Coupling d)) (lastY _lastYd : Vec d) : Py (FvDMP d m) (Vec d × Vec d) := do
  modify (fun s => { s with lastT := some s.t })
  modify (fun s => { s with t := s.t + s.dt })
  modify (fun s => if s.initialized then s else
    { s with currentY := s.startY, currentYd := s.startYd, initialized := true })
  let s ← get
  let lastT := s.lastT.getD 0
  let trackingError := s.currentY - lastY
  let r ← Py.lift ((s.stepArgs coupling trackingError).fvStep lastT s.t (s.currentY, s.currentYd))
  modify (fun s => { s with currentY := r.1, currentYd := r.2 })
  return r

/-- Arguments passed by `open_loop`, lines 161-171: in contrast to `DMP.open_loop`, start and goal velocities and
accelerations are passed on. -/
def openLoopArgs (s : FvDMP d m) (coupling : Option (Coupling d)) : StepArgs d m :=
  { s.stepArgs coupling 0 with pGain := 0 }

/-- `DMPWithFinalVelocity.open_loop`, lines 142-171. -/
noncomputable def openLoop (runT : Option ℝ) (coupling : Option (Coupling d)) :
    Py (FvDMP d m) (List ℝ × List (Vec d)) := do
  let s ← get
  let a := openLoopArgs s coupling
  Py.lift (openLoopWith a.goalT a.startT s.dt (a.startY, a.startYd) runT a.fvStep)

/-- `DMPWithFinalVelocity.imitate`, lines 173-213. -/
noncomputable def imitate (T : Fin (n + 2) → ℝ) (Y : Fin (n + 2) → Vec d) (reg : ℝ) : Py (FvDMP d m) Unit := do
  let s ← get
  let w ← Py.lift (dmpImitateWith m T reg s.ft.overlap s.ft.alphaZ (fvDetermineForces T Y s.alphaY s.betaY))
  modify (fun s => { s with ft := { s.ft with weights := w } })
  let l := Fin.last (n + 1)
  DMP.configure
    { startY := some (List.ofFn (Y 0)), startYd := some (List.ofFn (fvYd T Y 0))
      startYdd := some (List.ofFn (fvYdd T Y 0)), goalY := some (List.ofFn (Y l))
      goalYd := some (List.ofFn (fvYd T Y l)), goalYdd := some (List.ofFn (fvYdd T Y l)) }

end FvDMP
end Verif
