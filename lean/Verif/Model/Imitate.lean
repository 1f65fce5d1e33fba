import Verif.Model.Dmp
import Mathlib.LinearAlgebra.Matrix.Notation

/-!
# Imitation learning of the regular DMP (`movement_primitives/dmp/_dmp.py`, lines 552-804)

A demonstration has `n + 2` samples. (With fewer than two samples the code raises: IndexError for none,
ValueError from the `ForcingTerm` constructor for one.)
-/

namespace Verif
open Matrix

/-- The four Penrose conditions: `B` is the Moore-Penrose inverse of `A`. -/
structure IsPinv {n : ℕ} (A B : Matrix (Fin n) (Fin n) ℝ) : Prop where
  aba : A * B * A = A
  bab : B * A * B = B
  symm_ab : (A * B)ᵀ = A * B
  symm_ba : (B * A)ᵀ = B * A

open Classical in
/-- `np.linalg.pinv(A)`: the Moore-Penrose inverse. (Existence, for the symmetric matrices for which the code
calls it, is proved in `Verif.Lemmas.Pinv`; the numerical cut-off for small singular values is not
modelled.) -/
noncomputable def pinv {n : ℕ} (A : Matrix (Fin n) (Fin n) ℝ) : Matrix (Fin n) (Fin n) ℝ :=
  if h : ∃ B, IsPinv A B then h.choose else 0

/-- `ridge_regression(X, Y, regularization_coefficient)`, `dmp/_dmp.py` lines 779-804. -/
noncomputable def ridgeRegression {m n d : ℕ} (X : Matrix (Fin m) (Fin n) ℝ) (Y : Matrix (Fin n) (Fin d) ℝ)
    (reg : ℝ) : Matrix (Fin d) (Fin m) ℝ :=
  (pinv (X * Xᵀ + reg • 1) * X * Y)ᵀ

section
variable {d n : ℕ}

/-- Velocities of a demonstration, `determine_forces` lines 663-668. -/
noncomputable def demoYd (T : Fin (n + 2) → ℝ) (Y : Fin (n + 2) → Vec d) (allowFinalVelocity : Bool) :
    Fin (n + 2) → Vec d :=
  fun t k =>
    if t = Fin.last (n + 1) ∧ allowFinalVelocity = false then 0
    else gradient (fun i => Y i k) t / gradient T t

/-- Accelerations of a demonstration, `determine_forces` lines 669-672. -/
noncomputable def demoYdd (T : Fin (n + 2) → ℝ) (Y : Fin (n + 2) → Vec d) (allowFinalVelocity : Bool) :
    Fin (n + 2) → Vec d :=
  fun t k =>
    if t = Fin.last (n + 1) then 0
    else gradient (fun i => demoYd T Y allowFinalVelocity i k) t / gradient T t

/-- Forces `F` computed by `determine_forces`, `dmp/_dmp.py` lines 662-689. -/
noncomputable def determineForces (T : Fin (n + 2) → ℝ) (Y : Fin (n + 2) → Vec d) (alphaY betaY : Vec d)
    (alphaZ : ℝ) (allowFinalVelocity smooth : Bool) : Fin (n + 2) → Vec d :=
  let Yd := demoYd T Y allowFinalVelocity
  let Ydd := demoYdd T Y allowFinalVelocity
  let executionTime := T (Fin.last (n + 1)) - T 0
  let goalY := Y (Fin.last (n + 1))
  let startY := Y 0
  fun t k =>
    let z := phase (T t) alphaZ (T (Fin.last (n + 1))) (T 0)
    let smoothing := if smooth then betaY k * (goalY k - startY k) * z else 0
    executionTime ^ 2 * Ydd t k -
      alphaY k * (betaY k * (goalY k - Y t k) - Yd t k * executionTime - smoothing)

/-- `dmp_imitate`, `dmp/_dmp.py` lines 692-776, for an arbitrary function `determine_forces` with outcome `forces`: the
learned weights. -/
noncomputable def dmpImitateWith (m : ℕ) (T : Fin (n + 2) → ℝ) (reg overlap alphaZ : ℝ)
    (forces : Except PyErr (Fin (n + 2) → Vec d)) : Except PyErr (Fin d → Fin m → ℝ) := do
  if reg < 0 then throw .valueError
  let ft ← ForcingTerm.create d m (T (Fin.last (n + 1))) (T 0) overlap alphaZ
  let F ← forces
  let X := ft.designMatrix T
  return fun k i => ridgeRegression (Matrix.of X) (Matrix.of F) reg k i

/-- `dmp_imitate` for the forces of `determine_forces`, `dmp/_dmp.py` lines 692-776: weights, start and goal
position (the other results are not used by `DMP.imitate`). -/
noncomputable def dmpImitate (m : ℕ) (T : Fin (n + 2) → ℝ) (Y : Fin (n + 2) → Vec d) (reg : ℝ)
    (alphaY betaY : Vec d) (overlap alphaZ : ℝ) (allowFinalVelocity smooth : Bool) :
    Except PyErr ((Fin d → Fin m → ℝ) × Vec d × Vec d) := do
  let w ← dmpImitateWith m T reg overlap alphaZ
    (.ok (determineForces T Y alphaY betaY alphaZ allowFinalVelocity smooth))
  return (w, Y 0, Y (Fin.last (n + 1)))

end

/-- `DMP.imitate`, `dmp/_dmp.py` lines 552-594. -/
noncomputable def DMP.imitate {d m n : ℕ} (T : Fin (n + 2) → ℝ) (Y : Fin (n + 2) → Vec d) (reg : ℝ)
    (allowFinalVelocity : Bool) : Py (DMP d m) Unit := do
  let s ← get
  let r ← Py.lift (dmpImitate m T Y reg s.alphaY s.betaY s.ft.overlap s.ft.alphaZ allowFinalVelocity s.smooth)
  modify (fun s => { s with ft := { s.ft with weights := r.1 } })
  DMP.configure { startY := some (List.ofFn r.2.1), goalY := some (List.ofFn r.2.2) }

end Verif
