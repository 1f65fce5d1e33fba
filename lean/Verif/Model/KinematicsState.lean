import Verif.Model.Kinematics

/-!
# Inverse kinematics with the state of the transform manager (`movement_primitives/kinematics.py`)

`Model/Kinematics` passes the pose error to the optimiser as a function of the joint angles. Here the optimiser calls
`ee_pose_error`, which moves the joints of the transform manager, once after the other.
-/

namespace Verif

/-- An optimiser that evaluates its objective one point after the other: solver, initial guess, bounds and the
evaluations made so far (with their results) determine the next point, or the result `x`, `fun`. -/
abbrev Strategy (n : ℕ) := (solver : String) → (x0 : Vec n) → (bounds : Fin n → ℝ × ℝ) → List (Vec n × ℝ) →
  Vec n ⊕ (Vec n × ℝ)

/-- Execution of an optimiser that makes less than `k` evaluations of `f` (and does not return otherwise). -/
noncomputable def runStrategy {σ : Type} {n : ℕ} (f : Vec n → Py σ ℝ) (next : List (Vec n × ℝ) → Vec n ⊕ (Vec n × ℝ)) :
    ℕ → List (Vec n × ℝ) → Py σ (Vec n × ℝ)
  | 0, _ => throw .nonterminating
  | k + 1, evaluations =>
    match next evaluations with
    | .inr r => pure r
    | .inl q => do
      let e ← f q
      runStrategy f next k (evaluations ++ [(q, e)])

/-- The optimiser as a function of its objective, as assumed in `Model/Kinematics`. -/
noncomputable def Strategy.minimizer {n : ℕ} (s : Strategy n) (k : ℕ) : Minimizer n := fun solver f x0 bounds =>
  ((runStrategy (fun q => (Py.lift (f q) : Py Unit ℝ)) (s solver x0 bounds) k []).exec ()).1

/-- `Chain.inverse(desired_pose, initial_joint_angles, return_error=True, bounds, solver, ...)`, `kinematics.py`
lines 265-275: the optimiser calls `self.ee_pose_error`. -/
noncomputable def Chain.inverseEvaluating {n : ℕ} (c : Chain n) (s : Strategy n) (k : ℕ) (desired : Mat4)
    (initial : Vec n) (bounds : Option (Fin n → ℝ × ℝ)) (args : IKArgs) : Py TransformManager (Vec n × ℝ) :=
  runStrategy (fun q => c.eePoseError q desired args.orientationWeight args.positionWeight)
    (s args.solver initial (bounds.getD c.jointLimits)) k []

end Verif
