import Verif.Model.DualImitate

/-! Model of `movement_primitives/dmp_to_state_space_distribution.py`. The library gmr (estimation of a Gaussian
distribution, sigma points) is a parameter. -/

namespace Verif.StateSpace
variable {m : ℕ}

/-- A demonstration: times and states. -/
structure DualDemo where
  n : ℕ
  T : Fin (n + 2) → ℝ
  Y : Fin (n + 2) → Vec 14

/-- `np.mean(np.diff(T))`, `dmp_to_state_space_distribution.py` line 89. -/
noncomputable def DualDemo.dt (x : DualDemo) : ℝ :=
  (∑ i : Fin (x.n + 1), (x.T i.succ - x.T i.castSucc)) / (x.n + 1)

/-- `np.hstack((w, s, g, e))`, line 104. -/
noncomputable def stack (w : List ℝ) (s g : Vec 14) (e : ℝ) : List ℝ := w ++ List.ofFn s ++ List.ofFn g ++ [e]

/-- The DMP learned from one demonstration, lines 93-96 (`smooth_scaling` and the gains have default values). -/
noncomputable def learnDmp (ops : QuatOps) (qgrad : ∀ n, (Fin (n + 2) → Vec 4) → Fin (n + 2) → Vec 3) (m : ℕ)
    (intDt : ℝ) (x : DualDemo) : Except PyErr (DualCartesianDMP m) := do
  let dmp ← DualCartesianDMP.create m (x.T (Fin.last _)) x.dt intDt 0 false (.scalar 25) (.scalar (25 / 4))
  match (DualCartesianDMP.imitate ops (qgrad x.n) x.T x.Y 0 false).exec dmp with
  | (.ok _, dmp) => .ok dmp
  | (.error e, _) => .error e

/-- The loop over the data set, lines 87-105: parameter vectors and execution times of all demonstrations whose mean time
step is at least 0.005; the others are skipped. -/
noncomputable def collect (ops : QuatOps) (qgrad : ∀ n, (Fin (n + 2) → Vec 4) → Fin (n + 2) → Vec 3) (m : ℕ)
    (intDt : ℝ) : List DualDemo → Except PyErr (List (List ℝ × ℝ))
  | [] => .ok []
  | x :: xs =>
    if x.dt < 5 / 1000 then collect ops qgrad m intDt xs
    else do
      let dmp ← learnDmp ops qgrad m intDt x
      let rest ← collect ops qgrad m intDt xs
      return (stack dmp.getWeights (x.Y 0) (x.Y (Fin.last _)) (x.T (Fin.last _)), x.T (Fin.last _)) :: rest

/-- `estimate_dmp_parameter_distribution`, lines 75-109: the samples for the distribution and the mean execution time.
`np.vstack` of no array raises a ValueError. -/
noncomputable def estimateParameters (ops : QuatOps) (qgrad : ∀ n, (Fin (n + 2) → Vec 4) → Fin (n + 2) → Vec 3) (m : ℕ)
    (intDt : ℝ) (dataset : List DualDemo) : Except PyErr (List (List ℝ) × ℝ) := do
  let all ← collect ops qgrad m intDt dataset
  if all = [] then throw .valueError
  return (all.map Prod.fst, (all.map Prod.snd).sum / all.length)

/-- `parameters[weight_indices]`, `parameters[start_indices]`, `parameters[goal_indices]`, lines 117-121 and 130-132. An
index out of range raises an IndexError. -/
noncomputable def split (m : ℕ) (p : List ℝ) : Except PyErr (List ℝ × List ℝ × List ℝ) :=
  let nWeights := 2 * 6 * m
  let nDims := 2 * 7
  if p.length < nWeights + 2 * nDims then .error .indexError
  else .ok (p.take nWeights, (p.drop nWeights).take nDims, (p.drop (nWeights + nDims)).take nDims)

/-- Lines 136-137. -/
noncomputable def setParameters (weights start goal : List ℝ) : Py (DualCartesianDMP m) Unit := do
  DualCartesianDMP.configure { startY := some start, goalY := some goal }
  DualCartesianDMP.setWeights weights

/-- Configuration of the DMP of one sigma point, lines 130-137. -/
noncomputable def configured (m : ℕ) (executionTime dt intDt : ℝ) (p : List ℝ) :
    Except PyErr (DualCartesianDMP m) := do
  let (weights, start, goal) ← split m p
  let dmp ← DualCartesianDMP.create m executionTime dt intDt 0 false (.scalar 25) (.scalar (25 / 4))
  match (setParameters weights start goal).exec dmp with
  | (.ok _, dmp) => .ok dmp
  | (.error e, _) => .error e

/-- Trajectory of one sigma point, lines 129-139: `P.ravel()`. `stepFunction` is the default of `open_loop` ("cython" if
the extension is compiled, else "python"). -/
noncomputable def trajectory (ops : QuatOps) (stepFunction : String) (m : ℕ) (executionTime dt intDt : ℝ) (p : List ℝ) :
    Except PyErr (List ℝ) := do
  let dmp ← configured m executionTime dt intDt p
  let r ← ((DualCartesianDMP.openLoop ops (some executionTime) none stepFunction).exec dmp).1
  return r.2.flatMap fun y => List.ofFn y

/-- Simplified `np.vstack` of one-dimensional arrays: raises a ValueError if there is no array or if they have different
lengths. -/
def vstack (rows : List (List ℝ)) : Except PyErr (List (List ℝ)) :=
  match rows with
  | [] => .error .valueError
  | row :: rows => if ∀ r ∈ rows, r.length = row.length then .ok (row :: rows) else .error .valueError

/-- `propagate_to_state_space`, lines 112-141, for the sigma points `points`. -/
noncomputable def propagate (ops : QuatOps) (stepFunction : String) (m : ℕ) (executionTime dt intDt : ℝ)
    (points : List (List ℝ)) : Except PyErr (List (List ℝ)) := do
  let trajectories ← points.mapM (trajectory ops stepFunction m executionTime dt intDt)
  vstack trajectories

/-- Environment: functions of pytransform3d, whether the Cython extension is compiled, and gmr: `sigma alpha kappa samples`
are the sigma points of the distribution estimated from `samples`. -/
structure Env where
  ops : QuatOps
  qgrad : ∀ n, (Fin (n + 2) → Vec 4) → Fin (n + 2) → Vec 3
  stepFunction : String
  sigma : ℝ → ℝ → List (List ℝ) → List (List ℝ)

/-- Arguments of `propagate_weight_distribution_to_state_space`, lines 12-14 (without `cache_filename`, `verbose`). -/
structure Args where
  dataset : List DualDemo
  nWeightsPerDim : ℕ
  alpha : ℝ
  kappa : ℝ
  dt : ℝ
  intDt : ℝ

/-- The trajectories without cache, lines 59-65. -/
noncomputable def compute (env : Env) (a : Args) : Except PyErr (List (List ℝ)) := do
  let (samples, meanExecutionTime) ← estimateParameters env.ops env.qgrad a.nWeightsPerDim a.intDt a.dataset
  propagate env.ops env.stepFunction a.nWeightsPerDim meanExecutionTime a.dt a.intDt (env.sigma a.alpha a.kappa samples)

/-- What a text file contains: numbers and ends of lines. (Simplified: a number is written as a whole and is read as it
was written. The format `%.18e` of `np.savetxt` is exact for double precision.) -/
inductive Token where
  | number (x : ℝ)
  | newline

/-- The text written by `np.savetxt`: one line for each row. -/
def saveText (rows : List (List ℝ)) : List Token := rows.flatMap fun row => row.map .number ++ [.newline]

/-- Lines of a text: `line` are the numbers of the current line. -/
def linesFrom (line : List ℝ) : List Token → List (List ℝ)
  | [] => [line]
  | .number x :: ts => linesFrom (line ++ [x]) ts
  | .newline :: ts => line :: linesFrom [] ts

/-- `np.loadtxt`: empty lines are ignored; raises a ValueError if lines have different numbers of columns. (Simplified: a
single row is returned as array of shape (1, n) instead of (n,), and no row as array of shape (0,).) -/
def loadText (text : List Token) : Except PyErr (List (List ℝ)) :=
  match (linesFrom [] text).filter (· ≠ []) with
  | [] => .ok []
  | row :: rows => if ∀ r ∈ rows, r.length = row.length then .ok (row :: rows) else .error .valueError

/-- Effects on the cache file: `np.savetxt` opens (and empties) the file, then writes to it. -/
inductive CacheOp where
  | truncate
  | write (token : Token)

/-- Effect of an operation on the file (`none`: there is no file). -/
def CacheOp.apply (file : Option (List Token)) : CacheOp → Option (List Token)
  | .truncate => some []
  | .write token => file.map (· ++ [token])

/-- `propagate_weight_distribution_to_state_space` with a `cache_filename`, lines 56-68: the trajectories (or the exception)
and the effects on the file, between any two of which the program may be killed. -/
noncomputable def cachedTrajectories (env : Env) (a : Args) (file : Option (List Token)) :
    Except PyErr (List (List ℝ)) × List CacheOp :=
  match file with
  | some text => (loadText text, [])
  | none =>
    match compute env a with
    | .error e => (.error e, [])
    | .ok trajectories => (.ok trajectories, .truncate :: (saveText trajectories).map .write)

end Verif.StateSpace
