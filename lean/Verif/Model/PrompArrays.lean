import Verif.Model.PrompEM

/-!
# Arrays that a ProMP shares with its caller (`movement_primitives/promp.py`)

`PrompWorld` is the memory seen by a program that uses several objects of type `ProMP`: arrays of times (which queries and
`imitate` divide in place), arrays with means and covariances in weight space (to which objects refer by their attributes
`weight_mean` and `weight_cov`) and the objects. All objects have `d` dimensions and `w` weights per dimension. Simplification:
different arrays do not overlap.
-/

namespace Verif
open Matrix

/-- Attributes of a `ProMP` object: references to `weight_mean` and `weight_cov`, and `variance` (None before `imitate`).
`centers` is not changed by any method, `promp.py` lines 54-63. -/
structure PrompRef where
  mean : ℕ
  cov : ℕ
  variance : Option ℝ

/-- Memory: arrays of times for every length, means, covariances, the address of the next new arrays, and the objects. -/
structure PrompWorld (d w : ℕ) where
  times : (n : ℕ) → ℕ → TimeArray n
  means : ℕ → Vec (d * w)
  covs : ℕ → Matrix (Fin (d * w)) (Fin (d * w)) ℝ
  next : ℕ
  objs : ℕ → PrompRef

/-- Demonstrations given by arrays: `Ts[demo_idx]` is array number `k` of length `n`, `Ys[demo_idx]` is only read. -/
structure StoredDemo (d : ℕ) where
  n : ℕ
  k : ℕ
  Y : Matrix (Fin n) (Fin d) ℝ

namespace PrompWorld
variable {d w : ℕ}

/-- The object with the current contents of its arrays. -/
noncomputable def read (W : PrompWorld d w) (o : ℕ) : ProMP d w where
  weightMean := W.means (W.objs o).mean
  weightCov := W.covs (W.objs o).cov
  centers := linspace01 w
  variance := (W.objs o).variance

/-- Object `o` gets new arrays for mean and covariance. -/
def assign (o : ℕ) (mean : Vec (d * w)) (cov : Matrix (Fin (d * w)) (Fin (d * w)) ℝ) (variance : Option ℝ)
    (W : PrompWorld d w) : PrompWorld d w :=
  { W with
    means := Function.update W.means W.next mean
    covs := Function.update W.covs W.next cov
    next := W.next + 1
    objs := Function.update W.objs o ⟨W.next, W.next, variance⟩ }

/-- `o = ProMP(n_dims, n_weights_per_dim)`, `promp.py` lines 54-63. -/
noncomputable def construct (o : ℕ) (W : PrompWorld d w) : PrompWorld d w :=
  W.assign o 0 1 none

/-- `o.from_weight_distribution(mean, cov)`, `promp.py` lines 284-302: the object keeps the arrays of the caller. -/
def fromWeightDistribution (o i j : ℕ) (W : PrompWorld d w) : PrompWorld d w :=
  { W with objs := Function.update W.objs o ⟨i, j, (W.objs o).variance⟩ }

/-- `o' = o.condition_position(y_mean, y_cov, t, t_max)`, `promp.py` lines 110-161. The arrays of the new object are new:
they are results of arithmetic operations. -/
noncomputable def conditionPosition (o o' : ℕ) (y : Vec d) (c : YCov d) (t tMax : ℝ) : Py (PrompWorld d w) Unit := do
  let W ← get
  let q ← Py.lift ((ProMP.conditionPosition y c t tMax).exec (W.read o)).1
  modify (assign o' q.weightMean q.weightCov q.variance)

/-- A method that gets array `k` of length `n` as times. -/
def onTimes {α : Type} (n k : ℕ) (m : Py (TimeArray n) α) : Py (PrompWorld d w) α :=
  Py.zoom (fun W => W.times n k)
    (fun T W => { W with times := Function.update W.times n (Function.update (W.times n) k T) }) m

/-- `o.mean_trajectory(T)`, `promp.py` lines 163-176, for array `k` of length `n`. -/
noncomputable def meanTrajectory (o n k : ℕ) : Py (PrompWorld d w) (Matrix (Fin n) (Fin d) ℝ) := do
  let W ← get
  onTimes n k (W.read o).meanTrajectory

/-- Precomputed terms of all demonstrations, `promp.py` lines 344-393. -/
noncomputable def emTermsAll (p : ProMP d w) : List (StoredDemo d) → Py (PrompWorld d w) (List (EMTerms (d * w)))
  | [] => return []
  | demo :: rest => do
    let e ← onTimes demo.n demo.k (p.emTerms demo.Y)
    let es ← emTermsAll p rest
    return e :: es

/-- End of `imitate`, `promp.py` lines 395-411: without any iteration the arrays of the object are kept, otherwise
`_maximization` replaces them by new ones (line 582 and line 585). -/
noncomputable def finishImitate (o nSamples nIter : ℕ) (minDelta : ℝ) (terms : List (EMTerms (d * w)))
    (W : PrompWorld d w) : PrompWorld d w :=
  let p := W.read o
  let s := emLoop d nSamples terms minDelta nIter { mean := p.weightMean, cov := p.weightCov, variance := 1 }
  if nIter = 0 then W else W.assign o s.mean s.cov (some s.variance)

/-- `o.imitate(Ts, Ys, n_iter, min_delta)`, `promp.py` lines 304-411. -/
noncomputable def imitate (o : ℕ) (demos : List (StoredDemo d)) (nIter : ℕ) (minDelta : ℝ) :
    Py (PrompWorld d w) Unit := do
  modify (fun W => { W with objs := Function.update W.objs o { W.objs o with variance := some 1 } })
  let W ← get
  let terms ← emTermsAll (W.read o) demos
  modify (finishImitate o (demos.map fun demo => demo.n).sum nIter minDelta terms)

/-- What a program does with objects and arrays. The last three are assignments of the caller to entries of an array
(`a[:] = ...`), `allocate` creates new arrays. -/
inductive Op (d w : ℕ) where
  | construct (o : ℕ)
  | fromWeightDistribution (o i j : ℕ)
  | conditionPosition (o o' : ℕ) (y : Vec d) (c : YCov d) (t tMax : ℝ)
  | meanTrajectory (o n k : ℕ)
  | imitate (o : ℕ) (demos : List (StoredDemo d)) (nIter : ℕ) (minDelta : ℝ)
  | allocate (mean : Vec (d * w)) (cov : Matrix (Fin (d * w)) (Fin (d * w)) ℝ)
  | writeMean (i : ℕ) (mean : Vec (d * w))
  | writeCov (j : ℕ) (cov : Matrix (Fin (d * w)) (Fin (d * w)) ℝ)
  | writeTimes (n k : ℕ) (T : TimeArray n)

/-- Effect of an operation. Exceptions are caught by the program: the changes that were made before remain. -/
noncomputable def perform (W : PrompWorld d w) : Op d w → PrompWorld d w
  | .construct o => W.construct o
  | .fromWeightDistribution o i j => W.fromWeightDistribution o i j
  | .conditionPosition o o' y c t tMax => ((PrompWorld.conditionPosition o o' y c t tMax).exec W).2
  | .meanTrajectory o n k => ((PrompWorld.meanTrajectory o n k).exec W).2
  | .imitate o demos nIter minDelta => ((PrompWorld.imitate o demos nIter minDelta).exec W).2
  | .allocate mean cov =>
    { W with
      means := Function.update W.means W.next mean
      covs := Function.update W.covs W.next cov
      next := W.next + 1 }
  | .writeMean i mean => { W with means := Function.update W.means i mean }
  | .writeCov j cov => { W with covs := Function.update W.covs j cov }
  | .writeTimes n k T =>
    { W with times := Function.update W.times n (Function.update (W.times n) k T) }

end PrompWorld
end Verif
