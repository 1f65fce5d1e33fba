import Verif.Model.CouplingTrajectory

/-! Specification of a coupling term that follows a demonstrated trajectory. -/

namespace Verif.Spec
open Verif

/-- `f` is the piecewise linear interpolation of the values `d` at the times `T`; the first and the last segment are
extended beyond the data. -/
def IsInterpolation {n : ℕ} (T d : Fin (n + 2) → ℝ) (f : ℝ → ℝ) : Prop :=
  ∀ (i : Fin (n + 1)) (l : ℝ), (0 ≤ l ∨ i = 0) → (l ≤ 1 ∨ i = Fin.last n) →
    f ((1 - l) * T i.castSucc + l * T i.succ) = (1 - l) * d i.castSucc + l * d i.succ

/-- `f` interpolates the relative poses (position and quaternion of the right end effector in the frame of the left
one) of the demonstrated states `Y` at the times `T`. -/
def InterpolatesRelativePose {n : ℕ} (T : Fin (n + 2) → ℝ) (Y : Fin (n + 2) → Vec 14) (f : ℝ → Vec 3 × Vec 4) : Prop :=
  (∀ d, IsInterpolation T (fun i => (right2leftPq (Y i)).1 d) fun t => (f t).1 d) ∧
    ∀ d, IsInterpolation T (fun i => (right2leftPq (Y i)).2 d) fun t => (f t).2 d

/-- The coupling towards the desired relative pose `f τ` plus the offset of the coupling object. -/
noncomputable def couplingTowards (ops : QuatOps) (c : TrajectoryCoupling) (f : ℝ → Vec 3 × Vec 4) (τ : ℝ) :
    DualCoupling := fun y yd =>
  DualPoseCoupling.coupling ops
    ⟨transformFromPq (fun i => (f τ).1 i + c.offset.1 i) (fun i => (f τ).2 i + c.offset.2 i), c.lf, c.k, c.c1, c.c2,
      c.couplePosition, c.coupleOrientation⟩ y yd

/-- A step of the dual arm DMP from `lastT` to `t` with a coupling in the time of the DMP: a sub-step of length `dt` that
ends at time `t` uses the pose demonstrated at time `t - dt`, its beginning. -/
noncomputable def synchronisedStep {m : ℕ} (sf : DualStepFunction) (ops : QuatOps) (a : DualStepArgs m)
    (c : TrajectoryCoupling) (f : ℝ → Vec 3 × Vec 4) (lastT t : ℝ) (s : Vec 14 × Vec 12) :
    Except PyErr (Vec 14 × Vec 12) :=
  let s := if t ≤ a.startT then (a.startY, a.startYd) else s
  match sf with
  | .python ops =>
    (intLoop a.intDt t (fun dt t => { a with coupling := some (couplingTowards ops c f (t - dt)) }.bodyPy ops dt t) lastT
      (s, ((0 : Vec 12), (0 : Vec 12)))).map Prod.fst
  | .cython =>
    intLoop a.intDt t (fun dt t => { a with coupling := some (couplingTowards ops c f (t - dt)) }.bodyCy dt t) lastT s

end Verif.Spec
