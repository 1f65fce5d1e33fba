import Verif.Spec.CartesianHistory
import Verif.Spec.DualHistory
import Mathlib.Topology.Order.Basic
import Mathlib.Topology.MetricSpace.Pseudo.Defs
import Mathlib.Order.Filter.AtTopBot.Basic

/-! # What the phase of a DMP has to do during its execution -/

namespace Verif.Spec
open Filter Topology
variable {d m : ℕ}

/-- `forcing_term.phase` is 1 at time 0 and 0.01 at time `τ`; it decreases strictly, stays in `(0, 1]` from time 0 on and
tends to 0. -/
structure PhaseOver (phase : ℝ → ℝ) (τ : ℝ) : Prop where
  start : phase 0 = 1
  goal : phase τ = 1 / 100
  decreasing : StrictAnti phase
  range : ∀ t, 0 ≤ t → 0 < phase t ∧ phase t ≤ 1
  vanishes : Tendsto phase atTop (𝓝 0)

/-- Cartesian DMPs that are made by the constructor and any calls of methods, raising or not, and assignments of
`execution_time_` that do not raise. -/
inductive TimedCartesian : CartesianDMP m → Prop
  | create {τ dt intDt : ℝ} {smooth : Bool} {α β : ArrayLike} {s : CartesianDMP m}
      (h : CartesianDMP.create m τ dt intDt smooth α β = .ok s) : TimedCartesian s
  | op {s : CartesianDMP m} (o : CartesianOp m) (hs : TimedCartesian s)
      (ho : ∀ τ, o = .setExecutionTime τ → ((CartesianDMP.setExecutionTime τ).exec s).1 = .ok ()) :
      TimedCartesian (o.after s)

/-- Dual-arm DMPs that are made by the constructor and any calls of methods, raising or not, and assignments of
`execution_time_` that do not raise. -/
inductive TimedDual : DualCartesianDMP m → Prop
  | create {τ dt intDt pGain : ℝ} {smooth : Bool} {α β : ArrayLike} {s : DualCartesianDMP m}
      (h : DualCartesianDMP.create m τ dt intDt pGain smooth α β = .ok s) : TimedDual s
  | op {s : DualCartesianDMP m} (o : DualOp m) (hs : TimedDual s)
      (ho : ∀ τ, o = .setExecutionTime τ → ((DualCartesianDMP.setExecutionTime τ).exec s).1 = .ok ()) :
      TimedDual (o.after s)

end Verif.Spec
