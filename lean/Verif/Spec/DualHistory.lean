import Verif.Model.DualImitate

/-! # Histories of a `DualCartesianDMP` object -/

namespace Verif

/-- A call of a public method (or assignment of `execution_time_`) with its arguments. -/
inductive DualOp (m : ℕ) where
  | step (ops : QuatOps) (coupling : Option DualCoupling) (sf : DualStepFunction) (lastY : Vec 14) (lastYd : Vec 12)
  | openLoop (ops : QuatOps) (runT : Option ℝ) (coupling : Option DualCoupling) (name : String)
  | configure (a : ConfigArgs)
  | reset
  | setWeights (w : List ℝ)
  | setExecutionTime (executionTime : ℝ)
  | imitate {n : ℕ} (ops : QuatOps) (qgrad : (Fin (n + 2) → Vec 4) → Fin (n + 2) → Vec 3) (T : Fin (n + 2) → ℝ)
      (Y : Fin (n + 2) → Vec 14) (reg : ℝ) (allowFinalVelocity : Bool)

/-- Object after the call, whether it raises or not. -/
noncomputable def DualOp.after {m : ℕ} (o : DualOp m) (s : DualCartesianDMP m) : DualCartesianDMP m :=
  match o with
  | .step ops c sf y yd => ((DualCartesianDMP.step ops c sf y yd).exec s).2
  | .openLoop ops t c n => ((DualCartesianDMP.openLoop ops t c n).exec s).2
  | .configure a => ((DualCartesianDMP.configure a).exec s).2
  | .reset => (DualCartesianDMP.reset.exec s).2
  | .setWeights w => ((DualCartesianDMP.setWeights w).exec s).2
  | .setExecutionTime τ => ((DualCartesianDMP.setExecutionTime τ).exec s).2
  | .imitate ops qgrad T Y reg afv => ((DualCartesianDMP.imitate ops qgrad T Y reg afv).exec s).2

/-- Objects reachable from a constructor call by any history of calls, raising or not. -/
inductive DualCartesianDMP.Reachable {m : ℕ} : DualCartesianDMP m → Prop
  | create {τ dt intDt pGain : ℝ} {smooth : Bool} {α β : ArrayLike} {s : DualCartesianDMP m}
      (h : DualCartesianDMP.create m τ dt intDt pGain smooth α β = .ok s) : Reachable s
  | op {s : DualCartesianDMP m} (o : DualOp m) (hs : Reachable s) : Reachable (o.after s)

end Verif
