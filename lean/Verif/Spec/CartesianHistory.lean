import Verif.Model.CartesianDmp

/-! # Histories of a `CartesianDMP` object -/

namespace Verif

/-- A call of a public method (or assignment of `execution_time_`) with its arguments. -/
inductive CartesianOp (m : ℕ) where
  | step (coupling : Option PoseCoupling) (sf : StepFunction) (qf : QuatStepFunction) (lastY : Vec (3 + 4))
      (lastYd : Vec (3 + 3))
  | openLoop (ops : QuatOps) (runT : Option ℝ) (coupling : Option PoseCoupling) (name qname : String)
  | configure (a : ConfigArgs)
  | reset
  | setWeights (w : List ℝ)
  | setExecutionTime (executionTime : ℝ)
  | imitate {n : ℕ} (ops : QuatOps) (qgrad : (Fin (n + 2) → Vec 4) → Fin (n + 2) → Vec 3) (T : Fin (n + 2) → ℝ)
      (Y : Fin (n + 2) → Vec (3 + 4)) (reg : ℝ) (allowFinalVelocity : Bool)

/-- Object after the call, whether it raises or not. -/
noncomputable def CartesianOp.after {m : ℕ} (o : CartesianOp m) (s : CartesianDMP m) : CartesianDMP m :=
  match o with
  | .step c sf qf y yd => ((CartesianDMP.step c sf qf y yd).exec s).2
  | .openLoop ops t c n qn => ((CartesianDMP.openLoop ops t c n qn).exec s).2
  | .configure a => ((CartesianDMP.configure a).exec s).2
  | .reset => (CartesianDMP.reset.exec s).2
  | .setWeights w => ((CartesianDMP.setWeights w).exec s).2
  | .setExecutionTime τ => ((CartesianDMP.setExecutionTime τ).exec s).2
  | .imitate ops qgrad T Y reg afv => ((CartesianDMP.imitate ops qgrad T Y reg afv).exec s).2

/-- Objects reachable from a constructor call by any history of calls, raising or not. -/
inductive CartesianDMP.Reachable {m : ℕ} : CartesianDMP m → Prop
  | create {τ dt intDt : ℝ} {smooth : Bool} {α β : ArrayLike} {s : CartesianDMP m}
      (h : CartesianDMP.create m τ dt intDt smooth α β = .ok s) : Reachable s
  | op {s : CartesianDMP m} (o : CartesianOp m) (hs : Reachable s) : Reachable (o.after s)

end Verif
