import Verif.Model.Imitate

/-!
# Histories of a `DMP` object

The public operations of a `DMP` and the states that can be reached with them.
-/

namespace Verif

/-- A call of a public method (or assignment of `execution_time_`) with its arguments. -/
inductive DMPOp (d m : ℕ) where
  | step (coupling : Option (Coupling d)) (sf : StepFunction) (lastY lastYd : Vec d)
  | openLoop (runT : Option ℝ) (coupling : Option (Coupling d)) (stepFunction : String)
  | configure (a : ConfigArgs)
  | reset
  | setWeights (w : List ℝ)
  | setExecutionTime (executionTime : ℝ)
  | imitate {n : ℕ} (T : Fin (n + 2) → ℝ) (Y : Fin (n + 2) → Vec d) (reg : ℝ) (allowFinalVelocity : Bool)

/-- Effect of a call: error (if any) and the object afterwards. -/
noncomputable def DMPOp.exec {d m : ℕ} (o : DMPOp d m) (s : DMP d m) : Except PyErr Unit × DMP d m :=
  match o with
  | .step c sf y yd => let r := (DMP.step c sf y yd).exec s; (r.1.map fun _ => (), r.2)
  | .openLoop t c n => let r := (DMP.openLoop t c n).exec s; (r.1.map fun _ => (), r.2)
  | .configure a => (DMP.configure a).exec s
  | .reset => DMP.reset.exec s
  | .setWeights w => (DMP.setWeights w).exec s
  | .setExecutionTime τ => (DMP.setExecutionTime τ).exec s
  | .imitate T Y reg afv => (DMP.imitate T Y reg afv).exec s

/-- Objects reachable from a constructor call by any history of calls. Calls may raise, except that a failed
assignment of `execution_time_` is excluded (it leaves an inconsistent object, see C24). -/
inductive DMP.Reachable {d m : ℕ} : DMP d m → Prop
  | create {τ dt intDt pGain : ℝ} {smooth : Bool} {α β : ArrayLike} {s : DMP d m}
      (h : DMP.create d m τ dt intDt pGain smooth α β = .ok s) : Reachable s
  | op {s s' : DMP d m} (o : DMPOp d m) {r : Except PyErr Unit} (hs : Reachable s)
      (h : o.exec s = (r, s')) (hok : ∀ τ, o = .setExecutionTime τ → r = .ok ()) : Reachable s'

end Verif
