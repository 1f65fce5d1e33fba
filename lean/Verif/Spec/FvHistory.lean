import Verif.Model.FinalVelocity

/-!
# Histories of a `DMPWithFinalVelocity` object
-/

namespace Verif

/-- A call of a public method (or assignment of `execution_time_`) with its arguments. -/
inductive FvOp (d m : ℕ) where
  | step (coupling : Option (Coupling d)) (lastY lastYd : Vec d)
  | openLoop (runT : Option ℝ) (coupling : Option (Coupling d))
  | configure (a : ConfigArgs)
  | reset
  | setWeights (w : List ℝ)
  | setExecutionTime (executionTime : ℝ)
  | imitate {n : ℕ} (T : Fin (n + 2) → ℝ) (Y : Fin (n + 2) → Vec d) (reg : ℝ)

/-- Effect of a call: error (if any) and the object afterwards. -/
noncomputable def FvOp.exec {d m : ℕ} (o : FvOp d m) (s : FvDMP d m) : Except PyErr Unit × FvDMP d m :=
  match o with
  | .step c y yd => let r := (FvDMP.step c y yd).exec s; (r.1.map fun _ => (), r.2)
  | .openLoop t c => let r := (FvDMP.openLoop t c).exec s; (r.1.map fun _ => (), r.2)
  | .configure a => (DMP.configure a).exec s
  | .reset => DMP.reset.exec s
  | .setWeights w => (DMP.setWeights w).exec s
  | .setExecutionTime τ => (DMP.setExecutionTime τ).exec s
  | .imitate T Y reg => (FvDMP.imitate T Y reg).exec s

/-- Objects reachable from a constructor call by any history of calls (a failed assignment of `execution_time_` is
excluded). -/
inductive FvDMP.Reachable {d m : ℕ} : FvDMP d m → Prop
  | create {τ dt intDt pGain : ℝ} {α β : ArrayLike} {s : FvDMP d m}
      (h : FvDMP.create d m τ dt intDt pGain α β = .ok s) : Reachable s
  | op {s s' : FvDMP d m} (o : FvOp d m) {r : Except PyErr Unit} (hs : Reachable s)
      (h : o.exec s = (r, s')) (hok : ∀ τ, o = .setExecutionTime τ → r = .ok ()) : Reachable s'

end Verif
