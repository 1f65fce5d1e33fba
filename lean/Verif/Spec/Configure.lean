import Verif.Np

/-! # Meaning of optional array arguments -/

namespace Verif.Spec

/-- The argument is omitted or has length `n`. -/
def FieldOk (n : ℕ) (arg : Option (List ℝ)) : Prop := ∀ xs, arg = some xs → xs.length = n

/-- The value of an attribute after it has been configured: the argument if given, else the old value. -/
def newValue {n : ℕ} (arg : Option (List ℝ)) (old : Vec n) : Vec n :=
  match arg with
  | none => old
  | some xs => fun i => xs.getD i.val 0

end Verif.Spec
