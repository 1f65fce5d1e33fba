import Verif.Py
import Verif.Np

/-! # Closed-loop execution: every result of `step` is passed to the next call -/

namespace Verif.Spec

/-- `n` calls of `step`, each one with the result of the previous one; all results are returned. -/
def fedBack {σ : Type} {p v : ℕ} (step : Vec p → Vec v → Py σ (Vec p × Vec v)) :
    ℕ → Vec p → Vec v → Py σ (List (Vec p × Vec v))
  | 0, _, _ => pure []
  | n + 1, y, yd => do
    let r ← step y yd
    let rest ← fedBack step n r.1 r.2
    return r :: rest

/-- An infinite execution: `obj i` is the object before call `i` of `step`, `fb i` the state passed to that call and
`out i` its result. No call raises. -/
def Run {σ : Type} {p v : ℕ} (step : Vec p → Vec v → Py σ (Vec p × Vec v)) (obj : ℕ → σ)
    (fb out : ℕ → Vec p × Vec v) : Prop :=
  ∀ i, (step (fb i).1 (fb i).2).exec (obj i) = (.ok (out i), obj (i + 1))

end Verif.Spec
