import Mathlib.Data.Real.Basic
import Mathlib.Logic.Function.Iterate
import Mathlib.Data.Nat.Find

/-!
# Python semantics used by the model

Nothing in this file models a particular function of the repository. It fixes the meaning of Python
exceptions, of methods that change `self`, and of `while` loops.
-/

namespace Verif

/-- The exceptions that the modelled code can raise, plus `nonterminating` for a loop that never ends. -/
inductive PyErr where
  | valueError | assertionError | indexError | keyError | linAlgError | notImplementedError
  | importError | attributeError | typeError | zeroDivisionError | unboundLocalError | osError
  | yamlError | nonterminating
  deriving DecidableEq, Repr

/-- A method of an object with state `σ`: assignments made before an exception persist. -/
abbrev Py (σ α : Type) := ExceptT PyErr (StateM σ) α

/-- Result of running a method: outcome and the state of the object afterwards. -/
def Py.exec {σ α : Type} (m : Py σ α) (s : σ) : Except PyErr α × σ := (ExceptT.run m) s

/-- Lift a pure computation that may raise into a method. -/
def Py.lift {σ α : Type} (e : Except PyErr α) : Py σ α := ExceptT.mk (fun s => (e, s))

/-- Run a method of a part `τ` of the state `σ` (an inherited method). -/
def Py.zoom {σ τ α : Type} (get : σ → τ) (set : τ → σ → σ) (m : Py τ α) : Py σ α :=
  ExceptT.mk (fun s => let r := m.exec (get s); (r.1, set r.2 s))

section While
variable {σ : Type}

open Classical in
/-- `while cond(s): s = body(s)`: the first iterate of `body` that violates the guard, or
non-termination if there is none. -/
noncomputable def whileLoop (cond : σ → Prop) (body : σ → σ) (s : σ) : Except PyErr σ :=
  if h : ∃ n, ¬ cond (body^[n] s) then .ok (body^[Nat.find h] s) else .error .nonterminating

end While

/-- The integration loop shared by all Euler-type step functions of the repository
(`dmp/_dmp.py` 298-303, `dmp_fast.pyx` 157-162 and 472-477, `spring_damper.py` 225-230 and 258-263,
`dmp/_dmp_with_final_velocity.py` 429-434, `dmp/_cartesian_dmp.py` 101-106,
`dmp/_dual_cartesian_dmp.py` 100-105, `dmp/_state_following_dmp.py` 144-149):
```
current_t = last_t
while current_t < t:
    dt = int_dt
    if t - current_t < int_dt:
        dt = t - current_t
    current_t += dt
    s = upd(dt, current_t, s)
```
-/
noncomputable def intLoop {σ : Type} (intDt t : ℝ) (upd : ℝ → ℝ → σ → σ) (lastT : ℝ) (s : σ) :
    Except PyErr σ :=
  (whileLoop (fun p : ℝ × σ => p.1 < t)
    (fun p =>
      let dt := if t - p.1 < intDt then t - p.1 else intDt
      (p.1 + dt, upd dt (p.1 + dt) p.2))
    (lastT, s)).map Prod.snd

/-- `rows`: `k` iterations of `for i in range(1, len(T)): step(...); Y[i] = out`, starting from state `s`
with index `i` of the previous sample. -/
def loopRows {σ β : Type} (step : ℕ → σ → Except PyErr σ) (out : σ → β) :
    ℕ → σ → ℕ → Except PyErr (List β)
  | 0, _, _ => .ok []
  | k + 1, s, i => do
    let s' ← step i s
    let rest ← loopRows step out k s' (i + 1)
    return out s' :: rest

end Verif
