import Mathlib.Data.Real.Basic
import Mathlib.Algebra.Module.Basic
import Mathlib.Algebra.BigOperators.Group.List.Basic
import Mathlib.Algebra.Order.Archimedean.Real.Basic
import Mathlib.Algebra.Order.Floor.Ring

/-!
# Specifications for DMPs

Written without reference to the model.
-/

namespace Verif.Spec

/-- Acceleration of one dimension of a DMP (Ijspeert et al. 2013; smooth scaling: Pastor et al. 2009). -/
noncomputable def dmpAcceleration (alpha beta goal start tau : ℝ) (smooth : Bool) (z f y v : ℝ) : ℝ :=
  (alpha * (beta * (goal - y) - tau * v - (if smooth then beta * (goal - start) * z else 0)) + f) / tau ^ 2

/-- Classical Runge-Kutta step of order four for `x' = F t x`. -/
noncomputable def rk4 {E : Type} [AddCommGroup E] [Module ℝ E] (F : ℝ → E → E) (t h : ℝ) (x : E) : E :=
  let k1 := F t x
  let k2 := F (t + h / 2) (x + (h / 2) • k1)
  let k3 := F (t + h / 2) (x + (h / 2) • k2)
  let k4 := F (t + h) (x + h • k3)
  x + (h / 6) • (k1 + (2 : ℝ) • k2 + (2 : ℝ) • k3 + k4)

/-- `L` lists the sub-steps `(length, end time)` of an interval `[a, b]`: as many as `ceil((b-a)/h)`, all
positive and at most `h`, each one ending where the lengths so far add up to, the last one at `b`; all but
the last have length `h`. -/
structure IsPartition (a b h : ℝ) (L : List (ℝ × ℝ)) : Prop where
  length : L.length = ⌈(b - a) / h⌉₊
  pos : ∀ p ∈ L, 0 < p.1 ∧ p.1 ≤ h
  total : (L.map Prod.fst).sum = b - a
  times : ∀ i (hi : i < L.length), L[i].2 = a + ((L.take (i + 1)).map Prod.fst).sum
  full : ∀ i (hi : i + 1 < L.length), (L[i]'(by omega)).1 = h

end Verif.Spec
