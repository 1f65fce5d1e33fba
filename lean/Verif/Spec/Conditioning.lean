import Verif.Spec.Float
import Verif.Model.Forcing
import Verif.Spec.Promp

/-! # Numbers that the code divides by when it normalises basis functions -/

namespace Verif.Spec
variable {d m : ℕ}

/-- Gaussian basis function `i` of a forcing term at time `t`, from the attributes `centers` and `widths`. -/
noncomputable def gaussianAt (ft : ForcingTerm d m) (t : ℝ) (i : Fin m) : ℝ :=
  Real.exp (-ft.widths i * (ft.phaseAt t - ft.centers i) ^ 2)

/-- Sum of the basis functions at time `t`. -/
noncomputable def normaliser (ft : ForcingTerm d m) (t : ℝ) : ℝ := ∑ i, gaussianAt ft t i

/-- Each basis function at time `t` is zero in double precision, even if everything but the last rounding is exact, so that
zero is divided by zero when they are normalised. -/
def Underflows (rnd : ℝ → ℝ) (ft : ForcingTerm d m) (t : ℝ) : Prop := ∀ i, rnd (gaussianAt ft t i) = 0

/-- What the division by the sum of basis functions yields: a value for a basis function that is at most 1, after a
division by a number of at least 0.8, whenever `t` is within the movement. -/
def WellConditioned (ft : ForcingTerm d m) (τ : ℝ) : Prop :=
  ∀ t, 0 ≤ t → t ≤ τ → 8 / 10 ≤ normaliser ft t ∧ normaliser ft t ≤ m ∧
    ∀ i, ft.activations (ft.phaseAt t) i * normaliser ft t = gaussianAt ft t i

end Verif.Spec
