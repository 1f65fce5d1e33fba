import Verif.Spec.SmallChanges
import Verif.Spec.SuperpositionStateFollowing

/-! # State-following DMPs that are almost the same -/

namespace Verif
variable {d n : ℕ}
open Spec

/-- Two state-following DMPs are the same system, their starts and via points differ by at most `δ`. -/
structure StateFollowingDMP.Near (δ : ℝ) (s₁ s₂ : StateFollowingDMP d n) : Prop where
  system : s₁.SameSystem s₂
  start : Close δ s₁.startY s₂.startY
  viapoints : ∀ i, Close δ (s₁.ft.viapoints i) (s₂.ft.viapoints i)

end Verif
