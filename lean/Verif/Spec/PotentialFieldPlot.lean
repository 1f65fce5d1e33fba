import Verif.Model.PotentialFieldPlot

/-! # Arrows as they are shown -/

namespace Verif.Spec

/-- The arrow that matplotlib shows at grid point `(i, j)`, in widths of the plot: vectors are divided by `scale`, "the number of
data units per arrow length unit". -/
noncomputable def shownArrow {n : ℕ} (q : Quiver n) (i j : Fin n) : Vec 2 := ![q.u i j / q.scale, q.v i j / q.scale]

end Verif.Spec
