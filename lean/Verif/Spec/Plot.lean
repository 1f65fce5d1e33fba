import Verif.Model.Plot

/-! # Specification vocabulary for plots -/

namespace Verif.Spec
open Verif.Plot

/-- Row and column of subplot number `k` in a grid with `w` columns: matplotlib numbers the cells from 1, row by row. -/
def gridCell (w k : ℕ) : ℕ × ℕ := ((k - 1) / w, (k - 1) % w)

/-- The commands that a subplot received. -/
def commandsOf (fig : Figure) (ax : ℕ) : List Cmd := (fig.filter fun c => c.1 = ax).map Prod.snd

/-- The artist that a command adds to a subplot. -/
def artistOf : Cmd → Option Artist
  | .draw a => some a
  | _ => none

/-- The artists that a subplot shows. -/
def artistsOf (fig : Figure) (ax : ℕ) : List Artist := (commandsOf fig ax).filterMap artistOf

end Verif.Spec
