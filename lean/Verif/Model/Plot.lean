import Verif.Py
import Verif.Np

/-!
# Plots (`movement_primitives/plot.py`)

A plot is the list of the commands that were sent to matplotlib. A subplot is identified by its number in the grid of the
figure: `plt.subplot(h, w, k)` with the same arguments returns the same axes (matplotlib's documentation). Keyword arguments
that only change the appearance (line width, transparency, background of the title, `plt.tight_layout`) are left out.
-/

namespace Verif.Plot

/-- What is drawn: a line, or the area between two lines. -/
inductive Artist where
  | line (t y : List ℝ) (dashed : Bool) (label : Option String)
  | area (t lower upper : List ℝ) (label : Option String)

/-- Commands for one subplot. -/
inductive Cmd where
  | draw (a : Artist)
  | title (s : String)
  | xlabel (s : String)
  | noTicks
  | xlim (lo hi : ℝ)

/-- A figure: commands with the number of the subplot, in the order in which they were sent. -/
abbrev Figure := List (ℕ × Cmd)

/-- Sends a command. -/
def send (ax : ℕ) (c : Cmd) : Py Figure Unit := modify (· ++ [(ax, c)])

/-- `plt.subplot(h, w, k)`: matplotlib raises a ValueError if `k` is not the number of a cell of the grid. -/
def subplot (h w k : ℕ) : Except PyErr ℕ := if 1 ≤ k ∧ k ≤ h * w then .ok k else .error .valueError

/-- `dim_order` of `create_axes`, `plot.py` lines 192-195; `i % h` raises ZeroDivisionError for `h = 0`. -/
def dimOrder (h w : ℕ) (transpose : Bool) (i : ℕ) : Except PyErr ℕ :=
  if transpose then (if h = 0 then .error .zeroDivisionError else .ok (i % h * w + i / h)) else .ok i

/-- `create_axes(n_dims, (h, w), transpose)`, `plot.py` lines 172-196. -/
def createAxes (n h w : ℕ) (transpose : Bool) : Except PyErr (List ℕ) := do
  let order ← (List.range n).mapM (dimOrder h w transpose)
  order.mapM fun i => subplot h w (1 + i)

/-- `axes[i]`. -/
def axisAt (axes : List ℕ) (i : ℕ) : Except PyErr ℕ :=
  match axes[i]? with
  | some ax => .ok ax
  | none => .error .indexError

/-- `axes[i].plot(t, y, ...)`: ValueError for arrays of different lengths. -/
def line (ax : ℕ) (t y : List ℝ) (dashed : Bool) (label : Option String) : Py Figure Unit := do
  if t.length ≠ y.length then throw .valueError
  send ax (.draw (.line t y dashed label))

/-- `axes[i].fill_between(t, lower, upper, ...)`: ValueError for arrays of different lengths. -/
def fillBetween (ax : ℕ) (t lower upper : List ℝ) (label : Option String) : Py Figure Unit := do
  if t.length ≠ lower.length ∨ t.length ≠ upper.length then throw .valueError
  send ax (.draw (.area t lower upper label))

/-- The condition under which a subplot gets a label, `plot.py` lines 208-211. The difference is an integer in Python,
`range(1, w + 1)` are the numbers from 1 to `w`. -/
def hasXlabel (h w : ℕ) (transpose : Bool) (i : ℕ) : Bool :=
  if transpose then decide (i % h + 1 = h)
  else decide (1 ≤ (h : ℤ) * w - i ∧ (h : ℤ) * w - i < w + 1)

/-- Body of the loop of `layout_axes`, `plot.py` lines 202-215. -/
def layoutAxis (axes : List ℕ) (h w : ℕ) (xlabel : String) (xlim : ℝ × ℝ) (transpose : Bool) (titles : List String)
    (i : ℕ) : Py Figure Unit := do
  let ax ← Py.lift (axisAt axes i)
  send ax (.title (titles.getD i ("Dimension #" ++ toString i)))
  send ax (if hasXlabel h w transpose i then .xlabel xlabel else .noTicks)
  send ax (.xlim xlim.1 xlim.2)

/-- `for i in ...: body(i)`. -/
def forEach {α : Type} (body : α → Py Figure Unit) : List α → Py Figure Unit
  | [] => pure ()
  | i :: is => do
    body i
    forEach body is

/-- `layout_axes`, `plot.py` lines 199-216. -/
def layoutAxes (axes : List ℕ) (n h w : ℕ) (xlabel : String) (xlim : ℝ × ℝ) (transpose : Bool) (titles : List String) :
    Py Figure Unit :=
  forEach (layoutAxis axes h w xlabel xlim transpose titles) (List.range n)

/-- `(t[0], t[-1])`: IndexError if there is no step. -/
def limits (t : List ℝ) : Except PyErr (ℝ × ℝ) :=
  match t.head?, t.getLast? with
  | some a, some b => .ok (a, b)
  | _, _ => .error .indexError

/-- Arguments that both functions have. -/
structure Args where
  t : Option (List ℝ) := none
  label : Option String := none
  axes : Option (List ℕ) := none
  subplotShape : Option (ℕ × ℕ) := none
  transpose : Bool := false
  axisTitles : List String := []

/-- Column `i` of an array, `X[:, i]`. -/
def column {d : ℕ} (X : List (Vec d)) (i : Fin d) : List ℝ := X.map fun x => x i

/-- Times: the argument or `range(n_steps)`, `plot.py` lines 65-69, 143-147. -/
def times (a : Args) (n : ℕ) : List ℝ := a.t.getD ((List.range n).map Nat.cast)

/-- The parts that both functions have in common, `plot.py` lines 58-76 and 136-169; `body axes t i` draws dimension `i`. -/
def inRows (n d : ℕ) (a : Args) (body : List ℕ → List ℝ → Fin d → Py Figure Unit) : Py Figure (List ℕ) := do
  let shape := a.subplotShape.getD (d, 1)
  let axes ← Py.lift (match a.axes with
    | some axes => .ok axes
    | none => createAxes d shape.1 shape.2 a.transpose)
  let t := times a n
  forEach (body axes t) (List.finRange d)
  if a.axes.isNone then
    let xlim ← Py.lift (limits t)
    layoutAxes axes d shape.1 shape.2 (if a.t.isSome then "Time [s]" else "Step") xlim a.transpose a.axisTitles
  return axes

/-- Line 72 of `plot.py`. -/
def drawTrajectory {d : ℕ} (X : List (Vec d)) (label : Option String) (axes : List ℕ) (t : List ℝ) (i : Fin d) :
    Py Figure Unit := do
  let ax ← Py.lift (axisAt axes i)
  line ax t (column X i) false label

/-- `plot_trajectory_in_rows`, `plot.py` lines 15-78. -/
def plotTrajectoryInRows {d : ℕ} (X : List (Vec d)) (a : Args) : Py Figure (List ℕ) :=
  inRows X.length d a (drawTrajectory X a.label)

/-- `mean[:, i] + f * std_dev[:, i]`, for arrays of the same length. (For other lengths numpy raises a ValueError or, if one of
the arrays has one row, broadcasts it; this is not modelled, theorems assume equal lengths.) -/
def bound {d : ℕ} (f : ℝ) (mean std : List (Vec d)) (i : Fin d) : List ℝ :=
  List.zipWith (fun m s => m + f * s) (column mean i) (column std i)

/-- Body of the loop over `std_factors`, `plot.py` lines 155-163. `color` is `kwargs.get("color", None)`; it is passed as
the format string of `plot`, for which matplotlib accepts no `None` (ValueError). -/
def drawFactor {d : ℕ} (mean std : List (Vec d)) (color : Option String) (fill : Bool) (label : Option String)
    (ax : ℕ) (t : List ℝ) (i : Fin d) (p : ℝ × ℕ) : Py Figure Unit := do
  let f := p.1
  let label := if p.2 = 0 then label else none
  if fill then fillBetween ax t (bound (-f) mean std i) (bound f mean std i) label
  else
    if color.isNone then throw .valueError
    line ax t (bound (-f) mean std i) true label
    line ax t (bound f mean std i) true none

/-- Lines 153-163 of `plot.py`. -/
def drawDistribution {d : ℕ} (mean std : List (Vec d)) (factors : List ℝ) (color : Option String) (fill : Bool)
    (label : Option String) (axes : List ℕ) (t : List ℝ) (i : Fin d) : Py Figure Unit := do
  let ax ← Py.lift (axisAt axes i)
  line ax t (column mean i) false none
  forEach (drawFactor mean std color fill label ax t i) factors.zipIdx

/-- `plot_distribution_in_rows`, `plot.py` lines 81-169. (`mean - f * std` is written `mean + (-f) * std`.) -/
def plotDistributionInRows {d : ℕ} (mean std : List (Vec d)) (factors : List ℝ) (color : Option String) (fill : Bool)
    (a : Args) : Py Figure (List ℕ) :=
  inRows mean.length d a (drawDistribution mean std factors color fill a.label)

end Verif.Plot
