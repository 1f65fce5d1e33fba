import Verif.Py
import Verif.Np

/-!
# 3D visualisation (`movement_primitives/visualization.py`)

The visualiser of Open3D is modelled from its documentation. `to_ellipsoid` (lines 71-92) only calls a function of
pytransform3d and is not modelled.
-/

namespace Verif.Vis

/-- A point cloud: points and their colours. -/
structure PointCloud where
  points : List (Vec 3)
  colors : List (Vec 3)

/-- `pcl.uniform_down_sample(k)` of Open3D: keeps the points (and colours) with the indices `0, k, 2 k, ...`. -/
def everyKth {α : Type} (k : ℕ) (l : List α) : List α := (l.zipIdx.filter fun p => p.2 % k = 0).map Prod.fst

/-- `plot_pointcloud(fig, pcl_points, color, uniform_down_sample)`, `visualization.py` lines 13-43: the geometries of the
figure and the returned point cloud. -/
def plotPointcloud (points : List (Vec 3)) (color : Vec 3) (k : ℕ) : Py (List PointCloud) PointCloud := do
  let pcl : PointCloud := { points := points, colors := (List.range points.length).map fun _ => color }
  let pcl := if 1 < k then { points := everyKth k pcl.points, colors := everyKth k pcl.colors } else pcl
  modify (· ++ [pcl])
  return pcl

/-- A `ToggleGeometry` and the window: `show` is the attribute, `visible` tells whether the visualiser has the geometry.
Adding a geometry that is there, and removing one that is not there, have no effect (Open3D). -/
structure Toggle where
  show_ : Bool
  visible : Bool

/-- `ToggleGeometry.__init__`, lines 57-60: the geometry was added to the figure before. -/
def Toggle.init : Toggle := { show_ := true, visible := true }

/-- `ToggleGeometry.__call__(vis, key, modifier)`, lines 62-68. Open3D calls it with the action (0: key released, 1: key
pressed, 2: key repeated), which is not used, and the modifier keys, 0 if there is none. -/
def Toggle.call (modifier : ℕ) (s : Toggle) : Toggle :=
  let s := { s with show_ := !s.show_ }
  if s.show_ = true ∧ modifier ≠ 0 then { s with visible := false }
  else if s.show_ = false ∧ modifier = 0 then { s with visible := true }
  else s

end Verif.Vis
