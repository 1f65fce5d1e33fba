import Verif.Model.DualCartesian

/-!
# Coupling terms (`movement_primitives/dmp/_coupling_terms.py`, `dmp_fast.pyx` lines 840-880)

The functions `cross`, `norm_vector(s)`, `matrix_from_compact_axis_angle`, `transform_from_pq`, `invert_transform`,
`concat`, `pq_from_transform` and `transform` belong to numpy and pytransform3d, which are not part of the repository: they
are modelled from their documentation. Homogeneous 4x4 matrices are modelled as pairs of a 3x3 matrix and a translation.
-/

namespace Verif

/-- `EPSILON`, `_coupling_terms.py` line 9 and `dmp_fast.pyx` line 14. -/
noncomputable def couplingEps : ℝ := 1 / 10 ^ 10

/-- `np.cross` in three dimensions. -/
def cross3 (a b : Vec 3) : Vec 3 :=
  ![a 1 * b 2 - a 2 * b 1, a 2 * b 0 - a 0 * b 2, a 0 * b 1 - a 1 * b 0]

/-- pytransform3d's `norm_vector` and, for one vector, `norm_vectors`: the zero vector is returned unchanged. -/
noncomputable def normVector3 (a : Vec 3) : Vec 3 := if norm3 a = 0 then a else fun i => a i / norm3 a

/-- `np.linalg.norm` of a vector of shape `(2,)`. -/
noncomputable def norm2 (a : Vec 2) : ℝ := √(a 0 * a 0 + a 1 * a 1)

/-- `obstacle_avoidance_acceleration_2d`, `_coupling_terms.py` lines 44-65, for one position and velocity (the batch
version applies the same function to every row). -/
noncomputable def obstacleAvoidance2d (y yd obstacle : Vec 2) (gamma beta : ℝ) : Vec 2 :=
  let diff : Vec 2 := fun i => obstacle i - y i
  let diff0 : Vec 3 := ![diff 0, diff 1, 0]
  let yd0 : Vec 3 := ![yd 0, yd 1, 0]
  let n := normVector3 (cross3 diff0 yd0)
  let r : Vec 3 := fun i => 1 / 2 * Real.pi * n i
  let R := matrixFromCompactAxisAngleCy r
  let nom := diff 0 * yd 0 + diff 1 * yd 1
  let denom := norm2 diff * norm2 yd + couplingEps
  let theta := Real.arccos (nom / denom)
  let rotated : Vec 2 := ![R 0 0 * yd 0 + R 0 1 * yd 1, R 1 0 * yd 0 + R 1 1 * yd 1]
  fun i => gamma * rotated i * (theta * Real.exp (-beta * theta))

/-- `obstacle_avoidance_acceleration_2d`, `dmp_fast.pyx` lines 867-880. -/
noncomputable def obstacleAvoidance2dCy (y yd obstacle : Vec 2) (gamma beta : ℝ) : Vec 2 :=
  let diff : Vec 2 := fun i => obstacle i - y i
  let r := diff 0 * yd 1 - diff 1 * yd 0
  let r := if r ≠ 0 then r * (Real.pi / 2 / |r|) else r
  let R := matrixFromCompactAxisAngleCy ![0, 0, r]
  let nom := diff 0 * yd 0 + diff 1 * yd 1
  let diffNorm := √(diff 0 * diff 0 + diff 1 * diff 1)
  let ydNorm := √(yd 0 * yd 0 + yd 1 * yd 1)
  let denom := diffNorm * ydNorm + couplingEps
  let theta := Real.arccos (nom / denom)
  let rotated : Vec 2 := ![R 0 0 * yd 0 + R 0 1 * yd 1, R 1 0 * yd 0 + R 1 1 * yd 1]
  fun i => gamma * rotated i * (theta * Real.exp (-beta * theta))

/-- `obstacle_avoidance_acceleration_3d`, `_coupling_terms.py` lines 224-231. -/
noncomputable def obstacleAvoidance3d (y yd obstacle : Vec 3) (gamma beta : ℝ) : Vec 3 :=
  let diff : Vec 3 := fun i => obstacle i - y i
  let n := normVector3 (cross3 diff yd)
  let r : Vec 3 := fun i => 1 / 2 * Real.pi * n i
  let R := matrixFromCompactAxisAngleCy r
  let nom := diff 0 * yd 0 + diff 1 * yd 1 + diff 2 * yd 2
  let theta := Real.arccos (nom / (norm3 diff * norm3 yd + couplingEps))
  let rotated : Vec 3 := fun i => R i 0 * yd 0 + R i 1 * yd 1 + R i 2 * yd 2
  fun i => gamma * rotated i * theta * Real.exp (-beta * theta)

/-- `CouplingTermObstacleAvoidance2D.coupling`, `_coupling_terms.py` lines 97-118: zero velocity and the acceleration
of the selected implementation. -/
noncomputable def couplingObstacle2d (fast : Bool) (obstacle : Vec 2) (gamma beta : ℝ) : Coupling 2 := fun y yd =>
  (0, if fast then obstacleAvoidance2dCy y yd obstacle gamma beta else obstacleAvoidance2d y yd obstacle gamma beta)

/-- `CouplingTermObstacleAvoidance3D.coupling`, `_coupling_terms.py` lines 174-195. -/
noncomputable def couplingObstacle3d (obstacle : Vec 3) (gamma beta : ℝ) : Coupling 3 := fun y yd =>
  (0, obstacleAvoidance3d y yd obstacle gamma beta)

/-- `CouplingTermPos1DToPos1D.coupling`, `_coupling_terms.py` lines 280-288. -/
def couplingPos1d (desired : ℝ) (lf : Vec 2) (k c1 c2 : ℝ) : Coupling 2 := fun y _ =>
  let da := y 0 - y 1
  let F12 := k * (-desired - da)
  let F21 := -F12
  (![c1 * F12 * lf 0, c1 * F21 * lf 1], ![c2 * c1 * F12 * lf 0, c2 * c1 * F21 * lf 1])

/-- `CouplingTermPos3DToPos3D.coupling`, `_coupling_terms.py` lines 337-348. -/
def couplingPos3d (desired : Vec 3) (lf : Vec 2) (k c1 c2 : ℝ) : Coupling (3 + 3) := fun y _ =>
  let da : Vec 3 := fun i => sliceTo y i - sliceFrom y i
  let F12 : Vec 3 := fun i => k * (-desired i - da i)
  let F21 : Vec 3 := fun i => -F12 i
  (hstack (fun i => c1 * F12 i * lf 0) (fun i => c1 * F21 i * lf 1),
    hstack (fun i => F12 i * c2 * lf 0) (fun i => F21 i * c2 * lf 1))

/-- `np.hstack([l_lin, l_ang, r_lin, r_ang])` of four arrays of shape `(3,)`. -/
def hstack4 (a b c d : Vec 3) : Vec 12 := joinVel ![a, c] ![b, d]

/-- `CouplingTermDualCartesianDistance.coupling`, `_coupling_terms.py` lines 388-399. `none`: division by zero, all
position couplings are nan. -/
noncomputable def couplingDualDistance (desired : ℝ) (lf : Vec 2) (k c1 c2 : ℝ) (y : Vec 14) :
    Option (Vec 12 × Vec 12) :=
  let actual : Vec 3 := fun i => armPos 0 y i - armPos 1 y i
  if norm3 actual = 0 then none
  else
    let want : Vec 3 := fun i => |desired| * actual i / norm3 actual
    let F12 : Vec 3 := fun i => k * (want i - actual i)
    let F21 : Vec 3 := fun i => -F12 i
    some (hstack4 (fun i => c1 * F12 i * lf 0) 0 (fun i => c1 * F21 i * lf 1) 0,
      hstack4 (fun i => F12 i * c2 * lf 0) 0 (fun i => F21 i * c2 * lf 1) 0)

/-- Homogeneous transformation: rotation matrix and translation. -/
structure Transform where
  R : Fin 3 → Fin 3 → ℝ
  p : Vec 3

/-- pytransform3d's `matrix_from_quaternion` (after normalisation of the quaternion). -/
noncomputable def matrixFromQuaternion (q : Vec 4) : Fin 3 → Fin 3 → ℝ :=
  let q := normQuat q
  let w := q 0
  let x := q 1
  let y := q 2
  let z := q 3
  ![![1 - 2 * (y ^ 2 + z ^ 2), 2 * (x * y - z * w), 2 * (x * z + y * w)],
    ![2 * (x * y + z * w), 1 - 2 * (x ^ 2 + z ^ 2), 2 * (y * z - x * w)],
    ![2 * (x * z - y * w), 2 * (y * z + x * w), 1 - 2 * (x ^ 2 + y ^ 2)]]

/-- pytransform3d's `quaternion_from_matrix`. -/
noncomputable def quaternionFromMatrix (R : Fin 3 → Fin 3 → ℝ) : Vec 4 :=
  let trace := R 0 0 + R 1 1 + R 2 2
  if 0 < trace then
    let s := √(1 + trace)
    ![1 / 2 * s, 1 / 2 / s * (R 2 1 - R 1 2), 1 / 2 / s * (R 0 2 - R 2 0), 1 / 2 / s * (R 1 0 - R 0 1)]
  else if R 1 1 < R 0 0 ∧ R 2 2 < R 0 0 then
    let s := √(1 + R 0 0 - R 1 1 - R 2 2)
    ![1 / 2 / s * (R 2 1 - R 1 2), 1 / 2 * s, 1 / 2 / s * (R 1 0 + R 0 1), 1 / 2 / s * (R 0 2 + R 2 0)]
  else if R 2 2 < R 1 1 then
    let s := √(1 + R 1 1 - R 0 0 - R 2 2)
    ![1 / 2 / s * (R 0 2 - R 2 0), 1 / 2 / s * (R 1 0 + R 0 1), 1 / 2 * s, 1 / 2 / s * (R 2 1 + R 1 2)]
  else
    let s := √(1 + R 2 2 - R 0 0 - R 1 1)
    ![1 / 2 / s * (R 1 0 - R 0 1), 1 / 2 / s * (R 0 2 + R 2 0), 1 / 2 / s * (R 2 1 + R 1 2), 1 / 2 * s]

/-- `R.dot(v)`. -/
def matVec (R : Fin 3 → Fin 3 → ℝ) (v : Vec 3) : Vec 3 := fun i => R i 0 * v 0 + R i 1 * v 1 + R i 2 * v 2

/-- `A.dot(B)`. -/
def matMul (A B : Fin 3 → Fin 3 → ℝ) : Fin 3 → Fin 3 → ℝ := fun i j =>
  A i 0 * B 0 j + A i 1 * B 1 j + A i 2 * B 2 j

/-- pytransform3d's `transform_from_pq`. -/
noncomputable def transformFromPq (p : Vec 3) (q : Vec 4) : Transform := ⟨matrixFromQuaternion q, p⟩

/-- pytransform3d's `invert_transform`. -/
def Transform.invert (T : Transform) : Transform :=
  ⟨fun i j => T.R j i, fun i => -matVec (fun i j => T.R j i) T.p i⟩

/-- pytransform3d's `concat(A2B, B2C)`, the product of `B2C` and `A2B`. -/
def Transform.concat (A2B B2C : Transform) : Transform :=
  ⟨matMul B2C.R A2B.R, fun i => matVec B2C.R A2B.p i + B2C.p i⟩

/-- `CouplingTermDualCartesianPose._right2left_pq`, `_coupling_terms.py` lines 519-525. -/
noncomputable def right2leftPq (y : Vec 14) : Vec 3 × Vec 4 :=
  let left2base := transformFromPq (armPos 0 y) (armRot 0 y)
  let right2base := transformFromPq (armPos 1 y) (armRot 1 y)
  let base2left := left2base.invert
  let right2left := right2base.concat base2left
  (right2left.p, quaternionFromMatrix right2left.R)

/-- Arguments of `couple_distance` apart from the state. -/
structure DualPoseCoupling where
  desired : Transform
  lf : Vec 2
  k : ℝ
  c1 : ℝ
  c2 : ℝ
  couplePosition : Bool
  coupleOrientation : Bool

/-- `CouplingTermDualCartesianPose.couple_distance`, `_coupling_terms.py` lines 454-517. `ops` are the quaternion
functions of pytransform3d. `C *= 0` of uncoupled components is modelled as zero. -/
noncomputable def DualPoseCoupling.coupling (ops : QuatOps) (a : DualPoseCoupling) (y : Vec 14) (yd : Vec 12) :
    Vec 12 × Vec 12 :=
  let damping := 2 * √(a.k * a.c2)
  let left2base := transformFromPq (armPos 0 y) (armRot 0 y)
  let actual := right2leftPq y
  let desiredPos := a.desired.p
  let desiredRot := quaternionFromMatrix a.desired.R
  let errorPos : Vec 3 := fun i => desiredPos i - actual.1 i
  let F12pos := matVec left2base.R (fun i => -a.k * errorPos i)
  let F21pos := matVec left2base.R (fun i => a.k * errorPos i)
  let C12pos : Vec 3 := fun i => a.lf 0 * a.c1 * F12pos i
  let C21pos : Vec 3 := fun i => a.lf 1 * a.c1 * F21pos i
  let C12dotPos : Vec 3 := fun i => a.lf 0 * (a.c2 * F12pos i - damping * armLin 0 yd i)
  let C21dotPos : Vec 3 := fun i => a.lf 1 * (a.c2 * F21pos i - damping * armLin 1 yd i)
  let onPos : Vec 3 → Vec 3 := fun v => if a.couplePosition then v else 0
  let errorRot := ops.log (ops.mul desiredRot (ops.conj actual.2))
  let F12rot := matVec left2base.R (fun i => -a.k * errorRot i)
  let F21rot := matVec left2base.R (fun i => a.k * errorRot i)
  let C12rot : Vec 3 := fun i => a.lf 0 * a.c1 * F12rot i
  let C21rot : Vec 3 := fun i => a.lf 1 * a.c1 * F21rot i
  let C12dotRot : Vec 3 := fun i => a.lf 0 * (a.c2 * F12rot i - damping * armAng 0 yd i)
  let C21dotRot : Vec 3 := fun i => a.lf 1 * (a.c2 * F21rot i - damping * armAng 1 yd i)
  let onRot : Vec 3 → Vec 3 := fun v => if a.coupleOrientation then v else 0
  (hstack4 (onPos C12pos) (onRot C12rot) (onPos C21pos) (onRot C21rot),
    hstack4 (onPos C12dotPos) (onRot C12dotRot) (onPos C21dotPos) (onRot C21dotRot))

end Verif
