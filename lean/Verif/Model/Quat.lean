import Verif.Np
import Mathlib.Analysis.SpecialFunctions.Trigonometric.Inverse
import Mathlib.Data.Fin.VecNotation

/-!
# Quaternion functions (`dmp_fast.pyx`, and the functions of pytransform3d that the Python code calls)

Quaternions are arrays `(w, x, y, z)` of shape `(4,)`, orientations differences are rotation vectors of shape `(3,)`.
-/

namespace Verif

/-- `sqrt(a[0] * a[0] + a[1] * a[1] + a[2] * a[2])`. -/
noncomputable def norm3 (a : Vec 3) : ℝ := √(a 0 * a 0 + a 1 * a 1 + a 2 * a 2)

/-- `sqrt(q[0] * q[0] + q[1] * q[1] + q[2] * q[2] + q[3] * q[3])`. -/
noncomputable def norm4 (q : Vec 4) : ℝ := √(q 0 * q 0 + q 1 * q 1 + q 2 * q 2 + q 3 * q 3)

/-- The product computed by `concatenate_quaternions` before normalisation, `dmp_fast.pyx` lines 701-710. -/
def hamilton (q1 q2 : Vec 4) : Vec 4 :=
  ![q1 0 * q2 0 - q1 1 * q2 1 - q1 2 * q2 2 - q1 3 * q2 3,
    q1 2 * q2 3 - q1 3 * q2 2 + (q1 0 * q2 1 + q2 0 * q1 1),
    q1 3 * q2 1 - q1 1 * q2 3 + (q1 0 * q2 2 + q2 0 * q1 2),
    q1 1 * q2 2 - q1 2 * q2 1 + (q1 0 * q2 3 + q2 0 * q1 3)]

/-- `concatenate_quaternions`, `dmp_fast.pyx` lines 682-715: normalised product (`0 / 0` would be nan in the code). -/
noncomputable def concatenateQuaternionsCy (q1 q2 : Vec 4) : Vec 4 :=
  fun i => hamilton q1 q2 i / norm4 (hamilton q1 q2)

/-- `quaternion_from_compact_axis_angle`, `dmp_fast.pyx` lines 722-751. -/
noncomputable def quaternionFromCompactAxisAngleCy (a : Vec 3) : Vec 4 :=
  let angle := norm3 a
  if angle = 0 then ![1, 0, 0, 0]
  else
    let axis : Vec 3 := fun i => a i / angle
    let half := angle / 2
    let s := Real.sin half
    ![Real.cos half, s * axis 0, s * axis 1, s * axis 2]

/-- `q_conj`, `dmp_fast.pyx` lines 758-775. -/
def qConjCy (q : Vec 4) : Vec 4 := ![q 0, -q 1, -q 2, -q 3]

/-- `x % y` for `x >= 0`, `y > 0`. -/
noncomputable def fmod (x y : ℝ) : ℝ := x - y * (⌊x / y⌋ : ℝ)

/-- `compact_axis_angle_from_quaternion`, `dmp_fast.pyx` lines 782-806. -/
noncomputable def compactAxisAngleFromQuaternionCy (q : Vec 4) : Vec 3 :=
  let pNormSqr := q 1 * q 1 + q 2 * q 2 + q 3 * q 3
  if pNormSqr < 1 / 10 ^ 32 then 0
  else
    let qNorm := √(q 0 * q 0 + pNormSqr)
    let pNorm := √pNormSqr / qNorm
    let angle := fmod (2 * Real.arccos (q 0 / qNorm) + Real.pi) (2 * Real.pi) - Real.pi
    ![q 1 / qNorm / (pNorm / angle), q 2 / qNorm / (pNorm / angle), q 3 / qNorm / (pNorm / angle)]

/-- `matrix_from_compact_axis_angle`, `dmp_fast.pyx` lines 813-833. -/
noncomputable def matrixFromCompactAxisAngleCy (r : Vec 3) : Fin 3 → Fin 3 → ℝ :=
  let theta := norm3 r
  if theta = 0 then ![![1, 0, 0], ![0, 1, 0], ![0, 0, 1]]
  else
    let ux := r 0 / theta
    let uy := r 1 / theta
    let uz := r 2 / theta
    let c := Real.cos theta
    let s := Real.sin theta
    let ci := 1 - c
    ![![ci * ux * ux + c, ci * ux * uy - uz * s, ci * ux * uz + uy * s],
      ![ci * uy * ux + uz * s, ci * uy * uy + c, ci * uy * uz - ux * s],
      ![ci * uz * ux - uy * s, ci * uz * uy + ux * s, ci * uz * uz + c]]

/-- The four quaternion functions used by the orientation step functions. -/
structure QuatOps where
  mul : Vec 4 → Vec 4 → Vec 4
  conj : Vec 4 → Vec 4
  exp : Vec 3 → Vec 4
  log : Vec 4 → Vec 3

/-- The functions of `dmp_fast.pyx`. -/
noncomputable def QuatOps.cython : QuatOps :=
  { mul := concatenateQuaternionsCy, conj := qConjCy, exp := quaternionFromCompactAxisAngleCy,
    log := compactAxisAngleFromQuaternionCy }

/-- `norm_vector` applied by pytransform3d's `check_quaternion`: the zero vector is returned unchanged. -/
noncomputable def normQuat (q : Vec 4) : Vec 4 := if norm4 q = 0 then q else fun i => q i / norm4 q

/-- pytransform3d's `norm_angle`: the angle in `(-pi, pi]` that is equal modulo `2 pi` (external library, modelled from
its documentation). -/
noncomputable def normAngle (a : ℝ) : ℝ := a - 2 * Real.pi * (⌈a / (2 * Real.pi) - 1 / 2⌉ : ℝ)

/-- pytransform3d's `compact_axis_angle_from_quaternion` (external library, modelled from its documentation), with
threshold `eps` below which the rotation is regarded as identity. -/
noncomputable def logPy (eps : ℝ) (q : Vec 4) : Vec 3 :=
  let q := normQuat q
  let p := norm3 ![q 1, q 2, q 3]
  if p < eps then 0
  else
    let angle := normAngle (2 * Real.arccos (q 0))
    ![q 1 / p * angle, q 2 / p * angle, q 3 / p * angle]

/-- The functions of pytransform3d (`concatenate_quaternions`, `q_conj`, `quaternion_from_compact_axis_angle`,
`compact_axis_angle_from_quaternion`) that are called by `dmp/_cartesian_dmp.py`, `dmp/_dual_cartesian_dmp.py` and
`spring_damper.py`. The library is not part of the repository: modelled from its documentation. -/
noncomputable def QuatOps.python (eps : ℝ) : QuatOps :=
  { mul := hamilton, conj := fun q => qConjCy (normQuat q), exp := quaternionFromCompactAxisAngleCy, log := logPy eps }

end Verif
