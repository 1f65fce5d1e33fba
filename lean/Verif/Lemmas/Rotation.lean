import Verif.Lemmas.Kinematics
import Mathlib.LinearAlgebra.Matrix.Trace

/-! # The rotation angle: trace bounds, unit quaternions of a rotation, triangle inequality -/

namespace Verif
open Matrix

/-- All nine cofactor equations of a rotation. -/
theorem Spec.IsRotation.cofactor_eqs {R : Matrix (Fin 3) (Fin 3) ℝ} (hR : Spec.IsRotation R) :
    R 0 0 = R 1 1 * R 2 2 - R 1 2 * R 2 1 ∧ R 0 1 = R 1 2 * R 2 0 - R 1 0 * R 2 2 ∧
    R 0 2 = R 1 0 * R 2 1 - R 1 1 * R 2 0 ∧ R 1 0 = R 0 2 * R 2 1 - R 0 1 * R 2 2 ∧
    R 1 1 = R 0 0 * R 2 2 - R 0 2 * R 2 0 ∧ R 1 2 = R 0 1 * R 2 0 - R 0 0 * R 2 1 ∧
    R 2 0 = R 0 1 * R 1 2 - R 0 2 * R 1 1 ∧ R 2 1 = R 0 2 * R 1 0 - R 0 0 * R 1 2 ∧
    R 2 2 = R 0 0 * R 1 1 - R 0 1 * R 1 0 := by
  have h := hR.adjugate
  rw [adjugate_fin_three] at h
  have e : ∀ i j, (Rᵀ : Matrix (Fin 3) (Fin 3) ℝ) i j = R j i := fun i j => rfl
  refine ⟨?_, ?_, ?_, ?_, ?_, ?_, ?_, ?_, ?_⟩
  · have := congrFun (congrFun h 0) 0; simp at this; linarith
  · have := congrFun (congrFun h 1) 0; simp at this; linarith
  · have := congrFun (congrFun h 2) 0; simp at this; linarith
  · have := congrFun (congrFun h 0) 1; simp at this; linarith
  · have := congrFun (congrFun h 1) 1; simp at this; linarith
  · have := congrFun (congrFun h 2) 1; simp at this; linarith
  · have := congrFun (congrFun h 0) 2; simp at this; linarith
  · have := congrFun (congrFun h 1) 2; simp at this; linarith
  · have := congrFun (congrFun h 2) 2; simp at this; linarith

/-- Rotation matrix of a quaternion. -/
def quatMatrix (w x y z : ℝ) : Matrix (Fin 3) (Fin 3) ℝ :=
  !![w ^ 2 + x ^ 2 - y ^ 2 - z ^ 2, 2 * (x * y - w * z), 2 * (x * z + w * y);
     2 * (x * y + w * z), w ^ 2 - x ^ 2 + y ^ 2 - z ^ 2, 2 * (y * z - w * x);
     2 * (x * z - w * y), 2 * (y * z + w * x), w ^ 2 - x ^ 2 - y ^ 2 + z ^ 2]

theorem quatMatrix_mul (w x y z a b c d : ℝ) :
    quatMatrix w x y z * quatMatrix a b c d =
      quatMatrix (w * a - x * b - y * c - z * d) (w * b + x * a + y * d - z * c)
        (w * c - x * d + y * a + z * b) (w * d + x * c - y * b + z * a) := by
  ext i j
  fin_cases i <;> fin_cases j <;> simp [quatMatrix, mul_apply, Fin.sum_univ_succ] <;> ring

/-- A symmetric matrix `4 q qᵀ` given by its ten entries determines `q` if the entries satisfy the rank one
relations. -/
theorem rank_one_root {kww kxx kyy kzz kwx kwy kwz kxy kxz kyz : ℝ} (hsum : kww + kxx + kyy + kzz = 4)
    (r1 : kww * kxx = kwx * kwx)
    (r2 : kww * kyy = kwy * kwy)
    (r3 : kww * kzz = kwz * kwz)
    (r4 : kxx * kyy = kxy * kxy)
    (r5 : kxx * kzz = kxz * kxz)
    (r6 : kyy * kzz = kyz * kyz)
    (r7 : kww * kxy = kwx * kwy)
    (r8 : kww * kxz = kwx * kwz)
    (r9 : kww * kyz = kwy * kwz)
    (r10 : kxx * kwy = kwx * kxy)
    (r11 : kxx * kwz = kwx * kxz)
    (r12 : kxx * kyz = kxy * kxz)
    (r13 : kyy * kwx = kwy * kxy)
    (r14 : kyy * kwz = kwy * kyz)
    (r15 : kyy * kxz = kxy * kyz)
    (r16 : kzz * kwx = kwz * kxz)
    (r17 : kzz * kwy = kwz * kyz)
    (r18 : kzz * kxy = kxz * kyz) :
    ∃ w x y z : ℝ, 4 * (w * w) = kww ∧ 4 * (x * x) = kxx ∧ 4 * (y * y) = kyy ∧ 4 * (z * z) = kzz ∧
      4 * (w * x) = kwx ∧ 4 * (w * y) = kwy ∧ 4 * (w * z) = kwz ∧ 4 * (x * y) = kxy ∧ 4 * (x * z) = kxz ∧
      4 * (y * z) = kyz := by
  have pick : ∀ k : ℝ, 0 < k → ∃ r : ℝ, r ≠ 0 ∧ 4 * (r * r) = k := by
    intro k hk
    refine ⟨Real.sqrt k / 2, by positivity, ?_⟩
    have := Real.mul_self_sqrt hk.le
    linarith
  have scale : ∀ r k a b c : ℝ, r ≠ 0 → 4 * (r * r) = k → k * c = a * b → 4 * (a / (4 * r) * (b / (4 * r))) = c := by
    intro r k a b c hr hk h
    rw [← hk] at h
    field_simp
    linarith
  have scale' : ∀ r a : ℝ, r ≠ 0 → 4 * (r * (a / (4 * r))) = a := by
    intro r a hr; field_simp
  have scale'' : ∀ r a : ℝ, r ≠ 0 → 4 * (a / (4 * r) * r) = a := by
    intro r a hr; field_simp
  by_cases hw : 0 < kww
  · obtain ⟨r, hr, hk⟩ := pick _ hw
    exact ⟨r, kwx / (4 * r), kwy / (4 * r), kwz / (4 * r),
      hk,
      scale r _ _ _ _ hr hk (by linarith only [r1]),
      scale r _ _ _ _ hr hk (by linarith only [r2]),
      scale r _ _ _ _ hr hk (by linarith only [r3]),
      scale' r _ hr,
      scale' r _ hr,
      scale' r _ hr,
      scale r _ _ _ _ hr hk (by linarith only [r7]),
      scale r _ _ _ _ hr hk (by linarith only [r8]),
      scale r _ _ _ _ hr hk (by linarith only [r9])⟩
  by_cases hx : 0 < kxx
  · obtain ⟨r, hr, hk⟩ := pick _ hx
    exact ⟨kwx / (4 * r), r, kxy / (4 * r), kxz / (4 * r),
      scale r _ _ _ _ hr hk (by linarith only [r1]),
      hk,
      scale r _ _ _ _ hr hk (by linarith only [r4]),
      scale r _ _ _ _ hr hk (by linarith only [r5]),
      scale'' r _ hr,
      scale r _ _ _ _ hr hk (by linarith only [r10]),
      scale r _ _ _ _ hr hk (by linarith only [r11]),
      scale' r _ hr,
      scale' r _ hr,
      scale r _ _ _ _ hr hk (by linarith only [r12])⟩
  by_cases hy : 0 < kyy
  · obtain ⟨r, hr, hk⟩ := pick _ hy
    exact ⟨kwy / (4 * r), kxy / (4 * r), r, kyz / (4 * r),
      scale r _ _ _ _ hr hk (by linarith only [r2]),
      scale r _ _ _ _ hr hk (by linarith only [r4]),
      hk,
      scale r _ _ _ _ hr hk (by linarith only [r6]),
      scale r _ _ _ _ hr hk (by linarith only [r13]),
      scale'' r _ hr,
      scale r _ _ _ _ hr hk (by linarith only [r14]),
      scale'' r _ hr,
      scale r _ _ _ _ hr hk (by linarith only [r15]),
      scale' r _ hr⟩
  · have hz : 0 < kzz := by linarith
    obtain ⟨r, hr, hk⟩ := pick _ hz
    exact ⟨kwz / (4 * r), kxz / (4 * r), kyz / (4 * r), r,
      scale r _ _ _ _ hr hk (by linarith only [r3]),
      scale r _ _ _ _ hr hk (by linarith only [r5]),
      scale r _ _ _ _ hr hk (by linarith only [r6]),
      hk,
      scale r _ _ _ _ hr hk (by linarith only [r16]),
      scale r _ _ _ _ hr hk (by linarith only [r17]),
      scale'' r _ hr,
      scale r _ _ _ _ hr hk (by linarith only [r18]),
      scale'' r _ hr,
      scale'' r _ hr⟩

/-- Every rotation is the rotation of some unit quaternion. -/
theorem exists_quat {R : Matrix (Fin 3) (Fin 3) ℝ} (hR : Spec.IsRotation R) :
    ∃ w x y z : ℝ, w ^ 2 + x ^ 2 + y ^ 2 + z ^ 2 = 1 ∧ R = quatMatrix w x y z := by
  obtain ⟨c00, c01, c02, c10, c11, c12, c20, c21, c22⟩ := hR.cofactor_eqs
  have oc := hR.entries
  have or' := hR.transpose.entries
  simp only [transpose_apply] at or'
  have oc00 := oc 0 0; have oc01 := oc 0 1; have oc02 := oc 0 2
  have oc11 := oc 1 1; have oc12 := oc 1 2; have oc22 := oc 2 2
  have or00 := or' 0 0; have or01 := or' 0 1; have or02 := or' 0 2
  have or11 := or' 1 1; have or12 := or' 1 2; have or22 := or' 2 2
  simp only [if_true, Fin.reduceEq, if_false] at oc00 oc01 oc02 oc11 oc12 oc22 or00 or01 or02 or11 or12 or22
  clear oc or'
  obtain ⟨w, x, y, z, e1, e2, e3, e4, e5, e6, e7, e8, e9, e10⟩ := rank_one_root
    (kww := 1 + R 0 0 + R 1 1 + R 2 2) (kxx := 1 + R 0 0 - R 1 1 - R 2 2) (kyy := 1 - R 0 0 + R 1 1 - R 2 2)
    (kzz := 1 - R 0 0 - R 1 1 + R 2 2) (kwx := R 2 1 - R 1 2) (kwy := R 0 2 - R 2 0) (kwz := R 1 0 - R 0 1)
    (kxy := R 0 1 + R 1 0) (kxz := R 0 2 + R 2 0) (kyz := R 1 2 + R 2 1)
    (by ring) (by linarith) (by linarith) (by linarith) (by linarith) (by linarith) (by linarith) (by linarith) (by linarith) (by linarith) (by linarith) (by linarith) (by linarith) (by linarith) (by linarith) (by linarith) (by linarith) (by linarith) (by linarith)
  clear c00 c01 c02 c10 c11 c12 c20 c21 c22 oc00 oc01 oc02 oc11 oc12 oc22 or00 or01 or02 or11 or12 or22
  refine ⟨w, x, y, z, by linarith, ?_⟩
  ext i j
  fin_cases i <;> fin_cases j <;> simp [quatMatrix] <;> linarith

/-- Angle of a rotation. -/
noncomputable def rotationAngle (R : Matrix (Fin 3) (Fin 3) ℝ) : ℝ := Real.arccos ((R.trace - 1) / 2)

theorem trace_quatMatrix {w x y z : ℝ} (h : w ^ 2 + x ^ 2 + y ^ 2 + z ^ 2 = 1) :
    (quatMatrix w x y z).trace = 4 * w ^ 2 - 1 := by
  rw [trace_fin_three]
  simp [quatMatrix]
  linarith

theorem abs_le_one_of_unit {w x y z : ℝ} (h : w ^ 2 + x ^ 2 + y ^ 2 + z ^ 2 = 1) : |w| ≤ 1 := by
  rw [← sq_le_one_iff_abs_le_one]
  nlinarith [sq_nonneg x, sq_nonneg y, sq_nonneg z]

theorem rotationAngle_quat {w x y z : ℝ} (h : w ^ 2 + x ^ 2 + y ^ 2 + z ^ 2 = 1) :
    rotationAngle (quatMatrix w x y z) = 2 * Real.arccos |w| := by
  have h1 := abs_le_one_of_unit h
  have h0 : 0 ≤ |w| := abs_nonneg w
  unfold rotationAngle
  rw [trace_quatMatrix h]
  have hc : (4 * w ^ 2 - 1 - 1) / 2 = Real.cos (2 * Real.arccos |w|) := by
    rw [Real.cos_two_mul, Real.cos_arccos (by linarith) h1, sq_abs]; ring
  rw [hc, Real.arccos_cos]
  · have := Real.arccos_nonneg |w|; linarith
  · have : Real.arccos |w| ≤ Real.pi / 2 := Real.arccos_le_pi_div_two.mpr h0
    linarith

theorem trace_bounds {R : Matrix (Fin 3) (Fin 3) ℝ} (hR : Spec.IsRotation R) :
    -1 ≤ (R.trace - 1) / 2 ∧ (R.trace - 1) / 2 ≤ 1 := by
  obtain ⟨w, x, y, z, h, rfl⟩ := exists_quat hR
  have h1 := (sq_le_one_iff_abs_le_one w).mpr (abs_le_one_of_unit h)
  rw [trace_quatMatrix h]
  constructor <;> nlinarith [sq_nonneg w]

theorem eq_one_of_trace {R : Matrix (Fin 3) (Fin 3) ℝ} (hR : Spec.IsRotation R) (ht : (R.trace - 1) / 2 = 1) :
    R = 1 := by
  obtain ⟨w, x, y, z, h, rfl⟩ := exists_quat hR
  rw [trace_quatMatrix h] at ht
  have hw : w ^ 2 = 1 := by linarith
  have hx : x = 0 := by nlinarith [sq_nonneg x, sq_nonneg y, sq_nonneg z]
  have hy : y = 0 := by nlinarith [sq_nonneg x, sq_nonneg y, sq_nonneg z]
  have hz : z = 0 := by nlinarith [sq_nonneg x, sq_nonneg y, sq_nonneg z]
  subst hx hy hz
  ext i j
  fin_cases i <;> fin_cases j <;> simp [quatMatrix, hw]

/-- Angles of rotations satisfy the triangle inequality. -/
theorem rotationAngle_mul_le {A B : Matrix (Fin 3) (Fin 3) ℝ} (hA : Spec.IsRotation A) (hB : Spec.IsRotation B) :
    rotationAngle (A * B) ≤ rotationAngle A + rotationAngle B := by
  obtain ⟨w, x, y, z, h, rfl⟩ := exists_quat hA
  obtain ⟨a, b, c, d, h', rfl⟩ := exists_quat hB
  have hprod : (w * a - x * b - y * c - z * d) ^ 2 + (w * b + x * a + y * d - z * c) ^ 2
      + (w * c - x * d + y * a + z * b) ^ 2 + (w * d + x * c - y * b + z * a) ^ 2 = 1 := by
    have : (w ^ 2 + x ^ 2 + y ^ 2 + z ^ 2) * (a ^ 2 + b ^ 2 + c ^ 2 + d ^ 2) = 1 := by rw [h, h', mul_one]
    rw [← this]; ring
  rw [quatMatrix_mul, rotationAngle_quat hprod, rotationAngle_quat h, rotationAngle_quat h']
  have w1 := abs_le_one_of_unit h
  have a1 := abs_le_one_of_unit h'
  have p1 := abs_le_one_of_unit hprod
  set α := Real.arccos |w| with hα
  set β := Real.arccos |a| with hβ
  have cα : Real.cos α = |w| := Real.cos_arccos (by linarith [abs_nonneg w]) w1
  have cβ : Real.cos β = |a| := Real.cos_arccos (by linarith [abs_nonneg a]) a1
  have α0 : 0 ≤ α := Real.arccos_nonneg _
  have β0 : 0 ≤ β := Real.arccos_nonneg _
  have α1 : α ≤ Real.pi / 2 := Real.arccos_le_pi_div_two.mpr (abs_nonneg _)
  have β1 : β ≤ Real.pi / 2 := Real.arccos_le_pi_div_two.mpr (abs_nonneg _)
  have sα : Real.sin α = Real.sqrt (1 - w ^ 2) := by rw [hα, Real.sin_arccos, sq_abs]
  have sβ : Real.sin β = Real.sqrt (1 - a ^ 2) := by rw [hβ, Real.sin_arccos, sq_abs]
  -- Cauchy-Schwarz for the vector parts
  have hcs : |x * b + y * c + z * d| ≤ Real.sin α * Real.sin β := by
    rw [sα, sβ, ← Real.sqrt_mul (by nlinarith [sq_nonneg x, sq_nonneg y, sq_nonneg z])]
    apply Real.abs_le_sqrt
    have e1 : 1 - w ^ 2 = x ^ 2 + y ^ 2 + z ^ 2 := by linarith
    have e2 : 1 - a ^ 2 = b ^ 2 + c ^ 2 + d ^ 2 := by linarith
    rw [e1, e2]
    nlinarith [sq_nonneg (x * c - y * b), sq_nonneg (x * d - z * b), sq_nonneg (y * d - z * c)]
  have hre : Real.cos (α + β) ≤ |w * a - x * b - y * c - z * d| := by
    rw [Real.cos_add, cα, cβ, ← abs_mul]
    have e : w * a - x * b - y * c - z * d = w * a - (x * b + y * c + z * d) := by ring
    rw [e]
    have := abs_sub_abs_le_abs_sub (w * a) (x * b + y * c + z * d)
    linarith
  have : Real.arccos |w * a - x * b - y * c - z * d| ≤ α + β := by
    calc _ ≤ Real.arccos (Real.cos (α + β)) := Real.arccos_le_arccos hre
      _ = α + β := Real.arccos_cos (by linarith) (by linarith)
  linarith

theorem rotationAngle_transpose (R : Matrix (Fin 3) (Fin 3) ℝ) : rotationAngle Rᵀ = rotationAngle R := by
  unfold rotationAngle; rw [trace_transpose]

end Verif
