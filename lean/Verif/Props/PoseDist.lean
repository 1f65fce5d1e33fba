import Verif.Lemmas.Rotation
import Verif.Props.Forward

/-!
# C51: the pose distance
-/

namespace Verif
open Matrix

theorem length3_rotate {R : Matrix (Fin 3) (Fin 3) ℝ} (hR : Spec.IsRotation R) (v : Vec 3) :
    Spec.length3 (R *ᵥ v) = Spec.length3 v := by
  have h : ∀ v : Vec 3, v 0 ^ 2 + v 1 ^ 2 + v 2 ^ 2 = v ⬝ᵥ v := by
    intro v; simp [dotProduct, Fin.sum_univ_three, sq]
  unfold Spec.length3
  rw [h, h, dotProduct_mulVec, vecMul_mulVec, hR.1, vecMul_one]

theorem npInv_pose {R : Matrix (Fin 3) (Fin 3) ℝ} (hR : Spec.IsRotation R) (p : Vec 3) :
    npInv (Spec.pose R p) = .ok (Spec.pose Rᵀ (-(Rᵀ *ᵥ p))) := by
  have h1 : Spec.pose Rᵀ (-(Rᵀ *ᵥ p)) * Spec.pose R p = 1 := by
    rw [pose_mul, hR.1, add_neg_cancel, pose_one]
  have hdet : (Spec.pose R p).det ≠ 0 := by
    intro h0
    have := congrArg Matrix.det h1
    rw [det_mul, h0, mul_zero, det_one] at this
    exact zero_ne_one this
  unfold npInv
  rw [if_neg hdet, inv_eq_left_inv h1]

/-- C51: for rigid transforms, `pose_dist` is the weighted sum of the angle of the rotation between both
orientations and the distance of both positions. The argument of `acos` lies in [-1, 1], so that it is defined
(and the guards `min(..., 1)` and `min(angle, 2 pi - angle)` have no effect). -/
theorem C51_value {Rd Ra : Matrix (Fin 3) (Fin 3) ℝ} (hd : Spec.IsRotation Rd) (ha : Spec.IsRotation Ra)
    (pd pa : Vec 3) (wo wp : ℝ) :
    poseDist (Spec.pose Rd pd) (Spec.pose Ra pa) wo wp =
      .ok (wo * Real.arccos (((Raᵀ * Rd).trace - 1) / 2) + wp * Spec.length3 (fun i => pd i - pa i)) ∧
    -1 ≤ ((Raᵀ * Rd).trace - 1) / 2 ∧ ((Raᵀ * Rd).trace - 1) / 2 ≤ 1 := by
  have hb := trace_bounds (ha.transpose.mul hd)
  refine ⟨?_, hb⟩
  unfold poseDist
  rw [npInv_pose ha]
  simp only [bind, Except.bind]
  rw [pose_mul]
  have hpos : Raᵀ *ᵥ pd + -(Raᵀ *ᵥ pa) = Raᵀ *ᵥ (fun i => pd i - pa i) := by
    rw [← sub_eq_add_neg, ← mulVec_sub]; rfl
  rw [hpos]
  have htr : Spec.pose (Raᵀ * Rd) (Raᵀ *ᵥ fun i => pd i - pa i) 0 0 + Spec.pose (Raᵀ * Rd) (Raᵀ *ᵥ fun i => pd i - pa i) 1 1
      + Spec.pose (Raᵀ * Rd) (Raᵀ *ᵥ fun i => pd i - pa i) 2 2 = (Raᵀ * Rd).trace := by
    rw [trace_fin_three]; simp [Spec.pose]
  rw [htr, min_eq_left hb.2, min_eq_left (by linarith [Real.arccos_le_pi (((Raᵀ * Rd).trace - 1) / 2)])]
  have hlen := length3_rotate ha.transpose (fun i => pd i - pa i)
  unfold Spec.length3 at hlen
  simp only at hlen
  have h03 : Spec.pose (Raᵀ * Rd) (Raᵀ *ᵥ fun i => pd i - pa i) 0 3 = (Raᵀ *ᵥ fun i => pd i - pa i) 0 := rfl
  have h13 : Spec.pose (Raᵀ * Rd) (Raᵀ *ᵥ fun i => pd i - pa i) 1 3 = (Raᵀ *ᵥ fun i => pd i - pa i) 1 := rfl
  have h23 : Spec.pose (Raᵀ * Rd) (Raᵀ *ᵥ fun i => pd i - pa i) 2 3 = (Raᵀ *ᵥ fun i => pd i - pa i) 2 := rfl
  rw [h03, h13, h23, hlen]
  rfl

example : Spec.IsRotation !![0, -1, 0; 1, 0, 0; 0, 0, 1] := by
  constructor
  · ext i j
    fin_cases i <;> fin_cases j <;> simp [mul_apply, Fin.sum_univ_succ]
  · rw [det_fin_three]; simp

/-- C51: between rigid transforms, with non-negative weights, the pose distance never fails, is a pseudometric
(non-negative, symmetric, triangle inequality, zero for equal poses), and its orientation part is at most pi. -/
theorem C51_pseudometric {wo wp : ℝ} (hwo : 0 ≤ wo) (hwp : 0 ≤ wp) :
    ∃ dist : {M : Mat4 // Spec.IsRigid M} → {M : Mat4 // Spec.IsRigid M} → ℝ,
      (∀ A B, poseDist A.1 B.1 wo wp = .ok (dist A B)) ∧ (∀ A B, 0 ≤ dist A B) ∧ (∀ A, dist A A = 0) ∧
      (∀ A B, dist A B = dist B A) ∧ (∀ A B C, dist A C ≤ dist A B + dist B C) ∧
      (∀ A B, ∃ angle, 0 ≤ angle ∧ angle ≤ Real.pi ∧
        dist A B = wo * angle + wp * Spec.length3 (fun i => A.1 i.castSucc 3 - B.1 i.castSucc 3)) ∧
      (0 < wo → 0 < wp → ∀ A B, dist A B = 0 → A = B) := by
  classical
  -- rotation and position of a rigid transform
  let rot : {M : Mat4 // Spec.IsRigid M} → Matrix (Fin 3) (Fin 3) ℝ := fun A => A.2.choose
  let pos : {M : Mat4 // Spec.IsRigid M} → Vec 3 := fun A => A.2.choose_spec.choose
  have hrot : ∀ A, Spec.IsRotation (rot A) := fun A => A.2.choose_spec.choose_spec.1
  have hA : ∀ A : {M : Mat4 // Spec.IsRigid M}, A.1 = Spec.pose (rot A) (pos A) :=
    fun A => A.2.choose_spec.choose_spec.2
  have hposA : ∀ A : {M : Mat4 // Spec.IsRigid M}, ∀ i : Fin 3, A.1 i.castSucc 3 = pos A i := by
    intro A i
    rw [hA A]
    fin_cases i <;> rfl
  have hlen : ∀ v : Vec 3, 0 ≤ Spec.length3 v := fun v => Real.sqrt_nonneg _
  have hsymlen : ∀ p q : Vec 3, Spec.length3 (fun i => p i - q i) = Spec.length3 (fun i => q i - p i) := by
    intro p q; unfold Spec.length3; congr 1; ring
  have htri : ∀ p q r : Vec 3, Spec.length3 (fun i => p i - r i) ≤
      Spec.length3 (fun i => p i - q i) + Spec.length3 (fun i => q i - r i) := by
    intro p q r
    have key : ∀ a b : Vec 3, Spec.length3 (fun i => a i + b i) ≤ Spec.length3 a + Spec.length3 b := by
      intro a b
      unfold Spec.length3
      apply Real.sqrt_le_iff.mpr
      refine ⟨by positivity, ?_⟩
      have ha := Real.sq_sqrt (show 0 ≤ a 0 ^ 2 + a 1 ^ 2 + a 2 ^ 2 by positivity)
      have hb := Real.sq_sqrt (show 0 ≤ b 0 ^ 2 + b 1 ^ 2 + b 2 ^ 2 by positivity)
      have hcs : a 0 * b 0 + a 1 * b 1 + a 2 * b 2 ≤
          Real.sqrt (a 0 ^ 2 + a 1 ^ 2 + a 2 ^ 2) * Real.sqrt (b 0 ^ 2 + b 1 ^ 2 + b 2 ^ 2) := by
        rw [← Real.sqrt_mul (by positivity)]
        apply Real.le_sqrt_of_sq_le
        nlinarith [sq_nonneg (a 0 * b 1 - a 1 * b 0), sq_nonneg (a 0 * b 2 - a 2 * b 0),
          sq_nonneg (a 1 * b 2 - a 2 * b 1)]
      nlinarith
    have := key (fun i => p i - q i) (fun i => q i - r i)
    simpa using this
  refine ⟨fun A B => wo * rotationAngle ((rot B)ᵀ * rot A) + wp * Spec.length3 (fun i => pos A i - pos B i),
    ?_, ?_, ?_, ?_, ?_, ?_, ?_⟩
  · intro A B
    rw [hA A, hA B]
    exact (C51_value (hrot A) (hrot B) (pos A) (pos B) wo wp).1
  · intro A B
    have := Real.arccos_nonneg ((((rot B)ᵀ * rot A).trace - 1) / 2)
    have := hlen (fun i => pos A i - pos B i)
    unfold rotationAngle
    positivity
  · intro A
    simp only [(hrot A).1, rotationAngle, Spec.length3]
    rw [trace_one]
    norm_num
  · intro A B
    simp only
    rw [hsymlen (pos A) (pos B), ← rotationAngle_transpose ((rot B)ᵀ * rot A), transpose_mul, transpose_transpose]
  · intro A B C
    simp only
    have e : (rot C)ᵀ * rot A = ((rot C)ᵀ * rot B) * ((rot B)ᵀ * rot A) := by
      rw [Matrix.mul_assoc, ← Matrix.mul_assoc (rot B), (hrot B).mul_transpose, Matrix.one_mul]
    have h1 := rotationAngle_mul_le ((hrot C).transpose.mul (hrot B)) ((hrot B).transpose.mul (hrot A))
    rw [← e] at h1
    have h2 := htri (pos A) (pos B) (pos C)
    nlinarith [mul_le_mul_of_nonneg_left h1 hwo, mul_le_mul_of_nonneg_left h2 hwp]
  · intro A B
    refine ⟨rotationAngle ((rot B)ᵀ * rot A), Real.arccos_nonneg _, Real.arccos_le_pi _, ?_⟩
    simp only [hposA]
  · intro h1 h2 A B h0
    simp only at h0
    have ha : 0 ≤ rotationAngle ((rot B)ᵀ * rot A) := Real.arccos_nonneg _
    have hl := hlen (fun i => pos A i - pos B i)
    have ha0 : rotationAngle ((rot B)ᵀ * rot A) = 0 := by
      by_contra hne
      have : 0 < wo * rotationAngle ((rot B)ᵀ * rot A) := mul_pos h1 (lt_of_le_of_ne ha (Ne.symm hne))
      nlinarith [mul_nonneg hwp hl]
    have hl0 : Spec.length3 (fun i => pos A i - pos B i) = 0 := by
      by_contra hne
      have : 0 < wp * Spec.length3 (fun i => pos A i - pos B i) := mul_pos h2 (lt_of_le_of_ne hl (Ne.symm hne))
      nlinarith [mul_nonneg hwo ha]
    have hpos : pos A = pos B := by
      have hz := (Real.sqrt_eq_zero (by positivity)).mp hl0
      funext i
      have h3 : ∀ i, pos A i - pos B i = 0 := by
        intro i
        have p0 := sq_nonneg (pos A 0 - pos B 0)
        have p1 := sq_nonneg (pos A 1 - pos B 1)
        have p2 := sq_nonneg (pos A 2 - pos B 2)
        apply pow_eq_zero_iff (two_ne_zero) |>.mp
        fin_cases i
        · show (pos A 0 - pos B 0) ^ 2 = 0; linarith
        · show (pos A 1 - pos B 1) ^ 2 = 0; linarith
        · show (pos A 2 - pos B 2) ^ 2 = 0; linarith
      linarith [h3 i]
    have hr : rot A = rot B := by
      have hle := Real.arccos_eq_zero.mp ha0
      have hbd := trace_bounds ((hrot B).transpose.mul (hrot A))
      have h1 := eq_one_of_trace ((hrot B).transpose.mul (hrot A)) (le_antisymm hbd.2 hle)
      have := congrArg (fun M => rot B * M) h1
      beta_reduce at this
      rw [← Matrix.mul_assoc, (hrot B).mul_transpose, Matrix.one_mul, Matrix.mul_one] at this
      exact this
    apply Subtype.ext
    rw [hA A, hA B, hr, hpos]

/-- C51: for rotations about the same axis, the orientation error is the difference of the angles (up to a half
turn). -/
theorem C51_same_axis {u : Vec 3} (hu : Spec.IsUnitAxis u) {θ φ : ℝ} (h : |θ - φ| ≤ Real.pi) (wo wp : ℝ) :
    poseDist (fastMatrixFromAxisAngle u θ) (fastMatrixFromAxisAngle u φ) wo wp = .ok (wo * |θ - φ|) := by
  have hR := jointRotation_isRotation u hu
  have hadd : ∀ a b, jointRotation u a * jointRotation u b = jointRotation u (a + b) := by
    intro a b
    have := (C48_revolute_additive u hu a b).1
    rw [fastMatrix_eq_pose, fastMatrix_eq_pose, fastMatrix_eq_pose, pose_mul] at this
    exact (pose_injective this).1
  have hzero : jointRotation u 0 = 1 := by
    have := (C48_revolute_additive u hu 0 0).2.1
    rw [fastMatrix_eq_pose, ← pose_one] at this
    exact (pose_injective this).1
  have hT : (jointRotation u φ)ᵀ = jointRotation u (-φ) := by
    have h1 : jointRotation u φ * jointRotation u (-φ) = 1 := by rw [hadd, add_neg_cancel, hzero]
    calc (jointRotation u φ)ᵀ = (jointRotation u φ)ᵀ * (jointRotation u φ * jointRotation u (-φ)) := by
          rw [h1, Matrix.mul_one]
      _ = jointRotation u (-φ) := by rw [← Matrix.mul_assoc, (hR φ).1, Matrix.one_mul]
  have htr : ((jointRotation u φ)ᵀ * jointRotation u θ).trace = 1 + 2 * Real.cos |θ - φ| := by
    rw [hT, hadd, Real.cos_abs, trace_fin_three]
    simp only [jointRotation, fastMatrixFromAxisAngle, of_apply]
    have hu' : u 0 ^ 2 + u 1 ^ 2 + u 2 ^ 2 = 1 := hu
    simp
    rw [show -φ + θ = θ - φ by ring]
    linear_combination (1 - Real.cos (θ - φ)) * hu'
  rw [fastMatrix_eq_pose, fastMatrix_eq_pose, (C51_value (hR θ) (hR φ) 0 0 wo wp).1, htr]
  have e : (1 + 2 * Real.cos |θ - φ| - 1) / 2 = Real.cos |θ - φ| := by ring
  rw [e, Real.arccos_cos (abs_nonneg _) h]
  simp [Spec.length3]

example : |(1 : ℝ) - (-1 / 2)| ≤ Real.pi := by
  have := Real.two_le_pi
  rw [abs_of_nonneg] <;> linarith

/-- C51: the pose distance fails exactly for a singular actual pose. -/
theorem C51_singular (desired actual : Mat4) (wo wp : ℝ) :
    poseDist desired actual wo wp = .error .linAlgError ↔ actual.det = 0 := by
  unfold poseDist npInv
  by_cases h : actual.det = 0
  · simp [h, bind, Except.bind]
  · simp [h, bind, Except.bind, pure, Except.pure]

/-- C48/C51: the error of a joint configuration of a well-formed chain whose frames are connected is a number: zero
weights apart, it vanishes exactly if forward kinematics gives the desired pose. -/
theorem C51_error_zero_iff {n : ℕ} {tm tm' : TransformManager} {names : Fin n → String} {base ee : String} {c : Chain n}
    (hc : Chain.create tm names base ee = .ok c) (hw : tm.WellFormed) (q : Vec n) {H : Mat4}
    (h : (c.forward q).exec tm = (.ok H, tm')) {desired : Mat4} (hdes : Spec.IsRigid desired) {wo wp : ℝ}
    (hwo : 0 < wo) (hwp : 0 < wp) :
    ((c.eePoseError q desired wo wp).exec tm).1 = .ok 0 ↔ H = desired := by
  have hH := (C48_forward_rigid hc hw q h).1
  obtain ⟨dist, hdist, -, hself, -, -, -, hzero⟩ := C51_pseudometric hwo.le hwp.le
  unfold Chain.eePoseError
  rw [Py.exec_bind, h]
  simp only [Py.exec_lift]
  have hd := hdist ⟨desired, hdes⟩ ⟨H, hH⟩
  simp only at hd
  rw [hd]
  constructor
  · intro h0
    have h0 : dist ⟨desired, hdes⟩ ⟨H, hH⟩ = 0 := by injection h0
    exact (congrArg Subtype.val (hzero hwo hwp _ _ h0)).symm
  · rintro rfl
    rw [hself]

end Verif
