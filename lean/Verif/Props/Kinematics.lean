import Verif.Lemmas.Kinematics

/-!
# C48: joint values are clipped and rotations are rotations
-/

namespace Verif
open Matrix

/-- C48: a joint takes the admissible value that is closest to the requested one. -/
theorem C48_clip (j : Joint) (value : ℝ) (h : ∀ lo ∈ j.lower, ∀ hi ∈ j.upper, lo ≤ hi) :
    Spec.IsClipped j.lower j.upper value (j.clip value) := by
  unfold Spec.IsClipped Joint.clip
  rcases hl : j.lower with _ | lo <;> rcases hu : j.upper with _ | hi
  · simp
  · simp only [Option.mem_def, Option.some.injEq, forall_eq', reduceCtorEq, IsEmpty.forall_iff, implies_true,
      true_and, forall_const]
    refine ⟨min_le_right _ _, fun x hx => ?_⟩
    rcases le_total value hi with h' | h'
    · rw [min_eq_left h']; simp
    · rw [min_eq_right h', abs_of_nonpos (by linarith), abs_of_nonpos (by linarith)]; linarith
  · simp only [Option.mem_def, Option.some.injEq, forall_eq', reduceCtorEq, IsEmpty.forall_iff, implies_true,
      true_and, forall_const]
    refine ⟨le_max_right _ _, fun x hx => ?_⟩
    rcases le_total value lo with h' | h'
    · rw [max_eq_right h', abs_of_nonneg (by linarith), abs_of_nonneg (by linarith)]; linarith
    · rw [max_eq_left h']; simp
  · have hlh : lo ≤ hi := h lo (by simp [hl]) hi (by simp [hu])
    simp only [Option.mem_def, Option.some.injEq, forall_eq']
    refine ⟨le_min (le_max_right _ _) hlh, min_le_right _ _, fun x h1 h2 => ?_⟩
    rcases le_total value lo with h' | h'
    · rw [max_eq_right h', min_eq_left hlh, abs_of_nonneg (by linarith), abs_of_nonneg (by linarith)]; linarith
    · rw [max_eq_left h']
      rcases le_total value hi with h'' | h''
      · rw [min_eq_left h'']; simp
      · rw [min_eq_right h'', abs_of_nonpos (by linarith), abs_of_nonpos (by linarith)]; linarith

/-- A joint with limits -1 and 2. -/
def exampleJoint : Joint :=
  { fromFrame := "tool", toFrame := "arm", child2parent := 1, axis := ![0, 0, 1], lower := some (-1)
    upper := some 2, revolute := true }

example : (∀ lo ∈ exampleJoint.lower, ∀ hi ∈ exampleJoint.upper, lo ≤ hi) ∧ exampleJoint.clip 3 = 2 ∧
    exampleJoint.clip (-3) = -1 ∧ exampleJoint.clip 1 = 1 := by
  refine ⟨?_, ?_, ?_, ?_⟩ <;> norm_num [exampleJoint, Joint.clip]

/-- Clipping twice is clipping once. -/
theorem clip_clip (j : Joint) (value : ℝ) (h : ∀ lo ∈ j.lower, ∀ hi ∈ j.upper, lo ≤ hi) :
    j.clip (j.clip value) = j.clip value := by
  obtain ⟨h1, h2, -⟩ := C48_clip j value h
  obtain ⟨-, -, h3⟩ := C48_clip j (j.clip value) h
  have := h3 (j.clip value) h1 h2
  rw [sub_self, abs_zero] at this
  have := abs_nonpos_iff.mp this
  linarith

/-- Setting a joint to the clipped value has the same effect. -/
theorem transform_clip (j : Joint) (value : ℝ) (h : ∀ lo ∈ j.lower, ∀ hi ∈ j.upper, lo ≤ hi) :
    j.transform (j.clip value) = j.transform value := by
  unfold Joint.transform; rw [clip_clip j value h]

/-- C48: `set_joint` raises KeyError for an unknown joint, and otherwise replaces the transform of this joint and
changes nothing else. -/
theorem C48_set_joint (name : String) (value : ℝ) (tm : TransformManager) :
    (tm.joints name = none → (TransformManager.setJoint name value).exec tm = (.error .keyError, tm)) ∧
    (∀ j, tm.joints name = some j →
      (TransformManager.setJoint name value).exec tm =
        (.ok (), { tm with transforms := fun key =>
          if key = (j.fromFrame, j.toFrame) then some (j.transform value) else tm.transforms key })) := by
  unfold TransformManager.setJoint
  constructor
  · intro h
    rw [Py.exec_bind, Py.exec_get]
    simp only [h]
    rfl
  · intro j h
    rw [Py.exec_bind, Py.exec_get]
    simp only [h]
    rw [Py.exec_modify]
    congr 2
    funext key
    simp [Function.update_apply]

section Rotation
variable (u : Vec 3)

/-- The rotation part of the transform of a revolute joint. -/
noncomputable def jointRotation (θ : ℝ) : Matrix (Fin 3) (Fin 3) ℝ :=
  Matrix.of fun i j => fastMatrixFromAxisAngle u θ i.castSucc j.castSucc

theorem fastMatrix_eq_pose (θ : ℝ) : fastMatrixFromAxisAngle u θ = Spec.pose (jointRotation u θ) 0 := by
  ext i j
  fin_cases i <;> fin_cases j <;> simp [Spec.pose, fastMatrixFromAxisAngle, jointRotation]

theorem jointRotation_isRotation (hu : Spec.IsUnitAxis u) (θ : ℝ) : Spec.IsRotation (jointRotation u θ) := by
  have h1 : u 0 ^ 2 + u 1 ^ 2 + u 2 ^ 2 = 1 := hu
  have h2 := Real.sin_sq_add_cos_sq θ
  refine ⟨?_, ?_⟩
  · ext i j
    fin_cases i <;> fin_cases j <;>
      simp [jointRotation, fastMatrixFromAxisAngle, mul_apply, Fin.sum_univ_succ] <;> grind
  · rw [det_fin_three]
    simp [jointRotation, fastMatrixFromAxisAngle]
    grind

/-- C48: the transform of a revolute joint with a unit axis is the rotation about this axis by the joint angle
(Rodrigues' formula): a proper rotation without translation. -/
theorem C48_revolute (hu : Spec.IsUnitAxis u) (θ : ℝ) :
    ∃ R, Spec.IsRotation R ∧ fastMatrixFromAxisAngle u θ = Spec.pose R 0 ∧ (∀ v, R *ᵥ v = Spec.rotate u θ v) ∧
      R *ᵥ u = u := by
  have hrot : ∀ v, jointRotation u θ *ᵥ v = Spec.rotate u θ v := by
    intro v
    funext i
    fin_cases i <;>
      simp [jointRotation, fastMatrixFromAxisAngle, mulVec, dotProduct, Fin.sum_univ_succ, Spec.rotate] <;> ring
  refine ⟨jointRotation u θ, jointRotation_isRotation u hu θ, fastMatrix_eq_pose u θ, hrot, ?_⟩
  rw [hrot]
  have h1 : u 0 ^ 2 + u 1 ^ 2 + u 2 ^ 2 = 1 := hu
  funext i
  fin_cases i <;> simp [Spec.rotate] <;> grind

example : Spec.IsUnitAxis ![2 / 3, -1 / 3, 2 / 3] := by
  simp only [Spec.IsUnitAxis, cons_val_zero, cons_val_one, cons_val]
  norm_num

/-- C48: turning a joint by two angles one after the other is turning it by the sum of the angles. -/
theorem C48_revolute_additive (hu : Spec.IsUnitAxis u) (θ φ : ℝ) :
    fastMatrixFromAxisAngle u θ * fastMatrixFromAxisAngle u φ = fastMatrixFromAxisAngle u (θ + φ) ∧
    fastMatrixFromAxisAngle u 0 = 1 ∧
    fastMatrixFromAxisAngle u (θ + 2 * Real.pi) = fastMatrixFromAxisAngle u θ := by
  have h1 : u 0 ^ 2 + u 1 ^ 2 + u 2 ^ 2 = 1 := hu
  refine ⟨?_, ?_, ?_⟩
  · have ec := Real.cos_add θ φ
    have es := Real.sin_add θ φ
    have hm : jointRotation u θ * jointRotation u φ = jointRotation u (θ + φ) := by
      ext i j
      fin_cases i <;> fin_cases j <;>
        simp [jointRotation, fastMatrixFromAxisAngle, mul_apply, Fin.sum_univ_succ] <;>
        simp only [ec, es] <;> grind
    rw [fastMatrix_eq_pose, fastMatrix_eq_pose, fastMatrix_eq_pose, pose_mul, hm]
    congr 1
    simp
  · ext i j
    fin_cases i <;> fin_cases j <;> simp [fastMatrixFromAxisAngle]
  · unfold fastMatrixFromAxisAngle
    rw [Real.cos_add_two_pi, Real.sin_add_two_pi]

theorem prismatic_eq_pose (d : ℝ) : prismaticTransform u d = Spec.pose 1 (d • u) := by
  ext i j
  fin_cases i <;> fin_cases j <;> simp [Spec.pose, prismaticTransform, one_apply]

/-- C48: the transform of a prismatic joint is the translation along its axis by the joint value; translations
add up. -/
theorem C48_prismatic (d e : ℝ) :
    prismaticTransform u d = Spec.pose 1 (fun i => d * u i) ∧
    prismaticTransform u d * prismaticTransform u e = prismaticTransform u (d + e) := by
  refine ⟨?_, ?_⟩
  · rw [prismatic_eq_pose]; rfl
  · rw [prismatic_eq_pose, prismatic_eq_pose, prismatic_eq_pose, pose_mul]
    congr 1
    · simp
    · rw [one_mulVec, add_smul, add_comm]

end Rotation

end Verif
