import Verif.Spec.Simulation
import Verif.Lemmas.Py
import Mathlib.Tactic.FinCases
import Mathlib.Tactic.NormNum
import Mathlib.Tactic.Ring
import Mathlib.Tactic.LinearCombination

/-! # C89: poses of simulated robots -/

namespace Verif.Sim
open Quaternion Spec

variable {R : Type}

/-- **C89.** The two conversions between `(x, y, z, qw, qx, qy, qz)` and PyBullet's `(x, y, z), (qx, qy, qz, qw)` describe the
same rigid transformation and are inverse to each other. -/
theorem C89_conversions (x : Vec 7) (p : BPose) :
    placedBullet (pybulletPose x) = placed x ∧ placed (pytransformPose p) = placedBullet p ∧
    pytransformPose (pybulletPose x) = x ∧ pybulletPose (pytransformPose p) = p := by
  refine ⟨rfl, ?_, ?_, ?_⟩
  · funext v
    unfold placed placedBullet
    congr 1
    funext i; fin_cases i <;> rfl
  · funext i; fin_cases i <;> rfl
  · unfold pybulletPose pytransformPose
    rcases p with ⟨pos, rot⟩
    congr 1
    · funext i; fin_cases i <;> rfl
    · funext i; fin_cases i <;> rfl

theorem rotate_apply (q : ℍ[ℝ]) (v : Vec 3) : rotate q v = turnedBy q.re q.imI q.imJ q.imK v := by
  have key : ∀ p : ℍ[ℝ], p.re = 0 → p.imI = v 0 → p.imJ = v 1 → p.imK = v 2 →
      ![(q * p * star q).imI, (q * p * star q).imJ, (q * p * star q).imK] = turnedBy q.re q.imI q.imJ q.imK v := by
    intro p h0 h1 h2 h3
    funext i
    fin_cases i <;> simp [turnedBy, h0, h1, h2, h3] <;> ring
  exact key _ rfl rfl rfl rfl

theorem rotate_eq (r : Vec 4) (v : Vec 3) : rotate (toQuat r) v = turnedBy (r 3) (r 0) (r 1) (r 2) v := rotate_apply _ v

theorem toQuat_ofQuat (q : ℍ[ℝ]) : toQuat (ofQuat q) = q := by
  ext <;> simp [toQuat, ofQuat]

theorem ofQuat_toQuat (r : Vec 4) : ofQuat (toQuat r) = r := by
  funext i; fin_cases i <;> rfl

theorem rotate_mul (p q : ℍ[ℝ]) (v : Vec 3) : rotate (p * q) v = rotate p (rotate q v) := by
  funext i
  fin_cases i <;> simp [rotate_apply, turnedBy] <;> ring

theorem rotate_add (q : ℍ[ℝ]) (v w : Vec 3) : rotate q (v + w) = rotate q v + rotate q w := by
  funext i
  fin_cases i <;> simp [rotate_apply, turnedBy] <;> ring

theorem rotate_neg (q : ℍ[ℝ]) (v : Vec 3) : rotate q (-v) = -rotate q v := by
  funext i
  fin_cases i <;> simp [rotate_apply, turnedBy] <;> ring

theorem rotate_one (v : Vec 3) : rotate 1 v = v := by
  funext i
  fin_cases i <;> simp [rotate_apply, turnedBy]

theorem mul_star_of_isPose {p : BPose} (h : IsPose p) : toQuat p.rot * star (toQuat p.rot) = 1 := by
  have hn : normSq (toQuat p.rot) = 1 := by
    rw [normSq_def']
    unfold IsPose at h
    simp only [toQuat]
    linear_combination h
  rw [self_mul_star, hn]; rfl

theorem star_mul_of_isPose {p : BPose} (h : IsPose p) : star (toQuat p.rot) * toQuat p.rot = 1 := by
  have hn : normSq (toQuat p.rot) = 1 := by
    rw [normSq_def']
    unfold IsPose at h
    simp only [toQuat]
    linear_combination h
  rw [star_mul_self, hn]; rfl

theorem placedBullet_eq (p : BPose) (v : Vec 3) : placedBullet p v = p.pos + rotate (toQuat p.rot) v := by
  rw [rotate_eq]; rfl

/-- **C89.** The models of PyBullet's `multiplyTransforms` and `invertTransform` are the composition and the inverse of rigid
transformations. -/
theorem C89_transforms (a b : BPose) :
    (placedBullet (multiplyTransforms a b) = placedBullet a ∘ placedBullet b) ∧
    (IsPose a → placedBullet (invertTransform a) ∘ placedBullet a = id ∧
      placedBullet a ∘ placedBullet (invertTransform a) = id) := by
  refine ⟨?_, fun h => ⟨?_, ?_⟩⟩
  · funext v
    simp only [Function.comp, placedBullet_eq, multiplyTransforms, toQuat_ofQuat, rotate_mul, rotate_add, add_assoc]
  · funext v
    simp only [Function.comp, placedBullet_eq, invertTransform, toQuat_ofQuat, rotate_add, ← rotate_mul,
      star_mul_of_isPose h, rotate_one, id]
    abel
  · funext v
    simp only [Function.comp, placedBullet_eq, invertTransform, toQuat_ofQuat, rotate_add, rotate_neg, ← rotate_mul,
      mul_star_of_isPose h, rotate_one, id]
    abel

/-- Poses that are multiplied with the base pose and then with its inverse do not change. -/
theorem multiply_cancel {base : BPose} (h : IsPose base) (p : BPose) :
    multiplyTransforms (multiplyTransforms p base) (invertTransform base) = p := by
  rcases p with ⟨pos, rot⟩
  simp only [multiplyTransforms, invertTransform, toQuat_ofQuat, mul_assoc, mul_star_of_isPose h, mul_one, ofQuat_toQuat,
    rotate_neg, rotate_mul, BPose.mk.injEq, and_true]
  rw [← rotate_mul (toQuat base.rot), mul_star_of_isPose h, rotate_one]
  abel

/-- **C89.** For `UR5Simulation` commands and measurements are consistent: when the end effector has the pose that inverse
kinematics was asked for, `get_ee_state` returns the pose that was passed to `inverse_kinematics`, for every base pose. -/
theorem C89_commanded_pose_is_measured (u : UR5) (b : Bullet R) (hb : IsPose u.basePose) (x : Vec 7) (w : World R)
    (h : b.linkPose w u.eeLink = u.ikTarget x) : u.poseOf b w = x := by
  unfold UR5.poseOf
  rw [h, UR5.ikTarget, multiply_cancel hb]
  exact (C89_conversions x u.basePose).2.2.1

theorem multiply_identity (p : BPose) : multiplyTransforms p (invertTransform identityPose) = p := by
  have h1 : toQuat identityPose.rot = 1 := by ext <;> simp [toQuat, identityPose]
  rcases p with ⟨pos, rot⟩
  simp only [multiplyTransforms, invertTransform, h1, star_one, rotate_one, toQuat_ofQuat, mul_one, ofQuat_toQuat,
    BPose.mk.injEq, and_true, rotate_neg]
  have : rotate (toQuat rot) identityPose.pos = 0 := by
    funext i; fin_cases i <;> simp [rotate_apply, turnedBy, identityPose]
  rw [this]; simp

/-- **C89.** When the base of the robot is at the origin of the world, `get_ee_state` returns pose and linear velocity of the
end effector in the world (and angular velocity 0, whatever it is). -/
theorem C89_identity_base (u : UR5) (b : Bullet R) (hu : u.basePose = identityPose) (w : World R) :
    placed (u.poseOf b w) = placedBullet (b.linkPose w u.eeLink) ∧
    u.velocityOf b w =
      ![b.linkVelocity w u.eeLink 0, b.linkVelocity w u.eeLink 1, b.linkVelocity w u.eeLink 2, 0, 0, 0] := by
  unfold UR5.poseOf UR5.velocityOf
  rw [hu]
  constructor
  · rw [multiply_identity, (C89_conversions 0 _).2.1]
  · rw [multiply_identity]

/-- **C89.** `RH5Simulation.get_ee_state` returns the poses of the left and of the right end effector in the world, in this
order. With `return_velocity` it raises NotImplementedError. -/
theorem C89_rh5 (r : RH5) (b : Bullet R) (w : RH5World R) :
    (∃ x, (r.getEeState b false).exec w = (.ok x, w) ∧
      placed (fun i => x (Fin.castAdd 7 i)) = placedBullet (b.linkPose w.robot r.leftEe) ∧
      placed (fun i => x (Fin.natAdd 7 i)) = placedBullet (b.linkPose w.robot r.rightEe)) ∧
    (r.getEeState b true).exec w = (.error .notImplementedError, w) := by
  refine ⟨⟨r.poseOf b w.robot, rfl, ?_, ?_⟩, rfl⟩
  · rw [← (C89_conversions 0 _).2.1]
    congr 1
    funext i
    rw [RH5.poseOf, Fin.append_left, RH5.armPose, multiply_identity]
  · rw [← (C89_conversions 0 _).2.1]
    congr 1
    funext i
    rw [RH5.poseOf, Fin.append_right, RH5.armPose, multiply_identity]

/-- **C89 (finding).** The pose of `UR5Simulation.get_ee_state` is not the pose relative to the base: for a base at position
`t` that is not rotated the point `v` of the end effector is at `link(v - t)`, and not at `link(v) - t`. They agree
only if the orientation of the end effector leaves `t` unchanged. -/
theorem C89_finding_base_frame (u : UR5) (b : Bullet R) (hu : u.basePose.rot = ![0, 0, 0, 1]) (w : World R) :
    (∀ v, placed (u.poseOf b w) v = placedBullet (b.linkPose w u.eeLink) (v - u.basePose.pos)) ∧
    ((∀ v, placed (u.poseOf b w) v = placedBullet (b.linkPose w u.eeLink) v - u.basePose.pos) ↔
      placedBullet (b.linkPose w u.eeLink) u.basePose.pos = (b.linkPose w u.eeLink).pos + u.basePose.pos) := by
  have h1 : toQuat u.basePose.rot = 1 := by rw [hu]; ext <;> simp [toQuat]
  have key : ∀ v, placed (u.poseOf b w) v = placedBullet (b.linkPose w u.eeLink) (v - u.basePose.pos) := by
    intro v
    rw [UR5.poseOf, (C89_conversions 0 _).2.1, (C89_transforms _ _).1, Function.comp]
    congr 1
    rw [placedBullet_eq, invertTransform]
    simp only [h1, star_one, rotate_one, toQuat_ofQuat]
    abel
  refine ⟨key, ?_⟩
  have hsub : ∀ v, placedBullet (b.linkPose w u.eeLink) (v - u.basePose.pos) =
      placedBullet (b.linkPose w u.eeLink) v - (placedBullet (b.linkPose w u.eeLink) u.basePose.pos -
        (b.linkPose w u.eeLink).pos) := by
    intro v
    simp only [placedBullet_eq, sub_eq_add_neg, rotate_add, rotate_neg]
    abel
  constructor
  · intro h
    have := h 0
    rw [key, hsub] at this
    have h2 := sub_right_injective this
    rw [sub_eq_iff_eq_add] at h2
    rw [h2]; abel
  · intro h v
    rw [key, hsub, h]
    congr 1
    abel

/-- An end effector that is turned upside down, 1 above the floor, at a base 1 above the floor. -/
example : ∃ (u : UR5) (b : Bullet Unit) (w : World Unit), u.basePose.rot = ![0, 0, 0, 1] ∧
    placed (u.poseOf b w) 0 = ![0, 0, 2] ∧ placedBullet (b.linkPose w u.eeLink) 0 - u.basePose.pos = ![0, 0, 0] := by
  refine ⟨⟨1, 0, ⟨![0, 0, 1], ![0, 0, 0, 1]⟩, 0, []⟩,
    ⟨fun _ => true, id, fun _ _ => ⟨![0, 0, 1], ![1, 0, 0, 0]⟩, fun _ _ => 0, fun _ _ _ => .ok []⟩,
    ⟨0, 0, fun _ => none, ()⟩, rfl, ?_, ?_⟩
  · rw [(C89_finding_base_frame _ _ rfl _).1]
    funext i
    fin_cases i <;> (simp [placedBullet, turnedBy]; try norm_num)
  · funext i
    fin_cases i <;> simp [placedBullet, turnedBy]

/-- **C89 (finding).** The velocity of `UR5Simulation.get_ee_state` is wrong by a constant: for a robot that does not move it is 0
if and only if the base is at the origin. -/
theorem C89_finding_velocity (u : UR5) (b : Bullet R) (hb : IsPose u.basePose) (w : World R)
    (hrest : b.linkVelocity w u.eeLink = 0) : u.velocityOf b w = 0 ↔ u.basePose.pos = 0 := by
  have h1 : toQuat ![(0 : ℝ), 0, 0, 1] = 1 := by ext <;> simp [toQuat]
  have hv : (multiplyTransforms { pos := b.linkVelocity w u.eeLink, rot := ![0, 0, 0, 1] }
      (invertTransform u.basePose)).pos = -rotate (star (toQuat u.basePose.rot)) u.basePose.pos := by
    simp only [multiplyTransforms, hrest, h1, rotate_one, zero_add, invertTransform]
  have hz : rotate (star (toQuat u.basePose.rot)) u.basePose.pos = 0 ↔ u.basePose.pos = 0 := by
    constructor
    · intro h
      have := congrArg (rotate (toQuat u.basePose.rot)) h
      rw [← rotate_mul, mul_star_of_isPose hb, rotate_one] at this
      rw [this]
      funext i; fin_cases i <;> simp [rotate_apply, turnedBy]
    · intro h; rw [h]; funext i; fin_cases i <;> simp [rotate_apply, turnedBy]
  unfold UR5.velocityOf
  rw [hv, ← hz]
  constructor
  · intro h
    funext i
    fin_cases i
    · simpa using congrFun h 0
    · simpa using congrFun h 1
    · simpa using congrFun h 2
  · intro h
    rw [h]
    funext i; fin_cases i <;> simp

example : IsPose identityPose ∧ IsPose ⟨![0, 0, 1], ![0, 0, 0, 1]⟩ := by
  constructor <;> simp [IsPose, identityPose]

end Verif.Sim
