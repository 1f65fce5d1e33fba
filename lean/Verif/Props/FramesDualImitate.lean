import Verif.Props.FramesDual
import Verif.Props.ConstantDemonstrations
import Verif.Props.Frames

/-! # C72, C73: imitation with dual-arm DMPs in other frames -/

namespace Verif
open Spec Quaternion
variable {m n : ℕ}

/-- `imitate` in other frames, if the forces of the demonstration are mapped linearly. -/
theorem DualCartesianDMP.frame_imitate {s : DualCartesianDMP m} (hs : s.Valid) {F : DualFrame}
    {L M : Fin 2 → Vec 3 →ₗ[ℝ] Vec 3} (hL : ∀ arm x, F.P arm x = L arm x) (hM : ∀ arm x, F.Q arm x = M arm x) (ops : QuatOps)
    (qgrad : (Fin (n + 2) → Vec 4) → Fin (n + 2) → Vec 3) (T : Fin (n + 2) → ℝ) (Y : Fin (n + 2) → Vec 14) (reg : ℝ) (afv : Bool)
    (hpos : ∀ arm t, determineForces T (fun t => F.P arm (armPos arm (Y t)) + F.b arm) (armLin arm s.alphaY) (armLin arm s.betaY)
        s.ft.alphaZ afv s.smooth t =
      L arm (determineForces T (fun t => armPos arm (Y t)) (armLin arm s.alphaY) (armLin arm s.betaY) s.ft.alphaZ afv s.smooth t))
    (hrot : ∀ arm t, determineForcesQuaternion ops qgrad T (fun t => F.R arm (armRot arm (Y t))) (armAng arm s.alphaY)
        (armAng arm s.betaY) s.ft.alphaZ afv s.smooth t =
      M arm (determineForcesQuaternion ops qgrad T (fun t => armRot arm (Y t)) (armAng arm s.alphaY) (armAng arm s.betaY)
        s.ft.alphaZ afv s.smooth t)) :
    (DualCartesianDMP.imitate ops qgrad T (fun t => F.state (Y t)) reg afv).exec (s.inFrame F) =
      let q := (DualCartesianDMP.imitate ops qgrad T Y reg afv).exec s
      (q.1, q.2.inFrame F) := by
  by_cases hc : reg < 0 ∨ T (Fin.last _) ≤ T 0
  · rw [C28_dual_raises _ ops qgrad T _ reg afv hc, C28_dual_raises s ops qgrad T Y reg afv hc]
  · push Not at hc
    obtain ⟨ft, hft, h1⟩ := DualCartesianDMP.exec_imitate_ok hs ops qgrad T Y hc.1 hc.2 afv
    obtain ⟨ft', hft', h2⟩ := DualCartesianDMP.exec_imitate_ok (s := s.inFrame F) ⟨hs.1, hs.2⟩ ops qgrad T
      (fun t => F.state (Y t)) hc.1 hc.2 afv
    obtain rfl : ft = ft' := Except.ok.inj (hft.symm.trans hft')
    rw [h1, h2]
    simp only [DualCartesianDMP.inFrame, DualFrame.armPos_state, DualFrame.armRot_state]
    rw [Prod.mk.injEq]
    refine ⟨rfl, ?_⟩
    congr 2
    funext j i
    rw [DualFrame.vel]
    congr 1
    · funext arm k
      rw [armLinear_eq, armLin_joinVel, hL, ← ridge_map]
      congr 2
      funext t
      exact hpos arm t
    · funext arm k
      rw [armAngular_eq, armAng_joinVel, hM, ← ridge_map]
      congr 2
      funext t
      exact hrot arm t

/-- **C72 (two arms, imitate).** A demonstration that refers to other frames fixed to the bodies gives the same weights, and start
and goal in the new frames. `quaternion_gradient` of pytransform3d must not depend on the body frame for the demonstration; see
`C72_quaternion_gradient`. -/
theorem C72_dual_imitate {s : DualCartesianDMP m} (hs : s.Reachable) {ops : QuatOps} {eps : ℝ} (h : LawfulQuatOps ops eps)
    {qgrad : (Fin (n + 2) → Vec 4) → Fin (n + 2) → Vec 3} {r : Fin 2 → Vec 4} (hr : ∀ arm, UnitQuat (r arm))
    (T : Fin (n + 2) → ℝ) (Y : Fin (n + 2) → Vec 14) (hY : ∀ arm t, UnitQuat (armOrientation arm (Y t)))
    (hq : ∀ arm, qgrad (fun t => turned (r arm) (armOrientation arm (Y t))) = qgrad (fun t => armOrientation arm (Y t)))
    (reg : ℝ) (afv : Bool) :
    (DualCartesianDMP.imitate ops qgrad T (fun t => (DualFrame.body r).state (Y t)) reg afv).exec (s.inFrame (.body r)) =
      let q := (DualCartesianDMP.imitate ops qgrad T Y reg afv).exec s
      (q.1, q.2.inFrame (.body r)) := by
  simp only [armOrientation_eq] at hY hq
  refine DualCartesianDMP.frame_imitate hs.valid (L := fun _ => LinearMap.id) (M := fun _ => LinearMap.id) (fun _ _ => rfl)
    (fun _ _ => rfl) ops qgrad T Y reg afv (fun arm t => ?_) (fun arm t => ?_)
  · simp only [DualFrame.body, id, Pi.zero_apply, add_zero, LinearMap.id_apply]
  · exact congrFun (determineForcesQuaternion_turn h (hr arm) T (hY arm) (hq arm) (armAng arm s.alphaY) (armAng arm s.betaY)
      s.ft.alphaZ afv s.smooth) t

/-- **C73 (two arms, imitate).** A demonstration in another world frame gives the object in this world frame: the learned weights
are rotated. `quaternion_gradient` must be rotated with the frame; see `C72_quaternion_gradient`. -/
theorem C73_dual_imitate {s : DualCartesianDMP m} (hs : s.Reachable) {ops : QuatOps} {eps : ℝ} (h : LawfulQuatOps ops eps)
    (hlog : LogRotates ops) {αl βl αr βr : Fin 2 → ℝ} (h1 : ∀ arm k, armLinear arm s.alphaY k = αl arm)
    (h2 : ∀ arm k, armLinear arm s.betaY k = βl arm) (h3 : ∀ arm k, armAngular arm s.alphaY k = αr arm)
    (h4 : ∀ arm k, armAngular arm s.betaY k = βr arm) {p : Fin 2 → Vec 4} (hp : ∀ arm, UnitQuat (p arm)) (b : Fin 2 → Vec 3)
    {qgrad : (Fin (n + 2) → Vec 4) → Fin (n + 2) → Vec 3} (T : Fin (n + 2) → ℝ) (Y : Fin (n + 2) → Vec 14)
    (hY : ∀ arm t, UnitQuat (armOrientation arm (Y t)))
    (hq : ∀ arm t, qgrad (fun t => turnedWorld (p arm) (armOrientation arm (Y t))) t =
      rotated (p arm) (qgrad (fun t => armOrientation arm (Y t)) t))
    (reg : ℝ) (afv : Bool) :
    (DualCartesianDMP.imitate ops qgrad T (fun t => (DualFrame.world p b).state (Y t)) reg afv).exec (s.inFrame (.world p b)) =
      let q := (DualCartesianDMP.imitate ops qgrad T Y reg afv).exec s
      (q.1, q.2.inFrame (.world p b)) := by
  simp only [armOrientation_eq] at hY hq
  simp only [armLinear_eq] at h1 h2
  simp only [armAngular_eq] at h3 h4
  refine DualCartesianDMP.frame_imitate hs.valid (L := fun arm => rotL (p arm)) (M := fun arm => rotL (p arm)) (fun _ _ => rfl)
    (fun _ _ => rfl) ops qgrad T Y reg afv (fun arm t => ?_) (fun arm t => ?_)
  · have := determineForces_map (rotL (p arm)) (b arm) T (fun t => armPos arm (Y t)) (h1 arm) (h2 arm) s.ft.alphaZ afv s.smooth t
    rw [← show armLin arm s.alphaY = fun _ => αl arm from funext (h1 arm), ← show armLin arm s.betaY = fun _ => βl arm from
      funext (h2 arm)] at this
    exact this
  · exact determineForcesQuaternion_world h hlog (hp arm) T (hY arm) (hq arm) (h3 arm) (h4 arm) s.ft.alphaZ afv s.smooth t

/-- The hypotheses can be met: a new dual-arm DMP with scalar gains, the functions of pytransform3d, and any demonstration of
unit quaternions. -/
example {r : Fin 2 → Vec 4} (hr : ∀ arm, UnitQuat (r arm)) (Y : Fin (n + 2) → Vec 14)
    (hY : ∀ arm t, UnitQuat (armOrientation arm (Y t))) :
    let ops := QuatOps.python (1 / 10 ^ 7)
    LawfulQuatOps ops (1 / 10 ^ 7) ∧ LogRotates ops ∧
    (∀ arm, quaternionGradient ops (fun t => turned (r arm) (armOrientation arm (Y t))) =
      quaternionGradient ops (fun t => armOrientation arm (Y t))) ∧
    (∀ arm t, quaternionGradient ops (fun t => turnedWorld (r arm) (armOrientation arm (Y t))) t =
      rotated (r arm) (quaternionGradient ops (fun t => armOrientation arm (Y t)) t)) ∧
    ∃ s : DualCartesianDMP 5, s.Reachable ∧ (∀ arm k, armLinear arm s.alphaY k = 25) ∧
      (∀ arm k, armLinear arm s.betaY k = 25 / 4) ∧ (∀ arm k, armAngular arm s.alphaY k = 25) ∧
      ∀ arm k, armAngular arm s.betaY k = 25 / 4 := by
  intro ops
  have hl : LawfulQuatOps ops (1 / 10 ^ 7) := lawful_python (by norm_num)
  refine ⟨hl, logRotates_python _, fun arm => (C72_quaternion_gradient hl (hr arm) _ (hY arm)).1,
    fun arm => (C72_quaternion_gradient hl (hr arm) _ (hY arm)).2 (logRotates_python _), ?_⟩
  obtain ⟨s0, h0, h1⟩ := DualCartesianDMP.create_ok 5 (by norm_num) (τ := 2) (by norm_num) (1 / 100) (1 / 1000) 0 true 25
    (25 / 4)
  obtain ⟨-, -, -, -, -, -, hα, hβ, -, -⟩ := h1
  exact ⟨s0, .create h0, fun arm k => by rw [armLinear_eq]; simp only [hα]; rfl,
    fun arm k => by rw [armLinear_eq]; simp only [hβ]; rfl, fun arm k => by rw [armAngular_eq]; simp only [hα]; rfl,
    fun arm k => by rw [armAngular_eq]; simp only [hβ]; rfl⟩

end Verif
