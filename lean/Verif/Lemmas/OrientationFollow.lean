import Verif.Lemmas.OrientationTracking
import Verif.Props.CartesianReproduction

/-! # Orientations of Cartesian DMPs follow a movement -/

namespace Verif
open Spec Quaternion Set

variable {m : ℕ}

/-- The force that makes the orientation of a Cartesian DMP follow a movement with the rotation vectors `a` to the goal, angular
velocities `w` and accelerations `acc`; `a₀` is the rotation vector from the start to the goal and `z` the phase. -/
noncomputable def demandedTorque (α β : Vec 3) (τ : ℝ) (sm : Bool) (z : ℝ → ℝ) (a₀ : Vec 3) (a w acc : ℝ → Vec 3) (t : ℝ) :
    Vec 3 := fun k =>
  τ ^ 2 * acc t k - α k * (β k * a t k - τ * w t k - (if sm then β k * a₀ k * z t else 0))

/-- Stiffness of the orientation dynamics. -/
noncomputable def stiffness (α β : Vec 3) (τ : ℝ) : Vec 3 := fun k => α k * β k / τ ^ 2

/-- Damping of the orientation dynamics. -/
noncomputable def damping3 (α : Vec 3) (τ : ℝ) : Vec 3 := fun k => α k / τ

/-- What an orientation step function computes. -/
structure FollowArgs {m : ℕ} (args : QuatStepArgs m) (g start : Vec 4) (α β : Vec 3) (τ R : ℝ) (sm : Bool) (z : ℝ → ℝ) : Prop where
  coupling : args.coupling = none
  precomputed : args.precomputed = none
  goal : args.goalY = g
  start : args.startY = start
  alpha : args.alphaY = α
  beta : args.betaY = β
  startT : args.startT = 0
  goalT : args.goalT = τ
  smooth : args.smooth = sm
  phase : ∀ t ∈ Icc 0 R, args.ft.phaseAt t = z t

/-- States computed by an orientation step function follow the movement if the forces are close to the demanded ones. -/
theorem Spec.OrientationMovement.follow {R : ℝ} {q : ℝ → Vec 4} {w acc : ℝ → Vec 3} (h : OrientationMovement 0 R q w acc)
    {g start : Vec 4} (hg : UnitQuat g) (hstart : UnitQuat start) {a : ℝ → Vec 3} {a₀ : Vec 3} {c : ℝ} (hc : 0 < c)
    (ha : ∀ t ∈ Icc 0 R, IsRotationTo g (q t) (a t)) (hca : ∀ t ∈ Icc 0 R, c ≤ Real.cos (length (a t) / 2))
    (ha₀ : IsRotationTo g start a₀) (hca₀ : c ≤ Real.cos (length a₀ / 2)) (α β : Vec 3) {τ : ℝ} (hτ : 0 < τ) (sm : Bool)
    {z : ℝ → ℝ} (hz : ∀ t ∈ Icc 0 R, |z t| ≤ 1) :
    ∃ M, 0 < M ∧ ∀ η > 0, ∃ H > 0, ∀ (m : ℕ) (args : QuatStepArgs m), FollowArgs args g start α β τ R sm z →
      ∀ (qf : QuatStepFunction) (eps : ℝ), StepThreshold qf eps → ∀ (Ψ : ℝ → ℝ) (H' : ℝ), H' ≤ H →
      (∀ s t, 0 ≤ s → s ≤ t → t ≤ R → Ψ s ≤ Ψ t) →
      (∀ s t, 0 ≤ s → s < t → t ≤ R → t - s ≤ H' →
        (t - s) * length (args.ft.call t - demandedTorque α β τ sm z a₀ a w acc t) ≤ Ψ t - Ψ s) →
      ∀ dt : ℝ, 0 < dt → 0 < args.intDt → min args.intDt dt ≤ H' → ∀ xs : ℕ → Vec 4 × Vec 3, UnitQuat (xs 0).1 →
      (∀ i : ℕ, qf.run args (0 + i * dt) (0 + (i + 1) * dt) (xs i) = .ok (xs (i + 1))) →
      ∀ i : ℕ, i * dt ≤ R → UnitQuat (xs i).1 ∧ stateError (xs i) (q (i * dt)) (w (i * dt)) ≤
        M * (stateError (xs 0) (q 0) (w 0) + η + eps + (Ψ R - Ψ 0)) := by
  have hπ := Real.pi_pos
  obtain ⟨M, hM0, hM⟩ := h.run_error hg (stiffness α β τ) (damping3 α τ) hc ha hca
  set κ := |stiffness α β τ 0| + |stiffness α β τ 1| + |stiffness α β τ 2| with hκ
  have hκ0 : 0 ≤ κ := by positivity
  have hKk : ∀ k, |stiffness α β τ k| ≤ κ := by
    intro k
    have h0 := abs_nonneg (stiffness α β τ 0)
    have h1 := abs_nonneg (stiffness α β τ 1)
    have h2 := abs_nonneg (stiffness α β τ 2)
    fin_cases k
    · show |stiffness α β τ 0| ≤ κ; linarith
    · show |stiffness α β τ 1| ≤ κ; linarith
    · show |stiffness α β τ 2| ≤ κ; linarith
  set B := 1 + κ * Real.pi * |R| + 1 / τ ^ 2 with hB
  have hB1 : 1 ≤ B := by
    have h1 : 0 ≤ κ * Real.pi * |R| := by positivity
    have h2 : 0 ≤ 1 / τ ^ 2 := by positivity
    linarith
  refine ⟨M * B, by positivity, fun η hη => ?_⟩
  obtain ⟨H, hH0, hH⟩ := hM η hη
  refine ⟨H, hH0, ?_⟩
  intro m args hargs qf eps hqf Ψ H' hH' hΨ hF dt hdt hint hmin xs hx0 hxs
  obtain ⟨heps, hops⟩ := stepThreshold_lawful hqf
  have hT : args.startT < args.goalT := by rw [hargs.startT, hargs.goalT]; exact hτ
  have hdiff := diff_close hops heps hg hstart ha₀ hc hca₀
  rw [sub_self, norm_zero, mul_zero, add_zero] at hdiff
  -- difference between actual and required accelerations
  have hacc : ∀ t ∈ Icc 0 R, length (args.forcing qf.quatOps t -
      requiredAcceleration (stiffness α β τ) (damping3 α τ) a w acc t) ≤
      length (args.ft.call t - demandedTorque α β τ sm z a₀ a w acc t) / τ ^ 2 + κ * (Real.pi * eps) := by
    intro t ht
    have e : args.forcing qf.quatOps t - requiredAcceleration (stiffness α β τ) (damping3 α τ) a w acc t =
        (1 / τ ^ 2) • (args.ft.call t - demandedTorque α β τ sm z a₀ a w acc t) +
          (-(if sm then z t else 0)) • (fun k => stiffness α β τ k * (QuatStepArgs.diff qf.quatOps g start - a₀) k) := by
      funext k
      simp only [QuatStepArgs.forcing, requiredAcceleration, demandedTorque, stiffness, damping3, hargs.goal, hargs.start,
        hargs.alpha, hargs.beta, hargs.startT, hargs.goalT, hargs.smooth, hargs.phase t ht, Pi.sub_apply, Pi.add_apply,
        Pi.smul_apply, smul_eq_mul, sub_zero]
      cases sm
      · simp only [Bool.false_eq_true, if_false]; field_simp; ring
      · simp only [if_true]; field_simp; ring
    rw [e]
    refine (length_add_le _ _).trans ?_
    rw [length_smul, length_smul, abs_of_pos (by positivity), abs_neg]
    have h1 : |if sm then z t else 0| ≤ 1 := by
      cases sm
      · simp
      · simpa using hz t ht
    have h2 := (length_mul_le hκ0 hKk (QuatStepArgs.diff qf.quatOps g start - a₀)).trans (mul_le_mul_of_nonneg_left hdiff hκ0)
    have h3 := mul_le_mul h1 h2 (length_nonneg _) zero_le_one
    rw [one_mul] at h3
    rw [one_div, inv_mul_eq_div]
    linarith
  have hxs' : ∀ i : ℕ, xs (i + 1) = (subSteps args.intDt (0 + (i + 1) * dt) (0 + i * dt)).foldl
      (fun x p => axisBody qf.quatOps g (stiffness α β τ) (damping3 α τ) p.1 (args.forcing qf.quatOps p.2) x) (xs i) := by
    intro i
    have h1 := hxs i
    have hpos : 0 < ((i : ℝ) + 1) * dt := by positivity
    rw [QuatStepFunction.run_eq hargs.coupling hargs.precomputed hT hint (by rw [hargs.startT]; linarith)] at h1
    injection h1 with h1
    rw [← h1]
    simp only [args.update_axis qf.quatOps hT]
    rw [hargs.goal, hargs.alpha, hargs.beta, hargs.startT, hargs.goalT, sub_zero]
    rfl
  have hΨ' : ∀ s t, 0 ≤ s → s ≤ t → t ≤ R → Ψ s / τ ^ 2 + κ * (Real.pi * eps) * s ≤ Ψ t / τ ^ 2 + κ * (Real.pi * eps) * t := by
    intro s t hs hst ht
    have h1 := div_le_div_of_nonneg_right (hΨ s t hs hst ht) (show 0 ≤ τ ^ 2 by positivity)
    have h2 := mul_le_mul_of_nonneg_left hst (show 0 ≤ κ * (Real.pi * eps) by positivity)
    linarith
  intro i hi
  have key := hH qf.quatOps eps hops heps (args.forcing qf.quatOps) (fun t => Ψ t / τ ^ 2 + κ * (Real.pi * eps) * t) H' hH' hΨ'
    (fun s t hs hst ht hle => by
      have h1 := hacc t ⟨by linarith, ht⟩
      have h2 := hF s t hs hst ht hle
      have h3 := mul_le_mul_of_nonneg_left h1 (show 0 ≤ t - s by linarith)
      have h4 := div_le_div_of_nonneg_right h2 (show 0 ≤ τ ^ 2 by positivity)
      show _ ≤ Ψ t / τ ^ 2 + κ * (Real.pi * eps) * t - (Ψ s / τ ^ 2 + κ * (Real.pi * eps) * s)
      refine h3.trans ?_
      rw [mul_add, mul_div_assoc'] 
      rw [sub_div] at h4
      linarith) dt args.intDt hdt hint hmin xs hx0 hxs' i (by linarith)
  rw [zero_add] at key
  refine ⟨key.1, key.2.trans ?_⟩
  have hiR : 0 ≤ R := le_trans (by positivity) hi
  have hΨR := hΨ 0 R le_rfl hiR le_rfl
  have hE0 := stateError_nonneg (xs 0) (q 0) (w 0)
  rw [mul_assoc M B]
  apply mul_le_mul_of_nonneg_left _ hM0.le
  have e : Ψ R / τ ^ 2 + κ * (Real.pi * eps) * R - (Ψ 0 / τ ^ 2 + κ * (Real.pi * eps) * 0) =
      (Ψ R - Ψ 0) * (1 / τ ^ 2) + κ * Real.pi * R * eps := by ring
  rw [e]
  rw [hB, abs_of_nonneg hiR]
  have p1 : 0 ≤ κ * Real.pi * R := by positivity
  have p2 : 0 ≤ 1 / τ ^ 2 := by positivity
  have p3 : 0 ≤ (κ * Real.pi * R + 1 / τ ^ 2) * (stateError (xs 0) (q 0) (w 0) + η) := by positivity
  have p4 : 0 ≤ 1 / τ ^ 2 * eps := by positivity
  have p5 : 0 ≤ (1 + κ * Real.pi * R) * (Ψ R - Ψ 0) := by
    have : 0 ≤ Ψ R - Ψ 0 := by linarith
    positivity
  have e2 : (1 + κ * Real.pi * R + 1 / τ ^ 2) * (stateError (xs 0) (q 0) (w 0) + η + eps + (Ψ R - Ψ 0)) =
      stateError (xs 0) (q 0) (w 0) + η + eps + (Ψ R - Ψ 0) * (1 / τ ^ 2) + κ * Real.pi * R * eps +
      (κ * Real.pi * R + 1 / τ ^ 2) * (stateError (xs 0) (q 0) (w 0) + η) + 1 / τ ^ 2 * eps +
      (1 + κ * Real.pi * R) * (Ψ R - Ψ 0) := by ring
  linarith

/-- Coordinates and angles of orientations. -/
theorem orientation_close {x : Vec 4 × Vec 3} {q : Vec 4} {w : Vec 3} (hx : UnitQuat x.1) (hq : UnitQuat q) {δ : ℝ}
    (h : stateError x q w ≤ δ) :
    rotationAngle x.1 q ≤ Real.pi * δ ∧ (∀ k, |x.1 k - q k| ≤ δ) ∧ ∀ k, |x.2 k - w k| ≤ δ := by
  have hπ := Real.pi_pos
  have h1 : ‖quat x.1 - quat q‖ ≤ δ := by
    have := length_nonneg (x.2 - w)
    unfold stateError at h
    linarith
  have h2 : length (x.2 - w) ≤ δ := by
    have := norm_nonneg (quat x.1 - quat q)
    unfold stateError at h
    linarith
  have hδ : 0 ≤ δ := (norm_nonneg _).trans h1
  refine ⟨?_, fun k => ?_, fun k => ?_⟩
  · obtain ⟨b, hl, hb, -⟩ := exists_rotation lawful_cython (by norm_num) hx hq
    rw [← hl]
    have hbπ : length b ≤ Real.pi := by
      rw [hl]; unfold rotationAngle
      have := Real.arccos_le_pi_div_two.2 (abs_nonneg (∑ i, x.1 i * q i))
      linarith
    have h0 : length (0 : Vec 3) = 0 := length_eq_zero.2 rfl
    have h3 := length_sub_le_rot hbπ (by rw [h0]; exact hπ.le)
    have hr0 : rot 0 = 1 := by
      have : Spec.pure 0 = 0 := by ext <;> simp
      unfold rot; rw [this]; simp
    rw [sub_zero, hr0] at h3
    refine h3.trans (mul_le_mul_of_nonneg_left ?_ hπ.le)
    refine le_trans ?_ h1
    have hqq : quat q * star (quat q) = 1 := by
      rw [Quaternion.self_mul_star, (isUnit_iff_normSq q).1 hq]; simp
    have e : ‖quat x.1 * star (quat q) - 1‖ = ‖quat x.1 - quat q‖ := by
      rw [← hqq, ← sub_mul, norm_mul, norm_star, norm_quat hq, mul_one]
    rw [← e]
    rcases hb with hb | hb
    · rw [hb]; exact le_rfl
    · rw [hb]
      apply le_of_sq_le_sq _ (norm_nonneg _)
      rw [sq, sq, ← normSq_eq_norm_mul_self, ← normSq_eq_norm_mul_self, normSq_def', normSq_def']
      have hre : 0 ≤ (rot b).re := by
        unfold rot; rw [exp_half]
        exact Real.cos_nonneg_of_mem_Icc ⟨by linarith [length_nonneg b], by linarith⟩
      show ((rot b).re - 1) ^ 2 + ((rot b).imI - 0) ^ 2 + ((rot b).imJ - 0) ^ 2 + ((rot b).imK - 0) ^ 2 ≤
        (-(rot b).re - 1) ^ 2 + (-(rot b).imI - 0) ^ 2 + (-(rot b).imJ - 0) ^ 2 + (-(rot b).imK - 0) ^ 2
      nlinarith
  · refine le_trans ?_ h1
    apply abs_le_of_sq_le_sq _ (norm_nonneg _)
    rw [sq ‖_‖, ← normSq_eq_norm_mul_self, normSq_def']
    show (x.1 k - q k) ^ 2 ≤ (x.1 0 - q 0) ^ 2 + (x.1 1 - q 1) ^ 2 + (x.1 2 - q 2) ^ 2 + (x.1 3 - q 3) ^ 2
    have h0 := sq_nonneg (x.1 0 - q 0)
    have h3 := sq_nonneg (x.1 1 - q 1)
    have h4 := sq_nonneg (x.1 2 - q 2)
    have h5 := sq_nonneg (x.1 3 - q 3)
    fin_cases k
    · show (x.1 0 - q 0) ^ 2 ≤ _; linarith
    · show (x.1 1 - q 1) ^ 2 ≤ _; linarith
    · show (x.1 2 - q 2) ^ 2 ≤ _; linarith
    · show (x.1 3 - q 3) ^ 2 ≤ _; linarith
  · refine le_trans ?_ h2
    apply abs_le_of_sq_le_sq _ (length_nonneg _)
    rw [length_sq]
    show (x.2 k - w k) ^ 2 ≤ (x.2 0 - w 0) ^ 2 + (x.2 1 - w 1) ^ 2 + (x.2 2 - w 2) ^ 2
    have h0 := sq_nonneg (x.2 0 - w 0)
    have h3 := sq_nonneg (x.2 1 - w 1)
    have h4 := sq_nonneg (x.2 2 - w 2)
    fin_cases k
    · show (x.2 0 - w 0) ^ 2 ≤ _; linarith
    · show (x.2 1 - w 1) ^ 2 ≤ _; linarith
    · show (x.2 2 - w 2) ^ 2 ≤ _; linarith

end Verif
