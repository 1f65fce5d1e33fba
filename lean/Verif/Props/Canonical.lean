import Verif.Model.Forcing
import Mathlib.Analysis.SpecialFunctions.Exp
import Mathlib.Analysis.SpecialFunctions.ExpDeriv
import Mathlib.Tactic.Linarith
import Mathlib.Tactic.FieldSimp
import Mathlib.Tactic.Positivity
import Mathlib.Tactic.NormNum

/-! # C01, C02: phase variable -/

namespace Verif
open Filter Topology

theorem canonicalSystemAlpha_ok {goalZ goalT startT alpha : ℝ}
    (h : canonicalSystemAlpha goalZ goalT startT = .ok alpha) :
    0 < goalZ ∧ startT < goalT ∧ alpha = -Real.log goalZ := by
  unfold canonicalSystemAlpha at h
  split_ifs at h with h1 h2
  refine ⟨not_le.1 h1, not_le.1 h2, ?_⟩
  injection h with h; exact h.symm

/-- **C01.** For every accepted `goal_z < 1`, the phase is 1 at the start, `goal_z` at the goal time, strictly
decreasing, in `(0, 1]` from the start on, and tends to 0. -/
theorem C01_phase {goalZ goalT startT alpha : ℝ}
    (h : canonicalSystemAlpha goalZ goalT startT = .ok alpha) (hz : goalZ < 1) :
    phase startT alpha goalT startT = 1 ∧
    phase goalT alpha goalT startT = goalZ ∧
    StrictAnti (fun t => phase t alpha goalT startT) ∧
    (∀ t, startT ≤ t → 0 < phase t alpha goalT startT ∧ phase t alpha goalT startT ≤ 1) ∧
    Tendsto (fun t => phase t alpha goalT startT) atTop (𝓝 0) := by
  obtain ⟨hz0, hT, rfl⟩ := canonicalSystemAlpha_ok h
  have hlog : Real.log goalZ < 0 := Real.log_neg hz0 hz
  have hτ : 0 < goalT - startT := sub_pos.2 hT
  have hτ' : goalT - startT ≠ 0 := hτ.ne'
  have hanti : StrictAnti (fun t => phase t (-Real.log goalZ) goalT startT) := by
    intro t1 t2 h12
    unfold phase
    apply Real.exp_lt_exp.2
    apply div_lt_div_of_pos_right _ hτ
    nlinarith
  refine ⟨by simp [phase], ?_, hanti, ?_, ?_⟩
  · unfold phase
    rw [mul_div_assoc, div_self hτ']
    simp [Real.exp_log hz0]
  · intro t ht
    refine ⟨Real.exp_pos _, ?_⟩
    rw [show (1 : ℝ) = phase startT (-Real.log goalZ) goalT startT by simp [phase]]
    exact hanti.antitone ht
  · unfold phase
    apply Real.tendsto_exp_atBot.comp
    have h1 : Tendsto (fun t : ℝ => t - startT) atTop atTop := tendsto_atTop_add_const_right _ _ tendsto_id
    have h2 : Tendsto (fun t : ℝ => (Real.log goalZ / (goalT - startT)) * (t - startT)) atTop atBot :=
      h1.const_mul_atTop_of_neg (div_neg_of_neg_of_pos hlog hτ)
    refine h2.congr (fun t => ?_)
    ring

/-- **C01.** The phase solves the differential equation of the canonical system, `tau * dz/dt = -alpha * z`. -/
theorem C01_phase_ode {goalT startT : ℝ} (alpha t : ℝ) (_hT : startT < goalT) :
    HasDerivAt (fun t => phase t alpha goalT startT)
      (-alpha * phase t alpha goalT startT / (goalT - startT)) t := by
  unfold phase
  have h1 : HasDerivAt (fun t => -alpha * (t - startT) / (goalT - startT)) (-alpha * 1 / (goalT - startT)) t :=
    (((hasDerivAt_id t).sub_const startT).const_mul (-alpha)).div_const _
  convert h1.exp using 1
  ring

/-- **C01.** The constructor of the canonical system raises ValueError exactly for invalid arguments. -/
theorem C01_alpha_raises_iff (goalZ goalT startT : ℝ) :
    canonicalSystemAlpha goalZ goalT startT = .error .valueError ↔ goalZ ≤ 0 ∨ goalT ≤ startT := by
  unfold canonicalSystemAlpha
  split_ifs with h1 h2 <;> simp_all

/-- Hypotheses of `C01_phase` are met by the parameters every DMP uses. -/
example : ∃ alpha, canonicalSystemAlpha (1 / 100) 1 0 = .ok alpha ∧ (1 / 100 : ℝ) < 1 :=
  ⟨-Real.log (1 / 100), by
    unfold canonicalSystemAlpha
    rw [if_neg (by norm_num), if_neg (by norm_num)], by norm_num⟩

/-- Finding: a final phase above 1 is accepted and makes the phase grow. -/
theorem C01_goal_phase_above_one {goalZ goalT startT : ℝ} (hz : 1 < goalZ) (hT : startT < goalT) :
    ∃ alpha, canonicalSystemAlpha goalZ goalT startT = .ok alpha ∧
      StrictMono (fun t => phase t alpha goalT startT) := by
  refine ⟨-Real.log goalZ, ?_, ?_⟩
  · unfold canonicalSystemAlpha
    rw [if_neg (by linarith), if_neg (by linarith)]
  · have hlog : 0 < Real.log goalZ := Real.log_pos hz
    have hτ : 0 < goalT - startT := sub_pos.2 hT
    intro t1 t2 h12
    unfold phase
    apply Real.exp_lt_exp.2
    apply div_lt_div_of_pos_right _ hτ
    nlinarith

/-- **C02.** The phase only depends on the relative time: scaling all times by `c ≠ 0`... -/
theorem C02_phase_scale (t alpha goalT startT c : ℝ) (hc : 0 < c) :
    phase (c * t) alpha (c * goalT) (c * startT) = phase t alpha goalT startT := by
  unfold phase
  congr 1
  rw [← mul_sub, ← mul_sub, show -alpha * (c * (t - startT)) = c * (-alpha * (t - startT)) by ring,
    mul_div_mul_left _ _ hc.ne']

/-- **C02.** ... or shifting all times by `b` does not change it. -/
theorem C02_phase_shift (t alpha goalT startT b : ℝ) :
    phase (t + b) alpha (goalT + b) (startT + b) = phase t alpha goalT startT := by
  unfold phase
  congr 1
  rw [add_sub_add_right_eq_sub, add_sub_add_right_eq_sub]

/-- `C02_phase_scale` relates two different query times. -/
example : phase (2 * 3) 1 (2 * 4) (2 * 1) = phase 3 1 4 1 := C02_phase_scale 3 1 4 1 2 (by norm_num)

end Verif
