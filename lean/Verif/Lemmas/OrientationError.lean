import Verif.Lemmas.OrientationRun
import Verif.Lemmas.OneStep
import Verif.Spec.OrientationMovement

/-! # Errors of the orientation integrator -/

namespace Verif
open Spec Quaternion

variable {ops : QuatOps} {eps : ℝ}

/-! ## Exponential and logarithm are Lipschitz continuous -/

theorem norm_rot (a : Vec 3) : ‖rot a‖ = 1 := by
  have h : normSq (rot a) = 1 := by unfold rot; rw [normSq_exp]; simp
  rw [normSq_eq_norm_mul_self] at h
  nlinarith [norm_nonneg (rot a)]

theorem norm_quat {q : Vec 4} (h : UnitQuat q) : ‖quat q‖ = 1 := by
  have h := (isUnit_iff_normSq q).1 h
  rw [normSq_eq_norm_mul_self] at h
  nlinarith [norm_nonneg (quat q)]

theorem rot_sub_sq (a b : Vec 3) : ∃ c : ℝ, c ≤ 1 ∧
    ‖rot a - rot b‖ ^ 2 = 2 * (1 - Real.cos (length a / 2 - length b / 2)) +
      2 * (Real.sin (length a / 2) * Real.sin (length b / 2)) * (1 - c) ∧
    length (a - b) ^ 2 = (length a - length b) ^ 2 + 2 * (length a * length b) * (1 - c) := by
  refine ⟨rdot3 a b / (length a * length b), ?_, ?_, ?_⟩
  · apply div_le_one_of_le₀ _ (mul_nonneg (length_nonneg a) (length_nonneg b))
    exact (le_abs_self _).trans (abs_rdot3_le a b)
  · have h1 : ‖rot a - rot b‖ ^ 2 = 2 - 2 * (rot a * star (rot b)).re := by
      rw [sq, ← normSq_eq_norm_mul_self, normSq_def']
      have ha : normSq (rot a) = 1 := by rw [normSq_eq_norm_mul_self, norm_rot]; ring
      have hb : normSq (rot b) = 1 := by rw [normSq_eq_norm_mul_self, norm_rot]; ring
      rw [normSq_def'] at ha hb
      rw [Quaternion.re_mul]
      simp only [Quaternion.re_sub, Quaternion.imI_sub, Quaternion.imJ_sub, Quaternion.imK_sub, Quaternion.re_star,
        Quaternion.imI_star, Quaternion.imJ_star, Quaternion.imK_star]
      linarith [show ((rot a).re - (rot b).re) ^ 2 + ((rot a).imI - (rot b).imI) ^ 2 + ((rot a).imJ - (rot b).imJ) ^ 2 +
        ((rot a).imK - (rot b).imK) ^ 2 = ((rot a).re ^ 2 + (rot a).imI ^ 2 + (rot a).imJ ^ 2 + (rot a).imK ^ 2) +
        ((rot b).re ^ 2 + (rot b).imI ^ 2 + (rot b).imJ ^ 2 + (rot b).imK ^ 2) - 2 * ((rot a).re * (rot b).re +
        (rot a).imI * (rot b).imI + (rot a).imJ * (rot b).imJ + (rot a).imK * (rot b).imK) by ring]
    rw [h1]
    unfold rot
    rw [re_exp_mul_star_exp, Real.cos_sub]
    ring
  · have h2 : length (a - b) ^ 2 = rsq3 a + rsq3 b - 2 * rdot3 a b := by
      rw [length_sq]; unfold rsq3 rdot3; simp only [Pi.sub_apply]; ring
    rw [h2, ← length_sq, ← length_sq]
    by_cases h : length a * length b = 0
    · have h3 : rdot3 a b = 0 := by
        have := abs_rdot3_le a b
        rw [h] at this
        exact abs_eq_zero.1 (le_antisymm this (abs_nonneg _))
      rw [h3, h]
      have : (length a - length b) ^ 2 = length a ^ 2 + length b ^ 2 - 2 * (length a * length b) := by ring
      rw [this, h]; ring
    · have : length a * length b * (rdot3 a b / (length a * length b)) = rdot3 a b := mul_div_cancel₀ _ h
      linear_combination 2 * this

/-- The exponential is Lipschitz continuous. -/
theorem rot_sub_le (a b : Vec 3) : ‖rot a - rot b‖ ≤ length (a - b) / 2 := by
  obtain ⟨c, hc, h1, h2⟩ := rot_sub_sq a b
  apply le_of_sq_le_sq _ (by have := length_nonneg (a - b); positivity)
  have ha := length_nonneg a
  have hb := length_nonneg b
  rw [h1, div_pow, h2]
  have h3 := Real.one_sub_sq_div_two_le_cos (x := length a / 2 - length b / 2)
  have h4 : Real.sin (length a / 2) * Real.sin (length b / 2) ≤ length a / 2 * (length b / 2) := by
    refine (le_abs_self _).trans ?_
    rw [abs_mul]
    apply mul_le_mul _ _ (abs_nonneg _) (by positivity)
    · exact (Real.abs_sin_le_abs).trans (le_of_eq (abs_of_nonneg (by positivity)))
    · exact (Real.abs_sin_le_abs).trans (le_of_eq (abs_of_nonneg (by positivity)))
  have h5 := mul_le_mul_of_nonneg_right h4 (show 0 ≤ 1 - c by linarith)
  nlinarith

/-- The logarithm is Lipschitz continuous. -/
theorem length_sub_le_rot {a b : Vec 3} (ha : length a ≤ Real.pi) (hb : length b ≤ Real.pi) :
    length (a - b) ≤ Real.pi * ‖rot a - rot b‖ := by
  obtain ⟨c, hc, h1, h2⟩ := rot_sub_sq a b
  have hπ := Real.pi_pos
  apply le_of_sq_le_sq _ (by positivity)
  have ha0 := length_nonneg a
  have hb0 := length_nonneg b
  rw [mul_pow, h1, h2]
  have h3 : (length a - length b) ^ 2 ≤ Real.pi ^ 2 * (2 * (1 - Real.cos (length a / 2 - length b / 2))) := by
    set d := (length a - length b) / 4 with hd
    have e : length a / 2 - length b / 2 = 2 * d := by rw [hd]; ring
    rw [e, Real.cos_two_mul, Real.cos_sq']
    have h4 : 2 / Real.pi * |d| ≤ |Real.sin d| := by
      apply Real.mul_abs_le_abs_sin
      rw [abs_le]; constructor <;> linarith
    have h5 : (2 / Real.pi * |d|) ^ 2 ≤ Real.sin d ^ 2 := by
      rw [← sq_abs (Real.sin d)]
      exact pow_le_pow_left₀ (by positivity) h4 2
    rw [mul_pow, sq_abs, div_pow, div_mul_eq_mul_div, div_le_iff₀ (by positivity)] at h5
    have e2 : length a - length b = 4 * d := by rw [hd]; ring
    rw [e2]
    nlinarith
  have h6 : length a * length b ≤ Real.pi ^ 2 * (Real.sin (length a / 2) * Real.sin (length b / 2)) := by
    have h7 := Real.mul_le_sin (x := length a / 2) (by positivity) (by linarith)
    have h8 := Real.mul_le_sin (x := length b / 2) (by positivity) (by linarith)
    have h9 := mul_le_mul h7 h8 (by positivity) (le_trans (by positivity) h7)
    have e : 2 / Real.pi * (length a / 2) * (2 / Real.pi * (length b / 2)) = length a * length b / Real.pi ^ 2 := by
      field_simp
    rw [e, div_le_iff₀ (by positivity)] at h9
    linarith
  have h10 := mul_le_mul_of_nonneg_right h6 (show 0 ≤ 1 - c by linarith)
  nlinarith

theorem length_add_le (a b : Vec 3) : length (a + b) ≤ length a + length b := by
  have := length_sub_le a (-b)
  have h : length (-b) = length b := by unfold length; simp
  rwa [sub_neg_eq_add, h] at this

theorem length_smul (c : ℝ) (a : Vec 3) : length (c • a) = |c| * length a := by
  rw [← norm_pure, ← norm_pure]
  have : Spec.pure (c • a) = c • Spec.pure a := by ext <;> simp
  rw [this, norm_smul, Real.norm_eq_abs]

theorem length_mul_le {κ : ℝ} (hκ : 0 ≤ κ) {K : Vec 3} (hK : ∀ k, |K k| ≤ κ) (a : Vec 3) :
    length (fun k => K k * a k) ≤ κ * length a := by
  apply le_of_sq_le_sq _ (mul_nonneg hκ (length_nonneg a))
  rw [mul_pow, length_sq, length_sq]
  unfold rsq3
  have h : ∀ k, (K k * a k) ^ 2 ≤ κ ^ 2 * a k ^ 2 := fun k => by
    rw [mul_pow]
    apply mul_le_mul_of_nonneg_right _ (sq_nonneg _)
    rw [← sq_abs]
    exact pow_le_pow_left₀ (abs_nonneg _) (hK k) 2
  linarith [h 0, h 1, h 2]

theorem norm_mul_star_sub {g p q : Vec 4} (hg : UnitQuat g) :
    ‖quat g * star (quat p) - quat g * star (quat q)‖ = ‖quat p - quat q‖ := by
  rw [← mul_sub, norm_mul, norm_quat hg, one_mul, ← star_sub, norm_star]

/-- Rotation vectors to `g` are close to each other if the orientations are close to each other, unless one of the angles is
close to `π`. -/
theorem Spec.IsRotationTo.close {g p q : Vec 4} {a b : Vec 3} (hg : UnitQuat g) (ha : IsRotationTo g p a)
    (hb : IsRotationTo g q b) {c : ℝ} (hc : 0 < c) (hca : c ≤ Real.cos (length a / 2)) :
    length (b - a) ≤ (Real.pi + 2 * Real.pi / c) * ‖quat q - quat p‖ := by
  have hπ := Real.pi_pos
  have h0 : 0 ≤ 2 * Real.pi / c * ‖quat q - quat p‖ := by positivity
  have same : ‖rot b - rot a‖ = ‖quat q - quat p‖ → length (b - a) ≤ (Real.pi + 2 * Real.pi / c) * ‖quat q - quat p‖ := by
    intro h
    have := length_sub_le_rot hb.short ha.short
    rw [h] at this
    linarith
  have mixed : ‖rot b + rot a‖ = ‖quat q - quat p‖ → length (b - a) ≤ (Real.pi + 2 * Real.pi / c) * ‖quat q - quat p‖ := by
    intro h
    have h1 : c ≤ ‖quat q - quat p‖ := by
      rw [← h]
      have h2 : (rot b + rot a).re ≤ ‖rot b + rot a‖ := by
        have h3 : (rot b + rot a).re ^ 2 ≤ ‖rot b + rot a‖ ^ 2 := by
          rw [sq ‖_‖, ← normSq_eq_norm_mul_self, normSq_def']
          nlinarith [sq_nonneg (rot b + rot a).imI, sq_nonneg (rot b + rot a).imJ, sq_nonneg (rot b + rot a).imK]
        exact le_of_sq_le_sq h3 (norm_nonneg _)
      have e : (rot b + rot a).re = Real.cos (length b / 2) + Real.cos (length a / 2) := by
        rw [Quaternion.re_add]; unfold rot; rw [exp_half, exp_half]
      have h4 : 0 ≤ Real.cos (length b / 2) :=
        Real.cos_nonneg_of_mem_Icc ⟨by linarith [length_nonneg b], by linarith [hb.short]⟩
      linarith
    have h2 : length (b - a) ≤ 2 * Real.pi := by
      have := length_sub_le b a
      linarith [ha.short, hb.short]
    have h3 : 2 * Real.pi ≤ 2 * Real.pi / c * ‖quat q - quat p‖ := by
      rw [div_mul_eq_mul_div, le_div_iff₀ hc]
      exact mul_le_mul_of_nonneg_left h1 (by positivity)
    have h4 : 0 ≤ Real.pi * ‖quat q - quat p‖ := by positivity
    linarith
  have hn := norm_mul_star_sub (p := q) (q := p) hg
  rcases ha.rotation with h1 | h1 <;> rcases hb.rotation with h2 | h2 <;> rw [h1, h2] at hn
  · exact same hn
  · refine mixed ?_
    rw [← hn, ← norm_neg]; congr 1; abel
  · exact mixed (by rw [← hn, sub_neg_eq_add])
  · refine same ?_
    rw [← hn, ← norm_neg]; congr 1; abel

/-- What the implementation uses in place of the rotation vector. -/
theorem diff_close (hops : LawfulQuatOps ops eps) (heps : 0 < eps) {g p q : Vec 4} {a : Vec 3} (hg : UnitQuat g)
    (hq : UnitQuat q) (ha : IsRotationTo g p a) {c : ℝ} (hc : 0 < c) (hca : c ≤ Real.cos (length a / 2)) :
    length (QuatStepArgs.diff ops g q - a) ≤ Real.pi * eps + (Real.pi + 2 * Real.pi / c) * ‖quat q - quat p‖ := by
  obtain ⟨b, hl, hb, hz⟩ := exists_rotation hops heps hg hq
  have hb' : IsRotationTo g q b := by
    refine ⟨?_, hb⟩
    rw [hl]
    unfold rotationAngle
    have := Real.arccos_le_pi_div_two.2 (abs_nonneg (∑ i, g i * q i))
    linarith
  have h1 := ha.close hg hb' hc hca
  have h2 : length (QuatStepArgs.diff ops g q - b) ≤ Real.pi * eps := by
    rcases hz with ⟨h, -⟩ | ⟨h, h3⟩
    · rw [h, sub_self, length_eq_zero.2 rfl]
      have := Real.pi_pos; positivity
    · rw [h, zero_sub]
      have : length (-b) = length b := by unfold length; simp
      rwa [this]
  have h3 := length_add_le (QuatStepArgs.diff ops g q - b) (b - a)
  rw [sub_add_sub_cancel] at h3
  linarith

/-! ## One step -/

/-- One step of the orientation dynamics with stiffness `K`, damping `C` and additional acceleration `F`. -/
noncomputable def axisBody (ops : QuatOps) (g : Vec 4) (K C : Vec 3) (h : ℝ) (F : Vec 3) (s : Vec 4 × Vec 3) : Vec 4 × Vec 3 :=
  let v' : Vec 3 := fun i => s.2 i + h * (K i * QuatStepArgs.diff ops g s.1 i - C i * s.2 i + F i)
  (ops.mul (ops.exp (fun i => h * v' i)) s.1, v')

theorem axisBody_unit (hops : LawfulQuatOps ops eps) (g : Vec 4) (K C : Vec 3) (h : ℝ) (F : Vec 3) {s : Vec 4 × Vec 3}
    (hs : UnitQuat s.1) : UnitQuat (axisBody ops g K C h F s).1 :=
  LawfulQuatOps.unit_mul hops (LawfulQuatOps.unit_exp hops _) hs

/-- Distance between two states. -/
noncomputable def stateError (s : Vec 4 × Vec 3) (q : Vec 4) (w : Vec 3) : ℝ := ‖quat s.1 - quat q‖ + length (s.2 - w)

theorem stateError_nonneg (s : Vec 4 × Vec 3) (q : Vec 4) (w : Vec 3) : 0 ≤ stateError s q w :=
  add_nonneg (norm_nonneg _) (length_nonneg _)

/-- Growth of the error in one step from time `s` to time `t = s + h`. -/
theorem axisBody_error (hops : LawfulQuatOps ops eps) (heps : 0 < eps) {g : Vec 4} (hg : UnitQuat g) {K C : Vec 3}
    {κ γ : ℝ} (hκ : 0 ≤ κ) (hγ : 0 ≤ γ) (hK : ∀ k, |K k| ≤ κ) (hC : ∀ k, |C k| ≤ γ) {h : ℝ} (hh : 0 < h) (F : Vec 3)
    {x : Vec 4 × Vec 3} (hx : UnitQuat x.1) {qs qt : Vec 4} {ws wt F' a : Vec 3} (ha : IsRotationTo g qs a)
    {c : ℝ} (hc : 0 < c) (hca : c ≤ Real.cos (length a / 2)) {G : ℝ}
    (hG : h * (κ * (Real.pi * eps)) + h * length (F - F') +
      length (ws + h • (fun k => K k * a k - C k * ws k + F' k) - wt) + ‖rot (h • ws) * quat qs - quat qt‖ +
      h * length (wt - ws) / 2 ≤ G) :
    stateError (axisBody ops g K C h F x) qt wt ≤
      Real.exp ((1 / 2 + γ + κ * (Real.pi + 2 * Real.pi / c)) * h) * (stateError x qs ws + G) := by
  set L := Real.pi + 2 * Real.pi / c with hL
  have hπ := Real.pi_pos
  have hL0 : 0 ≤ L := by rw [hL]; positivity
  set v' : Vec 3 := (axisBody ops g K C h F x).2 with hv'
  set D := QuatStepArgs.diff ops g x.1 with hD
  have hd := diff_close hops heps hg hx ha hc hca
  rw [← hD, ← hL] at hd
  set eq := ‖quat x.1 - quat qs‖ with heq
  set ew := length (x.2 - ws) with hew
  have heq0 : 0 ≤ eq := norm_nonneg _
  have hew0 : 0 ≤ ew := length_nonneg _
  set T2 := length (ws + h • (fun k => K k * a k - C k * ws k + F' k) - wt) with hT2
  have hT20 : 0 ≤ T2 := length_nonneg _
  set T1 := ‖rot (h • ws) * quat qs - quat qt‖ with hT1
  have hT10 : 0 ≤ T1 := norm_nonneg _
  have hFF := length_nonneg (F - F')
  have hww := length_nonneg (wt - ws)
  -- angular velocity
  have hvel : length (v' - wt) ≤ (1 + γ * h) * ew + h * (κ * (Real.pi * eps + L * eq)) + h * length (F - F') + T2 := by
    have e : v' - wt = (((x.2 - ws) + h • (fun k => -C k * (x.2 - ws) k)) + (h • (fun k => K k * (D - a) k) + h • (F - F'))) +
        (ws + h • (fun k => K k * a k - C k * ws k + F' k) - wt) := by
      funext k
      show x.2 k + h * (K k * D k - C k * x.2 k + F k) - wt k = _
      simp only [Pi.add_apply, Pi.sub_apply, Pi.smul_apply, smul_eq_mul]
      ring
    rw [e]
    have h1 := length_add_le (((x.2 - ws) + h • (fun k => -C k * (x.2 - ws) k)) +
      (h • (fun k => K k * (D - a) k) + h • (F - F'))) (ws + h • (fun k => K k * a k - C k * ws k + F' k) - wt)
    have h2 := length_add_le ((x.2 - ws) + h • (fun k => -C k * (x.2 - ws) k)) (h • (fun k => K k * (D - a) k) + h • (F - F'))
    have h3 := length_add_le (x.2 - ws) (h • (fun k => -C k * (x.2 - ws) k))
    have h4 := length_add_le (h • (fun k => K k * (D - a) k)) (h • (F - F'))
    rw [length_smul, abs_of_pos hh] at h3
    rw [length_smul, length_smul, abs_of_pos hh] at h4
    have h5 := length_mul_le hγ (K := fun k => -C k) (fun k => by rw [abs_neg]; exact hC k) (x.2 - ws)
    have h6 := length_mul_le hκ hK (D - a)
    have h7 := mul_le_mul_of_nonneg_left h5 hh.le
    have h8 := mul_le_mul_of_nonneg_left (h6.trans (mul_le_mul_of_nonneg_left hd hκ)) hh.le
    have h7' : h * (γ * ew) = γ * h * ew := by ring
    rw [← hew, h7'] at h7
    rw [← hew] at h3
    rw [← hT2] at h1
    linarith
  -- orientation
  have hori : ‖quat (axisBody ops g K C h F x).1 - quat qt‖ ≤ eq + h / 2 * length (v' - wt) + h * length (wt - ws) / 2 + T1 := by
    have e0 : quat (axisBody ops g K C h F x).1 = rot (h • v') * quat x.1 := by
      show quat (ops.mul (ops.exp (fun i => h * v' i)) x.1) = _
      rw [hops.mul _ _ (LawfulQuatOps.unit_exp hops _) hx, hops.exp]
      rfl
    have e : rot (h • v') * quat x.1 - quat qt = (rot (h • v') - rot (h • ws)) * quat x.1 +
        rot (h • ws) * (quat x.1 - quat qs) + (rot (h • ws) * quat qs - quat qt) := by
      rw [sub_mul, mul_sub]; abel
    rw [e0, e]
    have h1 := norm_add₃_le (a := (rot (h • v') - rot (h • ws)) * quat x.1) (b := rot (h • ws) * (quat x.1 - quat qs))
      (c := rot (h • ws) * quat qs - quat qt)
    rw [norm_mul, norm_mul, norm_quat hx, norm_rot, mul_one, one_mul, ← hT1, ← heq] at h1
    have h2 := rot_sub_le (h • v') (h • ws)
    rw [← smul_sub, length_smul, abs_of_pos hh] at h2
    have h3 := length_add_le (v' - wt) (wt - ws)
    rw [sub_add_sub_cancel] at h3
    have h4 := mul_le_mul_of_nonneg_left h3 hh.le
    linarith
  -- both
  set V := length (v' - wt) with hV
  have hV0 : 0 ≤ V := length_nonneg _
  have hsum : stateError (axisBody ops g K C h F x) qt wt ≤ (1 + h / 2) * (eq + V + h * length (wt - ws) / 2 + T1) := by
    show ‖quat (axisBody ops g K C h F x).1 - quat qt‖ + V ≤ _
    have h1 : 0 ≤ h / 2 * (eq + h * length (wt - ws) / 2 + T1) := by positivity
    linarith [show (1 + h / 2) * (eq + V + h * length (wt - ws) / 2 + T1) = eq + V + h * length (wt - ws) / 2 + T1 +
      h / 2 * V + h / 2 * (eq + h * length (wt - ws) / 2 + T1) by ring]
  have hin : eq + V + h * length (wt - ws) / 2 + T1 ≤ (1 + (γ + κ * L) * h) * (stateError x qs ws + G) := by
    have e : stateError x qs ws = eq + ew := rfl
    rw [e]
    have hG0 : 0 ≤ G := le_trans (by positivity) hG
    have h1 : 0 ≤ γ * h * eq := by positivity
    have h2 : 0 ≤ κ * L * h * ew := by positivity
    have h3 : 0 ≤ (γ + κ * L) * h * G := by positivity
    linarith [show (1 + (γ + κ * L) * h) * (eq + ew + G) = eq + ew + G + γ * h * eq + γ * h * ew + κ * L * h * eq +
      κ * L * h * ew + (γ + κ * L) * h * G by ring, show h * (κ * (Real.pi * eps + L * eq)) =
      h * (κ * (Real.pi * eps)) + κ * L * h * eq by ring]
  have hG0 : 0 ≤ G := le_trans (by positivity) hG
  have hE0 := stateError_nonneg x qs ws
  have hexp : (1 + h / 2) * (1 + (γ + κ * L) * h) ≤ Real.exp ((1 / 2 + γ + κ * L) * h) := by
    have e : (1 / 2 + γ + κ * L) * h = h / 2 + (γ + κ * L) * h := by ring
    rw [e, Real.exp_add]
    apply mul_le_mul _ _ (by positivity) (Real.exp_pos _).le
    · linarith [Real.add_one_le_exp (h / 2)]
    · linarith [Real.add_one_le_exp ((γ + κ * L) * h)]
  calc stateError (axisBody ops g K C h F x) qt wt ≤ (1 + h / 2) * (eq + V + h * length (wt - ws) / 2 + T1) := hsum
    _ ≤ (1 + h / 2) * ((1 + (γ + κ * L) * h) * (stateError x qs ws + G)) := mul_le_mul_of_nonneg_left hin (by positivity)
    _ = (1 + h / 2) * (1 + (γ + κ * L) * h) * (stateError x qs ws + G) := by ring
    _ ≤ _ := mul_le_mul_of_nonneg_right hexp (by positivity)

/-! ## Many steps -/

section Growth
variable {σ : Type} {P : σ → Prop} {Φ : ℝ → ℝ → σ → σ} {err : ℝ → σ → ℝ} {G : ℝ → ℝ} {Λ A B H : ℝ}

/-- Growth of an error during a sequence of sub-steps. -/
theorem subSteps_growth (hΛ : 0 ≤ Λ) (hG : ∀ s t, A ≤ s → s ≤ t → t ≤ B → G s ≤ G t) (hP : ∀ h t x, P x → P (Φ h t x))
    (hstep : ∀ h t x, 0 < h → h ≤ H → A ≤ t - h → t ≤ B → P x →
      err t (Φ h t x) ≤ Real.exp (Λ * h) * (err (t - h) x + (G t - G (t - h))))
    {δ b : ℝ} (hδ : 0 < δ) (hb : b ≤ B) :
    ∀ (a : ℝ), A ≤ a → a ≤ b → min δ (b - a) ≤ H → ∀ x : σ, P x →
      P ((subSteps δ b a).foldl (fun x p => Φ p.1 p.2 x) x) ∧
      err b ((subSteps δ b a).foldl (fun x p => Φ p.1 p.2 x) x) ≤ Real.exp (Λ * (b - a)) * (err a x + (G b - G a)) := by
  suffices hn : ∀ (n : ℕ) (a : ℝ), nSub δ b a = n → A ≤ a → a ≤ b → min δ (b - a) ≤ H → ∀ x : σ, P x →
      P ((subSteps δ b a).foldl (fun x p => Φ p.1 p.2 x) x) ∧
      err b ((subSteps δ b a).foldl (fun x p => Φ p.1 p.2 x) x) ≤ Real.exp (Λ * (b - a)) * (err a x + (G b - G a)) from
    fun a => hn _ a rfl
  intro n
  induction n with
  | zero =>
    intro a hn ha hab _ x hx
    have hba := (nSub_zero hδ).1 hn
    have e : a = b := le_antisymm hab hba
    rw [subSteps_of_le hδ hba, e]
    simpa using hx
  | succ n ih =>
    intro a hn ha hab hmin x hx
    have hlt : a < b := by
      by_contra hc
      rw [(nSub_zero hδ).2 (by linarith)] at hn; omega
    by_cases h2 : b - a ≤ δ
    · rw [subSteps_last hδ hlt h2]
      rw [min_eq_right h2] at hmin
      have := hstep (b - a) b x (by linarith) hmin (by linarith) hb hx
      rw [sub_sub_cancel] at this
      exact ⟨hP _ _ _ hx, this⟩
    · have h3 : δ < b - a := by linarith
      rw [min_eq_left h3.le] at hmin
      have hs := nSub_succ hδ h3.le
      rw [subSteps_cons hδ h3, List.foldl_cons]
      obtain ⟨h4, h5⟩ := ih (a + δ) (by omega) (by linarith) (by linarith) (le_trans (min_le_left _ _) hmin) (Φ δ (a + δ) x)
        (hP _ _ _ hx)
      refine ⟨h4, h5.trans ?_⟩
      have h6 := hstep δ (a + δ) x hδ hmin (by linarith) (by linarith) hx
      rw [add_sub_cancel_right] at h6
      have e : Real.exp (Λ * (b - a)) = Real.exp (Λ * (b - (a + δ))) * Real.exp (Λ * δ) := by
        rw [← Real.exp_add]; congr 1; ring
      rw [e, mul_assoc]
      apply mul_le_mul_of_nonneg_left _ (Real.exp_pos _).le
      have h7 : 1 ≤ Real.exp (Λ * δ) := Real.one_le_exp (by positivity)
      have h8 := hG (a + δ) b (by linarith) (by linarith) hb
      have h9 : G b - G (a + δ) ≤ Real.exp (Λ * δ) * (G b - G (a + δ)) := le_mul_of_one_le_left (by linarith) h7
      show err (a + δ) (Φ δ (a + δ) x) + (G b - G (a + δ)) ≤ _
      linarith [show Real.exp (Λ * δ) * (err a x + (G b - G a)) = Real.exp (Λ * δ) * (err a x + (G (a + δ) - G a)) +
        Real.exp (Λ * δ) * (G b - G (a + δ)) by ring]

/-- Growth of an error on a uniform time grid. -/
theorem grid_growth (hΛ : 0 ≤ Λ) (hG : ∀ s t, A ≤ s → s ≤ t → t ≤ B → G s ≤ G t) {D : ℝ} (hD : 0 ≤ D) {xs : ℕ → σ}
    (h0 : P (xs 0)) (hxs : ∀ i : ℕ, A + (i + 1) * D ≤ B → P (xs i) → P (xs (i + 1)) ∧
      err (A + (i + 1) * D) (xs (i + 1)) ≤ Real.exp (Λ * D) * (err (A + i * D) (xs i) + (G (A + (i + 1) * D) - G (A + i * D)))) :
    ∀ i : ℕ, A + i * D ≤ B → P (xs i) ∧
      err (A + i * D) (xs i) ≤ Real.exp (Λ * (i * D)) * (err A (xs 0) + (G (A + i * D) - G A)) := by
  intro i
  induction i with
  | zero => intro _; simpa using h0
  | succ i ih =>
    intro hi
    push_cast at hi ⊢
    have hle : A + i * D ≤ A + (i + 1) * D := by linarith
    obtain ⟨h1, h2⟩ := ih (by linarith)
    obtain ⟨h3, h4⟩ := hxs i hi h1
    refine ⟨h3, h4.trans ?_⟩
    have e : Real.exp (Λ * ((i + 1) * D)) = Real.exp (Λ * D) * Real.exp (Λ * (i * D)) := by
      rw [← Real.exp_add]; congr 1; ring
    rw [e, mul_assoc]
    apply mul_le_mul_of_nonneg_left _ (Real.exp_pos _).le
    have hiD : 0 ≤ (i : ℝ) * D := by positivity
    have h7 : 1 ≤ Real.exp (Λ * (i * D)) := Real.one_le_exp (by positivity)
    have h8 := hG (A + i * D) (A + (i + 1) * D) (by linarith) hle hi
    have h9 := le_mul_of_one_le_left (show 0 ≤ G (A + (i + 1) * D) - G (A + i * D) by linarith) h7
    linarith [show Real.exp (Λ * (i * D)) * (err A (xs 0) + (G (A + (i + 1) * D) - G A)) =
      Real.exp (Λ * (i * D)) * (err A (xs 0) + (G (A + i * D) - G A)) +
        Real.exp (Λ * (i * D)) * (G (A + (i + 1) * D) - G (A + i * D)) by ring]

end Growth

end Verif
