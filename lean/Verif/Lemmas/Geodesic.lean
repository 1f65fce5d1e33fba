import Verif.Lemmas.Frames
import Verif.Lemmas.SubSteps
import Verif.Spec.Geodesic
import Mathlib.Analysis.SpecialFunctions.Trigonometric.Bounds

/-! # Orientation dynamics without forcing term run along a geodesic -/

namespace Verif
open Spec Quaternion

variable {ops : QuatOps} {eps : ℝ}

theorem exp_axis_re {u : Vec 3} (hu : length u = 1) (θ : ℝ) :
    (NormedSpace.exp ((1 / 2 : ℝ) • Spec.pure (θ • u))).re = Real.cos (θ / 2) := by rw [exp_axis hu]

theorem exp_axis_imI {u : Vec 3} (hu : length u = 1) (θ : ℝ) :
    (NormedSpace.exp ((1 / 2 : ℝ) • Spec.pure (θ • u))).imI = Real.sin (θ / 2) * u 0 := by rw [exp_axis hu]

theorem exp_axis_imJ {u : Vec 3} (hu : length u = 1) (θ : ℝ) :
    (NormedSpace.exp ((1 / 2 : ℝ) • Spec.pure (θ • u))).imJ = Real.sin (θ / 2) * u 1 := by rw [exp_axis hu]

theorem exp_axis_imK {u : Vec 3} (hu : length u = 1) (θ : ℝ) :
    (NormedSpace.exp ((1 / 2 : ℝ) • Spec.pure (θ • u))).imK = Real.sin (θ / 2) * u 2 := by rw [exp_axis hu]

theorem exp_add_axis (u : Vec 3) (a b : ℝ) : NormedSpace.exp ((1 / 2 : ℝ) • Spec.pure ((a + b) • u)) =
    NormedSpace.exp ((1 / 2 : ℝ) • Spec.pure (a • u)) * NormedSpace.exp ((1 / 2 : ℝ) • Spec.pure (b • u)) := by
  have e : ∀ c : ℝ, (1 / 2 : ℝ) • Spec.pure (c • u) = (c / 2) • Spec.pure u := by
    intro c
    ext <;> simp <;> ring
  rw [e, e, e, add_div, add_smul]
  let _ : NormedAlgebra ℚ ℍ[ℝ] := NormedAlgebra.restrictScalars ℚ ℝ ℍ[ℝ]
  apply NormedSpace.exp_add_of_commute
  exact (Commute.refl _).smul_left _ |>.smul_right _

theorem star_exp_axis (u : Vec 3) (a : ℝ) : star (NormedSpace.exp ((1 / 2 : ℝ) • Spec.pure (a • u))) =
    NormedSpace.exp ((1 / 2 : ℝ) • Spec.pure ((-a) • u)) := by
  rw [NormedSpace.star_exp]
  congr 1
  ext <;> simp

theorem inner_of_mul_star (p q : Vec 4) : (quat p * star (quat q)).re = ∑ i, p i * q i := by
  rw [Quaternion.re_mul, Fin.sum_univ_four]
  simp only [Quaternion.re_star, Quaternion.imI_star, Quaternion.imJ_star, Quaternion.imK_star]
  show p 0 * q 0 - p 1 * -q 1 - p 2 * -q 2 - p 3 * -q 3 = _
  ring

/-- Angle between two orientations from their difference. -/
theorem rotationAngle_eq {p q : Vec 4} {u : Vec 3} {θ : ℝ} (hu : length u = 1) (h0 : 0 ≤ θ) (hπ : θ ≤ Real.pi)
    (h : quat p * star (quat q) = NormedSpace.exp ((1 / 2 : ℝ) • Spec.pure (θ • u)) ∨
      quat p * star (quat q) = -NormedSpace.exp ((1 / 2 : ℝ) • Spec.pure (θ • u))) :
    rotationAngle p q = θ := by
  have hc : 0 ≤ Real.cos (θ / 2) := Real.cos_nonneg_of_mem_Icc ⟨by linarith, by linarith⟩
  have : |∑ i, p i * q i| = Real.cos (θ / 2) := by
    rw [← inner_of_mul_star]
    rcases h with h | h
    · rw [h, exp_axis_re hu, abs_of_nonneg hc]
    · rw [h, Quaternion.re_neg, exp_axis_re hu, abs_neg, abs_of_nonneg hc]
  unfold rotationAngle
  rw [this, Real.arccos_cos (by linarith) (by linarith)]
  ring

theorem sq_length {u : Vec 3} (hu : length u = 1) : u 0 ^ 2 + u 1 ^ 2 + u 2 ^ 2 = 1 := by
  unfold length at hu
  have := Real.sqrt_eq_one.1 hu
  exact this

theorem vec_part_of_exp {x : Vec 4} {u : Vec 3} {θ : ℝ} (hu : length u = 1) (h0 : 0 ≤ θ) (hπ : θ ≤ Real.pi)
    (h : quat x = NormedSpace.exp ((1 / 2 : ℝ) • Spec.pure (θ • u)) ∨
      quat x = -NormedSpace.exp ((1 / 2 : ℝ) • Spec.pure (θ • u))) :
    √(x 1 ^ 2 + x 2 ^ 2 + x 3 ^ 2) = Real.sin (θ / 2) := by
  have hs : 0 ≤ Real.sin (θ / 2) := Real.sin_nonneg_of_nonneg_of_le_pi (by linarith) (by linarith [Real.pi_pos])
  have hl := sq_length hu
  have e : x 1 ^ 2 + x 2 ^ 2 + x 3 ^ 2 = Real.sin (θ / 2) ^ 2 := by
    rcases h with h | h
    · have h1 : x 1 = _ := congrArg QuaternionAlgebra.imI h
      have h2 : x 2 = _ := congrArg QuaternionAlgebra.imJ h
      have h3 : x 3 = _ := congrArg QuaternionAlgebra.imK h
      rw [h1, h2, h3, exp_axis_imI hu, exp_axis_imJ hu, exp_axis_imK hu]
      linear_combination Real.sin (θ / 2) ^ 2 * hl
    · have h1 : x 1 = _ := congrArg QuaternionAlgebra.imI h
      have h2 : x 2 = _ := congrArg QuaternionAlgebra.imJ h
      have h3 : x 3 = _ := congrArg QuaternionAlgebra.imK h
      rw [h1, h2, h3, Quaternion.imI_neg, Quaternion.imJ_neg, Quaternion.imK_neg, exp_axis_imI hu, exp_axis_imJ hu,
        exp_axis_imK hu]
      linear_combination Real.sin (θ / 2) ^ 2 * hl
  rw [e, Real.sqrt_sq hs]

/-- Logarithm of `± exp (½ θ u)` for angles below `π` and outside of the dead zone. -/
theorem log_axis (hops : LawfulQuatOps ops eps) (heps : 0 < eps) {x : Vec 4} (hx : UnitQuat x) {u : Vec 3} {θ : ℝ}
    (hu : length u = 1) (h0 : 0 ≤ θ) (hπ : θ < Real.pi)
    (h : quat x = NormedSpace.exp ((1 / 2 : ℝ) • Spec.pure (θ • u)) ∨
      quat x = -NormedSpace.exp ((1 / 2 : ℝ) • Spec.pure (θ • u)))
    (hv : eps ≤ Real.sin (θ / 2)) : ops.log x = θ • u := by
  obtain ⟨hl, hexp⟩ := hops.log x hx (by rw [vec_part_of_exp hu h0 hπ.le h]; exact hv)
  generalize ops.log x = a at hl hexp
  have hla : 0 ≤ length a := Real.sqrt_nonneg _
  have hcp : 0 < Real.cos (θ / 2) := Real.cos_pos_of_mem_Ioo ⟨by linarith [Real.pi_pos], by linarith⟩
  have hca : 0 ≤ Real.cos (length a / 2) := Real.cos_nonneg_of_mem_Icc ⟨by linarith [Real.pi_pos], by linarith⟩
  have hcmp : NormedSpace.exp ((1 / 2 : ℝ) • Spec.pure a) = NormedSpace.exp ((1 / 2 : ℝ) • Spec.pure (θ • u)) ∨
      NormedSpace.exp ((1 / 2 : ℝ) • Spec.pure a) = -NormedSpace.exp ((1 / 2 : ℝ) • Spec.pure (θ • u)) := by
    rcases hexp with h1 | h1 <;> rcases h with h2 | h2 <;> rw [h1, h2] <;> simp
  rcases hcmp with hcmp | hcmp
  · have hr := congrArg QuaternionAlgebra.re hcmp
    have h1 := congrArg QuaternionAlgebra.imI hcmp
    have h2 := congrArg QuaternionAlgebra.imJ hcmp
    have h3 := congrArg QuaternionAlgebra.imK hcmp
    rw [exp_axis_re hu, exp_half] at hr
    rw [exp_axis_imI hu, exp_half] at h1
    rw [exp_axis_imJ hu, exp_half] at h2
    rw [exp_axis_imK hu, exp_half] at h3
    simp only at hr h1 h2 h3
    have hθ : length a / 2 = θ / 2 := by
      apply Real.injOn_cos _ _ hr
      · exact ⟨by linarith, by linarith⟩
      · exact ⟨by linarith, by linarith⟩
    have hsp : Real.sin (θ / 2) ≠ 0 := by linarith
    have hθp : θ ≠ 0 := by
      rintro rfl
      simp at hsp
    have hθ' : length a = θ := by linarith
    rw [hθ'] at h1 h2 h3
    have k1 := mul_left_cancel₀ hsp h1
    have k2 := mul_left_cancel₀ hsp h2
    have k3 := mul_left_cancel₀ hsp h3
    rw [div_eq_iff hθp] at k1 k2 k3
    funext i
    simp only [Pi.smul_apply, smul_eq_mul]
    fin_cases i
    · show a 0 = θ * u 0
      rw [k1]; ring
    · show a 1 = θ * u 1
      rw [k2]; ring
    · show a 2 = θ * u 2
      rw [k3]; ring
  · have hr := congrArg QuaternionAlgebra.re hcmp
    rw [Quaternion.re_neg, exp_axis_re hu, exp_half] at hr
    simp only at hr
    linarith

/-- Every unit quaternion is, up to its sign, a rotation about an axis by an angle of at most `π`. -/
theorem exists_axis {x : Vec 4} (hx : UnitQuat x) : ∃ (u : Vec 3) (θ : ℝ), length u = 1 ∧ 0 ≤ θ ∧ θ ≤ Real.pi ∧
    (quat x = NormedSpace.exp ((1 / 2 : ℝ) • Spec.pure (θ • u)) ∨
      quat x = -NormedSpace.exp ((1 / 2 : ℝ) • Spec.pure (θ • u))) := by
  by_cases hv : √(x 1 ^ 2 + x 2 ^ 2 + x 3 ^ 2) = 0
  · refine ⟨![1, 0, 0], 0, by simp [length], le_rfl, Real.pi_pos.le, ?_⟩
    have h0 := (Real.sqrt_eq_zero (by positivity)).1 hv
    have h1 : x 1 = 0 := by nlinarith [sq_nonneg (x 1), sq_nonneg (x 2), sq_nonneg (x 3)]
    have h2 : x 2 = 0 := by nlinarith [sq_nonneg (x 1), sq_nonneg (x 2), sq_nonneg (x 3)]
    have h3 : x 3 = 0 := by nlinarith [sq_nonneg (x 1), sq_nonneg (x 2), sq_nonneg (x 3)]
    unfold UnitQuat at hx
    have hw : x 0 ^ 2 = 1 := by rw [h1, h2, h3] at hx; linarith
    have hw' : x 0 = 1 ∨ x 0 = -1 := by
      have : (x 0 - 1) * (x 0 + 1) = 0 := by linarith
      rcases mul_eq_zero.1 this with h | h
      · left; linarith
      · right; linarith
    have hz : Spec.pure 0 = 0 := by ext <;> simp
    rw [zero_smul, hz, smul_zero, NormedSpace.exp_zero]
    rcases hw' with h | h
    · left
      ext <;> simp [quat, h, h1, h2, h3]
    · right
      ext <;> simp [h, h1, h2, h3]
  · have hp : 0 < √(x 1 ^ 2 + x 2 ^ 2 + x 3 ^ 2) := lt_of_le_of_ne (Real.sqrt_nonneg _) (Ne.symm hv)
    obtain ⟨hl, he⟩ := (lawful_python hp).log x hx le_rfl
    generalize (QuatOps.python √(x 1 ^ 2 + x 2 ^ 2 + x 3 ^ 2)).log x = a at hl he
    by_cases ha : length a = 0
    · exfalso
      have := length_eq_zero.1 ha
      subst this
      have h1 : length (![1, 0, 0] : Vec 3) = 1 := by simp [length]
      rw [← zero_smul ℝ (![1, 0, 0] : Vec 3)] at he
      rw [vec_part_of_exp h1 le_rfl Real.pi_pos.le (by
        rcases he with he | he
        · left; exact he.symm
        · right; rw [he, neg_neg])] at hv
      simp at hv
    · have hla : 0 ≤ length a := Real.sqrt_nonneg _
      have e : length a • ((length a)⁻¹ • a) = a := by rw [smul_smul, mul_inv_cancel₀ ha, one_smul]
      refine ⟨(length a)⁻¹ • a, length a, ?_, hla, hl, ?_⟩
      · rw [← norm_pure]
        have : Spec.pure ((length a)⁻¹ • a) = (length a)⁻¹ • Spec.pure a := by ext <;> simp
        rw [this, norm_smul, norm_pure, Real.norm_eq_abs, abs_of_nonneg (by positivity), inv_mul_cancel₀ ha]
      · rw [e]
        rcases he with he | he
        · left; exact he.symm
        · right; rw [he, neg_neg]

/-- One step of the orientation dynamics without forcing and coupling terms. -/
noncomputable def geoBody (ops : QuatOps) (g : Vec 4) (K C h : ℝ) (s : Vec 4 × Vec 3) : Vec 4 × Vec 3 :=
  let v' : Vec 3 := fun i => s.2 i + h * (K * QuatStepArgs.diff ops g s.1 i - C * s.2 i)
  (ops.mul (ops.exp (fun i => h * v' i)) s.1, v')

/-- Start configuration: `θ₀` is the angle to the goal about the axis `u`. -/
structure GeoStart (ops : QuatOps) (g q₀ : Vec 4) (u : Vec 3) (θ₀ : ℝ) : Prop where
  hg : UnitQuat g
  hq : UnitQuat q₀
  hu : length u = 1
  h0 : 0 ≤ θ₀
  hπ : θ₀ ≤ Real.pi
  err : quat g * star (quat q₀) = NormedSpace.exp ((1 / 2 : ℝ) • Spec.pure (θ₀ • u)) ∨
    quat g * star (quat q₀) = -NormedSpace.exp ((1 / 2 : ℝ) • Spec.pure (θ₀ • u))
  top : θ₀ < Real.pi ∨ QuatStepArgs.diff ops g q₀ = θ₀ • u

/-- On the way from the start to the goal: remaining angle `θ`, angular speed `ω`. -/
structure OnPath (ops : QuatOps) (g q₀ : Vec 4) (u : Vec 3) (θ₀ C θ ω : ℝ) (s : Vec 4 × Vec 3) : Prop where
  path : quat s.1 = NormedSpace.exp ((1 / 2 : ℝ) • Spec.pure ((θ₀ - θ) • u)) * quat q₀
  vel : s.2 = ω • u
  hω : 0 ≤ ω
  cone : ω ≤ C / 2 * θ
  hle : θ ≤ θ₀
  top : θ < Real.pi ∨ QuatStepArgs.diff ops g s.1 = θ • u

theorem exists_geoStart (hops : LawfulQuatOps ops eps) (heps : 0 < eps) (heps1 : eps ≤ 1) {g q₀ : Vec 4}
    (hg : UnitQuat g) (hq : UnitQuat q₀) : ∃ u θ₀, GeoStart ops g q₀ u θ₀ := by
  have hcu := LawfulQuatOps.unit_conj hops hq
  have hxu := LawfulQuatOps.unit_mul hops hg hcu
  have hx : quat (ops.mul g (ops.conj q₀)) = quat g * star (quat q₀) := by
    rw [hops.mul _ _ hg hcu, hops.conj _ hq]
  by_cases hv : √((ops.mul g (ops.conj q₀)) 1 ^ 2 + (ops.mul g (ops.conj q₀)) 2 ^ 2 +
      (ops.mul g (ops.conj q₀)) 3 ^ 2) < eps
  · obtain ⟨u, θ, hu, h0, hπ, he⟩ := exists_axis hxu
    refine ⟨u, θ, hg, hq, hu, h0, hπ, by rwa [hx] at he, Or.inl ?_⟩
    rw [vec_part_of_exp hu h0 hπ he] at hv
    refine lt_of_le_of_ne hπ ?_
    rintro rfl
    rw [Real.sin_pi_div_two] at hv
    linarith
  · rw [not_lt] at hv
    obtain ⟨hl, he⟩ := hops.log _ hxu hv
    have hd : QuatStepArgs.diff ops g q₀ = ops.log (ops.mul g (ops.conj q₀)) := rfl
    rw [← hd] at hl he
    generalize QuatStepArgs.diff ops g q₀ = a at hl he hd
    have hla : 0 ≤ length a := Real.sqrt_nonneg _
    have ha : length a ≠ 0 := by
      intro ha
      have := length_eq_zero.1 ha
      have h1 : length (![1, 0, 0] : Vec 3) = 1 := by simp [length]
      have h2 : (0 : ℝ) • (![1, 0, 0] : Vec 3) = a := by rw [this, zero_smul]
      rw [← h2] at he
      rw [vec_part_of_exp h1 le_rfl Real.pi_pos.le (by
        rcases he with he | he
        · left; exact he.symm
        · right; rw [he, neg_neg])] at hv
      simp at hv
      linarith
    have e : length a • ((length a)⁻¹ • a) = a := by rw [smul_smul, mul_inv_cancel₀ ha, one_smul]
    refine ⟨(length a)⁻¹ • a, length a, hg, hq, ?_, hla, hl, ?_, Or.inr ?_⟩
    · rw [← norm_pure]
      have : Spec.pure ((length a)⁻¹ • a) = (length a)⁻¹ • Spec.pure a := by ext <;> simp
      rw [this, norm_smul, norm_pure, Real.norm_eq_abs, abs_of_nonneg (by positivity), inv_mul_cancel₀ ha]
    · rw [e, ← hx]
      rcases he with he | he
      · left; exact he.symm
      · right; rw [he, neg_neg]
    · rw [e]; exact hd.symm

section
variable {g q₀ : Vec 4} {u : Vec 3} {θ₀ K C θ ω : ℝ} {s : Vec 4 × Vec 3}

theorem OnPath.start (hs : GeoStart ops g q₀ u θ₀) (hC : 0 < C) : OnPath ops g q₀ u θ₀ C θ₀ 0 (q₀, 0) where
  path := by
    have : Spec.pure 0 = 0 := by ext <;> simp
    simp [this]
  vel := by simp
  hω := le_rfl
  cone := by have := hs.h0; positivity
  hle := le_rfl
  top := hs.top

theorem OnPath.nonneg (hC : 0 < C) (h : OnPath ops g q₀ u θ₀ C θ ω s) : 0 ≤ θ := by
  have := h.hω.trans h.cone
  by_contra hc
  push Not at hc
  nlinarith

theorem OnPath.unit (hs : GeoStart ops g q₀ u θ₀) (h : OnPath ops g q₀ u θ₀ C θ ω s) : UnitQuat s.1 := by
  rw [isUnit_iff_normSq, h.path, map_mul, (isUnit_iff_normSq q₀).1 hs.hq, Quaternion.normSq_exp]
  simp

theorem OnPath.err (hs : GeoStart ops g q₀ u θ₀) (h : OnPath ops g q₀ u θ₀ C θ ω s) :
    quat g * star (quat s.1) = NormedSpace.exp ((1 / 2 : ℝ) • Spec.pure (θ • u)) ∨
      quat g * star (quat s.1) = -NormedSpace.exp ((1 / 2 : ℝ) • Spec.pure (θ • u)) := by
  have e : NormedSpace.exp ((1 / 2 : ℝ) • Spec.pure (θ • u)) =
      NormedSpace.exp ((1 / 2 : ℝ) • Spec.pure (θ₀ • u)) *
        NormedSpace.exp ((1 / 2 : ℝ) • Spec.pure ((-(θ₀ - θ)) • u)) := by
    rw [← exp_add_axis]
    congr 4
    ring
  rw [h.path, StarMul.star_mul, star_exp_axis, ← mul_assoc, e]
  rcases hs.err with h1 | h1
  · left; rw [h1]
  · right; rw [h1, neg_mul]

theorem OnPath.angle (hs : GeoStart ops g q₀ u θ₀) (hC : 0 < C) (h : OnPath ops g q₀ u θ₀ C θ ω s) :
    rotationAngle g s.1 = θ :=
  rotationAngle_eq hs.hu (h.nonneg hC) (h.hle.trans hs.hπ) (h.err hs)

/-- Inside of the dead zone the difference is 0, outside it is the remaining rotation. -/
theorem OnPath.diff (hops : LawfulQuatOps ops eps) (heps : 0 < eps) (hs : GeoStart ops g q₀ u θ₀) (hC : 0 < C)
    (h : OnPath ops g q₀ u θ₀ C θ ω s) :
    QuatStepArgs.diff ops g s.1 = (if Real.sin (θ / 2) < eps then 0 else θ) • u := by
  have hsu := h.unit hs
  have hcu := LawfulQuatOps.unit_conj hops hsu
  have hxu := LawfulQuatOps.unit_mul hops hs.hg hcu
  have hx : quat (ops.mul g (ops.conj s.1)) = quat g * star (quat s.1) := by
    rw [hops.mul _ _ hs.hg hcu, hops.conj _ hsu]
  have he := h.err hs
  rw [← hx] at he
  have h0 := h.nonneg hC
  have hπ := h.hle.trans hs.hπ
  split_ifs with hv
  · rw [zero_smul]
    exact hops.log_small _ hxu (by rw [vec_part_of_exp hs.hu h0 hπ he]; exact hv)
  · rcases h.top with ht | ht
    · exact log_axis hops heps hxu hs.hu h0 ht he (not_lt.1 hv)
    · exact ht

theorem OnPath.step (hops : LawfulQuatOps ops eps) (heps : 0 < eps) (hs : GeoStart ops g q₀ u θ₀) (hK : 0 < K)
    (hC : 0 < C) (hKC : 4 * K ≤ C ^ 2) {h : ℝ} (hh : 0 < h) (hhC : h * C ≤ 1) (hp : OnPath ops g q₀ u θ₀ C θ ω s) :
    ∃ ω', OnPath ops g q₀ u θ₀ C (θ - h * ω') ω' (geoBody ops g K C h s) ∧ 0 ≤ ω' ∧
      ω' = (1 - h * C) * ω + h * K * (if Real.sin (θ / 2) < eps then 0 else θ) := by
  have hd := hp.diff hops heps hs hC
  have hθ := hp.nonneg hC
  have hω := hp.hω
  have hcone := hp.cone
  set d : ℝ := if Real.sin (θ / 2) < eps then 0 else θ with hddef
  have hd0 : 0 ≤ d := by rw [hddef]; split_ifs <;> linarith
  have hdθ : d ≤ θ := by rw [hddef]; split_ifs <;> linarith
  set ω' := (1 - h * C) * ω + h * K * d with hω'
  have hω0 : 0 ≤ ω' := by
    have : 0 ≤ 1 - h * C := by linarith
    positivity
  have hv : (geoBody ops g K C h s).2 = ω' • u := by
    funext i
    show s.2 i + h * (K * QuatStepArgs.diff ops g s.1 i - C * s.2 i) = ω' * u i
    rw [hd, hp.vel]
    simp only [Pi.smul_apply, smul_eq_mul, hω']
    ring
  refine ⟨ω', ⟨?_, hv, hω0, ?_, ?_, ?_⟩, hω0, rfl⟩
  · have h1 : (geoBody ops g K C h s).1 = ops.mul (ops.exp (fun i => h * (geoBody ops g K C h s).2 i)) s.1 := rfl
    rw [h1, hv, hops.mul _ _ (LawfulQuatOps.unit_exp hops _) (hp.unit hs), hops.exp, hp.path, ← mul_assoc]
    have h2 : (fun i => h * (ω' • u) i) = (h * ω') • u := by
      funext i; simp only [Pi.smul_apply, smul_eq_mul]; ring
    rw [h2, ← exp_add_axis]
    congr 5
    ring
  · -- (1 + h C/2) ω' ≤ C/2 θ
    have hk1 : (1 - h * C) * ω ≤ (1 - h * C) * (C / 2 * θ) := mul_le_mul_of_nonneg_left hcone (by linarith)
    have hk2 : h * K * d ≤ h * (C ^ 2 / 4) * θ := by
      have : h * K * d ≤ h * K * θ := mul_le_mul_of_nonneg_left hdθ (by positivity)
      have h3 : h * K * θ ≤ h * (C ^ 2 / 4) * θ := by
        apply mul_le_mul_of_nonneg_right _ hθ
        apply mul_le_mul_of_nonneg_left _ hh.le
        linarith
      linarith
    have hk3 : ω' ≤ C / 2 * θ * (1 - h * (C / 2)) := by
      rw [hω']; linarith [show (1 - h * C) * (C / 2 * θ) + h * (C ^ 2 / 4) * θ = C / 2 * θ * (1 - h * (C / 2)) by ring]
    have hk4 : (1 + h * (C / 2)) * ω' ≤ (1 + h * (C / 2)) * (C / 2 * θ * (1 - h * (C / 2))) :=
      mul_le_mul_of_nonneg_left hk3 (by positivity)
    have hk5 : (1 + h * (C / 2)) * (C / 2 * θ * (1 - h * (C / 2))) = C / 2 * θ - C / 2 * θ * (h * (C / 2)) ^ 2 := by ring
    have hk6 : 0 ≤ C / 2 * θ * (h * (C / 2)) ^ 2 := by positivity
    linarith [show C / 2 * (θ - h * ω') = C / 2 * θ - h * (C / 2) * ω' by ring]
  · have : 0 ≤ h * ω' := by positivity
    linarith [hp.hle]
  · left
    have h1 : 0 ≤ h * ω' := by positivity
    rcases hp.top with ht | ht
    · linarith
    · by_cases hθπ : θ < Real.pi
      · linarith
      · have hπ := hp.hle.trans hs.hπ
        have heq : θ = Real.pi := le_antisymm hπ (not_lt.1 hθπ)
        have hdd : d = θ := by
          have hne : u ≠ 0 := by
            rintro rfl
            have := hs.hu
            simp [length] at this
          have h3 : d • u = θ • u := by rw [← hd, ht]
          exact smul_left_injective ℝ hne h3
        have hd0' : 0 < d := by rw [hdd, heq]; exact Real.pi_pos
        have h4 : 0 ≤ (1 - h * C) * ω := mul_nonneg (by linarith) hω
        have h5 : 0 < ω' := by
          have : 0 < h * K * d := by positivity
          linarith
        have : 0 < h * ω' := by positivity
        linarith

theorem sin_half_mono {a b : ℝ} (h0 : 0 ≤ a) (hab : a ≤ b) (hb : b ≤ Real.pi) : Real.sin (a / 2) ≤ Real.sin (b / 2) :=
  Real.sin_le_sin_of_le_of_le_pi_div_two (by linarith [Real.pi_pos]) (by linarith) (by linarith)

theorem OnPath.foldl (hops : LawfulQuatOps ops eps) (heps : 0 < eps) (hs : GeoStart ops g q₀ u θ₀) (hK : 0 < K)
    (hC : 0 < C) (hKC : 4 * K ≤ C ^ 2) : ∀ (L : List (ℝ × ℝ)), (∀ p ∈ L, 0 < p.1 ∧ p.1 * C ≤ 1) →
      ∀ {θ ω : ℝ} {s : Vec 4 × Vec 3}, OnPath ops g q₀ u θ₀ C θ ω s →
      ∃ θ' ω', OnPath ops g q₀ u θ₀ C θ' ω' (L.foldl (fun s p => geoBody ops g K C p.1 s) s) ∧ θ' ≤ θ ∧
        (Real.sin (θ / 2) < eps → ω' ≤ ω) := by
  intro L
  induction L with
  | nil => intro _ θ ω s h; exact ⟨θ, ω, h, le_rfl, fun _ => le_rfl⟩
  | cons p L ih =>
    intro hL θ ω s h
    obtain ⟨hp, hpC⟩ := hL p (by simp)
    obtain ⟨ω₁, h1, hω₁, hω₁e⟩ := h.step hops heps hs hK hC hKC hp hpC
    obtain ⟨θ₂, ω₂, h2, hθ₂, hω₂⟩ := ih (fun q hq => hL q (by simp [hq])) h1
    have hdrop : 0 ≤ p.1 * ω₁ := by positivity
    refine ⟨θ₂, ω₂, h2, by linarith, fun hd => ?_⟩
    rw [if_pos hd, mul_zero, add_zero] at hω₁e
    have hd1 : Real.sin ((θ - p.1 * ω₁) / 2) < eps :=
      (sin_half_mono (h1.nonneg hC) (by linarith) (h.hle.trans hs.hπ)).trans_lt hd
    have := hω₂ hd1
    have h3 : 0 ≤ p.1 * C * ω := by have := h.hω; positivity
    linarith

/-- Progress in a list of sub-steps. -/
theorem OnPath.foldl_cons (hops : LawfulQuatOps ops eps) (heps : 0 < eps) (hs : GeoStart ops g q₀ u θ₀) (hK : 0 < K)
    (hC : 0 < C) (hKC : 4 * K ≤ C ^ 2) {p : ℝ × ℝ} {L : List (ℝ × ℝ)}
    (hL : ∀ q ∈ p :: L, 0 < q.1 ∧ q.1 * C ≤ 1) (h : OnPath ops g q₀ u θ₀ C θ ω s) :
    ∃ θ' ω', OnPath ops g q₀ u θ₀ C θ' ω' ((p :: L).foldl (fun s p => geoBody ops g K C p.1 s) s) ∧ θ' ≤ θ ∧
        (Real.sin (θ / 2) < eps → ω' ≤ (1 - p.1 * C) * ω) ∧
        (eps ≤ Real.sin (θ / 2) → θ' ≤ θ - p.1 * (p.1 * K * θ)) := by
  obtain ⟨hp, hpC⟩ := hL p (by simp)
  obtain ⟨ω₁, h1, hω₁, hω₁e⟩ := h.step hops heps hs hK hC hKC hp hpC
  obtain ⟨θ₂, ω₂, h2, hθ₂, hω₂⟩ := h1.foldl hops heps hs hK hC hKC L (fun q hq => hL q (by simp [hq]))
  have hdrop : 0 ≤ p.1 * ω₁ := by positivity
  refine ⟨θ₂, ω₂, h2, by linarith, fun hd => ?_, fun hd => ?_⟩
  · rw [if_pos hd, mul_zero, add_zero] at hω₁e
    have hd1 : Real.sin ((θ - p.1 * ω₁) / 2) < eps :=
      (sin_half_mono (h1.nonneg hC) (by linarith) (h.hle.trans hs.hπ)).trans_lt hd
    have := hω₂ hd1
    linarith
  · rw [if_neg (not_lt.2 hd)] at hω₁e
    have h3 : 0 ≤ (1 - p.1 * C) * ω := mul_nonneg (by linarith) h.hω
    have h4 : p.1 * K * θ ≤ ω₁ := by linarith
    have := mul_le_mul_of_nonneg_left h4 hp.le
    linarith

end

open Filter Topology in
/-- From rest, without forcing and coupling terms, the orientation approaches the goal directly. -/
theorem geo_direct (hops : LawfulQuatOps ops eps) (heps : 0 < eps) (heps1 : eps ≤ 1) {g q₀ : Vec 4} {K C hmin : ℝ}
    (hg : UnitQuat g) (hq : UnitQuat q₀) (hK : 0 < K) (hC : 0 < C) (hKC : 4 * K ≤ C ^ 2) (hmin0 : 0 < hmin)
    {xs : ℕ → Vec 4 × Vec 3} (hx0 : xs 0 = (q₀, 0))
    (hx : ∀ i, ∃ (p : ℝ × ℝ) (L : List (ℝ × ℝ)), hmin ≤ p.1 ∧ (∀ q ∈ p :: L, 0 < q.1 ∧ q.1 * C ≤ 1) ∧
      xs (i + 1) = (p :: L).foldl (fun s p => geoBody ops g K C p.1 s) (xs i)) :
    DirectApproach g q₀ eps xs := by
  obtain ⟨u, θ₀, hs⟩ := exists_geoStart hops heps heps1 hg hq
  have hu0 : u ≠ 0 := by
    rintro rfl
    have := hs.hu
    simp [length] at this
  have hex : ∀ i, ∃ θ ω, OnPath ops g q₀ u θ₀ C θ ω (xs i) := by
    intro i
    induction i with
    | zero => rw [hx0]; exact ⟨_, _, OnPath.start hs hC⟩
    | succ i ih =>
      obtain ⟨θ, ω, h⟩ := ih
      obtain ⟨p, L, -, hL, he⟩ := hx i
      obtain ⟨θ', ω', h', -⟩ := h.foldl_cons hops heps hs hK hC hKC hL
      rw [he]
      exact ⟨_, _, h'⟩
  choose θ ω hpath using hex
  have hang : ∀ i, rotationAngle g (xs i).1 = θ i := fun i => (hpath i).angle hs hC
  have hstep : ∀ i, θ (i + 1) ≤ θ i ∧ (Real.sin (θ i / 2) < eps → ω (i + 1) ≤ (1 - hmin * C) * ω i) ∧
      (eps ≤ Real.sin (θ i / 2) → θ (i + 1) ≤ θ i - hmin * (hmin * K * θ i)) := by
    intro i
    obtain ⟨p, L, hp, hL, he⟩ := hx i
    obtain ⟨θ', ω', h', h1, h2, h3⟩ := (hpath i).foldl_cons hops heps hs hK hC hKC hL
    rw [← he] at h'
    have hθ : θ (i + 1) = θ' := by rw [← hang, h'.angle hs hC]
    have hω : ω (i + 1) = ω' := by
      have := (hpath (i + 1)).vel
      rw [h'.vel] at this
      exact (smul_left_injective ℝ hu0 this).symm
    rw [hθ, hω]
    have hθ0 := (hpath i).nonneg hC
    refine ⟨h1, fun hd => (h2 hd).trans ?_, fun hd => (h3 hd).trans ?_⟩
    · apply mul_le_mul_of_nonneg_right _ (hpath i).hω
      have := mul_le_mul_of_nonneg_right hp hC.le
      linarith
    · have h4 : hmin * (hmin * K * θ i) ≤ p.1 * (p.1 * K * θ i) := by
        apply mul_le_mul hp _ (by positivity) (by linarith)
        apply mul_le_mul_of_nonneg_right _ hθ0
        exact mul_le_mul_of_nonneg_right hp hK.le
      linarith
  have hanti : Antitone θ := antitone_nat_of_succ_le fun i => (hstep i).1
  have hθ0 : ∀ i, 0 ≤ θ i := fun i => (hpath i).nonneg hC
  have hθπ : ∀ i, θ i ≤ Real.pi := fun i => (hpath i).hle.trans hs.hπ
  have hang0 : rotationAngle g q₀ = θ₀ := rotationAngle_eq hs.hu hs.h0 hs.hπ hs.err
  have hreach : ∃ N, ∀ i ≥ N, Real.sin (θ i / 2) < eps := by
    by_contra hne
    push Not at hne
    have hall : ∀ i, eps ≤ Real.sin (θ i / 2) := by
      intro i
      obtain ⟨j, hj, hj2⟩ := hne i
      exact hj2.trans (sin_half_mono (hθ0 j) (hanti hj) (hθπ i))
    have hlow : ∀ i, 2 * eps ≤ θ i := by
      intro i
      have := (hall i).trans (Real.sin_le (by have := hθ0 i; linarith))
      linarith
    have hdec : ∀ i : ℕ, θ i ≤ θ 0 - i * (hmin * (hmin * K * (2 * eps))) := by
      intro i
      induction i with
      | zero => simp
      | succ i ih =>
        have h1 := (hstep i).2.2 (hall i)
        have h2 : hmin * (hmin * K * (2 * eps)) ≤ hmin * (hmin * K * θ i) := by
          apply mul_le_mul_of_nonneg_left _ hmin0.le
          exact mul_le_mul_of_nonneg_left (hlow i) (by positivity)
        push_cast
        linarith
    have hc : 0 < hmin * (hmin * K * (2 * eps)) := by positivity
    obtain ⟨n, hn⟩ := exists_nat_gt (θ 0 / (hmin * (hmin * K * (2 * eps))))
    rw [div_lt_iff₀ hc] at hn
    have := hdec n
    have := hθ0 n
    linarith
  obtain ⟨N, hN⟩ := hreach
  have hr0 : 0 ≤ 1 - hmin * C := by
    obtain ⟨p, L, hp, hL, -⟩ := hx 0
    have h1 := (hL p (by simp)).2
    have := mul_le_mul_of_nonneg_right hp hC.le
    linarith
  have hr1 : 1 - hmin * C < 1 := by
    have : 0 < hmin * C := by positivity
    linarith
  have hωgeo : ∀ i, ω (N + i) ≤ (1 - hmin * C) ^ i * ω N := by
    intro i
    induction i with
    | zero => simp
    | succ i ih =>
      have h1 := (hstep (N + i)).2.1 (hN _ (by omega))
      have h2 := mul_le_mul_of_nonneg_left ih hr0
      rw [pow_succ]
      calc ω (N + (i + 1)) ≤ (1 - hmin * C) * ω (N + i) := h1
        _ ≤ (1 - hmin * C) * ((1 - hmin * C) ^ i * ω N) := h2
        _ = _ := by ring
  have hω0 : Tendsto ω atTop (𝓝 0) := by
    have h1 : Tendsto (fun i => ω (i + N)) atTop (𝓝 0) := by
      refine squeeze_zero (fun i => (hpath _).hω) (g := fun i => (1 - hmin * C) ^ i * ω N)
        (fun i => by have := hωgeo i; rwa [add_comm] at this) ?_
      have := (tendsto_pow_atTop_nhds_zero_of_lt_one hr0 hr1).mul_const (ω N)
      simpa using this
    exact (tendsto_add_atTop_iff_nat N).1 h1
  refine ⟨⟨u, hs.hu, fun i => ⟨θ₀ - θ i, ω i, ?_, ?_, (hpath i).hω, (hpath i).path, (hpath i).vel, ?_⟩⟩, ?_, ?_, ?_⟩
  · have := (hpath i).hle; linarith
  · rw [hang0]; have := hθ0 i; linarith
  · rw [hang, hang0]; ring
  · intro i j hij
    simp only [hang]
    exact hanti hij
  · exact eventually_atTop.2 ⟨N, fun i hi => by rw [hang]; exact hN i hi⟩
  · have h1 : (fun i => (xs i).2) = fun i => ω i • u := funext fun i => (hpath i).vel
    rw [h1]
    simpa using hω0.smul_const u

/-- Sub-steps of a non-empty time interval. -/
theorem subSteps_nonempty {intDt dt t : ℝ} (hint : 0 < intDt) (hdt : 0 < dt) {C : ℝ} (hC : 0 < C)
    (hCi : intDt * C ≤ 1) : ∃ (p : ℝ × ℝ) (L : List (ℝ × ℝ)), min intDt dt ≤ p.1 ∧
      (∀ q ∈ p :: L, 0 < q.1 ∧ q.1 * C ≤ 1) ∧ subSteps intDt (t + dt) t = p :: L := by
  have hall : ∀ q ∈ subSteps intDt (t + dt) t, 0 < q.1 ∧ q.1 * C ≤ 1 := by
    intro q hq
    obtain ⟨h1, h2⟩ := (subSteps_isPartition hint t (by linarith)).pos q hq
    exact ⟨h1, (mul_le_mul_of_nonneg_right h2 hC.le).trans hCi⟩
  by_cases h : intDt < dt
  · have e := subSteps_cons (intDt := intDt) (t := t + dt) (lastT := t) hint (by linarith)
    exact ⟨_, _, min_le_left _ _, by rw [← e]; exact hall, e⟩
  · have e := subSteps_last (intDt := intDt) (t := t + dt) (lastT := t) hint (by linarith) (by linarith)
    exact ⟨_, _, by simp, by rw [← e]; exact hall, e⟩

end Verif
