import Verif.Lemmas.Hinge
import Mathlib.Analysis.Normed.Group.InfiniteSum
import Mathlib.Topology.Algebra.InfiniteSum.Real

/-! # Energy of the orientation dynamics

The energy is `|v|² + K θ²` with the angular velocity `v` and the angle `θ` to the goal. -/

namespace Verif
open Spec Quaternion Filter Topology

variable {ops : QuatOps} {eps : ℝ}

/-- One step of the orientation dynamics with an additional acceleration `F`. -/
noncomputable def forcedBody (ops : QuatOps) (g : Vec 4) (K C h : ℝ) (F : Vec 3) (s : Vec 4 × Vec 3) : Vec 4 × Vec 3 :=
  let v' : Vec 3 := fun i => s.2 i + h * (K * QuatStepArgs.diff ops g s.1 i - C * s.2 i + F i)
  (ops.mul (ops.exp (fun i => h * v' i)) s.1, v')

theorem rotationAngle_nonneg (p q : Vec 4) : 0 ≤ rotationAngle p q := by
  unfold rotationAngle
  have := Real.arccos_nonneg |∑ i, p i * q i|
  linarith

theorem rotationAngle_of_exp {p q : Vec 4} {a : Vec 3} (hl : length a ≤ Real.pi)
    (h : quat p * star (quat q) = NormedSpace.exp ((1 / 2 : ℝ) • Spec.pure a) ∨
      quat p * star (quat q) = -NormedSpace.exp ((1 / 2 : ℝ) • Spec.pure a)) : rotationAngle p q = length a := by
  have h0 := length_nonneg a
  have hc : 0 ≤ Real.cos (length a / 2) := Real.cos_nonneg_of_mem_Icc ⟨by linarith, by linarith⟩
  have he : (NormedSpace.exp ((1 / 2 : ℝ) • Spec.pure a)).re = Real.cos (length a / 2) := by rw [exp_half]
  have : |∑ i, p i * q i| = Real.cos (length a / 2) := by
    rw [← inner_of_mul_star]
    rcases h with h | h
    · rw [h, he, abs_of_nonneg hc]
    · rw [h, Quaternion.re_neg, he, abs_neg, abs_of_nonneg hc]
  unfold rotationAngle
  rw [this, Real.arccos_cos (by linarith) (by linarith)]
  ring

/-- The rotation to the goal and what the implementation uses in place of it. -/
theorem exists_rotation (hops : LawfulQuatOps ops eps) (heps : 0 < eps) {g q : Vec 4} (hg : UnitQuat g)
    (hq : UnitQuat q) : ∃ a : Vec 3, length a = rotationAngle g q ∧
      (quat g * star (quat q) = NormedSpace.exp ((1 / 2 : ℝ) • Spec.pure a) ∨
        quat g * star (quat q) = -NormedSpace.exp ((1 / 2 : ℝ) • Spec.pure a)) ∧
      (QuatStepArgs.diff ops g q = a ∧ 2 * eps ≤ length a ∨
        QuatStepArgs.diff ops g q = 0 ∧ length a ≤ Real.pi * eps) := by
  have hcu := LawfulQuatOps.unit_conj hops hq
  have hxu := LawfulQuatOps.unit_mul hops hg hcu
  have hx : quat (ops.mul g (ops.conj q)) = quat g * star (quat q) := by
    rw [hops.mul _ _ hg hcu, hops.conj _ hq]
  by_cases hv : √((ops.mul g (ops.conj q)) 1 ^ 2 + (ops.mul g (ops.conj q)) 2 ^ 2 +
      (ops.mul g (ops.conj q)) 3 ^ 2) < eps
  · obtain ⟨u, θ, hu, h0, hπ, he⟩ := exists_axis hxu
    have hl : length (θ • u) = θ := by rw [length_smul_axis hu, abs_of_nonneg h0]
    rw [vec_part_of_exp hu h0 hπ he] at hv
    rw [hx] at he
    refine ⟨θ • u, ?_, he, Or.inr ⟨?_, ?_⟩⟩
    · rw [rotationAngle_of_exp (by rw [hl]; exact hπ) he]
    · rw [hx.symm] at he
      exact hops.log_small _ hxu (by rw [vec_part_of_exp hu h0 hπ he]; exact hv)
    · rw [hl]
      have h1 := Real.mul_le_sin (x := θ / 2) (by linarith) (by linarith)
      have h2 : 2 / Real.pi * (θ / 2) = θ / Real.pi := by ring
      rw [h2] at h1
      have h3 := h1.trans hv.le
      rw [div_le_iff₀ Real.pi_pos] at h3
      linarith
  · rw [not_lt] at hv
    obtain ⟨hl, he⟩ := hops.log _ hxu hv
    have he' : quat g * star (quat q) = NormedSpace.exp ((1 / 2 : ℝ) • Spec.pure (QuatStepArgs.diff ops g q)) ∨
        quat g * star (quat q) = -NormedSpace.exp ((1 / 2 : ℝ) • Spec.pure (QuatStepArgs.diff ops g q)) := by
      unfold QuatStepArgs.diff
      rw [← hx]
      rcases he with he | he
      · left; exact he.symm
      · right; rw [he, neg_neg]
    refine ⟨QuatStepArgs.diff ops g q, (rotationAngle_of_exp hl he').symm, he', Or.inl ⟨rfl, ?_⟩⟩
    have h0 := length_nonneg (QuatStepArgs.diff ops g q)
    by_cases hz : length (QuatStepArgs.diff ops g q) = 0
    · exfalso
      have h1 : length (![1, 0, 0] : Vec 3) = 1 := by simp [length]
      rw [length_eq_zero.1 hz, ← zero_smul ℝ (![1, 0, 0] : Vec 3), ← hx] at he'
      rw [vec_part_of_exp h1 le_rfl Real.pi_pos.le he'] at hv
      simp at hv
      linarith
    · set a := QuatStepArgs.diff ops g q with ha
      have e : length a • ((length a)⁻¹ • a) = a := by rw [smul_smul, mul_inv_cancel₀ hz, one_smul]
      have hu : length ((length a)⁻¹ • a) = 1 := by
        rw [← norm_pure]
        have : Spec.pure ((length a)⁻¹ • a) = (length a)⁻¹ • Spec.pure a := by ext <;> simp
        rw [this, norm_smul, norm_pure, Real.norm_eq_abs, abs_of_nonneg (by positivity), inv_mul_cancel₀ hz]
      rw [← e, ← hx] at he'
      rw [vec_part_of_exp hu h0 hl he'] at hv
      have := hv.trans (Real.sin_le (by linarith))
      linarith

/-- Kinetic and potential energy. -/
noncomputable def energy (g : Vec 4) (K : ℝ) (s : Vec 4 × Vec 3) : ℝ := rsq3 s.2 + K * rotationAngle g s.1 ^ 2

theorem energy_scalar (v v' a a' F K C h : ℝ) (hv : v' = v + h * (K * a' - C * v + F)) :
    v' ^ 2 + K * (a - h * v') ^ 2 = v ^ 2 + K * a ^ 2 - h * C * v' ^ 2 + 2 * h * ((F - K * (a - a')) * v') -
      h ^ 2 * (K * a' - C * v + F - C * v') ^ 2 - h * (C - h * C ^ 2 - h * K) * v' ^ 2 := by
  subst hv; ring

theorem length_sub_le (a b : Vec 3) : length (a - b) ≤ length a + length b := by
  rw [← norm_pure, ← norm_pure, ← norm_pure]
  have : Spec.pure (a - b) = Spec.pure a - Spec.pure b := by ext <;> simp
  rw [this]
  exact norm_sub_le _ _

theorem length_smul_nonneg {h : ℝ} (hh : 0 ≤ h) (a : Vec 3) : length (h • a) = h * length a := by
  rw [← norm_pure, ← norm_pure]
  have : Spec.pure (h • a) = h • Spec.pure a := by ext <;> simp
  rw [this, norm_smul, Real.norm_eq_abs, abs_of_nonneg hh]

section
variable {g : Vec 4} {K C h : ℝ}

theorem forcedBody_unit (hops : LawfulQuatOps ops eps) (F : Vec 3) {s : Vec 4 × Vec 3} (hs : UnitQuat s.1) :
    UnitQuat (forcedBody ops g K C h F s).1 :=
  LawfulQuatOps.unit_mul hops (LawfulQuatOps.unit_exp hops _) hs

/-- Either the energy decreases up to the work of the force, or the state is next to the goal. -/
theorem energy_step (hops : LawfulQuatOps ops eps) (heps : 0 < eps) (hg : UnitQuat g) (hK : 0 < K) (hC : 0 < C)
    (hh : 0 < h) (hst : h * (C ^ 2 + K) ≤ C) (F : Vec 3) {s : Vec 4 × Vec 3} (hs : UnitQuat s.1) :
    let s' := forcedBody ops g K C h F s
    energy g K s' ≤ energy g K s - h * C / 2 * rsq3 s'.2 + 4 * h / C * rsq3 F ∨
    energy g K s' ≤ (8 * K * (Real.pi * eps) / C) ^ 2 +
      K * (Real.pi * eps + h * (8 * K * (Real.pi * eps) / C)) ^ 2 := by
  intro s'
  obtain ⟨a, hla, herr, hzone⟩ := exists_rotation hops heps hg hs
  have hpe : 0 < Real.pi * eps := mul_pos Real.pi_pos heps
  have hq' : quat s'.1 = NormedSpace.exp ((1 / 2 : ℝ) • Spec.pure (h • s'.2)) * quat s.1 := by
    show quat (ops.mul (ops.exp _) s.1) = _
    rw [hops.mul _ _ (LawfulQuatOps.unit_exp hops _) hs, hops.exp]
    rfl
  have hang := rotationAngle_step_le herr hq'
  have hang0 := rotationAngle_nonneg g s'.1
  have hang2 : rotationAngle g s'.1 ^ 2 ≤ rsq3 (a - h • s'.2) := by
    rw [← length_sq]
    exact pow_le_pow_left₀ hang0 hang 2
  have hmain : energy g K s' ≤ energy g K s - h * C * rsq3 s'.2 +
      2 * h * rdot3 (F - K • (a - QuatStepArgs.diff ops g s.1)) s'.2 := by
    have h1 : energy g K s' ≤ rsq3 s'.2 + K * rsq3 (a - h • s'.2) := by
      unfold energy
      have := mul_le_mul_of_nonneg_left hang2 hK.le
      linarith
    have hv : ∀ i, s'.2 i = s.2 i + h * (K * QuatStepArgs.diff ops g s.1 i - C * s.2 i + F i) := fun i => rfl
    have e0 := energy_scalar (s.2 0) (s'.2 0) (a 0) _ (F 0) K C h (hv 0)
    have e1 := energy_scalar (s.2 1) (s'.2 1) (a 1) _ (F 1) K C h (hv 1)
    have e2 := energy_scalar (s.2 2) (s'.2 2) (a 2) _ (F 2) K C h (hv 2)
    have hen : energy g K s = rsq3 s.2 + K * rsq3 a := by
      unfold energy
      rw [← hla, length_sq]
    rw [hen]
    refine h1.trans ?_
    have hnn : 0 ≤ h * (C - h * C ^ 2 - h * K) := mul_nonneg hh.le (by linarith)
    have n0 : 0 ≤ h ^ 2 * (K * QuatStepArgs.diff ops g s.1 0 - C * s.2 0 + F 0 - C * s'.2 0) ^ 2 := by positivity
    have n1 : 0 ≤ h ^ 2 * (K * QuatStepArgs.diff ops g s.1 1 - C * s.2 1 + F 1 - C * s'.2 1) ^ 2 := by positivity
    have n2 : 0 ≤ h ^ 2 * (K * QuatStepArgs.diff ops g s.1 2 - C * s.2 2 + F 2 - C * s'.2 2) ^ 2 := by positivity
    have m0 := mul_nonneg hnn (sq_nonneg (s'.2 0))
    have m1 := mul_nonneg hnn (sq_nonneg (s'.2 1))
    have m2 := mul_nonneg hnn (sq_nonneg (s'.2 2))
    unfold rsq3 rdot3
    simp only [Pi.sub_apply, Pi.smul_apply, smul_eq_mul]
    linarith
  have hFv : ∀ c : ℝ, 0 < c → 2 * h * rdot3 F s'.2 ≤ h * c * rsq3 s'.2 + h / c * rsq3 F := by
    intro c hc
    have e : h * c * rsq3 s'.2 + h / c * rsq3 F - 2 * h * rdot3 F s'.2 =
        h / c * ((c * s'.2 0 - F 0) ^ 2 + (c * s'.2 1 - F 1) ^ 2 + (c * s'.2 2 - F 2) ^ 2) := by
      unfold rsq3 rdot3
      field_simp
      ring
    have : 0 ≤ h / c * ((c * s'.2 0 - F 0) ^ 2 + (c * s'.2 1 - F 1) ^ 2 + (c * s'.2 2 - F 2) ^ 2) := by positivity
    linarith
  have hsq := rsq3_nonneg s'.2
  rcases hzone with ⟨hd, -⟩ | ⟨hd, hsmall⟩
  · left
    rw [hd, sub_self, smul_zero, sub_zero] at hmain
    have h1 := hFv (C / 4) (by positivity)
    have e1 : h / (C / 4) = 4 * h / C := by field_simp
    rw [e1] at h1
    have : 0 ≤ h * (C / 4) * rsq3 s'.2 := by positivity
    linarith
  · rw [hd, sub_zero] at hmain
    by_cases hm : 8 * K * (Real.pi * eps) / C ≤ length s'.2
    · left
      have h1 := hFv (C / 4) (by positivity)
      have e1 : h / (C / 4) = 4 * h / C := by field_simp
      rw [e1] at h1
      have h2 : rdot3 (F - K • a) s'.2 = rdot3 F s'.2 - K * rdot3 a s'.2 := by
        unfold rdot3; simp only [Pi.sub_apply, Pi.smul_apply, smul_eq_mul]; ring
      have h3 : -rdot3 a s'.2 ≤ Real.pi * eps * length s'.2 := by
        have := (neg_le_abs (rdot3 a s'.2)).trans (abs_rdot3_le a s'.2)
        exact this.trans (mul_le_mul_of_nonneg_right hsmall (length_nonneg _))
      have h4 : 8 * (K * (Real.pi * eps)) * length s'.2 ≤ C * rsq3 s'.2 := by
        rw [div_le_iff₀ hC] at hm
        have := mul_le_mul_of_nonneg_right hm (length_nonneg s'.2)
        rw [← length_sq]
        linarith [show length s'.2 * C * length s'.2 = C * length s'.2 ^ 2 by ring]
      have h5 : 2 * h * (-(K * rdot3 a s'.2)) ≤ h * (C / 4) * rsq3 s'.2 := by
        have h6 : -(K * rdot3 a s'.2) ≤ K * (Real.pi * eps) * length s'.2 := by
          have := mul_le_mul_of_nonneg_left h3 hK.le
          linarith
        have h7 : 2 * h * (-(K * rdot3 a s'.2)) ≤ 2 * h * (K * (Real.pi * eps) * length s'.2) :=
          mul_le_mul_of_nonneg_left h6 (by positivity)
        have h8 := mul_le_mul_of_nonneg_left h4 (show 0 ≤ h / 4 by positivity)
        linarith
      rw [h2] at hmain
      linarith
    · right
      push Not at hm
      have hl0 := length_nonneg s'.2
      have h1 : rsq3 s'.2 ≤ (8 * K * (Real.pi * eps) / C) ^ 2 := by
        rw [← length_sq]
        exact pow_le_pow_left₀ hl0 hm.le 2
      have h2 : rotationAngle g s'.1 ≤ Real.pi * eps + h * (8 * K * (Real.pi * eps) / C) := by
        refine hang.trans ((length_sub_le _ _).trans ?_)
        rw [length_smul_nonneg hh.le]
        have := mul_le_mul_of_nonneg_left hm.le hh.le
        linarith
      have h3 := pow_le_pow_left₀ hang0 h2 2
      unfold energy
      have := mul_le_mul_of_nonneg_left h3 hK.le
      linarith

end

/-- A sequence that decreases up to a summable error, or falls to a level. -/
theorem eventually_le_level {V n e : ℕ → ℝ} {b c : ℝ} (hV : ∀ k, 0 ≤ V k) (hn : ∀ k, 0 ≤ n k)
    (he : ∀ k, 0 ≤ e k) (hes : Summable e) (hc : 0 < c)
    (hstep : ∀ k, V (k + 1) ≤ V k - c * n k + e k ∨ V (k + 1) ≤ b)
    (hrest : Tendsto n atTop (𝓝 0) → ∀ η > 0, ∀ᶠ k in atTop, V k ≤ b + η) :
    ∀ η > 0, ∀ᶠ k in atTop, V k ≤ b + η := by
  intro η hη
  by_cases hbad : ∃ᶠ k in atTop, V (k + 1) ≤ b
  · obtain ⟨s, hs⟩ := summable_iff_vanishing_norm.1 hes η hη
    obtain ⟨N, hN⟩ : ∃ N, ∀ j ∈ s, j < N := ⟨s.sup id + 1, fun j hj => Nat.lt_succ_of_le (Finset.le_sup (f := id) hj)⟩
    obtain ⟨k0, hk0, hb⟩ := (frequently_atTop.1 hbad) N
    have key : ∀ j, V (k0 + 1 + j) ≤ b + ∑ i ∈ Finset.Ico (k0 + 1) (k0 + 1 + j), e i := by
      intro j
      induction j with
      | zero => simpa using hb
      | succ j ih =>
        rw [← add_assoc, Finset.sum_Ico_succ_top (by omega)]
        have hnn : 0 ≤ ∑ i ∈ Finset.Ico (k0 + 1) (k0 + 1 + j), e i := Finset.sum_nonneg fun i _ => he i
        have hek := he (k0 + 1 + j)
        rcases hstep (k0 + 1 + j) with h | h
        · have : 0 ≤ c * n (k0 + 1 + j) := mul_nonneg hc.le (hn _)
          linarith
        · linarith
    refine eventually_atTop.2 ⟨k0 + 1, fun k hk => ?_⟩
    obtain ⟨j, rfl⟩ := Nat.exists_eq_add_of_le hk
    refine (key j).trans ?_
    have hdis : Disjoint (Finset.Ico (k0 + 1) (k0 + 1 + j)) s := by
      rw [Finset.disjoint_left]
      intro i hi his
      have := hN i his
      rw [Finset.mem_Ico] at hi
      omega
    have := hs _ hdis
    rw [Real.norm_eq_abs] at this
    linarith [le_abs_self (∑ i ∈ Finset.Ico (k0 + 1) (k0 + 1 + j), e i)]
  · rw [not_frequently] at hbad
    obtain ⟨N, hN⟩ := eventually_atTop.1 hbad
    have hgood : ∀ k, V (N + k + 1) ≤ V (N + k) - c * n (N + k) + e (N + k) := by
      intro k
      rcases hstep (N + k) with h | h
      · exact h
      · exact absurd h (hN (N + k) (by omega))
    have hsum : ∀ k, ∑ i ∈ Finset.range k, c * n (N + i) ≤ V N - V (N + k) + ∑ i ∈ Finset.range k, e (N + i) := by
      intro k
      induction k with
      | zero => simp
      | succ k ih =>
        rw [Finset.sum_range_succ, Finset.sum_range_succ]
        have := hgood k
        rw [show N + (k + 1) = N + k + 1 by ring]
        linarith
    have hes' : Summable fun i => e (N + i) := by
      have := (summable_nat_add_iff N).2 hes
      simpa [add_comm] using this
    have hsummable : Summable fun i => c * n (N + i) := by
      refine summable_of_sum_range_le (c := V N + ∑' i, e (N + i)) (fun i => mul_nonneg hc.le (hn _)) (fun k => ?_)
      have h1 := hsum k
      have h2 := hes'.sum_le_tsum (Finset.range k) (fun i _ => he _)
      have := hV (N + k)
      linarith
    have h0 : Tendsto (fun i => n (i + N)) atTop (𝓝 0) := by
      have := (hsummable.tendsto_atTop_zero).const_mul c⁻¹
      simpa [← mul_assoc, inv_mul_cancel₀ hc.ne', add_comm] using this
    exact hrest ((tendsto_add_atTop_iff_nat N).1 h0) η hη

theorem tendsto_coord {x : ℕ → Vec 3} (h : Tendsto (fun k => rsq3 (x k)) atTop (𝓝 0)) (i : Fin 3) :
    Tendsto (fun k => x k i) atTop (𝓝 0) := by
  have h1 : Tendsto (fun k => x k i ^ 2) atTop (𝓝 0) := by
    refine squeeze_zero (fun k => sq_nonneg _) (fun k => ?_) h
    unfold rsq3
    fin_cases i
    · show x k 0 ^ 2 ≤ _
      nlinarith [sq_nonneg (x k 1), sq_nonneg (x k 2)]
    · show x k 1 ^ 2 ≤ _
      nlinarith [sq_nonneg (x k 0), sq_nonneg (x k 2)]
    · show x k 2 ^ 2 ≤ _
      nlinarith [sq_nonneg (x k 0), sq_nonneg (x k 1)]
  have h2 := h1.sqrt
  rw [Real.sqrt_zero] at h2
  have h3 : (fun k => √(x k i ^ 2)) = fun k => |x k i| := funext fun k => Real.sqrt_sq_eq_abs _
  rw [h3] at h2
  exact (tendsto_zero_iff_abs_tendsto_zero _).2 h2

theorem tendsto_rsq3 {x : ℕ → Vec 3} (h : ∀ i, Tendsto (fun k => x k i) atTop (𝓝 0)) :
    Tendsto (fun k => rsq3 (x k)) atTop (𝓝 0) := by
  have := (((h 0).pow 2).add ((h 1).pow 2)).add ((h 2).pow 2)
  simpa [rsq3] using this

/-- The orientation comes and stays close to the goal. -/
theorem energy_ultimate (hops : LawfulQuatOps ops eps) (heps : 0 < eps) {g : Vec 4} (hg : UnitQuat g) {K C H hmin : ℝ}
    (hK : 0 < K) (hC : 0 < C) (hmin0 : 0 < hmin) (hst : H * (C ^ 2 + K) ≤ C) {h : ℕ → ℝ}
    (hh : ∀ k, hmin ≤ h k ∧ h k ≤ H) {F : ℕ → Vec 3} (hF : Summable fun k => rsq3 (F k)) {s : ℕ → Vec 4 × Vec 3}
    (hs0 : UnitQuat (s 0).1) (hs : ∀ k, s (k + 1) = forcedBody ops g K C (h k) (F k) (s k)) :
    ∀ η > 0, ∀ᶠ k in atTop, energy g K (s k) ≤ (8 * K * (Real.pi * eps) / C) ^ 2 +
      K * (Real.pi * eps + H * (8 * K * (Real.pi * eps) / C)) ^ 2 + η := by
  have hpe : 0 < Real.pi * eps := mul_pos Real.pi_pos heps
  have hH0 : 0 < H := hmin0.trans_le ((hh 0).1.trans (hh 0).2)
  have hunit : ∀ k, UnitQuat (s k).1 := by
    intro k
    induction k with
    | zero => exact hs0
    | succ k ih => rw [hs k]; exact forcedBody_unit hops _ ih
  have hhp : ∀ k, 0 < h k := fun k => hmin0.trans_le (hh k).1
  set m := 8 * K * (Real.pi * eps) / C with hm
  have hm0 : 0 < m := by positivity
  refine eventually_le_level (V := fun k => energy g K (s k)) (n := fun k => rsq3 (s (k + 1)).2)
    (e := fun k => 4 * H / C * rsq3 (F k)) (c := hmin * C / 2) ?_ (fun k => rsq3_nonneg _) ?_ (hF.mul_left _)
    (by positivity) ?_ ?_
  · intro k
    have := rsq3_nonneg (s k).2
    unfold energy
    positivity
  · intro k
    have := rsq3_nonneg (F k)
    positivity
  · intro k
    have hst' : h k * (C ^ 2 + K) ≤ C := (mul_le_mul_of_nonneg_right (hh k).2 (by positivity)).trans hst
    have := energy_step hops heps hg hK hC (hhp k) hst' (F k) (hunit k)
    simp only [← hs k] at this
    rcases this with h1 | h1
    · left
      have h2 : hmin * C / 2 * rsq3 (s (k + 1)).2 ≤ h k * C / 2 * rsq3 (s (k + 1)).2 := by
        apply mul_le_mul_of_nonneg_right _ (rsq3_nonneg _)
        have := mul_le_mul_of_nonneg_right (hh k).1 hC.le
        linarith
      have h3 : 4 * h k / C * rsq3 (F k) ≤ 4 * H / C * rsq3 (F k) := by
        apply mul_le_mul_of_nonneg_right _ (rsq3_nonneg _)
        apply div_le_div_of_nonneg_right _ hC.le
        linarith [(hh k).2]
      linarith
    · right
      refine h1.trans ?_
      have h2 : Real.pi * eps + h k * m ≤ Real.pi * eps + H * m := by
        have := mul_le_mul_of_nonneg_right (hh k).2 hm0.le
        linarith
      have h3 : 0 ≤ Real.pi * eps + h k * m := by have := hhp k; positivity
      have := mul_le_mul_of_nonneg_left (pow_le_pow_left₀ h3 h2 2) hK.le
      linarith
  · intro hn η hη
    have hv1 : ∀ i, Tendsto (fun k => (s (k + 1)).2 i) atTop (𝓝 0) := tendsto_coord hn
    have hv : ∀ i, Tendsto (fun k => (s k).2 i) atTop (𝓝 0) := fun i => (tendsto_add_atTop_iff_nat 1).1 (hv1 i)
    have hF0 : ∀ i, Tendsto (fun k => F k i) atTop (𝓝 0) := tendsto_coord hF.tendsto_atTop_zero
    have hd : ∀ i, Tendsto (fun k => QuatStepArgs.diff ops g (s k).1 i) atTop (𝓝 0) := by
      intro i
      have e : ∀ k, QuatStepArgs.diff ops g (s k).1 i =
          (((s (k + 1)).2 i - (s k).2 i) * (h k)⁻¹ + C * (s k).2 i - F k i) * K⁻¹ := by
        intro k
        have h1 : (s (k + 1)).2 i = (s k).2 i +
            h k * (K * QuatStepArgs.diff ops g (s k).1 i - C * (s k).2 i + F k i) := by rw [hs k]; rfl
        have := (hhp k).ne'
        rw [h1]
        field_simp
        ring
      have h1 : Tendsto (fun k => ((s (k + 1)).2 i - (s k).2 i) * (h k)⁻¹) atTop (𝓝 0) := by
        have h2 : Tendsto (fun k => (s (k + 1)).2 i - (s k).2 i) atTop (𝓝 0) := by
          simpa using (hv1 i).sub (hv i)
        refine squeeze_zero_norm (a := fun k => |(s (k + 1)).2 i - (s k).2 i| * hmin⁻¹) (fun k => ?_) ?_
        · rw [Real.norm_eq_abs, abs_mul, abs_of_pos (inv_pos.2 (hhp k))]
          exact mul_le_mul_of_nonneg_left (inv_anti₀ hmin0 (hh k).1) (abs_nonneg _)
        · simpa using h2.abs.mul_const hmin⁻¹
      have h3 := ((h1.add ((hv i).const_mul C)).sub (hF0 i)).mul_const K⁻¹
      simp only [mul_zero, add_zero, sub_zero, zero_mul] at h3
      exact h3.congr fun k => (e k).symm
    have hd2 := tendsto_rsq3 hd
    have hv2 := tendsto_rsq3 hv
    have ev1 : ∀ᶠ k in atTop, rsq3 (QuatStepArgs.diff ops g (s k).1) < (2 * eps) ^ 2 :=
      hd2.eventually (gt_mem_nhds (by positivity))
    have ev2 : ∀ᶠ k in atTop, rsq3 (s k).2 < η := hv2.eventually (gt_mem_nhds hη)
    filter_upwards [ev1, ev2] with k h1 h2
    obtain ⟨a, hla, -, hz⟩ := exists_rotation hops heps hg (hunit k)
    rcases hz with ⟨h3, h4⟩ | ⟨-, h4⟩
    · exfalso
      rw [h3, ← length_sq] at h1
      have := pow_le_pow_left₀ (by positivity) h4 2
      linarith
    · rw [hla] at h4
      have h5 := pow_le_pow_left₀ (rotationAngle_nonneg _ _) h4 2
      have h6 : (Real.pi * eps) ^ 2 ≤ (Real.pi * eps + H * m) ^ 2 := by
        apply pow_le_pow_left₀ hpe.le
        have : 0 < H * m := by positivity
        linarith
      have h7 := mul_le_mul_of_nonneg_left (h5.trans h6) hK.le
      unfold energy
      have : 0 < m ^ 2 := by positivity
      linarith

end Verif
