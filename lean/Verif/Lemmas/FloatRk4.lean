import Verif.Lemmas.FloatDmp

/-!
# Rounding errors of the Runge-Kutta method

All quantities are scaled such that the larger of the two rates of decay is 1. `l` is the smaller one, `x` the step size.
-/

namespace Verif
open Spec

/-- Norm in which the Runge-Kutta method contracts. -/
noncomputable def rkNorm (l e v : ℝ) : ℝ := max |e| (2 / l * |v + l * e|)

theorem rkNorm_nonneg (l e v : ℝ) : 0 ≤ rkNorm l e v := (abs_nonneg e).trans (le_max_left _ _)

theorem abs_le_rkNorm (l e v : ℝ) : |e| ≤ rkNorm l e v := le_max_left _ _

theorem rkNorm_slope {l : ℝ} (hl : 0 < l) (e v : ℝ) : |v + l * e| ≤ l / 2 * rkNorm l e v := by
  have : 2 / l * |v + l * e| ≤ rkNorm l e v := le_max_right _ _
  have h2 := mul_le_mul_of_nonneg_left this (show 0 ≤ l / 2 by positivity)
  have e1 : l / 2 * (2 / l * |v + l * e|) = |v + l * e| := by field_simp
  linarith

theorem rkNorm_velocity {l : ℝ} (hl : 0 < l) (e v : ℝ) : |v| ≤ 3 / 2 * (l * rkNorm l e v) := by
  have h1 := rkNorm_slope hl e v
  have h2 := mul_le_mul_of_nonneg_left (abs_le_rkNorm l e v) hl.le
  have : |v| ≤ |v + l * e| + l * |e| := by
    calc |v| = |v + l * e - l * e| := by rw [add_sub_cancel_right]
      _ ≤ |v + l * e| + |l * e| := abs_sub _ _
      _ = _ := by rw [abs_mul, abs_of_pos hl]
  linarith

theorem rkNorm_le {l : ℝ} (hl : 0 < l) {e v M : ℝ} (h1 : |e| ≤ M) (h2 : |v + l * e| ≤ l / 2 * M) : rkNorm l e v ≤ M := by
  refine max_le h1 ?_
  have := mul_le_mul_of_nonneg_left h2 (show 0 ≤ 2 / l by positivity)
  have e1 : 2 / l * (l / 2 * M) = M := by field_simp
  linarith

theorem rkNorm_add {l : ℝ} (hl : 0 < l) (e v e' v' : ℝ) : rkNorm l (e + e') (v + v') ≤ rkNorm l e v + rkNorm l e' v' := by
  refine rkNorm_le hl ((abs_add_le _ _).trans (add_le_add (abs_le_rkNorm _ _ _) (abs_le_rkNorm _ _ _))) ?_
  have e1 : v + v' + l * (e + e') = (v + l * e) + (v' + l * e') := by ring
  rw [e1]
  refine (abs_add_le _ _).trans ?_
  have := rkNorm_slope hl e v
  have := rkNorm_slope hl e' v'
  linarith

theorem rkNorm_smul {l a : ℝ} (hl : 0 < l) (ha : 0 ≤ a) (e v : ℝ) : rkNorm l (a * e) (a * v) ≤ a * rkNorm l e v := by
  refine rkNorm_le hl ?_ ?_
  · rw [abs_mul, abs_of_nonneg ha]
    exact mul_le_mul_of_nonneg_left (abs_le_rkNorm _ _ _) ha
  · rw [show a * v + l * (a * e) = a * (v + l * e) by ring, abs_mul, abs_of_nonneg ha]
    have := mul_le_mul_of_nonneg_left (rkNorm_slope hl e v) ha
    linarith

/-- A step of the explicit Euler method contracts. -/
theorem rkNorm_euler {l x : ℝ} (hl : 0 < l) (hl1 : l ≤ 1) (hx : 0 ≤ x) (hx1 : x ≤ 1) (e v : ℝ) :
    rkNorm l (e + x * v) (v + x * (-l * e - (1 + l) * v)) ≤ (1 - x * l / 2) * rkNorm l e v := by
  have h1 := abs_le_rkNorm l e v
  have h2 := rkNorm_slope hl e v
  have hN := rkNorm_nonneg l e v
  have hxl : x * l ≤ 1 := by
    calc x * l ≤ 1 * 1 := mul_le_mul hx1 hl1 hl.le (by norm_num)
      _ = 1 := by norm_num
  refine rkNorm_le hl ?_ ?_
  · rw [show e + x * v = (1 - x * l) * e + x * (v + l * e) by ring]
    refine (abs_add_le _ _).trans ?_
    rw [abs_mul, abs_mul, abs_of_nonneg hx, abs_of_nonneg (show 0 ≤ 1 - x * l by linarith)]
    have a1 := mul_le_mul_of_nonneg_left h1 (show 0 ≤ 1 - x * l by linarith)
    have a2 := mul_le_mul_of_nonneg_left h2 hx
    linarith
  · rw [show v + x * (-l * e - (1 + l) * v) + l * (e + x * v) = (1 - x) * (v + l * e) by ring, abs_mul,
      abs_of_nonneg (show 0 ≤ 1 - x by linarith)]
    have a1 := mul_le_mul_of_nonneg_left h2 (show 0 ≤ 1 - x by linarith)
    refine a1.trans ?_
    have hlN : 0 ≤ l / 2 * rkNorm l e v := by positivity
    have a2 : x * l / 2 ≤ x := by
      have := mul_le_mul_of_nonneg_left hl1 hx
      linarith
    have a3 := mul_le_mul_of_nonneg_right (show 1 - x ≤ 1 - x * l / 2 by linarith) hlN
    linarith

/-- Stages of the Runge-Kutta method without forces and rounding errors. -/
theorem rkNorm_rk4 {l x : ℝ} (hl : 0 < l) (hl1 : l ≤ 1) (hx : 0 ≤ x) (hx1 : x ≤ 1) {e v K0 V1 E1 K1 V2 E2 K2 V3 E3 K3 : ℝ}
    (hK0 : K0 = -l * e - (1 + l) * v) (hV1 : V1 = v + x / 2 * K0) (hE1 : E1 = e + x / 2 * v)
    (hK1 : K1 = -l * E1 - (1 + l) * V1) (hV2 : V2 = v + x / 2 * K1) (hE2 : E2 = e + x / 2 * V1)
    (hK2 : K2 = -l * E2 - (1 + l) * V2) (hV3 : V3 = v + x * K2) (hE3 : E3 = e + x * V2) (hK3 : K3 = -l * E3 - (1 + l) * V3) :
    rkNorm l (e + x * (v + x / 6 * (K0 + K1 + K2))) (v + x / 6 * (K0 + 2 * K1 + 2 * K2 + K3)) ≤
      (1 - 5 / 16 * (x * l)) * rkNorm l e v := by
  have hxl : x * l ≤ 1 := by
    calc x * l ≤ 1 * 1 := mul_le_mul hx1 hl1 hl.le (by norm_num)
      _ = 1 := by norm_num
  have hxl0 : 0 ≤ x * l := by positivity
  set f : ℝ × ℝ → ℝ × ℝ := fun p => (p.1 + x * p.2, p.2 + x * (-l * p.1 - (1 + l) * p.2)) with hf
  have hc : ∀ p : ℝ × ℝ, rkNorm l (f p).1 (f p).2 ≤ (1 - x * l / 2) * rkNorm l p.1 p.2 := fun p => rkNorm_euler hl hl1 hx hx1 p.1 p.2
  have hc' : ∀ p : ℝ × ℝ, rkNorm l (f p).1 (f p).2 ≤ rkNorm l p.1 p.2 := fun p => by
    refine (hc p).trans ?_
    have := mul_nonneg (show 0 ≤ x * l / 2 by positivity) (rkNorm_nonneg l p.1 p.2)
    linarith
  set p : ℝ × ℝ := (e, v) with hp
  set ρ := 1 - x * l / 2 with hρ
  have hN := rkNorm_nonneg l e v
  have n1 : rkNorm l (f p).1 (f p).2 ≤ ρ * rkNorm l e v := hc p
  have n2 : rkNorm l (f (f p)).1 (f (f p)).2 ≤ ρ * rkNorm l e v := (hc' (f p)).trans n1
  have n4 : rkNorm l (f (f (f (f p)))).1 (f (f (f (f p)))).2 ≤ ρ * rkNorm l e v := (hc' _).trans ((hc' _).trans n2)
  have e1 : e + x * (v + x / 6 * (K0 + K1 + K2)) =
      3 / 8 * e + (1 / 3 * (f p).1 + (1 / 4 * (f (f p)).1 + 1 / 24 * (f (f (f (f p)))).1)) := by
    rw [hK2, hK1, hE2, hV2, hK1, hE1, hV1, hK0]
    simp only [hf, hp]
    ring
  have e2 : v + x / 6 * (K0 + 2 * K1 + 2 * K2 + K3) =
      3 / 8 * v + (1 / 3 * (f p).2 + (1 / 4 * (f (f p)).2 + 1 / 24 * (f (f (f (f p)))).2)) := by
    rw [hK3, hE3, hV3, hK2, hE2, hV2, hK1, hE1, hV1, hK0]
    simp only [hf, hp]
    ring
  rw [e1, e2]
  have a1 := rkNorm_add hl (3 / 8 * e) (3 / 8 * v) (1 / 3 * (f p).1 + (1 / 4 * (f (f p)).1 + 1 / 24 * (f (f (f (f p)))).1))
    (1 / 3 * (f p).2 + (1 / 4 * (f (f p)).2 + 1 / 24 * (f (f (f (f p)))).2))
  have a2 := rkNorm_add hl (1 / 3 * (f p).1) (1 / 3 * (f p).2) (1 / 4 * (f (f p)).1 + 1 / 24 * (f (f (f (f p)))).1)
    (1 / 4 * (f (f p)).2 + 1 / 24 * (f (f (f (f p)))).2)
  have a3 := rkNorm_add hl (1 / 4 * (f (f p)).1) (1 / 4 * (f (f p)).2) (1 / 24 * (f (f (f (f p)))).1) (1 / 24 * (f (f (f (f p)))).2)
  have b0 := rkNorm_smul (a := 3 / 8) hl (by norm_num) e v
  have b1 := rkNorm_smul (a := 1 / 3) hl (by norm_num) (f p).1 (f p).2
  have b2 := rkNorm_smul (a := 1 / 4) hl (by norm_num) (f (f p)).1 (f (f p)).2
  have b4 := rkNorm_smul (a := 1 / 24) hl (by norm_num) (f (f (f (f p)))).1 (f (f (f (f p)))).2
  have : ρ * rkNorm l e v = rkNorm l e v - x * l / 2 * rkNorm l e v := by rw [hρ]; ring
  rw [this] at n1 n2 n4
  clear_value ρ f p
  linarith

/-- Deviations of stages add up. -/
theorem dev_acc {l E V E' V' K K' dE dV r : ℝ} (hl : 0 < l) (hl1 : l ≤ 1) (hK' : K' = -l * E' - (1 + l) * V')
    (hE : |E - E'| ≤ dE) (hV : |V - V'| ≤ dV) (hK : |K - (-l * E - (1 + l) * V)| ≤ r) : |K - K'| ≤ dE + 2 * dV + r := by
  have e1 : K - K' = (K - (-l * E - (1 + l) * V)) + (-(l * (E - E')) + -((1 + l) * (V - V'))) := by rw [hK']; ring
  rw [e1]
  refine (abs_add_le _ _).trans ?_
  have h1 := abs_add_le (-(l * (E - E'))) (-((1 + l) * (V - V')))
  rw [abs_neg, abs_neg, abs_mul, abs_mul, abs_of_pos hl, abs_of_pos (show 0 < 1 + l by linarith)] at h1
  have h2 : l * |E - E'| ≤ 1 * dE := mul_le_mul hl1 hE (abs_nonneg _) (by norm_num)
  have h3 : (1 + l) * |V - V'| ≤ 2 * dV := mul_le_mul (by linarith) hV (abs_nonneg _) (by norm_num)
  linarith

theorem dev_axpy {x a b b' z z' db r : ℝ} (hx : 0 ≤ x) (hz' : z' = a + x * b') (hb : |b - b'| ≤ db) (hz : |z - (a + x * b)| ≤ r) :
    |z - z'| ≤ x * db + r := by
  have e1 : z - z' = (z - (a + x * b)) + x * (b - b') := by rw [hz']; ring
  rw [e1]
  refine (abs_add_le _ _).trans ?_
  rw [abs_mul, abs_of_nonneg hx]
  have := mul_le_mul_of_nonneg_left hb hx
  linarith

/-- The Runge-Kutta method with forces (at most `φ`) and rounding errors (multiples of `ε`). -/
theorem rkNorm_perturbed {l x φ ε : ℝ} (hl : 0 < l) (hl1 : l ≤ 1) (hx : 0 ≤ x) (hx1 : x ≤ 1) (hφ : 0 ≤ φ) (hε : 0 ≤ ε)
    {e v K0 V1 E1 K1 V2 E2 K2 V3 E3 K3 e' v' : ℝ}
    (hK0 : |K0 - (-l * e - (1 + l) * v)| ≤ φ + 61 * ε) (hV1 : |V1 - (v + x / 2 * K0)| ≤ 11 * ε) (hE1 : |E1 - (e + x / 2 * v)| ≤ 7 * ε)
    (hK1 : |K1 - (-l * E1 - (1 + l) * V1)| ≤ φ + 134 * ε) (hV2 : |V2 - (v + x / 2 * K1)| ≤ 18 * ε)
    (hE2 : |E2 - (e + x / 2 * V1)| ≤ 10 * ε) (hK2 : |K2 - (-l * E2 - (1 + l) * V2)| ≤ φ + 223 * ε)
    (hV3 : |V3 - (v + x * K2)| ≤ 50 * ε) (hE3 : |E3 - (e + x * V2)| ≤ 22 * ε) (hK3 : |K3 - (-l * E3 - (1 + l) * V3)| ≤ φ + 602 * ε)
    (he' : |e' - (e + x * (v + x / 6 * (K0 + K1 + K2)))| ≤ 200 * ε)
    (hv' : |v' - (v + x / 6 * (K0 + 2 * K1 + 2 * K2 + K3))| ≤ 200 * ε) :
    rkNorm l e' v' ≤ (1 - 5 / 16 * (x * l)) * rkNorm l e v + 2 / l * (5 * (x * φ) + 1200 * ε) := by
  have sx : ∀ z : ℝ, 0 ≤ z → x * z ≤ z := fun z hz => by
    have := mul_le_mul_of_nonneg_right hx1 hz
    linarith
  have sφ := sx φ hφ
  have hxφ : 0 ≤ x * φ := by positivity
  have sε := sx ε hε
  have sxφ := sx (x * φ) hxφ
  have hx2 : 0 ≤ x / 2 := by linarith
  -- exact stages
  obtain ⟨k0, d0⟩ : ∃ k0, k0 = -l * e - (1 + l) * v := ⟨_, rfl⟩
  obtain ⟨v1, dv1⟩ : ∃ v1, v1 = v + x / 2 * k0 := ⟨_, rfl⟩
  obtain ⟨e1, de1⟩ : ∃ e1, e1 = e + x / 2 * v := ⟨_, rfl⟩
  obtain ⟨k1, d1⟩ : ∃ k1, k1 = -l * e1 - (1 + l) * v1 := ⟨_, rfl⟩
  obtain ⟨v2, dv2⟩ : ∃ v2, v2 = v + x / 2 * k1 := ⟨_, rfl⟩
  obtain ⟨e2, de2⟩ : ∃ e2, e2 = e + x / 2 * v1 := ⟨_, rfl⟩
  obtain ⟨k2, d2⟩ : ∃ k2, k2 = -l * e2 - (1 + l) * v2 := ⟨_, rfl⟩
  obtain ⟨v3, dv3⟩ : ∃ v3, v3 = v + x * k2 := ⟨_, rfl⟩
  obtain ⟨e3, de3⟩ : ∃ e3, e3 = e + x * v2 := ⟨_, rfl⟩
  obtain ⟨k3, d3⟩ : ∃ k3, k3 = -l * e3 - (1 + l) * v3 := ⟨_, rfl⟩
  have main := rkNorm_rk4 hl hl1 hx hx1 d0 dv1 de1 d1 dv2 de2 d2 dv3 de3 d3
  -- deviations
  have D0 : |K0 - k0| ≤ φ + 61 * ε := by rw [d0]; exact hK0
  have DV1 : |V1 - v1| ≤ x * φ / 2 + 42 * ε := (dev_axpy hx2 dv1 D0 hV1).trans (by linarith)
  have DE1 : |E1 - e1| ≤ 7 * ε := by rw [de1]; exact hE1
  have D1 : |K1 - k1| ≤ 2 * φ + 225 * ε := (dev_acc hl hl1 d1 DE1 DV1 hK1).trans (by linarith)
  have DV2 : |V2 - v2| ≤ x * φ + 131 * ε := (dev_axpy hx2 dv2 D1 hV2).trans (by linarith)
  have DE2 : |E2 - e2| ≤ x * φ / 4 + 31 * ε := (dev_axpy hx2 de2 DV1 hE2).trans (by linarith)
  have D2 : |K2 - k2| ≤ 13 / 4 * φ + 516 * ε := (dev_acc hl hl1 d2 DE2 DV2 hK2).trans (by linarith)
  have DV3 : |V3 - v3| ≤ 13 / 4 * (x * φ) + 566 * ε := (dev_axpy hx dv3 D2 hV3).trans (by linarith)
  have DE3 : |E3 - e3| ≤ x * φ + 153 * ε := (dev_axpy hx de3 DV2 hE3).trans (by linarith)
  have D3 : |K3 - k3| ≤ 17 / 2 * φ + 1887 * ε := (dev_acc hl hl1 d3 DE3 DV3 hK3).trans (by linarith)
  clear hK0 hV1 hE1 hK1 hV2 hE2 hK2 hV3 hE3 hK3 DV1 DE1 DV2 DE2 DV3 DE3 d0 dv1 de1 d1 dv2 de2 d2 dv3 de3 d3
  have S1 : |K0 + K1 + K2 - (k0 + k1 + k2)| ≤ 25 / 4 * φ + 802 * ε := by
    rw [show K0 + K1 + K2 - (k0 + k1 + k2) = (K0 - k0) + ((K1 - k1) + (K2 - k2)) by ring]
    have h1 := abs_add_le (K0 - k0) ((K1 - k1) + (K2 - k2))
    have h2 := abs_add_le (K1 - k1) (K2 - k2)
    linarith
  have S2 : |K0 + 2 * K1 + 2 * K2 + K3 - (k0 + 2 * k1 + 2 * k2 + k3)| ≤ 20 * φ + 3430 * ε := by
    rw [show K0 + 2 * K1 + 2 * K2 + K3 - (k0 + 2 * k1 + 2 * k2 + k3) =
      ((K0 - k0) + 2 * (K1 - k1)) + (2 * (K2 - k2) + (K3 - k3)) by ring]
    have h1 := abs_add_le ((K0 - k0) + 2 * (K1 - k1)) (2 * (K2 - k2) + (K3 - k3))
    have h2 := abs_add_le (K0 - k0) (2 * (K1 - k1))
    have h3 := abs_add_le (2 * (K2 - k2)) (K3 - k3)
    rw [abs_mul, abs_of_pos (by norm_num : (0 : ℝ) < 2)] at h2 h3
    linarith
  have T1 : |v + x / 6 * (K0 + K1 + K2) - (v + x / 6 * (k0 + k1 + k2))| ≤ 25 / 24 * (x * φ) + 134 * ε := by
    refine (dev_axpy (z := v + x / 6 * (K0 + K1 + K2)) (show 0 ≤ x / 6 by linarith) rfl S1 (r := 0) (by rw [sub_self, abs_zero])).trans ?_
    linarith
  have T2 : |e' - (e + x * (v + x / 6 * (k0 + k1 + k2)))| ≤ 25 / 24 * (x * φ) + 334 * ε := (dev_axpy hx rfl T1 he').trans (by linarith)
  have T3 : |v' - (v + x / 6 * (k0 + 2 * k1 + 2 * k2 + k3))| ≤ 10 / 3 * (x * φ) + 772 * ε :=
    (dev_axpy (show 0 ≤ x / 6 by linarith) rfl S2 hv').trans (by linarith)
  set ee := e + x * (v + x / 6 * (k0 + k1 + k2)) with hee
  set vv := v + x / 6 * (k0 + 2 * k1 + 2 * k2 + k3) with hvv
  have hadd := rkNorm_add hl ee vv (e' - ee) (v' - vv)
  rw [add_sub_cancel, add_sub_cancel] at hadd
  have hpert : rkNorm l (e' - ee) (v' - vv) ≤ 2 / l * (5 * (x * φ) + 1200 * ε) := by
    have hl2 : 1 ≤ 2 / l := by rw [le_div_iff₀ hl]; linarith
    refine rkNorm_le hl ?_ ?_
    · have hpos : 0 ≤ 5 * (x * φ) + 1200 * ε := by positivity
      have := mul_le_mul_of_nonneg_right hl2 hpos
      linarith
    · have e3 : l / 2 * (2 / l * (5 * (x * φ) + 1200 * ε)) = 5 * (x * φ) + 1200 * ε := by field_simp
      rw [e3]
      refine (abs_add_le _ _).trans ?_
      rw [abs_mul, abs_of_pos hl]
      have := mul_le_mul hl1 T2 (abs_nonneg _) (by norm_num)
      linarith
  linarith

/-- One rounded operation. -/
theorem rd {r : ℝ → ℝ} {u B z Z p q : ℝ} (hu : 0 ≤ u) (hu1 : u ≤ 1 / 10 ^ 6) (hB : 0 ≤ B) (hr : ∀ z, |r z - z| ≤ u * |z| + u * B)
    (hp : p ≤ 1000) (hz : |z - Z| ≤ p * (u * B)) (hZ : |Z| ≤ q * B) : |r z - Z| ≤ (p + q + 2) * (u * B) := by
  have hε : 0 ≤ u * B := by positivity
  have h1 : |z| ≤ q * B + p * (u * B) := by
    calc |z| = |Z + (z - Z)| := by rw [add_sub_cancel]
      _ ≤ |Z| + |z - Z| := abs_add_le _ _
      _ ≤ _ := add_le_add hZ hz
  have h2 := mul_le_mul_of_nonneg_left h1 hu
  have h3 : u * (p * (u * B)) ≤ u * B := by
    have a1 : p * (u * B) ≤ 1000 * (u * B) := mul_le_mul_of_nonneg_right hp hε
    have a2 := mul_le_mul_of_nonneg_left a1 hu
    have a3 := mul_le_mul_of_nonneg_right hu1 (show 0 ≤ 1000 * (u * B) by positivity)
    linarith
  calc |r z - Z| = |(r z - z) + (z - Z)| := by rw [sub_add_sub_cancel]
    _ ≤ |r z - z| + |z - Z| := abs_add_le _ _
    _ ≤ (u * |z| + u * B) + p * (u * B) := add_le_add (hr z) hz
    _ ≤ _ := by linarith

theorem dev_add {a b A B' p q : ℝ} (ha : |a - A| ≤ p) (hb : |b - B'| ≤ q) : |a + b - (A + B')| ≤ p + q := by
  rw [show a + b - (A + B') = (a - A) + (b - B') by ring]
  exact (abs_add_le _ _).trans (add_le_add ha hb)

theorem dev_mul {x a A p : ℝ} (hx : 0 ≤ x) (ha : |a - A| ≤ p) : |x * a - x * A| ≤ x * p := by
  rw [← mul_sub, abs_mul, abs_of_nonneg hx]
  exact mul_le_mul_of_nonneg_left ha hx

theorem dev_self (a : ℝ) {e : ℝ} (he : 0 ≤ e) : |a - a| ≤ e := by rw [sub_self, abs_zero]; exact he

theorem abs_of_dev {a A p q : ℝ} (h : |a - A| ≤ p) (hA : |A| ≤ q) : |a| ≤ q + p := by
  calc |a| = |A + (a - A)| := by rw [add_sub_cancel]
    _ ≤ |A| + |a - A| := abs_add_le _ _
    _ ≤ _ := add_le_add hA h

theorem abs_axpy {x a b A B' : ℝ} (hx : 0 ≤ x) (ha : |a| ≤ A) (hb : |b| ≤ B') : |a + x * b| ≤ A + x * B' := by
  refine (abs_add_le _ _).trans (add_le_add ha ?_)
  rw [abs_mul, abs_of_nonneg hx]
  exact mul_le_mul_of_nonneg_left hb hx

/-- One rounded multiplication and one rounded addition. -/
theorem rd_axpy {r : ℝ → ℝ} {u B x a b A q : ℝ} (hu : 0 ≤ u) (hu1 : u ≤ 1 / 10 ^ 6) (hB : 0 ≤ B) (hr : ∀ z, |r z - z| ≤ u * |z| + u * B)
    (hx : 0 ≤ x) (hA : |a| ≤ A * B) (hb : |b| ≤ q * B) (hq : x * q ≤ 500) :
    |r (a + r (x * b)) - (a + x * b)| ≤ (A + 2 * (x * q) + 4) * (u * B) := by
  have h0 : |x * b| ≤ x * q * B := by
    rw [abs_mul, abs_of_nonneg hx]
    have := mul_le_mul_of_nonneg_left hb hx
    linarith
  have h1 := rd hu hu1 hB hr (p := 0) (by norm_num) (dev_self (x * b) (by positivity)) h0
  have h2 := dev_add (dev_self a le_rfl) h1
  rw [zero_add] at h2
  have h3 : |a + x * b| ≤ (A + x * q) * B := (abs_add_le _ _).trans (by linarith)
  have h4 := rd hu hu1 hB hr (by linarith) h2 h3
  refine h4.trans (le_of_eq ?_)
  ring

theorem abs_acc {l E V K a b r : ℝ} (hl : 0 < l) (hl1 : l ≤ 1) (hE : |E| ≤ a) (hV : |V| ≤ b)
    (hK : |K - (-l * E - (1 + l) * V)| ≤ r) : |K| ≤ a + 2 * b + r := by
  have h1 : |E - 0| ≤ a := by rwa [sub_zero]
  have h2 : |V - 0| ≤ b := by rwa [sub_zero]
  have := dev_acc (K' := 0) hl hl1 (by ring) h1 h2 hK
  rwa [sub_zero] at this

theorem stage_axpy {r : ℝ → ℝ} {u B x c a b A q z : ℝ} (hu : 0 ≤ u) (hu1 : u ≤ 1 / 10 ^ 6) (hB : 0 ≤ B)
    (hr : ∀ z, |r z - z| ≤ u * |z| + u * B) (hx : 0 ≤ x) (hxc : x ≤ c) (hA : |a| ≤ A * B) (hb : |b| ≤ q * B) (hq0 : 0 ≤ q)
    (hq : c * q ≤ 100) (hA' : A ≤ 100) (hz : z = r (a + r (x * b))) :
    |z - (a + x * b)| ≤ (A + 2 * (c * q) + 4) * (u * B) ∧ |a + x * b| ≤ (A + c * q) * B ∧ |z| ≤ (A + c * q + 1 / 1000) * B := by
  have hε : 0 ≤ u * B := by positivity
  have hxq : x * q ≤ c * q := mul_le_mul_of_nonneg_right hxc hq0
  have h1 := rd_axpy hu hu1 hB hr hx hA hb (by linarith)
  rw [← hz] at h1
  have h2 := mul_le_mul_of_nonneg_right hxq hε
  have h3 := mul_le_mul_of_nonneg_right hxq hB
  have h4 := abs_axpy hx hA hb
  have h5 : |z - (a + x * b)| ≤ (A + 2 * (c * q) + 4) * (u * B) := h1.trans (by linarith)
  have h6 : |a + x * b| ≤ (A + c * q) * B := h4.trans (by linarith)
  refine ⟨h5, h6, (abs_of_dev h5 h6).trans ?_⟩
  have h7 : (A + 2 * (c * q) + 4) * (u * B) ≤ 304 * (u * B) := mul_le_mul_of_nonneg_right (by linarith) hε
  have h8 := mul_le_mul_of_nonneg_right hu1 hB
  linarith

theorem stage_acc {u B l φ E V K a b : ℝ} (hu : 0 ≤ u) (hu1 : u ≤ 1 / 10 ^ 6) (hB : 0 ≤ B) (hl : 0 < l) (hl1 : l ≤ 1) (hφ : φ ≤ B)
    (hE : |E| ≤ a * B) (hV : |V| ≤ b * B) (hab : a + 2 * b ≤ 90)
    (hK : |K - (-l * E - (1 + l) * V)| ≤ φ + (10 * u * (|E| + 2 * |V|) + 11 * (u * B))) :
    |K - (-l * E - (1 + l) * V)| ≤ φ + (10 * (a + 2 * b) + 11) * (u * B) ∧ |K| ≤ (a + 2 * b + 1 + 1 / 1000) * B := by
  have hε : 0 ≤ u * B := by positivity
  have h1 : |K - (-l * E - (1 + l) * V)| ≤ φ + (10 * (a + 2 * b) + 11) * (u * B) := by
    have h0 : |E| + 2 * |V| ≤ (a + 2 * b) * B := by linarith
    have := mul_le_mul_of_nonneg_left h0 (show 0 ≤ 10 * u by linarith)
    linarith
  refine ⟨h1, (abs_acc hl hl1 hE hV h1).trans ?_⟩
  have h7 : (10 * (a + 2 * b) + 11) * (u * B) ≤ 911 * (u * B) := mul_le_mul_of_nonneg_right (by linarith) hε
  have h8 := mul_le_mul_of_nonneg_right hu1 hB
  linarith

/-- A rounded sum `w + 2 * x + 2 * y + z`. -/
theorem rd_weighted {r : ℝ → ℝ} {u B w x y z a b c d : ℝ} (hu : 0 ≤ u) (hu1 : u ≤ 1 / 10 ^ 6) (hB : 0 ≤ B)
    (hr : ∀ z, |r z - z| ≤ u * |z| + u * B) (hw : |w| ≤ a * B) (hx : |x| ≤ b * B) (hy : |y| ≤ c * B) (hz : |z| ≤ d * B)
    (hs : 3 * a + 8 * b + 6 * c + d ≤ 900) (ha : 0 ≤ a) (hc : 0 ≤ c) (hd : 0 ≤ d) :
    |r (r (r (w + r (2 * x)) + r (2 * y)) + z) - (w + 2 * x + 2 * y + z)| ≤ (3 * a + 8 * b + 6 * c + d + 10) * (u * B) ∧
      |w + 2 * x + 2 * y + z| ≤ (a + 2 * b + 2 * c + d) * B := by
  have hε : 0 ≤ u * B := by positivity
  have b1 : |2 * x| ≤ (2 * b) * B := by rw [abs_mul, abs_of_pos (by norm_num : (0 : ℝ) < 2)]; linarith
  have b2 : |2 * y| ≤ (2 * c) * B := by rw [abs_mul, abs_of_pos (by norm_num : (0 : ℝ) < 2)]; linarith
  have b3 : |w + 2 * x| ≤ (a + 2 * b) * B := (abs_add_le _ _).trans (by linarith)
  have b4 : |w + 2 * x + 2 * y| ≤ (a + 2 * b + 2 * c) * B := (abs_add_le _ _).trans (by linarith)
  have b5 : |w + 2 * x + 2 * y + z| ≤ (a + 2 * b + 2 * c + d) * B := (abs_add_le _ _).trans (by linarith)
  have h1 := rd hu hu1 hB hr (p := 0) (by norm_num) (dev_self (2 * x) (by positivity)) b1
  have h2 := rd hu hu1 hB hr (p := 0) (by norm_num) (dev_self (2 * y) (by positivity)) b2
  have h3 := dev_add (dev_self w le_rfl) h1
  rw [zero_add] at h3
  have h4 := rd hu hu1 hB hr (by linarith) h3 b3
  have h5 := dev_add h4 h2
  rw [← add_mul] at h5
  have h6 := rd hu hu1 hB hr (by linarith) h5 b4
  have h7 := dev_add h6 (dev_self z le_rfl)
  rw [add_zero] at h7
  have h8 := rd hu hu1 hB hr (by linarith) h7 b5
  refine ⟨h8.trans ?_, b5⟩
  exact mul_le_mul_of_nonneg_right (by linarith) hε

/-- The Runge-Kutta method with rounding: `r0`, `r1`, `r2` round (scaled) positions, velocities and accelerations. -/
theorem rk4_rounded {r0 r1 r2 : ℝ → ℝ} {u B l x x6 φ : ℝ} (hu : 0 ≤ u) (hu1 : u ≤ 1 / 10 ^ 6) (hl : 0 < l) (hl1 : l ≤ 1)
    (hx : 0 ≤ x) (hx1 : x ≤ 1) (hx6 : |x6 - x / 6| ≤ 2 * u * (x / 6)) (hφ0 : 0 ≤ φ) (hφ : φ ≤ B)
    (hr0 : ∀ z, |r0 z - z| ≤ u * |z| + u * B) (hr1 : ∀ z, |r1 z - z| ≤ u * |z| + u * B) (hr2 : ∀ z, |r2 z - z| ≤ u * |z| + u * B)
    {y g e v K0 V1 E1 K1 V2 E2 K2 V3 E3 K3 : ℝ} (hy : |y| ≤ B) (he : e = y - g) (hN : rkNorm l e v ≤ B)
    (hK0 : |K0 - (-l * e - (1 + l) * v)| ≤ φ + (10 * u * (|e| + 2 * |v|) + 11 * (u * B)))
    (hV1 : V1 = r1 (v + r1 (x / 2 * K0))) (hE1 : E1 = r0 (y + r0 (x / 2 * v)) - g)
    (hK1 : |K1 - (-l * E1 - (1 + l) * V1)| ≤ φ + (10 * u * (|E1| + 2 * |V1|) + 11 * (u * B)))
    (hV2 : V2 = r1 (v + r1 (x / 2 * K1))) (hE2 : E2 = r0 (y + r0 (x / 2 * V1)) - g)
    (hK2 : |K2 - (-l * E2 - (1 + l) * V2)| ≤ φ + (10 * u * (|E2| + 2 * |V2|) + 11 * (u * B)))
    (hV3 : V3 = r1 (v + r1 (x * K2))) (hE3 : E3 = r0 (y + r0 (x * V2)) - g)
    (hK3 : |K3 - (-l * E3 - (1 + l) * V3)| ≤ φ + (10 * u * (|E3| + 2 * |V3|) + 11 * (u * B))) :
    rkNorm l (r0 (y + r0 (x * r1 (v + r1 (x6 * r2 (r2 (K0 + K1) + K2))))) - g)
        (r1 (v + r1 (x6 * r2 (r2 (r2 (K0 + r2 (2 * K1)) + r2 (2 * K2)) + K3)))) ≤
        (1 - 5 / 16 * (x * l)) * rkNorm l e v + 2 / l * (5 * (x * φ) + 1200 * (u * B)) ∧
      rkNorm l (r0 (y + r0 (r0 (x * r1 (r1 (r1 (v + r1 (2 * V1)) + r1 (2 * V2)) + V3)) / 6)) - g)
        (r1 (v + r1 (r1 (x * r2 (r2 (r2 (K0 + r2 (2 * K1)) + r2 (2 * K2)) + K3)) / 6))) ≤
        (1 - 5 / 16 * (x * l)) * rkNorm l e v + 2 / l * (5 * (x * φ) + 1200 * (u * B)) := by
  have hB : 0 ≤ B := hφ0.trans hφ
  have hε : 0 ≤ u * B := by positivity
  have hεB : u * B ≤ 1 / 10 ^ 6 * B := mul_le_mul_of_nonneg_right hu1 hB
  have hy' : |y| ≤ 1 * B := by linarith
  have hx2 : 0 ≤ x / 2 := by linarith
  have hx21 : x / 2 ≤ 1 / 2 := by linarith
  have be : |e| ≤ 1 * B := by
    have := abs_le_rkNorm l e v
    linarith
  have bv : |v| ≤ 3 / 2 * B := by
    have h1 := rkNorm_velocity hl e v
    have h2 : l * rkNorm l e v ≤ 1 * B := mul_le_mul hl1 hN (rkNorm_nonneg _ _ _) (by norm_num)
    linarith
  -- positions
  have pos : ∀ {E w c q : ℝ} {z : ℝ}, 0 ≤ z → z ≤ c → |w| ≤ q * B → 0 ≤ q → c * q ≤ 100 → E = r0 (y + r0 (z * w)) - g →
      |E - (e + z * w)| ≤ (1 + 2 * (c * q) + 4) * (u * B) ∧ |E| ≤ (1 + c * q + 1 / 1000) * B := by
    intro E w c q z hz hzc hw hq0 hq hE
    obtain ⟨h1, -, -⟩ := stage_axpy hu hu1 hB hr0 hz hzc hy' hw hq0 hq (by norm_num) rfl
    have e1 : E - (e + z * w) = r0 (y + r0 (z * w)) - (y + z * w) := by rw [hE, he]; ring
    rw [← e1] at h1
    refine ⟨h1, (abs_of_dev h1 (abs_axpy hz be hw)).trans ?_⟩
    have h2 : (1 + 2 * (c * q) + 4) * (u * B) ≤ 205 * (u * B) := mul_le_mul_of_nonneg_right (by linarith) hε
    have h3 : z * (q * B) ≤ c * (q * B) := mul_le_mul_of_nonneg_right hzc (by positivity)
    linarith
  have mono : ∀ {a b c : ℝ}, a ≤ b * B → b ≤ c → a ≤ c * B := fun h1 h2 => h1.trans (mul_le_mul_of_nonneg_right h2 hB)
  have mono' : ∀ {a b c : ℝ}, a ≤ b * (u * B) → b ≤ c → a ≤ c * (u * B) := fun h1 h2 => h1.trans (mul_le_mul_of_nonneg_right h2 hε)
  obtain ⟨dK0, bK0⟩ := stage_acc hu hu1 hB hl hl1 hφ be bv (by norm_num) hK0
  replace bK0 : |K0| ≤ 501 / 100 * B := mono bK0 (by norm_num)
  obtain ⟨dV1, -, bV1⟩ := stage_axpy hu hu1 hB hr1 hx2 hx21 bv bK0 (by norm_num) (by norm_num) (by norm_num) hV1
  replace bV1 : |V1| ≤ 401 / 100 * B := mono bV1 (by norm_num)
  obtain ⟨dE1, bE1⟩ := pos hx2 hx21 bv (by norm_num) (by norm_num) hE1
  replace bE1 : |E1| ≤ 176 / 100 * B := mono bE1 (by norm_num)
  obtain ⟨dK1, bK1⟩ := stage_acc hu hu1 hB hl hl1 hφ bE1 bV1 (by norm_num) hK1
  replace bK1 : |K1| ≤ 1079 / 100 * B := mono bK1 (by norm_num)
  obtain ⟨dV2, -, bV2⟩ := stage_axpy hu hu1 hB hr1 hx2 hx21 bv bK1 (by norm_num) (by norm_num) (by norm_num) hV2
  replace bV2 : |V2| ≤ 690 / 100 * B := mono bV2 (by norm_num)
  obtain ⟨dE2, bE2⟩ := pos hx2 hx21 bV1 (by norm_num) (by norm_num) hE2
  replace bE2 : |E2| ≤ 301 / 100 * B := mono bE2 (by norm_num)
  obtain ⟨dK2, bK2⟩ := stage_acc hu hu1 hB hl hl1 hφ bE2 bV2 (by norm_num) hK2
  replace bK2 : |K2| ≤ 1782 / 100 * B := mono bK2 (by norm_num)
  obtain ⟨dV3, -, bV3⟩ := stage_axpy hu hu1 hB hr1 hx hx1 bv bK2 (by norm_num) (by norm_num) (by norm_num) hV3
  replace bV3 : |V3| ≤ 1933 / 100 * B := mono bV3 (by norm_num)
  obtain ⟨dE3, bE3⟩ := pos hx hx1 bV2 (by norm_num) (by norm_num) hE3
  replace bE3 : |E3| ≤ 791 / 100 * B := mono bE3 (by norm_num)
  obtain ⟨dK3, bK3⟩ := stage_acc hu hu1 hB hl hl1 hφ bE3 bV3 (by norm_num) hK3
  replace bK3 : |K3| ≤ 48 * B := mono bK3 (by norm_num)
  have fin : ∀ {e' v' : ℝ}, |e' - (e + x * (v + x / 6 * (K0 + K1 + K2)))| ≤ 200 * (u * B) →
      |v' - (v + x / 6 * (K0 + 2 * K1 + 2 * K2 + K3))| ≤ 200 * (u * B) →
      rkNorm l e' v' ≤ (1 - 5 / 16 * (x * l)) * rkNorm l e v + 2 / l * (5 * (x * φ) + 1200 * (u * B)) := by
    intro e' v' h1 h2
    exact rkNorm_perturbed hl hl1 hx hx1 hφ0 hε (dK0.trans (by linarith)) (mono' dV1 (by norm_num)) (mono' dE1 (by norm_num))
      (dK1.trans (by linarith)) (mono' dV2 (by norm_num)) (mono' dE2 (by norm_num)) (dK2.trans (by linarith))
      (mono' dV3 (by norm_num)) (mono' dE3 (by norm_num)) (dK3.trans (by linarith)) h1 h2
  -- sums
  obtain ⟨sK, bK⟩ := rd_weighted hu hu1 hB hr2 bK0 bK1 bK2 bK3 (by norm_num) (by norm_num) (by norm_num) (by norm_num)
  obtain ⟨sV, bV⟩ := rd_weighted hu hu1 hB hr1 bv bV1 bV2 bV3 (by norm_num) (by norm_num) (by norm_num) (by norm_num)
  generalize r2 (r2 (r2 (K0 + r2 (2 * K1)) + r2 (2 * K2)) + K3) = S at *
  generalize r1 (r1 (r1 (v + r1 (2 * V1)) + r1 (2 * V2)) + V3) = S' at *
  replace sK := mono' sK (show _ ≤ (267 : ℝ) by norm_num)
  replace bK := mono bK (show _ ≤ (111 : ℝ) by norm_num)
  replace sV := mono' sV (show _ ≤ (108 : ℝ) by norm_num)
  replace bV := mono bV (show _ ≤ (43 : ℝ) by norm_num)
  have b01 : |K0 + K1| ≤ 158 / 10 * B := (abs_add_le _ _).trans (by linarith)
  have b012 : |K0 + K1 + K2| ≤ 34 * B := (abs_add_le _ _).trans (by linarith)
  have s01 := rd hu hu1 hB hr2 (p := 0) (by norm_num) (dev_self (K0 + K1) (by positivity)) b01
  have s012 := dev_add s01 (dev_self K2 le_rfl)
  rw [add_zero] at s012
  have sA := rd hu hu1 hB hr2 (by norm_num) s012 b012
  generalize r2 (r2 (K0 + K1) + K2) = A at *
  clear dK0 dE1 dK1 dE2 dK2 dE3 dK3 s01 s012 b01 bK0 bK1 bK2 bK3 bV1 bV2 bV3 bE1 bE2 bE3 hK0 hK1 hK2 hK3 pos
  -- the factor `dt / 6`
  have six : ∀ {z Z p q : ℝ}, |z - Z| ≤ p * (u * B) → |Z| ≤ q * B → 0 ≤ p → 0 ≤ q →
      |x6 * z - x / 6 * Z| ≤ (p / 5 + q / 3) * (u * B) ∧ |x / 6 * Z| ≤ q / 6 * B := by
    intro z Z p q hz hZ hp hq
    have h6 : |x6| ≤ 1 / 5 := by
      have h1 := abs_of_dev hx6 (le_of_eq (abs_of_nonneg (show 0 ≤ x / 6 by linarith)))
      have h2 := mul_le_mul hu1 (show x / 6 ≤ 1 / 6 by linarith) (by linarith) (by norm_num)
      linarith
    have h7 : |x6 - x / 6| ≤ 1 / 3 * u := by
      have := mul_le_mul_of_nonneg_left hx1 hu
      linarith
    constructor
    · rw [show x6 * z - x / 6 * Z = x6 * (z - Z) + (x6 - x / 6) * Z by ring]
      refine (abs_add_le _ _).trans ?_
      rw [abs_mul, abs_mul]
      have h8 := mul_le_mul h6 hz (abs_nonneg _) (by norm_num)
      have h9 := mul_le_mul h7 hZ (abs_nonneg _) (by positivity)
      linarith
    · rw [abs_mul, abs_of_nonneg (show 0 ≤ x / 6 by linarith)]
      have := mul_le_mul (show x / 6 ≤ 1 / 6 by linarith) hZ (abs_nonneg _) (by norm_num)
      linarith
  have xmul : ∀ {z Z p q : ℝ}, |z - Z| ≤ p * (u * B) → |Z| ≤ q * B → |x * z - x * Z| ≤ p * (u * B) ∧ |x * Z| ≤ q * B := by
    intro z Z p q hz hZ
    constructor
    · refine (dev_mul hx hz).trans ?_
      have := mul_le_mul_of_nonneg_right hx1 ((abs_nonneg _).trans hz)
      linarith
    · rw [abs_mul, abs_of_nonneg hx]
      have := mul_le_mul hx1 hZ (abs_nonneg _) (by norm_num)
      linarith
  have sixth : ∀ {z Z p q : ℝ}, |z - Z| ≤ p * (u * B) → |Z| ≤ q * B → |z / 6 - Z / 6| ≤ p / 6 * (u * B) ∧ |Z / 6| ≤ q / 6 * B := by
    intro z Z p q hz hZ
    constructor
    · rw [← sub_div, abs_div, abs_of_pos (by norm_num : (0 : ℝ) < 6)]
      linarith
    · rw [abs_div, abs_of_pos (by norm_num : (0 : ℝ) < 6)]
      linarith
  have addTo : ∀ {r : ℝ → ℝ} {a z Z p q a' : ℝ}, (∀ z, |r z - z| ≤ u * |z| + u * B) → |z - Z| ≤ p * (u * B) → |Z| ≤ q * B →
      |a| ≤ a' * B → p + q ≤ 900 → 0 ≤ q → |r (a + r z) - (a + Z)| ≤ (p + 2 * q + a' + 4) * (u * B) ∧ |a + Z| ≤ (a' + q) * B := by
    intro r a z Z p q a' hr hz hZ ha hpq hq
    have h1 := rd hu hu1 hB hr (by linarith) hz hZ
    have h2 := dev_add (dev_self a le_rfl) h1
    rw [zero_add] at h2
    have h3 : |a + Z| ≤ (a' + q) * B := (abs_add_le _ _).trans (by linarith)
    have h4 := rd hu hu1 hB hr (by linarith) h2 h3
    exact ⟨h4.trans (le_of_eq (by ring)), h3⟩
  have toE : ∀ {z Z p : ℝ}, |z - (y + Z)| ≤ p → |z - g - (e + Z)| ≤ p := by
    intro z Z p h
    rwa [show z - g - (e + Z) = z - (y + Z) by rw [he]; ring]
  refine ⟨fin ?_ ?_, fin ?_ ?_⟩
  · obtain ⟨h1, h2⟩ := six sA b012 (by norm_num) (by norm_num)
    obtain ⟨h3, h4⟩ := addTo hr1 h1 h2 bv (by norm_num) (by norm_num)
    obtain ⟨h5, h6⟩ := xmul h3 h4
    obtain ⟨h7, -⟩ := addTo hr0 h5 h6 hy' (by norm_num) (by norm_num)
    exact toE (mono' h7 (by norm_num))
  · obtain ⟨h1, h2⟩ := six sK bK (by norm_num) (by norm_num)
    obtain ⟨h3, -⟩ := addTo hr1 h1 h2 bv (by norm_num) (by norm_num)
    exact mono' h3 (by norm_num)
  · obtain ⟨h1, h2⟩ := xmul sV bV
    have h3 := rd hu hu1 hB hr0 (by norm_num) h1 h2
    obtain ⟨h4, h5⟩ := sixth h3 h2
    obtain ⟨h6, -⟩ := addTo hr0 h4 h5 hy' (by norm_num) (by norm_num)
    have h7 := toE (mono' h6 (show _ ≤ (100 : ℝ) by norm_num))
    have h8 : |e + x * (v + 2 * V1 + 2 * V2 + V3) / 6 - (e + x * (v + x / 6 * (K0 + K1 + K2)))| ≤ 100 * (u * B) := by
      rw [show e + x * (v + 2 * V1 + 2 * V2 + V3) / 6 - (e + x * (v + x / 6 * (K0 + K1 + K2))) =
        x * ((2 * (V1 - (v + x / 2 * K0)) + 2 * (V2 - (v + x / 2 * K1)) + (V3 - (v + x * K2))) / 6) by ring, abs_mul, abs_of_nonneg hx,
        abs_div, abs_of_pos (by norm_num : (0 : ℝ) < 6)]
      have g1 := abs_add_le (2 * (V1 - (v + x / 2 * K0)) + 2 * (V2 - (v + x / 2 * K1))) (V3 - (v + x * K2))
      have g2 := abs_add_le (2 * (V1 - (v + x / 2 * K0))) (2 * (V2 - (v + x / 2 * K1)))
      rw [abs_mul 2, abs_mul 2, abs_of_pos (by norm_num : (0 : ℝ) < 2)] at g2
      have g3 : |2 * (V1 - (v + x / 2 * K0)) + 2 * (V2 - (v + x / 2 * K1)) + (V3 - (v + x * K2))| / 6 ≤ 100 * (u * B) := by linarith
      have g4 := mul_le_mul hx1 g3 (by positivity) (by norm_num)
      linarith
    have h9 := abs_sub_le (r0 (y + r0 (r0 (x * S') / 6)) - g) (e + x * (v + 2 * V1 + 2 * V2 + V3) / 6)
      (e + x * (v + x / 6 * (K0 + K1 + K2)))
    linarith
  · obtain ⟨h1, h2⟩ := xmul sK bK
    have h3 := rd hu hu1 hB hr1 (by norm_num) h1 h2
    obtain ⟨h4, h5⟩ := sixth h3 h2
    obtain ⟨h6, -⟩ := addTo hr1 h4 h5 bv (by norm_num) (by norm_num)
    have h7 := mono' h6 (show _ ≤ (200 : ℝ) by norm_num)
    rwa [show v + x / 6 * (K0 + 2 * K1 + 2 * K2 + K3) = v + x * (K0 + 2 * K1 + 2 * K2 + K3) / 6 by ring]

/-- The Runge-Kutta method with rounding, in the units of the program. -/
theorem rk4_unscaled {rnd : ℝ → ℝ} {u w : ℝ} (hr : Rounds u w rnd) (hu : 0 ≤ u) (hu1 : u ≤ 1 / 10 ^ 6) (hw : 0 ≤ w) {slow fast h h6 Φ Z W : ℝ}
    (hs : 0 < slow) (hsf : slow ≤ fast) (hh : 0 ≤ h) (hhf : h * fast ≤ 1) (hh6 : |h6 - h / 6| ≤ 2 * u * (h / 6)) (hΦ : 0 ≤ Φ)
    (hZ : 0 ≤ Z) (hW0 : 0 ≤ W) (hW : w * (1 + 1 / fast + (Z + 1) / fast ^ 2) ≤ u * W)
    {y g v F0 K0 V1 Y1 F1 K1 V2 Y2 F2 K2 V3 Y3 F3 K3 : ℝ}
    (hF0 : |F0| ≤ Φ) (hF1 : |F1| ≤ Φ) (hF2 : |F2| ≤ Φ) (hF3 : |F3| ≤ Φ)
    (hK0 : |K0 - (-(slow * fast) * (y - g) - (slow + fast) * v + F0)| ≤
      10 * u * (slow * fast * |y - g| + (slow + fast) * |v|) + (10 * u * Φ + Z * w))
    (hV1 : V1 = rnd (v + rnd (h / 2 * K0))) (hY1 : Y1 = rnd (y + rnd (h / 2 * v)))
    (hK1 : |K1 - (-(slow * fast) * (Y1 - g) - (slow + fast) * V1 + F1)| ≤
      10 * u * (slow * fast * |Y1 - g| + (slow + fast) * |V1|) + (10 * u * Φ + Z * w))
    (hV2 : V2 = rnd (v + rnd (h / 2 * K1))) (hY2 : Y2 = rnd (y + rnd (h / 2 * V1)))
    (hK2 : |K2 - (-(slow * fast) * (Y2 - g) - (slow + fast) * V2 + F2)| ≤
      10 * u * (slow * fast * |Y2 - g| + (slow + fast) * |V2|) + (10 * u * Φ + Z * w))
    (hV3 : V3 = rnd (v + rnd (h * K2))) (hY3 : Y3 = rnd (y + rnd (h * V2)))
    (hK3 : |K3 - (-(slow * fast) * (Y3 - g) - (slow + fast) * V3 + F3)| ≤
      10 * u * (slow * fast * |Y3 - g| + (slow + fast) * |V3|) + (10 * u * Φ + Z * w)) :
    rkNorm (slow / fast) (rnd (y + rnd (h * rnd (v + rnd (h6 * rnd (rnd (K0 + K1) + K2))))) - g)
        (rnd (v + rnd (h6 * rnd (rnd (rnd (K0 + rnd (2 * K1)) + rnd (2 * K2)) + K3))) / fast) ≤
        (1 - 5 / 16 * (h * slow)) * rkNorm (slow / fast) (y - g) (v / fast) + 2 / (slow / fast) * (5 * (h * fast * (Φ / fast ^ 2)) +
          1200 * (u * (rkNorm (slow / fast) (y - g) (v / fast) + |g| + Φ / fast ^ 2 + W))) ∧
      rkNorm (slow / fast) (rnd (y + rnd (rnd (h * rnd (rnd (rnd (v + rnd (2 * V1)) + rnd (2 * V2)) + V3)) / 6)) - g)
        (rnd (v + rnd (rnd (h * rnd (rnd (rnd (K0 + rnd (2 * K1)) + rnd (2 * K2)) + K3)) / 6)) / fast) ≤
        (1 - 5 / 16 * (h * slow)) * rkNorm (slow / fast) (y - g) (v / fast) + 2 / (slow / fast) * (5 * (h * fast * (Φ / fast ^ 2)) +
          1200 * (u * (rkNorm (slow / fast) (y - g) (v / fast) + |g| + Φ / fast ^ 2 + W))) := by
  have hf : 0 < fast := hs.trans_le hsf
  have hf2 : 0 < fast ^ 2 := by positivity
  have hN := rkNorm_nonneg (slow / fast) (y - g) (v / fast)
  have hφ : 0 ≤ Φ / fast ^ 2 := by positivity
  set N := rkNorm (slow / fast) (y - g) (v / fast) with hNdef
  set B := N + |g| + Φ / fast ^ 2 + W with hBdef
  have hg := abs_nonneg g
  have hWB : u * W ≤ u * B := mul_le_mul_of_nonneg_left (by linarith) hu
  have w1 : 0 ≤ w * (1 / fast) := by positivity
  have w2 : 0 ≤ w * (1 / fast ^ 2) := by positivity
  have w3 : 0 ≤ w * (Z / fast ^ 2) := by positivity
  have hW' : w + w * (1 / fast) + w * (Z / fast ^ 2) + w * (1 / fast ^ 2) ≤ u * B := by
    refine le_trans (le_of_eq ?_) (hW.trans hWB)
    ring
  have hB0 : 0 ≤ B := by linarith
  have hr0 : ∀ z, |rnd z - z| ≤ u * |z| + u * B := fun z => (hr z).trans (by linarith)
  have scale : ∀ {c : ℝ}, 0 < c → w * (1 / c) ≤ u * B → ∀ z, |rnd (c * z) / c - z| ≤ u * |z| + u * B := by
    intro c hc hwc z
    have h1 := hr (c * z)
    rw [show rnd (c * z) / c - z = (rnd (c * z) - c * z) / c by field_simp, abs_div, abs_of_pos hc, div_le_iff₀ hc]
    rw [abs_mul, abs_of_pos hc] at h1
    have h2 := mul_le_mul_of_nonneg_right hwc hc.le
    have e1 : w * (1 / c) * c = w := by field_simp
    rw [e1] at h2
    linarith
  have hr1 := scale hf (by linarith)
  have hr2 := scale hf2 (by linarith)
  have hl : 0 < slow / fast := by positivity
  have hl1 : slow / fast ≤ 1 := by rw [div_le_one hf]; exact hsf
  have acc : ∀ {K Y V F : ℝ}, |F| ≤ Φ → |K - (-(slow * fast) * (Y - g) - (slow + fast) * V + F)| ≤
      10 * u * (slow * fast * |Y - g| + (slow + fast) * |V|) + (10 * u * Φ + Z * w) →
      |K / fast ^ 2 - (-(slow / fast) * (Y - g) - (1 + slow / fast) * (V / fast))| ≤
        Φ / fast ^ 2 + (10 * u * (|Y - g| + 2 * |V / fast|) + 11 * (u * B)) := by
    intro K Y V F hF hK
    have e1 : K / fast ^ 2 - (-(slow / fast) * (Y - g) - (1 + slow / fast) * (V / fast)) =
        (F + (K - (-(slow * fast) * (Y - g) - (slow + fast) * V + F))) / fast ^ 2 := by field_simp; ring
    rw [e1, abs_div, abs_of_pos hf2]
    have h1 : |F + (K - (-(slow * fast) * (Y - g) - (slow + fast) * V + F))| ≤
        Φ + (10 * u * (slow * fast * |Y - g| + (slow + fast) * |V|) + (10 * u * Φ + Z * w)) :=
      (abs_add_le _ _).trans (add_le_add hF hK)
    refine (div_le_div_of_nonneg_right h1 hf2.le).trans ?_
    rw [abs_div, abs_of_pos hf]
    have e2 : (Φ + (10 * u * (slow * fast * |Y - g| + (slow + fast) * |V|) + (10 * u * Φ + Z * w))) / fast ^ 2 =
        Φ / fast ^ 2 + (10 * u * (slow / fast * |Y - g| + (1 + slow / fast) * (|V| / fast)) + (10 * (u * (Φ / fast ^ 2)) + w * (Z / fast ^ 2))) := by
      field_simp
      ring
    rw [e2]
    have h2 := mul_le_mul_of_nonneg_right hl1 (abs_nonneg (Y - g))
    have h3 := mul_le_mul_of_nonneg_right hl1 (show 0 ≤ |V| / fast by positivity)
    have h4 : slow / fast * |Y - g| + (1 + slow / fast) * (|V| / fast) ≤ |Y - g| + 2 * (|V| / fast) := by linarith
    have h5 := mul_le_mul_of_nonneg_left h4 (show 0 ≤ 10 * u by linarith)
    have h6 := mul_le_mul_of_nonneg_left (show Φ / fast ^ 2 ≤ B by linarith) hu
    linarith
  have hy : |y| ≤ B := by
    have h1 := abs_le_rkNorm (slow / fast) (y - g) (v / fast)
    have h2 : |y| ≤ |y - g| + |g| := by
      have := abs_add_le (y - g) g
      rwa [sub_add_cancel] at this
    linarith
  have c1 : ∀ a b : ℝ, fast * (a / fast + b / fast) = a + b := fun a b => by field_simp
  have c2 : ∀ a b : ℝ, fast * (a * fast * (b / fast ^ 2)) = a * b := fun a b => by field_simp
  have c3 : ∀ a b : ℝ, fast ^ 2 * (a / fast ^ 2 + b / fast ^ 2) = a + b := fun a b => by field_simp
  have c4 : ∀ a : ℝ, fast ^ 2 * (2 * (a / fast ^ 2)) = 2 * a := fun a => by field_simp
  have c5 : ∀ a : ℝ, fast * (2 * (a / fast)) = 2 * a := fun a => by field_simp
  have c6 : ∀ a b : ℝ, a * fast * (b / fast) = a * b := fun a b => by field_simp
  have c7 : ∀ a : ℝ, fast * (a / fast / 6) = a / 6 := fun a => by field_simp
  have c8 : ∀ a b : ℝ, fast * (a * fast / 2 * (b / fast ^ 2)) = a / 2 * b := fun a b => by field_simp
  have c9 : ∀ a b : ℝ, a * fast / 2 * (b / fast) = a / 2 * b := fun a b => by field_simp
  have key := rk4_rounded (r0 := rnd) (r1 := fun z => rnd (fast * z) / fast) (r2 := fun z => rnd (fast ^ 2 * z) / fast ^ 2)
    (x := h * fast) (x6 := h6 * fast) (φ := Φ / fast ^ 2) (B := B) (y := y) (g := g) (e := y - g) (v := v / fast) (K0 := K0 / fast ^ 2)
    (V1 := V1 / fast) (E1 := Y1 - g) (K1 := K1 / fast ^ 2) (V2 := V2 / fast) (E2 := Y2 - g) (K2 := K2 / fast ^ 2)
    (V3 := V3 / fast) (E3 := Y3 - g) (K3 := K3 / fast ^ 2)
    hu hu1 hl hl1 (by positivity) hhf
    (by
      rw [show h6 * fast - h * fast / 6 = (h6 - h / 6) * fast by ring, abs_mul, abs_of_pos hf]
      have := mul_le_mul_of_nonneg_right hh6 hf.le
      linarith) hφ (by linarith) hr0 hr1 hr2 hy rfl (by linarith)
    (acc hF0 hK0) (by simp only [c8, c1, hV1]) (by simp only [c9, hY1]) (acc hF1 hK1) (by simp only [c8, c1, hV2])
    (by simp only [c9, hY2]) (acc hF2 hK2) (by simp only [c2, c1, hV3]) (by simp only [c6, hY3]) (acc hF3 hK3)
  simp only [c1, c2, c3, c4, c5, c6, c7] at key
  exact key

/-- Numbers of one call. -/
theorem rk4_numbers {u slow fast dt h N G W Φ : ℝ} (hu : 0 ≤ u) (hs : 0 < slow) (hsf : slow ≤ fast) (hh : |h - dt| ≤ dt / 200)
    (hdt : 0 < dt) (hsmall : 38400 * u * fast ≤ h * slow ^ 2) (hN : 0 ≤ N) (hΦ : 0 ≤ Φ) :
    (1 - 5 / 16 * (h * slow)) * N + 2 / (slow / fast) * (5 * (h * fast * (Φ / fast ^ 2)) + 1200 * (u * (N + G + Φ / fast ^ 2 + W))) ≤
      Real.exp (-(slow * dt / 5)) * N + fast / slow * (14 * (dt * Φ / fast) + 2400 * (u * (G + W))) := by
  have hf : 0 < fast := hs.trans_le hsf
  have hh' := abs_le.1 hh
  have hh0 : 0 < h := by linarith
  have e1 : 2 / (slow / fast) = 2 * (fast / slow) := by field_simp
  rw [e1]
  have hq : 1 ≤ fast / slow := by rw [le_div_iff₀ hs]; linarith
  have hq0 : 0 ≤ fast / slow := by positivity
  -- absorb the rounding errors of the state
  have a1 : 2 * (fast / slow) * (1200 * (u * N)) ≤ h * slow / 16 * N := by
    have : 2 * (fast / slow) * (1200 * u) ≤ h * slow / 16 := by
      rw [show 2 * (fast / slow) * (1200 * u) = 38400 * u * fast / (16 * slow) by field_simp; ring, div_le_div_iff₀ (by positivity) (by norm_num)]
      have := mul_le_mul_of_nonneg_right hsmall (show (0 : ℝ) ≤ 16 by norm_num)
      linarith
    have := mul_le_mul_of_nonneg_right this hN
    linarith
  have a2 : 1200 * u ≤ h * fast := by
    have b1 : h * slow ^ 2 ≤ h * (fast * fast) := mul_le_mul_of_nonneg_left (by
      rw [pow_two]; exact mul_le_mul hsf hsf hs.le hf.le) hh0.le
    have b2 : 38400 * u * fast ≤ h * fast * fast := by linarith
    have b3 := le_of_mul_le_mul_right b2 hf
    linarith
  have hφ : 0 ≤ Φ / fast ^ 2 := by positivity
  have a3 : 5 * (h * fast * (Φ / fast ^ 2)) + 1200 * (u * (Φ / fast ^ 2)) ≤ 7 * (dt * Φ / fast) := by
    have b1 := mul_le_mul_of_nonneg_right a2 hφ
    have b2 : h * fast * (Φ / fast ^ 2) = h * (Φ / fast) := by field_simp
    have b3 : h * (Φ / fast) ≤ 201 / 200 * dt * (Φ / fast) := mul_le_mul_of_nonneg_right (by linarith) (by positivity)
    have b4 : 0 ≤ dt * (Φ / fast) := by positivity
    rw [b2] at b1 ⊢
    rw [show dt * Φ / fast = dt * (Φ / fast) by ring]
    linarith
  have a4 : 1 - h * slow / 4 ≤ Real.exp (-(slow * dt / 5)) := by
    have b1 := Real.add_one_le_exp (-(h * slow / 4))
    have b2 : Real.exp (-(h * slow / 4)) ≤ Real.exp (-(slow * dt / 5)) := by
      refine Real.exp_le_exp.2 (neg_le_neg ?_)
      have := mul_le_mul_of_nonneg_right (show 4 / 5 * dt ≤ h by linarith) hs.le
      linarith
    linarith
  have a5 := mul_le_mul_of_nonneg_right a4 hN
  have a6 := mul_le_mul_of_nonneg_left a3 hq0
  linarith

/-- Halving is exact unless the result is subnormal. -/
theorem isDouble_half_mul {x : ℝ} (h : IsDouble x) (hx : (2 : ℝ) ^ (-1020 : ℤ) ≤ x) : IsDouble (1 / 2 * x) := by
  obtain ⟨m, e, hm, he, rfl⟩ := h
  refine ⟨m, e - 1, hm, ?_, ?_⟩
  · by_contra hlt
    have e1 : e = -1074 := by omega
    rw [e1] at hx
    have h1 : (m : ℝ) ≤ 2 ^ 53 := by
      have : m ≤ 2 ^ 53 := (le_abs_self m).trans hm.le
      exact_mod_cast this
    have h2 : (m : ℝ) * (2 : ℝ) ^ (-1074 : ℤ) ≤ 2 ^ 53 * (2 : ℝ) ^ (-1074 : ℤ) := mul_le_mul_of_nonneg_right h1 (by positivity)
    have h3 : (2 : ℝ) ^ 53 * (2 : ℝ) ^ (-1074 : ℤ) = (2 : ℝ) ^ (-1021 : ℤ) := by
      rw [← zpow_natCast, ← zpow_add₀ (by norm_num)]
      norm_num
    have h4 : (2 : ℝ) ^ (-1021 : ℤ) < (2 : ℝ) ^ (-1020 : ℤ) := zpow_lt_zpow_right₀ (by norm_num) (by norm_num)
    rw [h3] at h2
    exact absurd (hx.trans h2) (not_le.2 h4)
  · rw [zpow_sub_one₀ (by norm_num)]
    ring

end Verif
