import Verif.Spec.Float
import Mathlib.Tactic.Linarith
import Mathlib.Tactic.Positivity
import Mathlib.Tactic.Ring
import Mathlib.Tactic.FieldSimp
import Mathlib.Tactic.NormNum
import Mathlib.Algebra.Order.Floor.Ring
import Mathlib.Algebra.Order.Round
import Mathlib.Algebra.Order.Field.Power
import Mathlib.Data.Int.Log
import Mathlib.Data.Set.Finite.Lattice
import Mathlib.Order.Interval.Finset.Basic
import Mathlib.Data.Int.Interval

/-!
# Doubles and rounding
-/

namespace Verif
open Spec

/-- Every double is an integer multiple of the smallest positive double. -/
theorem IsDouble.multiple {x : ℝ} (h : IsDouble x) : ∃ k : ℤ, x = k * (2 : ℝ) ^ (-1074 : ℤ) := by
  obtain ⟨m, e, -, he, rfl⟩ := h
  obtain ⟨n, hn⟩ := Int.eq_ofNat_of_zero_le (show 0 ≤ e + 1074 by omega)
  refine ⟨m * 2 ^ n, ?_⟩
  have : (2 : ℝ) ^ e = 2 ^ n * (2 : ℝ) ^ (-1074 : ℤ) := by
    rw [← zpow_natCast, ← zpow_add₀ (by norm_num)]
    congr 1; omega
  rw [this]; push_cast; ring

theorem isDouble_zero : IsDouble 0 := ⟨0, 0, by norm_num, by norm_num, by norm_num⟩

theorem isDouble_neg {x : ℝ} (h : IsDouble x) : IsDouble (-x) := by
  obtain ⟨m, e, hm, he, rfl⟩ := h
  exact ⟨-m, e, by rwa [abs_neg], he, by push_cast; ring⟩

theorem isDouble_two_mul {x : ℝ} (h : IsDouble x) : IsDouble (2 * x) := by
  obtain ⟨m, e, hm, he, rfl⟩ := h
  refine ⟨m, e + 1, hm, by omega, ?_⟩
  rw [zpow_add₀ (by norm_num), zpow_one]; ring

/-- Write two doubles with a common exponent, which is the exponent of one of them. -/
theorem isDouble_common {x y : ℝ} (hx : IsDouble x) (hy : IsDouble y) :
    ∃ k l e : ℤ, -1074 ≤ e ∧ x = k * (2 : ℝ) ^ e ∧ y = l * (2 : ℝ) ^ e ∧ (|k| < 2 ^ 53 ∨ |l| < 2 ^ 53) := by
  obtain ⟨m, e, hm, he, rfl⟩ := hx
  obtain ⟨m', e', hm', he', rfl⟩ := hy
  rcases le_total e e' with h | h
  · obtain ⟨n, hn⟩ := Int.eq_ofNat_of_zero_le (show 0 ≤ e' - e by omega)
    refine ⟨m, m' * 2 ^ n, e, he, rfl, ?_, .inl hm⟩
    have : (2 : ℝ) ^ e' = 2 ^ n * (2 : ℝ) ^ e := by
      rw [← zpow_natCast, ← zpow_add₀ (by norm_num)]; congr 1; omega
    rw [this]; push_cast; ring
  · obtain ⟨n, hn⟩ := Int.eq_ofNat_of_zero_le (show 0 ≤ e - e' by omega)
    refine ⟨m * 2 ^ n, m', e', he', ?_, rfl, .inr hm'⟩
    have : (2 : ℝ) ^ e = 2 ^ n * (2 : ℝ) ^ e' := by
      rw [← zpow_natCast, ← zpow_add₀ (by norm_num)]; congr 1; omega
    rw [this]; push_cast; ring

/-- Sterbenz: the difference of doubles within a factor of two is a double. -/
theorem isDouble_sub {x y : ℝ} (hx : IsDouble x) (hy : IsDouble y) (h1 : y ≤ 2 * x) (h2 : x ≤ 2 * y) :
    IsDouble (x - y) := by
  obtain ⟨k, l, e, he, rfl, rfl, hkl⟩ := isDouble_common hx hy
  have hp : (0 : ℝ) < 2 ^ e := by positivity
  refine ⟨k - l, e, ?_, he, by push_cast; ring⟩
  have h1' : l ≤ 2 * k := by
    have : (l : ℝ) ≤ 2 * k := by
      by_contra hc; push Not at hc
      have := mul_lt_mul_of_pos_right hc hp
      linarith
    exact_mod_cast this
  have h2' : k ≤ 2 * l := by
    have : (k : ℝ) ≤ 2 * l := by
      by_contra hc; push Not at hc
      have := mul_lt_mul_of_pos_right hc hp
      linarith
    exact_mod_cast this
  rcases hkl with h | h <;> rw [abs_lt] at h ⊢ <;> constructor <;> omega

/-- The gap between different doubles. -/
theorem isDouble_gap {x y : ℝ} (hx : IsDouble x) (hy : IsDouble y) (h0 : 0 ≤ x) (h : x < y) :
    (2 : ℝ) ^ (-53 : ℤ) * x ≤ y - x := by
  obtain ⟨k, l, e, he, rfl, rfl, hkl⟩ := isDouble_common hx hy
  have hp : (0 : ℝ) < 2 ^ e := by positivity
  have hk0 : (0 : ℝ) ≤ k := by
    by_contra hc; push Not at hc
    have := mul_neg_of_neg_of_pos hc hp
    linarith
  have hkl' : k < l := by
    have : (k : ℝ) < l := by
      by_contra hc; push Not at hc
      have := mul_le_mul_of_nonneg_right hc hp.le
      linarith
    exact_mod_cast this
  have hk0' : 0 ≤ k := by exact_mod_cast hk0
  have hk : (k : ℝ) ≤ 2 ^ 53 := by
    have : k ≤ 2 ^ 53 := by
      rcases hkl with h | h <;> rw [abs_lt] at h <;> omega
    exact_mod_cast this
  have h1 : (1 : ℝ) ≤ l - k := by
    have : k + 1 ≤ l := hkl'
    have : ((k + 1 : ℤ) : ℝ) ≤ l := by exact_mod_cast this
    push_cast at this; linarith
  have h53 : (2 : ℝ) ^ (-53 : ℤ) * k ≤ 1 := by
    rw [zpow_neg, inv_mul_le_iff₀ (by positivity)]
    simpa using hk
  calc (2 : ℝ) ^ (-53 : ℤ) * (k * 2 ^ e) = ((2 : ℝ) ^ (-53 : ℤ) * k) * 2 ^ e := by ring
    _ ≤ (l - k) * 2 ^ e := mul_le_mul_of_nonneg_right (h53.trans h1) hp.le
    _ = l * 2 ^ e - k * 2 ^ e := by ring

/-- A multiple of the smallest positive double has a double within half a unit in the last place. -/
theorem exists_isDouble_near {x : ℝ} (h : ∃ k : ℤ, x = k * (2 : ℝ) ^ (-1074 : ℤ)) :
    ∃ y, IsDouble y ∧ |y - x| ≤ (2 : ℝ) ^ (-53 : ℤ) * |x| := by
  obtain ⟨k, rfl⟩ := h
  by_cases hk : |k| < 2 ^ 53
  · exact ⟨k * 2 ^ (-1074 : ℤ), ⟨k, -1074, hk, le_refl _, rfl⟩, by rw [sub_self, abs_zero]; positivity⟩
  push Not at hk
  have hka : (2 : ℝ) ^ 53 ≤ |(k : ℝ)| := by exact_mod_cast hk
  have hk0 : (0 : ℝ) < |(k : ℝ)| := lt_of_lt_of_le (by positivity) hka
  -- binary exponent of `k`
  obtain ⟨e, h1, h2⟩ : ∃ e : ℤ, (2 : ℝ) ^ e ≤ |(k : ℝ)| ∧ |(k : ℝ)| < (2 : ℝ) ^ (e + 1) := by
    refine ⟨Int.log 2 |(k : ℝ)|, ?_, ?_⟩
    · have := Int.zpow_log_le_self (b := 2) (by norm_num) hk0
      simpa using this
    · have := Int.lt_zpow_succ_log_self (b := 2) (by norm_num) |(k : ℝ)|
      simpa using this
  have he52 : 53 ≤ e := by
    by_contra hc
    push Not at hc
    have : (2 : ℝ) ^ (e + 1) ≤ 2 ^ (53 : ℤ) := zpow_le_zpow_right₀ (by norm_num) (by omega)
    have h3 : |(k : ℝ)| < 2 ^ (53 : ℤ) := lt_of_lt_of_le h2 this
    norm_num at h3 hka
    linarith
  have hδ : (0 : ℝ) < (2 : ℝ) ^ (-1074 : ℤ) := by positivity
  set u : ℝ := (2 : ℝ) ^ (e - 52) with hu
  have hup : 0 < u := by positivity
  set n : ℤ := round ((k : ℝ) / u) with hn
  have hr : |(k : ℝ) / u - n| ≤ 1 / 2 := abs_sub_round _
  have hpow : (2 : ℝ) ^ (e + 1) = 2 ^ 53 * u := by
    rw [hu, ← zpow_natCast, ← zpow_add₀ (by norm_num)]; congr 1; push_cast; ring
  have hpow' : (2 : ℝ) ^ e = 2 ^ 52 * u := by
    rw [hu, ← zpow_natCast, ← zpow_add₀ (by norm_num)]; congr 1; push_cast; ring
  have hku : |(k : ℝ) / u| < 2 ^ 53 := by
    rw [abs_div, abs_of_pos hup, div_lt_iff₀ hup, ← hpow]; exact h2
  have hnle : |n| ≤ 2 ^ 53 := by
    have : |(n : ℝ)| < 2 ^ 53 + 1 := by
      have h4 : |(n : ℝ)| ≤ |(k : ℝ) / u| + |(k : ℝ) / u - n| := by
        calc |(n : ℝ)| = |(k : ℝ) / u - ((k : ℝ) / u - n)| := by congr 1; ring
          _ ≤ _ := abs_sub _ _
      linarith
    have : |n| < 2 ^ 53 + 1 := by exact_mod_cast this
    omega
  refine ⟨n * u * 2 ^ (-1074 : ℤ), ?_, ?_⟩
  · have hue : u * 2 ^ (-1074 : ℤ) = (2 : ℝ) ^ (e - 52 - 1074) := by
      rw [hu, ← zpow_add₀ (by norm_num)]; rfl
    rcases lt_or_eq_of_le hnle with hlt | heq
    · exact ⟨n, e - 52 - 1074, hlt, by omega, by rw [mul_assoc, hue]⟩
    · have hue' : u * 2 ^ (-1074 : ℤ) = (2 : ℝ) ^ (e - 52 - 1074 + 1) / 2 := by
        rw [hue, zpow_add₀ (by norm_num), zpow_one]; ring
      rcases abs_eq (show (0 : ℤ) ≤ 2 ^ 53 by norm_num) |>.1 heq with h5 | h5
      · exact ⟨2 ^ 52, e - 52 - 1074 + 1, by norm_num, by omega, by rw [mul_assoc, hue', h5]; push_cast; ring⟩
      · exact ⟨-2 ^ 52, e - 52 - 1074 + 1, by norm_num, by omega, by rw [mul_assoc, hue', h5]; push_cast; ring⟩
  · generalize (2 : ℝ) ^ (-1074 : ℤ) = δ at hδ ⊢
    have e1 : (n : ℝ) * u * δ - k * δ = -((k : ℝ) / u - n) * (u * δ) := by
      field_simp
      ring
    rw [e1, abs_mul, abs_neg, abs_of_pos (show 0 < u * δ by positivity), abs_mul,
      abs_of_pos (show (0 : ℝ) < δ from hδ)]
    have h6 : u ≤ (2 : ℝ) ^ (-52 : ℤ) * |(k : ℝ)| := by
      have : (2 : ℝ) ^ (-52 : ℤ) * (2 ^ 52 * u) ≤ (2 : ℝ) ^ (-52 : ℤ) * |(k : ℝ)| :=
        mul_le_mul_of_nonneg_left (hpow' ▸ h1) (by positivity)
      have e2 : (2 : ℝ) ^ (-52 : ℤ) * (2 ^ 52 * u) = u := by
        rw [← mul_assoc]; norm_num
      linarith
    have h7 : (2 : ℝ) ^ (-53 : ℤ) = (2 : ℝ) ^ (-52 : ℤ) / 2 := by norm_num
    calc |(k : ℝ) / u - n| * (u * δ) ≤ 1 / 2 * (u * δ) :=
          mul_le_mul_of_nonneg_right hr (by positivity)
      _ ≤ 1 / 2 * ((2 : ℝ) ^ (-52 : ℤ) * |(k : ℝ)| * δ) := by
          exact mul_le_mul_of_nonneg_left (mul_le_mul_of_nonneg_right h6 hδ.le) (by norm_num)
      _ = 2 ^ (-53 : ℤ) * (|(k : ℝ)| * δ) := by rw [h7]; ring

/-- Correct rounding exists. -/
theorem exists_isRounding : ∃ rnd, IsRounding rnd := by
  have key : ∀ x : ℝ, ∃ r, IsDouble r ∧ ∀ y, IsDouble y → |r - x| ≤ |y - x| := by
    intro x
    set δ : ℝ := (2 : ℝ) ^ (-1074 : ℤ) with hδ
    have hδp : 0 < δ := by positivity
    -- candidates: doubles that are not farther than 0
    let S : Set ℤ := {k | IsDouble (k * δ) ∧ |k * δ - x| ≤ |x|}
    have hfin : S.Finite := by
      refine (Set.finite_Icc (-⌈2 * |x| / δ⌉) ⌈2 * |x| / δ⌉).subset ?_
      rintro k ⟨-, hk⟩
      have h1 : |(k : ℝ)| ≤ 2 * |x| / δ := by
        rw [le_div_iff₀ hδp]
        calc |(k : ℝ)| * δ = |(k * δ - x) + x| := by rw [sub_add_cancel, abs_mul, abs_of_pos hδp]
          _ ≤ |k * δ - x| + |x| := abs_add_le _ _
          _ ≤ 2 * |x| := by linarith
      have h2 : |(k : ℝ)| ≤ (⌈2 * |x| / δ⌉ : ℤ) := h1.trans (Int.le_ceil _)
      have h3 : |k| ≤ ⌈2 * |x| / δ⌉ := by exact_mod_cast h2
      exact abs_le.1 h3
    have hne : S.Nonempty := ⟨0, by simpa using isDouble_zero, by simp⟩
    obtain ⟨k, hk, hmin⟩ := Set.exists_min_image S (fun k : ℤ => |k * δ - x|) hfin hne
    refine ⟨k * δ, hk.1, fun y hy => ?_⟩
    obtain ⟨l, rfl⟩ := IsDouble.multiple hy
    by_cases hl : |l * δ - x| ≤ |x|
    · exact hmin l ⟨hy, hl⟩
    · exact hk.2.trans (le_of_lt (not_le.1 hl))
  choose f hf using key
  exact ⟨f, fun x => (hf x).1, fun x => (hf x).2⟩

namespace Spec.IsRounding
variable {rnd : ℝ → ℝ} (h : IsRounding rnd)
include h

theorem of_isDouble {x : ℝ} (hx : IsDouble x) : rnd x = x := by
  have := h.nearest x x hx
  rw [sub_self, abs_zero] at this
  exact sub_eq_zero.1 (abs_eq_zero.1 (le_antisymm this (abs_nonneg _)))

theorem mono {x y : ℝ} (hxy : x ≤ y) : rnd x ≤ rnd y := by
  rcases hxy.eq_or_lt with rfl | hlt
  · exact le_refl _
  by_contra hc
  push Not at hc
  have h1 := h.nearest x (rnd y) (h.isDouble y)
  have h2 := h.nearest y (rnd x) (h.isDouble x)
  rw [← sq_le_sq] at h1 h2
  nlinarith

theorem le_of_isDouble {x y : ℝ} (hy : IsDouble y) (hxy : x ≤ y) : rnd x ≤ y := by
  rw [← h.of_isDouble hy]; exact h.mono hxy

theorem ge_of_isDouble {x y : ℝ} (hy : IsDouble y) (hxy : y ≤ x) : y ≤ rnd x := by
  rw [← h.of_isDouble hy]; exact h.mono hxy

/-- Rounding error of a sum of doubles. -/
theorem add_error {x y : ℝ} (hx : IsDouble x) (hy : IsDouble y) :
    |rnd (x + y) - (x + y)| ≤ (2 : ℝ) ^ (-53 : ℤ) * |x + y| := by
  obtain ⟨k, hk⟩ := IsDouble.multiple hx
  obtain ⟨l, hl⟩ := IsDouble.multiple hy
  obtain ⟨z, hz, hzb⟩ := exists_isDouble_near (x := x + y) ⟨k + l, by rw [hk, hl]; push_cast; ring⟩
  exact (h.nearest _ z hz).trans hzb

theorem sub_error {x y : ℝ} (hx : IsDouble x) (hy : IsDouble y) :
    |rnd (x - y) - (x - y)| ≤ (2 : ℝ) ^ (-53 : ℤ) * |x - y| := by
  have := h.add_error hx (isDouble_neg hy)
  simpa [sub_eq_add_neg] using this

end Spec.IsRounding
end Verif
