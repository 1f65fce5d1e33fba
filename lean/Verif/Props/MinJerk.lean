import Verif.Spec.MinJerk
import Verif.Lemmas.Py
import Mathlib.Analysis.Calculus.Deriv.Shift
import Mathlib.MeasureTheory.Integral.IntervalIntegral.FundThmCalculus
import Mathlib.Tactic.FieldSimp
import Mathlib.Tactic.LinearCombination
import Mathlib.Tactic.Positivity
import Mathlib.Algebra.Order.Archimedean.Real.Basic

/-! # C40: minimum jerk trajectories -/

namespace Verif
open Spec
variable {d : ℕ}

/-- First derivative of the minimum jerk movement. -/
noncomputable def mj1 (a b T t : ℝ) : ℝ := (b - a) * (30 * (t / T) ^ 2 - 60 * (t / T) ^ 3 + 30 * (t / T) ^ 4) / T
/-- Second derivative. -/
noncomputable def mj2 (a b T t : ℝ) : ℝ := (b - a) * (60 * (t / T) - 180 * (t / T) ^ 2 + 120 * (t / T) ^ 3) / T ^ 2
/-- Third derivative. -/
noncomputable def mj3 (a b T t : ℝ) : ℝ := (b - a) * (60 - 360 * (t / T) + 360 * (t / T) ^ 2) / T ^ 3
/-- Fourth derivative. -/
noncomputable def mj4 (a b T t : ℝ) : ℝ := (b - a) * (-360 + 720 * (t / T)) / T ^ 4

theorem hasDerivAt_div_pow (T t : ℝ) (n : ℕ) : HasDerivAt (fun t : ℝ => (t / T) ^ n) (n * (t / T) ^ (n - 1) * (1 / T)) t :=
  ((hasDerivAt_id t).div_const T).pow n

theorem hasDerivAt_mj0 (a b T t : ℝ) : HasDerivAt (minimumJerk a b T) (mj1 a b T t) t := by
  have h := ((((hasDerivAt_div_pow T t 3).const_mul 10).sub ((hasDerivAt_div_pow T t 4).const_mul 15)).add
    ((hasDerivAt_div_pow T t 5).const_mul 6)).const_mul (b - a) |>.const_add a
  refine h.congr_deriv ?_
  rw [mj1]; norm_num; ring

theorem hasDerivAt_mj1 (a b T t : ℝ) : HasDerivAt (mj1 a b T) (mj2 a b T t) t := by
  have h := (((((hasDerivAt_div_pow T t 2).const_mul 30).sub ((hasDerivAt_div_pow T t 3).const_mul 60)).add
    ((hasDerivAt_div_pow T t 4).const_mul 30)).const_mul (b - a)).div_const T
  refine h.congr_deriv ?_
  rw [mj2]; norm_num; ring

theorem hasDerivAt_mj2 (a b T t : ℝ) : HasDerivAt (mj2 a b T) (mj3 a b T t) t := by
  have h1 : HasDerivAt (fun t : ℝ => 60 * (t / T)) (60 * (1 / T)) t := ((hasDerivAt_id t).div_const T).const_mul 60
  have h := (((h1.sub ((hasDerivAt_div_pow T t 2).const_mul 180)).add
    ((hasDerivAt_div_pow T t 3).const_mul 120)).const_mul (b - a)).div_const (T ^ 2)
  refine h.congr_deriv ?_
  rw [mj3]; norm_num; ring

theorem hasDerivAt_mj3 (a b T t : ℝ) : HasDerivAt (mj3 a b T) (mj4 a b T t) t := by
  have h1 : HasDerivAt (fun t : ℝ => 60 - 360 * (t / T)) (-(360 * (1 / T))) t :=
    (((hasDerivAt_id t).div_const T).const_mul 360).const_sub 60
  have h := ((h1.add ((hasDerivAt_div_pow T t 2).const_mul 360)).const_mul (b - a)).div_const (T ^ 3)
  refine h.congr_deriv ?_
  rw [mj4]; norm_num; ring

theorem hasDerivAt_mj4 (a b T t : ℝ) : HasDerivAt (mj4 a b T) ((b - a) * 720 / T ^ 5) t := by
  have h1 : HasDerivAt (fun t : ℝ => -360 + 720 * (t / T)) (720 * (1 / T)) t :=
    (((hasDerivAt_id t).div_const T).const_mul 720).const_add (-360)
  have h := (h1.const_mul (b - a)).div_const (T ^ 4)
  refine h.congr_deriv ?_
  ring

/-- Replanning from a point of the minimum jerk movement stays on it. -/
theorem minJerk_replan (a b T u h : ℝ) (hT : T ≠ 0) (hu : T - u ≠ 0) (x v w : ℝ)
    (hx : x = minimumJerk a b T u) (hv : v = mj1 a b T u) (hw : w = mj2 a b T u) :
    let τ := T - u
    let c1 := (6 * (b - x) + (0 - w * τ ^ 2) / 2 - 3 * (v * τ + 0)) / τ ^ 5
    let c2 := (-15 * (b - x) + (3 * (w * τ ^ 2) - 2 * 0) / 2 + 8 * (v * τ) + 7 * 0) / τ ^ 4
    let c3 := (10 * (b - x) + (0 - 3 * (w * τ ^ 2)) / 2 - 6 * (v * τ) - 4 * 0) / τ ^ 3
    c1 * h ^ 5 + c2 * h ^ 4 + c3 * h ^ 3 + w / 2 * h ^ 2 + v * h + x = minimumJerk a b T (u + h) ∧
      5 * c1 * h ^ 4 + 4 * c2 * h ^ 3 + 3 * c3 * h ^ 2 + 2 * (w / 2) * h + v = mj1 a b T (u + h) ∧
      20 * c1 * h ^ 3 + 12 * c2 * h ^ 2 + 6 * c3 * h + 2 * (w / 2) = mj2 a b T (u + h) := by
  intro τ c1 c2 c3
  have e1 : c1 = (b - a) * 6 / T ^ 5 := by
    simp only [c1, hx, hv, hw, minimumJerk, mj1, mj2, τ]
    field_simp
    ring
  have e2 : c2 = (b - a) * (-15 + 30 * (u / T)) / T ^ 4 := by
    simp only [c2, hx, hv, hw, minimumJerk, mj1, mj2, τ]
    field_simp
    ring
  have e3 : c3 = (b - a) * (10 - 60 * (u / T) + 60 * (u / T) ^ 2) / T ^ 3 := by
    simp only [c3, hx, hv, hw, minimumJerk, mj1, mj2, τ]
    field_simp
    ring
  rw [e1, e2, e3, hx, hv, hw]
  refine ⟨?_, ?_, ?_⟩ <;> simp only [minimumJerk, mj1, mj2] <;> field_simp <;> ring

/-- The state after `k` iterations lies on the movement of duration `execution_time - dt`. -/
theorem minJerkState_eq (x0 g : Vec d) {τ dt : ℝ} (hdt : 0 < dt) (hτ : dt < τ) (k : ℕ) (hk : ((k : ℝ) + 1) * dt ≤ τ) :
    minJerkState x0 g τ dt k = (fun i => minimumJerk (x0 i) (g i) (τ - dt) (k * dt),
      fun i => mj1 (x0 i) (g i) (τ - dt) (k * dt), fun i => mj2 (x0 i) (g i) (τ - dt) (k * dt)) := by
  have hT : τ - dt ≠ 0 := by linarith
  induction k with
  | zero =>
    simp only [minJerkState, minimumJerk, mj1, mj2]
    refine Prod.ext ?_ (Prod.ext ?_ ?_) <;> funext i <;> simp
  | succ k ih =>
    push_cast at hk
    have hk' : ((k : ℝ) + 1) * dt ≤ τ := by nlinarith
    rw [minJerkState, ih hk', minJerkBody]
    have hle : dt ≤ τ - ((k + 1 : ℕ) : ℝ) * dt := by push_cast; nlinarith
    rw [if_pos hle]
    have e : τ - ((k + 1 : ℕ) : ℝ) * dt = τ - dt - k * dt := by push_cast; ring
    rw [e] at hle ⊢
    have hu : τ - dt - k * dt ≠ 0 := by linarith
    have ek : ((k + 1 : ℕ) : ℝ) * dt = k * dt + dt := by push_cast; ring
    rw [ek]
    have key := fun i => minJerk_replan (x0 i) (g i) (τ - dt) (k * dt) dt hT hu _ _ _ rfl rfl rfl
    refine Prod.ext ?_ (Prod.ext ?_ ?_) <;> funext i
    · exact (key i).1
    · exact (key i).2.1
    · exact (key i).2.2

theorem minJerkState_hold (x0 g : Vec d) {τ dt : ℝ} (k : ℕ) (hk : τ < ((k : ℝ) + 2) * dt) :
    minJerkState x0 g τ dt (k + 1) = minJerkState x0 g τ dt k := by
  rw [minJerkState, minJerkBody, if_neg]
  push_cast
  nlinarith

theorem generate_eq (x0 g : Vec d) {τ dt : ℝ} (hdt : 0 < dt) (hτ : 0 ≤ τ) :
    generateMinimumJerk x0 g τ dt = .ok ((List.range (⌊τ / dt⌋₊ + 1)).map (minJerkState x0 g τ dt)) := by
  have h0 : 0 ≤ τ / dt := by positivity
  have hp : pyInt (τ / dt) = (⌊τ / dt⌋₊ : ℤ) := by
    rw [pyInt, if_pos h0, Int.natCast_floor_eq_floor h0]
  unfold generateMinimumJerk
  rw [if_neg hdt.ne']
  simp only [hp]
  rw [if_neg (by omega), if_neg (by omega)]
  congr 3
  omega

theorem deriv_mj0 (a b T t : ℝ) : deriv (minimumJerk a b T) t = mj1 a b T t := (hasDerivAt_mj0 a b T t).deriv
theorem deriv_mj1 (a b T t : ℝ) : deriv (deriv (minimumJerk a b T)) t = mj2 a b T t := by
  rw [show deriv (minimumJerk a b T) = mj1 a b T from funext (deriv_mj0 a b T)]
  exact (hasDerivAt_mj1 a b T t).deriv

/-- **C40 (closed form).** For `execution_time >= 2 * dt` the result has `floor(execution_time / dt) + 1` rows; row `k`
contains position, velocity and acceleration of the minimum jerk movement of duration `execution_time - dt` at time
`k * dt`; the last row repeats the one before it. -/
theorem C40_closed_form (start goal : Vec d) {τ dt : ℝ} (hdt : 0 < dt) (hτ : 2 * dt ≤ τ) :
    ∃ rows, generateMinimumJerk start goal τ dt = .ok rows ∧ rows.length = ⌊τ / dt⌋₊ + 1 ∧
      ∀ (k : ℕ) (hk : k < rows.length) (i : Fin d),
        let t : ℝ := (min k (⌊τ / dt⌋₊ - 1) : ℕ) * dt
        rows[k].1 i = minimumJerk (start i) (goal i) (τ - dt) t ∧
        rows[k].2.1 i = deriv (minimumJerk (start i) (goal i) (τ - dt)) t ∧
        rows[k].2.2 i = deriv (deriv (minimumJerk (start i) (goal i) (τ - dt))) t := by
  refine ⟨_, generate_eq start goal hdt (by linarith), by simp, fun k hk i => ?_⟩
  have hN : 2 ≤ ⌊τ / dt⌋₊ := Nat.le_floor (by rw [le_div_iff₀ hdt]; exact_mod_cast hτ)
  have hfl : (⌊τ / dt⌋₊ : ℝ) * dt ≤ τ := by
    have := Nat.floor_le (a := τ / dt) (div_nonneg (by linarith) hdt.le)
    rwa [le_div_iff₀ hdt] at this
  have hfl' : τ < (⌊τ / dt⌋₊ + 1 : ℝ) * dt := by
    have := Nat.lt_floor_add_one (τ / dt)
    rwa [div_lt_iff₀ hdt] at this
  simp only [List.length_map, List.length_range] at hk
  simp only [List.getElem_map, List.getElem_range, deriv_mj0, deriv_mj1]
  generalize hNN : ⌊τ / dt⌋₊ = N at *
  have hstate : minJerkState start goal τ dt k = minJerkState start goal τ dt (min k (N - 1)) := by
    by_cases h : k ≤ N - 1
    · rw [min_eq_left h]
    · have hkN : k = (N - 1) + 1 := by omega
      rw [min_eq_right (by omega), hkN, minJerkState_hold]
      have : ((N - 1 : ℕ) : ℝ) = N - 1 := by push_cast [Nat.cast_sub (show 1 ≤ N by omega)]; ring
      rw [this]
      linarith
  rw [hstate, minJerkState_eq start goal hdt (by linarith)]
  · exact ⟨rfl, rfl, rfl⟩
  · have : ((min k (N - 1) : ℕ) : ℝ) + 1 ≤ N := by
      have : min k (N - 1) + 1 ≤ N := by omega
      exact_mod_cast this
    nlinarith

/-- The profile of the movement on [0, 1). -/
theorem profile_lt_one {s : ℝ} (h1 : s < 1) : 10 * s ^ 3 - 15 * s ^ 4 + 6 * s ^ 5 < 1 := by
  have h : 1 - (10 * s ^ 3 - 15 * s ^ 4 + 6 * s ^ 5) = (1 - s) ^ 3 * (1 + 3 * s + 6 * s ^ 2) := by ring
  have h2 : 0 < 1 + 3 * s + 6 * s ^ 2 := by nlinarith [sq_nonneg (4 * s + 1)]
  have h3 : 0 < (1 - s) ^ 3 := by have : 0 < 1 - s := by linarith
                                  positivity
  have := mul_pos h3 h2
  linarith

theorem profile_nonneg {s : ℝ} (h0 : 0 ≤ s) : 0 ≤ 10 * s ^ 3 - 15 * s ^ 4 + 6 * s ^ 5 := by
  have h : 10 * s ^ 3 - 15 * s ^ 4 + 6 * s ^ 5 = s ^ 3 * (10 - 15 * s + 6 * s ^ 2) := by ring
  rw [h]
  have : 0 < 10 - 15 * s + 6 * s ^ 2 := by nlinarith [sq_nonneg (4 * s - 5)]
  positivity

/-- **C40 (goal reached).** If `execution_time` is a multiple `n * dt`, `n >= 2`, the last two rows are the goal with zero
velocity and zero acceleration, and the first row is the start at rest. -/
theorem C40_reaches_goal (start goal : Vec d) {dt : ℝ} (hdt : 0 < dt) {n : ℕ} (hn : 2 ≤ n) :
    ∃ rows, generateMinimumJerk start goal (n * dt) dt = .ok rows ∧ rows.length = n + 1 ∧
      rows[0]? = some (start, 0, 0) ∧ rows[n - 1]? = some (goal, 0, 0) ∧ rows[n]? = some (goal, 0, 0) := by
  have hn' : (2 : ℝ) ≤ n := by exact_mod_cast hn
  obtain ⟨rows, h1, h2, h3⟩ := C40_closed_form start goal hdt (τ := n * dt) (by nlinarith)
  have hf : ⌊(n : ℝ) * dt / dt⌋₊ = n := by rw [mul_div_assoc, div_self hdt.ne', mul_one, Nat.floor_natCast]
  rw [hf] at h2
  simp only [hf, deriv_mj0, deriv_mj1] at h3
  have hT : (n : ℝ) * dt - dt ≠ 0 := by nlinarith
  have hend : ((n - 1 : ℕ) : ℝ) * dt / (n * dt - dt) = 1 := by
    rw [Nat.cast_sub (by omega), Nat.cast_one, sub_mul, one_mul, div_self hT]
  have row : ∀ k (hk : k < rows.length), min k (n - 1) = n - 1 → rows[k] = (goal, 0, 0) := by
    intro k hk hm
    refine Prod.ext ?_ (Prod.ext ?_ ?_) <;> funext i
    · rw [(h3 k hk i).1, hm, minimumJerk, hend]; ring
    · rw [(h3 k hk i).2.1, hm, mj1, hend]; norm_num
    · rw [(h3 k hk i).2.2, hm, mj2, hend]; norm_num
  refine ⟨rows, h1, h2, ?_, ?_, ?_⟩
  · rw [List.getElem?_eq_getElem (by omega)]
    refine congrArg some (Prod.ext ?_ (Prod.ext ?_ ?_)) <;> funext i
    · rw [(h3 0 (by omega) i).1, minimumJerk]; simp
    · rw [(h3 0 (by omega) i).2.1, mj1]; simp
    · rw [(h3 0 (by omega) i).2.2, mj2]; simp
  · rw [List.getElem?_eq_getElem (by omega), row _ (by omega) (by omega)]
  · rw [List.getElem?_eq_getElem (by omega), row _ (by omega) (by omega)]

/-- **C40 (between start and goal).** Every row of the result lies between start and goal. -/
theorem C40_between (start goal : Vec d) {τ dt : ℝ} (hdt : 0 < dt) (hτ : 2 * dt ≤ τ) {rows : List (Jet d)}
    (h : generateMinimumJerk start goal τ dt = .ok rows) (r : Jet d) (hr : r ∈ rows) (i : Fin d) :
    ∃ c : ℝ, 0 ≤ c ∧ c ≤ 1 ∧ r.1 i = (1 - c) * start i + c * goal i := by
  obtain ⟨rows', h1, h2, h3⟩ := C40_closed_form start goal hdt hτ
  rw [h] at h1
  obtain rfl : rows = rows' := by simpa using h1
  obtain ⟨k, hk, rfl⟩ := List.mem_iff_getElem.1 hr
  obtain ⟨e, -, -⟩ := h3 k hk i
  set t : ℝ := (min k (⌊τ / dt⌋₊ - 1) : ℕ) * dt with ht
  have hT : 0 < τ - dt := by linarith
  have hfl : (⌊τ / dt⌋₊ : ℝ) * dt ≤ τ := by
    have := Nat.floor_le (a := τ / dt) (div_nonneg (by linarith) hdt.le)
    rwa [le_div_iff₀ hdt] at this
  have hN : 2 ≤ ⌊τ / dt⌋₊ := Nat.le_floor (by rw [le_div_iff₀ hdt]; exact_mod_cast hτ)
  have ht0 : 0 ≤ t := by positivity
  have ht1 : t ≤ τ - dt := by
    have : ((min k (⌊τ / dt⌋₊ - 1) : ℕ) : ℝ) + 1 ≤ ⌊τ / dt⌋₊ := by
      have : min k (⌊τ / dt⌋₊ - 1) + 1 ≤ ⌊τ / dt⌋₊ := by omega
      exact_mod_cast this
    rw [ht]; nlinarith
  have hs0 : 0 ≤ t / (τ - dt) := by positivity
  have hs1 : t / (τ - dt) ≤ 1 := by rw [div_le_one hT]; exact ht1
  refine ⟨10 * (t / (τ - dt)) ^ 3 - 15 * (t / (τ - dt)) ^ 4 + 6 * (t / (τ - dt)) ^ 5, profile_nonneg hs0, ?_, ?_⟩
  · rcases hs1.lt_or_eq with h | h
    · exact (profile_lt_one h).le
    · rw [h]; norm_num
  · rw [e, minimumJerk]; ring

/-- **C40 (finding: goal missed).** If `execution_time` is not a multiple of `dt`, no row reaches the goal in a component
in which start and goal differ. -/
theorem C40_goal_missed (start goal : Vec d) {τ dt : ℝ} (hdt : 0 < dt) (hτ : 2 * dt ≤ τ) (hne : ∀ n : ℕ, τ ≠ n * dt)
    {rows : List (Jet d)} (h : generateMinimumJerk start goal τ dt = .ok rows) (r : Jet d) (hr : r ∈ rows) (i : Fin d)
    (hi : start i ≠ goal i) : r.1 i ≠ goal i := by
  obtain ⟨rows', h1, h2, h3⟩ := C40_closed_form start goal hdt hτ
  rw [h] at h1
  obtain rfl : rows = rows' := by simpa using h1
  obtain ⟨k, hk, rfl⟩ := List.mem_iff_getElem.1 hr
  obtain ⟨e, -, -⟩ := h3 k hk i
  rw [e, minimumJerk]
  set t : ℝ := (min k (⌊τ / dt⌋₊ - 1) : ℕ) * dt with ht
  have hT : 0 < τ - dt := by linarith
  have hN : 2 ≤ ⌊τ / dt⌋₊ := Nat.le_floor (by rw [le_div_iff₀ hdt]; exact_mod_cast hτ)
  have hfl : (⌊τ / dt⌋₊ : ℝ) * dt < τ := by
    have := Nat.floor_le (a := τ / dt) (div_nonneg (by linarith) hdt.le)
    rw [le_div_iff₀ hdt] at this
    exact lt_of_le_of_ne this (Ne.symm (hne _))
  have ht1 : t < τ - dt := by
    have : ((min k (⌊τ / dt⌋₊ - 1) : ℕ) : ℝ) + 1 ≤ ⌊τ / dt⌋₊ := by
      have : min k (⌊τ / dt⌋₊ - 1) + 1 ≤ ⌊τ / dt⌋₊ := by omega
      exact_mod_cast this
    rw [ht]; nlinarith
  have hs1 : t / (τ - dt) < 1 := by rw [div_lt_one hT]; exact ht1
  have := profile_lt_one hs1
  intro hcon
  apply hi
  have h0 : (goal i - start i) * (1 - (10 * (t / (τ - dt)) ^ 3 - 15 * (t / (τ - dt)) ^ 4 + 6 * (t / (τ - dt)) ^ 5)) = 0 := by
    linarith
  rcases mul_eq_zero.1 h0 with h0 | h0 <;> linarith

/-- **C40 (finding: no movement).** For `execution_time < 2 * dt`, in particular `execution_time = dt`, all rows are the
start. -/
theorem C40_no_movement (start goal : Vec d) {τ dt : ℝ} (hdt : 0 < dt) (h0 : 0 ≤ τ) (hτ : τ < 2 * dt) :
    ∃ rows, generateMinimumJerk start goal τ dt = .ok rows ∧ rows.length = ⌊τ / dt⌋₊ + 1 ∧
      ∀ r ∈ rows, r = (start, 0, 0) := by
  refine ⟨_, generate_eq start goal hdt h0, by simp, fun r hr => ?_⟩
  rw [List.mem_map] at hr
  obtain ⟨k, -, rfl⟩ := hr
  induction k with
  | zero => rfl
  | succ k ih =>
    rw [minJerkState_hold, ih]
    have : (0 : ℝ) ≤ k := Nat.cast_nonneg k
    nlinarith

/-- **C40 (errors).** -/
theorem C40_errors (start goal : Vec d) :
    (∀ τ, generateMinimumJerk start goal τ 0 = .error .zeroDivisionError) ∧
      (∀ {τ dt : ℝ}, 0 < dt → -2 * dt < τ → τ ≤ -dt → generateMinimumJerk start goal τ dt = .error .indexError) ∧
      (∀ {τ dt : ℝ}, 0 < dt → τ ≤ -2 * dt → generateMinimumJerk start goal τ dt = .error .valueError) := by
  refine ⟨fun τ => by simp [generateMinimumJerk], fun {τ dt} hdt h1 h2 => ?_, fun {τ dt} hdt h1 => ?_⟩
  · have hc : ⌈τ / dt⌉ = -1 := by
      rw [Int.ceil_eq_iff]
      push_cast
      constructor
      · rw [lt_div_iff₀ hdt]; linarith
      · rw [div_le_iff₀ hdt]; linarith
    have hneg : ¬0 ≤ τ / dt := by
      rw [not_le, div_neg_iff]; right; constructor <;> linarith
    unfold generateMinimumJerk pyInt
    rw [if_neg hdt.ne', if_neg hneg, hc]
    rfl
  · have hc : ⌈τ / dt⌉ ≤ -2 := by
      rw [Int.ceil_le]
      push_cast
      rw [div_le_iff₀ hdt]; linarith
    have hneg : ¬0 ≤ τ / dt := by
      rw [not_le, div_neg_iff]; right; constructor <;> linarith
    unfold generateMinimumJerk pyInt
    rw [if_neg hdt.ne', if_neg hneg]
    simp only
    rw [if_pos (by omega)]

/-! ## Optimality -/

theorem continuous_mj3 (a b T : ℝ) : Continuous (mj3 a b T) := by
  unfold mj3; fun_prop

/-- **C40 (minimum jerk).** The polynomial is a smooth movement, and no smooth movement with the same start, goal and
duration has a smaller integral of the squared jerk. -/
theorem C40_minimal_jerk (a b : ℝ) {T : ℝ} (hT : 0 < T) :
    SmoothMovement a b T (minimumJerk a b T) (deriv (minimumJerk a b T)) (deriv (deriv (minimumJerk a b T)))
        (deriv (deriv (deriv (minimumJerk a b T)))) ∧
      ∀ x0 x1 x2 x3, SmoothMovement a b T x0 x1 x2 x3 →
        jerkCost T (deriv (deriv (deriv (minimumJerk a b T)))) ≤ jerkCost T x3 := by
  have e1 : deriv (minimumJerk a b T) = mj1 a b T := funext (deriv_mj0 a b T)
  have e2 : deriv (mj1 a b T) = mj2 a b T := funext fun t => (hasDerivAt_mj1 a b T t).deriv
  have e3 : deriv (mj2 a b T) = mj3 a b T := funext fun t => (hasDerivAt_mj2 a b T t).deriv
  rw [e1, e2, e3]
  have hd : T / T = 1 := div_self hT.ne'
  have hs : SmoothMovement a b T (minimumJerk a b T) (mj1 a b T) (mj2 a b T) (mj3 a b T) := by
    refine ⟨hasDerivAt_mj0 a b T, hasDerivAt_mj1 a b T, hasDerivAt_mj2 a b T, continuous_mj3 a b T, ?_, ?_⟩
    · refine ⟨?_, ?_, ?_⟩ <;> simp [minimumJerk, mj1, mj2]
    · refine ⟨?_, ?_, ?_⟩ <;> simp only [minimumJerk, mj1, mj2, hd] <;> ring
  refine ⟨hs, fun x0 x1 x2 x3 hx => ?_⟩
  -- cross term
  have hcross : ∫ t in (0 : ℝ)..T, mj3 a b T t * (x3 t - mj3 a b T t) = 0 := by
    let F : ℝ → ℝ := fun t => mj3 a b T t * (x2 t - mj2 a b T t) - mj4 a b T t * (x1 t - mj1 a b T t) +
      (b - a) * 720 / T ^ 5 * (x0 t - minimumJerk a b T t)
    have hF : ∀ t ∈ Set.uIcc 0 T, HasDerivAt F (mj3 a b T t * (x3 t - mj3 a b T t)) t := by
      intro t _
      have h := (((hasDerivAt_mj3 a b T t).mul ((hx.d2 t).sub (hasDerivAt_mj2 a b T t))).sub
        ((hasDerivAt_mj4 a b T t).mul ((hx.d1 t).sub (hasDerivAt_mj1 a b T t)))).add
        (((hx.d0 t).sub (hasDerivAt_mj0 a b T t)).const_mul ((b - a) * 720 / T ^ 5))
      refine h.congr_deriv ?_
      simp only [Pi.sub_apply]
      ring
    have hc : Continuous fun t => mj3 a b T t * (x3 t - mj3 a b T t) :=
      (continuous_mj3 a b T).mul (hx.jerk.sub (continuous_mj3 a b T))
    rw [intervalIntegral.integral_eq_sub_of_hasDerivAt hF (hc.intervalIntegrable 0 T)]
    simp only [F]
    rw [hx.stop.1, hx.stop.2.1, hx.stop.2.2, hx.start.1, hx.start.2.1, hx.start.2.2, hs.stop.1, hs.stop.2.1, hs.stop.2.2,
      hs.start.1, hs.start.2.1, hs.start.2.2]
    ring
  unfold jerkCost
  have hi1 : IntervalIntegrable (fun t => mj3 a b T t ^ 2) MeasureTheory.volume 0 T :=
    ((continuous_mj3 a b T).pow 2).intervalIntegrable 0 T
  have hi2 : IntervalIntegrable (fun t => mj3 a b T t * (x3 t - mj3 a b T t)) MeasureTheory.volume 0 T :=
    ((continuous_mj3 a b T).mul (hx.jerk.sub (continuous_mj3 a b T))).intervalIntegrable 0 T
  have hi3 : IntervalIntegrable (fun t => x3 t ^ 2) MeasureTheory.volume 0 T := (hx.jerk.pow 2).intervalIntegrable 0 T
  have hle : ∫ t in (0 : ℝ)..T, (mj3 a b T t ^ 2 + 2 * (mj3 a b T t * (x3 t - mj3 a b T t))) ≤
      ∫ t in (0 : ℝ)..T, x3 t ^ 2 := by
    refine intervalIntegral.integral_mono_on hT.le (hi1.add (hi2.const_mul 2)) hi3 fun t _ => ?_
    nlinarith [sq_nonneg (x3 t - mj3 a b T t)]
  rw [intervalIntegral.integral_add hi1 (hi2.const_mul 2), intervalIntegral.integral_const_mul, hcross] at hle
  linarith

/-! ## The class -/

namespace MinimumJerkTrajectory

theorem exec_step (y yd : Vec d) (s : MinimumJerkTrajectory d) :
    (step y yd).exec s =
      match (if s.initialized then .ok s.rows else generateMinimumJerk s.startY s.goalY s.executionTime s.dt) with
      | .error e => (.error e, s)
      | .ok rows => match rows[s.stepIdx]? with
        | none => (.error .indexError, { s with rows := rows, initialized := true })
        | some r => (.ok (r.1, r.2.1), { s with
            rows := rows, initialized := true, currentY := r.1, currentYd := r.2.1, stepIdx := s.stepIdx + 1 }) := by
  obtain ⟨m, rows, et, dt, idx, ini⟩ := s
  cases ini
  · show _ = match generateMinimumJerk m.startY m.goalY et dt with
      | .error e => _
      | .ok rows => _
    simp only [step, Py.exec_bind, Py.exec_get]
    cases hg : generateMinimumJerk m.startY m.goalY et dt with
    | error e => rfl
    | ok rows => cases hr : rows[idx]? <;> simp [Py.exec_bind, hr] <;> rfl
  · cases hr : rows[idx]? <;> simp [step, Py.exec_bind, hr] <;> rfl

/-- Consecutive calls of `step` with the given arguments. -/
noncomputable def steps (xs : List (Vec d × Vec d)) : Py (MinimumJerkTrajectory d) (List (Vec d × Vec d)) :=
  xs.mapM fun a => step a.1 a.2

/-- `reset`, then consecutive calls of `step`. -/
noncomputable def run (xs : List (Vec d × Vec d)) : Py (MinimumJerkTrajectory d) (List (Vec d × Vec d)) := do
  reset
  steps xs

theorem exec_mapM_step (xs : List (Vec d × Vec d)) : ∀ (s : MinimumJerkTrajectory d), s.initialized = true →
    s.stepIdx ≤ s.rows.length →
    ((steps xs).exec s).1 = if s.stepIdx + xs.length ≤ s.rows.length then
      .ok (((s.rows.drop s.stepIdx).take xs.length).map fun r => (r.1, r.2.1)) else .error .indexError := by
  induction xs with
  | nil => intro s _ h; simp [steps, h]
  | cons x xs ih =>
    intro s hi hs
    rw [steps, List.mapM_cons, Py.exec_bind, exec_step, hi]
    simp only [if_true]
    by_cases hlt : s.stepIdx < s.rows.length
    · rw [List.getElem?_eq_getElem hlt]
      simp only
      rw [Py.exec_bind, ← steps]
      have h := ih { s with
            rows := s.rows, initialized := true, currentY := s.rows[s.stepIdx].1, currentYd := s.rows[s.stepIdx].2.1,
            stepIdx := s.stepIdx + 1 } rfl hlt
      simp only at h
      split
      next a s' he =>
        simp only [he] at h
        split at h
        · rw [if_pos (by simp only [List.length_cons]; omega)]
          simp only [Except.ok.injEq] at h
          rw [h, Py.exec_pure, List.drop_eq_getElem_cons hlt, List.length_cons, List.take_succ_cons, List.map_cons]
        · cases h
      next e s' he => simp only [he] at h
                      split at h
                      · cases h
                      · rw [h, if_neg (by simp only [List.length_cons]; omega)]
    · rw [List.getElem?_eq_none (by omega)]
      simp only [List.length_cons]
      rw [if_neg (by omega)]

/-- **C40 (the class).** After `reset`, for any history of the object before, the results of consecutive calls of `step`
are the rows of the minimum jerk trajectory from `start_y` to `goal_y`, whatever state is passed to `step`. After the
last row `step` raises IndexError. -/
theorem C40_class (s : MinimumJerkTrajectory d) {rows : List (Jet d)}
    (h : generateMinimumJerk s.startY s.goalY s.executionTime s.dt = .ok rows) (xs : List (Vec d × Vec d)) :
    ((run xs).exec s).1 = if xs.length ≤ rows.length then
      .ok ((rows.take xs.length).map fun r => (r.1, r.2.1)) else .error .indexError := by
  have hr : (reset.exec s) = (.ok (), { s with stepIdx := 0, initialized := false }) := rfl
  rw [run, Py.exec_bind, hr]
  simp only
  cases xs with
  | nil => simp [steps]
  | cons x xs =>
    rw [steps, List.mapM_cons, Py.exec_bind, exec_step]
    simp only [h, Bool.false_eq_true, if_false]
    by_cases h0 : 0 < rows.length
    · rw [List.getElem?_eq_getElem h0]
      simp only
      rw [Py.exec_bind, ← steps]
      have h := exec_mapM_step xs { s with
            rows := rows, initialized := true, currentY := rows[0].1, currentYd := rows[0].2.1,
            stepIdx := 0 + 1 } rfl h0
      simp only at h
      split
      next a s' he =>
        simp only [he] at h
        split at h
        · rw [if_pos (by simp only [List.length_cons]; omega)]
          simp only [Except.ok.injEq] at h
          rw [h, Py.exec_pure]
          conv_rhs => rw [← List.drop_zero (l := rows), List.drop_eq_getElem_cons h0, List.length_cons,
            List.take_succ_cons, List.map_cons]
        · cases h
      next e s' he => simp only [he] at h
                      split at h
                      · cases h
                      · rw [h, if_neg (by simp only [List.length_cons]; omega)]
    · rw [List.getElem?_eq_none (by omega)]
      simp only [List.length_cons]
      rw [if_neg (by omega)]

/-- **C40 (finding: stale trajectory).** Once a step was made, `configure` (any change of start and goal) has no effect
on the following steps until `reset` is called. -/
theorem C40_configure_ignored (s : MinimumJerkTrajectory d) (hi : s.initialized = true) (m : Movement d d)
    (xs : List (Vec d × Vec d)) (hs : s.stepIdx ≤ s.rows.length) :
    ((steps xs).exec { s with toMovement := m }).1 =
      ((steps xs).exec s).1 := by
  rw [exec_mapM_step xs s hi hs, exec_mapM_step xs { s with toMovement := m } hi hs]

/-- A trajectory of one second from 0 to 1 with `dt = 0.01`: 101 steps, of which the last two return the goal at rest. -/
example (xs : List (Vec 1 × Vec 1)) (hx : xs.length = 101) (s : MinimumJerkTrajectory 1)
    (hs : s = { create 1 1 (1 / 100) with startY := 0, goalY := 1 }) :
    ∃ ys, ((run xs).exec s).1 = .ok ys ∧ ys.length = 101 ∧ ys[100]? = some ((1, 0) : Vec 1 × Vec 1) := by
  obtain ⟨rows, h1, h2, -, -, h5⟩ := C40_reaches_goal (d := 1) 0 1 (dt := 1 / 100) (by norm_num) (n := 100) (by norm_num)
  have e : ((100 : ℕ) : ℝ) * (1 / 100) = 1 := by norm_num
  rw [e] at h1
  subst hs
  refine ⟨_, (C40_class _ (rows := rows) h1 xs).trans (if_pos (by omega)), by simp; omega, ?_⟩
  rw [List.getElem?_map, List.getElem?_take, if_pos (by omega), h5]
  rfl

end MinimumJerkTrajectory

/-- `execution_time = 0.25`, `dt = 0.1`: the goal is missed. -/
example {rows : List (Jet 1)} (h : generateMinimumJerk (d := 1) 0 1 (1 / 4) (1 / 10) = .ok rows) (r) (hr : r ∈ rows) :
    r.1 0 ≠ 1 := by
  refine C40_goal_missed (d := 1) 0 1 (by norm_num) (by norm_num) (fun n hn => ?_) h r hr 0 (by simp)
  have h1 : (n : ℝ) * 2 = 5 := by linarith
  have : n * 2 = 5 := by exact_mod_cast h1
  omega

end Verif
