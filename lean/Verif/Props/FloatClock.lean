import Verif.Model.FloatClock
import Verif.Lemmas.Float
import Verif.Lemmas.Py
import Mathlib.Tactic.IntervalCases

/-!
# Time keeping in double precision (C79, C80)
-/

namespace Verif
open Spec

/-- C79: without rounding, the loop is the one of the remaining model. -/
theorem C79_exact {σ : Type} (intDt t : ℝ) (upd : ℝ → ℝ → σ → σ) (lastT : ℝ) (s : σ) :
    intLoopFl id intDt t upd lastT s = intLoop intDt t upd lastT s := rfl

variable {rnd : ℝ → ℝ}

/-- Time after one pass of the loop. -/
noncomputable def nextTime (rnd : ℝ → ℝ) (intDt t x : ℝ) : ℝ :=
  rnd (x + if rnd (t - x) < intDt then rnd (t - x) else intDt)

section
variable (h : IsRounding rnd)
include h

/-- A sum changes the time if the summand is not too small. -/
theorem Spec.IsRounding.lt_add {x δ M : ℝ} (hx : IsDouble x) (hδ : IsDouble δ) (h0 : 0 ≤ x) (hδ0 : 0 < δ) (hM : x ≤ M)
    (hbig : (2 : ℝ) ^ (-52 : ℤ) * M ≤ δ) : x < rnd (x + δ) := by
  have he := h.add_error hx hδ
  rw [abs_of_pos (show 0 < x + δ by linarith), show (2 : ℝ) ^ (-53 : ℤ) = (2 : ℝ) ^ (-52 : ℤ) / 2 by norm_num] at he
  have h4 : (2 : ℝ) ^ (-52 : ℤ) ≤ 1 / 2 := by norm_num
  have h0' : (0 : ℝ) ≤ (2 : ℝ) ^ (-52 : ℤ) := by positivity
  generalize (2 : ℝ) ^ (-52 : ℤ) = u at he hbig h4 h0'
  have h2 : u * x ≤ δ := (mul_le_mul_of_nonneg_left hM h0').trans hbig
  have h3 := (abs_le.1 he).1
  have h5 : u * δ ≤ 1 / 2 * δ := mul_le_mul_of_nonneg_right h4 hδ0.le
  linarith

/-- Each pass of the loop increases the time, up to at most one unit in the last place beyond `t`. -/
theorem Spec.IsRounding.nextTime_spec {intDt t x : ℝ} (hi : IsDouble intDt) (ht : IsDouble t) (hx : IsDouble x) (h0 : 0 ≤ x)
    (hxt : x < t) (hi0 : 0 < intDt) (hbig : (2 : ℝ) ^ (-52 : ℤ) * t ≤ intDt) :
    x < nextTime rnd intDt t x ∧ nextTime rnd intDt t x ≤ t * (1 + (2 : ℝ) ^ (-51 : ℤ)) ∧
      IsDouble (nextTime rnd intDt t x) := by
  have ht0 : 0 < t := h0.trans_lt hxt
  refine ⟨?_, ?_, h.isDouble _⟩
  · unfold nextTime
    split_ifs with hc
    · by_cases hs : t ≤ 2 * x
      · rw [h.of_isDouble (isDouble_sub ht hx (by linarith) (by linarith)), show x + (t - x) = t by ring,
          h.of_isDouble ht]
        exact hxt
      · push Not at hs
        rcases h0.eq_or_lt with rfl | hpos
        · rw [sub_zero, h.of_isDouble ht, zero_add, h.of_isDouble ht]; exact hxt
        · have h1 : x ≤ rnd (t - x) := h.ge_of_isDouble hx (by linarith)
          have h2 : 2 * x ≤ rnd (x + rnd (t - x)) := h.ge_of_isDouble (isDouble_two_mul hx) (by linarith)
          linarith
    · exact h.lt_add hx hi h0 hi0 hxt.le hbig
  · -- the step is at most the rounded remaining time
    set r := rnd (t - x) with hr
    have hstep : (if r < intDt then r else intDt) ≤ r := by
      split_ifs with hc
      · exact le_refl _
      · exact not_lt.1 hc
    have hle : nextTime rnd intDt t x ≤ rnd (x + r) := h.mono (by linarith)
    refine hle.trans ?_
    by_cases hs : t ≤ 2 * x
    · rw [hr, h.of_isDouble (isDouble_sub ht hx (by linarith) (by linarith)), show x + (t - x) = t by ring,
        h.of_isDouble ht]
      have : 0 ≤ t * (2 : ℝ) ^ (-51 : ℤ) := by positivity
      linarith
    · push Not at hs
      have e1 := h.sub_error ht hx
      rw [abs_of_pos (show 0 < t - x by linarith), ← hr] at e1
      have e2 := h.add_error hx (h.isDouble (t - x))
      rw [← hr] at e2
      have hr0 : 0 ≤ r := h.ge_of_isDouble isDouble_zero (by linarith)
      rw [abs_of_nonneg (show 0 ≤ x + r by linarith)] at e2
      rw [show (2 : ℝ) ^ (-51 : ℤ) = 4 * (2 : ℝ) ^ (-53 : ℤ) by norm_num]
      have h1 : (2 : ℝ) ^ (-53 : ℤ) ≤ 1 := by norm_num
      have h0' : (0 : ℝ) ≤ (2 : ℝ) ^ (-53 : ℤ) := by positivity
      generalize (2 : ℝ) ^ (-53 : ℤ) = u at e1 e2 h1 h0' ⊢
      have e3 := (abs_le.1 e1).2
      have e4 := (abs_le.1 e2).2
      have e5 : u * (x + r) ≤ u * (2 * t) := mul_le_mul_of_nonneg_left (by nlinarith) h0'
      nlinarith

/-- Steps taken from time `x`. -/
theorem Spec.IsRounding.steps {intDt t : ℝ} (hi : IsDouble intDt) (ht : IsDouble t) (hi0 : 0 < intDt)
    (hbig : (2 : ℝ) ^ (-52 : ℤ) * t ≤ intDt) :
    ∀ (n : ℕ) (k K : ℤ) (x : ℝ), x = k * (2 : ℝ) ^ (-1074 : ℤ) → t = K * (2 : ℝ) ^ (-1074 : ℤ) → (K - k).toNat ≤ n →
      IsDouble x → 0 ≤ x → ∃ steps : List (ℝ × ℝ), ClockSteps rnd intDt x steps ∧ t ≤ clockEnd x steps ∧
        (x < t → clockEnd x steps ≤ t * (1 + (2 : ℝ) ^ (-51 : ℤ))) ∧ (t ≤ x → steps = []) ∧
        ∀ (σ : Type) (upd : ℝ → ℝ → σ → σ) (s : σ),
          intLoopFl rnd intDt t upd x s = .ok (steps.foldl (fun s p => upd p.1 p.2 s) s) := by
  have hδ : (0 : ℝ) < (2 : ℝ) ^ (-1074 : ℤ) := by positivity
  intro n
  induction n with
  | zero =>
    intro k K x hk hK hn hx h0
    have hle : t ≤ x := by
      rw [hk, hK]
      have : K ≤ k := by omega
      exact mul_le_mul_of_nonneg_right (by exact_mod_cast this) hδ.le
    refine ⟨[], trivial, hle, fun hlt => absurd hlt (not_lt.2 hle), fun _ => rfl, fun σ upd s => ?_⟩
    unfold intLoopFl
    rw [whileLoop_done _ _ (by simpa using hle)]
    rfl
  | succ n ih =>
    intro k K x hk hK hn hx h0
    by_cases hlt : x < t
    · obtain ⟨h1, h2, h3⟩ := h.nextTime_spec hi ht hx h0 hlt hi0 hbig
      obtain ⟨l, hl⟩ := IsDouble.multiple h3
      have hkl : k < l := by
        have h1' := h1
        rw [hl, hk] at h1'
        exact_mod_cast lt_of_mul_lt_mul_right h1' hδ.le
      obtain ⟨steps, hs1, hs2, hs3, hs5, hs4⟩ := ih l K _ hl hK (by omega) h3 (h0.trans h1.le)
      refine ⟨((if rnd (t - x) < intDt then rnd (t - x) else intDt), nextTime rnd intDt t x) :: steps, ?_, hs2, ?_, ?_, ?_⟩
      · refine ⟨?_, ?_, rfl, h1, hs1⟩
        · split_ifs with hc
          · have hr0 : 0 ≤ rnd (t - x) := h.ge_of_isDouble isDouble_zero (by linarith)
            refine lt_of_le_of_ne hr0 fun he => ?_
            unfold nextTime at h1
            rw [← he, if_pos hi0, add_zero, h.of_isDouble hx] at h1
            exact lt_irrefl _ h1
          · exact hi0
        · split_ifs with hc
          · exact hc.le
          · exact le_refl _
      · intro _
        by_cases hlt' : nextTime rnd intDt t x < t
        · exact hs3 hlt'
        · rw [hs5 (not_lt.1 hlt')]
          exact h2
      · exact fun hc => absurd hlt (not_lt.2 hc)
      · intro σ upd s
        have := hs4 σ upd (upd (if rnd (t - x) < intDt then rnd (t - x) else intDt) (nextTime rnd intDt t x) s)
        rw [List.foldl_cons, ← this]
        unfold intLoopFl
        rw [whileLoop_step _ _ (by simpa using hlt)]
        rfl
    · push Not at hlt
      refine ⟨[], trivial, hlt, fun hc => absurd hc (not_lt.2 hlt), fun _ => rfl, fun σ upd s => ?_⟩
      unfold intLoopFl
      rw [whileLoop_done _ _ (by simpa using hlt)]
      rfl

/-- C79: in double precision, the integration loop of every step function ends if `int_dt` is at least `2 ** -52 * t`, whatever
is computed in the loop. Its steps are positive and not larger than `int_dt`, the time advances with each step, and the time
reached is `t` up to a relative error of `2 ** -51`, never less than `t`. -/
theorem C79_terminates {intDt t lastT : ℝ} (hi : IsDouble intDt) (ht : IsDouble t) (hl : IsDouble lastT) (h0 : 0 ≤ lastT)
    (hi0 : 0 < intDt) (hbig : (2 : ℝ) ^ (-52 : ℤ) * t ≤ intDt) :
    ∃ steps : List (ℝ × ℝ), ClockSteps rnd intDt lastT steps ∧
      (lastT < t → t ≤ clockEnd lastT steps ∧ clockEnd lastT steps ≤ t * (1 + (2 : ℝ) ^ (-51 : ℤ))) ∧
      (t ≤ lastT → steps = []) ∧
      ∀ (σ : Type) (upd : ℝ → ℝ → σ → σ) (s : σ),
        intLoopFl rnd intDt t upd lastT s = .ok (steps.foldl (fun s p => upd p.1 p.2 s) s) := by
  obtain ⟨k, hk⟩ := IsDouble.multiple hl
  obtain ⟨K, hK⟩ := IsDouble.multiple ht
  obtain ⟨steps, h1, h2, h3, h4, h5⟩ := h.steps hi ht hi0 hbig _ k K lastT hk hK (le_refl _) hl h0
  exact ⟨steps, h1, fun hlt => ⟨h2, h3 hlt⟩, h4, h5⟩

/-- C79 (finding): for `int_dt < 2 ** -54 * last_t` the loop never ends: adding `int_dt` does not change the time. -/
theorem C79_hangs {intDt t lastT : ℝ} (hi : IsDouble intDt) (ht : IsDouble t) (hl : IsDouble lastT) (hlt : lastT < t)
    (hi0 : 0 < intDt) (hsmall : intDt < (2 : ℝ) ^ (-54 : ℤ) * lastT) {σ : Type} (upd : ℝ → ℝ → σ → σ) (s : σ) :
    intLoopFl rnd intDt t upd lastT s = .error .nonterminating := by
  have h0 : 0 < lastT := by
    have h54 : (0 : ℝ) < (2 : ℝ) ^ (-54 : ℤ) := by positivity
    by_contra hc
    push Not at hc
    have := mul_nonpos_of_nonneg_of_nonpos h54.le hc
    linarith
  have e53 : (2 : ℝ) ^ (-53 : ℤ) = 2 * (2 : ℝ) ^ (-54 : ℤ) := by norm_num
  have hsame : rnd (lastT + intDt) = lastT := by
    by_contra hne
    have hn := h.nearest (lastT + intDt) lastT hl
    rw [show lastT - (lastT + intDt) = -intDt by ring, abs_neg, abs_of_pos hi0] at hn
    have hge : lastT ≤ rnd (lastT + intDt) := h.ge_of_isDouble hl (by linarith)
    have hgap := isDouble_gap hl (h.isDouble (lastT + intDt)) h0.le (lt_of_le_of_ne hge (Ne.symm hne))
    rw [e53] at hgap
    have := (abs_le.1 hn).2
    linarith
  have hrem : ¬ rnd (t - lastT) < intDt := by
    have hgap := isDouble_gap hl ht h0.le hlt
    rw [e53] at hgap
    have h54 : 0 ≤ (2 : ℝ) ^ (-54 : ℤ) * lastT := by positivity
    exact not_lt.2 (h.ge_of_isDouble hi (by linarith))
  unfold intLoopFl
  rw [whileLoop_diverges _ _ (fun p : ℝ × σ => p.1 = lastT) rfl]
  · rfl
  · rintro ⟨x, s⟩ hx
    simp only at hx
    subst hx
    simp only [hrem, if_false]
    exact hsame
  · rintro ⟨x, s⟩ hx
    simp only at hx
    subst hx
    exact hlt

end

/-- Ordinary values meet the hypotheses of `C79_terminates`: steps of 1/128 s with `int_dt` = 1/1024 s. -/
example : ∃ rnd, IsRounding rnd ∧ IsDouble (1 / 1024) ∧ IsDouble (1 / 128) ∧ IsDouble 0 ∧
    (2 : ℝ) ^ (-52 : ℤ) * (1 / 128) ≤ 1 / 1024 := by
  obtain ⟨rnd, h⟩ := exists_isRounding
  exact ⟨rnd, h, ⟨1, -10, by norm_num, by norm_num, by norm_num⟩, ⟨1, -7, by norm_num, by norm_num, by norm_num⟩,
    isDouble_zero, by norm_num⟩

/-- The hypotheses of `C79_hangs` are met, e.g., with `int_dt` = 1/1024 s at time `2 ** 45` s. -/
example : IsDouble (1 / 1024) ∧ IsDouble (2 ^ 45) ∧ IsDouble (2 ^ 45 + 1) ∧
    (1 / 1024 : ℝ) < (2 : ℝ) ^ (-54 : ℤ) * 2 ^ 45 := by
  refine ⟨⟨1, -10, by norm_num, by norm_num, by norm_num⟩, ⟨1, 45, by norm_num, by norm_num, by norm_num⟩,
    ⟨2 ^ 45 + 1, 0, by norm_num, by norm_num, by norm_num⟩, by norm_num⟩

/-! ## Times of successive steps -/

/-- A loop that ends after `n` passes. -/
theorem whileLoop_iterate {σ : Type} (cond : σ → Prop) (body : σ → σ) {s : σ} {n : ℕ} (hn : ¬ cond (body^[n] s))
    (hlt : ∀ k < n, cond (body^[k] s)) : whileLoop cond body s = .ok (body^[n] s) := by
  classical
  have hex : ∃ n, ¬ cond (body^[n] s) := ⟨n, hn⟩
  unfold whileLoop
  rw [dif_pos hex]
  have : Nat.find hex = n := by
    rw [Nat.find_eq_iff]
    exact ⟨hn, fun k hk hc => hc (hlt k hk)⟩
  rw [this]


section
variable (h : IsRounding rnd)
include h

theorem isDouble_clock {dt : ℝ} : ∀ n, IsDouble (clockFl rnd dt n)
  | 0 => isDouble_zero
  | _ + 1 => h.isDouble _

theorem clock_nonneg {dt : ℝ} (hdt : 0 ≤ dt) : ∀ n, 0 ≤ clockFl rnd dt n
  | 0 => le_refl _
  | n + 1 => h.ge_of_isDouble isDouble_zero (add_nonneg (clock_nonneg hdt n) hdt)

/-- C80: after `n` steps the time of an object (`self.t`) differs from `n * dt` by at most `n ** 2 * dt * 2 ** -53`. -/
theorem C80_clock_drift {dt : ℝ} (hd : IsDouble dt) (hdt : 0 ≤ dt) (n : ℕ) (hn : n ≤ 2 ^ 53) :
    |clockFl rnd dt n - n * dt| ≤ (n : ℝ) ^ 2 * dt * (2 : ℝ) ^ (-53 : ℤ) := by
  have hu1 : (2 : ℝ) ^ (-53 : ℤ) * 2 ^ 53 = 1 := by norm_num
  have hu0 : (0 : ℝ) ≤ (2 : ℝ) ^ (-53 : ℤ) := by positivity
  induction n with
  | zero => simp [clockFl]
  | succ n ih =>
    have ih := ih (by omega)
    have he := h.add_error (isDouble_clock h (dt := dt) n) hd
    rw [abs_of_nonneg (add_nonneg (clock_nonneg h hdt n) hdt)] at he
    have hnu : (n : ℝ) * (2 : ℝ) ^ (-53 : ℤ) ≤ 1 := by
      rw [← hu1, mul_comm]
      refine mul_le_mul_of_nonneg_left ?_ hu0
      exact_mod_cast (show n ≤ 2 ^ 53 by omega)
    generalize (2 : ℝ) ^ (-53 : ℤ) = u at *
    set T := clockFl rnd dt n with hT
    have hT' : T ≤ n * dt + (n : ℝ) ^ 2 * dt * u := by linarith [(abs_le.1 ih).2]
    have hbound : u * (T + dt) ≤ u * (n * dt + (n : ℝ) ^ 2 * dt * u + dt) := mul_le_mul_of_nonneg_left (by linarith) hu0
    have hsq : u * ((n : ℝ) ^ 2 * dt * u) ≤ n * dt * u := by
      have : ((n : ℝ) * u) * (n * dt * u) ≤ 1 * (n * dt * u) := mul_le_mul_of_nonneg_right hnu (by positivity)
      nlinarith
    have hstep : |clockFl rnd dt (n + 1) - ((n + 1 : ℕ) : ℝ) * dt| ≤ |rnd (T + dt) - (T + dt)| + |T - n * dt| := by
      have : clockFl rnd dt (n + 1) - ((n + 1 : ℕ) : ℝ) * dt = (rnd (T + dt) - (T + dt)) + (T - n * dt) := by
        show rnd (T + dt) - _ = _
        push_cast; ring
      rw [this]
      exact abs_add_le _ _
    refine hstep.trans ((add_le_add he ih).trans ?_)
    push_cast
    nlinarith

/-- The clock reaches every time that is not too large for the step size. -/
theorem clock_reaches {dt runT : ℝ} (hd : IsDouble dt) (hdt : 0 < dt) (hr : IsDouble runT)
    (hbig : (2 : ℝ) ^ (-52 : ℤ) * runT ≤ dt) : ∃ n, runT ≤ clockFl rnd dt n := by
  by_contra hc
  push Not at hc
  have hδ : (0 : ℝ) < (2 : ℝ) ^ (-1074 : ℤ) := by positivity
  obtain ⟨K, hK⟩ := IsDouble.multiple hr
  choose k hk using fun n => IsDouble.multiple (isDouble_clock h (dt := dt) n)
  have hlt : ∀ n, clockFl rnd dt n < clockFl rnd dt (n + 1) := fun n =>
    h.lt_add (isDouble_clock h n) hd (clock_nonneg h hdt.le n) hdt (hc n).le hbig
  have hkn : ∀ n : ℕ, (n : ℤ) ≤ k n - k 0 := by
    intro n
    induction n with
    | zero => simp
    | succ n ih =>
      have h1 := hlt n
      rw [hk n, hk (n + 1)] at h1
      have : k n < k (n + 1) := by exact_mod_cast lt_of_mul_lt_mul_right h1 hδ.le
      push_cast; omega
  have h2 := hc (K - k 0).toNat
  rw [hk, hK] at h2
  have h3 : k (K - k 0).toNat < K := by exact_mod_cast lt_of_mul_lt_mul_right h2 hδ.le
  have h4 := hkn (K - k 0).toNat
  omega

/-- C80: `DualCartesianDMP.open_loop` and `StateFollowingDMP.open_loop` end if `dt` is at least `2 ** -52 * run_t`. The times are
those of the clock, up to the first one that is not less than `run_t`. -/
theorem C80_loop_times {dt runT : ℝ} (hd : IsDouble dt) (hdt : 0 < dt) (hr : IsDouble runT)
    (hbig : (2 : ℝ) ^ (-52 : ℤ) * runT ≤ dt) :
    ∃ n, loopTimesFl rnd dt runT = .ok ((List.range (n + 1)).map (clockFl rnd dt)) ∧ runT ≤ clockFl rnd dt n ∧
      ∀ k < n, clockFl rnd dt k < runT := by
  classical
  have hex := clock_reaches h hd hdt hr hbig
  refine ⟨Nat.find hex, ?_, Nat.find_spec hex, fun k hk => not_le.1 (Nat.find_min hex hk)⟩
  have hiter : ∀ n, (fun p : ℝ × List ℝ => (rnd (p.1 + dt), p.2 ++ [rnd (p.1 + dt)]))^[n] (0, [0]) =
      (clockFl rnd dt n, (List.range (n + 1)).map (clockFl rnd dt)) := by
    intro n
    induction n with
    | zero => simp [clockFl]
    | succ n ih =>
      rw [Function.iterate_succ_apply', ih]
      simp [List.range_succ, clockFl]
  unfold loopTimesFl
  rw [whileLoop_iterate _ _ (n := Nat.find hex)]
  · rw [hiter]; rfl
  · rw [hiter]; exact not_lt.2 (Nat.find_spec hex)
  · intro k hk
    rw [hiter]
    exact not_le.1 (Nat.find_min hex hk)

/-- C80: the number of steps of these loops differs by at most one from the number `ceil(run_t / dt)` that is expected from
exact arithmetic (up to 2 ** 26 - 1 steps). -/
theorem C80_loop_count {dt runT : ℝ} (hd : IsDouble dt) (hdt : 0 < dt) (hr : IsDouble runT)
    (hN : ⌈runT / dt⌉₊ < 2 ^ 26) :
    ∃ T, loopTimesFl rnd dt runT = .ok T ∧ ⌈runT / dt⌉₊ ≤ T.length ∧ T.length ≤ ⌈runT / dt⌉₊ + 2 := by
  set N := ⌈runT / dt⌉₊ with hNdef
  have h1 : runT ≤ N * dt := by
    have := Nat.le_ceil (runT / dt)
    rwa [div_le_iff₀ hdt] at this
  have hbig : (2 : ℝ) ^ (-52 : ℤ) * runT ≤ dt := by
    have hNr : (N : ℝ) ≤ 2 ^ 26 := by exact_mod_cast hN.le
    have : (2 : ℝ) ^ (-52 : ℤ) * runT ≤ (2 : ℝ) ^ (-52 : ℤ) * (2 ^ 26 * dt) :=
      mul_le_mul_of_nonneg_left (h1.trans (mul_le_mul_of_nonneg_right hNr hdt.le)) (by positivity)
    refine this.trans ?_
    rw [← mul_assoc]
    have : (2 : ℝ) ^ (-52 : ℤ) * 2 ^ 26 ≤ 1 := by norm_num
    nlinarith
  obtain ⟨n, hn, hge, hlt⟩ := C80_loop_times h hd hdt hr hbig
  refine ⟨_, hn, ?_, ?_⟩
  · -- the time is reached too early by at most one step
    rw [List.length_map, List.length_range]
    by_contra hc
    push Not at hc
    have hdrift := (abs_le.1 (C80_clock_drift h hd hdt.le n (by omega))).2
    have hsq : (n : ℝ) ^ 2 * (2 : ℝ) ^ (-53 : ℤ) ≤ 1 := by
      have : (n : ℝ) ≤ 2 ^ 26 := by exact_mod_cast (show n ≤ 2 ^ 26 by omega)
      calc (n : ℝ) ^ 2 * (2 : ℝ) ^ (-53 : ℤ) ≤ (2 ^ 26) ^ 2 * (2 : ℝ) ^ (-53 : ℤ) := by gcongr
        _ ≤ 1 := by norm_num
    have hlt' : ((N - 1 : ℕ) : ℝ) * dt < runT := by
      have : N - 1 < N := by omega
      rw [hNdef, Nat.lt_ceil, lt_div_iff₀ hdt] at this
      exact this
    have hnN : ((n : ℝ) + 1) * dt ≤ ((N - 1 : ℕ) : ℝ) * dt := by
      refine mul_le_mul_of_nonneg_right ?_ hdt.le
      exact_mod_cast (show n + 1 ≤ N - 1 by omega)
    have : (n : ℝ) ^ 2 * dt * (2 : ℝ) ^ (-53 : ℤ) ≤ dt := by
      have := mul_le_mul_of_nonneg_right hsq hdt.le
      linarith
    linarith
  · rw [List.length_map, List.length_range]
    by_contra hc
    push Not at hc
    have hk := hlt (N + 1) (by omega)
    have hdrift := (abs_le.1 (C80_clock_drift h hd hdt.le (N + 1) (by omega))).1
    have hsq : ((N + 1 : ℕ) : ℝ) ^ 2 * (2 : ℝ) ^ (-53 : ℤ) ≤ 1 := by
      have : ((N + 1 : ℕ) : ℝ) ≤ 2 ^ 26 := by exact_mod_cast (show N + 1 ≤ 2 ^ 26 by omega)
      calc ((N + 1 : ℕ) : ℝ) ^ 2 * (2 : ℝ) ^ (-53 : ℤ) ≤ (2 ^ 26) ^ 2 * (2 : ℝ) ^ (-53 : ℤ) := by gcongr
        _ ≤ 1 := by norm_num
    have : ((N + 1 : ℕ) : ℝ) ^ 2 * dt * (2 : ℝ) ^ (-53 : ℤ) ≤ dt := by
      have := mul_le_mul_of_nonneg_right hsq hdt.le
      linarith
    push_cast at *
    linarith

end

/-- The integers up to `2 ** 53` and the half-integers up to `2 ** 52` are doubles. -/
theorem isDouble_half {k : ℤ} (hk : |k| < 2 ^ 53) : IsDouble ((k : ℝ) / 2) :=
  ⟨k, -1, hk, by norm_num, by rw [zpow_neg, zpow_one]; ring⟩


section
variable (h : IsRounding rnd)
include h

/-- C80: the times returned by the other open loops (`np.arange`) do not drift: entry `i` is `i * dt` up to one rounding error. -/
theorem C80_arange_times {dt : ℝ} (hd : IsDouble dt) (hdt : 0 < dt) (runT : ℝ) (i : ℕ)
    (hi : i < (arangeTimesFl rnd dt runT).length) :
    |(arangeTimesFl rnd dt runT)[i] - i * dt| ≤ i * dt * (2 : ℝ) ^ (-53 : ℤ) := by
  simp only [arangeTimesFl, List.getElem_map, List.getElem_range, zero_add, sub_zero, h.of_isDouble hd,
    h.of_isDouble (h.isDouble _)]
  obtain ⟨k, hk⟩ := IsDouble.multiple hd
  obtain ⟨z, hz, hzb⟩ := exists_isDouble_near (x := i * dt) ⟨i * k, by rw [hk]; push_cast; ring⟩
  rw [abs_of_nonneg (show 0 ≤ (i : ℝ) * dt by positivity)] at hzb
  exact (h.nearest _ z hz).trans (by linarith)

/-- C80: the number of times returned by the other open loops differs by at most one from the number `ceil(run_t / dt) + 1` that
is expected from exact arithmetic (up to 2 ** 50 steps). -/
theorem C80_arange_count {dt runT : ℝ} (hd : IsDouble dt) (hdt : 0 < dt) (hr : IsDouble runT) (hr0 : 0 ≤ runT)
    (hN : ⌈runT / dt⌉₊ < 2 ^ 50) :
    ⌈runT / dt⌉₊ ≤ (arangeTimesFl rnd dt runT).length ∧ (arangeTimesFl rnd dt runT).length ≤ ⌈runT / dt⌉₊ + 2 := by
  set N := ⌈runT / dt⌉₊ with hNdef
  have hNle : runT / dt ≤ N := Nat.le_ceil _
  have hNlt : (N : ℝ) - 1 < runT / dt := by
    have := Nat.ceil_lt_add_one (show 0 ≤ runT / dt by positivity)
    linarith
  have he := h.add_error hr hd
  rw [abs_of_nonneg (show 0 ≤ runT + dt by linarith)] at he
  have hlen : (arangeTimesFl rnd dt runT).length = ⌈rnd (rnd (runT + dt) / dt)⌉₊ := by
    simp only [arangeTimesFl, List.length_map, List.length_range, sub_zero, h.of_isDouble (h.isDouble _)]
  rw [hlen]
  set q := rnd (runT + dt) / dt with hq
  have hdiv : (runT + dt) / dt = runT / dt + 1 := by field_simp
  have hqe : |q - (runT / dt + 1)| ≤ 1 / 2 := by
    rw [hq, ← hdiv, ← sub_div, abs_div, abs_of_pos hdt, div_le_iff₀ hdt]
    refine he.trans ?_
    have hb : runT + dt ≤ 2 ^ 51 * dt := by
      have h1 : (N : ℝ) + 1 ≤ 2 ^ 51 := by
        have : N + 1 ≤ 2 ^ 51 := by omega
        exact_mod_cast this
      have h2 : runT ≤ N * dt := by rwa [div_le_iff₀ hdt] at hNle
      nlinarith
    have : (2 : ℝ) ^ (-53 : ℤ) * (runT + dt) ≤ (2 : ℝ) ^ (-53 : ℤ) * (2 ^ 51 * dt) :=
      mul_le_mul_of_nonneg_left hb (by positivity)
    refine this.trans ?_
    rw [← mul_assoc]
    exact mul_le_mul_of_nonneg_right (by norm_num) hdt.le
  have hq1 := (abs_le.1 hqe).1
  have hq2 := (abs_le.1 hqe).2
  constructor
  · have hd1 : IsDouble (((2 * N - 1 : ℤ) : ℝ) / 2) := isDouble_half (by rw [abs_lt]; omega)
    have h1 : ((2 * N - 1 : ℤ) : ℝ) / 2 ≤ rnd q := h.ge_of_isDouble hd1 (by push_cast; linarith)
    push_cast at h1
    by_contra hc
    push Not at hc
    have h2 : ⌈rnd q⌉₊ ≤ N - 1 := by omega
    rw [Nat.ceil_le] at h2
    have h3 : ((N - 1 : ℕ) : ℝ) = N - 1 := by rw [Nat.cast_sub (by omega)]; simp
    rw [h3] at h2
    linarith
  · have hd1 : IsDouble (((2 * N + 3 : ℤ) : ℝ) / 2) := isDouble_half (by rw [abs_lt]; omega)
    have h1 : rnd q ≤ ((2 * N + 3 : ℤ) : ℝ) / 2 := h.le_of_isDouble hd1 (by push_cast; linarith)
    push_cast at h1
    rw [Nat.ceil_le]
    push_cast
    linarith

end

/-! ## Findings: numbers of rows that differ from exact arithmetic -/

section
variable (h : IsRounding rnd)
include h

/-- A number that is less than half a unit in the last place away from a double is rounded to this double. -/
theorem Spec.IsRounding.eq_of_near {x : ℝ} (m e : ℤ) (hm : 2 ^ 52 < m) (hm' : m < 2 ^ 53) (he : -1074 ≤ e)
    (hx : |x - m * (2 : ℝ) ^ e| < (2 : ℝ) ^ e / 2) : rnd x = m * (2 : ℝ) ^ e := by
  by_contra hne
  have hp : (0 : ℝ) < (2 : ℝ) ^ e := by positivity
  have hy : IsDouble ((m : ℝ) * (2 : ℝ) ^ e) := ⟨m, e, by rw [abs_of_pos (by omega)]; exact hm', he, rfl⟩
  have hn := h.nearest x _ hy
  -- distance of other doubles
  have hgap : (2 : ℝ) ^ e ≤ |rnd x - m * (2 : ℝ) ^ e| := by
    obtain ⟨m', e', hm1, he1, hz⟩ := h.isDouble x
    rcases le_or_gt e e' with hle | hlt
    · obtain ⟨n, hn⟩ := Int.eq_ofNat_of_zero_le (show 0 ≤ e' - e by omega)
      have hpow : (2 : ℝ) ^ e' = 2 ^ n * (2 : ℝ) ^ e := by
        rw [← zpow_natCast, ← zpow_add₀ (by norm_num)]; congr 1; omega
      have hz' : rnd x - m * (2 : ℝ) ^ e = ((m' * 2 ^ n - m : ℤ) : ℝ) * (2 : ℝ) ^ e := by
        rw [hz, hpow]; push_cast; ring
      have hne' : m' * 2 ^ n - m ≠ 0 := by
        intro h0
        rw [h0, Int.cast_zero, zero_mul, sub_eq_zero] at hz'
        exact hne hz'
      rw [hz', abs_mul, abs_of_pos hp]
      have : (1 : ℝ) ≤ |((m' * 2 ^ n - m : ℤ) : ℝ)| := by exact_mod_cast Int.one_le_abs hne'
      nlinarith
    · have hpow : (2 : ℝ) ^ e' ≤ (2 : ℝ) ^ e / 2 := by
        have : (2 : ℝ) ^ e / 2 = (2 : ℝ) ^ (e - 1) := by rw [zpow_sub₀ (by norm_num), zpow_one]
        rw [this]
        exact zpow_le_zpow_right₀ (by norm_num) (by omega)
      have hmr : (m' : ℝ) ≤ 2 ^ 53 := by
        have := (abs_lt.1 hm1).2
        exact_mod_cast this.le
      have hp' : (0 : ℝ) < (2 : ℝ) ^ e' := by positivity
      have hzle : rnd x ≤ 2 ^ 52 * (2 : ℝ) ^ e := by
        rw [hz]
        calc (m' : ℝ) * 2 ^ e' ≤ 2 ^ 53 * 2 ^ e' := mul_le_mul_of_nonneg_right hmr hp'.le
          _ ≤ 2 ^ 53 * ((2 : ℝ) ^ e / 2) := mul_le_mul_of_nonneg_left hpow (by positivity)
          _ = 2 ^ 52 * (2 : ℝ) ^ e := by ring
      have hm2 : (2 : ℝ) ^ 52 + 1 ≤ m := by exact_mod_cast hm
      rw [abs_sub_comm]
      refine le_trans ?_ (le_abs_self _)
      nlinarith
  have htri : |rnd x - m * (2 : ℝ) ^ e| ≤ |rnd x - x| + |x - m * (2 : ℝ) ^ e| := abs_sub_le _ _ _
  rw [abs_sub_comm (_ * _) x] at hn
  linarith

/-- C80 (finding): with `dt` = 1.7 and `run_t` = 11.9 = 7 * 1.7 (rounded to doubles), `DualCartesianDMP.open_loop` returns 9
rows, one step more than expected, since the sum of seven times 1.7 is less than 11.9 in double precision. The other open loops
return 8 rows. -/
theorem C80_loop_one_step_more :
    let dt : ℝ := 7656119366529843 * (2 : ℝ) ^ (-52 : ℤ)
    let runT : ℝ := 6699104445713613 * (2 : ℝ) ^ (-49 : ℤ)
    |dt - 17 / 10| < (2 : ℝ) ^ (-53 : ℤ) ∧ |runT - 119 / 10| < (2 : ℝ) ^ (-50 : ℤ) ∧
    (∃ T, loopTimesFl rnd dt runT = .ok T ∧ T.length = 9) ∧ (arangeTimesFl rnd dt runT).length = 8 := by
  intro dt runT
  have c1 : clockFl rnd dt 1 = (7656119366529843 : ℤ) * (2 : ℝ) ^ (-52 : ℤ) :=
    h.eq_of_near _ _ (by norm_num) (by norm_num) (by norm_num) (by simp only [clockFl, dt]; norm_num)
  have c2 : clockFl rnd dt 2 = (7656119366529843 : ℤ) * (2 : ℝ) ^ (-51 : ℤ) := by
    show rnd (clockFl rnd dt 1 + dt) = _
    exact h.eq_of_near _ _ (by norm_num) (by norm_num) (by norm_num) (by rw [c1]; simp only [dt]; norm_num)
  have c3 : clockFl rnd dt 3 = (5742089524897382 : ℤ) * (2 : ℝ) ^ (-50 : ℤ) := by
    show rnd (clockFl rnd dt 2 + dt) = _
    exact h.eq_of_near _ _ (by norm_num) (by norm_num) (by norm_num) (by rw [c2]; simp only [dt]; norm_num [abs_lt])
  have c4 : clockFl rnd dt 4 = (7656119366529843 : ℤ) * (2 : ℝ) ^ (-50 : ℤ) := by
    show rnd (clockFl rnd dt 3 + dt) = _
    exact h.eq_of_near _ _ (by norm_num) (by norm_num) (by norm_num) (by rw [c3]; simp only [dt]; norm_num [abs_lt])
  have c5 : clockFl rnd dt 5 = (4785074604081152 : ℤ) * (2 : ℝ) ^ (-49 : ℤ) := by
    show rnd (clockFl rnd dt 4 + dt) = _
    exact h.eq_of_near _ _ (by norm_num) (by norm_num) (by norm_num) (by rw [c4]; simp only [dt]; norm_num [abs_lt])
  have c6 : clockFl rnd dt 6 = (5742089524897382 : ℤ) * (2 : ℝ) ^ (-49 : ℤ) := by
    show rnd (clockFl rnd dt 5 + dt) = _
    exact h.eq_of_near _ _ (by norm_num) (by norm_num) (by norm_num) (by rw [c5]; simp only [dt]; norm_num [abs_lt])
  have c7 : clockFl rnd dt 7 = (6699104445713612 : ℤ) * (2 : ℝ) ^ (-49 : ℤ) := by
    show rnd (clockFl rnd dt 6 + dt) = _
    exact h.eq_of_near _ _ (by norm_num) (by norm_num) (by norm_num) (by rw [c6]; simp only [dt]; norm_num [abs_lt])
  have c8 : clockFl rnd dt 8 = (7656119366529842 : ℤ) * (2 : ℝ) ^ (-49 : ℤ) := by
    show rnd (clockFl rnd dt 7 + dt) = _
    exact h.eq_of_near _ _ (by norm_num) (by norm_num) (by norm_num) (by rw [c7]; simp only [dt]; norm_num [abs_lt])
  have hdd : IsDouble dt := ⟨7656119366529843, -52, by norm_num, by norm_num, by simp only [dt]; norm_num⟩
  have hrd : IsDouble runT := ⟨6699104445713613, -49, by norm_num, by norm_num, by simp only [runT]; norm_num⟩
  refine ⟨by simp only [dt]; norm_num [abs_lt], by simp only [runT]; norm_num [abs_lt], ?_, ?_⟩
  · obtain ⟨n, hn, hge, hlt⟩ := C80_loop_times h hdd (by simp only [dt]; norm_num) hrd (by simp only [dt, runT]; norm_num)
    refine ⟨_, hn, ?_⟩
    have hn8 : n = 8 := by
      have h8 : ¬ 8 < n := fun hc => by
        have := hlt 8 hc
        rw [c8] at this
        simp only [runT] at this
        norm_num at this
      interval_cases n
      · simp only [clockFl, runT] at hge; norm_num at hge
      · rw [c1] at hge; simp only [runT] at hge; norm_num at hge
      · rw [c2] at hge; simp only [runT] at hge; norm_num at hge
      · rw [c3] at hge; simp only [runT] at hge; norm_num at hge
      · rw [c4] at hge; simp only [runT] at hge; norm_num at hge
      · rw [c5] at hge; simp only [runT] at hge; norm_num at hge
      · rw [c6] at hge; simp only [runT] at hge; norm_num at hge
      · rw [c7] at hge; simp only [runT] at hge; norm_num at hge
      · rfl
    rw [hn8]; simp
  · have e1 : rnd (runT + dt) = (7656119366529843 : ℤ) * (2 : ℝ) ^ (-49 : ℤ) :=
      h.eq_of_near _ _ (by norm_num) (by norm_num) (by norm_num) (by simp only [dt, runT]; norm_num [abs_lt])
    have e2 : rnd (runT + dt) / dt = 8 := by
      rw [e1]; simp only [dt]; norm_num
    have e3 : rnd 8 = 8 := h.of_isDouble ⟨8, 0, by norm_num, by norm_num, by norm_num⟩
    simp only [arangeTimesFl, List.length_map, List.length_range, sub_zero, h.of_isDouble (h.isDouble _), e2, e3]
    norm_num

/-- C80 (finding): with `dt` = 0.9 and `run_t` = 5.4 = 6 * 0.9 (rounded to doubles), the open loops that use `np.arange` return 8
rows, one step more than expected, and `DualCartesianDMP.open_loop` returns 7 rows. -/
theorem C80_arange_one_step_more :
    let dt : ℝ := 8106479329266893 * (2 : ℝ) ^ (-53 : ℤ)
    let runT : ℝ := 6079859496950170 * (2 : ℝ) ^ (-50 : ℤ)
    |dt - 9 / 10| < (2 : ℝ) ^ (-54 : ℤ) ∧ |runT - 54 / 10| < (2 : ℝ) ^ (-51 : ℤ) ∧
    (∃ T, loopTimesFl rnd dt runT = .ok T ∧ T.length = 7) ∧ (arangeTimesFl rnd dt runT).length = 8 := by
  intro dt runT
  have c1 : clockFl rnd dt 1 = (8106479329266893 : ℤ) * (2 : ℝ) ^ (-53 : ℤ) :=
    h.eq_of_near _ _ (by norm_num) (by norm_num) (by norm_num) (by simp only [clockFl, dt]; norm_num)
  have c2 : clockFl rnd dt 2 = (8106479329266893 : ℤ) * (2 : ℝ) ^ (-52 : ℤ) := by
    show rnd (clockFl rnd dt 1 + dt) = _
    exact h.eq_of_near _ _ (by norm_num) (by norm_num) (by norm_num) (by rw [c1]; simp only [dt]; norm_num)
  have c3 : clockFl rnd dt 3 = (6079859496950170 : ℤ) * (2 : ℝ) ^ (-51 : ℤ) := by
    show rnd (clockFl rnd dt 2 + dt) = _
    exact h.eq_of_near _ _ (by norm_num) (by norm_num) (by norm_num) (by rw [c2]; simp only [dt]; norm_num [abs_lt])
  have c4 : clockFl rnd dt 4 = (8106479329266893 : ℤ) * (2 : ℝ) ^ (-51 : ℤ) := by
    show rnd (clockFl rnd dt 3 + dt) = _
    exact h.eq_of_near _ _ (by norm_num) (by norm_num) (by norm_num) (by rw [c3]; simp only [dt]; norm_num [abs_lt])
  have c5 : clockFl rnd dt 5 = (5066549580791808 : ℤ) * (2 : ℝ) ^ (-50 : ℤ) := by
    show rnd (clockFl rnd dt 4 + dt) = _
    exact h.eq_of_near _ _ (by norm_num) (by norm_num) (by norm_num) (by rw [c4]; simp only [dt]; norm_num [abs_lt])
  have c6 : clockFl rnd dt 6 = (6079859496950170 : ℤ) * (2 : ℝ) ^ (-50 : ℤ) := by
    show rnd (clockFl rnd dt 5 + dt) = _
    exact h.eq_of_near _ _ (by norm_num) (by norm_num) (by norm_num) (by rw [c5]; simp only [dt]; norm_num [abs_lt])
  have hdd : IsDouble dt := ⟨8106479329266893, -53, by norm_num, by norm_num, by simp only [dt]; norm_num⟩
  have hrd : IsDouble runT := ⟨6079859496950170, -50, by norm_num, by norm_num, by simp only [runT]; norm_num⟩
  refine ⟨by simp only [dt]; norm_num [abs_lt], by simp only [runT]; norm_num [abs_lt], ?_, ?_⟩
  · obtain ⟨n, hn, hge, hlt⟩ := C80_loop_times h hdd (by simp only [dt]; norm_num) hrd (by simp only [dt, runT]; norm_num)
    refine ⟨_, hn, ?_⟩
    have hn6 : n = 6 := by
      have h6 : ¬ 6 < n := fun hc => by
        have := hlt 6 hc
        rw [c6] at this
        simp only [runT] at this
        norm_num at this
      interval_cases n
      · simp only [clockFl, runT] at hge; norm_num at hge
      · rw [c1] at hge; simp only [runT] at hge; norm_num at hge
      · rw [c2] at hge; simp only [runT] at hge; norm_num at hge
      · rw [c3] at hge; simp only [runT] at hge; norm_num at hge
      · rw [c4] at hge; simp only [runT] at hge; norm_num at hge
      · rw [c5] at hge; simp only [runT] at hge; norm_num at hge
      · rfl
    rw [hn6]; simp
  · have e1 : rnd (runT + dt) = (7093169413108532 : ℤ) * (2 : ℝ) ^ (-50 : ℤ) :=
      h.eq_of_near _ _ (by norm_num) (by norm_num) (by norm_num) (by simp only [dt, runT]; norm_num [abs_lt])
    have e2 : rnd (rnd (runT + dt) / dt) = (7881299347898369 : ℤ) * (2 : ℝ) ^ (-50 : ℤ) :=
      h.eq_of_near _ _ (by norm_num) (by norm_num) (by norm_num) (by rw [e1]; simp only [dt]; norm_num [abs_lt])
    simp only [arangeTimesFl, List.length_map, List.length_range, sub_zero, h.of_isDouble (h.isDouble _), e2]
    rw [Nat.ceil_eq_iff (by norm_num)]
    norm_num

end

end Verif
