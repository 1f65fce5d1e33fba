import Verif.Lemmas.FloatCall
import Verif.Model.FloatStep
import Verif.Spec.FloatGoal
import Verif.Spec.Execution
import Verif.Props.SpringDamper
import Mathlib.Data.List.GetD

/-!
# C106: Movements reach their goals in double precision
-/

namespace Verif
open Spec

variable {d : ℕ} {rnd : ℝ → ℝ}

/-! ## Exact arithmetic is the special case of the remaining model -/

/-- C106: without rounding, the floating-point model of `spring_damper_step` is the model about which the other properties
are proved, with all coupling terms and precomputed couplings. -/
theorem C106_step_function_exact (coupling : Option (Coupling d)) (precomputed : Option (Vec d × Vec d)) (g : Vec d) (k : ℝ)
    (c : Option ℝ) (intDt lastT t : ℝ) (s : Vec d × Vec d) :
    springDamperStepFl id g k c coupling precomputed intDt lastT t s =
      springDamperStep g k c coupling precomputed intDt lastT t s := by
  have h0 : defaultDampingFl id c k = defaultDamping c k := by cases c <;> rfl
  have h1 : ∀ c : ℝ, springDamperBodyFl id g k c coupling precomputed = springDamperBody g k c coupling precomputed := by
    intro c
    funext dt t s
    cases coupling <;> cases precomputed <;> rfl
  unfold springDamperStepFl springDamperStep
  rw [h0, h1, C79_exact]

/-- C106: without rounding, the floating-point model of `SpringDamper.step` is the model about which the other properties are
proved. -/
theorem C106_exact (coupling : Option (Coupling d)) (y yd : Vec d) :
    SpringDamper.stepFl id coupling y yd = SpringDamper.step coupling y yd := by
  unfold SpringDamper.stepFl SpringDamper.step
  simp only [C106_step_function_exact, id_eq]

/-- Loops with the same steps. -/
theorem loopRows_congr {σ β : Type} {step step' : ℕ → σ → Except PyErr σ} {out : σ → β} : ∀ (k : ℕ) (x : σ) (i : ℕ),
    (∀ j x, j < i + k → step j x = step' j x) → loopRows step out k x i = loopRows step' out k x i
  | 0, _, _, _ => rfl
  | k + 1, x, i, h => by
    rw [loopRows, loopRows, h i x (by omega)]
    cases step' i x with
    | error e => rfl
    | ok x' =>
      simp only [bind, Except.bind]
      rw [loopRows_congr k x' (i + 1) (fun j x hj => h j x (by omega))]

/-- C106: without rounding, the floating-point model of `SpringDamper.open_loop` is the model about which the other properties are
proved. -/
theorem C106_open_loop_exact (runT : ℝ) (coupling : Option (Coupling d)) (s : SpringDamper d) :
    (SpringDamper.openLoopFl id runT coupling).exec s = (SpringDamper.openLoop runT coupling).exec s := by
  have hT : arangeTimesFl id s.dt runT = (List.range (arangeLen 0 (runT + s.dt) s.dt)).map (arangeAt 0 s.dt) := by
    unfold arangeTimesFl arangeLen arangeAt
    simp
  unfold SpringDamper.openLoopFl SpringDamper.openLoop openLoopWith
  simp only [Py.exec_bind, Py.exec_get, Py.exec_lift, hT, Option.getD_some]
  by_cases hd : s.dt = 0
  · simp [hd, Py.exec_throw]
    rfl
  set n := arangeLen 0 (runT + s.dt) s.dt with hn
  by_cases h0 : n = 0
  · simp [hd, h0]
    rfl
  have he : (List.range n).map (arangeAt 0 s.dt) ≠ [] := by simp [h0]
  have hrows := loopRows_congr (step := fun i x => springDamperStepFl id s.goalY s.k s.c coupling none s.intDt
      (((List.range n).map (arangeAt 0 s.dt)).getD i 0) (((List.range n).map (arangeAt 0 s.dt)).getD (i + 1) 0) x)
    (step' := fun i x => springDamperStep s.goalY s.k s.c coupling none s.intDt (arangeAt 0 s.dt i) (arangeAt 0 s.dt (i + 1)) x)
    (out := Prod.fst) (n - 1) (s.startY, (0 : Vec d)) 0 (fun j x hj => by
      have e : ∀ i, i < n → ((List.range n).map (arangeAt 0 s.dt)).getD i 0 = arangeAt 0 s.dt i := fun i hi => by
        rw [List.getD_eq_getElem _ _ (by simpa using hi)]
        simp
      rw [e j (by omega), e (j + 1) (by omega), C106_step_function_exact])
  simp only [hd, h0, he, if_false, List.length_map, List.length_range, hrows, Py.exec_bind, Py.exec_lift]
  cases loopRows (fun i x => springDamperStep s.goalY s.k s.c coupling none s.intDt (arangeAt 0 s.dt i) (arangeAt 0 s.dt (i + 1)) x)
    Prod.fst (n - 1) (s.startY, (0 : Vec d)) 0 <;> rfl

/-! ## One call -/

theorem SpringDamper.exec_stepFl (coupling : Option (Coupling d)) (y yd : Vec d) (s : SpringDamper d) :
    (SpringDamper.stepFl rnd coupling y yd).exec s =
      match springDamperStepFl rnd s.goalY s.k s.c coupling none s.intDt s.t (rnd (s.t + s.dt)) (y, yd) with
      | .ok r => (.ok r, { s with lastT := some s.t, t := rnd (s.t + s.dt), currentY := r.1, currentYd := r.2, initialized := true })
      | .error e => (.error e, { s with lastT := some s.t, t := rnd (s.t + s.dt), currentY := y, currentYd := yd,
                                        initialized := true }) := by
  unfold SpringDamper.stepFl
  simp only [Py.exec_bind, Py.exec_modify, Py.exec_get, Py.exec_lift, Py.exec_pure]
  cases hi : s.initialized with
  | false =>
    simp only [Bool.false_eq_true, if_false, Option.getD_some]
    cases springDamperStepFl rnd s.goalY s.k s.c coupling none s.intDt s.t (rnd (s.t + s.dt)) (y, yd) <;> rfl
  | true =>
    simp only [if_true, Option.getD_some]
    cases springDamperStepFl rnd s.goalY s.k s.c coupling none s.intDt s.t (rnd (s.t + s.dt)) (y, yd) <;> rfl

/-- Error of the computed acceleration of a spring-damper system. -/
theorem spring_acceleration {u w : ℝ} (hr : Rounds u w rnd) (hu : 0 ≤ u) (hu1 : u ≤ 1 / 1000) (hw : 0 ≤ w) {k c : ℝ} (hk : 0 < k)
    (hc : 0 < c) (g y v : ℝ) :
    |rnd (rnd (k * rnd (g - y)) - rnd (c * v)) - (-k * (y - g) - c * v + 0)| ≤
      4 * u * (k * |y - g| + c * |v|) + (5 + 2 * k) * w := by
  have h1 : |rnd (g - y) - (g - y)| ≤ u * |y - g| + w := by
    have := hr (g - y)
    rwa [abs_sub_comm g y] at this
  have h2 : |k * rnd (g - y) - k * (g - y)| ≤ u * (k * |y - g|) + k * w := by
    rw [← mul_sub, abs_mul, abs_of_pos hk]
    exact (mul_le_mul_of_nonneg_left h1 hk.le).trans (by linarith)
  have h3 := hr.abs_le hu h2
  rw [abs_mul, abs_of_pos hk, abs_sub_comm g y] at h3
  have h4 := hr (c * v)
  rw [abs_mul, abs_of_pos hc] at h4
  have h5 : |rnd (k * rnd (g - y)) - rnd (c * v) - (-k * (y - g) - c * v + 0)| ≤
      ((1 + u) * (u * (k * |y - g|) + k * w) + u * (k * |y - g|) + w) + (u * (c * |v|) + w) := by
    have e : rnd (k * rnd (g - y)) - rnd (c * v) - (-k * (y - g) - c * v + 0) =
        (rnd (k * rnd (g - y)) - k * (g - y)) - (rnd (c * v) - c * v) := by ring
    rw [e]
    exact (abs_sub _ _).trans (add_le_add h3 h4)
  have h6 := hr.abs_le hu h5
  refine h6.trans ?_
  have h7 : |(-k * (y - g) - c * v + 0)| ≤ k * |y - g| + c * |v| := by
    rw [add_zero]
    refine (abs_sub _ _).trans ?_
    rw [abs_mul, abs_mul, abs_neg, abs_of_pos hk, abs_of_pos hc]
  have h8 := mul_le_mul_of_nonneg_left h7 hu
  have hP : 0 ≤ k * |y - g| := by positivity
  have hQ : 0 ≤ c * |v| := by positivity
  have hkw : 0 ≤ k * w := by positivity
  have e9 : (5 + 2 * k) * w = 5 * w + 2 * (k * w) := by ring
  rw [e9]
  clear e9 h1 h2 h3 h4 h5 h6 h7
  generalize k * |y - g| = P at *
  generalize c * |v| = Q at *
  generalize k * w = W at *
  have small : ∀ z : ℝ, 0 ≤ z → u * z ≤ z / 1000 := fun z hz => by
    have := mul_le_mul_of_nonneg_right hu1 hz
    linarith
  have uP : 0 ≤ u * P := by positivity
  have uQ : 0 ≤ u * Q := by positivity
  have s1 := small _ uP
  have s2 := small _ uQ
  have s3 := small W hkw
  have s4 := small w hw
  have s5 := small (u * (u * P)) (by positivity)
  have s6 := small (u * W) (by positivity)
  have s7 := small (u * w) (by positivity)
  linarith

/-- One integration step of a spring-damper system. -/
theorem springDamperBodyFl_decay (h : IsRounding rnd) {g : Vec d} {k c intDt : ℝ} (hk : 0 < k) (hc : 0 < c) {z : ℝ} (hz : 0 < z)
    (hzi : z ≤ intDt) (hstab : 2 * intDt * (2 * k + c ^ 2) * (k + c ^ 2) ≤ k * c) (τ : ℝ) (s : Vec d × Vec d) (i : Fin d) :
    sdNorm k c ((springDamperBodyFl rnd g k c none none z τ s).1 i - g i, (springDamperBodyFl rnd g k c none none z τ s).2 i) ≤
      (1 - decayRate k c * z + 20 * (2 : ℝ) ^ (-53 : ℤ)) * sdNorm k c (s.1 i - g i, s.2 i) +
        ((2 : ℝ) ^ (-53 : ℤ) * (frequency k c * |g i|) +
          (2 * (intDt * (5 + 2 * k)) + 4 * (1 + frequency k c)) * (2 : ℝ) ^ (-1074 : ℤ)) := by
  have hu1 : (2 : ℝ) ^ (-53 : ℤ) ≤ 1 / 1000 := by norm_num
  have hu0 : (0 : ℝ) ≤ (2 : ℝ) ^ (-53 : ℤ) := by positivity
  have hw0 : (0 : ℝ) ≤ (2 : ℝ) ^ (-1074 : ℤ) := by positivity
  have hr := h.rounds
  have hs0 : 0 < frequency k c := Real.sqrt_pos.2 (by positivity)
  have hs : frequency k c ^ 2 = k + c ^ 2 / 2 := Real.sq_sqrt (by positivity)
  have hcond : 4 * (z * (k + c ^ 2 / 2)) * (k + c ^ 2) ≤ k * c := by
    refine le_trans ?_ hstab
    have : z * ((2 * k + c ^ 2) * (k + c ^ 2)) ≤ intDt * ((2 * k + c ^ 2) * (k + c ^ 2)) :=
      mul_le_mul_of_nonneg_right hzi (by positivity)
    linarith
  have hround : ∀ x : ℝ, rnd (rnd x) = rnd x := fun x => h.of_isDouble (h.isDouble x)
  have ha := spring_acceleration hr hu0 hu1 hw0 hk hc (g i) (s.1 i) (s.2 i)
  have := rounded_step hr hu0 hu1 hw0 hk hc hs0 hs hz hcond (g := g i) (s.1 i - g i, s.2 i)
    (show 0 ≤ (5 + 2 * k) * (2 : ℝ) ^ (-1074 : ℤ) by positivity) ha
  simp only [springDamperBodyFl, sdCouplingFl, Pi.zero_apply, add_zero, hround]
  rw [add_sub_cancel] at this
  refine this.trans ?_
  have e : sdRate k c = decayRate k c := rfl
  rw [e, abs_zero]
  have hE : z * ((5 + 2 * k) * (2 : ℝ) ^ (-1074 : ℤ)) ≤ intDt * ((5 + 2 * k) * (2 : ℝ) ^ (-1074 : ℤ)) :=
    mul_le_mul_of_nonneg_right hzi (by positivity)
  generalize (2 : ℝ) ^ (-1074 : ℤ) = w at *
  generalize (2 : ℝ) ^ (-53 : ℤ) = u at *
  linarith

/-- A sequence that decays up to a constant. -/
theorem decay_floor {a β B N : ℝ} (ha : 0 < a) (hB : B = β * (1 + 1 / a)) (hβ : 0 ≤ β) {x x' : ℝ} {j : ℕ}
    (hx : x ≤ Real.exp (-(a * j)) * N + B) (hx' : x' ≤ Real.exp (-a) * x + β) :
    x' ≤ Real.exp (-(a * (j + 1 : ℕ))) * N + B := by
  have h1 : Real.exp (-a) ≤ 1 / (1 + a) := by
    rw [Real.exp_neg, ← one_div]
    exact one_div_le_one_div_of_le (by linarith) (by linarith [Real.add_one_le_exp a])
  have hB0 : 0 ≤ B := by rw [hB]; positivity
  have h2 : Real.exp (-a) * B + β ≤ B := by
    have h3 := mul_le_mul_of_nonneg_right h1 hB0
    have h4 : 1 / (1 + a) * B + β = B := by rw [hB]; field_simp; ring
    linarith
  have h5 := mul_le_mul_of_nonneg_left hx (Real.exp_pos (-a)).le
  have h6 : Real.exp (-a) * Real.exp (-(a * j)) = Real.exp (-(a * (j + 1 : ℕ))) := by
    rw [← Real.exp_add]; congr 1; push_cast; ring
  calc x' ≤ Real.exp (-a) * (Real.exp (-(a * j)) * N + B) + β := by linarith
    _ = Real.exp (-(a * (j + 1 : ℕ))) * N + (Real.exp (-a) * B + β) := by rw [← h6]; ring
    _ ≤ _ := by linarith

/-- One call of `spring_damper_step` from time `T` to time `T'`. -/
theorem springDamperStepFl_decay (h : IsRounding rnd) {g : Vec d} {k c intDt dt T T' : ℝ} {c0 : Option ℝ} (hi : IsDouble intDt)
    (hc0 : defaultDampingFl rnd c0 k = c) (hk : 0 < k) (hc : 0 < c) (hi0 : 0 < intDt) (hdt : 0 < dt)
    (hstab : 2 * intDt * (2 * k + c ^ 2) * (k + c ^ 2) ≤ k * c)
    (h1 : (2 : ℝ) ^ (-36 : ℤ) ≤ decayRate k c * intDt) (h2 : (2 : ℝ) ^ (-36 : ℤ) ≤ decayRate k c * dt)
    (h3 : dt ≤ (2 : ℝ) ^ 40 * intDt) (hT : IsDouble T) (hT' : IsDouble T') (hT0 : 0 ≤ T) (hD : |T' - T - dt| ≤ dt / 256)
    (hbig : (2 : ℝ) ^ (-44 : ℤ) * T' ≤ intDt) (s : Vec d × Vec d) :
    ∃ s', springDamperStepFl rnd g k c0 none none intDt T T' s = .ok s' ∧ ∀ i,
      sdNorm k c (s'.1 i - g i, s'.2 i) ≤ Real.exp (-(decayRate k c * dt / 2)) * sdNorm k c (s.1 i - g i, s.2 i) +
        4 * (dt / intDt + 1) * ((2 : ℝ) ^ (-53 : ℤ) * (frequency k c * |g i|) +
          (2 * (intDt * (5 + 2 * k)) + 4 * (1 + frequency k c)) * (2 : ℝ) ^ (-1074 : ℤ)) := by
  have hη : 0 < decayRate k c := sdRate_pos hk hc
  have hε : 20 * (2 : ℝ) ^ (-53 : ℤ) ≤ (2 : ℝ) ^ (-47 : ℤ) := by norm_num
  have hf0 : 0 ≤ frequency k c := Real.sqrt_nonneg _
  have key := fun b : ℝ => fun hb : 0 ≤ b => call_decay h hi hT hT' hT0 hi0 hdt hD hbig hη (by positivity) hε hb h1 h2 h3
    (springDamperBodyFl rnd g k c none none) s
  obtain ⟨s', hs', -⟩ := key 0 le_rfl
  refine ⟨s', by unfold springDamperStepFl; rw [hc0]; exact hs', fun i => ?_⟩
  obtain ⟨s'', hs'', hN⟩ := key ((2 : ℝ) ^ (-53 : ℤ) * (frequency k c * |g i|) +
    (2 * (intDt * (5 + 2 * k)) + 4 * (1 + frequency k c)) * (2 : ℝ) ^ (-1074 : ℤ)) (by positivity)
  rw [hs'] at hs''
  cases hs''
  exact hN (fun s => sdNorm k c (s.1 i - g i, s.2 i)) (fun _ => sdNorm_nonneg _)
    (fun z hz hzi τ _ x => springDamperBodyFl_decay h hk hc hz hzi hstab τ x i)

/-- Bounds of position and velocity. -/
theorem bounds_of_sdNorm {k c : ℝ} (hk : 0 < k) (hc : 0 < c) {e v X : ℝ} (h : sdNorm k c (e, v) ≤ X) :
    |e| ≤ 3 / 2 * X / frequency k c ∧ |v| ≤ 3 / 2 * X := by
  have hs0 : 0 < frequency k c := Real.sqrt_pos.2 (by positivity)
  have hs : frequency k c ^ 2 = k + c ^ 2 / 2 := Real.sq_sqrt (by positivity)
  have h1 := abs_fst_le hk hc hs (e, v)
  have h2 := abs_snd_le hk hc (e, v)
  have h0 := sdNorm_nonneg (k := k) (c := c) (e, v)
  simp only at h1 h2
  refine ⟨?_, by linarith⟩
  rw [le_div_iff₀ hs0, mul_comm]
  linarith

theorem sdNorm_le_stateDeviation {k c : ℝ} (hk : 0 < k) (hc : 0 < c) (e v : ℝ) : sdNorm k c (e, v) ≤ stateDeviation k c e v :=
  sdNorm_le hk hc (Real.sqrt_pos.2 (by positivity)) (Real.sq_sqrt (by positivity)) (e, v)

/-- `n` calls of `step`. -/
theorem fedBackFl_decay (h : IsRounding rnd) {c : ℝ} : ∀ (n m : ℕ) (s : SpringDamper d) (x : Vec d × Vec d) (N0 : Fin d → ℝ),
    s.t = clockFl rnd s.dt m → IsDouble s.dt → IsDouble s.intDt → 0 < s.dt → 0 < s.intDt → 0 < s.k → 0 < c →
    defaultDampingFl rnd s.c s.k = c → 2 * s.intDt * (2 * s.k + c ^ 2) * (s.k + c ^ 2) ≤ s.k * c →
    (2 : ℝ) ^ (-36 : ℤ) ≤ decayRate s.k c * s.intDt → (2 : ℝ) ^ (-36 : ℤ) ≤ decayRate s.k c * s.dt →
    s.dt ≤ (2 : ℝ) ^ 40 * s.intDt → m + n ≤ 2 ^ 43 → (m + n : ℕ) * s.dt ≤ (2 : ℝ) ^ 43 * s.intDt →
    (∀ i, sdNorm s.k c (x.1 i - s.goalY i, x.2 i) ≤
      Real.exp (-(decayRate s.k c * s.dt / 2 * m)) * N0 i + roundingFloor s.k c s.dt s.intDt (s.goalY i)) →
    ∃ out s', (fedBack (SpringDamper.stepFl rnd none) n x.1 x.2).exec s = (.ok out, s') ∧ out.length = n ∧
      ∀ j (hj : j < out.length), ∀ i, sdNorm s.k c (out[j].1 i - s.goalY i, out[j].2 i) ≤
        Real.exp (-(decayRate s.k c * s.dt / 2 * (m + j + 1 : ℕ))) * N0 i + roundingFloor s.k c s.dt s.intDt (s.goalY i)
  | 0, _, s, _, _ => fun _ _ _ _ _ _ _ _ _ _ _ _ _ _ _ => ⟨[], s, rfl, rfl, by intro j hj; simp at hj⟩
  | n + 1, m, s, x, N0 => by
    intro ht hd hi hdt hi0 hk hc hc0 hstab h1 h2 h3 hn hn' hx
    have hη : 0 < decayRate s.k c := sdRate_pos hk hc
    have hf0 : 0 ≤ frequency s.k c := Real.sqrt_nonneg _
    have hm1 : clockFl rnd s.dt (m + 1) ≤ 2 * ((m + 1 : ℕ) * s.dt) := clock_le h hd hdt (by omega)
    have hm0 : clockFl rnd s.dt m ≤ 2 * ((m : ℕ) * s.dt) := clock_le h hd hdt (by omega)
    have e44 : (2 : ℝ) ^ (-44 : ℤ) * (2 * (2 : ℝ) ^ 43) = 1 := by norm_num
    have hbig : (2 : ℝ) ^ (-44 : ℤ) * clockFl rnd s.dt (m + 1) ≤ s.intDt := by
      have a1 : ((m + 1 : ℕ) : ℝ) * s.dt ≤ (m + (n + 1) : ℕ) * s.dt :=
        mul_le_mul_of_nonneg_right (by exact_mod_cast (by omega : m + 1 ≤ m + (n + 1))) hdt.le
      have a2 : clockFl rnd s.dt (m + 1) ≤ 2 * (2 : ℝ) ^ 43 * s.intDt := by linarith
      have := mul_le_mul_of_nonneg_left a2 (show (0 : ℝ) ≤ (2 : ℝ) ^ (-44 : ℤ) by positivity)
      rw [← mul_assoc, e44, one_mul] at this
      exact this
    have hbig' : (2 : ℝ) ^ (-44 : ℤ) * clockFl rnd s.dt m ≤ s.dt := by
      have a1 : ((m : ℕ) : ℝ) * s.dt ≤ (2 : ℝ) ^ 43 * s.dt :=
        mul_le_mul_of_nonneg_right (by exact_mod_cast (by omega : m ≤ 2 ^ 43)) hdt.le
      have a2 : clockFl rnd s.dt m ≤ 2 * (2 : ℝ) ^ 43 * s.dt := by linarith
      have := mul_le_mul_of_nonneg_left a2 (show (0 : ℝ) ≤ (2 : ℝ) ^ (-44 : ℤ) by positivity)
      rw [← mul_assoc, e44, one_mul] at this
      exact this
    have hT := isDouble_clock h (dt := s.dt) m
    have hT0 := clock_nonneg h hdt.le m
    have hadv := clock_advance h hd hT hdt hT0 hbig'
    obtain ⟨r, hr, hrN⟩ := springDamperStepFl_decay h (g := s.goalY) hi hc0 hk hc hi0 hdt hstab h1 h2 h3 hT
      (isDouble_clock h (dt := s.dt) (m + 1)) hT0 hadv hbig x
    have hrec : ∀ i, sdNorm s.k c (r.1 i - s.goalY i, r.2 i) ≤
        Real.exp (-(decayRate s.k c * s.dt / 2 * (m + 1 : ℕ))) * N0 i + roundingFloor s.k c s.dt s.intDt (s.goalY i) := by
      intro i
      refine decay_floor (by positivity) ?_ ?_ (hx i) (hrN i)
      · unfold roundingFloor
        have : 1 / (decayRate s.k c * s.dt / 2) = 2 / (decayRate s.k c * s.dt) := by field_simp
        rw [this]; ring
      · positivity
    obtain ⟨out, s', he, hl, ho⟩ := fedBackFl_decay h n (m + 1)
      { s with lastT := some s.t, t := rnd (s.t + s.dt), currentY := r.1, currentYd := r.2, initialized := true } r N0
      (by simp only [ht]; rfl) hd hi hdt hi0 hk hc hc0 hstab h1 h2 h3 (by omega)
      (by rw [show m + 1 + n = m + (n + 1) by omega]; exact hn') hrec
    refine ⟨r :: out, s', ?_, by simp [hl], ?_⟩
    · rw [fedBack, Py.exec_bind, SpringDamper.exec_stepFl]
      have : springDamperStepFl rnd s.goalY s.k s.c none none s.intDt s.t (rnd (s.t + s.dt)) (x.1, x.2) = .ok r := by
        rw [ht]; exact hr
      rw [this]
      simp only
      rw [Py.exec_bind, he]
      rfl
    · intro j hj i
      cases j with
      | zero => exact hrec i
      | succ j =>
        have := ho j (by simpa using hj) i
        rw [show m + (j + 1) + 1 = m + 1 + j + 1 by omega]
        exact this

/-- C106: the calls of `SpringDamper.step`, computed in double precision with each result passed to the next call, return, and position
and velocity decay to the goal up to rounding errors: the deviation is finally at most a multiple of `2 ** -53` of the goal (and of the
smallest double). The steps must be small enough for stability and not absurdly small, and the execution must not take absurdly
long. -/
theorem C106_spring_damper_step (h : IsRounding rnd) (s : SpringDamper d) {c : ℝ} (n : ℕ) (y yd : Vec d) (ht : s.t = 0)
    (hd : IsDouble s.dt) (hi : IsDouble s.intDt) (hdt : 0 < s.dt) (hi0 : 0 < s.intDt) (hk : 0 < s.k) (hc : 0 < c)
    (hc0 : defaultDampingFl rnd s.c s.k = c) (hstab : 2 * s.intDt * (2 * s.k + c ^ 2) * (s.k + c ^ 2) ≤ s.k * c)
    (h1 : (2 : ℝ) ^ (-36 : ℤ) ≤ decayRate s.k c * s.intDt) (h2 : (2 : ℝ) ^ (-36 : ℤ) ≤ decayRate s.k c * s.dt)
    (h3 : s.dt ≤ (2 : ℝ) ^ 40 * s.intDt) (hn : n ≤ 2 ^ 43) (hn' : n * s.dt ≤ (2 : ℝ) ^ 43 * s.intDt) :
    ∃ out s', (fedBack (SpringDamper.stepFl rnd none) n y yd).exec s = (.ok out, s') ∧ out.length = n ∧
      ∀ j (hj : j < out.length), ∀ i,
        |out[j].1 i - s.goalY i| ≤ 3 / 2 * (Real.exp (-(decayRate s.k c * s.dt / 2 * (j + 1 : ℕ))) *
          stateDeviation s.k c (y i - s.goalY i) (yd i) + roundingFloor s.k c s.dt s.intDt (s.goalY i)) / frequency s.k c ∧
        |out[j].2 i| ≤ 3 / 2 * (Real.exp (-(decayRate s.k c * s.dt / 2 * (j + 1 : ℕ))) *
          stateDeviation s.k c (y i - s.goalY i) (yd i) + roundingFloor s.k c s.dt s.intDt (s.goalY i)) := by
  have hη : 0 < decayRate s.k c := sdRate_pos hk hc
  have hf0 : 0 ≤ frequency s.k c := Real.sqrt_nonneg _
  have hB : ∀ i, 0 ≤ roundingFloor s.k c s.dt s.intDt (s.goalY i) := fun i => by unfold roundingFloor; positivity
  obtain ⟨out, s', he, hl, ho⟩ := fedBackFl_decay h n 0 s (y, yd)
    (fun i => stateDeviation s.k c (y i - s.goalY i) (yd i)) ht hd hi hdt hi0 hk hc hc0 hstab h1 h2 h3 (by omega)
    (by rw [zero_add]; exact hn')
    (fun i => by
      have := sdNorm_le_stateDeviation hk hc (y i - s.goalY i) (yd i)
      have e : Real.exp (-(decayRate s.k c * s.dt / 2 * (0 : ℕ))) = 1 := by simp
      rw [e, one_mul]
      linarith [hB i])
  refine ⟨out, s', he, hl, fun j hj i => ?_⟩
  have := ho j hj i
  rw [zero_add] at this
  exact bounds_of_sdNorm hk hc this

theorem isDouble_one : IsDouble 1 := ⟨1, 0, by norm_num, by norm_num, by norm_num⟩

theorem isDouble_two : IsDouble 2 := ⟨2, 0, by norm_num, by norm_num, by norm_num⟩

/-- Rounding of the default time steps. -/
theorem default_steps (h : IsRounding rnd) :
    |rnd (1 / 100) - 1 / 100| ≤ 1 / 10 ^ 9 ∧ |rnd (1 / 1000) - 1 / 1000| ≤ 1 / 10 ^ 9 := by
  have hw : (2 : ℝ) ^ (-1074 : ℤ) ≤ 1 / 10 ^ 10 := by
    have : (2 : ℝ) ^ (-1074 : ℤ) ≤ (2 : ℝ) ^ (-53 : ℤ) := zpow_le_zpow_right₀ (by norm_num) (by norm_num)
    refine this.trans ?_
    norm_num
  have hu : (2 : ℝ) ^ (-53 : ℤ) ≤ 1 / 10 ^ 10 := by norm_num
  constructor
  · refine (h.rounds _).trans ?_
    rw [abs_of_pos (by norm_num)]
    linarith
  · refine (h.rounds _).trans ?_
    rw [abs_of_pos (by norm_num)]
    linarith

/-- Numbers of the default spring-damper system. -/
theorem default_numbers {X dt intDt e g w : ℝ} (hd : |dt - 1 / 100| ≤ 1 / 10 ^ 9) (hi : |intDt - 1 / 1000| ≤ 1 / 10 ^ 9)
    (hg : 0 ≤ g) (hw : 0 ≤ w) {q : ℝ} (hq : 17 / 10 ≤ q) :
    3 / 2 * (X * (q * e) + 4 * (dt / intDt + 1) * (1 + 2 / (1 / 20 * dt)) *
      ((2 : ℝ) ^ (-53 : ℤ) * (q * g) + (2 * (intDt * (5 + 2 * 1)) + 4 * (1 + q)) * w)) / q ≤
      3 / 2 * X * e + 1 / 10 ^ 10 * g + 2 ^ 30 * w := by
  have hd' := abs_le.1 hd
  have hi' := abs_le.1 hi
  have hq0 : 0 < q := by linarith
  have hdt0 : 0 < dt := by linarith
  have hi0 : 0 < intDt := by linarith
  set A := 4 * (dt / intDt + 1) * (1 + 2 / (1 / 20 * dt)) with hA
  have hA1 : A ≤ 200000 := by
    have a1 : dt / intDt ≤ 101 / 10 := by rw [div_le_iff₀ hi0]; linarith
    have a2 : 2 / (1 / 20 * dt) ≤ 4004 := by rw [div_le_iff₀ (by positivity)]; linarith
    have a3 : 0 ≤ dt / intDt := by positivity
    calc A ≤ 4 * (101 / 10 + 1) * (1 + 4004) := by
          rw [hA]; gcongr
      _ ≤ _ := by norm_num
  have hA0 : 0 ≤ A := by rw [hA]; positivity
  have hC : (2 * (intDt * (5 + 2 * 1)) + 4 * (1 + q)) / q ≤ 10 := by
    rw [div_le_iff₀ hq0]; linarith
  have e1 : 3 / 2 * (X * (q * e) + A * ((2 : ℝ) ^ (-53 : ℤ) * (q * g) + (2 * (intDt * (5 + 2 * 1)) + 4 * (1 + q)) * w)) / q =
      3 / 2 * X * e + A * (3 / 2 * (2 : ℝ) ^ (-53 : ℤ)) * g +
        3 / 2 * A * ((2 * (intDt * (5 + 2 * 1)) + 4 * (1 + q)) / q) * w := by
    field_simp
    ring
  rw [e1]
  have e2 : A * (3 / 2 * (2 : ℝ) ^ (-53 : ℤ)) ≤ 1 / 10 ^ 10 := by
    calc A * (3 / 2 * (2 : ℝ) ^ (-53 : ℤ)) ≤ 200000 * (3 / 2 * (2 : ℝ) ^ (-53 : ℤ)) :=
          mul_le_mul_of_nonneg_right hA1 (by positivity)
      _ ≤ _ := by norm_num
  have e3 : 3 / 2 * A * ((2 * (intDt * (5 + 2 * 1)) + 4 * (1 + q)) / q) ≤ 2 ^ 30 := by
    calc 3 / 2 * A * ((2 * (intDt * (5 + 2 * 1)) + 4 * (1 + q)) / q) ≤ (3 : ℝ) / 2 * 200000 * 10 := by gcongr
      _ ≤ _ := by norm_num
  have := mul_le_mul_of_nonneg_right e2 hg
  have := mul_le_mul_of_nonneg_right e3 hw
  linarith

/-- C106: `SpringDamper(n_dims)` with the default arguments, started at rest: after `n` calls of `step` (up to a billion) the position
deviates from the goal by at most `3 / 2 * exp(-n / 4001)` of the initial distance and `1e-10` of the size of the goal. -/
theorem C106_default (h : IsRounding rnd) (start goal : Vec d) (n : ℕ) (hn : n < 10 ^ 9) :
    ∃ out s', (fedBack (SpringDamper.stepFl rnd none) (n + 1) start 0).exec
        { SpringDamper.create d (rnd (1 / 100)) 1 none (rnd (1 / 1000)) with goalY := goal } = (.ok out, s') ∧
      ∃ hl : out.length = n + 1, ∀ i, |out[n].1 i - goal i| ≤
        3 / 2 * Real.exp (-((n + 1) / 4001)) * |start i - goal i| + 1 / 10 ^ 10 * |goal i| + (2 : ℝ) ^ (-1044 : ℤ) := by
  obtain ⟨hd, hi⟩ := default_steps h
  have hd' := abs_le.1 hd
  have hi' := abs_le.1 hi
  have hc : defaultDampingFl rnd none 1 = 2 := by
    simp only [defaultDampingFl]
    rw [Real.sqrt_one, h.of_isDouble isDouble_one, mul_one, h.of_isDouble isDouble_two]
  have hr : decayRate 1 2 = 1 / 20 := by unfold decayRate; norm_num
  have hnR : ((n : ℝ) + 1) ≤ 10 ^ 9 := by exact_mod_cast hn
  have h36 : (2 : ℝ) ^ (-36 : ℤ) ≤ 1 / 10 ^ 10 := by norm_num
  obtain ⟨out, s', he, hl, ho⟩ := C106_spring_damper_step h
    { SpringDamper.create d (rnd (1 / 100)) 1 none (rnd (1 / 1000)) with goalY := goal } (c := 2) (n + 1) start 0 rfl
    (h.isDouble _) (h.isDouble _) (by show 0 < rnd (1 / 100); linarith) (by show 0 < rnd (1 / 1000); linarith)
    (by show (0 : ℝ) < 1; norm_num) (by norm_num) hc
    (by show 2 * rnd (1 / 1000) * (2 * 1 + 2 ^ 2) * (1 + 2 ^ 2) ≤ 1 * 2; linarith)
    (by show _ ≤ decayRate 1 2 * rnd (1 / 1000); rw [hr]; linarith)
    (by show _ ≤ decayRate 1 2 * rnd (1 / 100); rw [hr]; linarith)
    (by show rnd (1 / 100) ≤ 2 ^ 40 * rnd (1 / 1000); linarith)
    (by omega)
    (by
      show ((n + 1 : ℕ) : ℝ) * rnd (1 / 100) ≤ 2 ^ 43 * rnd (1 / 1000)
      push_cast
      have : ((n : ℝ) + 1) * rnd (1 / 100) ≤ 10 ^ 9 * (1 / 50) := mul_le_mul hnR (by linarith) (by linarith) (by positivity)
      linarith)
  refine ⟨out, s', he, hl, fun i => ?_⟩
  have hb := (ho n (by omega) i).1
  refine hb.trans ?_
  show 3 / 2 * (Real.exp (-(decayRate 1 2 * rnd (1 / 100) / 2 * (n + 1 : ℕ))) * stateDeviation 1 2 (start i - goal i) 0 +
    roundingFloor 1 2 (rnd (1 / 100)) (rnd (1 / 1000)) (goal i)) / frequency 1 2 ≤ _
  have hq : 17 / 10 ≤ frequency 1 2 := by
    unfold frequency
    refine Real.le_sqrt_of_sq_le ?_
    norm_num
  have hdev : stateDeviation 1 2 (start i - goal i) 0 = frequency 1 2 * |start i - goal i| := by simp [stateDeviation]
  rw [hdev, roundingFloor, hr]
  refine (default_numbers hd hi (abs_nonneg _) (by positivity) hq).trans ?_
  have e1 : Real.exp (-(1 / 20 * rnd (1 / 100) / 2 * (n + 1 : ℕ))) ≤ Real.exp (-((n + 1) / 4001)) := by
    refine Real.exp_le_exp.2 (neg_le_neg ?_)
    push_cast
    have : 1 / 4001 ≤ 1 / 20 * rnd (1 / 100) / 2 := by linarith
    have := mul_le_mul_of_nonneg_right this (show (0 : ℝ) ≤ (n : ℝ) + 1 by positivity)
    linarith
  have e2 : (2 : ℝ) ^ 30 * (2 : ℝ) ^ (-1074 : ℤ) = (2 : ℝ) ^ (-1044 : ℤ) := by
    rw [← zpow_natCast, ← zpow_add₀ (by norm_num)]
    norm_num
  rw [e2]
  have := mul_le_mul_of_nonneg_right (mul_le_mul_of_nonneg_left e1 (show (0 : ℝ) ≤ 3 / 2 by norm_num)) (abs_nonneg (start i - goal i))
  linarith

/-! ## Open loop -/

/-- Rows of a loop with an invariant. -/
theorem loopRows_inv {σ β : Type} {step : ℕ → σ → Except PyErr σ} {out : σ → β} {P : ℕ → σ → Prop} {K : ℕ}
    (hP : ∀ i x, i < K → P i x → ∃ x', step i x = .ok x' ∧ P (i + 1) x') : ∀ (k i : ℕ) (x : σ), i + k ≤ K → P i x →
      ∃ rows, loopRows step out k x i = .ok rows ∧ rows.length = k ∧
        ∀ j (hj : j < rows.length), ∃ x', P (i + j + 1) x' ∧ rows[j] = out x'
  | 0, _, _, _, _ => ⟨[], rfl, rfl, by intro j hj; simp at hj⟩
  | k + 1, i, x, hi, hx => by
    obtain ⟨x', hs, hx'⟩ := hP i x (by omega) hx
    obtain ⟨rows, hr, hl, ho⟩ := loopRows_inv hP k (i + 1) x' (by omega) hx'
    refine ⟨out x' :: rows, by rw [loopRows, hs]; simp only [bind, Except.bind]; rw [hr]; rfl, by simp [hl], ?_⟩
    intro j hj
    cases j with
    | zero => exact ⟨x', hx', rfl⟩
    | succ j =>
      obtain ⟨x'', h1, h2⟩ := ho j (by simpa using hj)
      exact ⟨x'', by rw [show i + (j + 1) + 1 = i + 1 + j + 1 by omega]; exact h1, h2⟩

/-- C106: `SpringDamper.open_loop`, computed in double precision, returns, and the positions decay to the goal up to rounding
errors. -/
theorem C106_open_loop (h : IsRounding rnd) (s : SpringDamper d) {c runT : ℝ} (hd : IsDouble s.dt) (hi : IsDouble s.intDt)
    (hdt : 0 < s.dt) (hi0 : 0 < s.intDt) (hk : 0 < s.k) (hc : 0 < c) (hc0 : defaultDampingFl rnd s.c s.k = c)
    (hstab : 2 * s.intDt * (2 * s.k + c ^ 2) * (s.k + c ^ 2) ≤ s.k * c)
    (h1 : (2 : ℝ) ^ (-36 : ℤ) ≤ decayRate s.k c * s.intDt) (h2 : (2 : ℝ) ^ (-36 : ℤ) ≤ decayRate s.k c * s.dt)
    (h3 : s.dt ≤ (2 : ℝ) ^ 40 * s.intDt) (hr : IsDouble runT) (hr0 : 0 ≤ runT) (hn : runT + s.dt ≤ (2 : ℝ) ^ 42 * s.dt)
    (hn' : runT + 2 * s.dt ≤ (2 : ℝ) ^ 42 * s.intDt) :
    ∃ Y, (SpringDamper.openLoopFl rnd runT none).exec s = (.ok (arangeTimesFl rnd s.dt runT, Y), s) ∧
      Y.length = (arangeTimesFl rnd s.dt runT).length ∧ runT / s.dt ≤ Y.length ∧
      ∀ j (hj : j < Y.length), ∀ i,
        |Y[j] i - s.goalY i| ≤ 3 / 2 * (Real.exp (-(decayRate s.k c * s.dt / 2 * j)) *
          stateDeviation s.k c (s.startY i - s.goalY i) 0 + roundingFloor s.k c s.dt s.intDt (s.goalY i)) / frequency s.k c := by
  have hη : 0 < decayRate s.k c := sdRate_pos hk hc
  have hf0 : 0 ≤ frequency s.k c := Real.sqrt_nonneg _
  have hB : ∀ i, 0 ≤ roundingFloor s.k c s.dt s.intDt (s.goalY i) := fun i => by unfold roundingFloor; positivity
  set T := arangeTimesFl rnd s.dt runT with hT
  have hceil : ⌈runT / s.dt⌉₊ < 2 ^ 42 := by
    have a1 : (⌈runT / s.dt⌉₊ : ℝ) < runT / s.dt + 1 := Nat.ceil_lt_add_one (by positivity)
    have a2 : runT / s.dt + 1 ≤ 2 ^ 42 := by
      rw [← div_self hdt.ne', ← add_div, div_le_iff₀ hdt]
      exact hn
    exact_mod_cast a1.trans_le a2
  obtain ⟨hlen1, hlen2⟩ := C80_arange_count h hd hdt hr hr0 (hceil.trans (by norm_num))
  rw [← hT] at hlen1 hlen2
  have hlen0 : 1 ≤ T.length := by
    rw [hT, arangeTimesFl, List.length_map, List.length_range]
    have a1 : s.dt ≤ rnd (rnd (runT + s.dt) - 0) := by
      rw [sub_zero, h.of_isDouble (h.isDouble _)]
      exact h.ge_of_isDouble hd (by linarith)
    have a2 : 1 ≤ rnd (rnd (rnd (runT + s.dt) - 0) / s.dt) := h.ge_of_isDouble isDouble_one (by rw [le_div_iff₀ hdt]; linarith)
    exact Nat.one_le_iff_ne_zero.2 (Nat.ceil_pos.2 (by linarith)).ne'
  have htimes : ∀ i, i < T.length → |T.getD i 0 - i * s.dt| ≤ i * s.dt * (2 : ℝ) ^ (-53 : ℤ) ∧ IsDouble (T.getD i 0) ∧ 0 ≤ T.getD i 0 := by
    intro i hi'
    rw [List.getD_eq_getElem _ _ hi']
    refine ⟨C80_arange_times h hd hdt runT i hi', ?_, ?_⟩
    · simp only [hT, arangeTimesFl, List.getElem_map]
      exact h.isDouble _
    · simp only [hT, arangeTimesFl, List.getElem_map, List.getElem_range, zero_add, sub_zero, h.of_isDouble hd,
        h.of_isDouble (h.isDouble _)]
      exact h.ge_of_isDouble isDouble_zero (by positivity)
  obtain ⟨rows, hrows, hrl, hro⟩ := loopRows_inv (out := Prod.fst)
    (step := fun i x => springDamperStepFl rnd s.goalY s.k s.c none none s.intDt (T.getD i 0) (T.getD (i + 1) 0) x)
    (P := fun j x => ∀ i, sdNorm s.k c (x.1 i - s.goalY i, x.2 i) ≤ Real.exp (-(decayRate s.k c * s.dt / 2 * j)) *
      stateDeviation s.k c (s.startY i - s.goalY i) 0 + roundingFloor s.k c s.dt s.intDt (s.goalY i)) (K := T.length - 1)
    (by
      intro j x hj hx
      obtain ⟨b1, b2, b3⟩ := htimes j (by omega)
      obtain ⟨c1, c2, c3⟩ := htimes (j + 1) (by omega)
      have hjR : (j : ℝ) + 1 ≤ 2 ^ 43 := by exact_mod_cast (by omega : j + 1 ≤ 2 ^ 43)
      have hju : ((j : ℝ) + 1) * (2 : ℝ) ^ (-53 : ℤ) ≤ 1 / 1024 := by
        refine (mul_le_mul_of_nonneg_right hjR (by positivity)).trans ?_
        norm_num
      have e1 : ((j : ℝ) + 1) * s.dt * (2 : ℝ) ^ (-53 : ℤ) ≤ s.dt / 1024 := by
        have := mul_le_mul_of_nonneg_right hju hdt.le
        linarith
      have e2 : (j : ℝ) * s.dt * (2 : ℝ) ^ (-53 : ℤ) ≤ s.dt / 1024 := by
        have : (0 : ℝ) ≤ s.dt * (2 : ℝ) ^ (-53 : ℤ) := by positivity
        linarith
      push_cast at c1
      have b1' := abs_le.1 (b1.trans e2)
      have c1' := abs_le.1 (c1.trans e1)
      clear b1 c1 e1 e2 hju
      obtain ⟨r, hr1, hr2⟩ := springDamperStepFl_decay h (g := s.goalY) hi hc0 hk hc hi0 hdt hstab h1 h2 h3 b2 c2 b3
        (by rw [abs_le]; constructor <;> linarith)
        (by
          have a1 : ((j : ℝ) + 1) * s.dt ≤ runT + 2 * s.dt := by
            have q1 : (j : ℝ) + 1 ≤ ⌈runT / s.dt⌉₊ + 1 := by exact_mod_cast (by omega : j + 1 ≤ ⌈runT / s.dt⌉₊ + 1)
            have q2 : (⌈runT / s.dt⌉₊ : ℝ) < runT / s.dt + 1 := Nat.ceil_lt_add_one (by positivity)
            have q3 := mul_le_mul_of_nonneg_right (q1.trans (by linarith : _ ≤ runT / s.dt + 2)) hdt.le
            have q4 : (runT / s.dt + 2) * s.dt = runT + 2 * s.dt := by field_simp
            linarith
          have a2 : T.getD (j + 1) 0 ≤ 2 ^ 44 * s.intDt := by linarith
          have := mul_le_mul_of_nonneg_left a2 (show (0 : ℝ) ≤ (2 : ℝ) ^ (-44 : ℤ) by positivity)
          have e44 : (2 : ℝ) ^ (-44 : ℤ) * (2 : ℝ) ^ 44 = 1 := by norm_num
          rw [← mul_assoc, e44, one_mul] at this
          exact this) x
      refine ⟨r, hr1, fun i => ?_⟩
      refine decay_floor (by positivity) ?_ ?_ (hx i) (hr2 i)
      · unfold roundingFloor
        have : 1 / (decayRate s.k c * s.dt / 2) = 2 / (decayRate s.k c * s.dt) := by field_simp
        rw [this]; ring
      · positivity)
    (T.length - 1) 0 (s.startY, 0) (by omega)
    (by
      intro i
      have := sdNorm_le_stateDeviation hk hc (s.startY i - s.goalY i) 0
      have e : Real.exp (-(decayRate s.k c * s.dt / 2 * (0 : ℕ))) = 1 := by simp
      rw [e, one_mul]
      have hb := hB i
      simp only [Pi.zero_apply]
      linarith)
  refine ⟨s.startY :: rows, ?_, by simp [hrl]; omega, ?_, ?_⟩
  · unfold SpringDamper.openLoopFl
    rw [Py.exec_bind, Py.exec_get]
    simp only
    rw [if_neg hdt.ne', if_neg (by rw [← hT]; intro h0; rw [h0] at hlen0; simp at hlen0)]
    simp only [Py.exec_bind, Py.exec_pure, Py.exec_lift, ← hT]
    rw [hrows]
  · have : (s.startY :: rows).length = T.length := by simp [hrl]; omega
    rw [this]
    exact (Nat.le_ceil _).trans (by exact_mod_cast hlen1)
  · intro j hj i
    cases j with
    | zero =>
      simp only [List.getElem_cons_zero]
      have := sdNorm_le_stateDeviation hk hc (s.startY i - s.goalY i) 0
      have e : Real.exp (-(decayRate s.k c * s.dt / 2 * (0 : ℕ))) = 1 := by simp
      rw [e, one_mul]
      exact (bounds_of_sdNorm hk hc (this.trans (by linarith [hB i]))).1
    | succ j =>
      obtain ⟨x', hx', he⟩ := hro j (by simpa using hj)
      simp only [List.getElem_cons_succ]
      rw [he]
      have := hx' i
      rw [zero_add] at this
      exact (bounds_of_sdNorm hk hc this).1

/-! ## The goal is not always reached exactly -/

/-- A state in which the integration steps do not change anything. -/
theorem stalled (h : IsRounding rnd) {z intDt : ℝ} (hz : 0 < z) (hzi : z ≤ intDt) (hi : intDt ≤ 1 / 512) (τ : ℝ) :
    springDamperBodyFl (d := d) rnd (fun _ => 1) 1 2 none none z τ
        (fun _ => 1 - (2 : ℝ) ^ (-45 : ℤ), fun _ => (2 : ℝ) ^ (-46 : ℤ)) =
      (fun _ => 1 - (2 : ℝ) ^ (-45 : ℤ), fun _ => (2 : ℝ) ^ (-46 : ℤ)) := by
  have d45 : IsDouble ((2 : ℝ) ^ (-45 : ℤ)) := ⟨1, -45, by norm_num, by norm_num, by norm_num⟩
  have d46 : IsDouble ((2 : ℝ) ^ (-46 : ℤ)) := ⟨1, -46, by norm_num, by norm_num, by norm_num⟩
  have r45 := h.of_isDouble d45
  have r46 := h.of_isDouble d46
  have r0 := h.of_isDouble isDouble_zero
  have e1 : (2 : ℝ) * (2 : ℝ) ^ (-46 : ℤ) = (2 : ℝ) ^ (-45 : ℤ) := by norm_num
  have hv : rnd (z * (2 : ℝ) ^ (-46 : ℤ)) ≤ (2 : ℝ) ^ (-55 : ℤ) := by
    refine h.le_of_isDouble ⟨1, -55, by norm_num, by norm_num, by norm_num⟩ ?_
    calc z * (2 : ℝ) ^ (-46 : ℤ) ≤ 1 / 512 * (2 : ℝ) ^ (-46 : ℤ) := by
          exact mul_le_mul_of_nonneg_right (by linarith) (by positivity)
      _ = _ := by norm_num
  have hv0 : 0 ≤ rnd (z * (2 : ℝ) ^ (-46 : ℤ)) := h.ge_of_isDouble isDouble_zero (by positivity)
  have hy : rnd (1 - (2 : ℝ) ^ (-45 : ℤ) + rnd (z * (2 : ℝ) ^ (-46 : ℤ))) = 1 - (2 : ℝ) ^ (-45 : ℤ) := by
    have e : (1 - (2 : ℝ) ^ (-45 : ℤ)) = ((2 ^ 53 - 2 ^ 8 : ℤ) : ℝ) * (2 : ℝ) ^ (-53 : ℤ) := by norm_num
    have := h.eq_of_near (x := 1 - (2 : ℝ) ^ (-45 : ℤ) + rnd (z * (2 : ℝ) ^ (-46 : ℤ))) (2 ^ 53 - 2 ^ 8) (-53) (by norm_num)
      (by norm_num) (by norm_num) (by
        rw [← e, add_sub_cancel_left, abs_of_nonneg hv0]
        refine hv.trans_lt ?_
        norm_num)
    rw [this, e]
  simp only [springDamperBodyFl, sdCouplingFl, Pi.zero_apply, sub_sub_cancel, one_mul, e1, r45, sub_self, r0, add_zero, mul_zero,
    r46, hy]

/-- C106 (finding): the default `SpringDamper` does not always reach its goal exactly. From position `1 - 2 ** -45` with velocity
`2 ** -46` the goal 1 is never reached: all calls of `step` (up to a billion) return the same position and the same velocity, which is
not 0. -/
theorem C106_stalls (h : IsRounding rnd) (n : ℕ) (hn : n ≤ 10 ^ 9) :
    ∃ s', (fedBack (SpringDamper.stepFl rnd none) n (fun _ => 1 - (2 : ℝ) ^ (-45 : ℤ)) (fun _ => (2 : ℝ) ^ (-46 : ℤ))).exec
        { SpringDamper.create d (rnd (1 / 100)) 1 none (rnd (1 / 1000)) with goalY := fun _ => 1 } =
      (.ok (List.replicate n (fun _ => 1 - (2 : ℝ) ^ (-45 : ℤ), fun _ => (2 : ℝ) ^ (-46 : ℤ))), s') := by
  obtain ⟨hd, hi⟩ := default_steps h
  have hd' := abs_le.1 hd
  have hi' := abs_le.1 hi
  have hc : defaultDampingFl rnd none 1 = 2 := by
    simp only [defaultDampingFl]
    rw [Real.sqrt_one, h.of_isDouble isDouble_one, mul_one, h.of_isDouble isDouble_two]
  have key : ∀ (n m : ℕ) (s : SpringDamper d), m + n ≤ 10 ^ 9 → s.t = clockFl rnd (rnd (1 / 100)) m → s.dt = rnd (1 / 100) → s.k = 1 →
      s.c = none → s.intDt = rnd (1 / 1000) → (s.goalY = fun _ => 1) →
      ∃ s', (fedBack (SpringDamper.stepFl rnd none) n (fun _ => 1 - (2 : ℝ) ^ (-45 : ℤ)) (fun _ => (2 : ℝ) ^ (-46 : ℤ))).exec s =
        (.ok (List.replicate n (fun _ => 1 - (2 : ℝ) ^ (-45 : ℤ), fun _ => (2 : ℝ) ^ (-46 : ℤ))), s') := by
    intro n
    induction n with
    | zero => intro m s _ _ _ _ _ _ _; exact ⟨s, rfl⟩
    | succ n ih =>
      intro m s hm ht h1 h2 h3 h4 h5
      have hclock : clockFl rnd (rnd (1 / 100)) (m + 1) ≤ 10 ^ 8 := by
        have a1 := clock_le h (h.isDouble (1 / 100)) (by linarith) (n := m + 1) (by omega)
        have a2 : ((m + 1 : ℕ) : ℝ) ≤ 10 ^ 9 := by exact_mod_cast (by omega : m + 1 ≤ 10 ^ 9)
        have a3 : ((m + 1 : ℕ) : ℝ) * rnd (1 / 100) ≤ 10 ^ 9 * (1 / 50) := mul_le_mul a2 (by linarith) (by linarith) (by positivity)
        linarith
      have hc0 := clock_nonneg h (dt := rnd (1 / 100)) (by linarith) m
      have hp : (0 : ℝ) ≤ clockFl rnd (rnd (1 / 100)) (m + 1) := clock_nonneg h (by linarith) _
      have hbig : (2 : ℝ) ^ (-44 : ℤ) * clockFl rnd (rnd (1 / 100)) (m + 1) ≤ rnd (1 / 1000) := by
        have := mul_le_mul_of_nonneg_left hclock (show (0 : ℝ) ≤ (2 : ℝ) ^ (-44 : ℤ) by positivity)
        refine this.trans ?_
        refine le_trans ?_ (show (1 : ℝ) / 1001 ≤ rnd (1 / 1000) by linarith)
        norm_num
      have hbig' : (2 : ℝ) ^ (-52 : ℤ) * clockFl rnd (rnd (1 / 100)) (m + 1) ≤ rnd (1 / 1000) :=
        le_trans (mul_le_mul_of_nonneg_right (by norm_num) hp) hbig
      obtain ⟨L, hL, hrun⟩ := exists_loopSteps h (h.isDouble (1 / 1000)) (isDouble_clock h (m + 1)) (isDouble_clock h m) hc0
        (by linarith) hbig'
      obtain ⟨c1, -⟩ := hL.bounds h (h.isDouble (1 / 1000)) (isDouble_clock h (m + 1)) (by linarith) hbig L _ (isDouble_clock h m) hc0
      have hstep : springDamperStepFl rnd s.goalY s.k s.c none none s.intDt s.t (rnd (s.t + s.dt))
          (fun _ => 1 - (2 : ℝ) ^ (-45 : ℤ), fun _ => (2 : ℝ) ^ (-46 : ℤ)) =
          .ok (fun _ => 1 - (2 : ℝ) ^ (-45 : ℤ), fun _ => (2 : ℝ) ^ (-46 : ℤ)) := by
        rw [h1, h2, h3, h4, h5, ht]
        unfold springDamperStepFl
        rw [hc]
        refine (hrun _ _ _).trans (congrArg _ ?_)
        clear hL hrun
        induction L with
        | nil => rfl
        | cons p L ihL =>
          rw [List.foldl_cons, stalled h (c1 p (by simp)).1 (c1 p (by simp)).2.1 (by linarith)]
          exact ihL (fun q hq => c1 q (by simp [hq]))
      obtain ⟨s', hs'⟩ := ih (m + 1)
        { s with lastT := some s.t, t := rnd (s.t + s.dt), currentY := fun _ => 1 - (2 : ℝ) ^ (-45 : ℤ)
                 currentYd := fun _ => (2 : ℝ) ^ (-46 : ℤ), initialized := true } (by omega)
        (by simp only [ht, h1]; rfl) h1 h2 h3 h4 h5
      refine ⟨s', ?_⟩
      rw [fedBack, Py.exec_bind, SpringDamper.exec_stepFl, hstep]
      simp only
      rw [Py.exec_bind, hs']
      rfl
  exact key n 0 _ (by omega) rfl rfl rfl rfl rfl rfl

/-- The hypotheses of the theorems can be met: rounding functions exist. -/
example : ∃ rnd, IsRounding rnd := exists_isRounding

/-- The hypotheses of `C106_open_loop` are met by the default spring-damper system and `run_t=1`. -/
example (h : IsRounding rnd) (goal : Vec d) :
    ∃ Y, (SpringDamper.openLoopFl rnd 1 none).exec { SpringDamper.create d (rnd (1 / 100)) 1 none (rnd (1 / 1000)) with goalY := goal } =
      (.ok (arangeTimesFl rnd (rnd (1 / 100)) 1, Y),
        { SpringDamper.create d (rnd (1 / 100)) 1 none (rnd (1 / 1000)) with goalY := goal }) ∧ 99 ≤ Y.length := by
  obtain ⟨hd, hi⟩ := default_steps h
  have hd' := abs_le.1 hd
  have hi' := abs_le.1 hi
  have hc : defaultDampingFl rnd none 1 = 2 := by
    simp only [defaultDampingFl]
    rw [Real.sqrt_one, h.of_isDouble isDouble_one, mul_one, h.of_isDouble isDouble_two]
  have hr : decayRate 1 2 = 1 / 20 := by unfold decayRate; norm_num
  have h36 : (2 : ℝ) ^ (-36 : ℤ) ≤ 1 / 10 ^ 10 := by norm_num
  obtain ⟨Y, hY, -, hl, -⟩ := C106_open_loop h
    { SpringDamper.create d (rnd (1 / 100)) 1 none (rnd (1 / 1000)) with goalY := goal } (c := 2) (runT := 1)
    (h.isDouble _) (h.isDouble _) (by show 0 < rnd (1 / 100); linarith) (by show 0 < rnd (1 / 1000); linarith)
    (by show (0 : ℝ) < 1; norm_num) (by norm_num) hc
    (by show 2 * rnd (1 / 1000) * (2 * 1 + 2 ^ 2) * (1 + 2 ^ 2) ≤ 1 * 2; linarith)
    (by show _ ≤ decayRate 1 2 * rnd (1 / 1000); rw [hr]; linarith)
    (by show _ ≤ decayRate 1 2 * rnd (1 / 100); rw [hr]; linarith)
    (by show rnd (1 / 100) ≤ 2 ^ 40 * rnd (1 / 1000); linarith)
    isDouble_one (by norm_num)
    (by show 1 + rnd (1 / 100) ≤ 2 ^ 42 * rnd (1 / 100); linarith)
    (by show 1 + 2 * rnd (1 / 100) ≤ 2 ^ 42 * rnd (1 / 1000); linarith)
  refine ⟨Y, hY, ?_⟩
  have h99 : (99 : ℝ) ≤ 1 / rnd (1 / 100) := by rw [le_div_iff₀ (by linarith)]; linarith
  exact_mod_cast h99.trans hl

end Verif
