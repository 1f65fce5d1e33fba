import Verif.Lemmas.FloatRk4
import Verif.Props.FloatDmp

/-!
# C106: DMPs reach their goals in double precision, with the Runge-Kutta method
-/

namespace Verif
open Spec

variable {d m : ℕ}

/-- Accelerations without coupling terms. -/
theorem acc_free {o : FloatOps d} (h : IsRounding o.rnd) (a : StepArgs d m) (hcp : a.coupling = none) (hpre : a.precomputed = none)
    {tdd : Vec d} (htdd : tdd = 0) (t : ℝ) (s : Vec d × Vec d) (i : Fin d) :
    o.acc a (o.initialCdd a) tdd t s i = o.rnd (o.springForce a t s i / o.sq (o.rnd (a.goalT - a.startT))) := by
  have hround : ∀ x : ℝ, o.rnd (o.rnd x) = o.rnd x := fun x => h.of_isDouble (h.isDouble x)
  have hsf : o.rnd (o.springForce a t s i) = o.springForce a t s i := hround _
  unfold FloatOps.acc FloatOps.initialCdd
  rw [hcp, hpre, htdd]
  simp only [Pi.zero_apply, add_zero, hsf]

/-- Additive part of the error of a call. -/
noncomputable def rk4StepError (slow fast α β τ dt g Φ : ℝ) : ℝ :=
  fast / slow * (14 * (dt * (Φ / τ ^ 2) / fast) + 2400 * (2 : ℝ) ^ (-53 : ℤ) * |g| +
    2400 * (2 : ℝ) ^ (-1074 : ℤ) * (1 + 1 / fast + (2 * (α * (β + 4) + 2) / τ ^ 2 + 2) / fast ^ 2))

/-- One call of a step function from time `T` to time `T'`. -/
theorem rk4Fl_decay {o : FloatOps d} (h : IsRounding o.rnd) {sf : StepFunction} (hsf : sf = .rk4 ∨ sf = .rk4Cython) (a : StepArgs d m)
    (hcp : a.coupling = none) (hpre : a.precomputed = none) (hp : a.pGain = 0) (hst : a.startT = 0) (hτ : 0 < a.goalT)
    (hτe : IsDouble a.goalT) (hsq : |o.sq a.goalT - a.goalT ^ 2| ≤ (2 : ℝ) ^ (-52 : ℤ) * a.goalT ^ 2) {i : Fin d}
    (hα : 0 < a.alphaY i) (hβ : 0 < a.betaY i) {slow fast Φ : ℝ} (hrates : IsDecayRates slow fast (a.alphaY i) (a.betaY i) a.goalT)
    {dt T T' : ℝ} (hdt : (2 : ℝ) ^ (-1000 : ℤ) ≤ dt) (h1 : dt * fast ≤ 9 / 10) (h2 : (2 : ℝ) ^ (-36 : ℤ) * fast ≤ dt * slow ^ 2)
    (hT : IsDouble T) (hT' : IsDouble T') (hD : |T' - T - dt| ≤ dt / 256)
    (hΦ : ∀ t, T < t → |o.force t i| + a.alphaY i * |o.smoothing a t i| ≤ Φ) (s : Vec d × Vec d) :
    ∃ s', sf.runFl o a T T' s = .ok s' ∧
      rkNorm (slow / fast) (s'.1 i - a.goalY i) (s'.2 i / fast) ≤
        Real.exp (-(slow * dt / 5)) * rkNorm (slow / fast) (s.1 i - a.goalY i) (s.2 i / fast) +
          rk4StepError slow fast (a.alphaY i) (a.betaY i) a.goalT dt (a.goalY i) Φ := by
  obtain ⟨hs, hsf', hsum, hprod⟩ := hrates
  have hf : 0 < fast := hs.trans_le hsf'
  have hdt0 : 0 < dt := lt_of_lt_of_le (by positivity) hdt
  have hu0 : (0 : ℝ) ≤ (2 : ℝ) ^ (-53 : ℤ) := by positivity
  have hu1 : (2 : ℝ) ^ (-53 : ℤ) ≤ 1 / 10 ^ 6 := by norm_num
  have hu2 : (2 : ℝ) ^ (-53 : ℤ) ≤ 1 / 1000 := by norm_num
  have hw0 : (0 : ℝ) ≤ (2 : ℝ) ^ (-1074 : ℤ) := by positivity
  have hr := h.rounds
  have r0 := h.of_isDouble isDouble_zero
  have hD' := abs_le.1 hD
  -- the step size
  set z := o.rnd (T' - T) with hz
  have hzd : |z - dt| ≤ dt / 200 := by
    have e1 := h.sub_error hT' hT
    rw [← hz] at e1
    have e2 : |T' - T| ≤ 2 * dt := by rw [abs_le]; constructor <;> linarith
    have e3 := mul_le_mul hu1 e2 (abs_nonneg _) (by norm_num)
    have e4 := abs_add_le (z - (T' - T)) (T' - T - dt)
    rw [sub_add_sub_cancel] at e4
    generalize (2 : ℝ) ^ (-53 : ℤ) = u at *
    linarith
  have hzd' := abs_le.1 hzd
  have hz0 : 0 < z := by linarith
  have hzD : IsDouble z := h.isDouble _
  have hz2 : o.rnd (1 / 2 * z) = z / 2 := by
    rw [h.of_isDouble (isDouble_half_mul hzD ?_)]
    · ring
    · have e1 : (2 : ℝ) ^ (-1020 : ℤ) ≤ 1 / 2 * (2 : ℝ) ^ (-1000 : ℤ) := by
        rw [show (1 / 2 : ℝ) = (2 : ℝ) ^ (-1 : ℤ) by norm_num, ← zpow_add₀ (by norm_num)]
        exact zpow_le_zpow_right₀ (by norm_num) (by norm_num)
      linarith
  have hz6 : |o.rnd (z / 6) - z / 6| ≤ 2 * (2 : ℝ) ^ (-53 : ℤ) * (z / 6) := by
    have e1 := hr (z / 6)
    rw [abs_of_pos (show 0 < z / 6 by linarith)] at e1
    have e2 : (2 : ℝ) ^ (-1074 : ℤ) ≤ (2 : ℝ) ^ (-53 : ℤ) * (z / 6) := by
      have e3 : (2 : ℝ) ^ (-1021 : ℤ) ≤ (2 : ℝ) ^ (-20 : ℤ) * (2 : ℝ) ^ (-1000 : ℤ) := by
        rw [← zpow_add₀ (by norm_num)]
        exact zpow_le_zpow_right₀ (by norm_num) (by norm_num)
      have e4 : (2 : ℝ) ^ (-20 : ℤ) ≤ 1 / 10 := by norm_num
      have e5 : (2 : ℝ) ^ (-20 : ℤ) * (2 : ℝ) ^ (-1000 : ℤ) ≤ 1 / 10 * (2 : ℝ) ^ (-1000 : ℤ) :=
        mul_le_mul_of_nonneg_right e4 (by positivity)
      have e6 : (2 : ℝ) ^ (-1021 : ℤ) ≤ z / 6 := by
        refine e3.trans (e5.trans ?_)
        clear e3 e5
        generalize (2 : ℝ) ^ (-1000 : ℤ) = v at *
        linarith
      have e7 := mul_le_mul_of_nonneg_left e6 hu0
      rw [← zpow_add₀ (by norm_num), show (-53 : ℤ) + -1021 = -1074 by norm_num] at e7
      exact e7
    generalize (2 : ℝ) ^ (-53 : ℤ) = u at *
    generalize (2 : ℝ) ^ (-1074 : ℤ) = w at *
    linarith
  have hTT' : T < T' := by linarith
  -- the accelerations
  have hτe' : o.rnd (a.goalT - a.startT) = a.goalT := by rw [hst, sub_zero, h.of_isDouble hτe]
  have hsq' : |o.sq a.goalT - a.goalT ^ 2| ≤ 2 * (2 : ℝ) ^ (-53 : ℤ) * a.goalT ^ 2 := by
    refine hsq.trans (le_of_eq ?_)
    norm_num
  have hΦ0 : 0 ≤ Φ := le_trans (by positivity) (hΦ (T + 1) (by linarith))
  set Z := 2 * (a.alphaY i * (a.betaY i + 4) + 2) / a.goalT ^ 2 + 1 with hZ
  have hZ0 : 0 ≤ Z := by positivity
  have hF : ∀ t, T < t → |(o.force t i - a.alphaY i * o.smoothing a t i) / a.goalT ^ 2| ≤ Φ / a.goalT ^ 2 := by
    intro t ht
    rw [abs_div, abs_of_pos (show 0 < a.goalT ^ 2 by positivity)]
    refine div_le_div_of_nonneg_right ((abs_sub _ _).trans ?_) (by positivity)
    rw [abs_mul, abs_of_pos hα]
    exact hΦ t ht
  have hacc : ∀ (tdd : Vec d), tdd = 0 → ∀ t, T < t → ∀ x : Vec d × Vec d, |o.acc a (o.initialCdd a) tdd t x i -
      (-(slow * fast) * (x.1 i - a.goalY i) - (slow + fast) * x.2 i + (o.force t i - a.alphaY i * o.smoothing a t i) / a.goalT ^ 2)| ≤
      10 * (2 : ℝ) ^ (-53 : ℤ) * (slow * fast * |x.1 i - a.goalY i| + (slow + fast) * |x.2 i|) +
        (10 * (2 : ℝ) ^ (-53 : ℤ) * (Φ / a.goalT ^ 2) + Z * (2 : ℝ) ^ (-1074 : ℤ)) := by
    intro tdd htdd t ht x
    have ha := dmp_acceleration hr hu0 hu2 hw0 hα hβ hτ hsq' (a.goalY i) (x.1 i) (x.2 i) (o.smoothing a t i) (o.force t i)
    rw [← hprod, ← hsum, ← hZ] at ha
    rw [acc_free h a hcp hpre htdd, hτe']
    unfold FloatOps.springForce
    rw [hτe']
    refine ha.trans (add_le_add le_rfl (add_le_add ?_ le_rfl))
    exact mul_le_mul_of_nonneg_left (div_le_div_of_nonneg_right (hΦ t ht) (by positivity)) (by positivity)
  have ht1 : T < o.rnd (T' + o.rnd (1 / 2 * z)) := by
    refine lt_of_lt_of_le hTT' (h.ge_of_isDouble hT' ?_)
    rw [hz2]; linarith
  have ht2 : T < o.rnd (T' + z) := lt_of_lt_of_le hTT' (h.ge_of_isDouble hT' (by linarith))
  -- all stages
  have key : ∀ (tdd : Vec d), tdd = 0 → _ := fun tdd htdd =>
    rk4_unscaled (rnd := o.rnd) hr hu0 hu1 hw0 (slow := slow) (fast := fast) (h := z) (h6 := o.rnd (z / 6)) (Φ := Φ / a.goalT ^ 2) (Z := Z)
      (W := (2 : ℝ) ^ (-1021 : ℤ) * (1 + 1 / fast + (Z + 1) / fast ^ 2)) hs hsf' hz0.le
      (by
        have := mul_le_mul_of_nonneg_right (show z ≤ 201 / 200 * dt by linarith) hf.le
        linarith) hz6 (by positivity) hZ0 (by positivity)
      (by
        rw [← mul_assoc, ← zpow_add₀ (by norm_num), show (-53 : ℤ) + -1021 = -1074 by norm_num])
      (y := s.1 i) (g := a.goalY i) (v := s.2 i)
      (hF T' hTT') (hF _ ht1) (hF _ ht1) (hF _ ht2)
      (K0 := (o.stages a tdd z T' s).K0 i) (hacc tdd htdd T' hTT' s)
      (V1 := (o.stages a tdd z T' s).C1 i) (by rw [← hz2]; rfl) (Y1 := o.axpy (o.rnd (1 / 2 * z)) s.1 s.2 i) (by rw [← hz2]; rfl)
      (K1 := (o.stages a tdd z T' s).K1 i) (hacc tdd htdd _ ht1 (_, _))
      (V2 := (o.stages a tdd z T' s).C2 i) (by rw [← hz2]; rfl)
      (Y2 := o.axpy (o.rnd (1 / 2 * z)) s.1 (o.stages a tdd z T' s).C1 i) (by rw [← hz2]; rfl)
      (K2 := (o.stages a tdd z T' s).K2 i) (hacc tdd htdd _ ht1 (_, _))
      (V3 := (o.stages a tdd z T' s).C3 i) rfl
      (Y3 := o.axpy z s.1 (o.stages a tdd z T' s).C2 i) rfl
      (K3 := (o.stages a tdd z T' s).K3 i) (hacc tdd htdd _ ht2 (_, _))
  have hnum := rk4_numbers (u := (2 : ℝ) ^ (-53 : ℤ)) (slow := slow) (fast := fast) (dt := dt) (h := z)
    (N := rkNorm (slow / fast) (s.1 i - a.goalY i) (s.2 i / fast)) (G := |a.goalY i|)
    (W := (2 : ℝ) ^ (-1021 : ℤ) * (1 + 1 / fast + (Z + 1) / fast ^ 2)) (Φ := Φ / a.goalT ^ 2) hu0 hs hsf' hzd hdt0
    (by
      have e1 : 38400 * (2 : ℝ) ^ (-53 : ℤ) ≤ 199 / 200 * (2 : ℝ) ^ (-36 : ℤ) := by norm_num
      have e2 := mul_le_mul_of_nonneg_right e1 hf.le
      have e3 := mul_le_mul_of_nonneg_right (show 199 / 200 * dt ≤ z by linarith) (show 0 ≤ slow ^ 2 by positivity)
      generalize (2 : ℝ) ^ (-53 : ℤ) = u at *
      generalize (2 : ℝ) ^ (-36 : ℤ) = u' at *
      linarith) (rkNorm_nonneg _ _ _) (by positivity)
  have hE : fast / slow * (14 * (dt * (Φ / a.goalT ^ 2) / fast) + 2400 * ((2 : ℝ) ^ (-53 : ℤ) * (|a.goalY i| +
      (2 : ℝ) ^ (-1021 : ℤ) * (1 + 1 / fast + (Z + 1) / fast ^ 2)))) =
      rk4StepError slow fast (a.alphaY i) (a.betaY i) a.goalT dt (a.goalY i) Φ := by
    unfold rk4StepError
    rw [show (2 : ℝ) ^ (-1074 : ℤ) = (2 : ℝ) ^ (-53 : ℤ) * (2 : ℝ) ^ (-1021 : ℤ) by
      rw [← zpow_add₀ (by norm_num)]; norm_num, hZ]
    generalize (2 : ℝ) ^ (-53 : ℤ) = u
    generalize (2 : ℝ) ^ (-1021 : ℤ) = w
    ring
  rw [hE] at hnum
  rcases hsf with rfl | rfl
  · have htdd : (fun j => o.rnd (o.rnd (a.pGain * a.trackingError j) / z) : Vec d) = 0 := by
      funext j
      rw [hp, zero_mul, r0, zero_div, r0]; rfl
    refine ⟨_, rfl, ?_⟩
    have k := (key _ htdd).1
    unfold FloatOps.addCd
    rw [hcp]
    exact k.trans hnum
  · have htdd : (fun j => o.rnd (o.rnd (a.pGain / z) * a.trackingError j) : Vec d) = 0 := by
      funext j
      rw [hp, zero_div, r0, zero_mul, r0]; rfl
    refine ⟨_, rfl, ?_⟩
    have k := (key _ htdd).2
    unfold FloatOps.addCd
    rw [hcp]
    exact k.trans hnum

/-- Calls of `step`. -/
theorem rk4_calls {o : FloatOps d} (h : IsRounding o.rnd) {sf : StepFunction} (hsf : sf = .rk4 ∨ sf = .rk4Cython) {i : Fin d}
    {slow fast : ℝ} (Φ X : ℕ → ℝ) :
    ∀ (args : List (Vec d × Vec d)) (m0 : ℕ) (s : DMP d m), s.t = clockFl o.rnd s.dt m0 → IsDouble s.dt →
    IsDouble s.executionTime → (2 : ℝ) ^ (-1000 : ℤ) ≤ s.dt → 0 < s.executionTime →
    |o.sq s.executionTime - s.executionTime ^ 2| ≤ (2 : ℝ) ^ (-52 : ℤ) * s.executionTime ^ 2 → s.pGain = 0 →
    0 < s.alphaY i → 0 < s.betaY i → IsDecayRates slow fast (s.alphaY i) (s.betaY i) s.executionTime →
    s.dt * fast ≤ 9 / 10 → (2 : ℝ) ^ (-36 : ℤ) * fast ≤ s.dt * slow ^ 2 → m0 + args.length ≤ 2 ^ 43 →
    (∀ n t, m0 ≤ n → n < m0 + args.length → clockFl o.rnd s.dt n < t →
      |o.force t i| + s.alphaY i * |o.smoothing (s.stepArgs none 0) t i| ≤ Φ n) →
    (∀ n, m0 ≤ n → n < m0 + args.length → Real.exp (-(slow * s.dt / 5)) * X n +
      rk4StepError slow fast (s.alphaY i) (s.betaY i) s.executionTime s.dt (s.goalY i) (Φ n) ≤ X (n + 1)) →
    rkNorm (slow / fast) ((if s.initialized then s.currentY else s.startY) i - s.goalY i)
      ((if s.initialized then s.currentYd else s.startYd) i / fast) ≤ X m0 →
    ∃ out s', (calls (DMP.stepFl o none sf) args).exec s = (.ok out, s') ∧ out.length = args.length ∧
      ∀ j (hj : j < out.length), rkNorm (slow / fast) (out[j].1 i - s.goalY i) (out[j].2 i / fast) ≤ X (m0 + j + 1)
  | [], _, s => fun _ _ _ _ _ _ _ _ _ _ _ _ _ _ _ _ => ⟨[], s, rfl, rfl, by intro j hj; simp at hj⟩
  | x :: args, m0, s => by
    intro ht hd hτe hdt hτ hsq hp hα hβ hrates h1 h2 hn hΦ hX hx
    rw [List.length_cons] at hn
    have hdt0 : 0 < s.dt := lt_of_lt_of_le (by positivity) hdt
    have hm0 : clockFl o.rnd s.dt m0 ≤ 2 * ((m0 : ℕ) * s.dt) := clock_le h hd hdt0 (by omega)
    have e44 : (2 : ℝ) ^ (-44 : ℤ) * (2 * (2 : ℝ) ^ 43) = 1 := by norm_num
    have hbig' : (2 : ℝ) ^ (-44 : ℤ) * clockFl o.rnd s.dt m0 ≤ s.dt := by
      have a1 : ((m0 : ℕ) : ℝ) * s.dt ≤ (2 : ℝ) ^ 43 * s.dt :=
        mul_le_mul_of_nonneg_right (by exact_mod_cast (by omega : m0 ≤ 2 ^ 43)) hdt0.le
      have a2 : clockFl o.rnd s.dt m0 ≤ 2 * (2 : ℝ) ^ 43 * s.dt := by
        clear hdt
        linarith
      have := mul_le_mul_of_nonneg_left a2 (show (0 : ℝ) ≤ (2 : ℝ) ^ (-44 : ℤ) by positivity)
      rw [← mul_assoc, e44, one_mul] at this
      exact this
    have hT := isDouble_clock h (dt := s.dt) m0
    have hT0 := clock_nonneg h hdt0.le m0
    have hadv := clock_advance h hd hT hdt0 hT0 hbig'
    obtain ⟨r, hr, hrN⟩ := rk4Fl_decay h hsf ((s.beginStepFl o.rnd).stepArgs none
        (fun i => o.rnd ((s.beginStepFl o.rnd).currentY i - x.1 i))) rfl rfl hp rfl hτ hτe hsq hα hβ hrates hdt h1 h2 hT
      (isDouble_clock h (dt := s.dt) (m0 + 1)) hadv (Φ := Φ m0) (fun t htt => hΦ m0 t le_rfl (by simp) htt)
      ((s.beginStepFl o.rnd).currentY, (s.beginStepFl o.rnd).currentYd)
    have hcur : ((s.beginStepFl o.rnd).currentY, (s.beginStepFl o.rnd).currentYd) =
        (if s.initialized then s.currentY else s.startY, if s.initialized then s.currentYd else s.startYd) := rfl
    rw [hcur] at hr hrN
    have hrec : rkNorm (slow / fast) (r.1 i - s.goalY i) (r.2 i / fast) ≤ X (m0 + 1) := by
      refine hrN.trans (le_trans ?_ (hX m0 le_rfl (by simp)))
      exact add_le_add (mul_le_mul_of_nonneg_left hx (Real.exp_pos _).le) le_rfl
    obtain ⟨out, s', he, hl, ho⟩ := rk4_calls h hsf Φ X args (m0 + 1)
      { s.beginStepFl o.rnd with currentY := r.1, currentYd := r.2 }
      (by show o.rnd (s.t + s.dt) = _; rw [ht]; rfl) hd hτe hdt hτ hsq hp hα hβ hrates h1 h2 (by omega)
      (fun n t hn hl htt => hΦ n t (by omega) (by rw [List.length_cons]; omega) htt)
      (fun n hn hl => hX n (by omega) (by rw [List.length_cons]; omega))
      hrec
    refine ⟨r :: out, s', ?_, by simp [hl], ?_⟩
    · rw [calls, Py.exec_bind, DMP.exec_stepFl]
      have : sf.runFl o ((s.beginStepFl o.rnd).stepArgs none (fun i => o.rnd ((s.beginStepFl o.rnd).currentY i - x.1 i))) s.t
          (o.rnd (s.t + s.dt)) ((s.beginStepFl o.rnd).currentY, (s.beginStepFl o.rnd).currentYd) = .ok r := by
        rw [hcur, ht]; exact hr
      rw [this]
      simp only [DMP.finishStep]
      rw [Py.exec_bind, he]
      rfl
    · intro j hj
      cases j with
      | zero => exact hrec
      | succ j =>
        have := ho j (by simpa using hj)
        rw [show m0 + (j + 1) + 1 = m0 + 1 + j + 1 by omega]
        exact this

theorem rkNorm_le_deviation {slow fast : ℝ} (hs : 0 < slow) (hf : 0 < fast) (e v : ℝ) :
    rkNorm (slow / fast) e (v / fast) ≤ 2 * |e| + 2 / slow * |v| := by
  have hv : 0 ≤ 2 / slow * |v| := by positivity
  refine rkNorm_le (by positivity) (by linarith [abs_nonneg e]) ?_
  refine (abs_add_le _ _).trans (le_of_eq ?_)
  rw [abs_div, abs_mul, abs_div, abs_of_pos hs, abs_of_pos hf]
  field_simp
  ring

theorem bounds_of_rkNorm {slow fast : ℝ} (hs : 0 < slow) (hf : 0 < fast) {e v M : ℝ} (h : rkNorm (slow / fast) e (v / fast) ≤ M) :
    |e| ≤ M ∧ |v| ≤ 3 / 2 * slow * M := by
  refine ⟨(abs_le_rkNorm _ _ _).trans h, ?_⟩
  have h1 := rkNorm_velocity (show 0 < slow / fast by positivity) e (v / fast)
  rw [abs_div, abs_of_pos hf, div_le_iff₀ hf] at h1
  refine h1.trans ?_
  have h2 := mul_le_mul_of_nonneg_left h hs.le
  have e1 : 3 / 2 * (slow / fast * rkNorm (slow / fast) e (v / fast)) * fast = 3 / 2 * (slow * rkNorm (slow / fast) e (v / fast)) := by
    field_simp
  rw [e1]
  linarith

theorem rk4Floor_eq {slow dt : ℝ} (hs : 0 < slow) (hdt : 0 < dt) (fast α β τ g Φ : ℝ) :
    rk4Floor slow fast α β τ dt g Φ = rk4StepError slow fast α β τ dt g Φ * (1 + 1 / (slow * dt / 5)) := by
  unfold rk4Floor rk4StepError
  rw [show 1 / (slow * dt / 5) = 5 / (slow * dt) by field_simp, mul_comm]

theorem rk4StepError_nonneg {slow fast α β τ dt Φ : ℝ} (hs : 0 < slow) (hf : 0 < fast) (hα : 0 < α) (hβ : 0 < β) (hdt : 0 < dt)
    (hΦ : 0 ≤ Φ) (g : ℝ) : 0 ≤ rk4StepError slow fast α β τ dt g Φ := by
  unfold rk4StepError
  positivity

/-- C106: the calls of `DMP.step` with the Runge-Kutta method (the default), in Python or in Cython, computed in double precision with
any arguments, return, and position and velocity of each dimension decay to the goal up to rounding errors and up to the size `force` of
the forces that the forcing term (as computed) still exerts. The object may have any state and any number `m0` of calls may have been
made before. `slow` and `fast` are the rates at which solutions of the differential equation decay. -/
theorem C106_rk4_step {o : FloatOps d} (h : IsRounding o.rnd) {sf : StepFunction} (hsf : sf = .rk4 ∨ sf = .rk4Cython) (s : DMP d m)
    (args : List (Vec d × Vec d)) (m0 : ℕ) (i : Fin d) {slow fast force : ℝ} (ht : s.t = clockFl o.rnd s.dt m0) (hd : IsDouble s.dt)
    (hτe : IsDouble s.executionTime) (hdt : (2 : ℝ) ^ (-1000 : ℤ) ≤ s.dt) (hτ : 0 < s.executionTime)
    (hsq : |o.sq s.executionTime - s.executionTime ^ 2| ≤ (2 : ℝ) ^ (-52 : ℤ) * s.executionTime ^ 2) (hp : s.pGain = 0)
    (hα : 0 < s.alphaY i) (hβ : 0 < s.betaY i) (hrates : IsDecayRates slow fast (s.alphaY i) (s.betaY i) s.executionTime)
    (h1 : s.dt * fast ≤ 9 / 10) (h2 : (2 : ℝ) ^ (-36 : ℤ) * fast ≤ s.dt * slow ^ 2) (hn : m0 + args.length ≤ 2 ^ 43)
    (hforce : ∀ t, s.t < t → |o.force t i| + s.alphaY i * |o.smoothing (s.stepArgs none 0) t i| ≤ force) :
    ∃ out s', (calls (DMP.stepFl o none sf) args).exec s = (.ok out, s') ∧ out.length = args.length ∧
      ∀ j (hj : j < out.length),
        |out[j].1 i - s.goalY i| ≤ Real.exp (-(slow * s.dt / 5 * (j + 1 : ℕ))) *
          (2 * |(if s.initialized then s.currentY else s.startY) i - s.goalY i| +
            2 / slow * |(if s.initialized then s.currentYd else s.startYd) i|) +
          rk4Floor slow fast (s.alphaY i) (s.betaY i) s.executionTime s.dt (s.goalY i) force ∧
        |out[j].2 i| ≤ 3 / 2 * slow * (Real.exp (-(slow * s.dt / 5 * (j + 1 : ℕ))) *
          (2 * |(if s.initialized then s.currentY else s.startY) i - s.goalY i| +
            2 / slow * |(if s.initialized then s.currentYd else s.startYd) i|) +
          rk4Floor slow fast (s.alphaY i) (s.betaY i) s.executionTime s.dt (s.goalY i) force) := by
  have hs := hrates.1
  have hf : 0 < fast := hs.trans_le hrates.2.1
  have hdt0 : 0 < s.dt := lt_of_lt_of_le (by positivity) hdt
  have hΦ0 : 0 ≤ force := le_trans (by positivity) (hforce (s.t + 1) (by linarith))
  have hE := rk4StepError_nonneg hs hf hα hβ hdt0 hΦ0 (s.goalY i) (τ := s.executionTime)
  have hB : 0 ≤ rk4Floor slow fast (s.alphaY i) (s.betaY i) s.executionTime s.dt (s.goalY i) force := by
    rw [rk4Floor_eq hs hdt0]; positivity
  set N0 := 2 * |(if s.initialized then s.currentY else s.startY) i - s.goalY i| +
    2 / slow * |(if s.initialized then s.currentYd else s.startYd) i| with hN0
  obtain ⟨out, s', he, hl, ho⟩ := rk4_calls h hsf (i := i) (fun _ => force)
    (fun n => Real.exp (-(slow * s.dt / 5 * (n - m0 : ℕ))) * N0 +
      rk4Floor slow fast (s.alphaY i) (s.betaY i) s.executionTime s.dt (s.goalY i) force)
    args m0 s ht hd hτe hdt hτ hsq hp hα hβ hrates h1 h2 hn
    (fun n t hmn _ htt => hforce t (by rw [ht]; exact lt_of_le_of_lt (clock_mono h hdt0.le hmn) htt))
    (fun n hmn _ => by
      rw [show n + 1 - m0 = n - m0 + 1 by omega]
      exact decay_floor (by positivity) (rk4Floor_eq hs hdt0 _ _ _ _ _ _) hE le_rfl le_rfl)
    (by
      have := rkNorm_le_deviation hs hf ((if s.initialized then s.currentY else s.startY) i - s.goalY i)
        ((if s.initialized then s.currentYd else s.startYd) i)
      have e : Real.exp (-(slow * s.dt / 5 * (m0 - m0 : ℕ))) = 1 := by simp
      rw [e, one_mul]
      linarith)
  refine ⟨out, s', he, hl, fun j hj => ?_⟩
  have := ho j hj
  rw [show m0 + j + 1 - m0 = j + 1 by omega] at this
  exact bounds_of_rkNorm hs hf this

/-- C106: a new `DMP` reaches its goal in double precision with the Runge-Kutta method: if the forces that the forcing term (as
computed) exerts decay exponentially, then so does the deviation of position and velocity, up to rounding errors. -/
theorem C106_rk4_reaches {o : FloatOps d} (h : IsRounding o.rnd) {sf : StepFunction} (hsf : sf = .rk4 ∨ sf = .rk4Cython) (s : DMP d m)
    (args : List (Vec d × Vec d)) (i : Fin d) {slow fast P rate : ℝ} (ht : s.t = 0) (hd : IsDouble s.dt)
    (hτe : IsDouble s.executionTime) (hdt : (2 : ℝ) ^ (-1000 : ℤ) ≤ s.dt) (hτ : 0 < s.executionTime)
    (hsq : |o.sq s.executionTime - s.executionTime ^ 2| ≤ (2 : ℝ) ^ (-52 : ℤ) * s.executionTime ^ 2) (hp : s.pGain = 0)
    (hα : 0 < s.alphaY i) (hβ : 0 < s.betaY i) (hrates : IsDecayRates slow fast (s.alphaY i) (s.betaY i) s.executionTime)
    (h1 : s.dt * fast ≤ 9 / 10) (h2 : (2 : ℝ) ^ (-36 : ℤ) * fast ≤ s.dt * slow ^ 2) (hn : args.length ≤ 2 ^ 43)
    (hrate0 : 0 < rate) (hrate : 10 * rate ≤ slow)
    (hforce : ∀ t, 0 < t → |o.force t i| + s.alphaY i * |o.smoothing (s.stepArgs none 0) t i| ≤ P * Real.exp (-(2 * rate * t))) :
    ∃ out s', (calls (DMP.stepFl o none sf) args).exec s = (.ok out, s') ∧ out.length = args.length ∧
      ∀ j (hj : j < out.length),
        |out[j].1 i - s.goalY i| ≤ Real.exp (-(rate * s.dt * (j + 1 : ℕ))) *
          (2 * |(if s.initialized then s.currentY else s.startY) i - s.goalY i| +
            2 / slow * |(if s.initialized then s.currentYd else s.startYd) i| +
            Real.exp (2 * (rate * s.dt)) / rate * (14 * P / (slow * s.executionTime ^ 2))) +
          rk4Floor slow fast (s.alphaY i) (s.betaY i) s.executionTime s.dt (s.goalY i) 0 ∧
        |out[j].2 i| ≤ 3 / 2 * slow * (Real.exp (-(rate * s.dt * (j + 1 : ℕ))) *
          (2 * |(if s.initialized then s.currentY else s.startY) i - s.goalY i| +
            2 / slow * |(if s.initialized then s.currentYd else s.startYd) i| +
            Real.exp (2 * (rate * s.dt)) / rate * (14 * P / (slow * s.executionTime ^ 2))) +
          rk4Floor slow fast (s.alphaY i) (s.betaY i) s.executionTime s.dt (s.goalY i) 0) := by
  have hs := hrates.1
  have hf : 0 < fast := hs.trans_le hrates.2.1
  have hdt0 : 0 < s.dt := lt_of_lt_of_le (by positivity) hdt
  have hP0 : 0 ≤ P := by
    have := le_trans (by positivity) (hforce 1 (by norm_num))
    exact nonneg_of_mul_nonneg_left this (Real.exp_pos _)
  have hE := rk4StepError_nonneg hs hf hα hβ hdt0 le_rfl (s.goalY i) (τ := s.executionTime)
  set B := rk4Floor slow fast (s.alphaY i) (s.betaY i) s.executionTime s.dt (s.goalY i) 0 with hBdef
  have hB : 0 ≤ B := by
    rw [hBdef, rk4Floor_eq hs hdt0]; positivity
  set N0 := 2 * |(if s.initialized then s.currentY else s.startY) i - s.goalY i| +
    2 / slow * |(if s.initialized then s.currentYd else s.startYd) i| with hN0
  have hN00 : 0 ≤ N0 := by rw [hN0]; positivity
  set b1 := s.dt * (14 * P / (slow * s.executionTime ^ 2)) with hb1
  have hb10 : 0 ≤ b1 := by positivity
  have eC : Real.exp (2 * (rate * s.dt)) / rate * (14 * P / (slow * s.executionTime ^ 2)) =
      Real.exp (2 * (rate * s.dt)) / (rate * s.dt) * b1 := by
    rw [hb1]; field_simp
  rw [eC]
  set C := N0 + Real.exp (2 * (rate * s.dt)) / (rate * s.dt) * b1 with hC
  have hfl : Real.exp (-(slow * s.dt / 5)) * B +
      rk4StepError slow fast (s.alphaY i) (s.betaY i) s.executionTime s.dt (s.goalY i) 0 ≤ B := by
    have := decay_floor (a := slow * s.dt / 5) (N := 0) (j := 0) (by positivity)
      (rk4Floor_eq hs hdt0 fast (s.alphaY i) (s.betaY i) s.executionTime (s.goalY i) 0) hE (by rw [mul_zero, zero_add]) le_rfl
    rw [mul_zero, zero_add] at this
    exact this
  obtain ⟨out, s', he, hl, ho⟩ := rk4_calls h hsf (i := i) (fun n => P * Real.exp (-(rate * s.dt * n)))
    (fun n => Real.exp (-(rate * s.dt * n)) * C + B)
    args 0 s ht hd hτe hdt hτ hsq hp hα hβ hrates h1 h2 (by omega)
    (fun n t _ hn1 htt => by
      have hcl := le_clock h hd hdt0 (n := n) (by omega)
      refine (hforce t (lt_of_le_of_lt (clock_nonneg h hdt0.le n) htt)).trans (mul_le_mul_of_nonneg_left ?_ hP0)
      apply Real.exp_le_exp.2
      clear hdt h2 hsq
      have : rate * (n * s.dt) ≤ rate * (2 * t) := mul_le_mul_of_nonneg_left (by linarith) hrate0.le
      linarith)
    (fun n _ _ => by
      have key := decaying_force (a := rate * s.dt) (ρ := Real.exp (-(slow * s.dt / 5))) (C := C) (B := B)
        (b0 := rk4StepError slow fast (s.alphaY i) (s.betaY i) s.executionTime s.dt (s.goalY i) 0) (b1 := b1)
        (by positivity) (Real.exp_le_exp.2 (by
          have := mul_le_mul_of_nonneg_right hrate hdt0.le
          clear hdt h2 hsq
          linarith)) hfl (by rw [hC]; linarith) hb10 n
      refine le_trans (le_of_eq ?_) key
      have e : rk4StepError slow fast (s.alphaY i) (s.betaY i) s.executionTime s.dt (s.goalY i) (P * Real.exp (-(rate * s.dt * n))) =
          rk4StepError slow fast (s.alphaY i) (s.betaY i) s.executionTime s.dt (s.goalY i) 0 + b1 * Real.exp (-(rate * s.dt * n)) := by
        rw [hb1]
        unfold rk4StepError
        generalize (2 : ℝ) ^ (-1074 : ℤ) = w
        generalize (2 : ℝ) ^ (-53 : ℤ) = u
        field_simp
        ring
      rw [e])
    (by
      have := rkNorm_le_deviation hs hf ((if s.initialized then s.currentY else s.startY) i - s.goalY i)
        ((if s.initialized then s.currentYd else s.startYd) i)
      have e : Real.exp (-(rate * s.dt * (0 : ℕ))) = 1 := by simp
      rw [e, one_mul, hC]
      have : 0 ≤ Real.exp (2 * (rate * s.dt)) / (rate * s.dt) * b1 := by positivity
      linarith)
  refine ⟨out, s', he, hl, fun j hj => ?_⟩
  have := ho j hj
  rw [show 0 + j + 1 = j + 1 by omega] at this
  exact bounds_of_rkNorm hs hf this

/-- Numbers of the default values. -/
theorem default_rk4_numbers {δ P : ℝ} (hd : |δ - 1 / 100| ≤ 1 / 10 ^ 9) (hP0 : 0 ≤ P) (n : ℕ) (e v g : ℝ) :
    Real.exp (-(5 / 4 * δ * n)) * (2 * |e| + 2 / (25 / 2) * |v| + Real.exp (2 * (5 / 4 * δ)) / (5 / 4) * (14 * P / (25 / 2 * 1 ^ 2))) +
      rk4Floor (25 / 2) (25 / 2) 25 (25 / 4) 1 δ g 0 ≤
      Real.exp (-(n / 81)) * (2 * |e| + 1 / 5 * |v| + P) + 1 / 10 ^ 10 * |g| + (2 : ℝ) ^ (-1054 : ℤ) := by
  have hd' := abs_le.1 hd
  have hδ0 : 0 < δ := by linarith
  have e2 : (2 : ℝ) ^ 20 * (2 : ℝ) ^ (-1074 : ℤ) = (2 : ℝ) ^ (-1054 : ℤ) := by
    rw [← zpow_natCast, ← zpow_add₀ (by norm_num)]
    norm_num
  have hfloor : rk4Floor (25 / 2) (25 / 2) 25 (25 / 4) 1 δ g 0 ≤ 1 / 10 ^ 10 * |g| + (2 : ℝ) ^ (-1054 : ℤ) := by
    unfold rk4Floor
    rw [← e2]
    have a1 : 1 + 5 / (25 / 2 * δ) ≤ 42 := by
      have : 5 / (25 / 2 * δ) ≤ 41 := by rw [div_le_iff₀ (by positivity)]; linarith
      linarith
    have a2 : (2 : ℝ) ^ (-53 : ℤ) ≤ 1 / 10 ^ 15 * (1 / 5) := by norm_num
    have hw0 : (0 : ℝ) ≤ (2 : ℝ) ^ (-1074 : ℤ) := by positivity
    have hu0 : (0 : ℝ) ≤ (2 : ℝ) ^ (-53 : ℤ) := by positivity
    clear e2
    generalize (2 : ℝ) ^ (-1074 : ℤ) = w at *
    generalize (2 : ℝ) ^ (-53 : ℤ) = u at *
    have hg := abs_nonneg g
    have a3 := mul_le_mul_of_nonneg_right a2 hg
    set Q := 25 / 2 / (25 / 2) * (14 * (δ * (0 / 1 ^ 2) / (25 / 2)) + 2400 * u * |g| +
      2400 * w * (1 + 1 / (25 / 2) + (2 * (25 * (25 / 4 + 4) + 2) / 1 ^ 2 + 2) / (25 / 2) ^ 2)) with hQ
    have hQ1 : Q ≤ 2400 * (1 / 10 ^ 15 * (1 / 5) * |g|) + 2400 * w * 5 := by
      rw [hQ]
      norm_num
      linarith
    have hQ0 : 0 ≤ Q := by rw [hQ]; positivity
    have a4 := mul_le_mul a1 hQ1 hQ0 (by norm_num)
    clear_value Q
    linarith
  have hexp : Real.exp (2 * (5 / 4 * δ)) ≤ 103 / 100 := by
    have := Real.exp_bound_div_one_sub_of_interval (x := 2 * (5 / 4 * δ)) (by positivity) (by linarith)
    refine this.trans ?_
    rw [div_le_iff₀ (by linarith)]
    linarith
  have e1 : Real.exp (-(5 / 4 * δ * n)) ≤ Real.exp (-(n / 81)) := by
    refine Real.exp_le_exp.2 (neg_le_neg ?_)
    have : 1 / 81 ≤ 5 / 4 * δ := by linarith
    have := mul_le_mul_of_nonneg_right this (show (0 : ℝ) ≤ (n : ℝ) by positivity)
    linarith
  have e3 : 2 * |e| + 2 / (25 / 2) * |v| + Real.exp (2 * (5 / 4 * δ)) / (5 / 4) * (14 * P / (25 / 2 * 1 ^ 2)) ≤
      2 * |e| + 1 / 5 * |v| + P := by
    have := mul_le_mul_of_nonneg_right hexp hP0
    have hv := abs_nonneg v
    have e4 : Real.exp (2 * (5 / 4 * δ)) / (5 / 4) * (14 * P / (25 / 2 * 1 ^ 2)) = 112 / 125 * (Real.exp (2 * (5 / 4 * δ)) * P) := by ring
    rw [e4]
    generalize Real.exp (2 * (5 / 4 * δ)) * P = q at *
    linarith
  have e5 := mul_le_mul e1 e3 (by positivity) (Real.exp_pos _).le
  exact (add_le_add e5 hfloor).trans (le_of_eq (add_assoc _ _ _).symm)

/-- C106: a new `DMP(n_dims)` with the default arguments except for its weights, with any start and goal: if the forces of its forcing
term, as computed, are at most `P * exp(-5 * t / 2)` at time `t`, then after `j + 1` calls of `step` (up to a billion) with arbitrary
arguments and the default step function (or its Cython version) the position deviates from the goal by at most `exp(-(j + 1) / 81)` times
the initial distance and the forces, and `1e-10` of the size of the goal. -/
theorem C106_rk4_default {o : FloatOps d} (h : IsRounding o.rnd) {sf : StepFunction} (hsf : sf = .rk4 ∨ sf = .rk4Cython) (s : DMP d m)
    (args : List (Vec d × Vec d)) (i : Fin d) {P : ℝ} (ht : s.t = 0) (h0 : s.initialized = false) (hdt : s.dt = o.rnd (1 / 100))
    (hτ : s.executionTime = 1) (hsq : o.sq 1 = 1) (hp : s.pGain = 0) (hα : s.alphaY = fun _ => 25) (hβ : s.betaY = fun _ => 25 / 4)
    (hn : args.length ≤ 10 ^ 9)
    (hforce : ∀ t, 0 < t → |o.force t i| + 25 * |o.smoothing (s.stepArgs none 0) t i| ≤ P * Real.exp (-(5 * t / 2))) :
    ∃ out s', (calls (DMP.stepFl o none sf) args).exec s = (.ok out, s') ∧ out.length = args.length ∧
      ∀ j (hj : j < out.length), |out[j].1 i - s.goalY i| ≤
        Real.exp (-((j + 1) / 81)) * (2 * |s.startY i - s.goalY i| + 1 / 5 * |s.startYd i| + P) +
          1 / 10 ^ 10 * |s.goalY i| + (2 : ℝ) ^ (-1054 : ℤ) := by
  obtain ⟨hd1, hi1⟩ := default_steps h
  have hd' := abs_le.1 hd1
  have h36 : (2 : ℝ) ^ (-36 : ℤ) ≤ 1 / 10 ^ 10 := by norm_num
  have hP0 : 0 ≤ P := by
    have := le_trans (by positivity) (hforce 1 (by norm_num))
    exact nonneg_of_mul_nonneg_left this (Real.exp_pos _)
  obtain ⟨out, s', he, hl, ho⟩ := C106_rk4_reaches h hsf s args i (slow := 25 / 2) (fast := 25 / 2) (P := P) (rate := 5 / 4) ht
    (by rw [hdt]; exact h.isDouble _) (by rw [hτ]; exact isDouble_one)
    (by
      rw [hdt]
      have : (2 : ℝ) ^ (-1000 : ℤ) ≤ (2 : ℝ) ^ (-10 : ℤ) := zpow_le_zpow_right₀ (by norm_num) (by norm_num)
      refine this.trans ?_
      norm_num
      linarith) (by rw [hτ]; norm_num) (by rw [hτ, hsq]; norm_num) hp
    (by rw [hα]; norm_num) (by rw [hβ]; norm_num) (by rw [hα, hβ, hτ]; unfold IsDecayRates; norm_num)
    (by rw [hdt]; linarith) (by rw [hdt]; linarith) (hn.trans (by norm_num)) (by norm_num) (by norm_num)
    (fun t h0 => by
      refine le_trans (le_of_eq ?_) ((hforce t h0).trans (le_of_eq ?_))
      · rw [hα]
      · congr 2; ring)
  refine ⟨out, s', he, hl, fun j hj => ?_⟩
  refine (ho j hj).1.trans ?_
  rw [h0, if_neg (by simp), if_neg (by simp), hα, hβ, hτ, hdt]
  have := default_rk4_numbers hd1 hP0 (j + 1) (s.startY i - s.goalY i) (s.startYd i) (s.goalY i)
  push_cast at this ⊢
  exact this

/-- The hypotheses of `C106_rk4_default` (and with them those of `C106_rk4_reaches`) are met by DMPs with a forcing term that is not
zero. -/
example (s : DMP 1 m) (rnd : ℝ → ℝ) (h : IsRounding rnd) (n : ℕ) (hn : n ≤ 10 ^ 9) :
    ∃ out s', (calls (DMP.stepFl (⟨rnd, fun x => x ^ 2, fun t => Real.exp (-(5 * t)), fun t _ => rnd (7 * Real.exp (-(5 * t)))⟩ : FloatOps 1)
        none .rk4) (List.replicate n (0, 0))).exec
        { s with t := 0, initialized := false, dt := rnd (1 / 100), executionTime := 1, pGain := 0
                 alphaY := fun _ => 25, betaY := fun _ => 25 / 4, smooth := false, startY := 0, startYd := 0
                 goalY := fun _ => 1 } = (.ok out, s') ∧
      ∀ j (hj : j < out.length), |out[j].1 0 - 1| ≤ Real.exp (-((j + 1) / 81)) * 16 + 2 / 10 ^ 10 := by
  obtain ⟨out, s', he, hl, ho⟩ := C106_rk4_default
    (o := ⟨rnd, fun x => x ^ 2, fun t => Real.exp (-(5 * t)), fun t _ => rnd (7 * Real.exp (-(5 * t)))⟩) h (.inl rfl)
    { s with t := 0, initialized := false, dt := rnd (1 / 100), executionTime := 1, pGain := 0
             alphaY := fun _ => 25, betaY := fun _ => 25 / 4, smooth := false, startY := 0, startYd := 0
             goalY := fun _ => 1 }
    (List.replicate n (0, 0)) 0 (P := 14) rfl rfl rfl rfl (by norm_num) rfl rfl rfl (by rw [List.length_replicate]; exact hn)
    (fun t ht => by
      have h1 : |rnd (7 * Real.exp (-(5 * t)))| ≤ 14 * Real.exp (-(5 * t)) := by
        have h2 := h.nearest (7 * Real.exp (-(5 * t))) 0 isDouble_zero
        rw [zero_sub, abs_neg, abs_of_pos (show 0 < 7 * Real.exp (-(5 * t)) by positivity)] at h2
        have h3 := abs_le.1 h2
        rw [abs_le]
        constructor <;> linarith [Real.exp_pos (-(5 * t))]
      have h4 : Real.exp (-(5 * t)) ≤ Real.exp (-(5 * t / 2)) := Real.exp_le_exp.2 (by linarith)
      show |rnd (7 * Real.exp (-(5 * t)))| + 25 * |(0 : ℝ)| ≤ _
      rw [abs_zero]
      linarith)
  refine ⟨out, s', he, fun j hj => (ho j hj).trans ?_⟩
  show Real.exp (-((j + 1) / 81)) * (2 * |(0 : ℝ) - 1| + 1 / 5 * |(0 : ℝ)| + 14) + 1 / 10 ^ 10 * |(1 : ℝ)| + (2 : ℝ) ^ (-1054 : ℤ) ≤ _
  have hw : (2 : ℝ) ^ (-1054 : ℤ) ≤ 1 / 10 ^ 10 := by
    have : (2 : ℝ) ^ (-1054 : ℤ) ≤ (2 : ℝ) ^ (-53 : ℤ) := zpow_le_zpow_right₀ (by norm_num) (by norm_num)
    refine this.trans ?_
    norm_num
  rw [show |(0 : ℝ) - 1| = 1 by norm_num, abs_zero, abs_one]
  have := Real.exp_pos (-(((j : ℝ) + 1) / 81))
  linarith

end Verif
