import Verif.Lemmas.FloatLoop

/-!
# Decay during one call of a step function in double precision
-/

namespace Verif
open Spec

variable {rnd : ℝ → ℝ}

/-- Numerical part of `call_decay`. -/
theorem call_numbers {η ε D dt intDt n S : ℝ} (hη : 0 < η) (hε0 : 0 ≤ ε) (hε : ε ≤ (2 : ℝ) ^ (-47 : ℤ)) (hdt : 0 < dt) (hi0 : 0 < intDt)
    (hD : |D - dt| ≤ dt / 256) (h1 : (2 : ℝ) ^ (-36 : ℤ) ≤ η * intDt) (h2 : (2 : ℝ) ^ (-36 : ℤ) ≤ η * dt)
    (h3 : dt ≤ (2 : ℝ) ^ 40 * intDt) (hn0 : 0 ≤ n) (hn : n ≤ 2 * D / intDt + 3) (hS : (1 - 1 / 256) * D ≤ S) :
    -(η * S) + n * ε ≤ -(η * dt / 2) ∧ n * Real.exp (n * ε) ≤ 4 * (dt / intDt + 1) := by
  have hD' := abs_le.1 hD
  set q := dt / intDt with hq
  have hq0 : 0 < q := by positivity
  have hqd : q * intDt = dt := by rw [hq]; field_simp
  have hn' : n ≤ 21 / 10 * q + 3 := by
    refine hn.trans ?_
    have : 2 * D / intDt ≤ 21 / 10 * q := by
      rw [div_le_iff₀ hi0, mul_assoc, hqd]
      linarith
    linarith
  have hq40 : q ≤ (2 : ℝ) ^ 40 := by rw [hq, div_le_iff₀ hi0]; exact h3
  have hne : n * ε ≤ (21 / 10 * q + 3) * (2 : ℝ) ^ (-47 : ℤ) := mul_le_mul hn' hε hε0 (by positivity)
  have e47 : (2 : ℝ) ^ (-47 : ℤ) = (2 : ℝ) ^ (-36 : ℤ) / 2048 := by norm_num
  constructor
  · have a1 : q * (2 : ℝ) ^ (-36 : ℤ) ≤ η * dt := by
      have := mul_le_mul_of_nonneg_left h1 hq0.le
      rw [← hqd]
      linarith
    have a2 : n * ε ≤ η * dt / 256 := by
      rw [e47] at hne
      clear e47 hq40 h1 hε
      generalize (2 : ℝ) ^ (-36 : ℤ) = v at *
      nlinarith
    have a3 : (255 / 256) * (255 / 256) * (η * dt) ≤ η * S := by
      have b1 : (255 / 256) * (255 / 256) * dt ≤ S := by linarith
      have := mul_le_mul_of_nonneg_left b1 hη.le
      linarith
    have : 0 < η * dt := by positivity
    linarith
  · have a1 : n * ε ≤ 1 / 20 := by
      refine hne.trans ?_
      have : q * (2 : ℝ) ^ (-47 : ℤ) ≤ (2 : ℝ) ^ 40 * (2 : ℝ) ^ (-47 : ℤ) := mul_le_mul_of_nonneg_right hq40 (by positivity)
      have e : (2 : ℝ) ^ 40 * (2 : ℝ) ^ (-47 : ℤ) = 1 / 128 := by norm_num
      have e' : (2 : ℝ) ^ (-47 : ℤ) ≤ 1 / 1024 := by norm_num
      linarith
    have a2 : Real.exp (n * ε) ≤ 20 / 19 := by
      have := Real.exp_bound_div_one_sub_of_interval (x := n * ε) (mul_nonneg hn0 hε0) (by linarith)
      refine this.trans ?_
      rw [div_le_div_iff₀ (by linarith) (by norm_num)]
      linarith
    calc n * Real.exp (n * ε) ≤ (21 / 10 * q + 3) * (20 / 19) := mul_le_mul hn' a2 (Real.exp_pos _).le (by positivity)
      _ ≤ _ := by linarith

/-- One call with the clock at `T`: it returns, and a quantity that decays in each integration step decays accordingly. -/
theorem call_decay (h : IsRounding rnd) {intDt dt T T' η ε b : ℝ} (hi : IsDouble intDt) (hT : IsDouble T) (hT' : IsDouble T')
    (hT0 : 0 ≤ T) (hi0 : 0 < intDt) (hdt : 0 < dt) (hD : |T' - T - dt| ≤ dt / 256)
    (hbig : (2 : ℝ) ^ (-44 : ℤ) * T' ≤ intDt) (hη : 0 < η) (hε0 : 0 ≤ ε) (hε : ε ≤ (2 : ℝ) ^ (-47 : ℤ)) (hb : 0 ≤ b)
    (h1 : (2 : ℝ) ^ (-36 : ℤ) ≤ η * intDt) (h2 : (2 : ℝ) ^ (-36 : ℤ) ≤ η * dt) (h3 : dt ≤ (2 : ℝ) ^ 40 * intDt)
    {σ : Type} (upd : ℝ → ℝ → σ → σ) (s : σ) :
    ∃ s', intLoopFl rnd intDt T' upd T s = .ok s' ∧ ∀ N : σ → ℝ, (∀ x, 0 ≤ N x) →
      (∀ z, 0 < z → z ≤ intDt → ∀ τ, T < τ → ∀ x, N (upd z τ x) ≤ (1 - η * z + ε) * N x + b) →
      N s' ≤ Real.exp (-(η * dt / 2)) * N s + 4 * (dt / intDt + 1) * b := by
  have hbig' : (2 : ℝ) ^ (-52 : ℤ) * T' ≤ intDt := by
    have hT'0 : 0 ≤ T' := by
      have := (abs_le.1 hD).1
      linarith
    refine le_trans (mul_le_mul_of_nonneg_right ?_ hT'0) hbig
    norm_num
  obtain ⟨L, hL, hrun⟩ := exists_loopSteps h hi hT' hT hT0 hi0 hbig'
  obtain ⟨c1, c2, c3, -, -⟩ := hL.bounds h hi hT' hi0 hbig L T hT hT0
  refine ⟨_, hrun σ upd s, fun N hN hstep => ?_⟩
  have hlt : T < T' := by
    have := (abs_le.1 hD).1
    linarith
  have hf := fold_decay N hN hη.le hε0 hb (fun p s => upd p.1 p.2 s) L (fun p hp => (c1 p hp).1)
    (fun p hp x => hstep p.1 (c1 p hp).1 (c1 p hp).2.1 p.2 (c1 p hp).2.2 x) s
  obtain ⟨e1, e2⟩ := call_numbers hη hε0 hε hdt hi0 hD h1 h2 h3 (Nat.cast_nonneg L.length) (c3 hlt) c2
  refine hf.trans (add_le_add ?_ ?_)
  · exact mul_le_mul_of_nonneg_right (Real.exp_le_exp.2 e1) (hN s)
  · exact mul_le_mul_of_nonneg_right e2 hb

/-- The clock of an object advances by about `dt`. -/
theorem clock_advance (h : IsRounding rnd) {dt T : ℝ} (hd : IsDouble dt) (hT : IsDouble T) (hdt : 0 < dt) (hT0 : 0 ≤ T)
    (hbig : (2 : ℝ) ^ (-44 : ℤ) * T ≤ dt) : |rnd (T + dt) - T - dt| ≤ dt / 256 := by
  have := h.add_error hT hd
  rw [abs_of_nonneg (show 0 ≤ T + dt by linarith)] at this
  have e44 : (2 : ℝ) ^ (-44 : ℤ) = 512 * (2 : ℝ) ^ (-53 : ℤ) := by norm_num
  have hu1 : (2 : ℝ) ^ (-53 : ℤ) ≤ 1 / 1024 := by norm_num
  rw [e44] at hbig
  have h1 := mul_le_mul_of_nonneg_right hu1 hdt.le
  have e : rnd (T + dt) - T - dt = rnd (T + dt) - (T + dt) := by ring
  rw [e]
  clear e44
  generalize (2 : ℝ) ^ (-53 : ℤ) = u at *
  linarith

/-- The clock of an object after `n` steps. -/
theorem clock_le (h : IsRounding rnd) {dt : ℝ} (hd : IsDouble dt) (hdt : 0 < dt) {n : ℕ} (hn : n ≤ 2 ^ 43) :
    clockFl rnd dt n ≤ 2 * (n * dt) := by
  have h1 := C80_clock_drift h hd hdt.le n (hn.trans (by norm_num))
  have h2 := (abs_le.1 h1).2
  have hnu : (n : ℝ) * (2 : ℝ) ^ (-53 : ℤ) ≤ 1 := by
    have : (n : ℝ) ≤ 2 ^ 43 := by exact_mod_cast hn
    have := mul_le_mul_of_nonneg_right this (show (0 : ℝ) ≤ (2 : ℝ) ^ (-53 : ℤ) by positivity)
    refine this.trans ?_
    norm_num
  have h3 : (n : ℝ) ^ 2 * dt * (2 : ℝ) ^ (-53 : ℤ) ≤ n * dt := by
    have := mul_le_mul_of_nonneg_left hnu (show 0 ≤ (n : ℝ) * dt by positivity)
    calc _ = n * dt * (n * (2 : ℝ) ^ (-53 : ℤ)) := by ring
      _ ≤ _ := by linarith
  linarith

theorem le_clock (h : IsRounding rnd) {dt : ℝ} (hd : IsDouble dt) (hdt : 0 < dt) {n : ℕ} (hn : n ≤ 2 ^ 43) :
    n * dt ≤ 2 * clockFl rnd dt n := by
  have h1 := C80_clock_drift h hd hdt.le n (hn.trans (by norm_num))
  have h2 := (abs_le.1 h1).1
  have hnu : (n : ℝ) * (2 : ℝ) ^ (-53 : ℤ) ≤ 1 / 2 := by
    have : (n : ℝ) ≤ 2 ^ 43 := by exact_mod_cast hn
    have := mul_le_mul_of_nonneg_right this (show (0 : ℝ) ≤ (2 : ℝ) ^ (-53 : ℤ) by positivity)
    refine this.trans ?_
    norm_num
  have h3 : (n : ℝ) ^ 2 * dt * (2 : ℝ) ^ (-53 : ℤ) ≤ n * dt / 2 := by
    have := mul_le_mul_of_nonneg_left hnu (show 0 ≤ (n : ℝ) * dt by positivity)
    calc _ = n * dt * (n * (2 : ℝ) ^ (-53 : ℤ)) := by ring
      _ ≤ _ := by linarith
  have h4 : -(n * dt / 2) ≤ clockFl rnd dt n - n * dt := le_trans (neg_le_neg h3) h2
  clear h1 h2 h3 hnu
  linarith

theorem clock_mono (h : IsRounding rnd) {dt : ℝ} (hdt : 0 ≤ dt) {m n : ℕ} (hmn : m ≤ n) : clockFl rnd dt m ≤ clockFl rnd dt n := by
  induction n, hmn using Nat.le_induction with
  | base => exact le_refl _
  | succ n _ ih => exact ih.trans (h.ge_of_isDouble (isDouble_clock h n) (by linarith))

end Verif
