import Verif.Lemmas.Converge
import Verif.Spec.Coupled

/-! # A damped spring with a correction of the velocity after each step -/

namespace Verif
open Filter Topology

/-- One step of length `h`: `w = v + h (-k e - c v + u)`, `e' = e + h w`, `v' = w - p e'`. -/
def cpStep (k c p h u : ℝ) (x : ℝ × ℝ) : ℝ × ℝ :=
  (x.1 + h * (x.2 + h * (-k * x.1 - c * x.2 + u)),
   x.2 + h * (-k * x.1 - c * x.2 + u) - p * (x.1 + h * (x.2 + h * (-k * x.1 - c * x.2 + u))))

/-- Under the exact stability condition of a constant step size there is a contracted form. -/
theorem cpStep_sharp {k c p h : ℝ} (hk : 0 < k) (hc : 0 < c) (hp : 0 ≤ p) (hh : 0 < h) (h1 : h * c < 1)
    (hs : h ^ 2 * k + h * p * (1 - h * c) + 2 * (h * c) < 4) :
    ∃ A B C ρ K : ℝ, 0 < A ∧ B ^ 2 < 4 * A * C ∧ 0 ≤ ρ ∧ ρ < 1 ∧ 0 ≤ K ∧
      ∀ (u : ℝ) (x : ℝ × ℝ), qf A B C (cpStep k c p h u x).swap ≤ ρ * qf A B C x.swap + K * u ^ 2 := by
  have hkk : 0 < h ^ 2 * k := by positivity
  have hcc : 0 < h * c := by positivity
  have hpp : 0 ≤ h * p * (1 - h * c) := mul_nonneg (by positivity) (by linarith)
  have hdet : ((1 - h * c) * (1 - p * h)) * (1 - h ^ 2 * k) -
      (-(h * k) - p * (1 - h ^ 2 * k)) * (h * (1 - h * c)) = 1 - h * c := by ring
  obtain ⟨A, B, C, ρ, hA, hC, hd, hρ0, hρ, hq⟩ := exists_qf_contraction (m11 := (1 - h * c) * (1 - p * h))
    (m12 := -(h * k) - p * (1 - h ^ 2 * k)) (m21 := h * (1 - h * c)) (m22 := 1 - h ^ 2 * k)
    (mul_pos hh (by linarith)).ne'
    (by rw [hdet, abs_lt]; constructor <;> linarith)
    (by rw [hdet, abs_lt]; constructor <;> linarith)
  obtain ⟨ρ', K, h0, h1, hK, hi⟩ := qf_add_input hA hd hρ0 hρ
  refine ⟨A, B, C, ρ', K * qf A B C (h * (1 - p * h), h ^ 2), hA, hd, h0, h1,
    mul_nonneg hK (qf_nonneg hA hd _), fun u x => ?_⟩
  have := hi x.swap _ (h * (1 - p * h) * u, h ^ 2 * u) (hq x.swap)
  have e : qf A B C (h * (1 - p * h) * u, h ^ 2 * u) = u ^ 2 * qf A B C (h * (1 - p * h), h ^ 2) := by unfold qf; ring
  rw [e] at this
  have e2 : (cpStep k c p h u x).swap = ((1 - h * c) * (1 - p * h) * x.swap.1 +
      (-(h * k) - p * (1 - h ^ 2 * k)) * x.swap.2 + h * (1 - p * h) * u,
      h * (1 - h * c) * x.swap.1 + (1 - h ^ 2 * k) * x.swap.2 + h ^ 2 * u) := by
    unfold cpStep; ext <;> simp <;> ring
  rw [e2]
  calc _ ≤ _ := this
    _ = _ := by ring

theorem cpFold_sharp {A B C ρ K U k c p h : ℝ} (hA : 0 < A) (hd : B ^ 2 < 4 * A * C) (hρ0 : 0 ≤ ρ) (hρ : ρ < 1)
    (hK : 0 ≤ K) (hU : 0 ≤ U) (u : ℝ → ℝ)
    (hstep : ∀ (u : ℝ) (x : ℝ × ℝ), qf A B C (cpStep k c p h u x).swap ≤ ρ * qf A B C x.swap + K * u ^ 2) :
    ∀ (L : List (ℝ × ℝ)), (∀ q ∈ L, q.1 = h) → (∀ q ∈ L, u q.2 ^ 2 ≤ U) → ∀ x,
      qf A B C (L.foldl (fun s q => cpStep k c p q.1 (u q.2) s) x).swap ≤
        ρ ^ L.length * qf A B C x.swap + L.length * (K * U) := by
  intro L
  induction L with
  | nil => intro _ _ x; simp
  | cons q L ih =>
    intro h1 h2 x
    have hp1 := h1 q (by simp)
    have hrest := ih (fun q hq => h1 q (by simp [hq])) (fun q hq => h2 q (by simp [hq]))
      (cpStep k c p q.1 (u q.2) x)
    have hs := hstep (u q.2) x
    rw [← hp1] at hs
    have hu := h2 q (by simp)
    rw [List.foldl_cons, List.length_cons, pow_succ]
    refine hrest.trans ?_
    have hq := qf_nonneg hA hd x.swap
    have h4 : K * u q.2 ^ 2 ≤ K * U := mul_le_mul_of_nonneg_left hu hK
    have h5 : ρ ^ L.length ≤ 1 := pow_le_one₀ hρ0 hρ.le
    have h6 : 0 ≤ K * U := by positivity
    have h7 : ρ ^ L.length * qf A B C (cpStep k c p q.1 (u q.2) x).swap ≤
        ρ ^ L.length * (ρ * qf A B C x.swap + K * U) :=
      mul_le_mul_of_nonneg_left (by linarith) (pow_nonneg hρ0 _)
    have h8 : ρ ^ L.length * (K * U) ≤ 1 * (K * U) := mul_le_mul_of_nonneg_right h5 h6
    push_cast
    linarith

theorem cp_tendsto_sharp {k c p H dt t0 : ℝ} {u : ℝ → ℝ} {x : ℕ → ℝ × ℝ} (hk : 0 < k) (hc : 0 < c) (hp : 0 ≤ p)
    (hH : 0 < H) (h1 : H * c < 1) (hs : H ^ 2 * k + H * p * (1 - H * c) + 2 * (H * c) < 4)
    {n : ℕ} (hn : 0 < n) (hdt : dt = n * H) (hu : Tendsto u atTop (𝓝 0))
    (hx : ∀ i : ℕ, x (i + 1) = (subSteps H (t0 + (i + 1) * dt) (t0 + i * dt)).foldl
      (fun s q => cpStep k c p q.1 (u q.2) s) (x i)) : Tendsto x atTop (𝓝 (0, 0)) := by
  have hdt0 : 0 < dt := by rw [hdt]; positivity
  obtain ⟨A, B, C, ρ, K, hA, hd, hρ0, hρ, hK, hstep⟩ := cpStep_sharp hk hc hp hH h1 hs
  have hswap : Tendsto (fun i => (x i).swap) atTop (𝓝 ((0 : ℝ), (0 : ℝ))) := by
    apply tendsto_of_qf hd
    refine contraction_tendsto (ρ := ρ ^ n) (pow_nonneg hρ0 _) (pow_lt_one₀ hρ0 hρ hn.ne')
      (fun n => qf_nonneg hA hd _) ?_
    intro ε hε
    have hδ : 0 < ε / (n * (K + 1)) := by positivity
    obtain ⟨R, hR⟩ := input_small hu hδ
    obtain ⟨N, hN⟩ := eventually_atTop.1 ((arangeAt_tendsto hdt0 t0).eventually_ge_atTop R)
    refine ⟨N, fun i hi => ?_⟩
    have hle : t0 + i * dt ≤ t0 + (i + 1) * dt := by linarith
    obtain ⟨hlen, huni⟩ := subSteps_uniform (h := H) (a := t0 + i * dt) (b := t0 + (i + 1) * dt) (n := n) hH
      (by rw [← hdt]; ring)
    have hf := cpFold_sharp hA hd hρ0 hρ hK hδ.le u hstep _ huni
      (fun q hq => hR _ (le_trans (hN i hi) (subSteps_end_ge hH hle q hq))) (x i)
    rw [← hx i, hlen] at hf
    refine hf.trans ?_
    have : n * (K * (ε / (n * (K + 1)))) ≤ ε := by
      have : n * (K * (ε / (n * (K + 1)))) = ε * (K / (K + 1)) := by field_simp
      rw [this]
      have : K / (K + 1) ≤ 1 := by rw [div_le_one (by linarith)]; linarith
      nlinarith
    linarith
  have := (continuous_swap.tendsto ((0 : ℝ), (0 : ℝ))).comp hswap
  simpa [Function.comp_def] using this

/-! ## Runge-Kutta -/

open Spec in
/-- Matrix of the Runge-Kutta step. -/
theorem rkStep_matrix (k c h : ℝ) (x : ℝ × ℝ) :
    rkStep k c h 0 0 0 x =
      (rkDiag (h * c) (h ^ 2 * k) * x.1 + rkSide (h * c) (h ^ 2 * k) * h * x.2,
       -(rkSide (h * c) (h ^ 2 * k) * (h * k)) * x.1 +
         (rkDiag (h * c) (h ^ 2 * k) - h * c * rkSide (h * c) (h ^ 2 * k)) * x.2) := by
  simp only [rkStep, rkDiag, rkSide]
  ext
  · simp only; ring
  · simp only; ring

/-- A Runge-Kutta step followed by a correction of the velocity. -/
noncomputable def rcStep (k c p h u0 u1 u2 : ℝ) (x : ℝ × ℝ) : ℝ × ℝ :=
  let z := rkStep k c h u0 u1 u2 x
  (z.1, z.2 - p * z.1)

theorem rcStep_stable {k c p h : ℝ} (hh : 0 < h) (h3 : 0 < Spec.rkSide (h * c) (h ^ 2 * k))
    (h5 : |Spec.rkDet (h * c) (h ^ 2 * k)| < 1)
    (h6 : |2 * Spec.rkDiag (h * c) (h ^ 2 * k) - h * c * Spec.rkSide (h * c) (h ^ 2 * k) -
      h * p * Spec.rkSide (h * c) (h ^ 2 * k)| < 1 + Spec.rkDet (h * c) (h ^ 2 * k)) :
    ∃ A B C ρ K : ℝ, 0 < A ∧ B ^ 2 < 4 * A * C ∧ 0 ≤ ρ ∧ ρ < 1 ∧ 0 ≤ K ∧
      ∀ (u0 u1 u2 U : ℝ) (x : ℝ × ℝ), u0 ^ 2 ≤ U → u1 ^ 2 ≤ U → u2 ^ 2 ≤ U →
        qf A B C (rcStep k c p h u0 u1 u2 x).swap ≤ ρ * qf A B C x.swap + K * U := by
  set r0 := Spec.rkDiag (h * c) (h ^ 2 * k) with hr0
  set r1 := Spec.rkSide (h * c) (h ^ 2 * k) with hr1
  have hdet : (r0 - h * c * r1 - p * (r1 * h)) * r0 - (-(r1 * (h * k)) - p * r0) * (r1 * h) =
      Spec.rkDet (h * c) (h ^ 2 * k) := by unfold Spec.rkDet; rw [← hr0, ← hr1]; ring
  obtain ⟨A, B, C, ρ, hA, hC, hd, hρ0, hρ, hq⟩ := exists_qf_contraction (m11 := r0 - h * c * r1 - p * (r1 * h))
    (m12 := -(r1 * (h * k)) - p * r0) (m21 := r1 * h) (m22 := r0) (by positivity) (by rw [hdet]; exact h5) (by
      rw [hdet]
      refine lt_of_eq_of_lt ?_ h6
      congr 1; ring)
  have hn := fun x => qf_nonneg hA hd x
  have hhom : ∀ x : ℝ × ℝ, qf A B C (rcStep k c p h 0 0 0 x).swap ≤ ρ * qf A B C x.swap := by
    intro x
    have := hq x.swap
    have e : (rcStep k c p h 0 0 0 x).swap = ((r0 - h * c * r1 - p * (r1 * h)) * x.swap.1 +
        (-(r1 * (h * k)) - p * r0) * x.swap.2, r1 * h * x.swap.1 + r0 * x.swap.2) := by
      simp only [rcStep, rkStep_matrix, ← hr0, ← hr1]
      ext
      · simp only [Prod.fst_swap, Prod.snd_swap]; ring
      · simp only [Prod.fst_swap, Prod.snd_swap]; ring
    rw [e]; exact this
  obtain ⟨ρ', K, g0, g1, hK, hi⟩ := qf_add_input hA hd hρ0 hρ
  set q0 := (rcStep k c p h 1 0 0 (0, 0)).swap with hq0
  set q1 := (rcStep k c p h 0 1 0 (0, 0)).swap with hq1
  set q2 := (rcStep k c p h 0 0 1 (0, 0)).swap with hq2
  refine ⟨A, B, C, ρ', K * (2 * qf A B C q0 + 4 * qf A B C q1 + 4 * qf A B C q2), hA, hd, g0, g1,
    mul_nonneg hK (by linarith [hn q0, hn q1, hn q2]), ?_⟩
  intro u0 u1 u2 U x hu0 hu1 hu2
  have hin : (rcStep k c p h u0 u1 u2 x).swap =
      ((rcStep k c p h 0 0 0 x).swap.1 + (u0 * q0.1 + (u1 * q1.1 + u2 * q2.1)),
       (rcStep k c p h 0 0 0 x).swap.2 + (u0 * q0.2 + (u1 * q1.2 + u2 * q2.2))) := by
    simp only [hq0, hq1, hq2, rcStep, Prod.fst_swap, Prod.snd_swap]
    rw [rkStep_input k c h u0 u1 u2 x]
    ext
    · simp only [Prod.fst_swap]; ring
    · simp only [Prod.snd_swap]
  rw [hin]
  refine (hi x.swap _ (u0 * q0.1 + (u1 * q1.1 + u2 * q2.1), u0 * q0.2 + (u1 * q1.2 + u2 * q2.2)) (hhom x)).trans ?_
  have y1 := qf_young hA hd one_pos (u0 * q0.1, u0 * q0.2) (u1 * q1.1 + u2 * q2.1, u1 * q1.2 + u2 * q2.2)
  have y2 := qf_young hA hd one_pos (u1 * q1.1, u1 * q1.2) (u2 * q2.1, u2 * q2.2)
  rw [qf_smul] at y1
  rw [qf_smul, qf_smul] at y2
  have z0 := mul_le_mul_of_nonneg_right hu0 (hn q0)
  have z1 := mul_le_mul_of_nonneg_right hu1 (hn q1)
  have z2 := mul_le_mul_of_nonneg_right hu2 (hn q2)
  have : qf A B C (u0 * q0.1 + (u1 * q1.1 + u2 * q2.1), u0 * q0.2 + (u1 * q1.2 + u2 * q2.2)) ≤
      (2 * qf A B C q0 + 4 * qf A B C q1 + 4 * qf A B C q2) * U := by
    norm_num at y1 y2 ⊢
    linarith
  have := mul_le_mul_of_nonneg_left this hK
  linarith

theorem rc_tendsto {k c p dt t0 : ℝ} {u : ℝ → ℝ} {x : ℕ → ℝ × ℝ} (hdt : 0 < dt)
    (h3 : 0 < Spec.rkSide (dt * c) (dt ^ 2 * k)) (h5 : |Spec.rkDet (dt * c) (dt ^ 2 * k)| < 1)
    (h6 : |2 * Spec.rkDiag (dt * c) (dt ^ 2 * k) - dt * c * Spec.rkSide (dt * c) (dt ^ 2 * k) -
      dt * p * Spec.rkSide (dt * c) (dt ^ 2 * k)| < 1 + Spec.rkDet (dt * c) (dt ^ 2 * k))
    (hu : Tendsto u atTop (𝓝 0))
    (hx : ∀ i : ℕ, x (i + 1) = rcStep k c p dt (u (t0 + (i + 1) * dt)) (u (t0 + (i + 1) * dt + dt / 2))
      (u (t0 + (i + 1) * dt + dt)) (x i)) : Tendsto x atTop (𝓝 (0, 0)) := by
  obtain ⟨A, B, C, ρ, K, hA, hd, hρ0, hρ, hK, hstep⟩ := rcStep_stable (k := k) (c := c) (p := p) hdt h3 h5 h6
  have hswap : Tendsto (fun i => (x i).swap) atTop (𝓝 ((0 : ℝ), (0 : ℝ))) := by
    apply tendsto_of_qf hd
    refine contraction_tendsto hρ0 hρ (fun n => qf_nonneg hA hd _) ?_
    intro ε hε
    have hδ : 0 < ε / (K + 1) := by positivity
    obtain ⟨R, hR⟩ := input_small hu hδ
    obtain ⟨N, hN⟩ := eventually_atTop.1 ((arangeAt_tendsto hdt t0).eventually_ge_atTop R)
    refine ⟨N, fun i hi => ?_⟩
    have hr := hN i hi
    have hf := hstep (u (t0 + (i + 1) * dt)) (u (t0 + (i + 1) * dt + dt / 2)) (u (t0 + (i + 1) * dt + dt)) _ (x i)
      (hR _ (by linarith)) (hR _ (by linarith)) (hR _ (by linarith))
    rw [← hx i] at hf
    refine hf.trans ?_
    have : K * (ε / (K + 1)) ≤ ε := by
      have : K * (ε / (K + 1)) = ε * (K / (K + 1)) := by field_simp
      rw [this]
      have : K / (K + 1) ≤ 1 := by rw [div_le_one (by linarith)]; linarith
      nlinarith
    linarith
  have := (continuous_swap.tendsto ((0 : ℝ), (0 : ℝ))).comp hswap
  simpa [Function.comp_def] using this

open Spec in
/-- A velocity and a constant force that compensate each other over one step, up to the correction `X * rkGap`. -/
theorem rkStep_rest (k c h X : ℝ) (u0 u1 u2 : ℝ) (x : ℝ × ℝ) :
    let r0 := rkDiag (h * c) (h ^ 2 * k)
    let r1 := rkSide (h * c) (h ^ 2 * k)
    let δ := k * (h * r1 * X)
    let w := -((1 - r0) * X)
    rkStep k c h (u0 + δ) (u1 + δ) (u2 + δ) (x.1, x.2 + w) =
      ((rkStep k c h u0 u1 u2 x).1, (rkStep k c h u0 u1 u2 x).2 + (w + X * rkGap (h * c) (h ^ 2 * k))) := by
  intro r0 r1 δ w
  have e : ∀ E W : ℝ, rkStep k c h (u0 + k * E) (u1 + k * E) (u2 + k * E) (x.1, x.2 + W) =
      ((rkStep k c h u0 u1 u2 x).1 + (h * r1 * W + (1 - r0) * E),
       (rkStep k c h u0 u1 u2 x).2 + ((r0 - h * c * r1) * W + h * r1 * (k * E))) := by
    intro E W
    simp only [rkStep, r0, r1, rkDiag, rkSide]
    ext
    · simp only; ring
    · simp only; ring
  rw [e (h * r1 * X) w]
  have g : rkGap (h * c) (h ^ 2 * k) = (1 - r0) ^ 2 + h * c * r1 * (1 - r0) + h ^ 2 * k * r1 ^ 2 := rfl
  rw [g]
  ext
  · simp only [w]; ring
  · simp only [w]; ring

end Verif
