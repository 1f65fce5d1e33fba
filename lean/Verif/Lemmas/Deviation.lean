import Verif.Lemmas.Converge
import Verif.Lemmas.OrientationRun
import Verif.Props.FvConvergence
import Verif.Props.SpringDamper

/-! # Difference of two executions whose inputs differ -/

namespace Verif
variable {d m : ℕ}

/-- The difference of two states of one dimension. -/
def dev (x y : Vec d × Vec d) (k : Fin d) : ℝ × ℝ := (x.1 k - y.1 k, x.2 k - y.2 k)

theorem sdStep_sub (k c h u u' : ℝ) (x x' : ℝ × ℝ) : sdStep k c h u x - sdStep k c h u' x' = sdStep k c h (u - u') (x - x') := by
  unfold sdStep
  ext
  · simp only [Prod.fst_sub, Prod.snd_sub]; ring
  · simp only [Prod.fst_sub, Prod.snd_sub]; ring

theorem rkStep_sub (k c h u0 u1 u2 v0 v1 v2 : ℝ) (x x' : ℝ × ℝ) :
    rkStep k c h u0 u1 u2 x - rkStep k c h v0 v1 v2 x' = rkStep k c h (u0 - v0) (u1 - v1) (u2 - v2) (x - x') := by
  unfold rkStep
  ext
  · simp only [Prod.fst_sub, Prod.snd_sub]; ring
  · simp only [Prod.fst_sub, Prod.snd_sub]; ring

theorem sdFold_sub (k c : ℝ) (u u' : ℝ × ℝ → ℝ) : ∀ (L : List (ℝ × ℝ)) (x x' : ℝ × ℝ),
    L.foldl (fun s p => sdStep k c p.1 (u p) s) x - L.foldl (fun s p => sdStep k c p.1 (u' p) s) x' =
      L.foldl (fun s p => sdStep k c p.1 (u p - u' p) s) (x - x')
  | [], x, x' => rfl
  | p :: L, x, x' => by
    rw [List.foldl_cons, List.foldl_cons, List.foldl_cons, sdFold_sub, sdStep_sub]

theorem sdFold_robust_input {A B C η K H U k c : ℝ} (hA : 0 < A) (hd : B ^ 2 < 4 * A * C) (hη : 0 < η) (hK : 0 ≤ K)
    (hU : 0 ≤ U) (u : ℝ × ℝ → ℝ)
    (hstep : ∀ (h u : ℝ) (x : ℝ × ℝ), 0 < h → h ≤ H →
        qf A B C (sdStep k c h u x) ≤ (1 - η * h) * qf A B C x + h * (K * u ^ 2)) :
    ∀ (L : List (ℝ × ℝ)), (∀ p ∈ L, 0 < p.1 ∧ p.1 ≤ H) → (∀ p ∈ L, u p ^ 2 ≤ U) → ∀ x,
      qf A B C (L.foldl (fun s p => sdStep k c p.1 (u p) s) x) ≤
        Real.exp (-(η * (L.map Prod.fst).sum)) * qf A B C x + (L.map Prod.fst).sum * (K * U) := by
  intro L
  induction L with
  | nil => intro _ _ x; simp
  | cons p L ih =>
    intro h1 h2 x
    obtain ⟨hp1, hp2⟩ := h1 p (by simp)
    have hrest := ih (fun q hq => h1 q (by simp [hq])) (fun q hq => h2 q (by simp [hq]))
      (sdStep k c p.1 (u p) x)
    have hs := hstep p.1 (u p) x hp1 hp2
    have hu := h2 p (by simp)
    have hsum : 0 ≤ (L.map Prod.fst).sum :=
      List.sum_nonneg (by
        intro y hy
        obtain ⟨q, hq, rfl⟩ := List.mem_map.1 hy
        exact (h1 q (by simp [hq])).1.le)
    rw [List.foldl_cons, List.map_cons, List.sum_cons]
    refine hrest.trans ?_
    set S := (L.map Prod.fst).sum
    have hq := qf_nonneg hA hd x
    have he : 1 - η * p.1 ≤ Real.exp (-(η * p.1)) := by
      have := Real.add_one_le_exp (-(η * p.1)); linarith
    have h3 : (1 - η * p.1) * qf A B C x ≤ Real.exp (-(η * p.1)) * qf A B C x := mul_le_mul_of_nonneg_right he hq
    have h4 : p.1 * (K * u p ^ 2) ≤ p.1 * (K * U) :=
      mul_le_mul_of_nonneg_left (mul_le_mul_of_nonneg_left hu hK) hp1.le
    have h5 : Real.exp (-(η * S)) ≤ 1 := Real.exp_le_one_iff.2 (by have := mul_nonneg hη.le hsum; linarith)
    have h6 : 0 ≤ p.1 * (K * U) := by positivity
    have h7 : Real.exp (-(η * S)) * qf A B C (sdStep k c p.1 (u p) x) ≤
        Real.exp (-(η * S)) * (Real.exp (-(η * p.1)) * qf A B C x + p.1 * (K * U)) :=
      mul_le_mul_of_nonneg_left (by linarith) (Real.exp_pos _).le
    have h8 : Real.exp (-(η * S)) * (p.1 * (K * U)) ≤ 1 * (p.1 * (K * U)) := mul_le_mul_of_nonneg_right h5 h6
    have h9 : Real.exp (-(η * (p.1 + S))) = Real.exp (-(η * S)) * Real.exp (-(η * p.1)) := by
      rw [← Real.exp_add]; congr 1; ring
    rw [h9]
    linarith

theorem sdFold_sharp_input {A B C ρ K U k c h : ℝ} (hA : 0 < A) (hd : B ^ 2 < 4 * A * C) (hρ0 : 0 ≤ ρ) (hρ : ρ < 1)
    (hK : 0 ≤ K) (hU : 0 ≤ U) (u : ℝ × ℝ → ℝ)
    (hstep : ∀ (u : ℝ) (x : ℝ × ℝ), qf A B C (sdStep k c h u x) ≤ ρ * qf A B C x + K * u ^ 2) :
    ∀ (L : List (ℝ × ℝ)), (∀ p ∈ L, p.1 = h) → (∀ p ∈ L, u p ^ 2 ≤ U) → ∀ x,
      qf A B C (L.foldl (fun s p => sdStep k c p.1 (u p) s) x) ≤
        ρ ^ L.length * qf A B C x + L.length * (K * U) := by
  intro L
  induction L with
  | nil => intro _ _ x; simp
  | cons p L ih =>
    intro h1 h2 x
    have hp1 := h1 p (by simp)
    have hrest := ih (fun q hq => h1 q (by simp [hq])) (fun q hq => h2 q (by simp [hq]))
      (sdStep k c p.1 (u p) x)
    have hs := hstep (u p) x
    rw [← hp1] at hs
    have hu := h2 p (by simp)
    rw [List.foldl_cons, List.length_cons, pow_succ]
    refine hrest.trans ?_
    have hq := qf_nonneg hA hd x
    have h4 : K * u p ^ 2 ≤ K * U := mul_le_mul_of_nonneg_left hu hK
    have h5 : ρ ^ L.length ≤ 1 := pow_le_one₀ hρ0 hρ.le
    have h6 : 0 ≤ K * U := by positivity
    have h7 : ρ ^ L.length * qf A B C (sdStep k c p.1 (u p) x) ≤ ρ ^ L.length * (ρ * qf A B C x + K * U) :=
      mul_le_mul_of_nonneg_left (by linarith) (pow_nonneg hρ0 _)
    have h8 : ρ ^ L.length * (K * U) ≤ 1 * (K * U) := mul_le_mul_of_nonneg_right h5 h6
    push_cast
    linarith

/-- Step sizes for which the semi-implicit Euler method is stable, for the gains of a spring and a damper. -/
def StableSub (k c dt intDt : ℝ) : Prop :=
  2 * intDt * (2 * k + c ^ 2) * (k + c ^ 2) ≤ k * c ∨
    (∃ n : ℕ, 0 < n ∧ dt = n * intDt) ∧ intDt ^ 2 * k + 2 * (intDt * c) < 4

/-- All sub-steps of a step together contract a form, up to the largest input. Elements of the list are lengths of
sub-steps and inputs. -/
theorem euler_contraction_inputs {k c dt intDt : ℝ} (hk : 0 < k) (hc : 0 < c) (hint : 0 < intDt) (hdt : 0 < dt)
    (h : StableSub k c dt intDt) :
    ∃ A B C ρ K : ℝ, 0 < A ∧ B ^ 2 < 4 * A * C ∧ 0 ≤ ρ ∧ ρ < 1 ∧ 0 ≤ K ∧ ∀ (t W : ℝ) (L : List (ℝ × ℝ)),
      L.map Prod.fst = (subSteps intDt (t + dt) t).map Prod.fst → (∀ p ∈ L, |p.2| ≤ W) → ∀ x : ℝ × ℝ,
      qf A B C (L.foldl (fun s p => sdStep k c p.1 p.2 s) x) ≤ ρ * qf A B C x + K * W ^ 2 := by
  have hfst : ∀ (t : ℝ) (L : List (ℝ × ℝ)), L.map Prod.fst = (subSteps intDt (t + dt) t).map Prod.fst → ∀ p ∈ L,
      ∃ q ∈ subSteps intDt (t + dt) t, q.1 = p.1 := by
    intro t L hL p hp
    have : p.1 ∈ L.map Prod.fst := List.mem_map.2 ⟨p, hp, rfl⟩
    rw [hL, List.mem_map] at this
    exact this
  have hsq : ∀ (W : ℝ) (L : List (ℝ × ℝ)), (∀ p ∈ L, |p.2| ≤ W) → ∀ p ∈ L, p.2 ^ 2 ≤ W ^ 2 := fun W L hW p hp =>
    sq_le_sq' (neg_le_of_abs_le (hW p hp)) (le_of_abs_le (hW p hp))
  rcases h with h | ⟨⟨N, hN, hN'⟩, h⟩
  · obtain ⟨A, B, C, η, K, hA, hd, hη, hK, hstep⟩ := sdStep_robust hk hc h
    refine ⟨A, B, C, Real.exp (-(η * dt)), dt * K, hA, hd, (Real.exp_pos _).le, ?_, by positivity,
      fun t W L hL hW x => ?_⟩
    · exact (Real.exp_lt_exp.2 (by have := mul_pos hη hdt; linarith : -(η * dt) < 0)).trans_eq Real.exp_zero
    have hpart := subSteps_isPartition hint (t := t + dt) t (by linarith)
    have := sdFold_robust_input hA hd hη hK (sq_nonneg W) Prod.snd hstep L
      (fun p hp => by obtain ⟨q, hq, e⟩ := hfst t L hL p hp; rw [← e]; exact hpart.pos q hq) (hsq W L hW) x
    rw [hL, hpart.total, add_sub_cancel_left] at this
    refine this.trans (le_of_eq ?_)
    ring
  · obtain ⟨A, B, C, ρ, K, hA, hd, hρ0, hρ, hK, hstep⟩ := sdStep_sharp hk hc hint h
    refine ⟨A, B, C, ρ ^ N, N * K, hA, hd, by positivity, pow_lt_one₀ hρ0 hρ hN.ne', by positivity,
      fun t W L hL hW x => ?_⟩
    obtain ⟨hlen, huni⟩ := subSteps_uniform (h := intDt) (a := t) (b := t + dt) (n := N) hint (by rw [← hN']; ring)
    have hlen' : L.length = N := by rw [← hlen, ← List.length_map (f := Prod.fst), hL, List.length_map]
    have := sdFold_sharp_input hA hd hρ0 hρ hK (sq_nonneg W) Prod.snd hstep L
      (fun p hp => by obtain ⟨q, hq, e⟩ := hfst t L hL p hp; rw [← e]; exact huni q hq) (hsq W L hW) x
    rw [hlen'] at this
    refine this.trans (le_of_eq ?_)
    ring

/-- All sub-steps of a step together contract a form, up to an impulse `w` in each of the sub-steps. -/
theorem euler_contraction {k c dt intDt : ℝ} (hk : 0 < k) (hc : 0 < c) (hint : 0 < intDt) (hdt : 0 < dt)
    (h : StableSub k c dt intDt) :
    ∃ A B C ρ K : ℝ, 0 < A ∧ B ^ 2 < 4 * A * C ∧ 0 ≤ ρ ∧ ρ < 1 ∧ 0 ≤ K ∧ ∀ (t w : ℝ) (x : ℝ × ℝ),
      qf A B C ((subSteps intDt (t + dt) t).foldl (fun s p => sdStep k c p.1 (w / p.1) s) x) ≤
        ρ * qf A B C x + K * w ^ 2 := by
  obtain ⟨n, hmin, hn, hmin0, hsub⟩ := subSteps_bounds hint hdt
  obtain ⟨A, B, C, ρ, K, hA, hd, hρ0, hρ, hK, hq⟩ := euler_contraction_inputs hk hc hint hdt h
  refine ⟨A, B, C, ρ, K / hmin ^ 2, hA, hd, hρ0, hρ, by positivity, fun t w x => ?_⟩
  have := hq t (|w| / hmin) ((subSteps intDt (t + dt) t).map fun p => (p.1, w / p.1)) (by simp [Function.comp_def]) (by
    intro p hp
    obtain ⟨q, hq, rfl⟩ := List.mem_map.1 hp
    have h1 := ((hsub t).2 q hq).1
    have h2 : 0 < q.1 := hmin0.trans_le h1
    rw [abs_div, abs_of_pos h2]
    exact div_le_div_of_nonneg_left (abs_nonneg w) hmin0 h1) x
  rw [List.foldl_map] at this
  refine this.trans (le_of_eq ?_)
  rw [div_pow, sq_abs]
  ring

/-- A recursive bound of a form bounds a sequence, with a constant that depends only on the constants of the bound. -/
theorem bound_of_contraction {A B C ρ K : ℝ} (hA : 0 < A) (hd : B ^ 2 < 4 * A * C) (hρ0 : 0 ≤ ρ) (hρ : ρ < 1) (hK : 0 ≤ K) :
    ∃ M : ℝ, 0 ≤ M ∧ ∀ (δ : ℝ) (x : ℕ → ℝ × ℝ), 0 ≤ δ → x 0 = 0 →
      (∀ i, qf A B C (x (i + 1)) ≤ ρ * qf A B C (x i) + K * δ ^ 2) → ∀ i, |(x i).1| ≤ M * δ ∧ |(x i).2| ≤ M * δ := by
  have hΔ : 0 < 4 * A * C - B ^ 2 := by linarith
  have hC : 0 < C := by
    have : 0 < A * C := by nlinarith [sq_nonneg B]
    exact (pos_iff_pos_of_mul_pos this).1 hA
  have h1ρ : 0 < 1 - ρ := by linarith
  set Q := K / (1 - ρ) with hQ
  have hQ0 : 0 ≤ Q := by positivity
  set P := max (4 * C / (4 * A * C - B ^ 2)) (4 * A / (4 * A * C - B ^ 2)) with hP
  have hP0 : 0 ≤ P := le_trans (by positivity) (le_max_left _ _)
  refine ⟨√(P * Q), Real.sqrt_nonneg _, fun δ x hδ h0 hx => ?_⟩
  have hq : ∀ i, qf A B C (x i) ≤ Q * δ ^ 2 := by
    intro i
    induction i with
    | zero => rw [h0]; simp [qf]; positivity
    | succ i ih =>
      refine (hx i).trans ?_
      have h2 : ρ * qf A B C (x i) ≤ ρ * (Q * δ ^ 2) := mul_le_mul_of_nonneg_left ih hρ0
      have h3 : K = (1 - ρ) * Q := by rw [hQ]; field_simp
      have h4 : K * δ ^ 2 = (1 - ρ) * Q * δ ^ 2 := by rw [← h3]
      linarith
  have key : ∀ (y : ℝ) i, y ^ 2 ≤ P * qf A B C (x i) → |y| ≤ √(P * Q) * δ := by
    intro y i h
    apply abs_le_of_sq_le_sq _ (by positivity)
    rw [mul_pow, Real.sq_sqrt (by positivity)]
    calc y ^ 2 ≤ P * qf A B C (x i) := h
      _ ≤ P * (Q * δ ^ 2) := mul_le_mul_of_nonneg_left (hq i) hP0
      _ = _ := by ring
  intro i
  have hqi := qf_nonneg hA hd (x i)
  exact ⟨key _ i ((qf_fst hd _).trans (mul_le_mul_of_nonneg_right (le_max_left _ _) hqi)),
    key _ i ((qf_snd hd _).trans (mul_le_mul_of_nonneg_right (le_max_right _ _) hqi))⟩

/-! ## Step functions -/

namespace StepArgs

theorem acc_sd_input (a : StepArgs d m) (hc : a.coupling = none) (hp : a.precomputed = none) (hT : a.startT < a.goalT)
    (Y V : Vec d) (t : ℝ) (w : Vec d) (k : Fin d) :
    a.acc Y V a.initialCdd (a.ft.phaseAt t) (a.goalT - a.startT) (a.ft.force (a.ft.phaseAt t)) w k =
      -(a.alphaY k * a.betaY k / (a.goalT - a.startT) ^ 2) * (Y k - a.goalY k) -
        a.alphaY k / (a.goalT - a.startT) * V k + (a.drive k t + w k / (a.goalT - a.startT) ^ 2) := by
  have hτ : a.goalT - a.startT ≠ 0 := by linarith
  rw [acc_apply a hc]
  unfold Spec.dmpAcceleration drive ForcingTerm.call initialCdd
  rw [hp]
  simp only [Pi.zero_apply, add_zero]
  cases a.smooth
  · simp only [Bool.false_eq_true, if_false]; field_simp; ring
  · simp only [if_true]; field_simp; ring

theorem eulerBody_sd_input (a : StepArgs d m) (hc : a.coupling = none) (hp : a.precomputed = none)
    (hT : a.startT < a.goalT) (h t : ℝ) (s : Vec d × Vec d) (k : Fin d) :
    ((a.eulerBody h t s).1 k - a.goalY k, (a.eulerBody h t s).2 k) =
      sdStep (a.alphaY k * a.betaY k / (a.goalT - a.startT) ^ 2) (a.alphaY k / (a.goalT - a.startT)) h
        (a.drive k t + a.pGain * a.trackingError k / h / (a.goalT - a.startT) ^ 2) (s.1 k - a.goalY k, s.2 k) := by
  rw [eulerBody_none a hc]
  simp only [Pi.add_apply, Pi.smul_apply, smul_eq_mul, acc_sd_input a hc hp hT, sdStep]
  ext
  · simp only; ring
  · simp only

theorem foldl_sd_input (a : StepArgs d m) (hc : a.coupling = none) (hp : a.precomputed = none)
    (hT : a.startT < a.goalT) (k : Fin d) (L : List (ℝ × ℝ)) :
    ∀ s : Vec d × Vec d,
      ((L.foldl (fun s p => a.eulerBody p.1 p.2 s) s).1 k - a.goalY k, (L.foldl (fun s p => a.eulerBody p.1 p.2 s) s).2 k) =
        L.foldl (fun s p => sdStep (a.alphaY k * a.betaY k / (a.goalT - a.startT) ^ 2)
          (a.alphaY k / (a.goalT - a.startT)) p.1
          ((fun p : ℝ × ℝ => a.drive k p.2 + a.pGain * a.trackingError k / p.1 / (a.goalT - a.startT) ^ 2) p) s)
          (s.1 k - a.goalY k, s.2 k) := by
  induction L with
  | nil => intro s; rfl
  | cons p L ih =>
    intro s
    rw [List.foldl_cons, List.foldl_cons, ih, eulerBody_sd_input a hc hp hT]

theorem stepRk4_sd_input (a : StepArgs d m) (hc : a.coupling = none) (hp : a.precomputed = none)
    (hT : a.startT < a.goalT) {lastT t : ℝ} {s s' : Vec d × Vec d}
    (h : a.stepRk4 lastT t s = .ok s') (k : Fin d) :
    (s'.1 k - a.goalY k, s'.2 k) =
      rkStep (a.alphaY k * a.betaY k / (a.goalT - a.startT) ^ 2) (a.alphaY k / (a.goalT - a.startT)) (t - lastT)
        (a.drive k t + a.pGain * a.trackingError k / (t - lastT) / (a.goalT - a.startT) ^ 2)
        (a.drive k (t + (t - lastT) / 2) + a.pGain * a.trackingError k / (t - lastT) / (a.goalT - a.startT) ^ 2)
        (a.drive k (t + (t - lastT)) + a.pGain * a.trackingError k / (t - lastT) / (a.goalT - a.startT) ^ 2)
        (s.1 k - a.goalY k, s.2 k) := by
  unfold stepRk4 addCd at h
  simp only [hc] at h
  have h2 : 1 / 2 * (t - lastT) = (t - lastT) / 2 := by ring
  injection h with h
  subst h
  simp only [h2, Pi.add_apply, Pi.smul_apply, smul_eq_mul, acc_sd_input a hc hp hT, rkStep]
  ext
  · simp only; ring
  · simp only; ring

/-- Two step arguments describe the same system in dimension `k`. -/
structure HasGains (a : StepArgs d m) (k : Fin d) (intDt τ α β pGain : ℝ) : Prop where
  coupling : a.coupling = none
  precomputed : a.precomputed = none
  startT : a.startT < a.goalT
  duration : a.goalT - a.startT = τ
  alphaY : a.alphaY k = α
  betaY : a.betaY k = β
  intDt : a.intDt = intDt
  pGain : a.pGain = pGain

end StepArgs

theorem Spec.Stable.sub {sf : StepFunction} {dt intDt τ α β : ℝ} (hst : Spec.Stable sf dt intDt τ α β) (hτ : 0 < τ) (hα : 0 < α)
    (hsf : sf = .euler ∨ sf = .eulerCython) : 0 < intDt ∧ StableSub (α * β / τ ^ 2) (α / τ) dt intDt := by
  rcases hst with ⟨-, hint, h⟩ | ⟨-, hint, n, hn, hn', h⟩ | ⟨hsf', h1, h2⟩
  · refine ⟨hint, .inl ?_⟩
    have e1 : 2 * intDt * (2 * (α * β / τ ^ 2) + (α / τ) ^ 2) * (α * β / τ ^ 2 + (α / τ) ^ 2) =
        (2 * intDt * (α + 2 * β) * (α + β)) * (α ^ 2 / τ ^ 4) := by
      field_simp; ring
    have e2 : α * β / τ ^ 2 * (α / τ) = β * τ * (α ^ 2 / τ ^ 4) := by
      field_simp
    rw [e1, e2]
    exact mul_le_mul_of_nonneg_right h (by positivity)
  · refine ⟨hint, .inr ⟨⟨n, hn, hn'⟩, ?_⟩⟩
    have e1 : intDt ^ 2 * (α * β / τ ^ 2) + 2 * (intDt * (α / τ)) =
        (intDt ^ 2 * (α * β) + 2 * (intDt * α * τ)) / τ ^ 2 := by field_simp
    rw [e1, div_lt_iff₀ (by positivity)]
    exact h
  · rcases hsf with rfl | rfl <;> rcases hsf' with h | h <;> cases h

/-- One step contracts a form of the difference of two states, up to the difference of the tracking errors. -/
theorem run_contraction {sf : StepFunction} {dt intDt τ α β : ℝ} (pGain : ℝ) (hτ : 0 < τ) (hdt : 0 < dt) (hα : 0 < α) (hβ : 0 < β)
    (hst : Spec.Stable sf dt intDt τ α β) :
    ∃ A B C ρ K : ℝ, 0 < A ∧ B ^ 2 < 4 * A * C ∧ 0 ≤ ρ ∧ ρ < 1 ∧ 0 ≤ K ∧
      ∀ (a : StepArgs d m) (k : Fin d) (e e' : Vec d), a.HasGains k intDt τ α β pGain → ∀ t, a.startT ≤ t →
        ∀ x x' y y', sf.run { a with trackingError := e } t (t + dt) x = .ok y →
          sf.run { a with trackingError := e' } t (t + dt) x' = .ok y' →
          qf A B C (dev y' y k) ≤ ρ * qf A B C (dev x' x k) + K * (e' k - e k) ^ 2 := by
  have hk : 0 < α * β / τ ^ 2 := by positivity
  have hc : 0 < α / τ := by positivity
  by_cases hsf : sf = .euler ∨ sf = .eulerCython
  · obtain ⟨hint, hsub⟩ := hst.sub hτ hα hsf
    obtain ⟨A, B, C, ρ, K, hA, hd, hρ0, hρ, hK, h⟩ := euler_contraction hk hc hint hdt hsub
    refine ⟨A, B, C, ρ, K * (pGain / τ ^ 2) ^ 2, hA, hd, hρ0, hρ, by positivity, ?_⟩
    intro a k e e' ha t ht x x' y y' hy hy'
    obtain ⟨hc', hp', hT', rfl, rfl, rfl, rfl, rfl⟩ := ha
    rw [run_euler_eq ({ a with trackingError := e } : StepArgs d m) hc' hp' hsf hint hT' (by linarith)
      (show a.startT < t + dt by linarith)] at hy
    rw [run_euler_eq ({ a with trackingError := e' } : StepArgs d m) hc' hp' hsf hint hT' (by linarith)
      (show a.startT < t + dt by linarith)] at hy'
    injection hy with hy
    injection hy' with hy'
    have h1 := ({ a with trackingError := e } : StepArgs d m).foldl_sd_input hc' hp' hT' k (subSteps a.intDt (t + dt) t) x
    have h2 := ({ a with trackingError := e' } : StepArgs d m).foldl_sd_input hc' hp' hT' k (subSteps a.intDt (t + dt) t) x'
    rw [hy] at h1
    rw [hy'] at h2
    have e1 : dev y' y k = (y'.1 k - a.goalY k, y'.2 k) - (y.1 k - a.goalY k, y.2 k) := by
      unfold dev; ext <;> simp
    have e2 : dev x' x k = (x'.1 k - a.goalY k, x'.2 k) - (x.1 k - a.goalY k, x.2 k) := by
      unfold dev; ext <;> simp
    have h3 := h t (a.pGain * (e' k - e k) / (a.goalT - a.startT) ^ 2) (dev x' x k)
    have e3 : dev y' y k = (subSteps a.intDt (t + dt) t).foldl (fun s p =>
        sdStep (a.alphaY k * a.betaY k / (a.goalT - a.startT) ^ 2) (a.alphaY k / (a.goalT - a.startT)) p.1
          (a.pGain * (e' k - e k) / (a.goalT - a.startT) ^ 2 / p.1) s) (dev x' x k) := by
      rw [e1, e2]
      refine (congrArg₂ (· - ·) h2 h1).trans ?_
      rw [sdFold_sub]
      congr 1
      funext s p
      congr 1
      show a.drive k p.2 + a.pGain * e' k / p.1 / (a.goalT - a.startT) ^ 2 -
        (a.drive k p.2 + a.pGain * e k / p.1 / (a.goalT - a.startT) ^ 2) = _
      ring
    rw [e3]
    refine h3.trans (le_of_eq ?_)
    ring
  · rcases hst with ⟨h', -, -⟩ | ⟨h', -, -⟩ | ⟨hsf', h1, h2⟩
    · exact absurd h' hsf
    · exact absurd h' hsf
    obtain ⟨A, B, C, ρ, K, hA, hd, hρ0, hρ, hK, h⟩ := rkStep_stable (h := dt) hk hc hdt
      (by
        have e1 : dt * (α * β / τ ^ 2) = (dt * β) * (α / τ ^ 2) := by ring
        have e2 : α / τ = τ * (α / τ ^ 2) := by field_simp
        rw [e1, e2]
        exact mul_lt_mul_of_pos_right h1 (by positivity))
      (by
        have e1 : 2 * (dt * (α / τ)) = 2 * (dt * α * τ) / τ ^ 2 := by field_simp
        have e2 : 4 + dt ^ 2 * (α * β / τ ^ 2) = (4 * τ ^ 2 + dt ^ 2 * (α * β)) / τ ^ 2 := by field_simp
        rw [e1, e2]
        exact div_lt_div_of_pos_right h2 (by positivity))
    refine ⟨A, B, C, ρ, K * (pGain / dt / τ ^ 2) ^ 2, hA, hd, hρ0, hρ, by positivity, ?_⟩
    intro a k e e' ha t ht x x' y y' hy hy'
    obtain ⟨hc', hp', hT', rfl, rfl, rfl, rfl, rfl⟩ := ha
    have hy2 : ({ a with trackingError := e } : StepArgs d m).stepRk4 t (t + dt) x = .ok y := by
      rcases hsf' with rfl | rfl
      · exact hy
      · rw [← C10_rk4_cython_eq_python]; exact hy
    have hy2' : ({ a with trackingError := e' } : StepArgs d m).stepRk4 t (t + dt) x' = .ok y' := by
      rcases hsf' with rfl | rfl
      · exact hy'
      · rw [← C10_rk4_cython_eq_python]; exact hy'
    have h1 := ({ a with trackingError := e } : StepArgs d m).stepRk4_sd_input hc' hp' hT' hy2 k
    have h2 := ({ a with trackingError := e' } : StepArgs d m).stepRk4_sd_input hc' hp' hT' hy2' k
    have e1 : dev y' y k = (y'.1 k - a.goalY k, y'.2 k) - (y.1 k - a.goalY k, y.2 k) := by
      unfold dev; ext <;> simp
    have e2 : dev x' x k = (x'.1 k - a.goalY k, x'.2 k) - (x.1 k - a.goalY k, x.2 k) := by
      unfold dev; ext <;> simp
    set w := a.pGain * (e' k - e k) / dt / (a.goalT - a.startT) ^ 2 with hw
    have e3 : dev y' y k = rkStep (a.alphaY k * a.betaY k / (a.goalT - a.startT) ^ 2) (a.alphaY k / (a.goalT - a.startT)) dt
        w w w (dev x' x k) := by
      rw [e1, e2]
      refine (congrArg₂ (· - ·) h2 h1).trans ?_
      rw [rkStep_sub]
      have hdrive : ∀ T, (({ a with trackingError := e' } : StepArgs d m).drive k T +
          a.pGain * e' k / (t + dt - t) / (a.goalT - a.startT) ^ 2) -
          (({ a with trackingError := e } : StepArgs d m).drive k T +
          a.pGain * e k / (t + dt - t) / (a.goalT - a.startT) ^ 2) = w := by
        intro T
        show (a.drive k T + _) - (a.drive k T + _) = _
        rw [hw, add_sub_cancel_left]
        ring
      show rkStep _ _ (t + dt - t) ((_ + a.pGain * e' k / (t + dt - t) / (a.goalT - a.startT) ^ 2) - _)
        ((_ + a.pGain * e' k / (t + dt - t) / (a.goalT - a.startT) ^ 2) - _)
        ((_ + a.pGain * e' k / (t + dt - t) / (a.goalT - a.startT) ^ 2) - _) _ = _
      rw [hdrive, hdrive, hdrive, add_sub_cancel_left]
    rw [e3]
    refine (h w w w (w ^ 2) _ le_rfl le_rfl le_rfl).trans (le_of_eq ?_)
    rw [hw]
    ring

/-- Likewise for DMPs with final velocity. -/
theorem fv_contraction {dt intDt τ α β : ℝ} (pGain : ℝ) (hτ : 0 < τ) (hdt : 0 < dt) (hα : 0 < α) (hβ : 0 < β)
    (hst : Spec.Stable .euler dt intDt τ α β) :
    ∃ A B C ρ K : ℝ, 0 < A ∧ B ^ 2 < 4 * A * C ∧ 0 ≤ ρ ∧ ρ < 1 ∧ 0 ≤ K ∧
      ∀ (a : StepArgs d m) (k : Fin d) (e e' : Vec d), a.HasGains k intDt τ α β pGain → ∀ t, a.startT ≤ t →
        ∀ x x' y y', ({ a with trackingError := e } : StepArgs d m).fvStep t (t + dt) x = .ok y →
          ({ a with trackingError := e' } : StepArgs d m).fvStep t (t + dt) x' = .ok y' →
          qf A B C (dev y' y k) ≤ ρ * qf A B C (dev x' x k) + K * (e' k - e k) ^ 2 := by
  have hk : 0 < α * β / τ ^ 2 := by positivity
  have hc : 0 < α / τ := by positivity
  obtain ⟨hint, hsub⟩ := hst.sub hτ hα (.inl rfl)
  obtain ⟨A, B, C, ρ, K, hA, hd, hρ0, hρ, hK, h⟩ := euler_contraction hk hc hint hdt hsub
  refine ⟨A, B, C, ρ, K * (pGain / τ ^ 2) ^ 2, hA, hd, hρ0, hρ, by positivity, ?_⟩
  intro a k e e' ha t ht x x' y y' hy hy'
  obtain ⟨hc', hp', hT', rfl, rfl, rfl, rfl, rfl⟩ := ha
  obtain ⟨c, hcs, -⟩ := C29_solve_constraints hT'.ne a.startY a.startYd a.startYdd a.goalY a.goalYd a.goalYdd
  have hfold : ∀ (e : Vec d) s, ({ a with trackingError := e } : StepArgs d m).fvStep t (t + dt) s =
      .ok ((subSteps a.intDt (t + dt) t).foldl (fun s p => ({ a with trackingError := e } : StepArgs d m).fvBody c p.1 p.2 s) s) := by
    intro e s
    unfold StepArgs.fvStep
    rw [if_neg (not_le.2 hT'), if_neg (not_le.2 (show a.startT < t + dt by linarith)), hcs]
    exact intLoop_eq _ hint _ _
  rw [hfold] at hy hy'
  injection hy with hy
  injection hy' with hy'
  set τ := a.goalT - a.startT with hτdef
  have hbody : ∀ (h T : ℝ) (s s' : Vec d × Vec d),
      dev (({ a with trackingError := e' } : StepArgs d m).fvBody c h T s')
        (({ a with trackingError := e } : StepArgs d m).fvBody c h T s) k =
      sdStep (a.alphaY k * a.betaY k / τ ^ 2) (a.alphaY k / τ) h (a.pGain * (e' k - e k) / τ ^ 2 / h) (dev s' s k) := by
    intro h T s s'
    have hcc : ∀ (e : Vec d) s, ({ a with trackingError := e } : StepArgs d m).fvCoupling s = (0, 0) := by
      intro e s
      unfold StepArgs.fvCoupling
      simp only [hc', hp']
    simp only [StepArgs.fvBody, hcc, dev, sdStep, Pi.zero_apply, ← hτdef]
    ext
    · simp only; field_simp; ring
    · simp only; field_simp; ring
  have hdev : ∀ (L : List (ℝ × ℝ)) (s s' : Vec d × Vec d),
      dev (L.foldl (fun s p => ({ a with trackingError := e' } : StepArgs d m).fvBody c p.1 p.2 s) s')
        (L.foldl (fun s p => ({ a with trackingError := e } : StepArgs d m).fvBody c p.1 p.2 s) s) k =
      L.foldl (fun s p => sdStep (a.alphaY k * a.betaY k / τ ^ 2) (a.alphaY k / τ) p.1
        (a.pGain * (e' k - e k) / τ ^ 2 / p.1) s) (dev s' s k) := by
    intro L
    induction L with
    | nil => intro s s'; rfl
    | cons p L ih =>
      intro s s'
      rw [List.foldl_cons, List.foldl_cons, List.foldl_cons, ih, hbody]
  rw [← hy, ← hy', hdev]
  refine (h t _ _).trans (le_of_eq ?_)
  ring

/-- One step of a spring-damper system contracts a form of the difference of two states. -/
theorem springDamper_contraction {k dt intDt : ℝ} {c : Option ℝ} (hst : Spec.StableSpring k (Spec.damping k c) dt intDt) :
    ∃ A B C ρ : ℝ, 0 < A ∧ B ^ 2 < 4 * A * C ∧ 0 ≤ ρ ∧ ρ < 1 ∧ ∀ (goalY : Vec d) t x x' y y' j,
      springDamperStep goalY k c none none intDt t (t + dt) x = .ok y →
      springDamperStep goalY k c none none intDt t (t + dt) x' = .ok y' →
      qf A B C (dev y' y j) ≤ ρ * qf A B C (dev x' x j) := by
  obtain ⟨hk, hc, hdt, hint, h⟩ := hst
  obtain ⟨A, B, C, ρ, K, hA, hd, hρ0, hρ, -, hq⟩ := euler_contraction hk hc hint hdt h
  refine ⟨A, B, C, ρ, hA, hd, hρ0, hρ, fun goalY t x x' y y' j hy hy' => ?_⟩
  rw [springDamperStep_eq _ _ _ _ _ hint] at hy hy'
  injection hy with hy
  injection hy' with hy'
  have h1 := springDamper_foldl goalY k (Spec.damping k c) j (subSteps intDt (t + dt) t) x
  have h2 := springDamper_foldl goalY k (Spec.damping k c) j (subSteps intDt (t + dt) t) x'
  rw [hy] at h1
  rw [hy'] at h2
  have e1 : dev y' y j = (y'.1 j - goalY j, y'.2 j) - (y.1 j - goalY j, y.2 j) := by
    unfold dev; ext <;> simp
  have e2 : dev x' x j = (x'.1 j - goalY j, x'.2 j) - (x.1 j - goalY j, x.2 j) := by
    unfold dev; ext <;> simp
  have h3 := hq t 0 (dev x' x j)
  have e3 : dev y' y j = (subSteps intDt (t + dt) t).foldl (fun s p => sdStep k (Spec.damping k c) p.1 (0 / p.1) s) (dev x' x j) := by
    rw [e1, e2, h1, h2, sdFold_sub k (Spec.damping k c) (fun _ => 0) (fun _ => 0)]
    simp only [sub_zero, zero_div]
  rw [e3]
  refine h3.trans (le_of_eq ?_)
  ring

/-- States that are disturbed before each step. -/
theorem bound_of_noisy {A B C ρ K : ℝ} (hA : 0 < A) (hd : B ^ 2 < 4 * A * C) (hρ0 : 0 ≤ ρ) (hρ : ρ < 1) (hK : 0 ≤ K) :
    ∃ M : ℝ, 0 ≤ M ∧ ∀ (δ : ℝ) (z D : ℕ → ℝ × ℝ), 0 ≤ δ → |(z 0).1| ≤ δ → |(z 0).2| ≤ δ →
      (∀ i, |(z (i + 1)).1 - (D i).1| ≤ δ ∧ |(z (i + 1)).2 - (D i).2| ≤ δ) →
      (∀ i, qf A B C (D i) ≤ ρ * qf A B C (z i) + K * δ ^ 2) → ∀ i, |(D i).1| ≤ M * δ ∧ |(D i).2| ≤ M * δ := by
  have hC : 0 < C := by
    have : 0 < A * C := by nlinarith [sq_nonneg B]
    exact (pos_iff_pos_of_mul_pos this).1 hA
  set P := A + |B| + C with hP
  have hP0 : 0 ≤ P := by positivity
  have hn : ∀ (δ : ℝ) (n : ℝ × ℝ), |n.1| ≤ δ → |n.2| ≤ δ → qf A B C n ≤ P * δ ^ 2 := by
    intro δ n h1 h2
    have hδ : 0 ≤ δ := (abs_nonneg _).trans h1
    have e1 : n.1 ^ 2 ≤ δ ^ 2 := sq_le_sq' (neg_le_of_abs_le h1) (le_of_abs_le h1)
    have e2 : n.2 ^ 2 ≤ δ ^ 2 := sq_le_sq' (neg_le_of_abs_le h2) (le_of_abs_le h2)
    have e3 : B * n.1 * n.2 ≤ |B| * δ ^ 2 := by
      calc B * n.1 * n.2 ≤ |B * n.1 * n.2| := le_abs_self _
        _ = |B| * (|n.1| * |n.2|) := by rw [abs_mul, abs_mul, mul_assoc]
        _ ≤ |B| * (δ * δ) := by gcongr
        _ = _ := by ring
    unfold qf
    nlinarith
  -- room between the contraction and 1
  set ε := (1 - ρ) / 2 with hε
  have hε0 : 0 < ε := by rw [hε]; linarith
  have hρ' : (1 + ε) * ρ < 1 := by rw [hε]; nlinarith
  obtain ⟨M, hM0, hM⟩ := bound_of_contraction (K := (1 + ε) * K + (1 + 1 / ε) * P) hA hd
    (by positivity : 0 ≤ (1 + ε) * ρ) hρ' (by positivity)
  refine ⟨M + 1, by positivity, fun δ z D hδ h1 h2 hz hD => ?_⟩
  let x : ℕ → ℝ × ℝ := fun i => match i with
    | 0 => 0
    | i + 1 => z i
  have hx := hM δ x hδ rfl (by
    intro i
    cases i with
    | zero =>
      show qf A B C (z 0) ≤ (1 + ε) * ρ * qf A B C (0 : ℝ × ℝ) + _
      have e0 : qf A B C (0 : ℝ × ℝ) = 0 := by simp [qf]
      rw [e0, mul_zero, zero_add]
      refine (hn δ _ h1 h2).trans (mul_le_mul_of_nonneg_right ?_ (sq_nonneg δ))
      have : 0 ≤ (1 + ε) * K + 1 / ε * P := by positivity
      linarith
    | succ i =>
      show qf A B C (z (i + 1)) ≤ (1 + ε) * ρ * qf A B C (z i) + _
      have hy := qf_young hA hd hε0 (D i) (z (i + 1) - D i)
      have e0 : ((D i).1 + (z (i + 1) - D i).1, (D i).2 + (z (i + 1) - D i).2) = z (i + 1) := by
        ext <;> simp
      rw [e0] at hy
      refine hy.trans ?_
      have e1 := mul_le_mul_of_nonneg_left (hD i) (by positivity : 0 ≤ 1 + ε)
      have e2 := mul_le_mul_of_nonneg_left (hn δ (z (i + 1) - D i) (hz i).1 (hz i).2) (by positivity : 0 ≤ 1 + 1 / ε)
      nlinarith)
  intro i
  have hi := hx (i + 2)
  have hzi := hz i
  change |(z (i + 1)).1| ≤ M * δ ∧ |(z (i + 1)).2| ≤ M * δ at hi
  constructor
  · have := abs_sub_abs_le_abs_sub (D i).1 (z (i + 1)).1
    rw [abs_sub_comm] at this
    linarith [hi.1, hzi.1]
  · have := abs_sub_abs_le_abs_sub (D i).2 (z (i + 1)).2
    rw [abs_sub_comm] at this
    linarith [hi.2, hzi.2]

end Verif
