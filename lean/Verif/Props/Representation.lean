import Verif.Props.Conditioning
import Verif.Props.Integration
import Verif.Props.IoClasses
import Verif.Props.Configure
import Verif.Lemmas.Approximation
import Verif.Spec.Representation
import Mathlib.Analysis.ODE.Gronwall

/-!
# C108: DMPs can represent every movement
-/

namespace Verif
open Spec Set
variable {d m : ℕ}

/-! ## Forces -/

/-- Basis functions are narrow if there are many of them. -/
theorem ForcingTerm.Made.gaussian_le {ft : ForcingTerm d m} {τ : ℝ} (h : ft.Made τ) {x : ℝ} (hx1 : x ≤ 1) (i : Fin m) :
    gaussianAt ft (τ * x) i ≤
      Real.exp (-(-Real.log (8 / 10) / 10000 * ((m : ℝ) - 1) ^ 2 * (x - i / ((m : ℝ) - 1)) ^ 2)) := by
  obtain ⟨ft0, h0, e⟩ := h.gaussianAt_eq
  rw [e]
  rw [DMP.initForcingTerm_ok_iff] at h0
  obtain ⟨hm, hT, -, rfl⟩ := create_ok h0
  have hm' : (0 : ℝ) < m - 1 := by
    have : (1 : ℝ) < m := by exact_mod_cast hm
    linarith
  have hα := log_hundred_pos
  have hexp : Real.exp (-(-Real.log (1 / 100 : ℝ))) = 1 / 100 := by rw [neg_neg, Real.exp_log (by norm_num)]
  set α := -Real.log (1 / 100 : ℝ) with hαd
  set L := -Real.log (8 / 10 : ℝ) with hL
  have hL0 : 0 < L := by
    have : Real.log (8 / 10 : ℝ) < 0 := Real.log_neg (by norm_num) (by norm_num)
    linarith
  have hz : phase (τ * x) α τ 0 = Real.exp (-α * x) := by
    unfold phase
    congr 1
    simp only [sub_zero]
    field_simp
  simp only [ForcingTerm.rbf, ForcingTerm.phaseAt, hz, initCenter_zero_start _ _ _ hm hT]
  apply Real.exp_le_exp.2
  have hi : (i : ℝ) / ((m : ℝ) - 1) ≤ 1 := by
    rw [div_le_one hm']
    have : ((i : ℕ) : ℝ) + 1 ≤ m := by exact_mod_cast i.isLt
    linarith
  have h1 := exp_separates hα hx1 hi
  rw [hexp] at h1
  set Z := (Real.exp (-α * x) - Real.exp (-α * (i / ((m : ℝ) - 1)))) ^ 2
  unfold ForcingTerm.initWidth
  simp only [initCenter_zero_start _ _ _ hm hT]
  set j : ℕ := if (i : ℕ) + 1 < m then (i : ℕ) else m - 2 with hj
  have hD : (Real.exp (-α * (((j + 1 : ℕ) : ℝ) / ((m : ℝ) - 1))) - Real.exp (-α * ((j : ℝ) / ((m : ℝ) - 1)))) ^ 2 ≤
      (α * (1 / ((m : ℝ) - 1))) ^ 2 := by
    have h2 := exp_lipschitz (a := (j : ℝ) / ((m : ℝ) - 1)) (b := ((j + 1 : ℕ) : ℝ) / ((m : ℝ) - 1)) hα (by positivity)
      (by gcongr; simp)
    have e2 : ((j + 1 : ℕ) : ℝ) / ((m : ℝ) - 1) - (j : ℝ) / ((m : ℝ) - 1) = 1 / ((m : ℝ) - 1) := by push_cast; ring
    rwa [e2] at h2
  have hD0 : 0 < (Real.exp (-α * (((j + 1 : ℕ) : ℝ) / ((m : ℝ) - 1))) - Real.exp (-α * ((j : ℝ) / ((m : ℝ) - 1)))) ^ 2 := by
    have : Real.exp (-α * (((j + 1 : ℕ) : ℝ) / ((m : ℝ) - 1))) < Real.exp (-α * ((j : ℝ) / ((m : ℝ) - 1))) := by
      apply Real.exp_lt_exp.2
      have : (j : ℝ) / ((m : ℝ) - 1) < ((j + 1 : ℕ) : ℝ) / ((m : ℝ) - 1) := by gcongr; simp
      nlinarith
    have : Real.exp (-α * (((j + 1 : ℕ) : ℝ) / ((m : ℝ) - 1))) - Real.exp (-α * ((j : ℝ) / ((m : ℝ) - 1))) ≠ 0 := by linarith
    positivity
  set D := (Real.exp (-α * (((j + 1 : ℕ) : ℝ) / ((m : ℝ) - 1))) - Real.exp (-α * ((j : ℝ) / ((m : ℝ) - 1)))) ^ 2
  have h3 : L / 10000 * ((m : ℝ) - 1) ^ 2 * (x - i / ((m : ℝ) - 1)) ^ 2 ≤ L / D * Z := by
    have h4 : L / (α * (1 / ((m : ℝ) - 1))) ^ 2 ≤ L / D := div_le_div_of_nonneg_left hL0.le hD0 hD
    have h5 : L / (α * (1 / ((m : ℝ) - 1))) ^ 2 * ((α * (1 / 100)) ^ 2 * (x - i / ((m : ℝ) - 1)) ^ 2) ≤ L / D * Z :=
      mul_le_mul h4 h1 (by positivity) (by positivity)
    refine le_trans (le_of_eq ?_) h5
    generalize x - (i : ℝ) / ((m : ℝ) - 1) = q
    field_simp
    ring
  linarith

/-- **C108 (forces).** Every continuous force profile of duration `τ` is approximated arbitrarily well by the forcing term of
every DMP with enough weights per dimension, at all times of the movement. -/
theorem C108_forces {τ : ℝ} (hτ : 0 < τ) {f : ℝ → Vec d} (hf : ∀ k, ContinuousOn (fun t => f t k) (Icc 0 τ)) {ε : ℝ}
    (hε : 0 < ε) :
    ∃ N, ∀ m : ℕ, N ≤ m → ∃ W : Fin d → Fin m → ℝ, ∀ s : DMP d m, s.Reachable → s.executionTime = τ → s.ft.weights = W →
      ∀ t ∈ Icc 0 τ, ∀ k, |s.ft.call t k - f t k| < ε := by
  classical
  have hL0 : 0 < -Real.log (8 / 10 : ℝ) / 10000 := by
    have : Real.log (8 / 10 : ℝ) < 0 := Real.log_neg (by norm_num) (by norm_num)
    have : 0 < -Real.log (8 / 10 : ℝ) := by linarith
    positivity
  have hα := log_hundred_pos
  set α := -Real.log (1 / 100 : ℝ) with hαd
  let g : Fin d → ℝ → ℝ := fun k x => f (τ * x) k / Real.exp (-α * x)
  have hg : ∀ k, ContinuousOn (g k) (Icc 0 1) := by
    intro k
    refine ContinuousOn.div ?_ (by fun_prop) (fun x _ => (Real.exp_pos _).ne')
    refine (hf k).comp (f := fun x => τ * x) (by fun_prop) ?_
    intro x hx
    exact ⟨mul_nonneg hτ.le hx.1, by have := mul_le_mul_of_nonneg_left hx.2 hτ.le; simpa using this⟩
  choose N hN using fun k => averages_approximate (hg k) (σ := 8 / 10) (A := -Real.log (8 / 10 : ℝ) / 10000) (by norm_num) hL0 hε
  refine ⟨2 + ∑ k, N k, fun m hm => ⟨fun k i => g k (i / ((m : ℝ) - 1)), ?_⟩⟩
  intro s hs hsτ hW t ht k
  have hmade := hs.made
  rw [hsτ] at hmade
  have hmm : 2 ≤ m := by omega
  have hm' : (0 : ℝ) < m - 1 := by
    have : (2 : ℝ) ≤ m := by exact_mod_cast hmm
    linarith
  have hwc := hmade.wellConditioned
  have hphase : ∀ t, s.ft.phaseAt t = Real.exp (-α * (t / τ)) := by
    intro t
    obtain ⟨ft0, h0, e1, e2, e3, -, -⟩ := hmade
    rw [DMP.initForcingTerm_ok_iff] at h0
    obtain ⟨-, -, -, rfl⟩ := create_ok h0
    simp only at e1 e2 e3
    simp only [ForcingTerm.phaseAt, phase, e1, e2, e3, sub_zero, mul_div_assoc, hαd]
  have hx : t / τ ∈ Icc (0 : ℝ) 1 := ⟨div_nonneg ht.1 hτ.le, (div_le_one hτ).2 ht.2⟩
  have hNk : N k ≤ m := by
    have : N k ≤ ∑ k, N k := Finset.single_le_sum (f := N) (fun _ _ => Nat.zero_le _) (Finset.mem_univ k)
    omega
  have key := hN k m hNk (fun i => i / ((m : ℝ) - 1)) (fun x i => gaussianAt s.ft (τ * x) i)
    (fun i => ⟨by positivity, by
      rw [div_le_one hm']
      have : ((i : ℕ) : ℝ) + 1 ≤ m := by exact_mod_cast i.isLt
      linarith⟩)
    (fun x hx => ⟨fun i => (Real.exp_pos _).le,
      (hwc (τ * x) (mul_nonneg hτ.le hx.1) (by have := mul_le_mul_of_nonneg_left hx.2 hτ.le; simpa using this)).1,
      fun i => hmade.gaussian_le hx.2 i⟩) (t / τ) hx
  have et : τ * (t / τ) = t := by field_simp
  simp only [et] at key
  have e1 : s.ft.call t k = Real.exp (-α * (t / τ)) *
      ∑ i : Fin m, g k (i / ((m : ℝ) - 1)) * (gaussianAt s.ft t i / ∑ j, gaussianAt s.ft t j) := by
    simp only [ForcingTerm.call, ForcingTerm.force, hW, ForcingTerm.activations, gaussianAt, ForcingTerm.rbf]
    rw [hphase]
  have e2 : f t k = Real.exp (-α * (t / τ)) * g k (t / τ) := by
    simp only [g, et]
    field_simp
  rw [e1, e2, ← mul_sub, abs_mul, abs_of_pos (Real.exp_pos _)]
  have h1 : Real.exp (-α * (t / τ)) ≤ 1 := Real.exp_le_one_iff.2 (by have := hx.1; nlinarith)
  calc _ ≤ 1 * _ := mul_le_mul_of_nonneg_right h1 (abs_nonneg _)
    _ < ε := by rw [one_mul]; exact key

/-! ## Movements -/

/-- Two solutions of a linear equation whose inputs differ by at most `η`. -/
theorem sd_perturbed {κ c τ η : ℝ} {u w : ℝ → ℝ} {x x' : ℝ → ℝ × ℝ}
    (hx : ∀ t ∈ Icc 0 τ, HasDerivWithinAt x (sdField κ c (x t) (u t)) (Icc 0 τ) t)
    (hx' : ∀ t ∈ Icc 0 τ, HasDerivWithinAt x' (sdField κ c (x' t) (w t)) (Icc 0 τ) t)
    (h0 : x 0 = x' 0) (hη : ∀ t ∈ Icc 0 τ, |w t - u t| ≤ η) :
    ∀ t ∈ Icc 0 τ, ‖x' t - x t‖ ≤ η * Real.exp ((1 + |κ| + |c|) * τ) := by
  intro t ht
  have hτ : 0 ≤ τ := ht.1.trans ht.2
  have hη0 : 0 ≤ η := (abs_nonneg _).trans (hη 0 ⟨le_refl _, hτ⟩)
  have hK : ((1 + |κ| + |c|).toNNReal : ℝ) = 1 + |κ| + |c| := Real.coe_toNNReal _ (by positivity)
  have hlip : ∀ t, LipschitzWith (1 + |κ| + |c|).toNNReal (fun x => sdField κ c x (u t)) := by
    intro t
    apply LipschitzWith.of_dist_le_mul
    intro y z
    rw [dist_eq_norm, dist_eq_norm, hK]
    have := sdField_lip κ c y z (u t) (u t)
    simpa using this
  have hright : ∀ {f : ℝ → ℝ × ℝ} {f' : ℝ × ℝ} {s : ℝ}, s ∈ Ico 0 τ → HasDerivWithinAt f f' (Icc 0 τ) s →
      HasDerivWithinAt f f' (Ici s) s := by
    intro f f' s hs h
    exact h.mono_of_mem_nhdsWithin (Filter.mem_of_superset (Icc_mem_nhdsGE hs.2) (Icc_subset_Icc_left hs.1))
  have key := dist_le_of_approx_trajectories_ODE (v := fun t x => sdField κ c x (u t)) (εf := η) (εg := 0) (δ := 0) hlip
    (f := x') (g := x) (f' := fun t => sdField κ c (x' t) (w t)) (g' := fun t => sdField κ c (x t) (u t))
    (fun s hs => (hx' s hs).continuousWithinAt) (fun s hs => hright hs (hx' s ⟨hs.1, hs.2.le⟩))
    (fun s hs => by
      rw [dist_eq_norm]
      have := sdField_lip κ c (x' s) (x' s) (w s) (u s)
      refine this.trans ?_
      simpa using hη s ⟨hs.1, hs.2.le⟩)
    (fun s hs => (hx s hs).continuousWithinAt) (fun s hs => hright hs (hx s ⟨hs.1, hs.2.le⟩))
    (fun s _ => by rw [dist_self])
    (by rw [h0, dist_self]) t ht
  rw [dist_eq_norm, hK, gronwallBound_of_K_ne_0 (by positivity)] at key
  refine key.trans ?_
  have hK1 : 1 ≤ 1 + |κ| + |c| := by have := abs_nonneg κ; have := abs_nonneg c; linarith
  have h1 : Real.exp ((1 + |κ| + |c|) * (t - 0)) ≤ Real.exp ((1 + |κ| + |c|) * τ) :=
    Real.exp_le_exp.2 (mul_le_mul_of_nonneg_left (by linarith [ht.2]) (by linarith))
  have h2 : (η + 0) / (1 + |κ| + |c|) ≤ η := by rw [add_zero]; exact div_le_self hη0 hK1
  have h3 : 0 ≤ Real.exp ((1 + |κ| + |c|) * (t - 0)) - 1 := by
    have := Real.one_le_exp (show 0 ≤ (1 + |κ| + |c|) * (t - 0) from mul_nonneg (by linarith) (by linarith [ht.1]))
    linarith
  show 0 * _ + _ ≤ _
  rw [zero_mul, zero_add]
  exact mul_le_mul h2 (by linarith) h3 hη0

/-- The acceleration of a DMP as that of a spring-damper system with input. -/
theorem dmpAcceleration_field (α β g s τ z f p q : ℝ) (hτ : τ ≠ 0) (sm : Bool) :
    Spec.dmpAcceleration α β g s τ sm z f p q = -(α * β / τ ^ 2) * (p - g) - α / τ * q +
      (f - α * (if sm then β * (g - s) * z else 0)) / τ ^ 2 := by
  unfold Spec.dmpAcceleration
  field_simp
  ring

/-- The force that makes a DMP follow a movement. -/
noncomputable def demandedForce (α β g : Vec d) (τ : ℝ) (sm : Bool) (y v a : ℝ → Vec d) (t : ℝ) : Vec d := fun k =>
  τ ^ 2 * a t k - α k * (β k * (g k - y t k) - τ * v t k -
    (if sm then β k * (g k - y 0 k) * Real.exp (-(-Real.log (1 / 100)) * (t / τ)) else 0))

/-- **C108 (differential equation).** Every twice continuously differentiable movement is the solution of the differential
equation of a DMP with enough weights, up to an arbitrarily small error of positions and velocities. -/
theorem C108_solution {τ : ℝ} (hτ : 0 < τ) {y v a : ℝ → Vec d} (h : TwiceDifferentiable τ y v a) (α β goal : Vec d)
    (smooth : Bool) {ε : ℝ} (hε : 0 < ε) :
    ∃ N, ∀ m : ℕ, N ≤ m → ∃ W : Fin d → Fin m → ℝ, ∀ s : DMP d m, s.Reachable → s.executionTime = τ → s.alphaY = α →
      s.betaY = β → s.goalY = goal → s.startY = y 0 → s.smooth = smooth → s.ft.weights = W →
      ∀ y' v', SolvesDmp s 0 (y 0, v 0) y' v' → ∀ t ∈ Icc 0 τ, ∀ k, |y' t k - y t k| < ε ∧ |v' t k - v t k| < ε := by
  classical
  -- growth of errors
  let K : Fin d → ℝ := fun k => Real.exp ((1 + |α k * β k / τ ^ 2| + |α k / τ|) * τ)
  have hKsum : ∀ k, K k ≤ ∑ k, K k := fun k =>
    Finset.single_le_sum (f := K) (fun _ _ => (Real.exp_pos _).le) (Finset.mem_univ k)
  set C := 1 + ∑ k, K k with hC
  have hC0 : 0 < C := by
    have : 0 ≤ ∑ k, K k := Finset.sum_nonneg fun k _ => (Real.exp_pos _).le
    linarith
  have hcont : ∀ k, ContinuousOn (fun t => demandedForce α β goal τ smooth y v a t k) (Icc 0 τ) := by
    intro k
    have hy : ContinuousOn (fun t => y t k) (Icc 0 τ) := fun t ht => (h.velocity t ht k).continuousWithinAt
    have hv : ContinuousOn (fun t => v t k) (Icc 0 τ) := fun t ht => (h.acceleration t ht k).continuousWithinAt
    have ha := h.continuous k
    unfold demandedForce
    cases smooth
    · simp only [Bool.false_eq_true, if_false]
      fun_prop
    · simp only [if_true]
      fun_prop
  obtain ⟨N, hN⟩ := C108_forces hτ hcont (ε := τ ^ 2 * (ε / C)) (by positivity)
  refine ⟨N, fun m hm => ?_⟩
  obtain ⟨W, hW⟩ := hN m hm
  refine ⟨W, ?_⟩
  intro s hs hsτ hsα hsβ hsg hs0 hsm hsW y' v' hsol t ht k
  have hforce := hW s hs hsτ hsW
  have hphase : ∀ t, s.ft.phaseAt t = Real.exp (-(-Real.log (1 / 100 : ℝ)) * (t / τ)) := by
    intro t
    obtain ⟨ft0, h0, e1, e2, e3, -, -⟩ := hs.made
    rw [DMP.initForcingTerm_ok_iff] at h0
    obtain ⟨-, -, -, rfl⟩ := create_ok h0
    simp only at e1 e2 e3
    simp only [ForcingTerm.phaseAt, phase, e1, e2, e3, sub_zero, mul_div_assoc, hsτ]
  set κ := α k * β k / τ ^ 2 with hκ
  set c := α k / τ with hc
  let u : ℝ → ℝ := fun t => (demandedForce α β goal τ smooth y v a t k -
    α k * (if smooth then β k * (goal k - y 0 k) * s.ft.phaseAt t else 0)) / τ ^ 2
  let w : ℝ → ℝ := fun t => (s.ft.call t k - α k * (if smooth then β k * (goal k - y 0 k) * s.ft.phaseAt t else 0)) / τ ^ 2
  have hx : ∀ t ∈ Icc 0 τ, HasDerivWithinAt (fun t => (y t k - goal k, v t k))
      (sdField κ c (y t k - goal k, v t k) (u t)) (Icc 0 τ) t := by
    intro t ht
    have h1 := ((h.velocity t ht k).sub_const (goal k)).prodMk (h.acceleration t ht k)
    have e : a t k = -κ * (y t k - goal k) - c * v t k + u t := by
      simp only [u, demandedForce, hphase, hκ, hc]
      cases smooth <;> simp <;> field_simp <;> ring
    rw [e] at h1
    exact h1
  have hx' : ∀ t ∈ Icc 0 τ, HasDerivWithinAt (fun t => (y' t k - goal k, v' t k))
      (sdField κ c (y' t k - goal k, v' t k) (w t)) (Icc 0 τ) t := by
    intro t ht
    have h1 := (((hsol.velocity t k).sub_const (goal k)).prodMk (hsol.acceleration t k)).hasDerivWithinAt (s := Icc 0 τ)
    rw [hsτ, hsα, hsβ, hsg, hs0, hsm, dmpAcceleration_field _ _ _ _ _ _ _ _ _ hτ.ne'] at h1
    exact h1
  have h0 : (y 0 k - goal k, v 0 k) = (y' 0 k - goal k, v' 0 k) := by
    have := hsol.start
    rw [Prod.mk.injEq] at this
    rw [this.1, this.2]
  have key := sd_perturbed (η := ε / C) hx hx' h0 (fun t ht => by
    have h1 := (hforce t ht k).le
    have e : w t - u t = (s.ft.call t k - demandedForce α β goal τ smooth y v a t k) / τ ^ 2 := by simp only [w, u]; ring
    rw [e, abs_div, abs_of_pos (show (0 : ℝ) < τ ^ 2 by positivity), div_le_iff₀ (by positivity)]
    linarith) t ht
  have hlt : ε / C * Real.exp ((1 + |κ| + |c|) * τ) < ε := by
    have h1 : Real.exp ((1 + |κ| + |c|) * τ) < C := by have := hKsum k; simp only [K] at this; linarith
    rw [div_mul_eq_mul_div, div_lt_iff₀ hC0]
    exact mul_lt_mul_of_pos_left h1 hε
  have h1 := (norm_fst_le _).trans_lt (key.trans_lt hlt)
  have h2 := (norm_snd_le _).trans_lt (key.trans_lt hlt)
  constructor
  · simpa using h1
  · simpa using h2

/-- Step sizes that keep an error proportional to the step size small. -/
theorem small_steps {C ε h : ℝ} (hε : 0 < ε) (h0 : 0 ≤ h) (hh : h ≤ ε / (2 * (|C| + 1))) : C * h < ε / 2 := by
  have h1 : C * h ≤ |C| * h := mul_le_mul_of_nonneg_right (le_abs_self C) h0
  rw [le_div_iff₀ (by positivity)] at hh
  rcases h0.eq_or_lt with h2 | h2
  · rw [← h2]; simpa using hε
  · nlinarith [abs_nonneg C]

theorem largestStep_nonneg {dt intDt : ℝ} (hdt : 0 < dt) (hint : 0 < intDt) (sf : StepFunction) :
    0 ≤ Spec.largestStep dt intDt sf := by
  cases sf <;> simp only [Spec.largestStep]
  · exact hdt.le
  · exact (lt_min hint hdt).le
  · exact (lt_min hint hdt).le
  · exact hdt.le

/-- **C108 (open_loop).** Let `y` be a twice continuously differentiable movement of duration `τ` that starts at rest. For
all gains, goals and every `ε > 0`: every DMP with enough weights per dimension has weights with which `open_loop`, for all
integrators with sufficiently small steps, returns at each time stamp up to `τ` the position of the movement up to an error
of less than `ε`. -/
theorem C108_open_loop {τ : ℝ} (hτ : 0 < τ) {y v a : ℝ → Vec d} (h : TwiceDifferentiable τ y v a) (hrest : v 0 = 0)
    (α β goal : Vec d) (smooth : Bool) {ε : ℝ} (hε : 0 < ε) :
    ∃ N, ∀ m : ℕ, N ≤ m → ∃ W : Fin d → Fin m → ℝ, ∀ s : DMP d m, s.Reachable → s.executionTime = τ → s.alphaY = α →
      s.betaY = β → s.goalY = goal → s.startY = y 0 → s.smooth = smooth → s.ft.weights = W →
      ∃ h > 0, ∀ (name : String) (sf : StepFunction) (dt intDt : ℝ), StepFunction.lookup name = .ok sf → 0 < dt →
        0 < intDt → Spec.largestStep dt intDt sf ≤ h →
        (∀ r : ℝ, 0 ≤ r →
          ∃ T Y, ((DMP.openLoop (some r) none name).exec { s with dt := dt, intDt := intDt }).1 = .ok (T, Y)) ∧
        ∀ runT T Y, ((DMP.openLoop runT none name).exec { s with dt := dt, intDt := intDt }).1 = .ok (T, Y) →
          ∀ i (hT : i < T.length) (hY : i < Y.length), T[i] ≤ τ → ∀ k, |Y[i] k - y T[i] k| < ε := by
  obtain ⟨N, hN⟩ := C108_solution hτ h α β goal smooth (half_pos hε)
  refine ⟨N, fun m hm => ?_⟩
  obtain ⟨W, hW⟩ := hN m hm
  refine ⟨W, ?_⟩
  intro s hs hsτ hsα hsβ hsg hs0 hsm hsW
  obtain ⟨y', v', hsol, -⟩ := C77_solution_exists hs 0 (y 0, v 0)
  have hclose := hW s hs hsτ hsα hsβ hsg hs0 hsm hsW y' v' hsol
  obtain ⟨C, hC⟩ := C77_open_loop hs (y := y') (v := v') (by rw [hs0, ← hrest]; exact hsol) τ
  refine ⟨ε / (2 * (|C| + 1)), by positivity, ?_⟩
  intro name sf dt intDt hname hdt hint hstep
  obtain ⟨hret, hrows⟩ := hC name sf dt intDt hname hdt hint
  refine ⟨hret, ?_⟩
  intro runT T Y hex i hT hY hi k
  have h1 := hrows runT T Y hex i hT hY hi k
  have h2 := small_steps hε (largestStep_nonneg hdt hint sf) hstep
  have hpos : 0 ≤ T[i] := by
    obtain ⟨xs, -, -, -, hr⟩ := openLoop_states (s := { s with dt := dt, intDt := intDt }) (coupling := none) hname hdt
      (fun i x => run_ok { s.openLoopArgs none with intDt := intDt } rfl rfl hs.valid.pos.2 hint sf
        (show (0 : ℝ) + i * dt ≤ 0 + (i + 1) * dt by linarith)
        (show (0 : ℝ) < 0 + (i + 1) * dt by
          have : 0 < ((i : ℝ) + 1) * dt := by positivity
          linarith) x)
    rw [(hr runT T Y hex i hT hY).1]
    show (0 : ℝ) ≤ i * dt
    positivity
  have h3 := (hclose T[i] ⟨hpos, hi⟩ k).1
  calc |Y[i] k - y T[i] k| = |(Y[i] k - y' T[i] k) + (y' T[i] k - y T[i] k)| := by ring_nf
    _ ≤ |Y[i] k - y' T[i] k| + |y' T[i] k - y T[i] k| := abs_add_le _ _
    _ < ε := by linarith

/-- **C108 (step).** The same for movements with any initial velocity and for positions and velocities returned by calls of
`step`. -/
theorem C108_step {τ : ℝ} (hτ : 0 < τ) {y v a : ℝ → Vec d} (h : TwiceDifferentiable τ y v a)
    (α β goal : Vec d) (smooth : Bool) {ε : ℝ} (hε : 0 < ε) :
    ∃ N, ∀ m : ℕ, N ≤ m → ∃ W : Fin d → Fin m → ℝ, ∀ s : DMP d m, s.Reachable → s.executionTime = τ → s.alphaY = α →
      s.betaY = β → s.goalY = goal → s.startY = y 0 → s.startYd = v 0 → s.smooth = smooth → s.ft.weights = W →
      s.t = 0 → s.initialized = false →
      ∃ h > 0, ∀ (sf : StepFunction) (dt intDt : ℝ), 0 < dt → 0 < intDt → Spec.largestStep dt intDt sf ≤ h →
        ∀ (obj : ℕ → DMP d m) (fb out : ℕ → Vec d × Vec d), obj 0 = { s with dt := dt, intDt := intDt } →
          Spec.Run (DMP.step none sf) obj fb out →
          (s.pGain = 0 ∨ (fb 0).1 = s.startY ∧ ∀ i, (fb (i + 1)).1 = (out i).1) →
          ∀ i : ℕ, (i + 1) * dt ≤ τ → ∀ k,
            |(out i).1 k - y ((i + 1) * dt) k| < ε ∧ |(out i).2 k - v ((i + 1) * dt) k| < ε := by
  obtain ⟨N, hN⟩ := C108_solution hτ h α β goal smooth (half_pos hε)
  refine ⟨N, fun m hm => ?_⟩
  obtain ⟨W, hW⟩ := hN m hm
  refine ⟨W, ?_⟩
  intro s hs hsτ hsα hsβ hsg hs0 hsv hsm hsW ht hini
  obtain ⟨y', v', hsol, -⟩ := C77_solution_exists hs 0 (y 0, v 0)
  have hclose := hW s hs hsτ hsα hsβ hsg hs0 hsm hsW y' v' hsol
  obtain ⟨C, hC⟩ := C77_step hs ht.ge (y := y') (v := v') (by rw [hini, hs0, hsv, ht]; exact hsol) τ
  refine ⟨ε / (2 * (|C| + 1)), by positivity, ?_⟩
  intro sf dt intDt hdt hint hstep obj fb out ho hrun hfb i hi k
  have h1 := hC sf dt intDt hdt hint obj fb out ho hrun (by rw [hini]; simpa using hfb) i
    (by rw [ht, zero_add]; exact hi) k
  rw [ht, zero_add] at h1
  have h2 := small_steps hε (largestStep_nonneg hdt hint sf) hstep
  have h3 := hclose ((i + 1) * dt) ⟨by positivity, hi⟩ k
  constructor
  · calc |(out i).1 k - y ((i + 1) * dt) k|
        = |((out i).1 k - y' ((i + 1) * dt) k) + (y' ((i + 1) * dt) k - y ((i + 1) * dt) k)| := by ring_nf
      _ ≤ _ := abs_add_le _ _
      _ < ε := by linarith [h1.1, h3.1]
  · calc |(out i).2 k - v ((i + 1) * dt) k|
        = |((out i).2 k - v' ((i + 1) * dt) k) + (v' ((i + 1) * dt) k - v ((i + 1) * dt) k)| := by ring_nf
      _ ≤ _ := abs_add_le _ _
      _ < ε := by linarith [h1.2, h3.2]

/-- Objects that meet the hypotheses can be made with the constructor, `configure` and `set_weights`. -/
theorem DMP.exists_configured (hm : 2 ≤ m) {τ : ℝ} (hτ : 0 < τ) (dt intDt pGain : ℝ) (smooth : Bool)
    (α β goal y0 v0 : Vec d) (W : Fin d → Fin m → ℝ) :
    ∃ s : DMP d m, s.Reachable ∧ s.executionTime = τ ∧ s.dt = dt ∧ s.intDt = intDt ∧ s.pGain = pGain ∧
      s.alphaY = α ∧ s.betaY = β ∧ s.goalY = goal ∧ s.startY = y0 ∧ s.startYd = v0 ∧ s.smooth = smooth ∧
      s.ft.weights = W ∧ s.t = 0 ∧ s.initialized = false := by
  obtain ⟨ft, hft⟩ := (DMP.initForcingTerm_isOk_iff (d := d) (m := m) τ).2 ⟨hm, hτ⟩
  obtain ⟨s0, h0, e0⟩ : ∃ s0, DMP.create d m τ dt intDt pGain smooth (.array1 (List.ofFn α)) (.array1 (List.ofFn β)) =
      .ok s0 ∧ s0 = { Movement.init d d with
        executionTime := τ, dt := dt, intDt := intDt, pGain := pGain, smooth := smooth
        ft := ft, alphaY := α, betaY := β, initialized := false } := by
    unfold DMP.create
    rw [hft, ensure1dArray_ofFn, ensure1dArray_ofFn]
    exact ⟨_, rfl, rfl⟩
  have hr0 := DMP.Reachable.create h0
  have hr1 := hr0.op (.configure { startY := some (List.ofFn y0), startYd := some (List.ofFn v0)
                                   goalY := some (List.ofFn goal) }) (r := .ok ())
    (s' := { s0 with startY := y0, startYd := v0, goalY := goal })
    (by
      rw [DMPOp.exec, DMP.exec_configure, C25_configure_sets _ _ (by simp [AllOk, FieldOk])]
      simp [newValue]) (by intro τ h; cases h)
  obtain ⟨s2, h1, h2, h3⟩ := C22_set_get_weights { s0 with startY := y0, startYd := v0, goalY := goal }
    (List.ofFn fun i : Fin (d * m) => W i.divNat i.modNat) (by simp)
  have hr2 := hr1.op (.setWeights _) h1 (by intro τ h; cases h)
  have hw : s2.ft.weights = W := by
    funext k i
    have e := C22_row_major s2 k i
    have e' := C22_row_major { s2 with ft := { s2.ft with weights := W } } k i
    rw [h2] at e
    have : List.ofFn (fun i : Fin (d * m) => W i.divNat i.modNat) =
        ({ s2 with ft := { s2.ft with weights := W } } : DMP d m).getWeights := rfl
    rw [this, e'] at e
    exact (Option.some.inj e).symm
  refine ⟨s2, hr2, ?_⟩
  subst e0
  have hM := congrArg DMP.toMovement h3
  have f1 := congrArg DMP.executionTime h3
  have f2 := congrArg DMP.dt h3
  have f3 := congrArg DMP.intDt h3
  have f4 := congrArg DMP.pGain h3
  have f5 := congrArg DMP.alphaY h3
  have f6 := congrArg DMP.betaY h3
  have f7 := congrArg DMP.smooth h3
  have f8 := congrArg DMP.initialized h3
  simp only at hM f1 f2 f3 f4 f5 f6 f7 f8
  rw [f1, f2, f3, f4, f5, f6, f7, f8, hM]
  exact ⟨rfl, rfl, rfl, rfl, rfl, rfl, rfl, rfl, rfl, rfl, hw, rfl, rfl⟩

/-- A movement along an ellipse that starts at rest in the first and at full speed in the second dimension. -/
example : TwiceDifferentiable (d := 2) 1 (fun t => ![Real.cos t, Real.sin t]) (fun t => ![-Real.sin t, Real.cos t])
    (fun t => ![-Real.cos t, -Real.sin t]) where
  velocity t _ k := by
    fin_cases k
    · exact (Real.hasDerivAt_cos t).hasDerivWithinAt
    · exact (Real.hasDerivAt_sin t).hasDerivWithinAt
  acceleration t _ k := by
    fin_cases k
    · exact (Real.hasDerivAt_sin t).neg.hasDerivWithinAt
    · exact (Real.hasDerivAt_cos t).hasDerivWithinAt
  continuous k := by
    fin_cases k
    · exact Real.continuous_cos.neg.continuousOn
    · exact Real.continuous_sin.neg.continuousOn

/-- A movement that starts at rest. -/
example : TwiceDifferentiable (d := 1) 2 (fun t _ => t ^ 3) (fun t _ => 3 * t ^ 2) (fun t _ => 6 * t) ∧
    (fun _ : Fin 1 => 3 * (0 : ℝ) ^ 2) = 0 := by
  refine ⟨⟨fun t _ k => ?_, fun t _ k => ?_, fun k => ?_⟩, by funext; simp⟩
  · simpa using (hasDerivAt_pow 3 t).hasDerivWithinAt
  · have := ((hasDerivAt_pow 2 t).const_mul 3).hasDerivWithinAt (s := Icc 0 2)
    rw [show (6 : ℝ) * t = 3 * (((2 : ℕ) : ℝ) * t ^ (2 - 1)) by norm_num; ring]
    exact this
  · fun_prop

end Verif
