import Verif.Props.Conditioning
import Verif.Props.PrompEM
import Verif.Lemmas.Approximation
import Verif.Spec.PrompRepresentation

/-!
# C110: ProMPs can represent every distribution of trajectories
-/

namespace Verif
open Spec Set Matrix
variable {d w : ℕ}

/-- Normalised bell-shaped weights are concentrated around the current time. -/
theorem tail_mass {σ A δ η : ℝ} (hσ : 0 < σ) (hA : 0 < A) (hδ : 0 < δ) (hη : 0 < η) :
    ∃ N, ∀ m : ℕ, N ≤ m → ∀ (u : Fin m → ℝ) (ψ : Fin m → ℝ) (x : ℝ), (∀ i, 0 ≤ ψ i) → σ ≤ ∑ i, ψ i →
      (∀ i, ψ i ≤ Real.exp (-(A * ((m : ℝ) - 1) ^ 2 * (x - u i) ^ 2))) →
      ∑ i, (if δ < |u i - x| then (1 : ℝ) else 0) * (ψ i / ∑ j, ψ j) ≤ η := by
  set K := A * δ ^ 2 with hK
  have hK0 : 0 < K := by positivity
  obtain ⟨N, hN⟩ := exists_nat_gt (2 / (K * σ * η))
  refine ⟨N + 2, ?_⟩
  intro m hm u ψ x h1 h2 h3
  have hm1 : (N : ℝ) + 1 ≤ (m : ℝ) - 1 := by
    have : ((N + 2 : ℕ) : ℝ) ≤ m := by exact_mod_cast hm
    push_cast at this
    linarith
  have hN0 : (0 : ℝ) ≤ N := Nat.cast_nonneg N
  set n : ℝ := (m : ℝ) - 1 with hn
  have hn1 : 1 ≤ n := by linarith
  set e := Real.exp (-(K * n ^ 2)) with he
  have key := average_close h1 hσ h2 0 (fun i => if δ < |u i - x| then (1 : ℝ) else 0) (ω := 0) (M := 1) (η := e) le_rfl
    (Real.exp_pos _).le
    (fun i => by split_ifs <;> simp)
    (fun i => by
      by_cases hd : δ < |u i - x|
      · right
        refine (h3 i).trans (Real.exp_le_exp.2 ?_)
        have h4 : δ ^ 2 ≤ (x - u i) ^ 2 := by
          rw [← sq_abs (x - u i), abs_sub_comm]
          exact pow_le_pow_left₀ hδ.le hd.le 2
        have h5 : K * n ^ 2 = A * n ^ 2 * δ ^ 2 := by rw [hK]; ring
        rw [h5]
        have := mul_le_mul_of_nonneg_left h4 (show 0 ≤ A * n ^ 2 by positivity)
        linarith
      · left; simp [hd])
  rw [sub_zero, zero_add, mul_one] at key
  refine (le_abs_self _).trans (key.trans ?_)
  have hexp : e ≤ 1 / (K * n ^ 2) := by
    rw [he, Real.exp_neg, ← one_div]
    apply one_div_le_one_div_of_le (by positivity)
    have := Real.add_one_le_exp (K * n ^ 2)
    linarith
  have hmn : (m : ℝ) ≤ 2 * n := by linarith
  have e1 : (m : ℝ) * e ≤ 2 * n * (1 / (K * n ^ 2)) := mul_le_mul hmn hexp (Real.exp_pos _).le (by positivity)
  have e2 : 2 * n * (1 / (K * n ^ 2)) = 2 / (K * n) := by field_simp
  rw [e2] at e1
  rw [div_le_iff₀ hσ]
  refine e1.trans ?_
  rw [div_lt_iff₀ (by positivity)] at hN
  rw [div_le_iff₀ (by positivity)]
  have : (N : ℝ) < n := by linarith
  have := mul_lt_mul_of_pos_right this (show 0 < K * σ * η by positivity)
  nlinarith

/-- Averages with respect to two families of weights. -/
theorem double_average {m : ℕ} {a b : Fin m → ℝ} (ha : ∀ i, 0 ≤ a i) (hb : ∀ i, 0 ≤ b i) (hsa : ∑ i, a i = 1)
    (hsb : ∑ i, b i = 1) {K : Fin m → Fin m → ℝ} {k ω M η : ℝ} (hM : 0 ≤ M) {p q : Fin m → ℝ}
    (hpa : ∑ i, p i * a i ≤ η) (hqb : ∑ i, q i * b i ≤ η)
    (hK : ∀ i j, |K i j - k| ≤ ω + M * (p i + q j)) :
    |∑ i, ∑ j, a i * K i j * b j - k| ≤ ω + M * (2 * η) := by
  have e : ∑ i, ∑ j, a i * K i j * b j - k = ∑ i, ∑ j, a i * b j * (K i j - k) := by
    have h1 : ∑ i, ∑ j, a i * b j * k = k := by
      have : ∀ i, ∑ j, a i * b j * k = a i * k := by
        intro i
        rw [← Finset.sum_mul, ← Finset.mul_sum, hsb, mul_one]
      simp only [this]
      rw [← Finset.sum_mul, hsa, one_mul]
    conv_lhs => rw [← h1]
    rw [← Finset.sum_sub_distrib]
    refine Finset.sum_congr rfl fun i _ => ?_
    rw [← Finset.sum_sub_distrib]
    refine Finset.sum_congr rfl fun j _ => ?_
    ring
  rw [e]
  have hle : ∀ i ∈ Finset.univ, |∑ j, a i * b j * (K i j - k)| ≤ ∑ j, a i * b j * (ω + M * (p i + q j)) := by
    intro i _
    refine (Finset.abs_sum_le_sum_abs _ _).trans (Finset.sum_le_sum fun j _ => ?_)
    rw [abs_mul, abs_of_nonneg (mul_nonneg (ha i) (hb j))]
    exact mul_le_mul_of_nonneg_left (hK i j) (mul_nonneg (ha i) (hb j))
  refine (Finset.abs_sum_le_sum_abs _ _).trans ((Finset.sum_le_sum hle).trans ?_)
  have e2 : ∀ i, ∑ j, a i * b j * (ω + M * (p i + q j)) = a i * ω + M * (p i * a i) + M * (a i * ∑ j, q j * b j) := by
    intro i
    have : ∀ j, a i * b j * (ω + M * (p i + q j)) = (a i * ω + M * (p i * a i)) * b j + M * a i * (q j * b j) := by
      intro j; ring
    simp only [this]
    rw [Finset.sum_add_distrib, ← Finset.mul_sum, ← Finset.mul_sum, hsb]
    ring
  simp only [e2]
  rw [Finset.sum_add_distrib, Finset.sum_add_distrib, ← Finset.sum_mul, ← Finset.mul_sum, ← Finset.mul_sum, ← Finset.sum_mul,
    hsa]
  nlinarith

theorem centre_mem (hw : 2 ≤ w) (a : Fin w) : centre w a ∈ Icc (0 : ℝ) 1 := by
  unfold centre
  rw [if_neg (by omega)]
  have h : (0 : ℝ) < w - 1 := by
    have : (2 : ℝ) ≤ w := by exact_mod_cast hw
    linarith
  refine ⟨by positivity, (div_le_one h).2 ?_⟩
  have : ((a : ℕ) : ℝ) + 1 ≤ w := by exact_mod_cast a.isLt
  linarith

/-- The basis functions of a ProMP are narrow, and one of them is always active. -/
theorem rbf_shape (hw : 2 ≤ w) {s : ℝ} (hs : s ∈ Icc (0 : ℝ) 1) :
    (∀ a, 0 ≤ rbf w s a) ∧ (7 / 10 : ℝ) ^ 4 ≤ ∑ a, rbf w s a ∧
      ∀ a, rbf w s a ≤ Real.exp (-(4 * Real.log (10 / 7) * ((w : ℝ) - 1) ^ 2 * (s - centre w a) ^ 2)) := by
  refine ⟨fun a => (Real.exp_pos _).le, ?_, ?_⟩
  · have := C84_promp (p := ProMP.init 1 w) Spec.Reachable.init (by omega) hs.1 hs.2
    simpa only [ProMP.gauss_eq (p := ProMP.init 1 w) rfl] using this
  · intro a
    unfold rbf
    refine Real.exp_le_exp.2 ?_
    have hw' : (2 : ℝ) ≤ w := by exact_mod_cast hw
    have hL := log_ten_sevenths
    have h1 : ((w : ℝ) - 1) ^ 2 ≤ (w : ℝ) ^ 2 := pow_le_pow_left₀ (by linarith) (by linarith) 2
    have h2 := mul_le_mul_of_nonneg_left h1 (show 0 ≤ 4 * Real.log (10 / 7) * (s - centre w a) ^ 2 by positivity)
    nlinarith

/-- **C110 (trajectories).** Every continuous trajectory is approximated arbitrarily well by `trajectory_from_weights` with some
weights, if there are enough of them. -/
theorem C110_trajectory {f : ℝ → Fin d → ℝ} (hf : ∀ k, ContinuousOn (fun s => f s k) (Icc 0 1)) {ε : ℝ} (hε : 0 < ε) :
    ∃ N, ∀ w : ℕ, N ≤ w → ∃ W : Vec (d * w), ∀ p : ProMP d w, Spec.Reachable p → ∀ {n : ℕ} (T : Vec n) (m : ℝ),
      IsLargest T m → 0 < m → (∀ i, 0 ≤ T i) →
      ∃ Y, ((p.trajectoryFromWeights W).exec (.float T)).1 = .ok Y ∧ ∀ i k, |Y i k - f (T i / m) k| < ε := by
  choose N hN using fun k => averages_approximate (hf k) (σ := (7 / 10) ^ 4) (A := 4 * Real.log (10 / 7)) (by norm_num)
    (by have := log_ten_sevenths; positivity) hε
  refine ⟨2 + ∑ k, N k, fun w hw => ⟨fun x => f (centre w x.modNat) x.divNat, ?_⟩⟩
  intro p hp n T m hm h0 hT
  have hw2 : 2 ≤ w := by omega
  rw [ProMP.exec_trajectoryFromWeights hp.centers hm]
  refine ⟨_, rfl, fun i k => ?_⟩
  have hs : T i / m ∈ Icc (0 : ℝ) 1 := ⟨div_nonneg (hT i) h0.le, (div_le_one h0).2 (hm.2 i)⟩
  have hNk : N k ≤ w := by
    have : N k ≤ ∑ k, N k := Finset.single_le_sum (f := N) (fun _ _ => Nat.zero_le _) (Finset.mem_univ k)
    omega
  have key := hN k w hNk (centre w) (fun s a => rbf w s a) (centre_mem hw2) (fun s hs => rbf_shape hw2 hs) _ hs
  convert key using 3
  simp only [Matrix.of_apply, prompPosition]
  refine Finset.sum_congr rfl fun a _ => ?_
  have h := finProdFinEquiv.symm_apply_apply (k, a)
  have h1 : (finProdFinEquiv (k, a)).divNat = k := congrArg Prod.fst h
  have h2 : (finProdFinEquiv (k, a)).modNat = a := congrArg Prod.snd h
  simp only [activation, flat, h1, h2]
  ring

/-- **C110.** Every distribution of trajectories with continuous mean and covariance is approximated arbitrarily well by a ProMP
with enough weights per dimension and some distribution of weights: mean, covariance and variance that the ProMP returns differ
by less than `ε` from those of the distribution, for all arrays of times. -/
theorem C110_distribution {μ : ℝ → Fin d → ℝ} {C : ℝ → Fin d → ℝ → Fin d → ℝ} (h : TrajectoryDistribution μ C) {ε : ℝ}
    (hε : 0 < ε) :
    ∃ N, ∀ w : ℕ, N ≤ w → ∃ (W : Vec (d * w)) (S : Matrix (Fin (d * w)) (Fin (d * w)) ℝ), S.PosSemidef ∧
      ∀ p : ProMP d w, Spec.Reachable p → ∀ {n : ℕ} (T : Vec n) (m : ℝ), IsLargest T m → 0 < m → (∀ i, 0 ≤ T i) →
      ∃ Y Q V, ((p.fromWeightDistribution W S).meanTrajectory.exec (.float T)).1 = .ok Y ∧
        ((p.fromWeightDistribution W S).covTrajectory.exec (.float T)).1 = .ok Q ∧
        ((p.fromWeightDistribution W S).varTrajectory.exec (.float T)).1 = .ok V ∧
        (∀ i k, |Y i k - μ (T i / m) k| < ε) ∧
        (∀ i k j l, |Q (flat k i) (flat l j) - C (T i / m) k (T j / m) l| < ε) ∧
        ∀ i k, |V i k - C (T i / m) k (T i / m) k| < ε := by
  classical
  obtain ⟨N1, hN1⟩ := C110_trajectory h.mean hε
  have hone : ∀ k l, ∃ N : ℕ, ∀ w : ℕ, N ≤ w → 2 ≤ w → ∀ s ∈ Icc (0 : ℝ) 1, ∀ t ∈ Icc (0 : ℝ) 1,
      |∑ a, ∑ b, activation w s a * C (centre w a) k (centre w b) l * activation w t b - C s k t l| < ε := by
    intro k l
    have hcomp : IsCompact (Icc (0 : ℝ) 1 ×ˢ Icc (0 : ℝ) 1) := isCompact_Icc.prod isCompact_Icc
    obtain ⟨B, hB⟩ := hcomp.exists_bound_of_continuousOn (h.cov k l)
    have hu := hcomp.uniformContinuousOn_of_continuous (h.cov k l)
    rw [Metric.uniformContinuousOn_iff_le] at hu
    obtain ⟨δ, hδ, hδu⟩ := hu (ε / 2) (by positivity)
    have h0 : (0 : ℝ) ∈ Icc (0 : ℝ) 1 := ⟨le_rfl, zero_le_one⟩
    have hB0 : 0 ≤ B := (norm_nonneg _).trans (hB (0, 0) ⟨h0, h0⟩)
    obtain ⟨N, hN⟩ := tail_mass (σ := (7 / 10) ^ 4) (A := 4 * Real.log (10 / 7)) (δ := δ) (η := ε / (8 * (2 * B + 1)))
      (by norm_num) (by have := log_ten_sevenths; positivity) hδ (by positivity)
    refine ⟨N, fun w hw hw2 s hs t ht => ?_⟩
    have hsum : ∀ s, ∑ a, activation w s a = 1 := by
      intro s
      have := ProMP.rbf_sum_pos (w := w) (by omega) s
      simp only [activation, ← Finset.sum_div]
      exact div_self this.ne'
    have hpos : ∀ s a, 0 ≤ activation w s a := fun s a =>
      div_nonneg (Real.exp_pos _).le (Finset.sum_nonneg fun b _ => (Real.exp_pos _).le)
    obtain ⟨s1, s2, s3⟩ := rbf_shape hw2 hs
    obtain ⟨t1, t2, t3⟩ := rbf_shape hw2 ht
    have key := double_average (hpos s) (hpos t) (hsum s) (hsum t) (K := fun a b => C (centre w a) k (centre w b) l)
      (k := C s k t l) (ω := ε / 2) (M := 2 * B + 1) (by positivity) (hN w hw (centre w) _ s s1 s2 s3)
      (hN w hw (centre w) _ t t1 t2 t3) (by
        intro a b
        have ca := centre_mem hw2 a
        have cb := centre_mem hw2 b
        by_cases hd : |centre w a - s| ≤ δ ∧ |centre w b - t| ≤ δ
        · have h1 := hδu (centre w a, centre w b) ⟨ca, cb⟩ (s, t) ⟨hs, ht⟩ (by
            rw [Prod.dist_eq, Real.dist_eq, Real.dist_eq]
            exact max_le hd.1 hd.2)
          rw [Real.dist_eq] at h1
          rw [if_neg (not_lt.2 hd.1), if_neg (not_lt.2 hd.2)]
          simpa using h1
        · have h1 := hB (centre w a, centre w b) ⟨ca, cb⟩
          have h2 := hB (s, t) ⟨hs, ht⟩
          rw [Real.norm_eq_abs] at h1 h2
          have h3 : |C (centre w a) k (centre w b) l - C s k t l| ≤ 2 * B := (abs_sub _ _).trans (by linarith)
          have h4 : (1 : ℝ) ≤ (if δ < |centre w a - s| then (1 : ℝ) else 0) + if δ < |centre w b - t| then (1 : ℝ) else 0 := by
            rw [not_and_or, not_le, not_le] at hd
            split_ifs with p q q
            · norm_num
            · norm_num
            · norm_num
            · exact absurd hd (by rw [not_or]; exact ⟨p, q⟩)
          nlinarith)
    refine key.trans_lt ?_
    have e : (2 * B + 1) * (2 * (ε / (8 * (2 * B + 1)))) = ε / 4 := by field_simp; ring
    rw [e]
    linarith
  choose N hN using hone
  refine ⟨2 + N1 + ∑ k, ∑ l, N k l, fun w hw => ?_⟩
  have hw2 : 2 ≤ w := by omega
  obtain ⟨W, hW⟩ := hN1 w (by omega)
  have hNkl : ∀ k l, N k l ≤ w := by
    intro k l
    have h1 : N k l ≤ ∑ l, N k l := Finset.single_le_sum (f := N k) (fun _ _ => Nat.zero_le _) (Finset.mem_univ l)
    have h2 : ∑ l, N k l ≤ ∑ k, ∑ l, N k l :=
      Finset.single_le_sum (f := fun k => ∑ l, N k l) (fun _ _ => Nat.zero_le _) (Finset.mem_univ k)
    omega
  let S : Matrix (Fin (d * w)) (Fin (d * w)) ℝ := Matrix.of fun x y => C (centre w x.modNat) x.divNat (centre w y.modNat) y.divNat
  have hS : ∀ k a l b, S (flat k a) (flat l b) = C (centre w a) k (centre w b) l := by
    intro k a l b
    have e1 := finProdFinEquiv.symm_apply_apply (k, a)
    have e2 := finProdFinEquiv.symm_apply_apply (l, b)
    have f1 : (finProdFinEquiv (k, a)).divNat = k := congrArg Prod.fst e1
    have f2 : (finProdFinEquiv (k, a)).modNat = a := congrArg Prod.snd e1
    have f3 : (finProdFinEquiv (l, b)).divNat = l := congrArg Prod.fst e2
    have f4 : (finProdFinEquiv (l, b)).modNat = b := congrArg Prod.snd e2
    simp only [S, flat, Matrix.of_apply, f1, f2, f3, f4]
  have hpsd : S.PosSemidef := by
    refine Matrix.PosSemidef.of_dotProduct_mulVec_nonneg ?_ ?_
    · ext x y
      simp only [S, Matrix.conjTranspose_apply, Matrix.of_apply, star_trivial]
      exact h.symm _ _ _ _
    · intro x
      have := h.nonneg (d * w) (fun i => centre w i.modNat) (fun i => i.divNat) x (fun i => centre_mem hw2 _)
      rw [star_trivial]
      refine this.trans (le_of_eq ?_)
      simp only [dotProduct, Matrix.mulVec, Finset.mul_sum, S, Matrix.of_apply]
      refine Finset.sum_congr rfl fun i _ => Finset.sum_congr rfl fun j _ => ?_
      ring
  refine ⟨W, S, hpsd, ?_⟩
  intro p hp n T m hm h0 hT
  have hs : ∀ i, T i / m ∈ Icc (0 : ℝ) 1 := fun i => ⟨div_nonneg (hT i) h0.le, (div_le_one h0).2 (hm.2 i)⟩
  have hq : (p.fromWeightDistribution W S).centers = linspace01 w := hp.centers
  obtain ⟨Y, hY, hYc⟩ := hW _ (hp.fromWeightDistribution W S) T m hm h0 hT
  have hcov : ∀ i k j l, |covariance S (T i / m) k (T j / m) l - C (T i / m) k (T j / m) l| < ε := by
    intro i k j l
    have := hN k l w (hNkl k l) hw2 _ (hs i) _ (hs j)
    unfold covariance
    simp only [hS]
    exact this
  refine ⟨Y, _, _, hY, by rw [ProMP.exec_covTrajectory hq hm], by rw [ProMP.exec_varTrajectory hq hm], hYc, ?_, ?_⟩
  · intro i k j l
    unfold flat
    rw [ProMP.block_quadratic]
    exact hcov i k j l
  · intro i k
    have h1 := hcov i k i k
    simp only [Matrix.of_apply]
    show |max (covariance S (T i / m) k (T i / m) k) 0 - _| < ε
    have h2 : 0 ≤ C (T i / m) k (T i / m) k := by
      have := h.nonneg 1 (fun _ => T i / m) (fun _ => k) (fun _ => 1) (fun _ => hs i)
      simpa using this
    rw [abs_lt] at h1 ⊢
    constructor
    · have := le_max_left (covariance S (T i / m) k (T i / m) k) 0
      linarith
    · rcases max_cases (covariance S (T i / m) k (T i / m) k) 0 with ⟨e, -⟩ | ⟨e, -⟩ <;> rw [e] <;> linarith

/-- **C110 (learning).** The weights that `weights` computes from samples of a continuous trajectory reproduce it: with enough
weights per dimension and enough samples the root mean square error of the trajectory generated from them is at most `ε`, for every
regularization coefficient and no matter how the sampling times are distributed. `T'` is the array of times that is passed to
`trajectory_from_weights`: `T` or the array that `weights` has modified in place. -/
theorem C110_weights {f : ℝ → Fin d → ℝ} (hf : ∀ k, ContinuousOn (fun s => f s k) (Icc 0 1)) {ε lmbda : ℝ} (hε : 0 < ε)
    (hl : 0 ≤ lmbda) :
    ∃ N, ∀ w : ℕ, N ≤ w → ∃ M, ∀ n : ℕ, M ≤ n → ∀ p : ProMP d w, Spec.Reachable p → ∀ (T : Vec n) (m : ℝ),
      IsLargest T m → 0 < m → (∀ i, 0 ≤ T i) → ∀ (T' : Vec n) (m' : ℝ), IsLargest T' m' → (∀ i, T' i / m' = T i / m) →
      ∃ W Y, ((p.weights (Matrix.of fun i k => f (T i / m) k) lmbda).exec (.float T)).1 = .ok W ∧
        ((p.trajectoryFromWeights W).exec (.float T')).1 = .ok Y ∧
        (∑ i, ∑ k, (Y i k - f (T i / m) k) ^ 2) / n ≤ ε ^ 2 := by
  set e := ε / (2 * ((d : ℝ) + 1)) with he
  have he0 : 0 < e := by positivity
  have hd : (d : ℝ) * e ^ 2 ≤ ε ^ 2 / 2 := by
    have h1 : e * (2 * ((d : ℝ) + 1)) = ε := by rw [he]; field_simp
    have hd0 : (0 : ℝ) ≤ d := Nat.cast_nonneg d
    rw [← h1]
    nlinarith [sq_nonneg e, mul_nonneg hd0 (sq_nonneg e), mul_nonneg (mul_nonneg hd0 hd0) (sq_nonneg e)]
  obtain ⟨N, hN⟩ := C110_trajectory hf he0
  refine ⟨N, fun w hw => ?_⟩
  obtain ⟨V, hV⟩ := hN w hw
  obtain ⟨M, hM⟩ := exists_nat_gt (lmbda * ∑ x, V x ^ 2 / (ε ^ 2 / 2))
  refine ⟨M + 1, ?_⟩
  intro n hn p hp T m hm h0 hT T' m' hm' hTT
  obtain ⟨W, T'', hW, hopt⟩ := C65_weights_optimal hp T hm h0.ne' (Matrix.of fun i k => f (T i / m) k) hl
  obtain ⟨Z, hZ, hZf⟩ := hV p hp T m hm h0 hT
  rw [ProMP.exec_trajectoryFromWeights hp.centers hm] at hZ
  have hZ' : (Matrix.of fun i k => prompPosition V (T i / m) k) = Z := Except.ok.inj hZ
  refine ⟨W, _, by rw [hW], by rw [ProMP.exec_trajectoryFromWeights hp.centers hm'], ?_⟩
  have hn0 : (0 : ℝ) < n := by
    have : 0 < n := by omega
    exact_mod_cast this
  have hWs : 0 ≤ ∑ x, W x ^ 2 := Finset.sum_nonneg fun x _ => sq_nonneg _
  have h1 := hopt V
  have h2 : ∑ i, ∑ k, (f (T i / m) k - prompPosition V (T i / m) k) ^ 2 ≤ n * (d * e ^ 2) := by
    have : ∀ i ∈ (Finset.univ : Finset (Fin n)), ∑ k, (f (T i / m) k - prompPosition V (T i / m) k) ^ 2 ≤ d * e ^ 2 := by
      intro i _
      have : ∀ k ∈ (Finset.univ : Finset (Fin d)), (f (T i / m) k - prompPosition V (T i / m) k) ^ 2 ≤ e ^ 2 := by
        intro k _
        have h3 := hZf i k
        rw [← hZ', Matrix.of_apply, abs_sub_comm] at h3
        rw [← sq_abs]
        exact pow_le_pow_left₀ (abs_nonneg _) h3.le 2
      simpa using Finset.sum_le_sum this
    simpa using Finset.sum_le_sum this
  have h3 : lmbda * ∑ x, V x ^ 2 ≤ n * (ε ^ 2 / 2) := by
    have h4 : (M : ℝ) ≤ n := by
      have : M ≤ n := by omega
      exact_mod_cast this
    rw [← Finset.sum_div, ← mul_div_assoc, div_lt_iff₀ (by positivity)] at hM
    exact hM.le.trans (mul_le_mul_of_nonneg_right h4 (by positivity))
  rw [div_le_iff₀ hn0]
  simp only [Matrix.of_apply, hTT] at h1 ⊢
  have h5 : ∑ i, ∑ k, (prompPosition W (T i / m) k - f (T i / m) k) ^ 2 =
      ∑ i, ∑ k, (f (T i / m) k - prompPosition W (T i / m) k) ^ 2 :=
    Finset.sum_congr rfl fun i _ => Finset.sum_congr rfl fun k _ => by ring
  rw [h5]
  have h6 := mul_le_mul_of_nonneg_left hd hn0.le
  have h7 := mul_nonneg hl hWs
  linarith

/-- A parabola with an uncertain offset and an uncertain slope. -/
example : TrajectoryDistribution (d := 1) (fun s _ => s ^ 2) (fun s _ t _ => s * t + 1) where
  mean k := by fun_prop
  cov k l := by fun_prop
  symm s k s' l := by ring
  nonneg n s k c _ := by
    have e : ∑ i, ∑ j, c i * (s i * s j + 1) * c j = (∑ i, c i * s i) ^ 2 + (∑ i, c i) ^ 2 := by
      rw [sq, sq, Finset.sum_mul_sum, Finset.sum_mul_sum, ← Finset.sum_add_distrib]
      refine Finset.sum_congr rfl fun i _ => ?_
      rw [← Finset.sum_add_distrib]
      refine Finset.sum_congr rfl fun j _ => ?_
      ring
    rw [e]
    positivity

/-- The array that `weights` leaves behind meets the assumptions of `C110_weights`. -/
example : IsLargest (![0, 1, 4] : Vec 3) 4 ∧ IsLargest (fun i => (![0, 1, 4] : Vec 3) i / 4) 1 ∧
    ∀ i, (![0, 1, 4] : Vec 3) i / 4 / 1 = (![0, 1, 4] : Vec 3) i / 4 := by
  refine ⟨⟨⟨2, rfl⟩, fun i => ?_⟩, ⟨⟨2, ?_⟩, fun i => ?_⟩, fun i => div_one _⟩
  · fin_cases i <;> norm_num
  · show (4 : ℝ) / 4 = 1; norm_num
  · fin_cases i <;> norm_num

end Verif
