import Verif.Props.PrompViaSuccess

/-! # ProMPs: arguments that do not mean what the documentation says (findings for C41 and C43) -/

namespace Verif
open Matrix ProMP

theorem activation_one (s : ℝ) : Spec.activation 1 s = fun _ => 1 := by
  funext a
  unfold Spec.activation
  rw [Fin.sum_univ_one]
  have : a = 0 := Subsingleton.elim _ _
  rw [this, div_self (rbf_pos s 0).ne']

theorem psi_one_quadratic (s : ℝ) : (psi 2 1 s)ᵀ * (1 : Matrix (Fin (2 * 1)) (Fin (2 * 1)) ℝ) * psi 2 1 s = 1 := by
  ext k l
  rw [psi_quadratic]
  unfold Spec.covariance
  rw [activation_one, Fin.sum_univ_one, Fin.sum_univ_one]
  fin_cases k <;> fin_cases l <;> simp [Spec.flat, Matrix.one_apply]

theorem psi_one_eq (s s' : ℝ) : psi 2 1 s = psi 2 1 s' := by
  ext x l
  simp only [psi, of_apply, activation_one]

theorem conditioned_quadratic {d w : ℕ} (p : ProMP d w) (y : Vec d) (R : Matrix (Fin d) (Fin d) ℝ) (s : ℝ) :
    (psi d w s)ᵀ * (p.conditioned y R s).weightCov * psi d w s =
      (psi d w s)ᵀ * p.weightCov * psi d w s - (psi d w s)ᵀ * p.weightCov * psi d w s *
        (R + (psi d w s)ᵀ * p.weightCov * psi d w s)⁻¹ * ((psi d w s)ᵀ * p.weightCov * psi d w s) := by
  show (psi d w s)ᵀ * (p.weightCov - p.gain R s * (psi d w s)ᵀ * p.weightCov) * psi d w s = _
  unfold gain
  simp only [Matrix.mul_sub, Matrix.sub_mul, Matrix.mul_assoc]

/-- **C43, finding.** `via_points` documents `y_conditional_cov` as a covariance matrix, but it takes row `idx`
of the array for via point `idx` and adds that row to *every* row of the innovation matrix. For the identity
as covariance of a two-dimensional ProMP with one weight per dimension and via point 0 (row `[1, 0]`): the
variance of dimension 1 becomes 0 although the position was given with variance 1, and the covariance of the
weights is not symmetric. `condition_position` with the identity gives variance 1/2 in both dimensions. -/
theorem C43_covariance_rows_finding (y : Vec 2) :
    (∃ q V T', (ProMP.init 2 1).viaPointsCov [(1, y, ![1, 0])] = .ok q ∧
      q.varTrajectory.exec (.float ![1]) = (.ok V, T') ∧ V 0 0 = 1 / 2 ∧ V 0 1 = 0 ∧ q.weightCovᵀ ≠ q.weightCov) ∧
    ∃ q V T', (ProMP.conditionPosition y (.full 1) 1 1).exec (ProMP.init 2 1) = (.ok q, ProMP.init 2 1) ∧
      q.varTrajectory.exec (.float ![1]) = (.ok V, T') ∧ V 0 0 = 1 / 2 ∧ V 0 1 = 1 / 2 := by
  have hm : Spec.IsLargest (![1] : Vec 1) 1 := ⟨⟨0, rfl⟩, fun i => by fin_cases i; simp⟩
  have hN : (psi 2 1 (1 / 1))ᵀ * (ProMP.init 2 1).weightCov * psi 2 1 (1 / 1) = 1 := psi_one_quadratic _
  have e1 : (![1] : Vec 1) 0 / 1 = 1 / 1 := rfl
  have hMr : ((YCov.row (![1, 0] : Vec 2)).broadcast + 1 : Matrix (Fin 2) (Fin 2) ℝ) = !![2, 0; 1, 1] := by
    ext i j
    fin_cases i <;> fin_cases j <;> simp [YCov.broadcast] <;> norm_num
  have hMf : ((YCov.full (1 : Matrix (Fin 2) (Fin 2) ℝ)).broadcast + 1) = !![2, 0; 0, 2] := by
    ext i j
    fin_cases i <;> fin_cases j <;> simp [YCov.broadcast] <;> norm_num
  have hIr : (!![2, 0; 1, 1] : Matrix (Fin 2) (Fin 2) ℝ)⁻¹ = !![1 / 2, 0; -1 / 2, 1] := by
    apply Matrix.inv_eq_right_inv
    ext i j
    fin_cases i <;> fin_cases j <;> simp [Matrix.mul_apply, Fin.sum_univ_two] <;> norm_num
  have hIf : (!![2, 0; 0, 2] : Matrix (Fin 2) (Fin 2) ℝ)⁻¹ = !![1 / 2, 0; 0, 1 / 2] := by
    apply Matrix.inv_eq_right_inv
    ext i j
    fin_cases i <;> fin_cases j <;> simp [Matrix.mul_apply, Fin.sum_univ_two]
  have hqr := conditioned_quadratic (ProMP.init 2 1) y (YCov.row (![1, 0] : Vec 2)).broadcast (1 / 1)
  have hqf := conditioned_quadratic (ProMP.init 2 1) y (YCov.full (1 : Matrix (Fin 2) (Fin 2) ℝ)).broadcast (1 / 1)
  rw [hN, hMr, hIr, Matrix.one_mul, Matrix.mul_one] at hqr
  rw [hN, hMf, hIf, Matrix.one_mul, Matrix.mul_one] at hqf
  have hcr := exec_condition (p := ProMP.init 2 1) rfl y (.row ![1, 0]) (t := 1) (one_ne_zero (α := ℝ))
  have hcf := exec_condition (p := ProMP.init 2 1) rfl y (.full 1) (t := 1) (one_ne_zero (α := ℝ))
  rw [hN, hMr, if_neg (by simp [Matrix.det_fin_two])] at hcr
  rw [hN, hMf, if_neg (by simp [Matrix.det_fin_two])] at hcf
  constructor
  · have hv : (ProMP.init 2 1).viaPointsCov [(1, y, ![1, 0])] =
        .ok ((ProMP.init 2 1).conditioned y (YCov.row (![1, 0] : Vec 2)).broadcast (1 / 1)) := by
      unfold viaPointsCov
      rw [viaPointsLoop_cons, hcr]
      rfl
    refine ⟨_, _, _, hv, exec_varTrajectory rfl hm, ?_, ?_, ?_⟩
    · rw [of_apply, e1, ← psi_quadratic, hqr]
      norm_num
    · rw [of_apply, e1, ← psi_quadratic, hqr]
      norm_num
    · intro hsym
      have h2 := congrArg (fun M => (psi 2 1 (1 / 1))ᵀ * M * psi 2 1 (1 / 1)) hsym
      have h3 : ((psi 2 1 (1 / 1))ᵀ * ((ProMP.init 2 1).conditioned y (YCov.row (![1, 0] : Vec 2)).broadcast (1 / 1)).weightCovᵀ *
          psi 2 1 (1 / 1)) = ((psi 2 1 (1 / 1))ᵀ *
            ((ProMP.init 2 1).conditioned y (YCov.row (![1, 0] : Vec 2)).broadcast (1 / 1)).weightCov * psi 2 1 (1 / 1))ᵀ := by
        rw [transpose_mul, transpose_mul, transpose_transpose, Matrix.mul_assoc]
      beta_reduce at h2
      rw [h3, hqr] at h2
      have h4 := congrFun (congrFun h2 0) 1
      norm_num [transpose_apply, Matrix.sub_apply, Matrix.one_apply] at h4
  · refine ⟨_, _, _, hcf, exec_varTrajectory rfl hm, ?_, ?_⟩
    · rw [of_apply, e1, ← psi_quadratic, hqf]
      norm_num
    · rw [of_apply, e1, ← psi_quadratic, hqf]
      norm_num

/-- **C41, finding.** Times of `via_points` are not those of `mean_trajectory`: `via_points` measures time
relative to a movement of duration 1, queries measure it relative to their largest entry. After asking for
position 1 at time 1, the mean of a ProMP that is queried at times 0, 1, 2 is not 1 at time 1. -/
theorem C41_time_scale_finding :
    ∃ q Y T', (ProMP.init 1 2).viaPoints [(1, ![1])] = .ok q ∧
      q.meanTrajectory.exec (.float ![0, 1, 2]) = (.ok Y, T') ∧ Y 1 0 ≠ 1 := by
  obtain ⟨q, hq⟩ := (C43_succeeds_iff (p := ProMP.init 1 2) .init one_pos PosDef.one [(1, ![1])]).1.2
    ⟨List.nodup_singleton _, by norm_num⟩
  have hm : Spec.IsLargest (![0, 1, 2] : Vec 3) 2 := ⟨⟨2, rfl⟩, fun i => by fin_cases i <;> norm_num⟩
  obtain ⟨hqr, hfix, -⟩ := viaPoints_fixed _ .init hq
  have hal := viaPoints_along (times := {1}) [(1, ![1])] .init (Along.refl (ProMP.init 1 2) {1})
    (fun x hx => by rw [List.mem_singleton.1 hx]; rfl) hq
  obtain ⟨s, hs, hmean⟩ := hal.1
  refine ⟨q, _, _, hq, exec_trajectoryFromWeights hqr.centers hm _, ?_⟩
  -- the mean is a multiple of the activations at time 1
  have hmean' : ∃ c : ℝ, ∀ a : Fin 2, q.weightMean (Spec.flat 0 a) = c * Spec.activation 2 1 a := by
    have h1 : q.weightMean = s := by rw [hmean]; simp [ProMP.init]
    have h2 : ∃ c : ℝ, ∀ a : Fin 2, s (Spec.flat (0 : Fin 1) a) = c * Spec.activation 2 1 a := by
      unfold constrained at hs
      clear hmean h1
      induction hs using Submodule.span_induction with
      | mem z hz =>
        obtain ⟨t, ht, x, rfl⟩ := hz
        rw [Set.mem_singleton_iff] at ht
        subst ht
        exact ⟨x 0, fun a => by rw [Spec.flat, psi_mulVec_flat, mul_comm]⟩
      | zero => exact ⟨0, fun a => by simp⟩
      | add a b _ _ ha hb =>
        obtain ⟨c₁, h₁⟩ := ha
        obtain ⟨c₂, h₂⟩ := hb
        exact ⟨c₁ + c₂, fun a => by rw [Pi.add_apply, h₁, h₂]; ring⟩
      | smul c a _ ha =>
        obtain ⟨c₁, h₁⟩ := ha
        exact ⟨c * c₁, fun a => by rw [Pi.smul_apply, h₁, smul_eq_mul]; ring⟩
    rw [h1]
    exact h2
  obtain ⟨c, hc⟩ := hmean'
  have hpass : Spec.prompPosition q.weightMean 1 0 = 1 := by
    have := (hfix 1 ![1] (by simp)).1
    rw [psi_transpose_mulVec] at this
    rw [this]
    rfl
  rw [of_apply]
  intro hhalf
  have hT : (![0, 1, 2] : Vec 3) 1 / 2 = 1 / 2 := rfl
  rw [hT] at hhalf
  unfold Spec.prompPosition at hpass hhalf
  simp only [hc, Fin.sum_univ_two] at hpass hhalf
  have hsum1 := activation_sum (w := 2) (by norm_num) 1
  have hsumh := activation_sum (w := 2) (by norm_num) (1 / 2)
  rw [Fin.sum_univ_two] at hsum1 hsumh
  have hsym : Spec.activation 2 (1 / 2) 0 = Spec.activation 2 (1 / 2) 1 := by
    unfold Spec.activation Spec.rbf Spec.centre
    congr 2
    norm_num
  have hne : Spec.activation 2 1 0 ≠ Spec.activation 2 1 1 := by
    intro he
    unfold Spec.activation at he
    have hpos := rbf_sum_pos (w := 2) (by norm_num) 1
    have he2 := (div_left_inj' hpos.ne').1 he
    unfold Spec.rbf at he2
    have he3 := Real.exp_injective he2
    have hl : 0 < Real.log (10 / 7) := Real.log_pos (by norm_num)
    unfold Spec.centre at he3
    norm_num at he3
  set u := Spec.activation 2 1 0
  set v := Spec.activation 2 1 1
  have hh : Spec.activation 2 (1 / 2) 1 = 1 / 2 := by linarith
  rw [hsym, hh] at hhalf
  have hcc : c = 2 := by
    have : (1 / 2) * (c * (u + v)) = 1 := by linarith
    rw [hsum1] at this
    linarith
  rw [hcc] at hpass
  have huv : (u - v) ^ 2 = 0 := by
    have : u = 1 - v := by linarith
    subst hcc
    nlinarith
  have := pow_eq_zero_iff (two_ne_zero) |>.1 huv
  exact hne (by linarith)

end Verif
