import Verif.Props.RandomDmp
import Mathlib.Probability.StrongLaw

/-! # C122: averages of what is learned from many noisy demonstrations -/

namespace Verif
open Spec Matrix MeasureTheory ProbabilityTheory Filter Topology
variable {d m : ℕ} {Ω : Type} [MeasurableSpace Ω] {P : Measure Ω}

/-- The law of large numbers for linear functions of random vectors. -/
theorem average_linear {κ η : Type} [Fintype κ] [DecidableEq κ] {F : (κ → ℝ) → η → ℝ}
    (hF : ∀ (p q : ℝ) x y, F (p • x + q • y) = p • F x + q • F y) {X : ℕ → Ω → κ → ℝ} (hint : Integrable (X 0) P)
    (hindep : Pairwise fun i j => IndepFun (X i) (X j) P) (hident : ∀ i, IdentDistrib (X i) (X 0) P P) :
    ∀ᵐ ω ∂P, ∀ z, Tendsto (fun N : ℕ => (∑ i ∈ Finset.range N, F (X i ω) z) / N) atTop (𝓝 (F (∫ ω, X 0 ω ∂P) z)) := by
  filter_upwards [strong_law_ae X hint hindep hident] with ω hω z
  have e := linear_eq_mulVec hF
  have hsum : ∀ N : ℕ, (∑ i ∈ Finset.range N, F (X i ω) z) / N = F ((N : ℝ)⁻¹ • ∑ i ∈ Finset.range N, X i ω) z := by
    intro N
    rw [e ((N : ℝ)⁻¹ • _), Matrix.mulVec_smul, Matrix.mulVec_sum, Pi.smul_apply, Finset.sum_apply, smul_eq_mul, div_eq_inv_mul]
    congr 1
    exact Finset.sum_congr rfl fun i _ => by rw [e (X i ω)]
  simp only [hsum]
  have hc : Continuous fun x => F x z := by
    have : (fun x => F x z) = fun x => ((Matrix.of fun z a => F (Pi.single a 1) z : Matrix η κ ℝ) *ᵥ x) z :=
      funext fun x => by rw [e x]
    rw [this]
    simp only [mulVec, dotProduct]
    fun_prop
  exact (hc.tendsto _).comp hω

/-- **C122 (averages of learned parameters).** Demonstrations with the same time stamps are drawn independently from any distribution that
has a mean. With probability 1 the averages of weights, start and goal that a DMP learns from each of them converge to the weights, the
start and the goal that it learns from the mean demonstration. -/
theorem C122_average_parameters {n : ℕ} (s : DMP d m) {T : Fin (n + 2) → ℝ} {reg : ℝ} {afv : Bool} {D₀ : Fin (n + 2) → Vec d}
    (h₀ : ((DMP.imitate T D₀ reg afv).exec s).1 = .ok ()) {demos : ℕ → Ω → Fin (n + 2) × Fin d → ℝ} (hint : Integrable (demos 0) P)
    (hindep : Pairwise fun i j => IndepFun (demos i) (demos j) P) (hident : ∀ i, IdentDistrib (demos i) (demos 0) P P) :
    let learn := fun x : Fin (n + 2) × Fin d → ℝ => (DMP.imitate T (fun t k => x (t, k)) reg afv).exec s
    (∀ x, (learn x).1 = .ok ()) ∧
    ∀ᵐ ω ∂P, ∀ z, Tendsto (fun N : ℕ => (∑ i ∈ Finset.range N, parametersOf (learn (demos i ω)).2 z) / N) atTop
      (𝓝 (parametersOf (learn (∫ ω, demos 0 ω ∂P)).2 z)) := by
  intro learn
  have hs : s.SameSystem s := ⟨rfl, rfl, rfl, rfl, rfl, rfl, rfl, rfl, rfl, rfl, rfl⟩
  refine ⟨fun x => ((C101_imitate hs 1 0 T D₀ (fun t k => x (t, k)) reg afv).2.1).trans h₀, ?_⟩
  exact average_linear (F := fun x => parametersOf (learn x).2) (linear_learn s h₀) hint hindep hident

/-- **C122 (averages of trajectories).** Weights, start and goal of a DMP without coupling term are drawn independently from any
distribution that has a mean. With probability 1 the average of the trajectories that `open_loop` generates converges, position by
position, to the trajectory for the mean of the parameters. -/
theorem C122_average_trajectories (s : DMP d m) {runT : Option ℝ} {name : String} {x₀ : DmpParameters d m → ℝ} {T : List ℝ}
    {Y₀ : List (Vec d)} (h₀ : ((openLoopOfParameters runT name x₀).exec s).1 = .ok (T, Y₀))
    {parameters : ℕ → Ω → DmpParameters d m → ℝ} (hint : Integrable (parameters 0) P)
    (hindep : Pairwise fun i j => IndepFun (parameters i) (parameters j) P)
    (hident : ∀ i, IdentDistrib (parameters i) (parameters 0) P P) :
    ∃ Y : (DmpParameters d m → ℝ) → List (Vec d),
      (∀ x, ((openLoopOfParameters runT name x).exec s).1 = .ok (T, Y x) ∧ (Y x).length = Y₀.length) ∧
      ∀ᵐ ω ∂P, ∀ z, Tendsto (fun N : ℕ => (∑ i ∈ Finset.range N, rowValues Y₀.length (Y (parameters i ω)) z) / N) atTop
        (𝓝 (rowValues Y₀.length (Y (∫ ω, parameters 0 ω ∂P)) z)) := by
  obtain ⟨Y, h1, h2⟩ := linear_openLoop s h₀
  refine ⟨Y, h1, average_linear (F := fun x => rowValues Y₀.length (Y x)) (fun p q x y => ?_) hint hindep hident⟩
  rw [h2, Matrix.mulVec_add, Matrix.mulVec_smul, Matrix.mulVec_smul, ← h2, ← h2]

/-- **C122 (averages of reproductions).** Demonstrations with the same time stamps are drawn independently from any distribution that has a
mean. With probability 1 the average of their reproductions (`imitate`, then `open_loop`) converges, position by position, to the
reproduction of the mean demonstration. -/
theorem C122_average_reproductions {n : ℕ} (s : DMP d m) {T : Fin (n + 2) → ℝ} {reg : ℝ} {afv : Bool} {D₀ : Fin (n + 2) → Vec d}
    {runT : Option ℝ} {name : String} {times : List ℝ} {Y₀ : List (Vec d)} (h₀ : ((DMP.imitate T D₀ reg afv).exec s).1 = .ok ())
    (h₁ : ((DMP.openLoop runT none name).exec ((DMP.imitate T D₀ reg afv).exec s).2).1 = .ok (times, Y₀))
    {demos : ℕ → Ω → Fin (n + 2) × Fin d → ℝ} (hint : Integrable (demos 0) P)
    (hindep : Pairwise fun i j => IndepFun (demos i) (demos j) P) (hident : ∀ i, IdentDistrib (demos i) (demos 0) P P) :
    let learn := fun x : Fin (n + 2) × Fin d → ℝ => (DMP.imitate T (fun t k => x (t, k)) reg afv).exec s
    ∃ Y : (Fin (n + 2) × Fin d → ℝ) → List (Vec d),
      (∀ x, ((DMP.openLoop runT none name).exec (learn x).2).1 = .ok (times, Y x) ∧ (Y x).length = Y₀.length) ∧
      ∀ᵐ ω ∂P, ∀ z, Tendsto (fun N : ℕ => (∑ i ∈ Finset.range N, rowValues Y₀.length (Y (demos i ω)) z) / N) atTop
        (𝓝 (rowValues Y₀.length (Y (∫ ω, demos 0 ω ∂P)) z)) := by
  intro learn
  have hok : ∀ x, (learn x).1 = .ok () := (C122_average_parameters s h₀ hint hindep hident).1
  have hlin := linear_learn s h₀
  rw [openLoop_imitate s h₀] at h₁
  obtain ⟨Y, hY, hL⟩ := linear_openLoop s h₁
  refine ⟨fun x => Y (parametersOf (learn x).2), fun x => ?_,
    average_linear (F := fun x => rowValues Y₀.length (Y (parametersOf (learn x).2))) (fun p q x y => ?_) hint hindep hident⟩
  · rw [openLoop_imitate s (hok x)]
    exact hY _
  · simp only [learn]
    rw [hlin, hL, Matrix.mulVec_add, Matrix.mulVec_smul, Matrix.mulVec_smul, ← hL, ← hL]

/-- The hypotheses on the samples can be met: for every distribution `ν` that has a mean there are infinitely many independent samples. -/
theorem independent_samples_exist {κ : Type} [Fintype κ] (ν : Measure (κ → ℝ)) [IsProbabilityMeasure ν] (hν : Integrable id ν) :
    ∃ (P : Measure (ℕ → κ → ℝ)) (X : ℕ → (ℕ → κ → ℝ) → κ → ℝ), IsProbabilityMeasure P ∧ Integrable (X 0) P ∧
      (Pairwise fun i j => IndepFun (X i) (X j) P) ∧ ∀ i, IdentDistrib (X i) (X 0) P P := by
  have hm : ∀ i, MeasurePreserving (fun x : ℕ → κ → ℝ => x i) (Measure.infinitePi fun _ => ν) ν := fun i =>
    measurePreserving_eval_infinitePi (fun _ => ν) i
  refine ⟨Measure.infinitePi fun _ => ν, fun i x => x i, inferInstance, ?_, ?_, fun i => ?_⟩
  · exact (hm 0).integrable_comp_of_integrable hν
  · intro i j hij
    exact (iIndepFun_infinitePi (P := fun _ : ℕ => ν) (X := fun _ (x : κ → ℝ) => x) fun _ => measurable_id).indepFun hij
  · exact ⟨(hm i).measurable.aemeasurable, (hm 0).measurable.aemeasurable, by rw [(hm i).map_eq, (hm 0).map_eq]⟩

/-- Every distribution of demonstrations with three samples that has a mean, a new DMP, and its reproduction. -/
example (ν : Measure (Fin 3 × Fin 1 → ℝ)) [IsProbabilityMeasure ν] (hν : Integrable id ν) :
    ∃ (s : DMP 1 2) (T : Fin 3 → ℝ) (P : Measure (ℕ → Fin 3 × Fin 1 → ℝ)) (demos : ℕ → (ℕ → Fin 3 × Fin 1 → ℝ) → Fin 3 × Fin 1 → ℝ),
      ((DMP.imitate (n := 1) T (fun i _ => (i.val : ℝ) ^ 2) (1 / 10) false).exec s).1 = .ok () ∧
      (∃ r, ((DMP.openLoop (some 1) none "rk4").exec
        ((DMP.imitate (n := 1) T (fun i _ => (i.val : ℝ) ^ 2) (1 / 10) false).exec s).2).1 = .ok r) ∧
      Integrable (demos 0) P ∧ (Pairwise fun i j => IndepFun (demos i) (demos j) P) ∧ ∀ i, IdentDistrib (demos i) (demos 0) P P := by
  obtain ⟨P, X, -, h⟩ := independent_samples_exist ν hν
  obtain ⟨s, hs, -, hdt, -⟩ := DMP.create_ok 1 2 le_rfl one_pos (1 / 100) (1 / 1000) 0 false 25 (25 / 4)
  obtain ⟨w, hw⟩ := C28_imitate_configures (n := 1) (.create hs) (fun i => (i.val : ℝ) / 2) (fun i _ => (i.val : ℝ) ^ 2)
    (reg := 1 / 10) (by norm_num) (by norm_num) false
  refine ⟨s, fun i => (i.val : ℝ) / 2, P, X, by rw [hw], ?_, h⟩
  have h0 : 0 < s.dt := by rw [hdt]; norm_num
  obtain ⟨t, y, hy⟩ := C20_open_loop_returns ((DMP.imitate (n := 1) (fun i => (i.val : ℝ) / 2) (fun i _ => (i.val : ℝ) ^ 2)
    (1 / 10) false).exec s).2 (by rw [hw]; exact h0) zero_le_one none
  exact ⟨_, hy⟩

end Verif
