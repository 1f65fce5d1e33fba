import Verif.Props.Canonical
import Mathlib.Algebra.Order.BigOperators.Ring.Finset
import Mathlib.Analysis.SpecificLimits.Basic
import Mathlib.Algebra.BigOperators.Field

/-! # C03, C04, C05: forcing term -/

namespace Verif
open Filter Topology
open scoped BigOperators

namespace ForcingTerm
variable {d m : ℕ}

theorem rbf_pos (ft : ForcingTerm d m) (z : ℝ) (i : Fin m) : 0 < ft.rbf z i := Real.exp_pos _

theorem sum_rbf_pos (ft : ForcingTerm d m) (hm : 0 < m) (z : ℝ) : 0 < ∑ j, ft.rbf z j :=
  Finset.sum_pos (fun i _ => ft.rbf_pos z i) ⟨⟨0, hm⟩, Finset.mem_univ _⟩

end ForcingTerm

variable {d m : ℕ}

/-- **C03.** Normalised activations are positive and add up to one, for every phase (every real `z`). -/
theorem C03_partition_of_unity (ft : ForcingTerm d m) (hm : 1 < m) (z : ℝ) :
    (∀ i, 0 < ft.activations z i) ∧ ∑ i, ft.activations z i = 1 := by
  have hs := ft.sum_rbf_pos (by omega) z
  refine ⟨fun i => div_pos (ft.rbf_pos z i) hs, ?_⟩
  unfold ForcingTerm.activations
  rw [← Finset.sum_div, div_self hs.ne']

/-- **C03.** Column sums of the design matrix are the phases of the demonstration's time stamps; entries are
positive. -/
theorem C03_design_matrix (ft : ForcingTerm d m) (hm : 1 < m) {n : ℕ} (T : Fin (n + 1) → ℝ) (k : Fin (n + 1)) :
    (∀ i, 0 < ft.designMatrix T i k) ∧
    ∑ i, ft.designMatrix T i k = phase (T k) ft.alphaZ (T (Fin.last n)) (T 0) := by
  have h := C03_partition_of_unity ft hm (phase (T k) ft.alphaZ (T (Fin.last n)) (T 0))
  refine ⟨fun i => mul_pos (Real.exp_pos _) (h.1 i), ?_⟩
  unfold ForcingTerm.designMatrix
  simp only
  rw [← Finset.mul_sum, h.2, mul_one]

/-- **C03.** The force is the phase times a convex combination of the weights: it lies between the phase times
any lower and upper bound of the weights. -/
theorem C03_force_between (ft : ForcingTerm d m) (hm : 1 < m) (t : ℝ) (k : Fin d) (lo hi : ℝ)
    (hlo : ∀ i, lo ≤ ft.weights k i) (hhi : ∀ i, ft.weights k i ≤ hi) :
    ft.phaseAt t * lo ≤ ft.call t k ∧ ft.call t k ≤ ft.phaseAt t * hi := by
  have hz : 0 ≤ ft.phaseAt t := (Real.exp_pos _).le
  obtain ⟨hp, hs⟩ := C03_partition_of_unity ft hm (ft.phaseAt t)
  unfold ForcingTerm.call ForcingTerm.force
  constructor
  · apply mul_le_mul_of_nonneg_left _ hz
    calc lo = ∑ i, lo * ft.activations (ft.phaseAt t) i := by rw [← Finset.mul_sum, hs, mul_one]
      _ ≤ _ := Finset.sum_le_sum fun i _ => mul_le_mul_of_nonneg_right (hlo i) (hp i).le
  · apply mul_le_mul_of_nonneg_left _ hz
    calc _ ≤ ∑ i, hi * ft.activations (ft.phaseAt t) i :=
          Finset.sum_le_sum fun i _ => mul_le_mul_of_nonneg_right (hhi i) (hp i).le
      _ = hi := by rw [← Finset.mul_sum, hs, mul_one]

/-- The constructor with the parameters of a default DMP succeeds (hypotheses of C03-C05 are satisfiable). -/
example : ∃ ft : ForcingTerm 2 10, ForcingTerm.create 2 10 1 0 (8 / 10) (-Real.log (1 / 100)) = .ok ft := by
  unfold ForcingTerm.create
  rw [if_neg (by norm_num), if_neg (by norm_num), if_neg (by norm_num)]
  exact ⟨_, rfl⟩

/-- **C04.** The forcing term is linear in the weights. -/
theorem C04_force_linear (ft : ForcingTerm d m) (w1 w2 : Fin d → Fin m → ℝ) (a b t : ℝ) (k : Fin d) :
    ({ ft with weights := fun k i => a * w1 k i + b * w2 k i } : ForcingTerm d m).call t k =
      a * ({ ft with weights := w1 } : ForcingTerm d m).call t k +
      b * ({ ft with weights := w2 } : ForcingTerm d m).call t k := by
  simp only [ForcingTerm.call, ForcingTerm.force, ForcingTerm.phaseAt, ForcingTerm.activations,
    ForcingTerm.rbf]
  simp only [Finset.mul_sum, ← Finset.sum_add_distrib]
  exact Finset.sum_congr rfl fun i _ => by ring

/-- **C04.** The force is bounded by the phase times the largest absolute weight of its dimension. -/
theorem C04_force_bounded (ft : ForcingTerm d m) (hm : 1 < m) (t : ℝ) (k : Fin d) (w : ℝ)
    (hw : ∀ i, |ft.weights k i| ≤ w) : |ft.call t k| ≤ ft.phaseAt t * w := by
  rw [abs_le, neg_mul_eq_mul_neg]
  exact C03_force_between ft hm t k (-w) w (fun i => (abs_le.1 (hw i)).1) (fun i => (abs_le.1 (hw i)).2)

/-- **C04.** Zero weights generate no force. -/
theorem C04_force_zero (ft : ForcingTerm d m) (k : Fin d) (hw : ∀ i, ft.weights k i = 0) (z : ℝ) :
    ft.force z k = 0 := by
  simp [ForcingTerm.force, hw]

theorem phaseAt_tendsto_zero (ft : ForcingTerm d m) (hα : 0 < ft.alphaZ) (hT : ft.startT < ft.goalT) :
    Tendsto ft.phaseAt atTop (𝓝 0) := by
  unfold ForcingTerm.phaseAt phase
  apply Real.tendsto_exp_atBot.comp
  have h1 : Tendsto (fun t : ℝ => t - ft.startT) atTop atTop := tendsto_atTop_add_const_right _ _ tendsto_id
  have h2 := h1.const_mul_atTop_of_neg (r := -ft.alphaZ / (ft.goalT - ft.startT))
    (div_neg_of_neg_of_pos (by linarith) (by linarith))
  refine h2.congr (fun t => ?_)
  ring

/-- **C04.** For arbitrary weights the forcing term vanishes as time goes on. -/
theorem C04_force_vanishes (ft : ForcingTerm d m) (hm : 1 < m) (hα : 0 < ft.alphaZ)
    (hT : ft.startT < ft.goalT) : Tendsto ft.call atTop (𝓝 0) := by
  rw [tendsto_pi_nhds]
  intro k
  have hb : ∀ t, |ft.call t k| ≤ ft.phaseAt t * ∑ i, |ft.weights k i| := fun t =>
    C04_force_bounded ft hm t k _ fun i =>
      Finset.single_le_sum (f := fun i => |ft.weights k i|) (fun _ _ => abs_nonneg _) (Finset.mem_univ i)
  have hz := (phaseAt_tendsto_zero ft hα hT).mul_const (∑ i, |ft.weights k i|)
  rw [zero_mul] at hz
  exact squeeze_zero_norm hb hz

/-- The hypotheses of `C04_force_vanishes` hold for the forcing term of every default DMP. -/
example : ∃ ft : ForcingTerm 2 10, 0 < ft.alphaZ ∧ ft.startT < ft.goalT ∧
    ForcingTerm.create 2 10 1 0 (8 / 10) (-Real.log (1 / 100)) = .ok ft := by
  unfold ForcingTerm.create
  rw [if_neg (by norm_num), if_neg (by norm_num), if_neg (by norm_num)]
  refine ⟨_, ?_, ?_, rfl⟩
  · simpa using Real.log_neg (by norm_num : (0:ℝ) < 1 / 100) (by norm_num)
  · norm_num

theorem create_ok {goalT startT overlap alphaZ : ℝ} {ft : ForcingTerm d m}
    (h : ForcingTerm.create d m goalT startT overlap alphaZ = .ok ft) :
    1 < m ∧ startT < goalT ∧ 0 < overlap ∧
    ft = { goalT := goalT, startT := startT, overlap := overlap, alphaZ := alphaZ
           logOverlap := -Real.log overlap
           executionTime := goalT - startT
           weights := fun _ _ => 0
           centers := fun i => ForcingTerm.initCenter m goalT startT alphaZ i
           widths := fun i => ForcingTerm.initWidth m goalT startT alphaZ (-Real.log overlap) i } := by
  unfold ForcingTerm.create at h
  split_ifs at h with h1 h2 h3
  injection h with h
  exact ⟨by omega, by linarith, by linarith, h.symm⟩

/-- **C05.** The constructor raises ValueError exactly if there are fewer than two weights, the goal is not
after the start or the overlap is not positive. -/
theorem C05_create_raises_iff (goalT startT overlap alphaZ : ℝ) :
    (ForcingTerm.create d m goalT startT overlap alphaZ = .error .valueError) ↔
      m ≤ 1 ∨ goalT ≤ startT ∨ overlap ≤ 0 := by
  unfold ForcingTerm.create
  split_ifs with h1 h2 h3 <;> simp_all

theorem initCenter_zero_start (goalT alphaZ : ℝ) (i : ℕ) (hm : 1 < m) (hT : 0 < goalT) :
    ForcingTerm.initCenter m goalT 0 alphaZ i = Real.exp (-alphaZ * (i / (m - 1 : ℝ))) := by
  have hm' : (0 : ℝ) < m - 1 := by
    have : (1 : ℝ) < m := by exact_mod_cast hm
    linarith
  unfold ForcingTerm.initCenter phase
  split_ifs with h
  · subst h; simp
  · congr 1
    simp only [sub_zero]
    field_simp

theorem initCenter_strictAnti (goalT alphaZ : ℝ) (hm : 1 < m) (hT : 0 < goalT) (hα : 0 < alphaZ) :
    StrictAnti (fun i : ℕ => ForcingTerm.initCenter m goalT 0 alphaZ i) := by
  have hm' : (0 : ℝ) < m - 1 := by
    have : (1 : ℝ) < m := by exact_mod_cast hm
    linarith
  intro i j hij
  simp only [initCenter_zero_start _ _ _ hm hT]
  apply Real.exp_lt_exp.2
  have h1 : (i : ℝ) < j := by exact_mod_cast hij
  have h2 : (i : ℝ) / (m - 1 : ℝ) < j / (m - 1 : ℝ) := div_lt_div_of_pos_right h1 hm'
  nlinarith

/-- **C05.** Movements starting at time 0 (every DMP): the centers decrease strictly from phase 1 to the phase
at the goal, all widths are positive, and each basis function takes the value `overlap` at its successor's
center. -/
theorem C05_basis_functions {goalT overlap alphaZ : ℝ} {ft : ForcingTerm d m}
    (h : ForcingTerm.create d m goalT 0 overlap alphaZ = .ok ft) (hα : 0 < alphaZ) (ho : overlap < 1) :
    StrictAnti ft.centers ∧
    (∀ i : Fin m, i.val = 0 → ft.centers i = 1) ∧
    (∀ i : Fin m, i.val + 1 = m → ft.centers i = ft.phaseAt goalT) ∧
    (∀ i, 0 < ft.widths i) ∧
    (∀ i j : Fin m, j.val = i.val + 1 → ft.rbf (ft.centers j) i = overlap) := by
  obtain ⟨hm, hT, ho0, rfl⟩ := create_ok h
  have hlo : Real.log overlap < 0 := Real.log_neg ho0 ho
  have hanti := initCenter_strictAnti goalT alphaZ hm hT hα
  have hdiff : ∀ j : ℕ, 0 < (ForcingTerm.initCenter m goalT 0 alphaZ (j + 1) -
      ForcingTerm.initCenter m goalT 0 alphaZ j) ^ 2 := fun j =>
    pow_pos_of_ne (sub_ne_zero.2 (hanti (Nat.lt_succ_self j)).ne)
  refine ⟨?_, ?_, ?_, ?_, ?_⟩
  · intro i j hij
    exact hanti hij
  · intro i hi
    simp only [hi]
    rw [initCenter_zero_start _ _ _ hm hT]; simp
  · intro i hi
    have hm' : (m - 1 : ℝ) ≠ 0 := by
      have : (1 : ℝ) < m := by exact_mod_cast hm
      linarith
    simp only [ForcingTerm.phaseAt, phase]
    rw [initCenter_zero_start _ _ _ hm hT]
    have : (i.val : ℝ) = m - 1 := by
      have := congrArg (Nat.cast (R := ℝ)) hi
      push_cast at this; linarith
    rw [this, div_self hm']
    simp only [sub_zero]
    rw [mul_div_assoc, div_self hT.ne']
  · intro i
    simp only [ForcingTerm.initWidth]
    exact div_pos (by linarith) (hdiff _)
  · intro i j hij
    simp only [ForcingTerm.rbf, ForcingTerm.initWidth, hij]
    rw [if_pos (by have := j.isLt; omega)]
    rw [← neg_div, neg_neg, div_mul_cancel₀ _ (hdiff _).ne', Real.exp_log ho0]
where
  pow_pos_of_ne {x : ℝ} (h : x ≠ 0) : 0 < x ^ 2 := by positivity

/-- The hypotheses of `C05_basis_functions` are met by the default parameters. -/
example : (∃ ft : ForcingTerm 2 10, ForcingTerm.create 2 10 1 0 (8 / 10) (-Real.log (1 / 100)) = .ok ft) ∧
    (0 : ℝ) < -Real.log (1 / 100) ∧ (8 / 10 : ℝ) < 1 := by
  refine ⟨?_, ?_, by norm_num⟩
  · unfold ForcingTerm.create
    rw [if_neg (by norm_num), if_neg (by norm_num), if_neg (by norm_num)]
    exact ⟨_, rfl⟩
  · simpa using Real.log_neg (by norm_num : (0:ℝ) < 1 / 100) (by norm_num)

/-- Finding (C05, C27): `start_t` is ignored when the centers after the first one are placed. A forcing term that
starts at `start_t = execution_time / (n_weights - 1)` (accepted by the constructor) has two equal centers, so
that the code divides by zero when it computes the first width. -/
theorem C05_start_time_ignored (alphaZ : ℝ) {m : ℕ} (hm : 1 < m) (startT : ℝ) (hs : 0 < startT) :
    let goalT := startT + (m - 1 : ℝ) * startT
    ∃ ft : ForcingTerm d m, ForcingTerm.create d m goalT startT (8 / 10) alphaZ = .ok ft ∧
      ft.centers ⟨0, by omega⟩ = ft.centers ⟨1, hm⟩ := by
  have hm' : (0 : ℝ) < m - 1 := by
    have : (1 : ℝ) < m := by exact_mod_cast hm
    linarith
  have hpos := mul_pos hm' hs
  intro goalT
  refine ⟨_, by
    unfold ForcingTerm.create
    rw [if_neg (by omega), if_neg (by simp only [goalT]; linarith), if_neg (by norm_num)], ?_⟩
  simp only [ForcingTerm.initCenter, goalT]
  simp only [if_true, one_ne_zero, if_false]
  congr 1
  simp only [Nat.cast_one, one_mul]
  field_simp
  ring

end Verif
