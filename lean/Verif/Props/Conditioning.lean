import Verif.Props.PhaseObjects
import Verif.Lemmas.PrompCondition
import Verif.Spec.Conditioning
import Mathlib.Analysis.Complex.ExponentialBounds

/-!
# C84: the normalisation of basis functions divides by a number that is not small

Activations of basis functions are divided by their sum. During the movement that sum is bounded away from zero for every
number of basis functions; findings: this is not so after the movement, where doubles underflow.
-/

namespace Verif
open Spec Filter Topology
variable {d m n w : ℕ}

/-! ## Helper lemmas -/

theorem between_centers {x : ℝ} (hm : 1 < m) (h0 : 0 ≤ x) (h1 : x ≤ (m : ℝ) - 1) :
    ∃ i : ℕ, i + 1 < m ∧ (i : ℝ) ≤ x ∧ x ≤ (i : ℝ) + 1 := by
  by_cases h : ⌊x⌋₊ + 1 < m
  · exact ⟨⌊x⌋₊, h, Nat.floor_le h0, (Nat.lt_floor_add_one x).le⟩
  · refine ⟨m - 2, by omega, ?_, ?_⟩
    · have h2 : m - 1 ≤ ⌊x⌋₊ := by omega
      have h3 : ((m - 2 : ℕ) : ℝ) ≤ (⌊x⌋₊ : ℕ) := by exact_mod_cast (by omega : m - 2 ≤ ⌊x⌋₊)
      exact h3.trans (Nat.floor_le h0)
    · have : ((m - 2 : ℕ) : ℝ) = (m : ℝ) - 2 := by
        rw [Nat.cast_sub (by omega)]; norm_num
      rw [this]; linarith

theorem rbf_sum_ge {goalT overlap alphaZ : ℝ} {ft : ForcingTerm d m}
    (h : ForcingTerm.create d m goalT 0 overlap alphaZ = .ok ft) (hα : 0 < alphaZ) (ho : overlap < 1) {t : ℝ}
    (h0 : 0 ≤ t) (h1 : t ≤ goalT) : overlap ≤ ∑ i, ft.rbf (ft.phaseAt t) i := by
  obtain ⟨hm, hT, ho0, rfl⟩ := create_ok h
  have hm' : (0 : ℝ) < m - 1 := by
    have : (1 : ℝ) < m := by exact_mod_cast hm
    linarith
  have hlo : Real.log overlap < 0 := Real.log_neg ho0 ho
  obtain ⟨i, hi, hx0, hx1⟩ := between_centers (x := t / goalT * (m - 1)) hm (by positivity)
    (by have := (div_le_one hT).2 h1; nlinarith)
  have hanti := initCenter_strictAnti goalT alphaZ hm hT hα (Nat.lt_succ_self i)
  simp only at hanti
  refine le_trans ?_ (Finset.single_le_sum (f := fun i => ForcingTerm.rbf _ _ i) (fun j _ => (Real.exp_pos _).le)
    (Finset.mem_univ (⟨i, by omega⟩ : Fin m)))
  simp only [ForcingTerm.rbf, ForcingTerm.initWidth, if_pos hi]
  rw [← Real.log_le_iff_le_exp ho0]
  set c := ForcingTerm.initCenter m goalT 0 alphaZ i with hc
  set c' := ForcingTerm.initCenter m goalT 0 alphaZ (i + 1) with hc'
  have hz : phase t alphaZ goalT 0 = Real.exp (-alphaZ * (t / goalT * (m - 1) / (m - 1 : ℝ))) := by
    unfold phase
    congr 1
    simp only [sub_zero]
    field_simp
  simp only [ForcingTerm.phaseAt, hz]
  set z := Real.exp (-alphaZ * (t / goalT * (m - 1) / (m - 1 : ℝ))) with hzd
  have hzc : z ≤ c := by
    rw [hc, initCenter_zero_start _ _ _ hm hT, hzd]
    apply Real.exp_le_exp.2
    have := (div_le_div_iff_of_pos_right hm').2 hx0
    nlinarith
  have hzc' : c' ≤ z := by
    rw [hc', initCenter_zero_start _ _ _ hm hT, hzd]
    apply Real.exp_le_exp.2
    have := (div_le_div_iff_of_pos_right hm').2 hx1
    push_cast
    nlinarith
  have hq : (z - c) ^ 2 ≤ (c' - c) ^ 2 := by nlinarith
  have hp : 0 < (c' - c) ^ 2 := by nlinarith
  have hr : (z - c) ^ 2 / (c' - c) ^ 2 ≤ 1 := (div_le_one hp).2 hq
  have e : -(-Real.log overlap / (c' - c) ^ 2) * (z - c) ^ 2 = Real.log overlap * ((z - c) ^ 2 / (c' - c) ^ 2) := by
    field_simp
  rw [e]
  nlinarith [hr]

theorem rnd_tiny {rnd : ℝ → ℝ} (hr : IsRounding rnd) {x : ℝ} (h0 : 0 ≤ x) (h1 : x < (2 : ℝ) ^ (-1075 : ℤ)) : rnd x = 0 := by
  obtain ⟨k, e, hk, he, hx⟩ := hr.isDouble x
  have hd : IsDouble 0 := ⟨0, 0, by norm_num, by norm_num, by norm_num⟩
  have hn := hr.nearest x 0 hd
  rw [zero_sub, abs_neg, abs_of_nonneg h0] at hn
  have h2 : |rnd x| ≤ 2 * x := by
    calc |rnd x| = |(rnd x - x) + x| := by ring_nf
      _ ≤ |rnd x - x| + |x| := abs_add_le _ _
      _ ≤ 2 * x := by rw [abs_of_nonneg h0]; linarith
  have h3 : |rnd x| < (2 : ℝ) ^ (-1074 : ℤ) := by
    refine h2.trans_lt ?_
    have : (2 : ℝ) ^ (-1074 : ℤ) = 2 * (2 : ℝ) ^ (-1075 : ℤ) := by
      rw [show (-1074 : ℤ) = 1 + -1075 by norm_num, zpow_add₀ (by norm_num), zpow_one]
    linarith
  have h4 : (2 : ℝ) ^ (-1074 : ℤ) ≤ (2 : ℝ) ^ e := zpow_le_zpow_right₀ (by norm_num) he
  have hp : (0 : ℝ) < 2 ^ e := by positivity
  have h5 : (|k| : ℤ) < 1 := by
    by_contra hc
    have h6 : (1 : ℝ) ≤ |(k : ℝ)| := by exact_mod_cast not_lt.1 hc
    rw [hx, abs_mul, abs_of_pos hp] at h3
    nlinarith
  have : k = 0 := by simpa using Int.abs_lt_one_iff.1 h5
  rw [hx, this]; simp

theorem exp_tiny {x : ℝ} (h : 746 ≤ x) : Real.exp (-x) < (2 : ℝ) ^ (-1075 : ℤ) := by
  have h2 := Real.log_two_lt_d9
  rw [← Real.lt_log_iff_exp_lt (by positivity), Real.log_zpow]
  push_cast
  nlinarith

theorem log_hundred : -Real.log (1 / 100 : ℝ) = Real.log 100 := by
  rw [one_div, Real.log_inv, neg_neg]

theorem log_hundred_pos : 0 < -Real.log (1 / 100 : ℝ) := by
  rw [log_hundred]; exact Real.log_pos (by norm_num)

theorem log_hundred_le : -Real.log (1 / 100 : ℝ) ≤ 4853 / 1000 := by
  have h2 := Real.log_two_lt_d9
  rw [log_hundred]
  have : Real.log 100 ≤ Real.log (2 ^ 7) := Real.log_le_log (by norm_num) (by norm_num)
  rw [Real.log_pow] at this
  push_cast at this
  linarith

/-- The ratio of neighbouring centers is close to 1 if there are many. -/
theorem ratio_le {k : ℝ} (hk : 599 ≤ k) : Real.exp (-Real.log (1 / 100) / k) - 1 ≤ 8170 / 1000000 := by
  have hα := log_hundred_le
  have hpos := log_hundred_pos
  have hx : -Real.log (1 / 100) / k ≤ 8102 / 1000000 := by
    rw [div_le_iff₀ (by linarith)]
    nlinarith
  set x := -Real.log (1 / 100) / k
  have h1 : 1 - x ≤ Real.exp (-x) := by have := Real.add_one_le_exp (-x); linarith
  rw [Real.exp_neg] at h1
  have hp := Real.exp_pos x
  have h2 : (1 - x) * Real.exp x ≤ 1 := by
    calc (1 - x) * Real.exp x ≤ (Real.exp x)⁻¹ * Real.exp x := mul_le_mul_of_nonneg_right h1 hp.le
      _ = 1 := inv_mul_cancel₀ hp.ne'
  nlinarith

theorem rbf_tiny {τ : ℝ} {ft : ForcingTerm d m} (h : DMP.initForcingTerm d m τ = .ok ft) (hm600 : 600 ≤ m) {t : ℝ}
    (ht : 12 / 10 * τ ≤ t) (i : Fin m) : ft.rbf (ft.phaseAt t) i < (2 : ℝ) ^ (-1075 : ℤ) := by
  rw [DMP.initForcingTerm_ok_iff] at h
  obtain ⟨hm, hT, ho0, rfl⟩ := create_ok h
  have hk : (599 : ℝ) ≤ (m : ℝ) - 1 := by
    have : (600 : ℝ) ≤ m := by exact_mod_cast hm600
    linarith
  have hm' : (0 : ℝ) < m - 1 := by linarith
  have hα := log_hundred_pos
  set α := -Real.log (1 / 100 : ℝ) with hαd
  set r := Real.exp (α / (m - 1 : ℝ)) with hr
  have hr1 : 1 < r := Real.one_lt_exp_iff.2 (by positivity)
  have hr2 : r - 1 ≤ 8170 / 1000000 := ratio_le hk
  have hcc : ∀ j : ℕ, ForcingTerm.initCenter m τ 0 α j = r * ForcingTerm.initCenter m τ 0 α (j + 1) := by
    intro j
    rw [initCenter_zero_start _ _ _ hm hT, initCenter_zero_start _ _ _ hm hT, hr, ← Real.exp_add]
    congr 1
    push_cast
    field_simp
    ring
  set c := ForcingTerm.initCenter m τ 0 α i with hc
  have hcv : c = Real.exp (-α * (i / (m - 1 : ℝ))) := initCenter_zero_start _ _ _ hm hT
  have hcpos : 0 < c := by rw [hcv]; exact Real.exp_pos _
  have hi : (i : ℝ) ≤ m - 1 := by
    have : ((i : ℕ) : ℝ) + 1 ≤ m := by exact_mod_cast i.isLt
    linarith
  -- distance of neighbouring centers
  have hw : ∃ D, 0 < D ∧ D ≤ (c * (r - 1)) ^ 2 ∧
      ForcingTerm.initWidth m τ 0 α (-Real.log (8 / 10)) i = -Real.log (8 / 10) / D := by
    unfold ForcingTerm.initWidth
    by_cases hlast : (i : ℕ) + 1 < m
    · simp only [if_pos hlast]
      have e := hcc i
      rw [← hc] at e
      set c' := ForcingTerm.initCenter m τ 0 α (↑i + 1)
      have hc'pos : 0 < c' := by nlinarith
      refine ⟨(c' - c) ^ 2, ?_, ?_, rfl⟩
      · have : c' - c ≠ 0 := by rw [e]; nlinarith
        positivity
      · have h1 : 0 ≤ c - c' := by rw [e]; nlinarith
        have h2 : c - c' ≤ c * (r - 1) := by rw [e]; nlinarith [mul_pos hc'pos (mul_pos (sub_pos.2 hr1) (sub_pos.2 hr1))]
        calc (c' - c) ^ 2 = (c - c') ^ 2 := by ring
          _ ≤ _ := pow_le_pow_left₀ h1 h2 2
    · simp only [if_neg hlast]
      have hi2 : m - 2 + 1 = (i : ℕ) := by have := i.isLt; omega
      have e := hcc (m - 2)
      rw [hi2, ← hc] at e
      rw [hi2, ← hc, e]
      refine ⟨_, ?_, ?_, rfl⟩
      · have : c - r * c ≠ 0 := by nlinarith
        positivity
      · apply le_of_eq; ring
  obtain ⟨D, hD0, hD1, hwid⟩ := hw
  simp only [ForcingTerm.rbf]
  rw [hwid, ← hc]
  -- the phase is at most half of each center
  have hz : phase t α τ 0 ≤ c / 2 := by
    have h5 : Real.exp (-α * (1 / 5)) ≤ 1 / 2 := by
      have : Real.exp (-α * (1 / 5)) = Real.exp ((-α) / 5) := by ring_nf
      rw [this, hαd, neg_neg, ← Real.le_log_iff_exp_le (by norm_num), div_le_iff₀ (by norm_num), mul_comm]
      rw [show (5 : ℝ) = ((5 : ℕ) : ℝ) by norm_num, ← Real.log_pow]
      exact Real.log_le_log (by norm_num) (by norm_num)
    have h6 : phase t α τ 0 ≤ Real.exp (-α) * Real.exp (-α * (1 / 5)) := by
      unfold phase
      rw [← Real.exp_add]
      apply Real.exp_le_exp.2
      have h7 : 12 / 10 ≤ t / τ := (le_div_iff₀ hT).2 ht
      simp only [sub_zero]
      rw [mul_div_assoc]
      nlinarith
    have h8 : Real.exp (-α) ≤ c := by
      rw [hcv]
      apply Real.exp_le_exp.2
      have := (div_le_one hm').2 hi
      nlinarith
    have := Real.exp_pos (-α)
    nlinarith
  have hz0 : 0 < phase t α τ 0 := by unfold phase; exact Real.exp_pos _
  simp only [ForcingTerm.phaseAt]
  set z := phase t α τ 0
  have hL : (2 / 10 : ℝ) ≤ -Real.log (8 / 10) := by
    have := Real.log_le_sub_one_of_pos (show (0 : ℝ) < 8 / 10 by norm_num)
    linarith
  have e : -(-Real.log (8 / 10) / D) * (z - c) ^ 2 = -(-Real.log (8 / 10) * ((z - c) ^ 2 / D)) := by
    field_simp
  rw [e]
  apply exp_tiny
  have h9 : 3745 ≤ (z - c) ^ 2 / D := by
    rw [le_div_iff₀ hD0]
    have a1 : (c / 2) ^ 2 ≤ (z - c) ^ 2 := by nlinarith
    have a2 : (c * (r - 1)) ^ 2 ≤ c ^ 2 * (8170 / 1000000) ^ 2 := by
      rw [mul_pow]
      exact mul_le_mul_of_nonneg_left (pow_le_pow_left₀ (by linarith) hr2 2) (by positivity)
    nlinarith [sq_nonneg c]
  nlinarith

/-- The attributes of a forcing term that determine its basis functions are those that the constructor computes. -/
def ForcingTerm.Made (ft : ForcingTerm d m) (τ : ℝ) : Prop :=
  ∃ ft0, DMP.initForcingTerm d m τ = .ok ft0 ∧ ft.goalT = ft0.goalT ∧ ft.startT = ft0.startT ∧ ft.alphaZ = ft0.alphaZ ∧
    ft.centers = ft0.centers ∧ ft.widths = ft0.widths

theorem ForcingTerm.made_init {τ : ℝ} {ft : ForcingTerm d m} (h : DMP.initForcingTerm d m τ = .ok ft)
    (w : Fin d → Fin m → ℝ) : ForcingTerm.Made { ft with weights := w } τ := ⟨ft, h, rfl, rfl, rfl, rfl, rfl⟩

theorem ForcingTerm.Made.gaussianAt_eq {ft : ForcingTerm d m} {τ : ℝ} (h : ft.Made τ) :
    ∃ ft0, DMP.initForcingTerm d m τ = .ok ft0 ∧ ∀ t i, gaussianAt ft t i = ft0.rbf (ft0.phaseAt t) i := by
  obtain ⟨ft0, h0, e1, e2, e3, e4, e5⟩ := h
  refine ⟨ft0, h0, fun t i => ?_⟩
  simp only [gaussianAt, ForcingTerm.rbf, ForcingTerm.phaseAt, e1, e2, e3, e4, e5]

theorem ForcingTerm.Made.wellConditioned {ft : ForcingTerm d m} {τ : ℝ} (h : ft.Made τ) : WellConditioned ft τ := by
  obtain ⟨ft0, h0, e⟩ := h.gaussianAt_eq
  have hc := h0
  rw [DMP.initForcingTerm_ok_iff] at hc
  have hw : ∀ i, 0 < ft0.widths i := (C05_basis_functions hc log_hundred_pos (by norm_num)).2.2.2.1
  intro t ht0 ht1
  have h1 : (8 / 10 : ℝ) ≤ normaliser ft t := by
    simp only [normaliser, e]
    exact rbf_sum_ge hc log_hundred_pos (by norm_num) ht0 ht1
  refine ⟨h1, ?_, fun i => ?_⟩
  · simp only [normaliser, e]
    calc ∑ i, ft0.rbf (ft0.phaseAt t) i ≤ ∑ _i : Fin m, (1 : ℝ) := by
          apply Finset.sum_le_sum
          intro i _
          apply Real.exp_le_one_iff.2
          nlinarith [hw i, sq_nonneg (ft0.phaseAt t - ft0.centers i), mul_nonneg (hw i).le (sq_nonneg (ft0.phaseAt t - ft0.centers i))]
      _ = m := by simp
  · have h2 : normaliser ft t ≠ 0 := by linarith
    exact div_mul_cancel₀ _ h2

theorem ForcingTerm.Made.underflows {rnd : ℝ → ℝ} (hr : IsRounding rnd) {ft : ForcingTerm d m} {τ : ℝ} (h : ft.Made τ)
    (hm : 600 ≤ m) {t : ℝ} (ht : 12 / 10 * τ ≤ t) : Underflows rnd ft t := by
  obtain ⟨ft0, h0, e⟩ := h.gaussianAt_eq
  intro i
  rw [e]
  exact rnd_tiny hr (Real.exp_pos _).le (rbf_tiny h0 hm ht i)

theorem DMP.Reachable.made {s : DMP d m} (hs : s.Reachable) : s.ft.Made s.executionTime := by
  obtain ⟨ft, h1, h2⟩ := hs.valid
  rw [h2]
  exact ForcingTerm.made_init h1 _

theorem DualCartesianDMP.imitate_made (ops : QuatOps) (qgrad : (Fin (n + 2) → Vec 4) → Fin (n + 2) → Vec 3)
    (T : Fin (n + 2) → ℝ) (Y : Fin (n + 2) → Vec 14) (reg : ℝ) (afv : Bool) (s : DualCartesianDMP m) :
    ((imitate ops qgrad T Y reg afv).exec s).2.ft.centers = s.ft.centers ∧
      ((imitate ops qgrad T Y reg afv).exec s).2.ft.widths = s.ft.widths := by
  unfold imitate
  simp only [Py.exec_bind, Py.exec_modify, Py.exec_get, Py.exec_lift]
  cases dmpImitate m T (fun t => armPos 0 (Y t)) reg (armLin 0 s.alphaY) (armLin 0 s.betaY) s.ft.overlap
    s.ft.alphaZ afv s.smooth with
  | error e => exact ⟨rfl, rfl⟩
  | ok w0 =>
    simp only
    cases dmpImitateWith m T reg s.ft.overlap s.ft.alphaZ
      (.ok (determineForcesQuaternion ops qgrad T (fun t => armRot 0 (Y t)) (armAng 0 s.alphaY) (armAng 0 s.betaY)
      s.ft.alphaZ afv s.smooth)) with
    | error e => exact ⟨rfl, rfl⟩
    | ok w1 =>
      simp only
      cases dmpImitate m T (fun t => armPos 1 (Y t)) reg (armLin 1 s.alphaY) (armLin 1 s.betaY) s.ft.overlap
        s.ft.alphaZ afv s.smooth with
      | error e => exact ⟨rfl, rfl⟩
      | ok w2 =>
        simp only
        cases dmpImitateWith m T reg s.ft.overlap s.ft.alphaZ
          (.ok (determineForcesQuaternion ops qgrad T (fun t => armRot 1 (Y t)) (armAng 1 s.alphaY) (armAng 1 s.betaY)
          s.ft.alphaZ afv s.smooth)) with
        | error e => exact ⟨rfl, rfl⟩
        | ok w3 => exact ⟨rfl, rfl⟩

theorem Spec.TimedDual.made {s : DualCartesianDMP m} (hs : TimedDual s) : s.ft.Made s.executionTime := by
  induction hs with
  | @create τ dt intDt pGain smooth α β s h =>
    unfold DualCartesianDMP.create at h
    rw [show DualCartesianDMP.initForcingTerm m τ = DMP.initForcingTerm 12 m τ from rfl] at h
    cases h1 : DMP.initForcingTerm 12 m τ with
    | error e => rw [h1] at h; cases h
    | ok ft =>
      rw [h1] at h
      cases h2 : ensure1dArray α 12 with
      | error e => rw [h2] at h; cases h
      | ok a =>
        rw [h2] at h
        cases h3 : ensure1dArray β 12 with
        | error e => rw [h3] at h; cases h
        | ok b =>
          rw [h3] at h
          simp only [Bind.bind, Except.bind, Pure.pure, Except.pure, Except.ok.injEq] at h
          subst h
          exact ForcingTerm.made_init h1 _
  | @op s o hs ho ih =>
    cases o with
    | step ops c sf y yd =>
      simp only [DualOp.after, DualCartesianDMP.exec_step]
      split <;> exact ih
    | openLoop ops t c nm =>
      have h : SameConfiguration s (DualOp.after (.openLoop ops t c nm) s) := DualCall.after_same ops s (.openLoop t c nm)
      rw [h]
      exact ih
    | configure a => exact ih
    | reset => exact ih
    | setWeights w =>
      simp only [DualOp.after, DualCartesianDMP.exec_setWeights]
      split <;> exact ih
    | setExecutionTime τ =>
      have := ho τ rfl
      simp only [DualOp.after]
      rw [DualCartesianDMP.exec_setExecutionTime] at this ⊢
      cases h4 : DMP.initForcingTerm 12 m τ with
      | error e => rw [h4] at this; cases this
      | ok ft => exact ⟨ft, h4, rfl, rfl, rfl, rfl, rfl⟩
    | imitate ops qgrad T Y reg afv =>
      obtain ⟨e1, e2, e3, e4⟩ := DualCartesianDMP.imitate_timed ops qgrad T Y reg afv s
      obtain ⟨e5, e6⟩ := DualCartesianDMP.imitate_made ops qgrad T Y reg afv s
      simp only [DualOp.after]
      unfold ForcingTerm.Made
      rw [e1, e2, e3, e4, e5, e6]
      exact ih

theorem Spec.TimedCartesian.made {s : CartesianDMP m} (hs : TimedCartesian s) :
    s.ftPos.Made s.executionTime ∧ s.ftRot.Made s.executionTime := by
  have h : s.InTime := by
    induction hs with
    | create h => exact C14_in_time_create h
    | op o _ ho ih => exact C14_in_time_after ih o ho
  obtain ⟨ft, h1, h2, h3⟩ := h.ft
  rw [h2, h3]
  exact ⟨ForcingTerm.made_init h1 _, ForcingTerm.made_init h1 _⟩

/-! ## Properties -/

/-- **C84 (DMP).** At every time of the movement, for every number of basis functions and after every history of calls, the
sum of basis functions that the code divides by is at least 0.8. -/
theorem C84_dmp {s : DMP d m} (hs : s.Reachable) : WellConditioned s.ft s.executionTime := hs.made.wellConditioned

/-- **C84 (DMPWithFinalVelocity).** -/
theorem C84_fv {s : FvDMP d m} (hs : FvDMP.Reachable s) : WellConditioned s.ft s.executionTime := by
  obtain ⟨ft, h1, h2⟩ := hs.valid
  rw [h2]
  exact (ForcingTerm.made_init h1 _).wellConditioned

/-- **C84 (CartesianDMP).** -/
theorem C84_cartesian {s : CartesianDMP m} (hs : TimedCartesian s) :
    WellConditioned s.ftPos s.executionTime ∧ WellConditioned s.ftRot s.executionTime :=
  ⟨hs.made.1.wellConditioned, hs.made.2.wellConditioned⟩

/-- **C84 (DualCartesianDMP).** -/
theorem C84_dual {s : DualCartesianDMP m} (hs : TimedDual s) : WellConditioned s.ft s.executionTime :=
  hs.made.wellConditioned

/-- Finding (C84): with 600 or more weights per dimension all basis functions of a DMP underflow at times from 1.2 times the
execution time on: the code computes 0 / 0. -/
theorem C84_underflow {rnd : ℝ → ℝ} (hr : IsRounding rnd) {s : DMP d m} (hs : s.Reachable) (hm : 600 ≤ m) {t : ℝ}
    (ht : 12 / 10 * s.executionTime ≤ t) : Underflows rnd s.ft t := hs.made.underflows hr hm ht

/-- Finding (C84), Cartesian DMP. -/
theorem C84_underflow_cartesian {rnd : ℝ → ℝ} (hr : IsRounding rnd) {s : CartesianDMP m} (hs : TimedCartesian s)
    (hm : 600 ≤ m) {t : ℝ} (ht : 12 / 10 * s.executionTime ≤ t) : Underflows rnd s.ftPos t ∧ Underflows rnd s.ftRot t :=
  ⟨hs.made.1.underflows hr hm ht, hs.made.2.underflows hr hm ht⟩

theorem log_ten_sevenths : 0 < Real.log (10 / 7 : ℝ) := Real.log_pos (by norm_num)

/-- **C84 (ProMP).** At every time between 0 and the largest time (`s` is time relative to it), and for every number of basis
functions, the sum that the code divides by is at least `0.7 ^ 4`. -/
theorem C84_promp {p : ProMP d w} (hp : Spec.Reachable p) (hw : 0 < w) {s : ℝ} (h0 : 0 ≤ s) (h1 : s ≤ 1) :
    (7 / 10 : ℝ) ^ 4 ≤ ∑ a, p.gauss (7 / 10) s a := by
  simp only [ProMP.gauss_eq hp.centers]
  have hL := log_ten_sevenths
  -- a center that is close
  have key : ∃ a : Fin w, (w : ℝ) ^ 2 * (s - centre w a) ^ 2 ≤ 1 := by
    rcases Nat.lt_or_ge 1 w with h | h
    · have hw' : (0 : ℝ) < w - 1 := by
        have : (1 : ℝ) < w := by exact_mod_cast h
        linarith
      obtain ⟨i, hi, hx0, hx1⟩ := between_centers (x := s * (w - 1)) h (by positivity) (by nlinarith)
      have hw2 : (w : ℝ) ≤ 2 * (w - 1) := by
        have : (2 : ℝ) ≤ w := by exact_mod_cast h
        linarith
      have hn : ∃ j : ℕ, j < w ∧ |s * (w - 1) - j| ≤ 1 / 2 := by
        rcases le_total (s * (w - 1) - i) (1 / 2) with h3 | h3
        · exact ⟨i, by omega, abs_le.2 ⟨by linarith, h3⟩⟩
        · refine ⟨i + 1, hi, abs_le.2 ⟨?_, ?_⟩⟩ <;> push_cast <;> linarith
      obtain ⟨j, hj, hd⟩ := hn
      refine ⟨⟨j, hj⟩, ?_⟩
      have e : (s - centre w ⟨j, hj⟩) = (s * (w - 1) - j) / (w - 1) := by
        unfold centre
        rw [if_neg (by omega)]
        field_simp
      rw [e, div_pow, ← mul_div_assoc, div_le_one (by positivity)]
      have h4 : (s * (w - 1) - j) ^ 2 ≤ (1 / 2) ^ 2 := sq_le_sq' (abs_le.1 hd).1 (abs_le.1 hd).2
      have h5 : (w : ℝ) ^ 2 ≤ (2 * (w - 1)) ^ 2 := pow_le_pow_left₀ (by positivity) hw2 2
      nlinarith [sq_nonneg (w : ℝ)]
    · have : w = 1 := by omega
      subst this
      refine ⟨0, ?_⟩
      simp only [centre, if_true, Nat.cast_one]
      nlinarith
  obtain ⟨a, ha⟩ := key
  refine le_trans ?_ (Finset.single_le_sum (f := fun a => Spec.rbf w s a) (fun j _ => (Real.exp_pos _).le)
    (Finset.mem_univ a))
  unfold Spec.rbf
  rw [← Real.log_le_iff_le_exp (by norm_num), Real.log_pow]
  have : Real.log (7 / 10 : ℝ) = -Real.log (10 / 7) := by
    rw [← Real.log_inv]; norm_num
  rw [this]
  push_cast
  nlinarith

/-- Finding (C84): `condition_position(y_mean, t=t)` with the default `t_max=1`, at a time of 5 or later and with at least 10
weights per dimension: all basis functions underflow and the code computes 0 / 0. -/
theorem C84_promp_underflow {rnd : ℝ → ℝ} (hr : IsRounding rnd) {p : ProMP d w} (hp : Spec.Reachable p) (hw : 10 ≤ w)
    {s : ℝ} (hs : 5 ≤ s) (a : Fin w) : rnd (p.gauss (7 / 10) s a) = 0 := by
  rw [ProMP.gauss_eq hp.centers]
  apply rnd_tiny hr (Real.exp_pos _).le
  rw [neg_mul]
  apply exp_tiny
  have hL : (3 / 10 : ℝ) ≤ Real.log (10 / 7) := by
    have := Real.one_sub_inv_le_log_of_pos (show (0 : ℝ) < 10 / 7 by norm_num)
    norm_num at this ⊢
    linarith
  have hw' : (10 : ℝ) ≤ w := by exact_mod_cast hw
  have hc : centre w a ≤ 1 := by
    unfold centre
    split_ifs with h
    · norm_num
    · rw [div_le_one (by linarith)]
      have : ((a : ℕ) : ℝ) + 1 ≤ w := by exact_mod_cast a.isLt
      linarith
  have h1 : (16 : ℝ) ≤ (s - centre w a) ^ 2 := by nlinarith
  have h2 : (120 : ℝ) ≤ 4 * (w : ℝ) ^ 2 * Real.log (10 / 7) := by nlinarith [mul_le_mul hw' hw' (by norm_num) (by linarith)]
  nlinarith

/-! ## The hypotheses are met -/

example : ∃ s : DMP 2 600, s.Reachable ∧ s.executionTime = 3 := by
  obtain ⟨s0, h0, -⟩ := DMP.create_ok (d := 2) (m := 600) (by norm_num) (τ := 2) (by norm_num) (1 / 100) (1 / 1000) 0 false
    25 (25 / 4)
  have hr : s0.Reachable := .create h0
  obtain ⟨s', h2, h3⟩ := C24_set_execution_time hr (τ := 3) (by norm_num)
  exact ⟨s', .op (.setExecutionTime 3) hr h2 (fun _ _ => rfl), h3.1⟩

end Verif
