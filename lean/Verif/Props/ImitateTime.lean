import Verif.Props.FramesFinalVelocity
import Verif.Model.DualImitate

/-! # C27 for the objects: imitation does not depend on the unit of time -/

namespace Verif
open Spec Matrix
variable {d m n : ℕ}

theorem dmpImitateWith_forces {T : Fin (n + 2) → ℝ} {reg overlap alphaZ : ℝ} {e : PyErr} {ft : ForcingTerm d m}
    (hft : ForcingTerm.create d m (T (Fin.last (n + 1))) (T 0) overlap alphaZ = .ok ft) (hreg : ¬ reg < 0) :
    dmpImitateWith (d := d) m T reg overlap alphaZ (.error e) = .error e := by
  unfold dmpImitateWith
  rw [if_neg hreg, hft]
  rfl

/-- Learning from given forces does not depend on the unit of time. -/
theorem dmpImitateWith_time (T : Fin (n + 2) → ℝ) (reg overlap alphaZ : ℝ) (F : Except PyErr (Fin (n + 2) → Vec d))
    {c : ℝ} (hc : 0 < c) :
    dmpImitateWith m (fun i => c * T i) reg overlap alphaZ F = dmpImitateWith m T reg overlap alphaZ F := by
  by_cases hreg : reg < 0
  · rw [dmpImitateWith_neg hreg, dmpImitateWith_neg hreg]
  have hcen : ∀ i, ForcingTerm.initCenter m (c * T (Fin.last (n + 1))) (c * T 0) alphaZ i =
      ForcingTerm.initCenter m (T (Fin.last (n + 1))) (T 0) alphaZ i := by
    intro i
    unfold ForcingTerm.initCenter
    split_ifs
    · exact phase_scale hc.ne' _ _ _ _
    · have : (i : ℝ) * ((c * T (Fin.last (n + 1)) - c * T 0) / ((m : ℝ) - 1)) =
          c * (i * ((T (Fin.last (n + 1)) - T 0) / ((m : ℝ) - 1))) := by ring
      rw [this]
      exact phase_scale hc.ne' _ _ _ _
  have hwid : ∀ L i, ForcingTerm.initWidth m (c * T (Fin.last (n + 1))) (c * T 0) alphaZ L i =
      ForcingTerm.initWidth m (T (Fin.last (n + 1))) (T 0) alphaZ L i := by
    intro L i
    unfold ForcingTerm.initWidth
    simp only [hcen]
  cases hft : ForcingTerm.create d m (T (Fin.last (n + 1))) (T 0) overlap alphaZ with
  | error e =>
    have hft' : ForcingTerm.create d m (c * T (Fin.last (n + 1))) (c * T 0) overlap alphaZ = .error e := by
      unfold ForcingTerm.create at hft ⊢
      simp only [mul_le_mul_iff_right₀ hc]
      split_ifs at hft ⊢ <;> exact hft
    rw [dmpImitateWith_error hft hreg, dmpImitateWith_error (T := fun i => c * T i) hft' hreg]
  | ok ft =>
    have hft' : ForcingTerm.create d m (c * T (Fin.last (n + 1))) (c * T 0) overlap alphaZ =
        .ok { ft with
          goalT := c * T (Fin.last (n + 1))
          startT := c * T 0
          executionTime := c * T (Fin.last (n + 1)) - c * T 0 } := by
      unfold ForcingTerm.create at hft ⊢
      simp only [mul_le_mul_iff_right₀ hc]
      split_ifs at hft ⊢
      simp only [hcen, hwid]
      injection hft with hft
      rw [← hft]
    have hX : ({ ft with
          goalT := c * T (Fin.last (n + 1))
          startT := c * T 0
          executionTime := c * T (Fin.last (n + 1)) - c * T 0 } : ForcingTerm d m).designMatrix (fun i => c * T i) =
        ft.designMatrix T := by
      funext i t
      unfold ForcingTerm.designMatrix
      simp only [phase_scale hc.ne']
      rfl
    cases F with
    | error e => rw [dmpImitateWith_forces hft hreg, dmpImitateWith_forces (T := fun i => c * T i) hft' hreg]
    | ok F =>
      rw [dmpImitateWith_eq hft (not_lt.1 hreg), dmpImitateWith_eq (T := fun i => c * T i) hft' (not_lt.1 hreg), hX]

theorem demoRotYd_time (qgrad : (Fin (n + 2) → Vec 4) → Fin (n + 2) → Vec 3) (T : Fin (n + 2) → ℝ)
    (Y : Fin (n + 2) → Vec 4) (afv : Bool) (c : ℝ) :
    demoRotYd qgrad (fun i => c * T i) Y afv = fun t k => demoRotYd qgrad T Y afv t k / c := by
  funext t k
  unfold demoRotYd
  have := gradient_affine T c 0 t
  simp only [add_zero] at this
  rw [this]
  split_ifs
  · simp
  · rw [mul_comm, div_div]

theorem demoRotYdd_time (qgrad : (Fin (n + 2) → Vec 4) → Fin (n + 2) → Vec 3) (T : Fin (n + 2) → ℝ)
    (Y : Fin (n + 2) → Vec 4) (afv : Bool) (c : ℝ) :
    demoRotYdd qgrad (fun i => c * T i) Y afv = fun t k => demoRotYdd qgrad T Y afv t k / c ^ 2 := by
  funext t k
  unfold demoRotYdd
  have := gradient_affine T c 0 t
  simp only [add_zero] at this
  rw [this, demoRotYd_time]
  split_ifs
  · simp
  · have e : gradient (fun i => demoRotYd qgrad T Y afv i k / c) t =
        gradient (fun i => demoRotYd qgrad T Y afv i k) t / c := by
      have := gradient_affine (fun i => demoRotYd qgrad T Y afv i k) c⁻¹ 0 t
      rw [div_eq_mul_inv, mul_comm, ← this]
      congr 1
      funext j; rw [div_eq_mul_inv, mul_comm, add_zero]
    rw [e, div_div, div_div, pow_two]
    congr 1; ring

theorem determineForcesQuaternion_time (ops : QuatOps) (qgrad : (Fin (n + 2) → Vec 4) → Fin (n + 2) → Vec 3)
    (T : Fin (n + 2) → ℝ) (Y : Fin (n + 2) → Vec 4) (a b : Vec 3) (z : ℝ) (afv smooth : Bool) {c : ℝ} (hc : c ≠ 0) :
    determineForcesQuaternion ops qgrad (fun i => c * T i) Y a b z afv smooth =
      determineForcesQuaternion ops qgrad T Y a b z afv smooth := by
  funext t k
  unfold determineForcesQuaternion
  simp only [demoRotYd_time, demoRotYdd_time, phase_scale hc, ← mul_sub]
  field_simp

theorem backwardDifference_time (T x : Fin (n + 2) → ℝ) (c : ℝ) (i : Fin (n + 2)) :
    backwardDifference (fun i => c * T i) x i = c⁻¹ * backwardDifference T x i := by
  unfold backwardDifference
  split_ifs
  · simp
  · rw [← mul_sub, div_mul_eq_div_div_swap, inv_mul_eq_div]

theorem backwardDifference_smul (T x : Fin (n + 2) → ℝ) (c : ℝ) (i : Fin (n + 2)) :
    backwardDifference T (fun j => c * x j) i = c * backwardDifference T x i := by
  unfold backwardDifference
  split_ifs
  · simp
  · rw [← mul_sub, mul_div_assoc]

theorem fvYd_time (T : Fin (n + 2) → ℝ) (Y : Fin (n + 2) → Vec d) (c : ℝ) (t : Fin (n + 2)) :
    fvYd (fun i => c * T i) Y t = c⁻¹ • fvYd T Y t :=
  funext fun _ => backwardDifference_time T _ c t

theorem fvYdd_time (T : Fin (n + 2) → ℝ) (Y : Fin (n + 2) → Vec d) (c : ℝ) (t : Fin (n + 2)) :
    fvYdd (fun i => c * T i) Y t = c⁻¹ • c⁻¹ • fvYdd T Y t := by
  funext k
  unfold fvYdd
  rw [backwardDifference_time]
  simp only [fvYd_time, Pi.smul_apply, smul_eq_mul]
  rw [backwardDifference_smul]

theorem fvDetermineForces_time (T : Fin (n + 2) → ℝ) (Y : Fin (n + 2) → Vec d) (a b : Vec d) {c : ℝ} (hc : 0 < c)
    (hT : T 0 ≠ T (Fin.last _)) (hle : ∀ t, T t ≤ T (Fin.last _)) :
    fvDetermineForces (fun i => c * T i) Y a b = fvDetermineForces T Y a b := by
  have hc' := hc.ne'
  unfold fvDetermineForces
  obtain ⟨q, h1, h2⟩ := solveConstraints_map LinearMap.id (0 : Vec d) hc' hT (Y 0) (fvYd T Y 0) (fvYdd T Y 0)
    (Y (Fin.last (n + 1))) (fvYd T Y (Fin.last (n + 1))) (fvYdd T Y (Fin.last (n + 1)))
  simp only [LinearMap.id_apply, add_zero] at h2
  simp only [fvYd_time, fvYdd_time, h1, h2, bind, Except.bind, Pure.pure, Except.pure]
  congr 1
  funext t k
  have h3 := applyConstraints_map LinearMap.id (0 : Vec d) hc (T t) (Y (Fin.last (n + 1))) (T (Fin.last (n + 1))) q
    (.inr (hle t))
  simp only [LinearMap.id_apply, add_zero] at h3
  rw [h3]
  simp only [refMap, LinearMap.id_apply, add_zero, Pi.smul_apply, smul_eq_mul]
  rw [← mul_sub]
  field_simp

/-- **C27 (DMP).** `imitate` with all time stamps of the demonstration multiplied by a positive factor has the same outcome
and results in the same object. -/
theorem C27_dmp_time (s : DMP d m) (T : Fin (n + 2) → ℝ) (Y : Fin (n + 2) → Vec d) (reg : ℝ) (afv : Bool) {c : ℝ}
    (hc : 0 < c) :
    (DMP.imitate (fun i => c * T i) Y reg afv).exec s = (DMP.imitate T Y reg afv).exec s := by
  unfold DMP.imitate
  simp only [C27_time_scale _ _ _ _ _ _ _ _ _ _ hc]

/-- **C27 (CartesianDMP).** The same for positions and orientations, whatever implementation of the quaternion functions is
used. -/
theorem C27_cartesian_time (ops : QuatOps) (qgrad : (Fin (n + 2) → Vec 4) → Fin (n + 2) → Vec 3) (s : CartesianDMP m)
    (T : Fin (n + 2) → ℝ) (Y : Fin (n + 2) → Vec (3 + 4)) (reg : ℝ) (afv : Bool) {c : ℝ} (hc : 0 < c) :
    (CartesianDMP.imitate ops qgrad (fun i => c * T i) Y reg afv).exec s =
      (CartesianDMP.imitate ops qgrad T Y reg afv).exec s := by
  unfold CartesianDMP.imitate
  simp only [C27_time_scale _ _ _ _ _ _ _ _ _ _ hc, dmpImitateWith_time _ _ _ _ _ hc,
    determineForcesQuaternion_time _ _ _ _ _ _ _ _ _ hc.ne']

/-- **C27 (DualCartesianDMP).** The same for two arms. -/
theorem C27_dual_time (ops : QuatOps) (qgrad : (Fin (n + 2) → Vec 4) → Fin (n + 2) → Vec 3) (s : DualCartesianDMP m)
    (T : Fin (n + 2) → ℝ) (Y : Fin (n + 2) → Vec 14) (reg : ℝ) (afv : Bool) {c : ℝ} (hc : 0 < c) :
    (DualCartesianDMP.imitate ops qgrad (fun i => c * T i) Y reg afv).exec s =
      (DualCartesianDMP.imitate ops qgrad T Y reg afv).exec s := by
  unfold DualCartesianDMP.imitate
  simp only [C27_time_scale _ _ _ _ _ _ _ _ _ _ hc, dmpImitateWith_time _ _ _ _ _ hc,
    determineForcesQuaternion_time _ _ _ _ _ _ _ _ _ hc.ne']

/-- **C27 (DMPWithFinalVelocity).** Here the velocities and accelerations at start and goal are learned, too: they are
divided by the factor and by its square. The weights and everything else are the same. (No time stamp may come after the
last one.) -/
theorem C27_fv_time (s : FvDMP d m) (T : Fin (n + 2) → ℝ) (Y : Fin (n + 2) → Vec d) (reg : ℝ) {c : ℝ} (hc : 0 < c)
    (hT : T 0 < T (Fin.last _)) (hle : ∀ t, T t ≤ T (Fin.last _)) :
    let r := (FvDMP.imitate T Y reg).exec s
    let r' := (FvDMP.imitate (fun i => c * T i) Y reg).exec s
    (r.1 = .ok () →
      r' = (.ok (), { r.2 with
        startYd := c⁻¹ • r.2.startYd
        startYdd := (c ^ 2)⁻¹ • r.2.startYdd
        goalYd := c⁻¹ • r.2.goalYd
        goalYdd := (c ^ 2)⁻¹ • r.2.goalYdd })) ∧
    (∀ e, r.1 = .error e → r' = (.error e, s) ∧ r.2 = s) := by
  rw [FvDMP.exec_imitate, FvDMP.exec_imitate, fvDetermineForces_time T Y _ _ hc hT.ne hle,
    dmpImitateWith_time _ _ _ _ _ hc]
  cases dmpImitateWith m T reg s.ft.overlap s.ft.alphaZ (fvDetermineForces T Y s.alphaY s.betaY) with
  | error e =>
    dsimp only
    refine ⟨fun h => (by cases h), fun e' h => ?_⟩
    cases h
    exact ⟨rfl, rfl⟩
  | ok w =>
    simp only [DMP.exec_configure, movement_configure_all, fvYd_time, fvYdd_time, smul_smul, ← pow_two, inv_pow]
    exact ⟨fun _ => trivial, fun e h => by cases h⟩

/-- The time stamps `0, 1, 3` meet the hypotheses, and imitation succeeds. -/
example : (0 : ℝ) < 2 ∧ (![0, 1, 3] : Fin 3 → ℝ) 0 < ![0, 1, 3] (Fin.last 2) ∧
    ∀ t, (![0, 1, 3] : Fin 3 → ℝ) t ≤ ![0, 1, 3] (Fin.last 2) := by
  refine ⟨by norm_num, by simp [Fin.last], fun t => ?_⟩
  fin_cases t <;> simp [Fin.last]

end Verif
