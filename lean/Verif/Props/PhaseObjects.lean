import Verif.Props.Canonical
import Verif.Props.Frames
import Verif.Props.FinalVelocity
import Verif.Props.OrientationDual
import Verif.Props.StateFollowing
import Verif.Spec.Phase

/-! # C01 for the objects: the phase of every DMP runs from 1 to 0.01 within its execution time -/

namespace Verif
open Spec Filter Topology
variable {d m n : ℕ}

/-- The fields of a forcing term that determine its phase. -/
def ForcingTerm.Timed (ft : ForcingTerm d m) (τ : ℝ) : Prop :=
  0 < τ ∧ ft.goalT = τ ∧ ft.startT = 0 ∧ ft.alphaZ = -Real.log (1 / 100)

theorem phaseOver_phase {τ : ℝ} (hτ : 0 < τ) : PhaseOver (fun t => phase t (-Real.log (1 / 100)) τ 0) τ := by
  obtain ⟨h1, h2, h3, h4, h5⟩ := C01_phase (goalZ := 1 / 100) (goalT := τ) (startT := 0) (alpha := -Real.log (1 / 100))
    (by unfold canonicalSystemAlpha; rw [if_neg (by norm_num), if_neg (not_le.2 hτ)]) (by norm_num)
  exact ⟨h1, h2, h3, h4, h5⟩

theorem ForcingTerm.Timed.phaseOver {ft : ForcingTerm d m} {τ : ℝ} (h : ft.Timed τ) : PhaseOver ft.phaseAt τ := by
  obtain ⟨h1, h2, h3, h4⟩ := h
  have := phaseOver_phase h1
  rwa [show (fun t => phase t (-Real.log (1 / 100)) τ 0) = ft.phaseAt by
    funext t; simp only [ForcingTerm.phaseAt, h2, h3, h4]] at this

theorem ForcingTerm.timed_init {τ : ℝ} {ft : ForcingTerm d m} (h : DMP.initForcingTerm d m τ = .ok ft) : ft.Timed τ := by
  rw [DMP.initForcingTerm_ok_iff] at h
  obtain ⟨e1, e2, _, e4, _, e6, _⟩ := create_eq h
  exact ⟨e6, e1, e2, e4⟩

/-- **C01 (DMP).** The phase of every reachable DMP runs from 1 to 0.01 within its execution time. -/
theorem C01_dmp {s : DMP d m} (hs : s.Reachable) : PhaseOver s.ft.phaseAt s.executionTime := by
  obtain ⟨ft, h1, h2⟩ := hs.valid
  have := (ForcingTerm.timed_init h1).phaseOver
  rw [h2]
  exact this

/-- **C01 (DMPWithFinalVelocity).** -/
theorem C01_fv {s : FvDMP d m} (hs : FvDMP.Reachable s) : PhaseOver s.ft.phaseAt s.executionTime := by
  obtain ⟨ft, h1, h2⟩ := hs.valid
  have := (ForcingTerm.timed_init h1).phaseOver
  rw [h2]
  exact this

/-- **C01 (CartesianDMP).** Both forcing terms. -/
theorem C01_cartesian {s : CartesianDMP m} (hs : TimedCartesian s) :
    PhaseOver s.ftPos.phaseAt s.executionTime ∧ PhaseOver s.ftRot.phaseAt s.executionTime := by
  have h : s.InTime := by
    induction hs with
    | create h => exact C14_in_time_create h
    | op o _ ho ih => exact C14_in_time_after ih o ho
  obtain ⟨ft, h1, h2, h3⟩ := h.ft
  have := (ForcingTerm.timed_init h1).phaseOver
  rw [h2, h3]
  exact ⟨this, this⟩

theorem DualCartesianDMP.imitate_timed (ops : QuatOps) (qgrad : (Fin (n + 2) → Vec 4) → Fin (n + 2) → Vec 3)
    (T : Fin (n + 2) → ℝ) (Y : Fin (n + 2) → Vec 14) (reg : ℝ) (afv : Bool) (s : DualCartesianDMP m) :
    ((imitate ops qgrad T Y reg afv).exec s).2.executionTime = s.executionTime ∧
      ((imitate ops qgrad T Y reg afv).exec s).2.ft.goalT = s.ft.goalT ∧
      ((imitate ops qgrad T Y reg afv).exec s).2.ft.startT = s.ft.startT ∧
      ((imitate ops qgrad T Y reg afv).exec s).2.ft.alphaZ = s.ft.alphaZ := by
  unfold imitate
  simp only [Py.exec_bind, Py.exec_modify, Py.exec_get, Py.exec_lift]
  cases dmpImitate m T (fun t => armPos 0 (Y t)) reg (armLin 0 s.alphaY) (armLin 0 s.betaY) s.ft.overlap
    s.ft.alphaZ afv s.smooth with
  | error e => exact ⟨rfl, rfl, rfl, rfl⟩
  | ok w0 =>
    simp only
    cases dmpImitateWith m T reg s.ft.overlap s.ft.alphaZ
      (.ok (determineForcesQuaternion ops qgrad T (fun t => armRot 0 (Y t)) (armAng 0 s.alphaY) (armAng 0 s.betaY)
      s.ft.alphaZ afv s.smooth)) with
    | error e => exact ⟨rfl, rfl, rfl, rfl⟩
    | ok w1 =>
      simp only
      cases dmpImitate m T (fun t => armPos 1 (Y t)) reg (armLin 1 s.alphaY) (armLin 1 s.betaY) s.ft.overlap
        s.ft.alphaZ afv s.smooth with
      | error e => exact ⟨rfl, rfl, rfl, rfl⟩
      | ok w2 =>
        simp only
        cases dmpImitateWith m T reg s.ft.overlap s.ft.alphaZ
          (.ok (determineForcesQuaternion ops qgrad T (fun t => armRot 1 (Y t)) (armAng 1 s.alphaY) (armAng 1 s.betaY)
          s.ft.alphaZ afv s.smooth)) with
        | error e => exact ⟨rfl, rfl, rfl, rfl⟩
        | ok w3 => exact ⟨rfl, rfl, rfl, rfl⟩

/-- **C01 (DualCartesianDMP).** -/
theorem C01_dual {s : DualCartesianDMP m} (hs : TimedDual s) : PhaseOver s.ft.phaseAt s.executionTime := by
  apply ForcingTerm.Timed.phaseOver
  induction hs with
  | @create τ dt intDt pGain smooth α β s h =>
    unfold DualCartesianDMP.create at h
    rw [show DualCartesianDMP.initForcingTerm m τ = DMP.initForcingTerm 12 m τ from rfl] at h
    cases h1 : DMP.initForcingTerm 12 m τ with
    | error e => rw [h1] at h; cases h
    | ok ft =>
      rw [h1] at h
      cases h2 : ensure1dArray α 12 with
      | error e => rw [h2] at h; cases h
      | ok a =>
        rw [h2] at h
        cases h3 : ensure1dArray β 12 with
        | error e => rw [h3] at h; cases h
        | ok b =>
          rw [h3] at h
          simp only [Bind.bind, Except.bind, Pure.pure, Except.pure, Except.ok.injEq] at h
          subst h
          exact ForcingTerm.timed_init h1
  | @op s o hs ho ih =>
    cases o with
    | step ops c sf y yd =>
      simp only [DualOp.after, DualCartesianDMP.exec_step]
      split <;> exact ih
    | openLoop ops t c nm =>
      have h : SameConfiguration s (DualOp.after (.openLoop ops t c nm) s) := DualCall.after_same ops s (.openLoop t c nm)
      rw [h]
      exact ih
    | configure a => exact ih
    | reset => exact ih
    | setWeights w =>
      simp only [DualOp.after, DualCartesianDMP.exec_setWeights]
      split <;> exact ih
    | setExecutionTime τ =>
      have := ho τ rfl
      simp only [DualOp.after]
      rw [DualCartesianDMP.exec_setExecutionTime] at this ⊢
      cases h4 : DMP.initForcingTerm 12 m τ with
      | error e => rw [h4] at this; cases this
      | ok ft =>
        have := ForcingTerm.timed_init h4
        exact this
    | imitate ops qgrad T Y reg afv =>
      obtain ⟨e1, e2, e3, e4⟩ := DualCartesianDMP.imitate_timed ops qgrad T Y reg afv s
      simp only [DualOp.after]
      unfold ForcingTerm.Timed
      rw [e1, e2, e3, e4]
      exact ih

/-- **C01 (StateFollowingDMP).** -/
theorem C01_state_following {τ dt intDt : ℝ} {α β : ArrayLike} {g : ℕ → ℝ} {s : StateFollowingDMP d n}
    (h : StateFollowingDMP.create d n τ dt intDt α β g = .ok s) : 
    PhaseOver (fun t => phase t s.ft.alphaZ s.ft.goalT s.ft.startT) s.executionTime := by
  obtain ⟨-, h1, a, b, -, -, rfl⟩ := StateFollowingDMP.create_eq h
  exact phaseOver_phase h1

/-- There are such objects: DMPs with an execution time of 2 that is changed to 3. -/
example : ∃ s : DMP 2 10, s.Reachable ∧ s.executionTime = 3 := by
  obtain ⟨s0, h0, -⟩ := DMP.create_ok (d := 2) (m := 10) (by norm_num) (τ := 2) (by norm_num) (1 / 100) (1 / 1000) 0 false
    25 (25 / 4)
  have hr : s0.Reachable := .create h0
  obtain ⟨s', h2, h3⟩ := C24_set_execution_time hr (τ := 3) (by norm_num)
  exact ⟨s', .op (.setExecutionTime 3) hr h2 (fun _ _ => rfl), h3.1⟩

example : ∃ s : DualCartesianDMP 10, TimedDual s ∧ s.executionTime = 3 := by
  obtain ⟨s0, h0, -⟩ := DualCartesianDMP.create_ok 10 (by norm_num) (τ := 2) (by norm_num) (1 / 100) (1 / 1000) 0 false 25
    (25 / 4)
  obtain ⟨ft, h1, -⟩ := (C24_dual (by norm_num) s0 (τ := 3)).1 (by norm_num)
  refine ⟨_, .op (.setExecutionTime 3) (.create h0) ?_, ?_⟩
  · intro τ h
    cases h
    rw [h1]
  · simp only [DualOp.after]
    rw [h1]

end Verif
