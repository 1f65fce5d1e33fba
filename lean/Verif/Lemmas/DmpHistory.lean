import Verif.Spec.DmpHistory
import Verif.Lemmas.Dmp
import Verif.Props.Forcing

/-! # Invariant of reachable DMPs -/

namespace Verif
namespace DMP
variable {d m : ℕ}

/-- The forcing term is the one built for the current execution time, apart from its weights. -/
def Valid (s : DMP d m) : Prop :=
  ∃ ft, initForcingTerm d m s.executionTime = .ok ft ∧ s.ft = { ft with weights := s.ft.weights }

theorem Valid.congr {s s' : DMP d m} (h : s.Valid) (he : s'.executionTime = s.executionTime)
    (hft : s'.ft = { s.ft with weights := s'.ft.weights }) : s'.Valid := by
  obtain ⟨ft, h1, h2⟩ := h
  refine ⟨ft, by rw [he, h1], ?_⟩
  rw [hft, h2]

theorem exec_setExecutionTime (τ : ℝ) (s : DMP d m) :
    (setExecutionTime τ).exec s = match initForcingTerm d m τ with
      | .ok ft => (.ok (), { s with executionTime := τ, ft := { ft with weights := s.ft.weights } })
      | .error e => (.error e, { s with executionTime := τ }) := by
  unfold setExecutionTime
  simp only [Py.exec_bind, Py.exec_lift, Py.exec_get, Py.exec_modify]
  cases initForcingTerm d m τ <;> rfl

theorem exec_configure (a : ConfigArgs) (s : DMP d m) :
    (configure a).exec s =
      (((Movement.configure a).exec s.toMovement).1,
        { s with toMovement := ((Movement.configure a).exec s.toMovement).2 }) := rfl

theorem exec_imitate {n : ℕ} (T : Fin (n + 2) → ℝ) (Y : Fin (n + 2) → Vec d) (reg : ℝ) (afv : Bool)
    (s : DMP d m) :
    (imitate T Y reg afv).exec s =
      match dmpImitate m T Y reg s.alphaY s.betaY s.ft.overlap s.ft.alphaZ afv s.smooth with
      | .ok r => (configure { startY := some (List.ofFn r.2.1), goalY := some (List.ofFn r.2.2) }).exec
          { s with ft := { s.ft with weights := r.1 } }
      | .error e => (.error e, s) := by
  unfold imitate
  simp only [Py.exec_bind, Py.exec_lift, Py.exec_get, Py.exec_modify]
  cases dmpImitate m T Y reg s.alphaY s.betaY s.ft.overlap s.ft.alphaZ afv s.smooth <;> rfl

theorem exec_openLoop (runT : Option ℝ) (coupling : Option (Coupling d)) (name : String) (s : DMP d m) :
    (openLoop runT coupling name).exec s =
      ((StepFunction.lookup name).bind (fun sf => dmpOpenLoop (s.openLoopArgs coupling) s.dt runT sf), s) := by
  unfold openLoop
  simp only [Py.exec_bind, Py.exec_lift, Py.exec_get]
  cases StepFunction.lookup name <;> rfl

theorem create_valid {τ dt intDt pGain : ℝ} {smooth : Bool} {α β : ArrayLike} {s : DMP d m}
    (h : create d m τ dt intDt pGain smooth α β = .ok s) : s.Valid := by
  unfold create at h
  cases h1 : initForcingTerm d m τ with
  | error e => rw [h1] at h; cases h
  | ok ft =>
    rw [h1] at h
    cases h2 : ensure1dArray α d with
    | error e => rw [h2] at h; cases h
    | ok a =>
      rw [h2] at h
      cases h3 : ensure1dArray β d with
      | error e => rw [h3] at h; cases h
      | ok b =>
        rw [h3] at h
        simp only [bind, Except.bind, pure, Except.pure, Except.ok.injEq] at h
        subst h
        exact ⟨ft, h1, rfl⟩

theorem op_valid (o : DMPOp d m) {s s' : DMP d m} {r : Except PyErr Unit} (hs : s.Valid)
    (h : o.exec s = (r, s')) (hok : ∀ τ, o = .setExecutionTime τ → r = .ok ()) : s'.Valid := by
  have h' : (o.exec s).2 = s' := by rw [h]
  cases o with
  | step c sf y yd =>
    simp only [DMPOp.exec, exec_step] at h'
    subst h'
    cases sf.run (s.beginStep.stepArgs c (s.beginStep.currentY - y)) s.t (s.t + s.dt)
      (s.beginStep.currentY, s.beginStep.currentYd) <;> exact hs.congr rfl rfl
  | openLoop t c n =>
    simp only [DMPOp.exec, exec_openLoop] at h'
    subst h'; exact hs
  | configure a => simp only [DMPOp.exec] at h'; subst h'; exact hs.congr rfl rfl
  | reset => simp only [DMPOp.exec] at h'; subst h'; exact hs.congr rfl rfl
  | setWeights w =>
    simp only [DMPOp.exec, setWeights, Py.exec_bind, Py.exec_lift] at h'
    subst h'
    cases reshapeWeights d m w <;> exact hs.congr rfl rfl
  | setExecutionTime τ =>
    simp only [DMPOp.exec, exec_setExecutionTime] at h h'
    cases h1 : initForcingTerm d m τ with
    | error e =>
      rw [h1] at h
      have := hok τ rfl
      subst this
      cases h
    | ok ft =>
      rw [h1] at h'
      subst h'
      exact ⟨ft, h1, rfl⟩
  | imitate T Y reg afv =>
    simp only [DMPOp.exec, exec_imitate] at h'
    subst h'
    cases dmpImitate m T Y reg s.alphaY s.betaY s.ft.overlap s.ft.alphaZ afv s.smooth <;>
      exact hs.congr rfl rfl

theorem Reachable.valid {s : DMP d m} (h : s.Reachable) : s.Valid := by
  induction h with
  | create h => exact create_valid h
  | op o _ h hok ih => exact op_valid o ih h hok

/-- Closed form of the forcing term of a valid DMP. -/
theorem initForcingTerm_ok_iff {τ : ℝ} {ft : ForcingTerm d m} :
    initForcingTerm d m τ = .ok ft ↔
      ForcingTerm.create d m τ 0 (8 / 10) (-Real.log (1 / 100)) = .ok ft := by
  unfold initForcingTerm canonicalSystemAlpha
  rw [if_neg (by norm_num)]
  by_cases h : τ ≤ 0
  · rw [if_pos h]
    simp only [bind, Except.bind]
    constructor
    · intro h; cases h
    · unfold ForcingTerm.create
      rw [if_pos h]
      split_ifs <;> intro h <;> cases h
  · rw [if_neg h]; rfl

theorem initForcingTerm_isOk_iff (τ : ℝ) :
    (∃ ft, initForcingTerm d m τ = .ok ft) ↔ 2 ≤ m ∧ 0 < τ := by
  simp only [initForcingTerm_ok_iff]
  unfold ForcingTerm.create
  constructor
  · rintro ⟨ft, h⟩
    split_ifs at h with h1 h2 h3
    constructor
    · omega
    · linarith
  · rintro ⟨h1, h2⟩
    rw [if_neg (by omega), if_neg (by linarith), if_neg (by norm_num)]
    exact ⟨_, rfl⟩

theorem Valid.pos {s : DMP d m} (h : s.Valid) : 2 ≤ m ∧ 0 < s.executionTime := by
  obtain ⟨ft, h1, _⟩ := h
  exact (initForcingTerm_isOk_iff _).1 ⟨ft, h1⟩

end DMP
end Verif
