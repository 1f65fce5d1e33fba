import Verif.Lemmas.Cartesian
import Verif.Lemmas.Loops
import Verif.Lemmas.Sim
import Verif.Spec.Frames

/-! # Simulations between orientation DMPs -/

namespace Verif

section Loops
variable {σ τ : Type}

/-- Simulation for the integration loop that only holds for states with an invariant `P`. -/
theorem intLoop_map_inv (upd : ℝ → ℝ → σ → σ) (upd' : ℝ → ℝ → τ → τ) (φ : σ → τ) (P : σ → Prop) {c : ℝ} (hc : 0 < c)
    (intDt t : ℝ) (hP : ∀ dt ct s, P s → P (upd dt ct s))
    (h : ∀ dt ct s, P s → upd' (c * dt) (c * ct) (φ s) = φ (upd dt ct s)) (lastT : ℝ) (s : σ) (hs : P s) :
    intLoop (c * intDt) (c * t) upd' (c * lastT) (φ s) = (intLoop intDt t upd lastT s).map φ := by
  let upd0 : ℝ → ℝ → {s // P s} → {s // P s} := fun dt ct s => ⟨upd dt ct s.1, hP dt ct s.1 s.2⟩
  have h1 := intLoop_map upd0 upd Subtype.val intDt t (fun _ _ _ => rfl) lastT ⟨s, hs⟩
  have h2 := intLoop_map_scale upd0 upd' (fun s => φ s.1) hc intDt t (fun dt ct s => h dt ct s.1 s.2) lastT ⟨s, hs⟩
  simp only at h1 h2
  rw [h1, h2]
  cases intLoop intDt t upd0 lastT ⟨s, hs⟩ <;> rfl

/-- The same for the loop over time steps. -/
theorem loopRows_map_inv {β γ : Type} (step : ℕ → σ → Except PyErr σ) (step' : ℕ → τ → Except PyErr τ)
    (out : σ → β) (out' : τ → γ) (φ : σ → τ) (ψ : β → γ) (P : σ → Prop)
    (hP : ∀ i s s', P s → step i s = .ok s' → P s')
    (hstep : ∀ i s, P s → step' i (φ s) = (step i s).map φ) (hout : ∀ s, P s → out' (φ s) = ψ (out s)) :
    ∀ (k : ℕ) (s : σ) (i : ℕ), P s →
      loopRows step' out' k (φ s) i = (loopRows step out k s i).map (List.map ψ) := by
  intro k
  induction k with
  | zero => intro s i _; rfl
  | succ k ih =>
    intro s i hs
    simp only [loopRows, hstep i s hs]
    cases hs1 : step i s with
    | error e => rfl
    | ok s1 =>
      have hp := hP i s s1 hs hs1
      simp only [Except.map, bind, Except.bind, ih _ _ hp]
      cases hr : loopRows step out k s1 (i + 1) with
      | error e => simp
      | ok rows => simp [pure, Except.pure, hout _ hp]

/-- The same for `open_loop`. -/
theorem openLoopWith_map_inv {p v p' v' : ℕ} {goalT startT dt c : ℝ} (hc : 0 < c) (start : Vec p × Vec v)
    (runT : Option ℝ) (step : ℝ → ℝ → Vec p × Vec v → Except PyErr (Vec p × Vec v))
    (step' : ℝ → ℝ → Vec p' × Vec v' → Except PyErr (Vec p' × Vec v'))
    (fy : Vec p → Vec p') (fv : Vec v → Vec v') (P : Vec p × Vec v → Prop) (h0 : P start)
    (hP : ∀ a b s s', P s → step a b s = .ok s' → P s')
    (hstep : ∀ a b s, P s → step' (c * a) (c * b) (fy s.1, fv s.2) = (step a b s).map (fun x => (fy x.1, fv x.2))) :
    openLoopWith (c * goalT) (c * startT) (c * dt) (fy start.1, fv start.2) (runT.map (c * ·)) step' =
      (openLoopWith goalT startT dt start runT step).map (fun r => (r.1.map (c * ·), r.2.map fy)) := by
  have hc' := hc.ne'
  unfold openLoopWith
  have hrun : (runT.map (c * ·)).getD (c * goalT) = c * runT.getD goalT := by cases runT <;> simp
  simp only [hrun, mul_eq_zero, hc', false_or]
  by_cases hdt : dt = 0
  · simp [hdt]; rfl
  have hn : arangeLen (c * startT) (c * runT.getD goalT + c * dt) (c * dt) =
      arangeLen startT (runT.getD goalT + dt) dt := by
    unfold arangeLen
    congr 1
    field_simp
  have hat : ∀ i, arangeAt (c * startT) (c * dt) i = c * arangeAt startT dt i := by
    intro i; unfold arangeAt; ring
  simp only [hdt, if_false, hn, hat]
  by_cases hz : arangeLen startT (runT.getD goalT + dt) dt = 0
  · simp [hz]; rfl
  simp only [hz, if_false]
  have hl := loopRows_map_inv
    (fun i s => step (arangeAt startT dt i) (arangeAt startT dt (i + 1)) s)
    (fun i s => step' (c * arangeAt startT dt i) (c * arangeAt startT dt (i + 1)) s)
    Prod.fst Prod.fst (fun s => (fy s.1, fv s.2)) fy P (fun i s s' hs h => hP _ _ s s' hs h)
    (fun i s hs => hstep _ _ s hs) (fun s _ => rfl)
    (arangeLen startT (runT.getD goalT + dt) dt - 1) start 0 h0
  simp only [hl, bind, Except.bind]
  cases loopRows (fun i s => step (arangeAt startT dt i) (arangeAt startT dt (i + 1)) s)
    Prod.fst (arangeLen startT (runT.getD goalT + dt) dt - 1) start 0 with
  | error e => rfl
  | ok rows =>
    simp only [Except.map, pure, Except.pure, List.map_map, List.map_cons]
    congr 2
    apply List.map_congr_left
    intro i _
    exact hat i

end Loops

open Spec Quaternion

/-- One sub-step of an orientation step function. -/
noncomputable def QuatStepFunction.body {m : ℕ} (qf : QuatStepFunction) (a : QuatStepArgs m) :
    ℝ → ℝ → Vec 4 × Vec 3 → Vec 4 × Vec 3 :=
  match qf with
  | .python ops => a.bodyPy ops
  | .cython => a.bodyCy

theorem QuatStepFunction.body_unit {m : ℕ} {qf : QuatStepFunction} (h : LawfulStep qf) (a : QuatStepArgs m)
    (dt t : ℝ) {s : Vec 4 × Vec 3} (hs : UnitQuat s.1) : UnitQuat (qf.body a dt t s).1 := by
  cases qf with
  | python ops =>
    obtain ⟨eps, _, hl⟩ := h
    exact a.update_unit hl _ _ dt t hs
  | cython => exact a.update_unit lawful_cython _ _ dt t hs

/-- `a'` simulates `a` with times multiplied by `c`, for unit quaternions. -/
structure QuatStepArgs.Sim {m m' : ℕ} (qf : QuatStepFunction) (a : QuatStepArgs m) (a' : QuatStepArgs m') (c : ℝ)
    (fy : Vec 4 → Vec 4) (fv : Vec 3 → Vec 3) : Prop where
  lawful : LawfulStep qf
  pos : 0 < c
  intDt : a'.intDt = c * a.intDt
  goalT : a'.goalT = c * a.goalT
  startT : a'.startT = c * a.startT
  startY : a'.startY = fy a.startY
  startYd : a'.startYd = fv a.startYd
  startUnit : UnitQuat a.startY
  body : ∀ dt t s, UnitQuat s.1 →
    qf.body a' (c * dt) (c * t) (fy s.1, fv s.2) = (fy (qf.body a dt t s).1, fv (qf.body a dt t s).2)

namespace QuatStepArgs.Sim
variable {m m' : ℕ} {qf : QuatStepFunction} {a : QuatStepArgs m} {a' : QuatStepArgs m'} {c : ℝ}
  {fy : Vec 4 → Vec 4} {fv : Vec 3 → Vec 3}

theorem run (h : Sim qf a a' c fy fv) (lastT t : ℝ) (s : Vec 4 × Vec 3) (hs : UnitQuat s.1) :
    qf.run a' (c * lastT) (c * t) (fy s.1, fv s.2) = (qf.run a lastT t s).map (fun x => (fy x.1, fv x.2)) := by
  have hle : ∀ x y : ℝ, c * x ≤ c * y ↔ x ≤ y := fun x y => mul_le_mul_iff_right₀ h.pos
  have hloop : ∀ s : Vec 4 × Vec 3, UnitQuat s.1 →
      intLoop a'.intDt (c * t) (qf.body a') (c * lastT) (fy s.1, fv s.2) =
        (intLoop a.intDt t (qf.body a) lastT s).map (fun x => (fy x.1, fv x.2)) := by
    intro s hs
    rw [h.intDt]
    exact intLoop_map_inv (qf.body a) (qf.body a') (fun x => (fy x.1, fv x.2)) (fun x => UnitQuat x.1) h.pos a.intDt t
      (fun dt ct s hs => QuatStepFunction.body_unit h.lawful a dt ct hs) (fun dt ct s hs => h.body dt ct s hs) lastT s hs
  cases qf with
  | python ops =>
    show a'.stepPy ops _ _ _ = (a.stepPy ops _ _ _).map _
    unfold QuatStepArgs.stepPy
    simp only [h.goalT, h.startT, hle]
    split_ifs
    · rfl
    · rfl
    · exact hloop s hs
  | cython =>
    show a'.stepCy _ _ _ = (a.stepCy _ _ _).map _
    unfold QuatStepArgs.stepCy
    simp only [h.startT, hle]
    split_ifs
    · rw [h.startY, h.startYd]
      exact hloop (a.startY, a.startYd) h.startUnit
    · exact hloop s hs

theorem openLoop (h : Sim qf a a' c fy fv) (dt : ℝ) (runT : Option ℝ) :
    openLoopWith a'.goalT a'.startT (c * dt) (a'.startY, a'.startYd) (runT.map (c * ·)) (qf.run a') =
      (openLoopWith a.goalT a.startT dt (a.startY, a.startYd) runT (qf.run a)).map
        (fun r => (r.1.map (c * ·), r.2.map fy)) := by
  rw [h.goalT, h.startT, h.startY, h.startYd]
  exact openLoopWith_map_inv h.pos (a.startY, a.startYd) runT (qf.run a) (qf.run a') fy fv (fun x => UnitQuat x.1)
    h.startUnit (fun _ _ s s' hs hr => QuatStepFunction.run_unit h.lawful a h.startUnit hs hr)
    (fun lastT t s hs => h.run lastT t s hs)

end QuatStepArgs.Sim
end Verif
