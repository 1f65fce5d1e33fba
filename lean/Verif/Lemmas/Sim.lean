import Verif.Lemmas.DmpStep
import Verif.Props.Steps
import Mathlib.Algebra.Module.LinearMap.Defs

/-! # Simulations between DMPs: one step of one DMP is the image of a step of another one -/

namespace Verif
variable {d m d' m' : ℕ}

/-- The state map of a simulation. -/
noncomputable def simMap (c : ℝ) (P : Vec d →ₗ[ℝ] Vec d') (b : Vec d') (s : Vec d × Vec d) : Vec d' × Vec d' :=
  (P s.1 + b, c⁻¹ • P s.2)

/-- `a'` simulates `a` along `simMap c P b`, with times multiplied by `c`. -/
structure StepArgs.Sim (a : StepArgs d m) (a' : StepArgs d' m') (c : ℝ) (P : Vec d →ₗ[ℝ] Vec d') (b : Vec d') :
    Prop where
  pos : 0 < c
  intDt : a'.intDt = c * a.intDt
  goalT : a'.goalT = c * a.goalT
  startT : a'.startT = c * a.startT
  start : (a'.startY, a'.startYd) = simMap c P b (a.startY, a.startYd)
  acc : ∀ Y V u h,
    a'.acc (P Y + b) (c⁻¹ • P V) a'.initialCdd (a'.ft.phaseAt (c * u)) (a'.goalT - a'.startT)
      (a'.ft.force (a'.ft.phaseAt (c * u))) (fun k => a'.pGain * a'.trackingError k / (c * h)) =
    c⁻¹ • c⁻¹ • P (a.acc Y V a.initialCdd (a.ft.phaseAt u) (a.goalT - a.startT) (a.ft.force (a.ft.phaseAt u))
      (fun k => a.pGain * a.trackingError k / h))
  cd : ∀ s, a'.addCd (a'.goalT - a'.startT) (simMap c P b s) = simMap c P b (a.addCd (a.goalT - a.startT) s)
  cy : ∀ dt t s, a'.eulerBodyCy (c * dt) (c * t) (simMap c P b s) = simMap c P b (a.eulerBodyCy dt t s)

namespace StepArgs.Sim
variable {a : StepArgs d m} {a' : StepArgs d' m'} {c : ℝ} {P : Vec d →ₗ[ℝ] Vec d'} {b : Vec d'}

theorem img_y (hc : c ≠ 0) (x v : Vec d) (k : ℝ) : P x + b + (c * k) • c⁻¹ • P v = P (x + k • v) + b := by
  rw [map_add, map_smul, smul_smul, mul_right_comm, mul_inv_cancel₀ hc, one_mul]; abel

theorem img_v (hc : c ≠ 0) (x A : Vec d) (k : ℝ) :
    c⁻¹ • P x + (c * k) • c⁻¹ • c⁻¹ • P A = c⁻¹ • P (x + k • A) := by
  rw [map_add, map_smul, smul_add, smul_smul, smul_smul, smul_smul]
  congr 2
  field_simp

theorem eulerBody (h : a.Sim a' c P b) (dt t : ℝ) (s : Vec d × Vec d) :
    a'.eulerBody (c * dt) (c * t) (simMap c P b s) = simMap c P b (a.eulerBody dt t s) := by
  have hc := h.pos.ne'
  unfold StepArgs.eulerBody
  simp only
  rw [← h.cd]
  congr 1
  simp only [simMap, h.acc, img_y hc, img_v hc]

theorem stepRk4 (h : a.Sim a' c P b) (lastT t : ℝ) (s : Vec d × Vec d) :
    a'.stepRk4 (c * lastT) (c * t) (simMap c P b s) = (a.stepRk4 lastT t s).map (simMap c P b) := by
  have hc := h.pos.ne'
  unfold StepArgs.stepRk4
  simp only [Except.map]
  rw [← h.cd]
  have e0 : c * t - c * lastT = c * (t - lastT) := by ring
  have e1 : 1 / 2 * (c * (t - lastT)) = c * (1 / 2 * (t - lastT)) := by ring
  simp only [e0, e1, ← mul_add]
  simp only [simMap, h.acc, img_y hc, img_v hc]
  set K0 := a.acc s.1 s.2 a.initialCdd (a.ft.phaseAt t) (a.goalT - a.startT) (a.ft.force (a.ft.phaseAt t))
    (fun k => a.pGain * a.trackingError k / (t - lastT))
  set C1 : Vec d := s.2 + (1 / 2 * (t - lastT)) • K0 with hC1
  set K1 := a.acc (s.1 + (1 / 2 * (t - lastT)) • s.2) C1 a.initialCdd
    (a.ft.phaseAt (t + 1 / 2 * (t - lastT))) (a.goalT - a.startT)
    (a.ft.force (a.ft.phaseAt (t + 1 / 2 * (t - lastT))))
    (fun k => a.pGain * a.trackingError k / (t - lastT))
  set C2 : Vec d := s.2 + (1 / 2 * (t - lastT)) • K1 with hC2
  set K2 := a.acc (s.1 + (1 / 2 * (t - lastT)) • C1) C2 a.initialCdd
    (a.ft.phaseAt (t + 1 / 2 * (t - lastT))) (a.goalT - a.startT)
    (a.ft.force (a.ft.phaseAt (t + 1 / 2 * (t - lastT))))
    (fun k => a.pGain * a.trackingError k / (t - lastT))
  set C3 : Vec d := s.2 + (t - lastT) • K2 with hC3
  set K3 := a.acc (s.1 + (t - lastT) • C2) C3 a.initialCdd (a.ft.phaseAt (t + (t - lastT)))
    (a.goalT - a.startT) (a.ft.force (a.ft.phaseAt (t + (t - lastT))))
    (fun k => a.pGain * a.trackingError k / (t - lastT))
  congr 2
  have e6 : c * (t - lastT) / 6 = c * ((t - lastT) / 6) := by ring
  have hs1 : c⁻¹ • c⁻¹ • P K0 + c⁻¹ • c⁻¹ • P K1 + c⁻¹ • c⁻¹ • P K2 = c⁻¹ • c⁻¹ • P (K0 + K1 + K2) := by
    simp only [map_add, smul_add]
  have hs2 : c⁻¹ • c⁻¹ • P K0 + (2 : ℝ) • c⁻¹ • c⁻¹ • P K1 + (2 : ℝ) • c⁻¹ • c⁻¹ • P K2 + c⁻¹ • c⁻¹ • P K3 =
      c⁻¹ • c⁻¹ • P (K0 + (2 : ℝ) • K1 + (2 : ℝ) • K2 + K3) := by
    simp only [map_add, map_smul]
    module
  simp only [e6, hs1, hs2, img_y hc, img_v hc]

theorem run (h : a.Sim a' c P b) (sf : StepFunction) (lastT t : ℝ) (s : Vec d × Vec d) :
    sf.run a' (c * lastT) (c * t) (simMap c P b s) = (sf.run a lastT t s).map (simMap c P b) := by
  have hle : ∀ x y : ℝ, c * x ≤ c * y ↔ x ≤ y := fun x y => mul_le_mul_iff_right₀ h.pos
  cases sf with
  | rk4 => exact h.stepRk4 lastT t s
  | rk4Cython =>
    show a'.stepRk4Cy _ _ _ = (a.stepRk4Cy _ _ _).map _
    rw [C10_rk4_cython_eq_python, C10_rk4_cython_eq_python]
    exact h.stepRk4 lastT t s
  | euler =>
    show a'.stepEuler _ _ _ = (a.stepEuler _ _ _).map _
    unfold StepArgs.stepEuler
    simp only [h.goalT, h.startT, hle]
    split_ifs
    · rfl
    · rfl
    · rw [h.intDt, intLoop_map_scale _ _ (simMap c P b) h.pos _ _ h.eulerBody]
  | eulerCython =>
    show a'.stepEulerCy _ _ _ = (a.stepEulerCy _ _ _).map _
    unfold StepArgs.stepEulerCy
    simp only [h.goalT, h.startT, hle]
    split_ifs
    · rfl
    · rw [h.intDt, h.start, intLoop_map_scale _ _ (simMap c P b) h.pos _ _ h.cy]
    · rw [h.intDt, intLoop_map_scale _ _ (simMap c P b) h.pos _ _ h.cy]

theorem openLoop (h : a.Sim a' c P b) (sf : StepFunction) (dt : ℝ) (runT : Option ℝ) :
    dmpOpenLoop a' (c * dt) (runT.map (c * ·)) sf =
      (dmpOpenLoop a dt runT sf).map (fun r => (r.1.map (c * ·), r.2.map (fun y => P y + b))) := by
  have hc := h.pos.ne'
  unfold dmpOpenLoop openLoopWith
  have hrun : (runT.map (c * ·)).getD a'.goalT = c * runT.getD a.goalT := by
    cases runT <;> simp [h.goalT]
  simp only [hrun, mul_eq_zero, hc, false_or]
  by_cases hdt : dt = 0
  · simp [hdt]; rfl
  have hn : arangeLen a'.startT (c * runT.getD a.goalT + c * dt) (c * dt) =
      arangeLen a.startT (runT.getD a.goalT + dt) dt := by
    unfold arangeLen
    rw [h.startT]
    congr 1
    field_simp
  have hat : ∀ i, arangeAt a'.startT (c * dt) i = c * arangeAt a.startT dt i := by
    intro i; unfold arangeAt; rw [h.startT]; ring
  simp only [hdt, if_false, hn, hat]
  by_cases hz : arangeLen a.startT (runT.getD a.goalT + dt) dt = 0
  · simp [hz]; rfl
  simp only [hz, if_false]
  rw [h.start]
  have hl := loopRows_map
    (fun i s => sf.run a (arangeAt a.startT dt i) (arangeAt a.startT dt (i + 1)) s)
    (fun i s => sf.run a' (c * arangeAt a.startT dt i) (c * arangeAt a.startT dt (i + 1)) s)
    Prod.fst Prod.fst (simMap c P b) (fun y => P y + b) (fun i s => h.run sf _ _ s) (fun s => rfl)
    (arangeLen a.startT (runT.getD a.goalT + dt) dt - 1) (a.startY, a.startYd) 0
  have hst : a'.startY = P a.startY + b := congrArg Prod.fst h.start
  simp only [hl, bind, Except.bind]
  cases loopRows (fun i s => sf.run a (arangeAt a.startT dt i) (arangeAt a.startT dt (i + 1)) s)
    Prod.fst (arangeLen a.startT (runT.getD a.goalT + dt) dt - 1) (a.startY, a.startYd) 0 with
  | error e => rfl
  | ok rows =>
    simp only [Except.map, pure, Except.pure, List.map_map, List.map_cons, hst]
    congr 2
    apply List.map_congr_left
    intro i _
    exact hat i

end StepArgs.Sim
end Verif
