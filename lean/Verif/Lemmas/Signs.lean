import Verif.Spec.Signs
import Verif.Lemmas.Turn
import Verif.Lemmas.OutputRate
import Verif.Props.Steps

/-! # Rotation vectors do not depend on the signs of quaternions -/

namespace Verif
open Spec

variable {m : ℕ} {ops : QuatOps} {eps : ℝ}

theorem quat_neg (q : Vec 4) : quat (-q) = -quat q := by ext <;> simp

theorem Spec.SameRotation.unit {p q : Vec 4} (h : SameRotation p q) (hp : UnitQuat p) : UnitQuat q := by
  rcases h with rfl | rfl
  · exact hp
  · unfold UnitQuat at *; simpa using hp

theorem Spec.SameRotation.quat {p q : Vec 4} (h : SameRotation p q) : quat q = quat p ∨ quat q = -quat p := by
  rcases h with rfl | rfl
  · exact .inl rfl
  · exact .inr (quat_neg p)

theorem noHalfTurn_iff {p q : Vec 4} : NoHalfTurn p q ↔ ∑ i, p i * q i ≠ 0 := by
  unfold NoHalfTurn rotationAngle
  constructor
  · intro h h0
    rw [h0, abs_zero, Real.arccos_zero] at h
    linarith
  · intro h
    have h1 : Real.arccos |∑ i, p i * q i| < Real.pi / 2 := Real.arccos_lt_pi_div_two.2 (abs_pos.2 h)
    linarith

theorem mul_signs (hops : LawfulQuatOps ops eps) {p q q' : Vec 4} (hp : UnitQuat p) (hq : UnitQuat q) (h : SameRotation q q') :
    SameRotation (ops.mul p q) (ops.mul p q') := by
  have hq' := h.unit hq
  rcases h with rfl | rfl
  · exact .inl rfl
  · refine .inr (quat_injective ?_)
    rw [quat_neg, hops.mul _ _ hp hq', hops.mul _ _ hp hq, quat_neg, mul_neg]

/-- The rotation vector between two orientations that do not differ by half a turn does not depend on the signs of their
quaternions. -/
theorem diff_signs (hops : LawfulQuatOps ops eps) {g g' q q' : Vec 4} (hg : UnitQuat g) (hq : UnitQuat q)
    (h1 : SameRotation g g') (h2 : SameRotation q q') (hno : NoHalfTurn g q) :
    QuatStepArgs.diff ops g' q' = QuatStepArgs.diff ops g q := by
  have hg' := h1.unit hg
  have hq' := h2.unit hq
  have e : ∀ {a b : Vec 4}, UnitQuat a → UnitQuat b → Spec.quat (ops.mul a (ops.conj b)) = Spec.quat a * star (Spec.quat b) := by
    intro a b ha hb
    rw [hops.mul _ _ ha (LawfulQuatOps.unit_conj hops hb), hops.conj _ hb]
  have hu := LawfulQuatOps.unit_mul hops hg (LawfulQuatOps.unit_conj hops hq)
  have hu' := LawfulQuatOps.unit_mul hops hg' (LawfulQuatOps.unit_conj hops hq')
  set x := ops.mul g (ops.conj q) with hx
  set x' := ops.mul g' (ops.conj q') with hx'
  have hxx : SameRotation x x' := by
    have h3 : Spec.quat x' = Spec.quat x ∨ Spec.quat x' = Spec.quat (-x) := by
      rw [quat_neg, hx, hx', e hg hq, e hg' hq']
      rcases h1.quat with h1 | h1 <;> rcases h2.quat with h2 | h2 <;> rw [h1, h2] <;> simp
    rcases h3 with h | h
    · exact .inl (quat_injective h)
    · exact .inr (quat_injective h)
  have hv : √(x' 1 ^ 2 + x' 2 ^ 2 + x' 3 ^ 2) = √(x 1 ^ 2 + x 2 ^ 2 + x 3 ^ 2) := by
    rcases hxx with h | h <;> rw [h]
    simp
  unfold QuatStepArgs.diff
  rw [← hx, ← hx']
  by_cases hs : √(x 1 ^ 2 + x 2 ^ 2 + x 3 ^ 2) < eps
  · rw [hops.log_small x hu hs, hops.log_small x' hu' (by rwa [hv])]
  · have hs := not_lt.1 hs
    obtain ⟨l1, r1⟩ := hops.log x hu hs
    obtain ⟨l2, r2⟩ := hops.log x' hu' (by rwa [hv])
    have a1 : IsRotationTo g q (ops.log x) := by
      refine ⟨l1, ?_⟩
      rw [← e hg hq, ← hx]
      rcases r1 with r | r
      · exact .inl r.symm
      · exact .inr (by unfold rot; rw [r, neg_neg])
    have a2 : IsRotationTo g q (ops.log x') := by
      refine ⟨l2, ?_⟩
      rw [← e hg hq, ← hx]
      have h3 : Spec.quat x = Spec.quat x' ∨ Spec.quat x = -Spec.quat x' := by
        rcases hxx with h | h
        · exact .inl (by rw [h])
        · exact .inr (by rw [h, quat_neg, neg_neg])
      unfold rot
      rcases r2 with r | r <;> rw [r] <;> rcases h3 with h | h <;> rw [h] <;> simp
    exact a1.unique hg a2 (by rw [← a1.angle]; exact hno)

/-- The states of two integrations of the same orientation. -/
def SameState (x x' : Vec 4 × Vec 3) : Prop := SameRotation x.1 x'.1 ∧ x'.2 = x.2

namespace QuatStepArgs

/-- Arguments of the orientation step functions that are the same up to the signs of quaternions. -/
structure SameArgs (a a' : QuatStepArgs m) : Prop where
  goal : SameRotation a.goalY a'.goalY
  start : SameRotation a.startY a'.startY
  rest : a' = { a with goalY := a'.goalY, startY := a'.startY }

theorem update_signs {a a' : QuatStepArgs m} (h : SameArgs a a') (hops : LawfulQuatOps ops eps) (hg : UnitQuat a.goalY)
    (hst : UnitQuat a.startY) {x x' : Vec 4 × Vec 3} (hx : UnitQuat x.1) (hxx : SameState x x') (hno : NoHalfTurn a.goalY x.1)
    (hsm : a.smooth = true → NoHalfTurn a.goalY a.startY) (cd cdd : Vec 3) (dt t : ℝ) :
    SameState (a.update ops cd cdd dt t x) (a'.update ops cd cdd dt t x') := by
  have h1 := diff_signs hops hg hx h.goal hxx.1 hno
  have hv : (a'.update ops cd cdd dt t x').2 = (a.update ops cd cdd dt t x).2 := by
    rw [h.rest]
    unfold update
    simp only [h1, hxx.2]
    by_cases hs : a.smooth = true
    · simp only [hs, if_true, diff_signs hops hg hst h.goal h.start (hsm hs)]
    · simp only [hs, Bool.false_eq_true, if_false]
  refine ⟨?_, hv⟩
  have e : ∀ (a : QuatStepArgs m) x, (a.update ops cd cdd dt t x).1 =
    ops.mul (ops.exp (fun k => dt * (a.update ops cd cdd dt t x).2 k)) x.1 := fun _ _ => rfl
  rw [e, e, hv]
  exact mul_signs hops (LawfulQuatOps.unit_exp hops _) hx hxx.1

end QuatStepArgs

/-- One step of the orientation that is not longer than the integration step. -/
theorem QuatStepFunction.run_signs {qf : QuatStepFunction} (hqf : LawfulStep qf) {a a' : QuatStepArgs m}
    (h : QuatStepArgs.SameArgs a a') (hg : UnitQuat a.goalY) (hst : UnitQuat a.startY)
    (hc : ∀ c, a.coupling = some c → ∀ q w, c (-q) w = c q w) (hsm : a.smooth = true → NoHalfTurn a.goalY a.startY)
    (hT : a.startT < a.goalT) {lastT t : ℝ} (h0 : a.startT < t) (hlt : lastT < t) (hi : t - lastT ≤ a.intDt)
    {x x' : Vec 4 × Vec 3} (hx : UnitQuat x.1) (hxx : SameState x x') (hno : NoHalfTurn a.goalY x.1) :
    ∃ y y', qf.run a lastT t x = .ok y ∧ qf.run a' lastT t x' = .ok y' ∧ SameState y y' ∧ UnitQuat y.1 := by
  have e1 : a'.goalT = a.goalT := by rw [h.rest]
  have e2 : a'.startT = a.startT := by rw [h.rest]
  have e3 : a'.intDt = a.intDt := by rw [h.rest]
  have e4 : a'.coupling = a.coupling := by rw [h.rest]
  have e5 : a'.precomputed = a.precomputed := by rw [h.rest]
  have hcc : ∀ c, a.coupling = some c → c x'.1 x'.2 = c x.1 x.2 := by
    intro c hcs
    rw [hxx.2]
    rcases hxx.1 with h | h <;> rw [h]
    exact hc c hcs _ _
  cases qf with
  | python ops =>
    obtain ⟨eps, -, hops⟩ := hqf
    refine ⟨a.bodyPy ops (t - lastT) t x, a'.bodyPy ops (t - lastT) t x', ?_, ?_, ?_, ?_⟩
    · simp only [QuatStepFunction.run, QuatStepArgs.stepPy]
      rw [if_neg (not_le.2 hT), if_neg (not_le.2 h0), intLoop_single _ hlt hi]
    · simp only [QuatStepFunction.run, QuatStepArgs.stepPy, e1, e2, e3]
      rw [if_neg (not_le.2 hT), if_neg (not_le.2 h0), intLoop_single _ hlt hi]
    · unfold QuatStepArgs.bodyPy
      rw [e4, e5]
      cases hcs : a.coupling with
      | none => exact QuatStepArgs.update_signs h hops hg hst hx hxx hno hsm _ _ _ _
      | some c =>
        simp only [hcc c hcs]
        exact QuatStepArgs.update_signs h hops hg hst hx hxx hno hsm _ _ _ _
    · exact QuatStepArgs.update_unit _ hops _ _ _ _ hx
  | cython =>
    have hops := lawful_cython
    refine ⟨a.bodyCy (t - lastT) t x, a'.bodyCy (t - lastT) t x', ?_, ?_, ?_, ?_⟩
    · simp only [QuatStepFunction.run, QuatStepArgs.stepCy]
      rw [if_neg (not_le.2 h0), intLoop_single _ hlt hi]
    · simp only [QuatStepFunction.run, QuatStepArgs.stepCy, e2, e3]
      rw [if_neg (not_le.2 h0), intLoop_single _ hlt hi]
    · unfold QuatStepArgs.bodyCy
      rw [e4, e5]
      cases hcs : a.coupling with
      | none => exact QuatStepArgs.update_signs h hops hg hst hx hxx hno hsm _ _ _ _
      | some c =>
        simp only [hcc c hcs]
        exact QuatStepArgs.update_signs h hops hg hst hx hxx hno hsm _ _ _ _
    · exact QuatStepArgs.update_unit _ hops _ _ _ _ hx

/-- Two simulations with the same rows up to a relation, as long as all rows have a property. -/
theorem loopRows_rel {σ σ' β β' : Type} {step : ℕ → σ → Except PyErr σ} {step' : ℕ → σ' → Except PyErr σ'} {out : σ → β}
    {out' : σ' → β'} {R : σ → σ' → Prop} {S : β → β' → Prop} {P : σ → Prop} {Q : β → Prop} (hS : ∀ x x', R x x' → S (out x) (out' x'))
    (hstep : ∀ i x x', P x → R x x' → Q (out x) → ∃ y y', step i x = .ok y ∧ step' i x' = .ok y' ∧ R y y' ∧ P y) :
    ∀ (n i : ℕ) (x : σ) (x' : σ') (rows : List β), P x → R x x' → Q (out x) → loopRows step out n x i = .ok rows →
      (∀ y ∈ rows, Q y) → ∃ rows', loopRows step' out' n x' i = .ok rows' ∧ List.Forall₂ S rows rows' := by
  intro n
  induction n with
  | zero =>
    intro i x x' rows _ _ _ h _
    simp only [loopRows, Except.ok.injEq] at h
    subst h
    exact ⟨[], rfl, .nil⟩
  | succ n ih =>
    intro i x x' rows hP hR hQ h hrows
    obtain ⟨y, y', h1, h2, h3, h4⟩ := hstep i x x' hP hR hQ
    simp only [loopRows, h1, bind, Except.bind] at h
    cases hr : loopRows step out n y (i + 1) with
    | error e => rw [hr] at h; cases h
    | ok rest =>
      rw [hr] at h
      simp only [Pure.pure, Except.pure, Except.ok.injEq] at h
      subst h
      obtain ⟨rest', h5, h6⟩ := ih (i + 1) y y' rest h4 h3 (hrows _ (by simp)) hr (fun z hz => hrows z (by simp [hz]))
      refine ⟨out' y' :: rest', ?_, .cons (hS _ _ h3) h6⟩
      simp only [loopRows, h2, bind, Except.bind, h5, Pure.pure, Except.pure]

end Verif
