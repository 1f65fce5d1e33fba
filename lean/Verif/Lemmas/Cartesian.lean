import Verif.Lemmas.Loops
import Verif.Lemmas.Quat
import Verif.Lemmas.Dmp
import Verif.Spec.Cartesian

/-! # Helper lemmas about orientation step functions and Cartesian DMPs -/

namespace Verif
open Spec

section Slices
variable {p q : ℕ}

@[simp] theorem sliceTo_hstack (x : Vec p) (y : Vec q) : sliceTo (hstack x y) = x := by
  funext i; simp [sliceTo, hstack]

@[simp] theorem sliceFrom_hstack (x : Vec p) (y : Vec q) : sliceFrom (hstack x y) = y := by
  funext i; simp [sliceFrom, hstack]

@[simp] theorem hstack_slices (x : Vec (p + q)) : hstack (sliceTo x) (sliceFrom x) = x := by
  unfold hstack sliceTo sliceFrom
  exact Fin.append_castAdd_natAdd

end Slices

theorem position_eq (y : Vec (3 + 4)) : position y = sliceTo y := by funext i; fin_cases i <;> rfl
theorem orientation_eq (y : Vec (3 + 4)) : orientation y = sliceFrom y := by funext i; fin_cases i <;> rfl
theorem linear_eq (y : Vec (3 + 3)) : linear y = sliceTo y := by funext i; fin_cases i <;> rfl
theorem angular_eq (y : Vec (3 + 3)) : angular y = sliceFrom y := by funext i; fin_cases i <;> rfl

theorem unitQuat_iff_mul_star (q : Vec 4) : UnitQuat q ↔ quat q * star (quat q) = 1 := by
  rw [isUnit_iff_normSq, Quaternion.self_mul_star, ← Quaternion.coe_one, Quaternion.coe_inj]

section Lawful
variable {ops : QuatOps} {eps : ℝ}

theorem LawfulQuatOps.unit_mul (h : LawfulQuatOps ops eps) {p q : Vec 4} (hp : UnitQuat p) (hq : UnitQuat q) :
    UnitQuat (ops.mul p q) := by
  rw [isUnit_iff_normSq, h.mul p q hp hq, map_mul, (isUnit_iff_normSq p).1 hp, (isUnit_iff_normSq q).1 hq, one_mul]

theorem LawfulQuatOps.unit_conj (h : LawfulQuatOps ops eps) {q : Vec 4} (hq : UnitQuat q) : UnitQuat (ops.conj q) := by
  rw [isUnit_iff_normSq, h.conj q hq, Quaternion.normSq_star, (isUnit_iff_normSq q).1 hq]

theorem LawfulQuatOps.unit_exp (h : LawfulQuatOps ops eps) (a : Vec 3) : UnitQuat (ops.exp a) := by
  rw [isUnit_iff_normSq, h.exp a, Quaternion.normSq_exp]
  simp

/-- A rotation vector of length 0 does not rotate. -/
theorem LawfulQuatOps.exp_zero_mul (h : LawfulQuatOps ops eps) {q : Vec 4} (hq : UnitQuat q) :
    ops.mul (ops.exp 0) q = q := by
  apply quat_injective
  rw [h.mul _ _ (LawfulQuatOps.unit_exp h 0) hq, h.exp 0]
  have : Spec.pure 0 = 0 := by ext <;> simp <;> rfl
  rw [this, smul_zero, NormedSpace.exp_zero, one_mul]

/-- The difference between antipodal or equal orientations is 0. -/
theorem LawfulQuatOps.diff_eq_zero (h : LawfulQuatOps ops eps) (heps : 0 < eps) {p q : Vec 4} (hp : UnitQuat p)
    (hq : UnitQuat q) (hpq : p = q ∨ p = -q) : QuatStepArgs.diff ops p q = 0 := by
  unfold QuatStepArgs.diff
  have hu := LawfulQuatOps.unit_mul h hp (LawfulQuatOps.unit_conj h hq)
  have hm := h.mul p _ hp (LawfulQuatOps.unit_conj h hq)
  rw [h.conj q hq] at hm
  apply h.log_small _ hu
  have hone : quat (ops.mul p (ops.conj q)) = 1 ∨ quat (ops.mul p (ops.conj q)) = -1 := by
    rcases hpq with rfl | rfl
    · left; rw [hm]; exact (unitQuat_iff_mul_star _).1 hp
    · right
      have hn : quat (-q) = -quat q := by ext <;> simp
      rw [hm, hn, neg_mul, (unitQuat_iff_mul_star q).1 hq]
  have h123 : ops.mul p (ops.conj q) 1 = 0 ∧ ops.mul p (ops.conj q) 2 = 0 ∧ ops.mul p (ops.conj q) 3 = 0 := by
    rcases hone with h1 | h1
    · have a := congrArg QuaternionAlgebra.imI h1
      have b := congrArg QuaternionAlgebra.imJ h1
      have c := congrArg QuaternionAlgebra.imK h1
      exact ⟨a, b, c⟩
    · have a := congrArg QuaternionAlgebra.imI h1
      have b := congrArg QuaternionAlgebra.imJ h1
      have c := congrArg QuaternionAlgebra.imK h1
      exact ⟨a.trans neg_zero, b.trans neg_zero, c.trans neg_zero⟩
  rw [h123.1, h123.2.1, h123.2.2]
  simpa using heps

end Lawful

namespace QuatStepArgs
variable {m : ℕ}

theorem update_unit (a : QuatStepArgs m) {ops : QuatOps} {eps : ℝ} (h : LawfulQuatOps ops eps) (cd cdd : Vec 3)
    (dt t : ℝ) {s : Vec 4 × Vec 3} (hs : UnitQuat s.1) : UnitQuat (a.update ops cd cdd dt t s).1 :=
  LawfulQuatOps.unit_mul h (LawfulQuatOps.unit_exp h _) hs

theorem update_fixed (a : QuatStepArgs m) {ops : QuatOps} {eps : ℝ} (h : LawfulQuatOps ops eps) (heps : 0 < eps)
    (hg : UnitQuat a.goalY) (hst : UnitQuat a.startY) (hw : a.ft.weights = fun _ _ => 0)
    (hsm : a.smooth = true → a.goalY = a.startY ∨ a.goalY = -a.startY) (dt t : ℝ) {s : Vec 4 × Vec 3}
    (hs : s.1 = a.goalY ∨ s.1 = -a.goalY) (hv : s.2 = 0) : a.update ops 0 0 dt t s = s := by
  have hu : UnitQuat s.1 := by
    rcases hs with hs | hs
    · rw [hs]; exact hg
    · rw [hs]; unfold UnitQuat at hg ⊢; simpa using hg
  have hd : diff ops a.goalY s.1 = 0 := by
    apply LawfulQuatOps.diff_eq_zero h heps hg hu
    rcases hs with hs | hs
    · left; exact hs.symm
    · right; rw [hs, neg_neg]
  have hf : ∀ z, a.ft.force z = 0 := by
    intro z; funext k; simp [ForcingTerm.force, hw]
  have hyd : (a.update ops 0 0 dt t s).2 = 0 := by
    funext k
    unfold update
    simp only [hd, hf, hv, Pi.zero_apply, mul_zero, sub_zero, add_zero, zero_add, zero_sub, zero_div]
    cases hc : a.smooth with
    | false => simp
    | true =>
      rw [LawfulQuatOps.diff_eq_zero h heps hg hst (hsm hc)]
      simp
  have hy : (a.update ops 0 0 dt t s).1 = ops.mul (ops.exp (fun k => dt * (a.update ops 0 0 dt t s).2 k)) s.1 := rfl
  ext1
  · rw [hy, hyd]
    have : (fun k : Fin 3 => dt * (0 : Vec 3) k) = 0 := by funext k; simp
    rw [this, LawfulQuatOps.exp_zero_mul h hu]
  · rw [hyd, hv]

end QuatStepArgs

/-- Orientation step functions preserve the unit length. -/
theorem QuatStepFunction.run_unit {m : ℕ} {qf : QuatStepFunction} (h : LawfulStep qf) (a : QuatStepArgs m)
    (hst : UnitQuat a.startY) {lastT t : ℝ} {s s' : Vec 4 × Vec 3} (hs : UnitQuat s.1)
    (hr : qf.run a lastT t s = .ok s') : UnitQuat s'.1 := by
  cases qf with
  | python ops =>
    obtain ⟨eps, heps, hl⟩ := h
    simp only [QuatStepFunction.run, QuatStepArgs.stepPy] at hr
    split_ifs at hr with h1 h2
    · simp only [Except.ok.injEq] at hr; rw [← hr]; exact hs
    · refine intLoop_inv (P := fun x : Vec 4 × Vec 3 => UnitQuat x.1) ?_ hs hr
      intro dt t x hx
      exact a.update_unit hl _ _ dt t hx
  | cython =>
    simp only [QuatStepFunction.run, QuatStepArgs.stepCy] at hr
    refine intLoop_inv (P := fun x : Vec 4 × Vec 3 => UnitQuat x.1) ?_ ?_ hr
    · intro dt t x hx
      exact a.update_unit lawful_cython _ _ dt t hx
    · split_ifs
      · exact hst
      · exact hs

namespace CartesianDMP
variable {m : ℕ}

/-- Object in which the position step function is called. -/
def beginStep (s : CartesianDMP m) (y : Vec (3 + 4)) (yd : Vec (3 + 3)) : CartesianDMP m :=
  { s with lastT := some s.t, t := s.t + s.dt, currentY := y, currentYd := yd }

theorem exec_step (c : Option PoseCoupling) (sf : StepFunction) (qf : QuatStepFunction) (y : Vec (3 + 4))
    (yd : Vec (3 + 3)) (s : CartesianDMP m) :
    (step c sf qf y yd).exec s =
      match sf.run (s.posArgs c) s.t (s.t + s.dt) (sliceTo y, sliceTo yd) with
      | .error e => (.error e, s.beginStep y yd)
      | .ok rp =>
        match qf.run (s.rotArgs c) s.t (s.t + s.dt) (sliceFrom y, sliceFrom yd) with
        | .error e => (.error e, { s.beginStep y yd with
            currentY := hstack rp.1 (sliceFrom y), currentYd := hstack rp.2 (sliceFrom yd) })
        | .ok rr => (.ok (hstack rp.1 rr.1, hstack rp.2 rr.2), { s.beginStep y yd with
            currentY := hstack rp.1 rr.1, currentYd := hstack rp.2 rr.2 }) := by
  unfold step
  simp only [Py.exec_bind, Py.exec_lift, Py.exec_get, Py.exec_modify, Py.exec_pure, Option.getD_some]
  have e1 : posArgs (m := m) { s with lastT := some s.t, t := s.t + s.dt, currentY := y, currentYd := yd } c =
    s.posArgs c := rfl
  rw [e1]
  cases sf.run (s.posArgs c) s.t (s.t + s.dt) (sliceTo y, sliceTo yd) with
  | error e => rfl
  | ok rp =>
    simp only [sliceFrom_hstack, Option.getD_some]
    have e2 : rotArgs (m := m) { s with
        lastT := some s.t, t := s.t + s.dt, currentY := hstack rp.1 (sliceFrom y),
        currentYd := hstack rp.2 (sliceFrom yd) } c = s.rotArgs c := rfl
    rw [e2]
    cases qf.run (s.rotArgs c) s.t (s.t + s.dt) (sliceFrom y, sliceFrom yd) with
    | error e => rfl
    | ok rr =>
      simp only [sliceTo_hstack]
      rfl

theorem exec_openLoop (ops : QuatOps) (runT : Option ℝ) (c : Option PoseCoupling) (name qname : String)
    (s : CartesianDMP m) :
    (openLoop ops runT c name qname).exec s =
      ((StepFunction.lookup name).bind fun sf =>
        (dmpOpenLoop (s.posOpenLoopArgs c) s.dt runT sf).bind fun p =>
        (QuatStepFunction.lookup ops qname).bind fun qf =>
        (openLoopWith s.executionTime 0 s.dt (sliceFrom s.startY, (0 : Vec 3)) runT
          (qf.run (s.rotOpenLoopArgs c))).bind fun r =>
        if p.2.length ≠ r.2.length then .error .valueError else .ok (p.1, List.zipWith hstack p.2 r.2), s) := by
  unfold openLoop
  simp only [Py.exec_bind, Py.exec_lift, Py.exec_get]
  cases StepFunction.lookup name with
  | error e => rfl
  | ok sf =>
    simp only [Except.bind]
    cases dmpOpenLoop (s.posOpenLoopArgs c) s.dt runT sf with
    | error e => rfl
    | ok p =>
      simp only
      cases QuatStepFunction.lookup ops qname with
      | error e => rfl
      | ok qf =>
        simp only
        have e : openLoopWith (s.rotOpenLoopArgs c).goalT (s.rotOpenLoopArgs c).startT s.dt
          ((s.rotOpenLoopArgs c).startY, (s.rotOpenLoopArgs c).startYd) runT (qf.run (s.rotOpenLoopArgs c)) =
          openLoopWith s.executionTime 0 s.dt (sliceFrom s.startY, (0 : Vec 3)) runT (qf.run (s.rotOpenLoopArgs c)) := rfl
        rw [e]
        cases openLoopWith s.executionTime 0 s.dt (sliceFrom s.startY, (0 : Vec 3)) runT
          (qf.run (s.rotOpenLoopArgs c)) with
        | error e => rfl
        | ok r =>
          simp only
          split_ifs <;> rfl

end CartesianDMP
end Verif
