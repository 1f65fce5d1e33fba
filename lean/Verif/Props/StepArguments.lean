import Verif.Model.StepArguments
import Verif.Lemmas.Py
import Mathlib.Data.Fin.VecNotation
import Verif.Props.FinalVelocity

/-!
# C94: arrays of the wrong length passed to `step`

`DMP`, `CartesianDMP`, `DualCartesianDMP` and `StateFollowingDMP` check the lengths of `last_y` and `last_yd` before
anything else happens; `DMPWithFinalVelocity`, `SpringDamper` and `SpringDamperOrientation` do not check them.
-/

namespace Verif

theorem assertLength_ofFn {n : ℕ} (y : Vec n) : assertLength n (List.ofFn y) = .ok y := by
  have h : checkLength n (List.ofFn y) = .ok y := by simp [checkLength]
  rw [assertLength, h]; rfl

theorem assertLength_ne {n : ℕ} {x : List ℝ} (h : x.length ≠ n) : assertLength n x = .error .assertionError := by
  rw [assertLength, checkLength, dif_neg h]; rfl

theorem list_eq_ofFn {n : ℕ} {x : List ℝ} (h : x.length = n) : ∃ y : Vec n, x = List.ofFn y := by
  subst h; exact ⟨x.get, (List.ofFn_get x).symm⟩

theorem broadcast_ofFn {n : ℕ} (y : Vec n) : broadcast n (List.ofFn y) = .ok y := by
  simp [broadcast]

theorem broadcast_one {n : ℕ} (c : ℝ) : broadcast n [c] = .ok (fun _ => c) := by
  unfold broadcast
  by_cases h : [c].length = n
  · rw [dif_pos h]; congr 1; funext i; simp
  · rw [dif_neg h]; simp

theorem broadcast_ne {n : ℕ} {x : List ℝ} (h : x.length ≠ n) (h1 : x.length ≠ 1) : broadcast n x = .error .valueError := by
  rw [broadcast, dif_neg h, dif_neg h1]

/-- C94: `DMP.step` works for arrays of the right lengths as described elsewhere; for any other arrays it raises
AssertionError and the object is as before. -/
theorem C94_dmp {d m : ℕ} (s : DMP d m) (coupling : Option (Coupling d)) (name : String) (sf : StepFunction)
    (hname : StepFunction.lookup name = .ok sf) :
    (∀ y yd : Vec d, (DMP.stepList (List.ofFn y) (List.ofFn yd) coupling name).exec s = (DMP.step coupling sf y yd).exec s) ∧
    ∀ lastY lastYd : List ℝ, lastY.length ≠ d ∨ lastYd.length ≠ d →
      (DMP.stepList lastY lastYd coupling name).exec s = (.error .assertionError, s) := by
  have e : ∀ x, (checkLength d x).mapError (fun _ => PyErr.assertionError) = assertLength d x := fun _ => rfl
  constructor
  · intro y yd
    simp only [DMP.stepList, hname, e, assertLength_ofFn, Py.exec_bind, Py.exec_lift]
  · rintro lastY lastYd h
    by_cases h1 : lastY.length = d
    · obtain ⟨y, rfl⟩ := list_eq_ofFn h1
      have h2 : lastYd.length ≠ d := h.resolve_left (fun h => h h1)
      simp only [DMP.stepList, hname, e, assertLength_ofFn, assertLength_ne h2, Py.exec_bind, Py.exec_lift]
    · simp only [DMP.stepList, hname, e, assertLength_ne h1, Py.exec_bind, Py.exec_lift]

/-- C94: an unknown name of a step function is noticed before the lengths are checked. -/
theorem C94_dmp_unknown_name {d m : ℕ} (s : DMP d m) (coupling : Option (Coupling d)) (name : String) (e : PyErr)
    (hname : StepFunction.lookup name = .error e) (lastY lastYd : List ℝ) :
    (DMP.stepList lastY lastYd coupling name).exec s = (.error e, s) := by
  simp only [DMP.stepList, hname, Py.exec_bind, Py.exec_lift]

/-- C94: the same for `CartesianDMP.step`, with seven numbers for the pose and six for the velocity. -/
theorem C94_cartesian {m : ℕ} (s : CartesianDMP m) (coupling : Option PoseCoupling) (sf : StepFunction) (qf : QuatStepFunction) :
    (∀ (y : Vec 7) (yd : Vec 6), (CartesianDMP.stepList coupling sf qf (List.ofFn y) (List.ofFn yd)).exec s =
      (CartesianDMP.step coupling sf qf y yd).exec s) ∧
    ∀ lastY lastYd : List ℝ, lastY.length ≠ 7 ∨ lastYd.length ≠ 6 →
      (CartesianDMP.stepList coupling sf qf lastY lastYd).exec s = (.error .assertionError, s) := by
  constructor
  · intro y yd
    simp only [CartesianDMP.stepList, assertLength_ofFn, Py.exec_bind, Py.exec_lift]
  · rintro lastY lastYd h
    by_cases h1 : lastY.length = 7
    · obtain ⟨y, rfl⟩ := list_eq_ofFn h1
      have h2 : lastYd.length ≠ 6 := h.resolve_left (fun h => h h1)
      simp only [CartesianDMP.stepList, assertLength_ofFn, assertLength_ne h2, Py.exec_bind, Py.exec_lift]
    · simp only [CartesianDMP.stepList, assertLength_ne h1, Py.exec_bind, Py.exec_lift]

/-- C94: the same for `DualCartesianDMP.step`, with fourteen numbers for the poses and twelve for the velocities. -/
theorem C94_dual {m : ℕ} (s : DualCartesianDMP m) (ops : QuatOps) (coupling : Option DualCoupling) (sf : DualStepFunction) :
    (∀ (y : Vec 14) (yd : Vec 12), (DualCartesianDMP.stepList ops coupling sf (List.ofFn y) (List.ofFn yd)).exec s =
      (DualCartesianDMP.step ops coupling sf y yd).exec s) ∧
    ∀ lastY lastYd : List ℝ, lastY.length ≠ 14 ∨ lastYd.length ≠ 12 →
      (DualCartesianDMP.stepList ops coupling sf lastY lastYd).exec s = (.error .assertionError, s) := by
  constructor
  · intro y yd
    simp only [DualCartesianDMP.stepList, assertLength_ofFn, Py.exec_bind, Py.exec_lift]
  · rintro lastY lastYd h
    by_cases h1 : lastY.length = 14
    · obtain ⟨y, rfl⟩ := list_eq_ofFn h1
      have h2 : lastYd.length ≠ 12 := h.resolve_left (fun h => h h1)
      simp only [DualCartesianDMP.stepList, assertLength_ofFn, assertLength_ne h2, Py.exec_bind, Py.exec_lift]
    · simp only [DualCartesianDMP.stepList, assertLength_ne h1, Py.exec_bind, Py.exec_lift]

/-- C94: the same for `StateFollowingDMP.step`. -/
theorem C94_state_following {d n : ℕ} (s : StateFollowingDMP d n) (coupling : Option (Coupling d)) :
    (∀ y yd : Vec d, (StateFollowingDMP.stepList coupling (List.ofFn y) (List.ofFn yd)).exec s =
      (StateFollowingDMP.step coupling y yd).exec s) ∧
    ∀ lastY lastYd : List ℝ, lastY.length ≠ d ∨ lastYd.length ≠ d →
      (StateFollowingDMP.stepList coupling lastY lastYd).exec s = (.error .assertionError, s) := by
  constructor
  · intro y yd
    simp only [StateFollowingDMP.stepList, assertLength_ofFn, Py.exec_bind, Py.exec_lift]
  · rintro lastY lastYd h
    by_cases h1 : lastY.length = d
    · obtain ⟨y, rfl⟩ := list_eq_ofFn h1
      have h2 : lastYd.length ≠ d := h.resolve_left (fun h => h h1)
      simp only [StateFollowingDMP.stepList, assertLength_ofFn, assertLength_ne h2, Py.exec_bind, Py.exec_lift]
    · simp only [StateFollowingDMP.stepList, assertLength_ne h1, Py.exec_bind, Py.exec_lift]

/-- C94: `DMPWithFinalVelocity.step` with a position of the right length works as described elsewhere, whatever is
passed as velocity: the velocity is never looked at. -/
theorem C94_fv {d m : ℕ} (s : FvDMP d m) (coupling : Option (Coupling d)) (y yd : Vec d) (lastYd : List ℝ) :
    (FvDMP.stepList coupling (List.ofFn y) lastYd).exec s = (FvDMP.step coupling y yd).exec s := by
  have hc : ∀ s : FvDMP d m, FvDMP.stepCall coupling (List.ofFn y) s =
      (DMP.stepArgs s coupling (s.currentY - y)).fvStep (s.lastT.getD 0) s.t (s.currentY, s.currentYd) := by
    intro s
    unfold FvDMP.stepCall
    rw [if_neg (by simp), broadcast_ofFn]; rfl
  simp only [FvDMP.stepList, FvDMP.step, Py.exec_bind, Py.exec_modify, Py.exec_get, Py.exec_lift, hc]

/-- C94 (finding): `DMPWithFinalVelocity.step` accepts an array of length 1 as position of any number of dimensions and
repeats its element. -/
theorem C94_fv_single_number {d m : ℕ} (s : FvDMP d m) (coupling : Option (Coupling d)) (c : ℝ) (yd : Vec d) (lastYd : List ℝ) :
    (FvDMP.stepList coupling [c] lastYd).exec s = (FvDMP.step coupling (fun _ => c) yd).exec s := by
  have hc : ∀ s : FvDMP d m, FvDMP.stepCall coupling [c] s =
      (DMP.stepArgs s coupling (s.currentY - fun _ => c)).fvStep (s.lastT.getD 0) s.t (s.currentY, s.currentYd) := by
    intro s
    unfold FvDMP.stepCall
    rw [if_neg (by simp), broadcast_one]; rfl
  simp only [FvDMP.stepList, FvDMP.step, Py.exec_bind, Py.exec_modify, Py.exec_get, Py.exec_lift, hc]

/-- C94 (finding): in two or more dimensions `DMPWithFinalVelocity.step` raises ValueError for a position of any other
length, but its clock has advanced by then. -/
theorem C94_fv_clock_advanced {d m : ℕ} (hd : d ≠ 1) (s : FvDMP d m) (hs : s.initialized = true)
    (coupling : Option (Coupling d)) (lastY lastYd : List ℝ) (h : lastY.length ≠ d) (h1 : lastY.length ≠ 1) :
    (FvDMP.stepList coupling lastY lastYd).exec s =
      (.error .valueError, { s with lastT := some s.t, t := s.t + s.dt }) := by
  have hc : ∀ s : FvDMP d m, FvDMP.stepCall coupling lastY s = .error .valueError := by
    intro s
    unfold FvDMP.stepCall
    rw [if_neg (fun h => hd h.1), broadcast_ne h h1]; rfl
  simp only [FvDMP.stepList, Py.exec_bind, Py.exec_modify, Py.exec_get, Py.exec_lift, hc, hs, if_true]

/-- C94: in one dimension it raises ValueError for a position of any other length as well, if the step covers some time
after the start; here, too, the clock has advanced by then. -/
theorem C94_fv_one_dimension {m : ℕ} (s : FvDMP 1 m) (hs : s.initialized = true)
    (coupling : Option (Coupling 1)) (lastY lastYd : List ℝ) (h : lastY.length ≠ 1)
    (hdt : 0 < s.dt) (ht : 0 < s.t + s.dt) :
    (FvDMP.stepList coupling lastY lastYd).exec s =
      (.error .valueError, { s with lastT := some s.t, t := s.t + s.dt }) := by
  have hc : FvDMP.stepCall coupling lastY { s with lastT := some s.t, t := s.t + s.dt } = .error .valueError := by
    unfold FvDMP.stepCall
    rw [if_pos ⟨rfl, h⟩]
    have e : ∀ a : StepArgs 1 m, a.startT = 0 → ∀ u : Vec 1 × Vec 1,
        a.fvStepMismatch s.t (s.t + s.dt) u = .error .valueError := by
      intro a ha u
      unfold StepArgs.fvStepMismatch
      rw [ha]
      by_cases h0 : a.goalT ≤ 0
      · rw [if_pos h0]
      · rw [if_neg h0, if_neg (not_le.2 ht)]
        obtain ⟨c, hc, -⟩ := C29_solve_constraints (ne_of_lt (not_le.1 h0))
          a.startY a.startYd a.startYdd a.goalY a.goalYd a.goalYdd
        rw [hc]
        show (if s.t < s.t + s.dt then _ else _) = _
        rw [if_pos (by linarith)]
    exact e _ rfl _
  rw [hs] at hc
  simp only [FvDMP.stepList, Py.exec_bind, Py.exec_modify, Py.exec_get, Py.exec_lift, hs, if_true, hc]

/-- C94: `SpringDamper.step` with arrays of the right lengths works as described elsewhere; arrays of length 1 are
repeated. -/
theorem C94_spring_damper {d : ℕ} (s : SpringDamper d) (coupling : Option (Coupling d)) (lastY lastYd : List ℝ) (y yd : Vec d)
    (hy : lastY = List.ofFn y ∨ ∃ c, lastY = [c] ∧ y = fun _ => c)
    (hyd : lastYd = List.ofFn yd ∨ ∃ c, lastYd = [c] ∧ yd = fun _ => c) :
    (SpringDamper.stepList coupling lastY lastYd).exec s = (SpringDamper.step coupling y yd).exec s := by
  have e1 : broadcast d lastY = .ok y := by
    rcases hy with rfl | ⟨c, rfl, rfl⟩
    · exact broadcast_ofFn y
    · exact broadcast_one c
  have e2 : broadcast d lastYd = .ok yd := by
    rcases hyd with rfl | ⟨c, rfl, rfl⟩
    · exact broadcast_ofFn yd
    · exact broadcast_one c
  simp only [SpringDamper.stepList, SpringDamper.step, Py.exec_bind, Py.exec_modify, Py.exec_get, Py.exec_lift, e1, e2]

/-- C94 (finding): for a position of any other length `SpringDamper.step` raises ValueError after its clock has
advanced; for a velocity of any other length the stored position has been overwritten as well. -/
theorem C94_spring_damper_wrong_length {d : ℕ} (s : SpringDamper d) (hs : s.initialized = true)
    (coupling : Option (Coupling d)) :
    (∀ lastY lastYd : List ℝ, lastY.length ≠ d → lastY.length ≠ 1 →
      (SpringDamper.stepList coupling lastY lastYd).exec s =
        (.error .valueError, { s with lastT := some s.t, t := s.t + s.dt })) ∧
    ∀ (y : Vec d) (lastYd : List ℝ), lastYd.length ≠ d → lastYd.length ≠ 1 →
      (SpringDamper.stepList coupling (List.ofFn y) lastYd).exec s =
        (.error .valueError, { s with lastT := some s.t, t := s.t + s.dt, currentY := y }) := by
  constructor
  · intro lastY lastYd h h1
    simp only [SpringDamper.stepList, Py.exec_bind, Py.exec_modify, Py.exec_lift, broadcast_ne h h1, hs, if_true]
  · intro y lastYd h h1
    simp only [SpringDamper.stepList, Py.exec_bind, Py.exec_modify, Py.exec_lift, broadcast_ofFn,
      broadcast_ne h h1, hs, if_true]

/-- C94: `SpringDamperOrientation.step` with arrays of the right lengths works as described elsewhere; arrays of length 1
are repeated, even where a quaternion is expected. -/
theorem C94_spring_damper_orientation (s : SpringDamperOrientation) (ops : QuatOps) (coupling : Option RotCoupling)
    (lastY lastYd : List ℝ) (y : Vec 4) (yd : Vec 3)
    (hy : lastY = List.ofFn y ∨ ∃ c, lastY = [c] ∧ y = fun _ => c)
    (hyd : lastYd = List.ofFn yd ∨ ∃ c, lastYd = [c] ∧ yd = fun _ => c) :
    (SpringDamperOrientation.stepList ops coupling lastY lastYd).exec s =
      (SpringDamperOrientation.step ops coupling y yd).exec s := by
  have e1 : broadcast 4 lastY = .ok y := by
    rcases hy with rfl | ⟨c, rfl, rfl⟩
    · exact broadcast_ofFn y
    · exact broadcast_one c
  have e2 : broadcast 3 lastYd = .ok yd := by
    rcases hyd with rfl | ⟨c, rfl, rfl⟩
    · exact broadcast_ofFn yd
    · exact broadcast_one c
  simp only [SpringDamperOrientation.stepList, SpringDamperOrientation.step, Py.exec_bind, Py.exec_modify, Py.exec_get,
    Py.exec_lift, e1, e2]

/-- C94 (finding): as `C94_spring_damper_wrong_length`. -/
theorem C94_spring_damper_orientation_wrong_length (s : SpringDamperOrientation) (hs : s.initialized = true) (ops : QuatOps)
    (coupling : Option RotCoupling) :
    (∀ lastY lastYd : List ℝ, lastY.length ≠ 4 → lastY.length ≠ 1 →
      (SpringDamperOrientation.stepList ops coupling lastY lastYd).exec s =
        (.error .valueError, { s with lastT := some s.t, t := s.t + s.dt })) ∧
    ∀ (y : Vec 4) (lastYd : List ℝ), lastYd.length ≠ 3 → lastYd.length ≠ 1 →
      (SpringDamperOrientation.stepList ops coupling (List.ofFn y) lastYd).exec s =
        (.error .valueError, { s with lastT := some s.t, t := s.t + s.dt, currentY := y }) := by
  constructor
  · intro lastY lastYd h h1
    simp only [SpringDamperOrientation.stepList, Py.exec_bind, Py.exec_modify, Py.exec_lift, broadcast_ne h h1,
      hs, if_true]
  · intro y lastYd h h1
    simp only [SpringDamperOrientation.stepList, Py.exec_bind, Py.exec_modify, Py.exec_lift, broadcast_ofFn,
      broadcast_ne h h1, hs, if_true]

section Examples

/-- After any call of `step` the objects are initialised, as assumed above. -/
theorem FvDMP.step_initialized {d m : ℕ} (s : FvDMP d m) (coupling : Option (Coupling d)) (y yd : Vec d) :
    ((FvDMP.step coupling y yd).exec s).2.initialized = true := by
  simp only [FvDMP.step, Py.exec_bind, Py.exec_modify, Py.exec_get, Py.exec_lift]
  cases hs : s.initialized <;> simp only [if_true, if_false, Bool.false_eq_true] <;>
    generalize StepArgs.fvStep _ _ _ _ = r <;> cases r <;> rfl

theorem SpringDamper.step_initialized {d : ℕ} (s : SpringDamper d) (coupling : Option (Coupling d)) (y yd : Vec d) :
    ((SpringDamper.step coupling y yd).exec s).2.initialized = true := by
  simp only [SpringDamper.step, Py.exec_bind, Py.exec_modify, Py.exec_get, Py.exec_lift]
  cases hs : s.initialized <;> simp only [if_true, if_false, Bool.false_eq_true] <;>
    generalize springDamperStep _ _ _ _ _ _ _ _ _ = r <;> cases r <;> rfl

theorem SpringDamperOrientation.step_initialized (s : SpringDamperOrientation) (ops : QuatOps) (coupling : Option RotCoupling)
    (y : Vec 4) (yd : Vec 3) : ((SpringDamperOrientation.step ops coupling y yd).exec s).2.initialized = true := by
  simp only [SpringDamperOrientation.step, Py.exec_bind, Py.exec_modify, Py.exec_get, Py.exec_lift]
  cases hs : s.initialized <;> simp only [if_true, if_false, Bool.false_eq_true] <;>
    generalize springDamperQuatStep _ _ _ _ _ _ _ _ _ _ = r <;> cases r <;> rfl

/-- Three numbers for a two-dimensional DMP. -/
example (s : DMP 2 10) : (DMP.stepList [1, 2, 3] [0, 0] none "rk4").exec s = (.error .assertionError, s) :=
  (C94_dmp s none "rk4" .rk4 rfl).2 _ _ (.inl (by decide))

/-- A second step with three numbers for a two-dimensional DMP with final velocity. -/
example (s0 : FvDMP 2 10) : let s := ((FvDMP.step none 0 0).exec s0).2
    (FvDMP.stepList none [1, 2, 3] [0, 0]).exec s = (.error .valueError, { s with lastT := some s.t, t := s.t + s.dt }) :=
  C94_fv_clock_advanced (by decide) _ (FvDMP.step_initialized _ _ _ _) none _ _ (by decide) (by decide)

/-- A second step with three numbers for the velocity of a two-dimensional spring-damper system. -/
example (s0 : SpringDamper 2) : let s := ((SpringDamper.step none 0 0).exec s0).2
    (SpringDamper.stepList none (List.ofFn ![1, 2]) [0, 0, 0]).exec s =
      (.error .valueError, { s with lastT := some s.t, t := s.t + s.dt, currentY := ![1, 2] }) :=
  (C94_spring_damper_wrong_length _ (SpringDamper.step_initialized _ _ _ _) none).2 _ _ (by decide) (by decide)

/-- One number for a position, two for the velocity. -/
example (s : SpringDamper 2) : (SpringDamper.stepList none [5] (List.ofFn ![1, 2])).exec s =
    (SpringDamper.step none (fun _ => 5) ![1, 2]).exec s :=
  C94_spring_damper s none _ _ _ _ (.inr ⟨5, rfl, rfl⟩) (.inl rfl)

end Examples

end Verif
