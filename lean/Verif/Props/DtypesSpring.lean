import Verif.Model.DtypesSpring
import Verif.Props.Dtypes
import Verif.Props.SpringDamper
import Verif.Props.NewObjects
import Verif.Props.OrientationSpring

/-! # C100 (arrays of integers) for spring-damper systems -/

namespace Verif
open Spec
variable {d : ℕ}

theorem outcome_ok {σ : Type} {r : Except PyErr Unit × σ} {x : σ} (h : outcome r = .ok x) : r.1 = .ok () ∧ r.2 = x := by
  obtain ⟨r, y⟩ := r
  cases r with
  | error e => cases h
  | ok u => exact ⟨rfl, by simpa [outcome] using h⟩

theorem store_float (x : ℝ) : Dtype.store .float x = x := rfl

theorem springDamperStepTyped_ok {tyY tyYd : Dtype} {goalY : Vec d} {k : ℝ} {c : Option ℝ}
    {coupling : Option (Coupling d)} {intDt l t : ℝ} {s : Vec d × Vec d}
    (h : (springDamperStepTyped tyY tyYd goalY k c coupling intDt l t s).1 = .ok ()) :
    springDamperStep goalY k c coupling none intDt l t s =
        .ok (springDamperStepTyped tyY tyYd goalY k c coupling intDt l t s).2 ∧
      (l < t → tyY = .float ∧ tyYd = .float) := by
  unfold springDamperStepTyped springDamperStep at *
  simp only at h ⊢
  by_cases h1 : t ≤ l
  · rw [if_pos h1, intLoop_done _ h1]
    exact ⟨rfl, fun h2 => absurd h1 (not_le.2 h2)⟩
  · rw [if_neg h1] at h ⊢
    revert h
    cases tyY <;> cases tyYd <;>
      cases intLoop intDt t (springDamperBody goalY k (defaultDamping c k) coupling none) l s <;> simp

theorem springDamperStepTyped_integer {tyY tyYd : Dtype} (hty : tyY = .int ∨ tyYd = .int) {goalY : Vec d} {k : ℝ}
    {c : Option ℝ} {coupling : Option (Coupling d)} {intDt l t : ℝ} (h : l < t) (s : Vec d × Vec d) :
    (springDamperStepTyped tyY tyYd goalY k c coupling intDt l t s).1 = .error .typeError := by
  unfold springDamperStepTyped
  simp only
  rw [if_neg (not_le.2 h)]
  rcases hty with rfl | rfl
  · cases tyYd <;> rfl
  · rfl

namespace TypedSpringDamper

/-- Data types of the current arrays in a step. -/
def stepTypes (s : TypedSpringDamper d) : Dtypes :=
  if s.initialized then s.types else { s.types with currentY := s.types.startY, currentYd := s.types.startYd }

theorem exec_step (c : Option (Coupling d)) (y yd : Vec d) (s : TypedSpringDamper d) :
    (step c y yd).exec s =
      let ty := s.stepTypes
      let x : Vec d × Vec d := (fun i => ty.currentY.store (y i), fun i => ty.currentYd.store (yd i))
      let r := springDamperStepTyped ty.currentY ty.currentYd s.goalY s.k s.c c s.intDt s.t (s.t + s.dt) x
      (outcome r, { toSpringDamper := { s.toSpringDamper.beginStep r.2.1 r.2.2 with currentY := r.2.1 }
                    types := ty }) := by
  unfold step stepTypes
  simp only [Py.exec_bind, Py.exec_modify, Py.exec_get, Py.exec_lift, Py.exec_pure]
  cases hi : s.initialized with
  | false =>
    simp only [Bool.false_eq_true, if_false, Option.getD_some]
    generalize springDamperStepTyped _ _ _ _ _ _ _ _ _ _ = r
    obtain ⟨r, x⟩ := r
    cases r <;> rfl
  | true =>
    simp only [if_true, Option.getD_some]
    generalize springDamperStepTyped _ _ _ _ _ _ _ _ _ _ = r
    obtain ⟨r, x⟩ := r
    cases r <;> simp [outcome, SpringDamper.beginStep]

end TypedSpringDamper

/-- **C100 (`SpringDamper`).** If `step` returns, it returns what it would return for arrays of floating-point numbers. -/
theorem C100_spring_damper_step_no_rounding (c : Option (Coupling d)) (y yd : Vec d) (s s' : TypedSpringDamper d)
    (r : Vec d × Vec d) (hdt : 0 < s.dt) (h : (TypedSpringDamper.step c y yd).exec s = (.ok r, s')) :
    (SpringDamper.step c y yd).exec s.toSpringDamper = (.ok r, s'.toSpringDamper) := by
  rw [TypedSpringDamper.exec_step] at h
  simp only at h
  injection h with h1 h2
  obtain ⟨h3, h4⟩ := outcome_ok h1
  obtain ⟨h5, h6⟩ := springDamperStepTyped_ok h3
  obtain ⟨h7, h8⟩ := h6 (by linarith)
  rw [h4] at h5
  simp only [h7, h8, store_float] at h5
  rw [SpringDamper.exec_step, h5]
  rw [← h2, h4]
  rfl

/-- **C100 (`SpringDamper`).** If `open_loop` returns a trajectory, it is that of arrays of floating-point numbers. -/
theorem C100_spring_damper_open_loop_no_rounding (runT : ℝ) (c : Option (Coupling d)) (s s' : TypedSpringDamper d)
    (r : List ℝ × List (Vec d)) (h : (TypedSpringDamper.openLoop runT c).exec s = (.ok r, s')) :
    (SpringDamper.openLoop runT c).exec s.toSpringDamper = (.ok r, s.toSpringDamper) := by
  have e : (TypedSpringDamper.openLoop runT c).exec s =
    (openLoopWith runT 0 s.dt (s.startY, (0 : Vec d)) (some runT) (fun lastT t x =>
      outcome (springDamperStepTyped s.types.startY s.types.startY s.goalY s.k s.c c s.intDt lastT t x)), s) := rfl
  have e' : (SpringDamper.openLoop runT c).exec s.toSpringDamper =
    (openLoopWith runT 0 s.dt (s.startY, (0 : Vec d)) (some runT)
      (springDamperStep s.goalY s.k s.c c none s.intDt), s.toSpringDamper) := rfl
  rw [e] at h
  rw [e']
  injection h with h1 h2
  rw [openLoopWith_le (step' := springDamperStep s.goalY s.k s.c c none s.intDt) (fun l t x x' hx => by
      obtain ⟨h3, h4⟩ := outcome_ok hx
      rw [← h4]
      exact (springDamperStepTyped_ok h3).1) h1]

/-- **C100 (finding, `SpringDamper`).** With a start position made of integers `open_loop` and the first `step` raise
TypeError, with a start velocity made of integers the first `step` does. -/
theorem C100_finding_spring_damper_integer_start (c : Option (Coupling d)) (s : TypedSpringDamper d) (hdt : 0 < s.dt) :
    (s.types.startY = .int ∨ s.types.startYd = .int → s.initialized = false → ∀ y yd,
      ((TypedSpringDamper.step c y yd).exec s).1 = .error .typeError) ∧
    (s.types.startY = .int → ∀ runT, 0 < runT →
      (TypedSpringDamper.openLoop runT c).exec s = (.error .typeError, s)) := by
  constructor
  · intro hty hi y yd
    rw [TypedSpringDamper.exec_step]
    simp only [outcome]
    rw [springDamperStepTyped_integer (by simpa [TypedSpringDamper.stepTypes, hi] using hty) (by linarith)]
  · intro hty runT hr
    have e : (TypedSpringDamper.openLoop runT c).exec s =
      (openLoopWith runT 0 s.dt (s.startY, (0 : Vec d)) (some runT) (fun lastT t x =>
        outcome (springDamperStepTyped s.types.startY s.types.startY s.goalY s.k s.c c s.intDt lastT t x)), s) := rfl
    rw [e, openLoopWith_first_error hdt (show (0 : ℝ) < (some runT).getD runT from hr) (e := .typeError)]
    simp only [outcome]
    rw [springDamperStepTyped_integer (.inl hty) (by linarith)]

/-- **C100 (finding, `SpringDamper`).** The exception is raised half way: if only the start position is made of integers,
the velocity of the object has been changed already, to the velocity after the first sub-step (here: the only one), while
its position is the one that was passed to `step`. -/
theorem C100_finding_spring_damper_half_way (c : Option (Coupling d)) (y : Fin d → ℤ) (yd : Vec d)
    (s : TypedSpringDamper d) (hs : s.initialized = false) (hy : s.types.startY = .int) (hyd : s.types.startYd = .float)
    (hdt : 0 < s.dt) (hint : s.dt ≤ s.intDt) :
    ((TypedSpringDamper.step c (fun i => y i) yd).exec s).2.currentYd =
        ((SpringDamper.step c (fun i => (y i : ℝ)) yd).exec s.toSpringDamper).2.currentYd ∧
      ((TypedSpringDamper.step c (fun i => y i) yd).exec s).2.currentY = fun i => (y i : ℝ) := by
  have hl : s.t < s.t + s.dt := by linarith
  have hst : ∀ z : ℤ, Dtype.store .int (z : ℝ) = z := truncate_int
  have h1 : (if s.t + s.dt - s.t < s.intDt then s.t + s.dt - s.t else s.intDt) = s.dt := by
    split_ifs with h <;> linarith
  have t1 : s.stepTypes.currentY = .int := by simp [TypedSpringDamper.stepTypes, hs, hy]
  have t2 : s.stepTypes.currentYd = .float := by simp [TypedSpringDamper.stepTypes, hs, hyd]
  have hrun : ∀ x, springDamperStep s.goalY s.k s.c c none s.intDt s.t (s.t + s.dt) x =
      .ok (springDamperBody s.goalY s.k (defaultDamping s.c s.k) c none s.dt (s.t + s.dt) x) := by
    intro x
    show intLoop s.intDt (s.t + s.dt) _ s.t x = _
    rw [intLoop_step _ hl, h1, intLoop_done _ le_rfl]
  rw [TypedSpringDamper.exec_step, SpringDamper.exec_step, hrun]
  simp only [t1, t2, hst, store_float]
  unfold springDamperStepTyped
  rw [if_neg (not_le.2 hl)]
  simp only [h1]
  exact ⟨rfl, trivial⟩

/-! ## Orientations -/

theorem springDamperQuatStepTyped_ok {ops : QuatOps} {tyYd : Dtype} {goalY : Vec 4} {k : ℝ} {c : Option ℝ}
    {coupling : Option RotCoupling} {intDt l t : ℝ} {s : Vec 4 × Vec 3}
    (h : (springDamperQuatStepTyped ops .float tyYd goalY k c coupling intDt l t s).1 = .ok ()) :
    springDamperQuatStep ops goalY k c coupling none intDt l t s =
        .ok (springDamperQuatStepTyped ops .float tyYd goalY k c coupling intDt l t s).2 := by
  unfold springDamperQuatStepTyped springDamperQuatStep at *
  simp only [store_float] at h ⊢
  by_cases h1 : t ≤ l
  · rw [if_pos h1, intLoop_done _ h1]
  · rw [if_neg h1] at h ⊢
    have e : (fun dt t s => (fun i => (springDamperQuatBody ops goalY k (defaultDamping c k) coupling none dt t s).1 i,
        (springDamperQuatBody ops goalY k (defaultDamping c k) coupling none dt t s).2)) =
        springDamperQuatBody ops goalY k (defaultDamping c k) coupling none := rfl
    rw [e] at h ⊢
    revert h
    cases tyYd <;>
      cases intLoop intDt t (springDamperQuatBody ops goalY k (defaultDamping c k) coupling none) l s <;> simp

/-- A vector of integers. -/
def IsInteger {n : ℕ} (x : Vec n) : Prop := ∀ i, ∃ z : ℤ, x i = z

theorem store_int_isInteger {n : ℕ} (x : Vec n) : IsInteger (fun i => Dtype.store .int (x i)) := fun i =>
  let ⟨z, h, _⟩ := C100_truncate (x i)
  ⟨z, h⟩

theorem springDamperQuatStepTyped_rounded {ops : QuatOps} {goalY : Vec 4} {k : ℝ} {c : Option ℝ}
    {coupling : Option RotCoupling} {intDt l t : ℝ} (hint : 0 < intDt) (s : Vec 4 × Vec 3) (hs : IsInteger s.1) :
    (springDamperQuatStepTyped ops .int .float goalY k c coupling intDt l t s).1 = .ok () ∧
      IsInteger (springDamperQuatStepTyped ops .int .float goalY k c coupling intDt l t s).2.1 := by
  unfold springDamperQuatStepTyped
  simp only
  by_cases h1 : t ≤ l
  · rw [if_pos h1]; exact ⟨rfl, hs⟩
  · rw [if_neg h1]
    have hr := intLoop_eq (fun dt t s =>
        ((fun i => Dtype.int.store
          ((springDamperQuatBody ops goalY k (defaultDamping c k) coupling none dt t s).1 i)),
        (springDamperQuatBody ops goalY k (defaultDamping c k) coupling none dt t s).2)) (t := t) hint l s
    rw [hr]
    exact ⟨rfl, intLoop_inv (P := fun x : Vec 4 × Vec 3 => IsInteger x.1)
      (fun dt t s _ => store_int_isInteger _) hs hr⟩

namespace TypedSpringDamperOrientation

/-- Data types of the current arrays in a step. -/
def stepTypes (s : TypedSpringDamperOrientation) : Dtypes :=
  if s.initialized then s.types else { s.types with currentY := s.types.startY, currentYd := s.types.startYd }

theorem exec_step (ops : QuatOps) (c : Option RotCoupling) (y : Vec 4) (yd : Vec 3) (s : TypedSpringDamperOrientation) :
    (step ops c y yd).exec s =
      let ty := s.stepTypes
      let x : Vec 4 × Vec 3 := (fun i => ty.currentY.store (y i), fun i => ty.currentYd.store (yd i))
      let r := springDamperQuatStepTyped ops ty.currentY ty.currentYd s.goalY s.k s.c c s.intDt s.t (s.t + s.dt) x
      (outcome r, { toSpringDamperOrientation := s.toSpringDamperOrientation.beginStep r.2.1 r.2.2, types := ty }) := by
  unfold step stepTypes
  simp only [Py.exec_bind, Py.exec_modify, Py.exec_get, Py.exec_lift, Py.exec_pure]
  cases hi : s.initialized with
  | false =>
    simp only [Bool.false_eq_true, if_false, Option.getD_some]
    generalize springDamperQuatStepTyped _ _ _ _ _ _ _ _ _ _ _ = r
    obtain ⟨r, x⟩ := r
    cases r <;> rfl
  | true =>
    simp only [if_true, Option.getD_some]
    generalize springDamperQuatStepTyped _ _ _ _ _ _ _ _ _ _ _ = r
    obtain ⟨r, x⟩ := r
    cases r <;> simp [outcome, SpringDamperOrientation.beginStep]

end TypedSpringDamperOrientation

/-- **C100 (`SpringDamperOrientation`).** If the start orientation, or the current one, is an array of floating-point
numbers and `step` returns, it returns what it would return if all arrays contained floating-point numbers. -/
theorem C100_orientation_step_no_rounding (ops : QuatOps) (c : Option RotCoupling) (y : Vec 4) (yd : Vec 3)
    (s s' : TypedSpringDamperOrientation) (r : Vec 4 × Vec 3) (hdt : 0 < s.dt)
    (hy : if s.initialized then s.types.currentY = .float else s.types.startY = .float)
    (h : (TypedSpringDamperOrientation.step ops c y yd).exec s = (.ok r, s')) :
    (SpringDamperOrientation.step ops c y yd).exec s.toSpringDamperOrientation =
      (.ok r, s'.toSpringDamperOrientation) := by
  rw [TypedSpringDamperOrientation.exec_step] at h
  have hty : s.stepTypes.currentY = .float := by
    unfold TypedSpringDamperOrientation.stepTypes
    split_ifs at hy ⊢ <;> exact hy
  simp only [hty] at h
  injection h with h1 h2
  obtain ⟨h3, h4⟩ := outcome_ok h1
  have h5 := springDamperQuatStepTyped_ok h3
  have hyd : s.stepTypes.currentYd = .float := by
    revert h3
    unfold springDamperQuatStepTyped
    simp only
    rw [if_neg (by linarith)]
    cases s.stepTypes.currentYd <;> simp
  rw [h4] at h5
  simp only [hyd, store_float] at h5
  rw [SpringDamperOrientation.exec_step, h5]
  rw [← h2, h4]
  rfl

/-- **C100 (`SpringDamperOrientation`).** If the start orientation is an array of floating-point numbers and `open_loop`
returns a trajectory, it is that of arrays of floating-point numbers. -/
theorem C100_orientation_open_loop_no_rounding (ops : QuatOps) (runT : ℝ) (c : Option RotCoupling)
    (s s' : TypedSpringDamperOrientation) (hy : s.types.startY = .float) (r : List ℝ × List (Vec 4))
    (h : (TypedSpringDamperOrientation.openLoop ops runT c).exec s = (.ok r, s')) :
    (SpringDamperOrientation.openLoop ops runT c).exec s.toSpringDamperOrientation =
      (.ok r, s.toSpringDamperOrientation) := by
  have e : (TypedSpringDamperOrientation.openLoop ops runT c).exec s =
    (openLoopWith runT 0 s.dt (s.startY, (0 : Vec 3)) (some runT) (fun lastT t x =>
      outcome (springDamperQuatStepTyped ops s.types.startY .float s.goalY s.k s.c c s.intDt lastT t x)), s) := rfl
  have e' : (SpringDamperOrientation.openLoop ops runT c).exec s.toSpringDamperOrientation =
    (openLoopWith runT 0 s.dt (s.startY, (0 : Vec 3)) (some runT)
      (springDamperQuatStep ops s.goalY s.k s.c c none s.intDt), s.toSpringDamperOrientation) := rfl
  rw [e, hy] at h
  rw [e']
  injection h with h1 h2
  rw [openLoopWith_le (step' := springDamperQuatStep ops s.goalY s.k s.c c none s.intDt) (fun l t x x' hx => by
      obtain ⟨h3, h4⟩ := outcome_ok hx
      rw [← h4]
      exact springDamperQuatStepTyped_ok h3) h1]

/-- **C100 (finding, `SpringDamperOrientation`).** With a start orientation made of integers the first `step` does not
raise an exception, but it returns an orientation that is rounded to integers. -/
theorem C100_finding_orientation_step_rounded (ops : QuatOps) (c : Option RotCoupling) (y : Vec 4) (yd : Vec 3)
    (s : TypedSpringDamperOrientation) (hi : s.initialized = false) (hy : s.types.startY = .int)
    (hyd : s.types.startYd = .float) (hint : 0 < s.intDt) :
    ∃ r s', (TypedSpringDamperOrientation.step ops c y yd).exec s = (.ok r, s') ∧ IsInteger r.1 := by
  rw [TypedSpringDamperOrientation.exec_step]
  simp only [TypedSpringDamperOrientation.stepTypes, hi, Bool.false_eq_true, if_false, hy, hyd]
  obtain ⟨h1, h2⟩ := springDamperQuatStepTyped_rounded (ops := ops) (goalY := s.goalY) (k := s.k) (c := s.c)
    (coupling := c) (l := s.t) (t := s.t + s.dt) hint
    (fun i => Dtype.int.store (y i), fun i => Dtype.float.store (yd i)) (store_int_isInteger y)
  generalize springDamperQuatStepTyped _ _ _ _ _ _ _ _ _ _ _ = r at h1 h2 ⊢
  exact ⟨r.2, _, by unfold outcome; rw [h1], h2⟩

theorem springDamperQuatStepTyped_total {ops : QuatOps} {tyY : Dtype} {goalY : Vec 4} {k : ℝ} {c : Option ℝ}
    {coupling : Option RotCoupling} {intDt l t : ℝ} (hint : 0 < intDt) (s : Vec 4 × Vec 3) :
    outcome (springDamperQuatStepTyped ops tyY .float goalY k c coupling intDt l t s) =
      .ok (springDamperQuatStepTyped ops tyY .float goalY k c coupling intDt l t s).2 := by
  unfold springDamperQuatStepTyped
  simp only
  by_cases h1 : t ≤ l
  · rw [if_pos h1]; rfl
  · rw [if_neg h1, intLoop_eq _ hint]; rfl

/-- State of the open loop after `i` steps. -/
noncomputable def TypedSpringDamperOrientation.state (ops : QuatOps) (c : Option RotCoupling)
    (s : TypedSpringDamperOrientation) : ℕ → Vec 4 × Vec 3
  | 0 => (s.startY, 0)
  | i + 1 => (springDamperQuatStepTyped ops s.types.startY .float s.goalY s.k s.c c s.intDt (arangeAt 0 s.dt i)
      (arangeAt 0 s.dt (i + 1)) (state ops c s i)).2

theorem TypedSpringDamperOrientation.exec_openLoop (ops : QuatOps) {runT : ℝ} (hr : 0 ≤ runT) (c : Option RotCoupling)
    (s : TypedSpringDamperOrientation) (hdt : 0 < s.dt) (hint : 0 < s.intDt) :
    (openLoop ops runT c).exec s =
      (.ok ((List.range (arangeLen 0 (runT + s.dt) s.dt)).map (arangeAt 0 s.dt),
        (List.range (arangeLen 0 (runT + s.dt) s.dt)).map (fun i => (state ops c s i).1)), s) := by
  have e : (TypedSpringDamperOrientation.openLoop ops runT c).exec s =
    (openLoopWith runT 0 s.dt (s.startY, (0 : Vec 3)) (some runT) (fun lastT t x =>
      outcome (springDamperQuatStepTyped ops s.types.startY .float s.goalY s.k s.c c s.intDt lastT t x)), s) := rfl
  rw [e, openLoopWith_total hdt.ne' (fun i x => springDamperQuatStepTyped_total hint x) (xs := state ops c s)
    (show state ops c s 0 = (s.startY, 0) from rfl) (fun j => rfl)]
  rw [if_neg]
  · rfl
  · unfold arangeLen
    rw [Nat.ceil_eq_zero, not_le]
    simp only [Option.getD_some]
    have : 0 < runT + s.dt - 0 := by linarith
    positivity

/-- **C100 (finding, `SpringDamperOrientation`).** With a start orientation made of integers every orientation of the
trajectory that `open_loop` returns is rounded to integers. -/
theorem C100_finding_orientation_open_loop_rounded (ops : QuatOps) {runT : ℝ} (hr : 0 ≤ runT) (c : Option RotCoupling)
    (s : TypedSpringDamperOrientation) (hy : s.types.startY = .int) (hs : IsInteger s.startY) (hdt : 0 < s.dt)
    (hint : 0 < s.intDt) :
    ∃ T Y, (TypedSpringDamperOrientation.openLoop ops runT c).exec s = (.ok (T, Y), s) ∧ ∀ y ∈ Y, IsInteger y := by
  refine ⟨_, _, TypedSpringDamperOrientation.exec_openLoop ops hr c s hdt hint, ?_⟩
  have h : ∀ i, IsInteger (TypedSpringDamperOrientation.state ops c s i).1 := by
    intro i
    induction i with
    | zero => exact hs
    | succ i ih =>
      rw [TypedSpringDamperOrientation.state, hy]
      exact (springDamperQuatStepTyped_rounded hint _ ih).2
  intro y hy
  obtain ⟨i, _, rfl⟩ := List.mem_map.1 hy
  exact h i

theorem exp_lt_one {a : Vec 3} (h0 : 0 < length a) (h1 : length a < Real.pi) (i : Fin 4) :
    |quaternionFromCompactAxisAngleCy a i| < 1 := by
  have hu := isUnit_exp a
  have hq : quaternionFromCompactAxisAngleCy a 0 = Real.cos (length a / 2) := by
    unfold quaternionFromCompactAxisAngleCy
    simp only [norm3_eq_length]
    rw [if_neg h0.ne']
    simp
  have c0 : 0 < Real.cos (length a / 2) := Real.cos_pos_of_mem_Ioo ⟨by linarith, by linarith⟩
  have c1 : Real.cos (length a / 2) < 1 := by
    have := Real.cos_lt_cos_of_nonneg_of_le_pi (x := 0) (y := length a / 2) le_rfl (by linarith) (by linarith)
    simpa using this
  rw [← hq] at c0 c1
  unfold UnitQuat at hu
  generalize quaternionFromCompactAxisAngleCy a = q at *
  rw [abs_lt]
  have h2 : q i ^ 2 < 1 := by
    fin_cases i <;> simp only [Fin.zero_eta, Fin.mk_one, Fin.reduceFinMk] <;> nlinarith [sq_nonneg (q 1), sq_nonneg (q 2), sq_nonneg (q 3)]
  constructor <;> nlinarith

theorem exec_configure_identity (goal : Vec 4) (s : TypedSpringDamperOrientation) :
    (TypedSpringDamperOrientation.configure
      { startY := some (.int [1, 0, 0, 0]), goalY := some (.float (List.ofFn goal)) }).exec s =
      (.ok (), { s with startY := ![1, 0, 0, 0]
                        goalY := goal
                        types.startY := .int
                        types.goalY := .float }) := by
  have h1 : checkLength 4 (NumArray.int [1, 0, 0, 0]).values = .ok ![1, 0, 0, 0] := by
    unfold checkLength NumArray.values
    rw [dif_pos (by simp)]
    congr 1
    funext i
    fin_cases i <;> simp
  have h2 : checkLength 4 (NumArray.float (List.ofFn goal)).values = .ok goal := checkLength_ofFn goal
  unfold TypedSpringDamperOrientation.configure
  simp only [Py.exec_bind, exec_configureTypedField, h1, h2]
  rfl

theorem springDamperQuatStepTyped_zero {eps : ℝ} {goalY : Vec 4} {k : ℝ} {c : Option ℝ} {coupling : Option RotCoupling}
    {intDt l t : ℝ} (hint : 0 < intDt) (s : Vec 4 × Vec 3) (hs : s.1 = 0) :
    (springDamperQuatStepTyped (QuatOps.python eps) .int .float goalY k c coupling intDt l t s).2.1 = 0 := by
  unfold springDamperQuatStepTyped
  simp only
  by_cases h1 : t ≤ l
  · rw [if_pos h1]; exact hs
  · rw [if_neg h1]
    have hr := intLoop_eq (fun dt t s =>
        ((fun i => Dtype.int.store
          ((springDamperQuatBody (QuatOps.python eps) goalY k (defaultDamping c k) coupling none dt t s).1 i)),
        (springDamperQuatBody (QuatOps.python eps) goalY k (defaultDamping c k) coupling none dt t s).2)) (t := t)
        hint l s
    rw [hr]
    refine intLoop_inv (P := fun x : Vec 4 × Vec 3 => x.1 = 0) (fun dt t s h => ?_) hs hr
    funext i
    have e : (springDamperQuatBody (QuatOps.python eps) goalY k (defaultDamping c k) coupling none dt t s).1 i = 0 := by
      simp only [springDamperQuatBody, QuatOps.python, h, hamilton]
      fin_cases i <;> simp
    show Dtype.store .int _ = _
    rw [e]
    exact truncate_zero

theorem diff_identity {eps : ℝ} {goal : Vec 4} :
    QuatStepArgs.diff (QuatOps.python eps) goal ![1, 0, 0, 0] = logPy eps goal := by
  have hu : UnitQuat ![1, 0, 0, 0] := by simp [UnitQuat]
  have e : hamilton goal (qConjCy (normQuat ![1, 0, 0, 0])) = goal := by
    rw [normQuat_of_unit hu]
    funext i
    fin_cases i <;> simp [hamilton, qConjCy]
  show logPy eps (hamilton goal (qConjCy (normQuat ![1, 0, 0, 0]))) = _
  rw [e]

theorem springDamperQuatStepTyped_first {eps dt k intDt : ℝ} (heps : 0 < eps) (hdt : 0 < dt) (hint : 0 < intDt)
    (hk : 0 < k) (hs : min intDt dt ^ 2 * k < 1) (c : Option ℝ) (goal : Vec 4) (hg : UnitQuat goal)
    (hg' : eps ≤ √(goal 1 ^ 2 + goal 2 ^ 2 + goal 3 ^ 2)) :
    (springDamperQuatStepTyped (QuatOps.python eps) .int .float goal k c none intDt 0 dt (![1, 0, 0, 0], 0)).2.1 = 0 := by
  have hl := lawful_python heps
  obtain ⟨hl1, hl2⟩ := hl.log goal hg hg'
  replace hl1 : length (logPy eps goal) ≤ Real.pi := hl1
  have hl3 : 0 < length (logPy eps goal) := by
    refine lt_of_le_of_ne (by unfold length; positivity) (fun h0 => ?_)
    have h1 : (QuatOps.python eps).log goal = 0 := length_eq_zero.1 h0.symm
    rw [h1] at hl2
    have h2 : Spec.pure 0 = 0 := by ext <;> rfl
    rw [h2, smul_zero, NormedSpace.exp_zero] at hl2
    have h3 : goal 1 = 0 ∧ goal 2 = 0 ∧ goal 3 = 0 := by
      rcases hl2 with h | h
      · exact ⟨(congrArg QuaternionAlgebra.imI h).symm, (congrArg QuaternionAlgebra.imJ h).symm,
          (congrArg QuaternionAlgebra.imK h).symm⟩
      · exact ⟨neg_eq_zero.1 (congrArg QuaternionAlgebra.imI h).symm, neg_eq_zero.1 (congrArg QuaternionAlgebra.imJ h).symm,
          neg_eq_zero.1 (congrArg QuaternionAlgebra.imK h).symm⟩
    rw [h3.1, h3.2.1, h3.2.2] at hg'
    simp at hg'
    linarith
  set δ := min intDt dt with hδ
  have hδ0 : 0 < δ := lt_min hint hdt
  have hsub : (if dt - 0 < intDt then dt - 0 else intDt) = δ := by
    rw [sub_zero, hδ]
    split_ifs with h
    · rw [min_eq_right h.le]
    · rw [min_eq_left (not_lt.1 h)]
  unfold springDamperQuatStepTyped
  simp only
  rw [if_neg (not_le.2 hdt), intLoop_step _ hdt]
  simp only [hsub]
  have h1 : (fun i => Dtype.int.store ((springDamperQuatBody (QuatOps.python eps) goal k (defaultDamping c k) none none δ
      (0 + δ) (![1, 0, 0, 0], 0)).1 i)) = (0 : Vec 4) := by
    funext i
    have e : (springDamperQuatBody (QuatOps.python eps) goal k (defaultDamping c k) none none δ (0 + δ)
        (![1, 0, 0, 0], 0)).1 = quaternionFromCompactAxisAngleCy ((δ ^ 2 * k) • logPy eps goal) := by
      simp only [springDamperQuatBody, diff_identity, sdCoupling]
      have e1 : (fun i => δ * ((0 : Vec 3) i + (δ * (k * logPy eps goal i - defaultDamping c k * (0 : Vec 3) i +
          (0 : Vec 3) i) + (0 : Vec 3) i))) = (δ ^ 2 * k) • logPy eps goal := by
        funext i; simp; ring
      have e2 : ∀ q : Vec 4, hamilton q ![1, 0, 0, 0] = q := by
        intro q; funext i; fin_cases i <;> simp [hamilton]
      exact (e2 _).trans (congrArg _ e1)
    have e3 : length ((δ ^ 2 * k) • logPy eps goal) = δ ^ 2 * k * length (logPy eps goal) := by
      rw [← norm_pure]
      have : Spec.pure ((δ ^ 2 * k) • logPy eps goal) = (δ ^ 2 * k) • Spec.pure (logPy eps goal) := by ext <;> simp
      rw [this, norm_smul, norm_pure, Real.norm_eq_abs, abs_of_pos (by positivity)]
    rw [e]
    refine truncate_eq_zero (exp_lt_one ?_ ?_ i)
    · rw [e3]; positivity
    · rw [e3]
      have : δ ^ 2 * k * length (logPy eps goal) < 1 * length (logPy eps goal) := by
        exact mul_lt_mul_of_pos_right hs hl3
      linarith
  rw [h1]
  have h2 := springDamperQuatStepTyped_zero (eps := eps) (goalY := goal) (k := k) (c := c) (coupling := none) (l := 0 + δ)
    (t := dt) hint ((0 : Vec 4), (springDamperQuatBody (QuatOps.python eps) goal k (defaultDamping c k) none none δ (0 + δ)
      (![1, 0, 0, 0], 0)).2) rfl
  unfold springDamperQuatStepTyped at h2
  simp only at h2
  by_cases h3 : dt ≤ 0 + δ
  · rw [intLoop_done _ h3]
  · rw [if_neg h3] at h2
    rw [intLoop_eq _ hint] at h2 ⊢
    exact h2

/-- **C100 (finding, `SpringDamperOrientation`).** A new object with the start orientation `np.array([1, 0, 0, 0])` and
any other goal orientation: the trajectory of `open_loop` consists of the start orientation followed by zero vectors, which
do not represent orientations. No exception is raised. -/
theorem C100_finding_orientation_zero {eps dt k intDt runT : ℝ} (heps : 0 < eps) (hdt : 0 < dt) (hint : 0 < intDt)
    (hk : 0 < k) (hs : min intDt dt ^ 2 * k < 1) (hr : 0 < runT) (c : Option ℝ) (goal : Vec 4) (hg : UnitQuat goal)
    (hg' : eps ≤ √(goal 1 ^ 2 + goal 2 ^ 2 + goal 3 ^ 2)) :
    ∃ s T Y,
      (do
        TypedSpringDamperOrientation.configure
          { startY := some (.int [1, 0, 0, 0]), goalY := some (.float (List.ofFn goal)) }
        TypedSpringDamperOrientation.openLoop (QuatOps.python eps) runT none).exec
          (TypedSpringDamperOrientation.ofSpringDamper (SpringDamperOrientation.create dt k c intDt)) =
        (.ok (T, ![1, 0, 0, 0] :: Y), s) ∧ Y ≠ [] ∧ ∀ y ∈ Y, y = 0 := by
  obtain ⟨s, hS⟩ : ∃ s : TypedSpringDamperOrientation, s =
      { TypedSpringDamperOrientation.ofSpringDamper (SpringDamperOrientation.create dt k c intDt) with
        startY := ![1, 0, 0, 0]
        goalY := goal
        types.startY := .int
        types.goalY := .float } := ⟨_, rfl⟩
  have k1 : s.dt = dt := by rw [hS]; rfl
  have k2 : s.intDt = intDt := by rw [hS]; rfl
  have k3 : s.k = k := by rw [hS]; rfl
  have k4 : s.c = c := by rw [hS]; rfl
  have k5 : s.goalY = goal := by rw [hS]
  have k6 : s.types.startY = .int := by rw [hS]
  have k7 : s.startY = ![1, 0, 0, 0] := by rw [hS]
  have hz : ∀ i, (TypedSpringDamperOrientation.state (QuatOps.python eps) none s (i + 1)).1 = 0 := by
    intro i
    induction i with
    | zero =>
      simp only [TypedSpringDamperOrientation.state, k1, k2, k3, k4, k5, k6, k7, arangeAt]
      have := springDamperQuatStepTyped_first heps hdt hint hk hs c goal hg hg'
      simpa using this
    | succ i ih =>
      rw [TypedSpringDamperOrientation.state, k6, k2]
      exact springDamperQuatStepTyped_zero hint _ ih
  have hn : 2 ≤ arangeLen 0 (runT + s.dt) s.dt := by
    unfold arangeLen
    rw [show (2 : ℕ) = 1 + 1 from rfl, Nat.add_one_le_ceil_iff, k1, lt_div_iff₀ hdt]
    push_cast
    linarith
  obtain ⟨n, hn⟩ : ∃ n, arangeLen 0 (runT + s.dt) s.dt = n + 2 := ⟨_, (Nat.sub_add_cancel hn).symm⟩
  have h := TypedSpringDamperOrientation.exec_openLoop (QuatOps.python eps) hr.le none s (by rw [k1]; exact hdt)
    (by rw [k2]; exact hint)
  rw [hn, List.range_succ_eq_map, List.map_cons, List.map_cons, List.map_map, List.map_map] at h
  refine ⟨s, arangeAt 0 s.dt 0 :: (List.range (n + 1)).map (arangeAt 0 s.dt ∘ Nat.succ), (List.range (n + 1)).map
    ((fun i => (TypedSpringDamperOrientation.state (QuatOps.python eps) none s i).1) ∘ Nat.succ), ?_, ?_, ?_⟩
  rotate_left
  · simp
  · intro y hy
    obtain ⟨i, _, rfl⟩ := List.mem_map.1 hy
    exact hz i
  · rw [Py.exec_bind, exec_configure_identity]
    simp only
    rw [← hS, h]
    simp only [TypedSpringDamperOrientation.state, k7]

/-! ## Non-vacuity -/

/-- A goal orientation as in `C100_finding_orientation_zero`: half a turn about the first axis. -/
example : UnitQuat ![0, 1, 0, 0] ∧ (1 / 10 ^ 10 : ℝ) ≤ √((![0, 1, 0, 0] : Vec 4) 1 ^ 2 + (![0, 1, 0, 0] : Vec 4) 2 ^ 2 +
    (![0, 1, 0, 0] : Vec 4) 3 ^ 2) := by
  constructor
  · simp [UnitQuat]
  · simp
    norm_num

/-- The zero vector does not represent an orientation. -/
example : ¬ UnitQuat (0 : Vec 4) := not_unitQuat_zero

/-- A new `SpringDamper` with a start position made of integers: `configure` accepts it, `open_loop` raises TypeError. -/
example : ((do
    TypedSpringDamper.configure { startY := some (.int [3]) }
    TypedSpringDamper.openLoop 1 none).exec
      (TypedSpringDamper.ofSpringDamper (SpringDamper.create 1 (1 / 100) 1 none (1 / 1000)))).1 =
    .error .typeError := by
  rw [Py.exec_bind]
  have h : (TypedSpringDamper.configure { startY := some (.int [3]) }).exec
      (TypedSpringDamper.ofSpringDamper (SpringDamper.create 1 (1 / 100) 1 none (1 / 1000))) =
      (.ok (), { TypedSpringDamper.ofSpringDamper (SpringDamper.create 1 (1 / 100) 1 none (1 / 1000)) with
        startY := fun _ => 3
        types.startY := .int }) := by
    have h1 : checkLength 1 (NumArray.int [3]).values = .ok (fun _ => 3) := by
      unfold checkLength NumArray.values
      rw [dif_pos (by simp)]
      congr 1
      funext i
      fin_cases i
      simp
    unfold TypedSpringDamper.configure
    simp only [Py.exec_bind, exec_configureTypedField, h1]
    rfl
  rw [h]
  exact congrArg Prod.fst ((C100_finding_spring_damper_integer_start none _
    (by show (0 : ℝ) < 1 / 100; norm_num)).2 rfl 1 one_pos)

end Verif
