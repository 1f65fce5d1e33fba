import Verif.Model.Dtypes
import Verif.Lemmas.DmpHistory
import Verif.Props.FinalVelocity

/-! # Lemmas about arrays of integers -/

namespace Verif
variable {d m n : ℕ}

/-- Outcome and contents of the arrays after a computation that works on copies. -/
def inPlace (s : Vec d × Vec d) : Except PyErr (Vec d × Vec d) → Except PyErr Unit × (Vec d × Vec d)
  | .error e => (.error e, s)
  | .ok r => (.ok (), r)

theorem typedResult_inPlace (s : Vec d × Vec d) (r : Except PyErr (Vec d × Vec d)) :
    typedResult (inPlace s r) = r := by
  cases r <;> rfl

namespace StepArgs

theorem stepRk4Typed_floats (a : StepArgs d m) {ty : Dtypes} (h1 : ty.currentY = .float) (h2 : ty.currentYd = .float)
    (l t : ℝ) (s : Vec d × Vec d) : a.stepRk4Typed ty l t s = inPlace s (a.stepRk4 l t s) := by
  unfold stepRk4Typed
  rw [h1, h2]
  cases a.stepRk4 l t s <;> rfl

theorem stepEulerTyped_floats (a : StepArgs d m) {ty : Dtypes} (h1 : ty.currentY = .float)
    (h2 : ty.currentYd = .float) (l t : ℝ) (s : Vec d × Vec d) :
    a.stepEulerTyped ty l t s = inPlace s (a.stepEuler l t s) := by
  unfold stepEulerTyped stepEuler
  rw [h1, h2]
  by_cases ha : a.goalT ≤ a.startT
  · rw [if_pos ha, if_pos ha]; rfl
  · rw [if_neg ha, if_neg ha]
    by_cases hb : t ≤ a.startT
    · rw [if_pos hb, if_pos hb]; rfl
    · rw [if_neg hb, if_neg hb]
      by_cases hc : t ≤ l
      · rw [if_pos hc, intLoop_done _ hc]; rfl
      · rw [if_neg hc]
        cases intLoop a.intDt t a.eulerBody l s <;> rfl

theorem fvStepTyped_floats (a : StepArgs d m) {ty : Dtypes} (h1 : ty.currentY = .float)
    (h2 : ty.currentYd = .float) (l t : ℝ) (s : Vec d × Vec d) :
    a.fvStepTyped ty l t s = inPlace s (a.fvStep l t s) := by
  unfold fvStepTyped fvStep
  rw [h1, h2]
  by_cases ha : a.goalT ≤ a.startT
  · rw [if_pos ha, if_pos ha]; rfl
  · rw [if_neg ha, if_neg ha]
    by_cases hb : t ≤ a.startT
    · rw [if_pos hb, if_pos hb]; rfl
    · rw [if_neg hb, if_neg hb]
      cases solveConstraints a.startT a.goalT a.startY a.startYd a.startYdd a.goalY a.goalYd a.goalYdd with
      | error e => rfl
      | ok c =>
        simp only [bind, Except.bind]
        by_cases hc : t ≤ l
        · rw [if_pos hc, intLoop_done _ hc]; rfl
        · rw [if_neg hc]
          cases intLoop a.intDt t (a.fvBody c) l s <;> rfl

theorem fvStepTyped_ok (a : StepArgs d m) (ty : Dtypes) {l t : ℝ} {s : Vec d × Vec d}
    (h : (a.fvStepTyped ty l t s).1 = .ok ()) : a.fvStep l t s = .ok (a.fvStepTyped ty l t s).2 := by
  by_cases hf : ty.currentY = .float ∧ ty.currentYd = .float
  · rw [fvStepTyped_floats a hf.1 hf.2] at h ⊢
    cases hr : a.fvStep l t s with
    | error e => rw [hr] at h; cases h
    | ok r => rfl
  · unfold fvStepTyped fvStep at *
    by_cases h1 : a.goalT ≤ a.startT
    · rw [if_pos h1] at h; cases h
    rw [if_neg h1] at h ⊢
    rw [if_neg h1]
    by_cases h2 : t ≤ a.startT
    · rw [if_pos h2, if_pos h2]
    rw [if_neg h2] at h ⊢
    rw [if_neg h2]
    cases hc : solveConstraints a.startT a.goalT a.startY a.startYd a.startYdd a.goalY a.goalYd a.goalYdd with
    | error e => rw [hc] at h; cases h
    | ok c =>
      rw [hc] at h
      simp only [bind, Except.bind] at h ⊢
      by_cases h3 : t ≤ l
      · rw [if_pos h3, intLoop_done _ h3]
      · rw [if_neg h3] at h
        exfalso
        revert h hf
        cases ty.currentY <;> cases ty.currentYd <;>
          cases intLoop a.intDt t (a.fvBody c) l s <;> simp

end StepArgs

theorem StepFunction.runTyped_floats (sf : StepFunction) (a : StepArgs d m) (l t : ℝ) (s : Vec d × Vec d) :
    sf.runTyped a Dtypes.floats l t s = inPlace s (sf.run a l t s) := by
  cases sf with
  | rk4 => exact a.stepRk4Typed_floats (ty := Dtypes.floats) rfl rfl l t s
  | euler => exact a.stepEulerTyped_floats (ty := Dtypes.floats) rfl rfl l t s
  | eulerCython =>
    simp only [StepFunction.runTyped, StepArgs.cythonTyped, StepFunction.run, if_true]
    cases a.stepEulerCy l t s <;> rfl
  | rk4Cython =>
    simp only [StepFunction.runTyped, StepArgs.cythonTyped, StepFunction.run, if_true]
    cases a.stepRk4Cy l t s <;> rfl

theorem StepFunction.runTyped_ok (sf : StepFunction) (a : StepArgs d m) (ty : Dtypes) {l t : ℝ} {s : Vec d × Vec d}
    (h : (sf.runTyped a ty l t s).1 = .ok ()) : sf.run a l t s = .ok (sf.runTyped a ty l t s).2 := by
  cases sf with
  | rk4 =>
    simp only [StepFunction.runTyped, StepFunction.run, StepArgs.stepRk4Typed] at h ⊢
    revert h
    cases ty.currentY <;> cases ty.currentYd <;> cases a.stepRk4 l t s <;> simp
  | euler =>
    simp only [StepFunction.runTyped, StepFunction.run, StepArgs.stepEulerTyped, StepArgs.stepEuler] at h ⊢
    split_ifs at h ⊢ with h1 h2 h3
    · rfl
    · rw [intLoop_done _ h3]
    · revert h
      cases ty.currentY <;> cases ty.currentYd <;> cases intLoop a.intDt t a.eulerBody l s <;> simp
  | eulerCython =>
    simp only [StepFunction.runTyped, StepFunction.run, StepArgs.cythonTyped] at h ⊢
    split_ifs at h ⊢
    revert h
    cases a.stepEulerCy l t s <;> simp
  | rk4Cython =>
    simp only [StepFunction.runTyped, StepFunction.run, StepArgs.cythonTyped] at h ⊢
    split_ifs at h ⊢
    revert h
    cases a.stepRk4Cy l t s <;> simp

namespace TypedDMP

/-- The object when the step function is called. -/
def beginStep (s : TypedDMP d m) : TypedDMP d m :=
  { toDMP := s.toDMP.beginStep
    types := if s.initialized then s.types else
      { s.types with
        currentY := s.types.startY
        currentYd := s.types.startYd } }

theorem exec_stepWith (run : StepArgs d m → Dtypes → ℝ → ℝ → Vec d × Vec d → Except PyErr Unit × (Vec d × Vec d))
    (c : Option (Coupling d)) (y yd : Vec d) (s : TypedDMP d m) :
    (stepWith run c y yd).exec s =
      let b := s.beginStep
      let r := run (b.toDMP.stepArgs c (b.currentY - y)) b.types s.t (s.t + s.dt) (b.currentY, b.currentYd)
      (typedResult r, { b with currentY := r.2.1, currentYd := r.2.2 }) := by
  unfold stepWith
  simp only [Py.exec_bind, Py.exec_lift, Py.exec_get, Py.exec_modify, Py.exec_pure]
  have e : (if s.initialized = true then ({ s with lastT := some s.t, t := s.t + s.dt } : TypedDMP d m) else
      { s with
        lastT := some s.t
        t := s.t + s.dt
        currentY := s.startY
        currentYd := s.startYd
        initialized := true
        types.currentY := s.types.startY
        types.currentYd := s.types.startYd }) = s.beginStep := by
    unfold beginStep DMP.beginStep
    cases s.initialized <;> simp
  rw [e]
  have hl : s.beginStep.lastT.getD 0 = s.t := rfl
  have ht : s.beginStep.t = s.t + s.dt := rfl
  simp only [hl, ht]
  generalize run (s.beginStep.stepArgs c (s.beginStep.currentY - y)) s.beginStep.types s.t (s.t + s.dt)
    (s.beginStep.currentY, s.beginStep.currentYd) = r
  obtain ⟨r, x⟩ := r
  cases r <;> rfl

theorem exec_openLoop (runT : Option ℝ) (c : Option (Coupling d)) (name : String) (s : TypedDMP d m) :
    (openLoop runT c name).exec s =
      ((StepFunction.lookup name).bind (fun sf =>
        openLoopWith s.executionTime 0 s.dt (s.startY, 0) runT
          (fun l t x => typedResult (sf.runTyped (s.toDMP.openLoopArgs c) (openLoopTypes s.types) l t x))), s) := by
  unfold openLoop
  simp only [Py.exec_bind, Py.exec_lift, Py.exec_get]
  cases StepFunction.lookup name <;> rfl

theorem exec_fvOpenLoop (runT : Option ℝ) (c : Option (Coupling d)) (s : TypedDMP d m) :
    (fvOpenLoop runT c).exec s =
      (openLoopWith s.executionTime 0 s.dt (s.startY, s.startYd) runT
          (fun l t x => typedResult ((FvDMP.openLoopArgs s.toDMP c).fvStepTyped (fvOpenLoopTypes s.types) l t x)), s) :=
  rfl

end TypedDMP

theorem loopRows_le {σ β : Type} {step step' : ℕ → σ → Except PyErr σ} {out : σ → β}
    (h : ∀ i s s', step i s = .ok s' → step' i s = .ok s') :
    ∀ (k : ℕ) (s : σ) (i : ℕ) (rows : List β), loopRows step out k s i = .ok rows →
      loopRows step' out k s i = .ok rows := by
  intro k
  induction k with
  | zero => intro s i rows hr; exact hr
  | succ k ih =>
    intro s i rows hr
    simp only [loopRows] at hr ⊢
    cases hs : step i s with
    | error e => rw [hs] at hr; cases hr
    | ok s1 =>
      rw [hs] at hr
      rw [h i s s1 hs]
      simp only [bind, Except.bind] at hr ⊢
      cases hr1 : loopRows step out k s1 (i + 1) with
      | error e => rw [hr1] at hr; cases hr
      | ok rest => rw [hr1] at hr; rw [ih s1 (i + 1) rest hr1]; exact hr

theorem openLoopWith_le {p v : ℕ} {goalT startT dt : ℝ} {start : Vec p × Vec v} {runT : Option ℝ}
    {step step' : ℝ → ℝ → Vec p × Vec v → Except PyErr (Vec p × Vec v)}
    (h : ∀ l t s s', step l t s = .ok s' → step' l t s = .ok s') {r : List ℝ × List (Vec p)}
    (hr : openLoopWith goalT startT dt start runT step = .ok r) :
    openLoopWith goalT startT dt start runT step' = .ok r := by
  unfold openLoopWith at hr ⊢
  simp only [bind, Except.bind, pure, Except.pure, throw, throwThe, MonadExceptOf.throw] at hr ⊢
  split_ifs at hr ⊢ with h1 h2
  · generalize hl : loopRows _ _ _ _ _ = x at hr
    cases x with
    | error e => cases hr
    | ok rows =>
      rw [loopRows_le (step' := fun i s => step' (arangeAt startT dt i) (arangeAt startT dt (i + 1)) s)
        (fun i s s' hs => h _ _ s s' hs) _ _ _ rows hl]
      exact hr

theorem typedResult_ok {r : Except PyErr Unit × (Vec d × Vec d)} {x : Vec d × Vec d} (h : typedResult r = .ok x) :
    r.1 = .ok () ∧ r.2 = x := by
  obtain ⟨r, y⟩ := r
  cases r with
  | error e => cases h
  | ok u => cases h; exact ⟨rfl, rfl⟩

end Verif

namespace Verif
variable {d m n : ℕ}

theorem exec_configureTypedField {σ : Type} {n : ℕ} (arg : Option NumArray) (set : Vec n → Dtype → σ → σ) (s : σ) :
    (configureTypedField arg set).exec s = match arg with
      | none => (.ok (), s)
      | some x => match checkLength n x.values with
        | .error e => (.error e, s)
        | .ok v => (.ok (), set v x.dtype s) := by
  cases arg with
  | none => rfl
  | some x =>
    simp only [configureTypedField, Py.exec_bind, Py.exec_lift]
    cases checkLength n x.values <;> rfl

/-- A method of an object with data types does the same as a method of its base class. -/
def Follows (f : Py (TypedDMP d m) Unit) (g : Py (Movement d d) Unit) : Prop :=
  ∀ s, (f.exec s).1 = (g.exec s.toMovement).1 ∧
    (f.exec s).2 = { s with toMovement := (g.exec s.toMovement).2
                            types := (f.exec s).2.types }

theorem Follows.bind {f f' : Py (TypedDMP d m) Unit} {g g' : Py (Movement d d) Unit} (h : Follows f g)
    (h' : Follows f' g') : Follows (do f; f') (do g; g') := by
  intro s
  obtain ⟨h1, h2⟩ := h s
  simp only [Py.exec_bind]
  generalize hf : f.exec s = x at *
  generalize hg : g.exec s.toMovement = y at *
  obtain ⟨r, s1⟩ := x
  obtain ⟨r', m1⟩ := y
  simp only at h1 h2
  subst h1
  cases r with
  | error e => exact ⟨rfl, h2⟩
  | ok u =>
    obtain ⟨h3, h4⟩ := h' s1
    have e : s1.toMovement = m1 := by rw [h2]
    rw [e] at h3 h4
    refine ⟨h3, ?_⟩
    simp only
    rw [h4, h2]

theorem follows_field (arg : Option NumArray) (set : Vec n → Dtype → TypedDMP d m → TypedDMP d m)
    (set' : Vec n → Movement d d → Movement d d)
    (h : ∀ v ty s, set v ty s = { s with toMovement := set' v s.toMovement
                                         types := (set v ty s).types }) :
    Follows (configureTypedField arg set) (configureField (arg.map NumArray.values) set') := by
  intro s
  rw [exec_configureTypedField]
  cases arg with
  | none => exact ⟨rfl, rfl⟩
  | some x =>
    simp only [Option.map_some, configureField, Py.exec_bind, Py.exec_lift]
    cases checkLength n x.values with
    | error e => exact ⟨rfl, rfl⟩
    | ok v => exact ⟨rfl, h v _ s⟩

theorem follows_configure (a : TypedConfigArgs) :
    Follows (TypedDMP.configure (d := d) (m := m) a) (Movement.configure a.values) := by
  have h6 := follows_field (n := d) a.goalYdd
    (fun x ty (s : TypedDMP d m) => { s with goalYdd := x, types.goalYdd := ty })
    (fun x (s : Movement d d) => { s with goalYdd := x }) (fun _ _ _ => rfl)
  have h5 := follows_field (n := d) a.goalYd
    (fun x ty (s : TypedDMP d m) => { s with goalYd := x, types.goalYd := ty })
    (fun x (s : Movement d d) => { s with goalYd := x }) (fun _ _ _ => rfl)
  have h4 := follows_field (n := d) a.goalY
    (fun x ty (s : TypedDMP d m) => { s with goalY := x, types.goalY := ty })
    (fun x (s : Movement d d) => { s with goalY := x }) (fun _ _ _ => rfl)
  have h3 := follows_field (n := d) a.startYdd
    (fun x ty (s : TypedDMP d m) => { s with startYdd := x, types.startYdd := ty })
    (fun x (s : Movement d d) => { s with startYdd := x }) (fun _ _ _ => rfl)
  have h2 := follows_field (n := d) a.startYd
    (fun x ty (s : TypedDMP d m) => { s with startYd := x, types.startYd := ty })
    (fun x (s : Movement d d) => { s with startYd := x }) (fun _ _ _ => rfl)
  have h1 := follows_field (n := d) a.startY
    (fun x ty (s : TypedDMP d m) => { s with startY := x, types.startY := ty })
    (fun x (s : Movement d d) => { s with startY := x }) (fun _ _ _ => rfl)
  have h := h1.bind (h2.bind (h3.bind (h4.bind (h5.bind h6))))
  obtain ⟨t, a1, a2, a3, a4, a5, a6⟩ := a
  cases t with
  | none => exact h
  | some t =>
    intro s
    exact h { s with t := t }

/-- The data type of an attribute after it has been configured. -/
def newType (arg : Option NumArray) (old : Dtype) : Dtype := (arg.map NumArray.dtype).getD old

theorem types_field (arg : Option NumArray) (set : Vec n → Dtype → TypedDMP d m → TypedDMP d m)
    (upd : Dtype → Dtypes → Dtypes) (f : Dtypes → Dtype) (hu : ∀ t, upd (f t) t = t)
    (h : ∀ v ty s, (set v ty s).types = upd ty s.types) (s : TypedDMP d m)
    (hok : ((configureTypedField arg set).exec s).1 = .ok ()) :
    ((configureTypedField arg set).exec s).2.types = upd (newType arg (f s.types)) s.types := by
  rw [exec_configureTypedField] at hok ⊢
  cases arg with
  | none => exact (hu _).symm
  | some x =>
    simp only at hok ⊢
    cases hx : checkLength n x.values with
    | error e => rw [hx] at hok; cases hok
    | ok v => exact h v _ s

theorem Py.exec_bind_ok {σ : Type} {f g : Py σ Unit} {s : σ} (h : ((do f; g : Py σ Unit).exec s).1 = .ok ()) :
    (f.exec s).1 = .ok () ∧ (g.exec (f.exec s).2).1 = .ok () ∧
      ((do f; g : Py σ Unit).exec s).2 = (g.exec (f.exec s).2).2 := by
  rw [Py.exec_bind] at h ⊢
  generalize f.exec s = x at h ⊢
  obtain ⟨r, s'⟩ := x
  cases r with
  | error e => cases h
  | ok u => exact ⟨rfl, h, rfl⟩

theorem configure_types (a : TypedConfigArgs) (s : TypedDMP d m) (h : ((TypedDMP.configure a).exec s).1 = .ok ()) :
    ((TypedDMP.configure a).exec s).2.types =
      { s.types with
        startY := newType a.startY s.types.startY
        startYd := newType a.startYd s.types.startYd
        startYdd := newType a.startYdd s.types.startYdd
        goalY := newType a.goalY s.types.goalY
        goalYd := newType a.goalYd s.types.goalYd
        goalYdd := newType a.goalYdd s.types.goalYdd } := by
  have key : ∃ s0 : TypedDMP d m, s0.types = s.types ∧ (TypedDMP.configure a).exec s =
      (TypedDMP.configure { a with t := none }).exec s0 := by
    obtain ⟨t, a1, a2, a3, a4, a5, a6⟩ := a
    cases t with
    | none => exact ⟨s, rfl, rfl⟩
    | some t => exact ⟨{ s with t := t }, rfl, rfl⟩
  obtain ⟨s0, e0, e⟩ := key
  rw [e] at h ⊢
  rw [← e0]
  clear e0 e
  unfold TypedDMP.configure at h ⊢
  obtain ⟨k1, h, e⟩ := Py.exec_bind_ok h
  rw [e]
  have e1 := types_field (n := d) a.startY
    (fun x ty (s : TypedDMP d m) => { s with startY := x, types.startY := ty })
    (fun ty t => { t with startY := ty }) (·.startY) (fun _ => rfl) (fun _ _ _ => rfl) s0 k1
  clear k1
  generalize (Py.exec _ s0).2 = s1 at h e1 ⊢
  clear e
  obtain ⟨k1, h, e⟩ := Py.exec_bind_ok h
  rw [e]
  have e2 := types_field (n := d) a.startYd
    (fun x ty (s : TypedDMP d m) => { s with startYd := x, types.startYd := ty })
    (fun ty t => { t with startYd := ty }) (·.startYd) (fun _ => rfl) (fun _ _ _ => rfl) s1 k1
  clear k1
  generalize (Py.exec _ s1).2 = s2 at h e2 ⊢
  clear e
  obtain ⟨k1, h, e⟩ := Py.exec_bind_ok h
  rw [e]
  have e3 := types_field (n := d) a.startYdd
    (fun x ty (s : TypedDMP d m) => { s with startYdd := x, types.startYdd := ty })
    (fun ty t => { t with startYdd := ty }) (·.startYdd) (fun _ => rfl) (fun _ _ _ => rfl) s2 k1
  clear k1
  generalize (Py.exec _ s2).2 = s3 at h e3 ⊢
  clear e
  obtain ⟨k1, h, e⟩ := Py.exec_bind_ok h
  rw [e]
  have e4 := types_field (n := d) a.goalY
    (fun x ty (s : TypedDMP d m) => { s with goalY := x, types.goalY := ty })
    (fun ty t => { t with goalY := ty }) (·.goalY) (fun _ => rfl) (fun _ _ _ => rfl) s3 k1
  clear k1
  generalize (Py.exec _ s3).2 = s4 at h e4 ⊢
  clear e
  obtain ⟨k1, h, e⟩ := Py.exec_bind_ok h
  rw [e]
  have e5 := types_field (n := d) a.goalYd
    (fun x ty (s : TypedDMP d m) => { s with goalYd := x, types.goalYd := ty })
    (fun ty t => { t with goalYd := ty }) (·.goalYd) (fun _ => rfl) (fun _ _ _ => rfl) s4 k1
  clear k1
  generalize (Py.exec _ s4).2 = s5 at h e5 ⊢
  have e6 := types_field (n := d) a.goalYdd
    (fun x ty (s : TypedDMP d m) => { s with goalYdd := x, types.goalYdd := ty })
    (fun ty t => { t with goalYdd := ty }) (·.goalYdd) (fun _ => rfl) (fun _ _ _ => rfl) s5 h
  rw [e6, e5, e4, e3, e2, e1]

end Verif
