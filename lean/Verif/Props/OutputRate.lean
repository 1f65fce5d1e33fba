import Verif.Lemmas.OutputRate
import Verif.Props.FramesFinalVelocity
import Verif.Props.SpringDamper
import Verif.Props.StateFollowing
import Verif.Props.DualClass
import Verif.Props.Rk4Order

/-! # C102: the time step with which a movement is sampled -/

namespace Verif
open Spec
variable {d m n : ℕ}

/-! ## Step functions -/

theorem euler_composes (a : StepArgs d m) (hd : 0 < a.intDt) (hg : a.startT < a.goalT) :
    Composes a.stepEuler (intResult a.intDt a.eulerBody) a.startT a.intDt :=
  .of_intLoop hd fun x y s hx hy => by
    unfold StepArgs.stepEuler
    rw [if_neg hg.not_ge, if_neg (by linarith)]

theorem eulerCy_composes (a : StepArgs d m) (hd : 0 < a.intDt) (hg : a.startT < a.goalT) :
    Composes a.stepEulerCy (intResult a.intDt a.eulerBodyCy) a.startT a.intDt :=
  .of_intLoop hd fun x y s hx hy => by
    unfold StepArgs.stepEulerCy
    rw [if_neg hg.not_ge]
    simp only [if_neg (show ¬ y ≤ a.startT by linarith)]

/-- The step functions with sub-steps. -/
def StepFunction.UsesIntDt (sf : StepFunction) : Prop := sf = .euler ∨ sf = .eulerCython

theorem run_composes {sf : StepFunction} (h : sf.UsesIntDt) (a : StepArgs d m) (hd : 0 < a.intDt) (hg : a.startT < a.goalT) :
    ∃ F, Composes (sf.run a) F a.startT a.intDt := by
  rcases h with rfl | rfl
  · exact ⟨_, euler_composes a hd hg⟩
  · exact ⟨_, eulerCy_composes a hd hg⟩

theorem fv_composes (a : StepArgs d m) (hd : 0 < a.intDt) (hg : a.startT < a.goalT) :
    ∃ F, Composes a.fvStep F a.startT a.intDt := by
  obtain ⟨c, hc, -⟩ := C29_solve_constraints hg.ne a.startY a.startYd a.startYdd a.goalY a.goalYd a.goalYdd
  refine ⟨_, .of_intLoop (upd := a.fvBody c) hd fun x y s hx hy => ?_⟩
  unfold StepArgs.fvStep
  rw [if_neg hg.not_ge, if_neg (by linarith), hc]
  rfl

theorem quat_composes (qf : QuatStepFunction) (a : QuatStepArgs m) (hd : 0 < a.intDt) (hg : a.startT < a.goalT) :
    ∃ F, Composes (qf.run a) F a.startT a.intDt := by
  cases qf with
  | python ops =>
    refine ⟨_, .of_intLoop (upd := a.bodyPy ops) hd fun x y s hx hy => ?_⟩
    show a.stepPy ops x y s = _
    unfold QuatStepArgs.stepPy
    rw [if_neg hg.not_ge, if_neg (by linarith)]
  | cython =>
    refine ⟨_, .of_intLoop (upd := a.bodyCy) hd fun x y s hx hy => ?_⟩
    show a.stepCy x y s = _
    unfold QuatStepArgs.stepCy
    simp only [if_neg (show ¬ y ≤ a.startT by linarith)]

/-! ## Trajectories -/

/-- **C102 (DMP, open_loop).** The time step does not influence the movement: with one of the Euler methods, a DMP whose
time step is a multiple of `int_dt` and the same DMP with a `K` times larger time step go through the same configurations
at the same times, for all coupling terms. -/
theorem C102_open_loop (s : DMP d m) (hτ : 0 < s.executionTime) (hi : 0 < s.intDt) {k K : ℕ} (hk : 0 < k) (hK : 0 < K)
    (hdt : s.dt = k * s.intDt) (runT : Option ℝ) (c : Option (Coupling d)) {name : String}
    (hn : name = "euler" ∨ name = "euler-cython") {r : List ℝ × List (Vec d)}
    (hr : ((DMP.openLoop runT c name).exec s).1 = .ok r) :
    ∃ r', ((DMP.openLoop runT c name).exec { s with dt := K * s.dt }).1 = .ok r' ∧ EveryKth K r r' := by
  obtain ⟨sf, hl, hsf⟩ : ∃ sf, StepFunction.lookup name = .ok sf ∧ sf.UsesIntDt := by
    rcases hn with rfl | rfl
    · exact ⟨.euler, rfl, .inl rfl⟩
    · exact ⟨.eulerCython, rfl, .inr rfl⟩
  rw [DMP.exec_openLoop, hl] at hr ⊢
  obtain ⟨F, hF⟩ := run_composes hsf (s.openLoopArgs c) hi hτ
  have hr' : openLoopWith _ _ s.dt _ _ _ = .ok r := hr
  rw [hdt] at hr'
  have := openLoop_everyKth hF hi hk hK _ _ hr'
  show ∃ r', openLoopWith _ _ (K * s.dt) _ _ _ = .ok r' ∧ _
  rw [hdt]
  exact this

/-- **C102 (DMPWithFinalVelocity, open_loop).** -/
theorem C102_fv_open_loop (s : FvDMP d m) (hτ : 0 < s.executionTime) (hi : 0 < s.intDt) {k K : ℕ} (hk : 0 < k) (hK : 0 < K)
    (hdt : s.dt = k * s.intDt) (runT : Option ℝ) (c : Option (Coupling d)) {r : List ℝ × List (Vec d)}
    (hr : ((FvDMP.openLoop runT c).exec s).1 = .ok r) :
    ∃ r', ((FvDMP.openLoop runT c).exec { s with dt := K * s.dt }).1 = .ok r' ∧ EveryKth K r r' := by
  rw [FvDMP.exec_openLoop] at hr ⊢
  obtain ⟨F, hF⟩ := fv_composes (FvDMP.openLoopArgs s c) hi hτ
  rw [hdt] at hr
  have := openLoop_everyKth hF hi hk hK _ _ hr
  show ∃ r', openLoopWith _ _ (K * s.dt) _ _ _ = .ok r' ∧ _
  rw [hdt]
  exact this

/-- **C102 (CartesianDMP, open_loop).** -/
theorem C102_cartesian_open_loop (s : CartesianDMP m) (hτ : 0 < s.executionTime) (hi : 0 < s.intDt) {k K : ℕ} (hk : 0 < k)
    (hK : 0 < K) (hdt : s.dt = k * s.intDt) (ops : QuatOps) (runT : Option ℝ) (c : Option PoseCoupling) {name qname : String}
    (hn : name = "euler" ∨ name = "euler-cython") {r : List ℝ × List (Vec (3 + 4))}
    (hr : ((CartesianDMP.openLoop ops runT c name qname).exec s).1 = .ok r) :
    ∃ r', ((CartesianDMP.openLoop ops runT c name qname).exec { s with dt := K * s.dt }).1 = .ok r' ∧ EveryKth K r r' := by
  obtain ⟨sf, hl, hsf⟩ : ∃ sf, StepFunction.lookup name = .ok sf ∧ sf.UsesIntDt := by
    rcases hn with rfl | rfl
    · exact ⟨.euler, rfl, .inl rfl⟩
    · exact ⟨.eulerCython, rfl, .inr rfl⟩
  rw [CartesianDMP.exec_openLoop, hl] at hr ⊢
  simp only [Except.bind] at hr ⊢
  cases hp : dmpOpenLoop (s.posOpenLoopArgs c) s.dt runT sf with
  | error e => rw [hp] at hr; cases hr
  | ok p =>
    simp only [hp] at hr
    cases hq : QuatStepFunction.lookup ops qname with
    | error e => rw [hq] at hr; cases hr
    | ok qf =>
      simp only [hq] at hr
      cases ho : openLoopWith s.executionTime 0 s.dt (sliceFrom s.startY, (0 : Vec 3)) runT (qf.run (s.rotOpenLoopArgs c)) with
      | error e => rw [ho] at hr; cases hr
      | ok o =>
        simp only [ho] at hr
        obtain ⟨F, hF⟩ := run_composes hsf (s.posOpenLoopArgs c) hi hτ
        obtain ⟨G, hG⟩ := quat_composes qf (s.rotOpenLoopArgs c) hi hτ
        have hp1 : openLoopWith _ _ s.dt _ _ _ = .ok p := hp
        have ho1 := ho
        rw [hdt] at hp1 ho1
        obtain ⟨p', hp', hpk⟩ := openLoop_everyKth hF hi hk hK _ _ hp1
        obtain ⟨o', ho', hok⟩ := openLoop_everyKth hG hi hk hK _ _ ho1
        have lp := openLoopWith_lengths hp1
        have lo := openLoopWith_lengths ho1
        have lp' := openLoopWith_lengths hp'
        have lo' := openLoopWith_lengths ho'
        have e1 : p.2.length = o.2.length := lp.2.trans lo.2.symm
        have e2 : p'.2.length = o'.2.length := lp'.2.trans lo'.2.symm
        rw [if_neg (not_not.2 e1)] at hr
        obtain rfl := Except.ok.inj hr
        have hp2 : dmpOpenLoop (CartesianDMP.posOpenLoopArgs { s with dt := K * s.dt } c) (K * s.dt) runT sf = .ok p' := by
          rw [hdt]; exact hp'
        have ho2 : openLoopWith s.executionTime 0 (K * s.dt) (sliceFrom s.startY, (0 : Vec 3)) runT
            (qf.run (CartesianDMP.rotOpenLoopArgs { s with dt := K * s.dt } c)) = .ok o' := by
          rw [hdt]; exact ho'
        refine ⟨(p'.1, List.zipWith hstack p'.2 o'.2), ?_, ?_⟩
        · simp only [hp2, ho2, e2, ne_eq, not_true, if_false]
        · intro i hi'
          obtain ⟨a1, a2, a3, a4, a5⟩ := hpk i hi'
          obtain ⟨b1, b2, b3, b4, b5⟩ := hok i (by rw [show o.1.length = p.1.length from lo.1.trans lp.1.symm]; exact hi')
          refine ⟨by simp only [List.length_zipWith]; omega, a2, by simp only [List.length_zipWith]; omega, a4, ?_⟩
          simp only [List.getElem_zipWith, a5, b5]

/-- **C102 (SpringDamper, open_loop).** -/
theorem C102_spring_damper_open_loop (s : SpringDamper d) (hi : 0 < s.intDt) {k K : ℕ} (hk : 0 < k) (hK : 0 < K)
    (hdt : s.dt = k * s.intDt) (runT : ℝ) (c : Option (Coupling d)) {r : List ℝ × List (Vec d)}
    (hr : ((SpringDamper.openLoop runT c).exec s).1 = .ok r) :
    ∃ r', ((SpringDamper.openLoop runT c).exec { s with dt := K * s.dt }).1 = .ok r' ∧ EveryKth K r r' := by
  have hr' : openLoopWith _ _ s.dt _ _ _ = .ok r := hr
  rw [hdt] at hr'
  have := openLoop_everyKth (.of_intLoop hi fun _ _ _ _ _ => rfl) hi hk hK _ _ hr'
  show ∃ r', openLoopWith _ _ (K * s.dt) _ _ _ = .ok r' ∧ _
  rw [hdt]
  exact this

/-- **C102 (SpringDamperOrientation, open_loop).** -/
theorem C102_spring_damper_orientation_open_loop (s : SpringDamperOrientation) (hi : 0 < s.intDt) {k K : ℕ} (hk : 0 < k)
    (hK : 0 < K) (hdt : s.dt = k * s.intDt) (ops : QuatOps) (runT : ℝ) (c : Option RotCoupling) {r : List ℝ × List (Vec 4)}
    (hr : ((SpringDamperOrientation.openLoop ops runT c).exec s).1 = .ok r) :
    ∃ r', ((SpringDamperOrientation.openLoop ops runT c).exec { s with dt := K * s.dt }).1 = .ok r' ∧ EveryKth K r r' := by
  have hr' : openLoopWith _ _ s.dt _ _ _ = .ok r := hr
  rw [hdt] at hr'
  have := openLoop_everyKth (.of_intLoop hi fun _ _ _ _ _ => rfl) hi hk hK _ _ hr'
  show ∃ r', openLoopWith _ _ (K * s.dt) _ _ _ = .ok r' ∧ _
  rw [hdt]
  exact this

/-! ## Steps -/

/-- **C102 (DMP, step).** `K` calls of `step`, each one with the results of the previous one, and one call of `step` of the
same DMP with a `K` times larger time step end in the same state. -/
theorem C102_step (s : DMP d m) (hτ : 0 < s.executionTime) (hi : 0 < s.intDt) (ht : 0 ≤ s.t) {k K : ℕ} (hk : 0 < k)
    (hK : 0 < K) (hdt : s.dt = k * s.intDt) (c : Option (Coupling d)) {sf : StepFunction} (hsf : sf.UsesIntDt)
    {y yd : Vec d} (hy : (y, yd) = if s.initialized then (s.currentY, s.currentYd) else (s.startY, s.startYd)) :
    ∃ rows r s₁ s₂, (fedBack (DMP.step c sf) K y yd).exec s = (.ok rows, s₁) ∧
      (DMP.step c sf y yd).exec { s with dt := K * s.dt } = (.ok r, s₂) ∧ rows.getLast? = some r ∧
      s₁ = { s₂ with dt := s.dt, lastT := s₁.lastT } := by
  obtain ⟨F, hF⟩ := run_composes hsf (s.stepArgs c 0) hi hτ
  have hpos : 0 < s.dt := hdt ▸ mul_pos (Nat.cast_pos.2 hk) hi
  have hKpos : 0 < K * s.dt := mul_pos (Nat.cast_pos.2 hK) hpos
  have hy1 : (if s.initialized then s.currentY else s.startY) = y := by
    have := congrArg Prod.fst hy
    cases h : s.initialized <;> simp_all
  have hy2 : (if s.initialized then s.currentYd else s.startYd) = yd := by
    have := congrArg Prod.snd hy
    cases h : s.initialized <;> simp_all
  obtain ⟨rows, r, lt, h1, h2, h3⟩ := long_step (P := fun _ => True)
    (obj := fun t lt x => { s with t := t, lastT := lt, currentY := x.1, currentYd := x.2, initialized := true })
    (obj' := fun t lt x => { s with dt := K * s.dt, t := t, lastT := lt, currentY := x.1, currentYd := x.2,
                                    initialized := true })
    (step := DMP.step c sf) (s := s) (s' := { s with dt := K * s.dt }) (y := y) (yd := yd) (lt := s.lastT) (t := s.t)
    hF hi hk hK hdt (fun _ _ _ _ => trivial)
    (fun t lt x htx _ => by
      have e := hF.ok t (t + s.dt) x htx (by linarith)
      rw [DMP.exec_step]
      simp only [DMP.beginStep, if_true, sub_self]
      erw [e]
      rfl)
    (by
      rw [DMP.exec_step, DMP.exec_step]
      simp only [DMP.beginStep, if_true, hy1, hy2])
    (by
      have e := hF.ok s.t (s.t + K * s.dt) (y, yd) ht (by linarith)
      rw [DMP.exec_step]
      simp only [DMP.beginStep, hy1, hy2, sub_self]
      erw [e]
      rfl) ht trivial
  exact ⟨rows, r, _, _, h1, h2, h3, rfl⟩

/-- **C102 (DMPWithFinalVelocity, step).** -/
theorem C102_fv_step (s : FvDMP d m) (hτ : 0 < s.executionTime) (hi : 0 < s.intDt) (ht : 0 ≤ s.t) {k K : ℕ} (hk : 0 < k)
    (hK : 0 < K) (hdt : s.dt = k * s.intDt) (c : Option (Coupling d))
    {y yd : Vec d} (hy : (y, yd) = if s.initialized then (s.currentY, s.currentYd) else (s.startY, s.startYd)) :
    ∃ (rows : _) (r : _) (s₁ s₂ : FvDMP d m), (fedBack (FvDMP.step c) K y yd).exec s = (.ok rows, s₁) ∧
      (FvDMP.step c y yd).exec { s with dt := K * s.dt } = (.ok r, s₂) ∧ rows.getLast? = some r ∧
      s₁ = { s₂ with dt := s.dt, lastT := s₁.lastT } := by
  obtain ⟨F, hF⟩ := fv_composes (DMP.stepArgs s c 0) hi hτ
  have hpos : 0 < s.dt := hdt ▸ mul_pos (Nat.cast_pos.2 hk) hi
  have hKpos : 0 < K * s.dt := mul_pos (Nat.cast_pos.2 hK) hpos
  have hy1 : (if s.initialized then s.currentY else s.startY) = y := by
    have := congrArg Prod.fst hy
    cases h : s.initialized <;> simp_all
  have hy2 : (if s.initialized then s.currentYd else s.startYd) = yd := by
    have := congrArg Prod.snd hy
    cases h : s.initialized <;> simp_all
  obtain ⟨rows, r, lt, h1, h2, h3⟩ := long_step (P := fun _ => True)
    (obj := fun t lt x => ({ s with
      t := t
      lastT := lt
      currentY := x.1
      currentYd := x.2
      initialized := true } : FvDMP d m))
    (obj' := fun t lt x => ({ s with
      dt := K * s.dt
      t := t
      lastT := lt
      currentY := x.1
      currentYd := x.2
      initialized := true } : FvDMP d m))
    (step := FvDMP.step c) (s := s) (s' := ({ s with dt := K * s.dt } : FvDMP d m)) (y := y) (yd := yd) (lt := s.lastT) (t := s.t)
    hF hi hk hK hdt (fun _ _ _ _ => trivial)
    (fun t lt x htx _ => by
      have e := hF.ok t (t + s.dt) x htx (by linarith)
      rw [FvDMP.exec_step]
      simp only [DMP.beginStep, if_true, sub_self]
      erw [e])
    (by
      rw [FvDMP.exec_step, FvDMP.exec_step]
      simp only [DMP.beginStep, if_true, hy1, hy2])
    (by
      have e := hF.ok s.t (s.t + K * s.dt) (y, yd) ht (by linarith)
      rw [FvDMP.exec_step]
      simp only [DMP.beginStep, hy1, hy2, sub_self]
      erw [e]) ht trivial
  exact ⟨rows, r, _, _, h1, h2, h3, rfl⟩

theorem Composes.hstack {stepP : ℝ → ℝ → Vec 3 × Vec 3 → Except PyErr (Vec 3 × Vec 3)}
    {stepQ : ℝ → ℝ → Vec 4 × Vec 3 → Except PyErr (Vec 4 × Vec 3)} {F : ℝ → ℝ → Vec 3 × Vec 3 → Vec 3 × Vec 3}
    {G : ℝ → ℝ → Vec 4 × Vec 3 → Vec 4 × Vec 3} {t0 h : ℝ} (hF : Composes stepP F t0 h) (hG : Composes stepQ G t0 h) :
    Composes (fun a b x => .ok (Verif.hstack (F a b (sliceTo x.1, sliceTo x.2)).1 (G a b (sliceFrom x.1, sliceFrom x.2)).1,
        Verif.hstack (F a b (sliceTo x.1, sliceTo x.2)).2 (G a b (sliceFrom x.1, sliceFrom x.2)).2))
      (fun a b (x : Vec (3 + 4) × Vec (3 + 3)) =>
        (Verif.hstack (F a b (sliceTo x.1, sliceTo x.2)).1 (G a b (sliceFrom x.1, sliceFrom x.2)).1,
        Verif.hstack (F a b (sliceTo x.1, sliceTo x.2)).2 (G a b (sliceFrom x.1, sliceFrom x.2)).2)) t0 h where
  ok _ _ _ _ _ := rfl
  comp a j c s ha hj hc := by
    simp only [sliceTo_hstack, sliceFrom_hstack, Prod.mk.eta, ← hF.comp a j c _ ha hj hc, ← hG.comp a j c _ ha hj hc]

/-- **C102 (CartesianDMP, step).** -/
theorem C102_cartesian_step (s : CartesianDMP m) (hτ : 0 < s.executionTime) (hi : 0 < s.intDt) (ht : 0 ≤ s.t) {k K : ℕ}
    (hk : 0 < k) (hK : 0 < K) (hdt : s.dt = k * s.intDt) (c : Option PoseCoupling) {sf : StepFunction} (hsf : sf.UsesIntDt)
    (qf : QuatStepFunction) (y : Vec (3 + 4)) (yd : Vec (3 + 3)) :
    ∃ rows r s₁ s₂, (fedBack (CartesianDMP.step c sf qf) K y yd).exec s = (.ok rows, s₁) ∧
      (CartesianDMP.step c sf qf y yd).exec { s with dt := K * s.dt } = (.ok r, s₂) ∧ rows.getLast? = some r ∧
      s₁ = { s₂ with dt := s.dt, lastT := s₁.lastT } := by
  obtain ⟨F, hF⟩ := run_composes hsf (s.posArgs c) hi hτ
  obtain ⟨G, hG⟩ := quat_composes qf (s.rotArgs c) hi hτ
  have hpos : 0 < s.dt := hdt ▸ mul_pos (Nat.cast_pos.2 hk) hi
  have hKpos : 0 < K * s.dt := mul_pos (Nat.cast_pos.2 hK) hpos
  obtain ⟨rows, r, lt, h1, h2, h3⟩ := long_step (P := fun _ => True)
    (obj := fun t lt x => { s with t := t, lastT := lt, currentY := x.1, currentYd := x.2 })
    (obj' := fun t lt x => { s with dt := K * s.dt, t := t, lastT := lt, currentY := x.1, currentYd := x.2 })
    (step := CartesianDMP.step c sf qf) (s := s) (s' := { s with dt := K * s.dt }) (y := y) (yd := yd) (lt := s.lastT)
    (t := s.t) (hF.hstack hG) hi hk hK hdt (fun _ _ _ _ => trivial)
    (fun t lt x htx _ => by
      have e := hF.ok t (t + s.dt) (sliceTo x.1, sliceTo x.2) htx (by linarith)
      have e' := hG.ok t (t + s.dt) (sliceFrom x.1, sliceFrom x.2) htx (by linarith)
      rw [CartesianDMP.exec_step]
      erw [e]
      simp only [CartesianDMP.beginStep]
      erw [e'])
    (by rw [CartesianDMP.exec_step, CartesianDMP.exec_step]; rfl)
    (by
      have e := hF.ok s.t (s.t + K * s.dt) (sliceTo y, sliceTo yd) ht (by linarith)
      have e' := hG.ok s.t (s.t + K * s.dt) (sliceFrom y, sliceFrom yd) ht (by linarith)
      rw [CartesianDMP.exec_step]
      erw [e]
      simp only [CartesianDMP.beginStep]
      erw [e']) ht trivial
  exact ⟨rows, r, _, _, h1, h2, h3, rfl⟩

/-- **C102 (SpringDamper, step).** -/
theorem C102_spring_damper_step (s : SpringDamper d) (hi : 0 < s.intDt) {k K : ℕ} (hk : 0 < k) (hK : 0 < K)
    (hdt : s.dt = k * s.intDt) (c : Option (Coupling d)) (y yd : Vec d) :
    ∃ rows r s₁ s₂, (fedBack (SpringDamper.step c) K y yd).exec s = (.ok rows, s₁) ∧
      (SpringDamper.step c y yd).exec { s with dt := K * s.dt } = (.ok r, s₂) ∧ rows.getLast? = some r ∧
      s₁ = { s₂ with dt := s.dt, lastT := s₁.lastT } := by
  have hF : Composes (springDamperStep s.goalY s.k s.c c none s.intDt) _ s.t s.intDt :=
    .of_intLoop hi fun _ _ _ _ _ => rfl
  have hpos : 0 < s.dt := hdt ▸ mul_pos (Nat.cast_pos.2 hk) hi
  have hKpos : 0 < K * s.dt := mul_pos (Nat.cast_pos.2 hK) hpos
  obtain ⟨rows, r, lt, h1, h2, h3⟩ := long_step (P := fun _ => True)
    (obj := fun t lt x => { s with t := t, lastT := lt, currentY := x.1, currentYd := x.2, initialized := true })
    (obj' := fun t lt x => { s with dt := K * s.dt, t := t, lastT := lt, currentY := x.1, currentYd := x.2,
                                    initialized := true })
    (step := SpringDamper.step c) (s := s) (s' := { s with dt := K * s.dt }) (y := y) (yd := yd) (lt := s.lastT)
    (t := s.t) hF hi hk hK hdt (fun _ _ _ _ => trivial)
    (fun t lt x htx _ => by
      have e := hF.ok t (t + s.dt) x htx (by linarith)
      rw [SpringDamper.exec_step]
      simp only [e, SpringDamper.beginStep])
    (by rw [SpringDamper.exec_step, SpringDamper.exec_step]; rfl)
    (by
      have e := hF.ok s.t (s.t + K * s.dt) (y, yd) le_rfl (by linarith)
      rw [SpringDamper.exec_step]
      simp only [e, SpringDamper.beginStep]) le_rfl trivial
  exact ⟨rows, r, _, _, h1, h2, h3, rfl⟩

/-- **C102 (SpringDamperOrientation, step).** -/
theorem C102_spring_damper_orientation_step (s : SpringDamperOrientation) (hi : 0 < s.intDt) {k K : ℕ} (hk : 0 < k)
    (hK : 0 < K) (hdt : s.dt = k * s.intDt) (ops : QuatOps) (c : Option RotCoupling) (y : Vec 4) (yd : Vec 3) :
    ∃ rows r s₁ s₂, (fedBack (SpringDamperOrientation.step ops c) K y yd).exec s = (.ok rows, s₁) ∧
      (SpringDamperOrientation.step ops c y yd).exec { s with dt := K * s.dt } = (.ok r, s₂) ∧ rows.getLast? = some r ∧
      s₁ = { s₂ with dt := s.dt, lastT := s₁.lastT } := by
  have hF : Composes (springDamperQuatStep ops s.goalY s.k s.c c none s.intDt) _ s.t s.intDt :=
    .of_intLoop hi fun _ _ _ _ _ => rfl
  have hpos : 0 < s.dt := hdt ▸ mul_pos (Nat.cast_pos.2 hk) hi
  have hKpos : 0 < K * s.dt := mul_pos (Nat.cast_pos.2 hK) hpos
  obtain ⟨rows, r, lt, h1, h2, h3⟩ := long_step (P := fun _ => True)
    (obj := fun t lt x => { s with t := t, lastT := lt, currentY := x.1, currentYd := x.2, initialized := true })
    (obj' := fun t lt x => { s with dt := K * s.dt, t := t, lastT := lt, currentY := x.1, currentYd := x.2,
                                    initialized := true })
    (step := SpringDamperOrientation.step ops c) (s := s) (s' := { s with dt := K * s.dt }) (y := y) (yd := yd)
    (lt := s.lastT) (t := s.t) hF hi hk hK hdt (fun _ _ _ _ => trivial)
    (fun t lt x htx _ => by
      have e := hF.ok t (t + s.dt) x htx (by linarith)
      rw [SpringDamperOrientation.exec_step]
      simp only [e, SpringDamperOrientation.beginStep])
    (by rw [SpringDamperOrientation.exec_step, SpringDamperOrientation.exec_step]; rfl)
    (by
      have e := hF.ok s.t (s.t + K * s.dt) (y, yd) le_rfl (by linarith)
      rw [SpringDamperOrientation.exec_step]
      simp only [e, SpringDamperOrientation.beginStep]) le_rfl trivial
  exact ⟨rows, r, _, _, h1, h2, h3, rfl⟩

/-- **C102 (StateFollowingDMP, step).** -/
theorem C102_state_following_step (s : StateFollowingDMP d n) (hτ : 0 < s.executionTime) (hi : 0 < s.intDt) (ht : 0 ≤ s.t)
    {k K : ℕ} (hk : 0 < k) (hK : 0 < K) (hdt : s.dt = k * s.intDt) (c : Option (Coupling d)) (y yd : Vec d) :
    ∃ rows r s₁ s₂, (fedBack (StateFollowingDMP.step c) K y yd).exec s = (.ok rows, s₁) ∧
      (StateFollowingDMP.step c y yd).exec { s with dt := K * s.dt } = (.ok r, s₂) ∧ rows.getLast? = some r ∧
      s₁ = { s₂ with dt := s.dt, lastT := s₁.lastT } := by
  have hF : Composes (s.args c).step _ 0 s.intDt :=
    .of_intLoop (upd := (s.args c).body) hi fun a b x ha hb => by
      unfold StateFollowingArgs.step
      rw [if_neg (show ¬ (s.args c).goalT ≤ (s.args c).startT from hτ.not_ge),
        if_neg (show ¬ b ≤ (s.args c).startT from (ha.trans_lt hb).not_ge)]
      rfl
  have hpos : 0 < s.dt := hdt ▸ mul_pos (Nat.cast_pos.2 hk) hi
  have hKpos : 0 < K * s.dt := mul_pos (Nat.cast_pos.2 hK) hpos
  obtain ⟨rows, r, lt, h1, h2, h3⟩ := long_step (P := fun _ => True)
    (obj := fun t lt x => { s with t := t, lastT := lt, currentY := x.1, currentYd := x.2 })
    (obj' := fun t lt x => { s with dt := K * s.dt, t := t, lastT := lt, currentY := x.1, currentYd := x.2 })
    (step := StateFollowingDMP.step c) (s := s) (s' := { s with dt := K * s.dt }) (y := y) (yd := yd) (lt := s.lastT)
    (t := s.t) hF hi hk hK hdt (fun _ _ _ _ => trivial)
    (fun t lt x htx _ => by
      have e := hF.ok t (t + s.dt) x htx (by linarith)
      rw [StateFollowingDMP.exec_step]
      erw [e])
    (by rw [StateFollowingDMP.exec_step, StateFollowingDMP.exec_step]; rfl)
    (by
      have e := hF.ok s.t (s.t + K * s.dt) (y, yd) ht (by linarith)
      rw [StateFollowingDMP.exec_step]
      erw [e]) ht trivial
  exact ⟨rows, r, _, _, h1, h2, h3, rfl⟩

/-! ## Loops that call the step function themselves -/

theorem StateFollowingArgs.openLoop_eq {a : StateFollowingArgs d n} {F : ℝ → ℝ → Vec d × Vec d → Vec d × Vec d} {h : ℝ}
    (hF : Composes a.step F a.startT h) {dt : ℝ} (hdt : 0 < dt) (runT : Option ℝ) :
    a.openLoop dt runT = .ok (sampled F a.startT dt (a.startY, 0) (loopCount a.startT (runT.getD a.goalT) dt)) := by
  unfold StateFollowingArgs.openLoop
  have key := Py.while_seq (cond := fun l : Locals d => l.t < runT.getD a.goalT) (body := a.openLoopBody dt)
    (xs := fun _ => ()) (os := fun i => ({ t := a.startT + i * dt
                                           s := iterates F a.startT dt (a.startY, 0) i
                                           T := (sampled F a.startT dt (a.startY, 0) i).1
                                           Y := (sampled F a.startT dt (a.startY, 0) i).2 } : Locals d))
    (N := loopCount a.startT (runT.getD a.goalT) dt)
    (fun i => by
      have e := hF.ok (a.startT + i * dt) (a.startT + i * dt + dt) (iterates F a.startT dt (a.startY, 0) i)
        (by have : 0 ≤ (i : ℝ) * dt := by positivity
            linarith) (by linarith)
      have e2 : a.startT + i * dt + dt = a.startT + (i + 1 : ℕ) * dt := by push_cast; ring
      unfold StateFollowingArgs.openLoopBody
      simp only [Py.exec_bind, Py.exec_get, Py.exec_modify, Py.exec_lift, e]
      rw [e2]
      simp only [sampled_succ, iterates])
    (fun i => loopCount_lt hdt)
  have e0 : ({ t := a.startT, s := (a.startY, 0), T := [a.startT], Y := [a.startY] } : Locals d) =
      { t := a.startT + (0 : ℕ) * dt
        s := iterates F a.startT dt (a.startY, 0) 0
        T := (sampled F a.startT dt (a.startY, 0) 0).1
        Y := (sampled F a.startT dt (a.startY, 0) 0).2 } := by
    simp [sampled, iterates]
  rw [e0]
  simp only [key, Except.map]

/-- **C102 (StateFollowingDMP, open_loop).** -/
theorem C102_state_following_open_loop (s : StateFollowingDMP d n) (hτ : 0 < s.executionTime) (hi : 0 < s.intDt) {k K : ℕ}
    (hk : 0 < k) (hK : 0 < K) (hdt : s.dt = k * s.intDt) (runT : Option ℝ) (c : Option (Coupling d)) :
    ∃ r r', s.openLoop runT c = .ok r ∧ ({ s with dt := K * s.dt } : StateFollowingDMP d n).openLoop runT c = .ok r' ∧
      EveryKth K r r' := by
  set a : StateFollowingArgs d n := { s.args c with goalYd := 0, goalYdd := 0, startYd := 0, startYdd := 0 } with ha
  have hF : Composes a.step _ a.startT s.intDt :=
    .of_intLoop (upd := a.body) hi fun x y z hx hy => by
      unfold StateFollowingArgs.step
      rw [if_neg (show ¬ a.goalT ≤ a.startT from hτ.not_ge), if_neg (show ¬ y ≤ a.startT from (hx.trans_lt hy).not_ge)]
      rfl
  have hpos : 0 < s.dt := hdt ▸ mul_pos (Nat.cast_pos.2 hk) hi
  have hKpos : 0 < K * s.dt := mul_pos (Nat.cast_pos.2 hK) hpos
  refine ⟨_, _, StateFollowingArgs.openLoop_eq hF hpos runT, StateFollowingArgs.openLoop_eq (a := a) hF hKpos runT, ?_⟩
  rw [hdt]
  exact sampled_everyKth hF hi hk hK _ _

/-! ## Two arms -/

namespace DualStepArgs

/-- Body of the loop without correction. -/
noncomputable def bodyFree (a : DualStepArgs m) (ops : QuatOps) (dt t : ℝ) (s : Vec 14 × Vec 12) : Vec 14 × Vec 12 :=
  let c : Vec 12 × Vec 12 := match a.coupling with
    | some c => c s.1 s.2
    | none => (0, 0)
  a.update ops c.1 c.2 dt t s

end DualStepArgs

theorem DualStepFunction.run_free (sf : DualStepFunction) (a : DualStepArgs m) (h : ∀ dt, a.correction sf.ops dt = 0)
    {lastT t : ℝ} (ht : a.startT < t) (s : Vec 14 × Vec 12) :
    sf.run a lastT t s = intLoop a.intDt t (a.bodyFree sf.ops) lastT s := by
  cases sf with
  | cython =>
    simp only [DualStepFunction.run, DualStepArgs.stepCy, if_neg ht.not_ge]
    congr 1
    funext dt t s
    unfold DualStepArgs.bodyCy DualStepArgs.bodyFree
    simp only [show a.correction QuatOps.cython dt = 0 from h dt, add_zero]
    rfl
  | python ops =>
    simp only [DualStepFunction.run, DualStepArgs.stepPy, if_neg ht.not_ge]
    rcases intLoop_rel (upd := a.bodyPy ops) (upd' := a.bodyFree ops) (intDt := a.intDt) (t := t)
      (fun x y => x.1 = y ∧ (a.coupling = none → x.2 = (0, 0)))
      (by
        rintro dt ct ⟨x, z⟩ y ⟨rfl, hx⟩
        unfold DualStepArgs.bodyPy DualStepArgs.bodyFree
        simp only [show a.correction ops dt = 0 from h dt, add_zero]
        cases hc : a.coupling with
        | some c => exact ⟨rfl, fun h => by cases h⟩
        | none =>
          have := hx hc
          simp only at this
          subst this
          exact ⟨rfl, fun _ => rfl⟩) lastT (s := (s, (0, 0))) (s' := s) ⟨rfl, fun _ => rfl⟩ with ⟨h1, h2⟩ | ⟨x, y, h1, h2, rfl, -⟩
    · rw [h1]; exact h2.symm
    · rw [h1]; exact h2.symm

/-- The calls of the step function do not depend on gain and tracking error if they cause no correction. -/
theorem DualCartesianDMP.run_eq (s : DualCartesianDMP m) (c : Option DualCoupling) (sf : DualStepFunction) (e : Vec 14)
    (h : ∀ dt, (s.stepArgs c e).correction sf.ops dt = 0) {lastT t : ℝ} (ht : 0 < t) (x : Vec 14 × Vec 12) :
    sf.run (s.stepArgs c e) lastT t x = intLoop s.intDt t ((s.stepArgs c 0).bodyFree sf.ops) lastT x :=
  sf.run_free (s.stepArgs c e) h ht x

theorem DualCartesianDMP.composes (s : DualCartesianDMP m) (hi : 0 < s.intDt) (c : Option DualCoupling) (sf : DualStepFunction) :
    Composes (fun lastT t x => intLoop s.intDt t ((s.stepArgs c 0).bodyFree sf.ops) lastT x)
      (intResult s.intDt ((s.stepArgs c 0).bodyFree sf.ops)) 0 s.intDt :=
  .of_intLoop hi fun _ _ _ _ _ => rfl

theorem DualCartesianDMP.exec_step_free (s : DualCartesianDMP m) (hi : 0 < s.intDt) {ops : QuatOps} (c : Option DualCoupling)
    (sf : DualStepFunction) (x : Vec 14 × Vec 12)
    (h : ∀ dt, (s.stepArgs c (trackingError ops s.reference x.1)).correction sf.ops dt = 0) (ht : 0 ≤ s.t) (hdt : 0 < s.dt) :
    (DualCartesianDMP.step ops c sf x.1 x.2).exec s =
      (.ok (intResult s.intDt ((s.stepArgs c 0).bodyFree sf.ops) s.t (s.t + s.dt) x),
        s.stepped (intResult s.intDt ((s.stepArgs c 0).bodyFree sf.ops) s.t (s.t + s.dt) x).1
          (intResult s.intDt ((s.stepArgs c 0).bodyFree sf.ops) s.t (s.t + s.dt) x).2) := by
  have e := (s.composes hi c sf).ok s.t (s.t + s.dt) x ht (by linarith)
  rw [DualCartesianDMP.exec_step, DualCartesianDMP.run_eq s _ _ _ h (by linarith), Prod.mk.eta, e]

theorem foldl_inv {X Y : Type} {P : X → Prop} {f : X → Y → X} (hf : ∀ x y, P x → P (f x y)) : ∀ (L : List Y) (x : X), P x →
    P (L.foldl f x)
  | [], _, h => h
  | y :: L, x, h => foldl_inv hf L _ (hf x y h)

/-- **C102 (DualCartesianDMP, step).** The states are passed back to `step`, and there is no `p_gain`, or the first passed
configuration is the one the DMP expects. -/
theorem C102_dual_step (s : DualCartesianDMP m) (hi : 0 < s.intDt) (ht : 0 ≤ s.t) {k K : ℕ} (hk : 0 < k) (hK : 0 < K)
    (hdt : s.dt = k * s.intDt) {ops : QuatOps} (c : Option DualCoupling) (sf : DualStepFunction) {y : Vec 14} (yd : Vec 12)
    (hp : s.pGain = 0 ∨ ((∃ eps, LawfulQuatOps ops eps) ∧ LawfulDualStep sf ∧
      (y = if s.initialized then s.currentY else s.startY) ∧ ∀ arm, UnitQuat (armOrientation arm y))) :
    ∃ rows r s₁ s₂, (fedBack (DualCartesianDMP.step ops c sf) K y yd).exec s = (.ok rows, s₁) ∧
      (DualCartesianDMP.step ops c sf y yd).exec { s with dt := K * s.dt } = (.ok r, s₂) ∧ rows.getLast? = some r ∧
      s₁ = { s₂ with dt := s.dt, lastT := s₁.lastT } := by
  have hF := s.composes hi c sf
  have hpos : 0 < s.dt := hdt ▸ mul_pos (Nat.cast_pos.2 hk) hi
  have hKpos : 0 < K * s.dt := mul_pos (Nat.cast_pos.2 hK) hpos
  let P : Vec 14 × Vec 12 → Prop := fun x =>
    s.pGain = 0 ∨ ((∃ eps, LawfulQuatOps ops eps) ∧ LawfulDualStep sf ∧ ∀ arm, UnitQuat (armRot arm x.1))
  have hPF : ∀ a b x, P x → P (intResult s.intDt ((s.stepArgs c 0).bodyFree sf.ops) a b x) := by
    rintro a b x (h | ⟨h1, h2, h3⟩)
    · exact .inl h
    · obtain ⟨eps, heps, hl⟩ := LawfulDualStep.ops h2
      refine .inr ⟨h1, h2, ?_⟩
      unfold intResult
      refine foldl_inv (P := fun x : Vec 14 × Vec 12 => ∀ arm, UnitQuat (armRot arm x.1)) ?_ _ _ h3
      intro x p hx
      exact DualStepArgs.update_unit _ hl _ _ _ _ hx
  have hzero : ∀ (o : DualCartesianDMP m) (x : Vec 14 × Vec 12), o.pGain = s.pGain → P x →
      (o.reference = x.1 ∨ s.pGain = 0) → ∀ dt,
      (o.stepArgs c (DualCartesianDMP.trackingError ops o.reference x.1)).correction sf.ops dt = 0 := by
    rintro o x ho (h | ⟨⟨eps, h1⟩, h2, h3⟩) hr dt
    · exact DualStepArgs.correction_pGain _ _ _ (.inl (ho.trans h))
    · rcases hr with hr | hr
      · rw [hr]; exact correction_self o h1 h2 c h3 dt
      · exact DualStepArgs.correction_pGain _ _ _ (.inl (ho.trans hr))
  have hP0 : P (y, yd) := by
    rcases hp with hp | ⟨h1, h2, -, h4⟩
    · exact .inl hp
    · exact .inr ⟨h1, h2, fun arm => by rw [← armOrientation_eq]; exact h4 arm⟩
  have href : s.reference = y ∨ s.pGain = 0 := by
    rcases hp with hp | ⟨-, -, h, -⟩
    · exact .inr hp
    · exact .inl h.symm
  obtain ⟨rows, r, lt, h1, h2, h3⟩ := long_step (P := P)
    (obj := fun t lt x => { s with
      t := t
      lastT := lt
      currentY := x.1
      currentYd := x.2
      initialized := true })
    (obj' := fun t lt x => { s with
      dt := K * s.dt
      t := t
      lastT := lt
      currentY := x.1
      currentYd := x.2
      initialized := true })
    (step := DualCartesianDMP.step ops c sf) (s := s) (s' := { s with dt := K * s.dt }) (y := y) (yd := yd)
    (lt := s.lastT) (t := s.t) hF hi hk hK hdt hPF
    (fun t lt x htx hx => DualCartesianDMP.exec_step_free { s with
        t := t
        lastT := lt
        currentY := x.1
        currentYd := x.2
        initialized := true } hi c sf x (hzero _ x rfl hx (.inl rfl)) htx hpos)
    ((s.exec_step_free hi c sf (y, yd) (hzero s (y, yd) rfl hP0 href) ht hpos).trans
      (DualCartesianDMP.exec_step_free { s with
        t := s.t
        lastT := s.lastT
        currentY := y
        currentYd := yd
        initialized := true } hi c sf (y, yd) (hzero _ (y, yd) rfl hP0 (.inl rfl)) ht hpos).symm)
    (DualCartesianDMP.exec_step_free { s with dt := K * s.dt } hi c sf (y, yd) (hzero _ (y, yd) rfl hP0 href) ht hKpos) ht hP0
  exact ⟨rows, r, _, _, h1, h2, h3, rfl⟩

theorem DualCartesianDMP.openLoop_free (s : DualCartesianDMP m) (hp : s.pGain = 0) (hi : 0 < s.intDt) (hdt : 0 < s.dt)
    (ops : QuatOps) (runT : Option ℝ) (c : Option DualCoupling) {name : String} {sf : DualStepFunction}
    (hl : DualStepFunction.lookup ops name = .ok sf) :
    ((DualCartesianDMP.openLoop ops runT c name).exec s).1 =
      .ok (sampled (intResult s.intDt ((s.stepArgs c 0).bodyFree sf.ops)) 0 s.dt (s.startY, s.startYd)
        (loopCount 0 (runT.getD s.executionTime) s.dt)) := by
  have hF := s.composes hi c sf
  rw [DualCartesianDMP.exec_openLoop, hl]
  simp only
  unfold DualCartesianDMP.loop
  set F := intResult s.intDt ((s.stepArgs c 0).bodyFree sf.ops) with hFdef
  let x : ℕ → Vec 14 × Vec 12 := iterates F 0 s.dt (s.startY, s.startYd)
  let obj : ℕ → DualCartesianDMP m := fun i => match i with
    | 0 => { s with t := 0 + ((0 : ℕ) : ℝ) * s.dt }
    | i + 1 => { s with
      t := 0 + ((i + 1 : ℕ) : ℝ) * s.dt
      lastT := some (0 + (i : ℝ) * s.dt)
      currentY := (x (i + 1)).1
      currentYd := (x (i + 1)).2
      initialized := true }
  have hobj : ∀ i, (obj i).t = 0 + (i : ℝ) * s.dt ∧ (obj i).dt = s.dt ∧ (obj i).pGain = 0 ∧ (obj i).intDt = s.intDt ∧
      (∀ e, (obj i).stepArgs c e = s.stepArgs c e) ∧
      (∀ y yd, { (obj i).stepped y yd with t := (0 : ℝ), lastT := none } = { s.stepped y yd with t := (0 : ℝ), lastT := none }) := by
    intro i
    cases i with
    | zero => exact ⟨rfl, rfl, hp, rfl, fun _ => rfl, fun _ _ => rfl⟩
    | succ i => exact ⟨rfl, rfl, hp, rfl, fun _ => rfl, fun _ _ => rfl⟩
  have key := Py.while_seq (cond := fun o : DualCartesianDMP m => o.t < runT.getD s.executionTime)
    (body := DualCartesianDMP.loopBody ops c sf)
    (xs := fun i => ⟨(x i).1, (x i).2, (sampled F 0 s.dt (s.startY, s.startYd) i).1, (sampled F 0 s.dt (s.startY, s.startYd) i).2⟩)
    (os := obj)
    (N := loopCount 0 (runT.getD s.executionTime) s.dt)
    (fun i => by
      obtain ⟨h1, h2, h3, h4, h5, h6⟩ := hobj i
      have hi0 : 0 ≤ (i : ℝ) * s.dt := by positivity
      have e2 : 0 + (i : ℝ) * s.dt + s.dt = 0 + ((i + 1 : ℕ) : ℝ) * s.dt := by push_cast; ring
      have e := hF.ok (0 + (i : ℝ) * s.dt) (0 + (i : ℝ) * s.dt + s.dt) (x i) (by linarith) (by linarith)
      rw [DualCartesianDMP.exec_loopBody, DualCartesianDMP.run_eq _ _ _ _
        (fun dt => DualStepArgs.correction_pGain _ _ _ (.inl h3)) (by rw [h1, h2]; linarith), h1, h2, h4, h5]
      simp only [Prod.mk.eta]
      rw [e, e2]
      simp only [sampled_succ]
      refine Prod.ext rfl ?_
      cases i with
      | zero =>
        show DualCartesianDMP.stepped _ _ _ = _
        simp only [obj, DualCartesianDMP.stepped]
        rw [e2]
        rfl
      | succ i =>
        show DualCartesianDMP.stepped _ _ _ = _
        simp only [obj, DualCartesianDMP.stepped]
        rw [e2]
        rfl)
    (fun i => by
      obtain ⟨h1, -⟩ := hobj i
      rw [h1]
      exact loopCount_lt hdt)
  have e0 : (⟨s.startY, s.startYd, [0], [s.startY]⟩ : DualCartesianDMP.LoopVars) = ⟨(x 0).1, (x 0).2,
      (sampled F 0 s.dt (s.startY, s.startYd) 0).1, (sampled F 0 s.dt (s.startY, s.startYd) 0).2⟩ := by
    simp [sampled, iterates, x]
  have e1 : ({ s with t := 0 } : DualCartesianDMP m) = obj 0 := by simp [obj]
  rw [e0, e1, key]

/-- **C102 (DualCartesianDMP, open_loop).** There is no `p_gain`, or the DMP is in its start state. -/
theorem C102_dual_open_loop (s : DualCartesianDMP m) (hi : 0 < s.intDt) {k K : ℕ} (hk : 0 < k) (hK : 0 < K)
    (hdt : s.dt = k * s.intDt) {ops : QuatOps} (runT : Option ℝ) (c : Option DualCoupling) {name : String}
    (hn : name = "python" ∨ name = "cython")
    (hp : s.pGain = 0 ∨ ((∃ eps > 0, LawfulQuatOps ops eps) ∧ (s.initialized = false ∨ s.currentY = s.startY) ∧
      ∀ arm, UnitQuat (armOrientation arm s.startY))) :
    ∃ r r', ((DualCartesianDMP.openLoop ops runT c name).exec s).1 = .ok r ∧
      ((DualCartesianDMP.openLoop ops runT c name).exec { s with dt := K * s.dt }).1 = .ok r' ∧ EveryKth K r r' := by
  have hpos : 0 < s.dt := hdt ▸ mul_pos (Nat.cast_pos.2 hk) hi
  have hKpos : 0 < K * s.dt := mul_pos (Nat.cast_pos.2 hK) hpos
  obtain ⟨sf, hl⟩ : ∃ sf, DualStepFunction.lookup ops name = .ok sf := by
    rcases hn with rfl | rfl
    · exact ⟨.python ops, rfl⟩
    · exact ⟨.cython, rfl⟩
  have main : ∀ o : DualCartesianDMP m, o.pGain = 0 → o.intDt = s.intDt → o.dt = s.dt →
      ∃ r r', ((DualCartesianDMP.openLoop ops runT c name).exec o).1 = .ok r ∧
        ((DualCartesianDMP.openLoop ops runT c name).exec { o with dt := K * s.dt }).1 = .ok r' ∧ EveryKth K r r' := by
    intro o ho h1 h2
    have hoi : 0 < o.intDt := h1 ▸ hi
    refine ⟨_, _, o.openLoop_free ho hoi (h2 ▸ hpos) ops runT c hl,
      DualCartesianDMP.openLoop_free { o with dt := K * s.dt } ho hoi hKpos ops runT c hl, ?_⟩
    rw [h2, hdt, ← h1]
    exact sampled_everyKth (o.composes hoi c sf) hoi hk hK _ _
  rcases hp with hp | ⟨⟨eps, heps, h1⟩, h2, h3⟩
  · exact main s hp rfl rfl
  · obtain ⟨r, r', e1, e2, e3⟩ := main { s with pGain := 0 } rfl rfl rfl
    exact ⟨r, r', (C36_first_run h2 heps h1 h3 runT c name).trans e1,
      (C36_first_run (s := { s with dt := K * s.dt }) h2 heps h1 h3 runT c name).trans e2, e3⟩

/-! ## Runge-Kutta -/

/-- **C102 (finding).** With the Runge-Kutta methods the time step influences the movement: `int_dt` is not used. There is a
DMP with default parameters whose trajectory changes if the time step is doubled. -/
theorem C102_rk4 : ∃ s : DMP 1 10, s.Reachable ∧ s.executionTime = 1 ∧ s.alphaY 0 = 25 ∧ s.betaY 0 = 25 / 4 ∧
    s.dt = 1 / 100 ∧ s.intDt = 1 / 1000 ∧ ∀ name, name = "rk4" ∨ name = "rk4-cython" →
      ∃ r r', ((DMP.openLoop (some 1) none name).exec s).1 = .ok r ∧
        ((DMP.openLoop (some 1) none name).exec { s with dt := 2 * s.dt }).1 = .ok r' ∧ ¬ EveryKth 2 r r' := by
  obtain ⟨s0, hs0, e1, e2, e3, -, e5, e6, e7, e8, e9, e10, e11, e12, e13⟩ :=
    DMP.create_ok 1 10 (by norm_num) one_pos (1 / 100) (1 / 1000) 0 false 25 (25 / 4)
  have hr0 : s0.Reachable := .create hs0
  have hc : (DMP.configure { startY := some [1] }).exec s0 = (.ok (), { s0 with startY := fun _ => 1 }) := by
    rw [DMP.exec_configure]
    simp only [Movement.configure, configureField, Py.exec_bind, Py.exec_pure, Py.exec_lift, Py.exec_modify,
      checkLength]
    simp
  set s : DMP 1 10 := { s0 with startY := fun _ => 1 } with hsdef
  have hr : s.Reachable := .op (.configure { startY := some [1] }) hr0 hc (by intro τ h; cases h)
  have f1 : s.executionTime = 1 := e1
  have f2 : s.dt = 1 / 100 := e2
  have f3 : s.intDt = 1 / 1000 := e3
  have f4 : s.alphaY 0 = 25 := by show s0.alphaY 0 = _; rw [e11]
  have f5 : s.betaY 0 = 25 / 4 := by show s0.betaY 0 = _; rw [e12]
  have f6 : s.goalY 0 = 0 := by show s0.goalY 0 = _; rw [e10]; rfl
  have f7 : s.startY 0 = 1 := rfl
  have hd : ∀ t, (s.openLoopArgs none).drive 0 t = 0 := by
    intro t
    have g1 : (s.openLoopArgs none).smooth = false := e5
    have g2 : (s.openLoopArgs none).ft.weights = fun _ _ => 0 := e13
    simp [StepArgs.drive, ForcingTerm.call, ForcingTerm.force, g1, g2]
  refine ⟨s, hr, f1, f4, f5, f2, f3, fun name hn => ?_⟩
  obtain ⟨sf, hl, hsf⟩ : ∃ sf, StepFunction.lookup name = .ok sf ∧ (sf = .rk4 ∨ sf = .rk4Cython) := by
    rcases hn with rfl | rfl
    · exact ⟨.rk4, rfl, .inl rfl⟩
    · exact ⟨.rk4Cython, rfl, .inr rfl⟩
  obtain ⟨xs, h0, hx, hret, hrow⟩ := openLoop_rk4 hr hl hsf (dt := s.dt) (intDt := s.intDt) (by rw [f2]; norm_num)
    (by rw [f3]; norm_num)
  obtain ⟨zs, k0, kx, kret, krow⟩ := openLoop_rk4 hr hl hsf (dt := 2 * s.dt) (intDt := s.intDt) (by rw [f2]; norm_num)
    (by rw [f3]; norm_num)
  obtain ⟨T, Y, hT⟩ := hret 1 zero_le_one
  obtain ⟨T', Y', hT'⟩ := kret 1 zero_le_one
  refine ⟨(T, Y), (T', Y'), hT, hT', fun hev => ?_⟩
  have lT : 2 * 1 < T.length := by
    have h1 := hT
    rw [DMP.exec_openLoop, hl] at h1
    have h2 : openLoopWith _ _ s.dt _ (some 1) _ = .ok (T, Y) := h1
    rw [(openLoopWith_lengths h2).1, f2]
    unfold arangeLen
    rw [Nat.lt_ceil]
    show _ < ((1 : ℝ) + 1 / 100 - 0) / (1 / 100)
    norm_num
  obtain ⟨a1, a2, a3, -, a5⟩ := hev 1 lT
  have b1 := (hrow _ _ _ hT 2 lT a1).2 0
  have b2 := (krow _ _ _ hT' 1 a2 a3).2 0
  simp only at a5
  have : (zs 0 1).1 = (xs 0 2).1 := by
    rw [← b1, ← b2, a5]
  rw [kx 0 0, hx 0 1, hx 0 0, h0, k0] at this
  simp only [hd, f1, f2, f4, f5, f6, f7, rkStep] at this
  norm_num at this

/-! ## The hypotheses are satisfiable -/

theorem openLoop_returns {p v : ℕ} {step : ℝ → ℝ → Vec p × Vec v → Except PyErr (Vec p × Vec v)}
    {F : ℝ → ℝ → Vec p × Vec v → Vec p × Vec v} {t0 h : ℝ} (hF : Composes step F t0 h) {dt : ℝ} (hdt : 0 < dt)
    (x : Vec p × Vec v) (goalT : ℝ) {R : ℝ} (hR : t0 ≤ R) : ∃ r, openLoopWith goalT t0 dt x (some R) step = .ok r := by
  have tot := openLoopWith_total (goalT := goalT) (startT := t0) (runT := some R) (step := step) hdt.ne'
    (nxt := fun i => F (t0 + i * dt) (t0 + (i + 1 : ℕ) * dt)) (xs := iterates F t0 dt x) (start := x) (by
      intro i x
      have : 0 ≤ (i : ℝ) * dt := by positivity
      refine hF.ok _ _ x ?_ ?_
      · unfold arangeAt; linarith
      · unfold arangeAt; push_cast; nlinarith) rfl (fun j => rfl)
  rw [tot, if_neg]
  · exact ⟨_, rfl⟩
  · have : 0 < arangeLen t0 (R + dt) dt := by
      unfold arangeLen
      rw [Nat.ceil_pos]
      exact div_pos (by linarith) hdt
    exact this.ne'

/-- Default parameters: `dt = 0.01 = 10 * int_dt`, for all coupling terms and durations. -/
example (R : ℝ) (hR : 0 ≤ R) (c : Option (Coupling 2)) : ∃ s : DMP 2 10, 0 < s.executionTime ∧ 0 < s.intDt ∧ 0 ≤ s.t ∧
    s.dt = (10 : ℕ) * s.intDt ∧ ∃ r, ((DMP.openLoop (some R) c "euler").exec s).1 = .ok r := by
  obtain ⟨s, -, e1, e2, e3, -, -, -, e7, -⟩ :=
    DMP.create_ok 2 10 (by norm_num) one_pos (1 / 100) (1 / 1000) 0 false 25 (25 / 4)
  have h1 : 0 < s.executionTime := by rw [e1]; norm_num
  have h2 : 0 < s.intDt := by rw [e3]; norm_num
  refine ⟨s, h1, h2, e7.ge, by rw [e2, e3]; norm_num, ?_⟩
  rw [DMP.exec_openLoop]
  obtain ⟨F, hF⟩ := run_composes (.inl rfl) (s.openLoopArgs c) h2 h1
  exact openLoop_returns hF (by show 0 < s.dt; rw [e2]; norm_num) _ _ hR

example (c : Option (Coupling d)) (k c0 : ℝ) (R : ℝ) (hR : 0 ≤ R) : ∃ s : SpringDamper d, 0 < s.intDt ∧ s.dt = (10 : ℕ) * s.intDt ∧
    ∃ r, ((SpringDamper.openLoop R c).exec s).1 = .ok r := by
  obtain ⟨s, h1, h2⟩ : ∃ s : SpringDamper d, s.intDt = 1 / 1000 ∧ s.dt = 1 / 100 :=
    ⟨{ Movement.init d d with dt := 1 / 100, intDt := 1 / 1000, k := k, c := some c0, initialized := false },
      rfl, rfl⟩
  have hi : 0 < s.intDt := by rw [h1]; norm_num
  refine ⟨s, hi, by rw [h1, h2]; norm_num, ?_⟩
  exact openLoop_returns (.of_intLoop hi fun _ _ _ _ _ => rfl) (by rw [h2]; norm_num) _ _ hR

/-- Configurations of two arms that meet the hypotheses of `C102_dual_step`. -/
example : ∀ arm, UnitQuat (armOrientation arm (joinState (fun _ => (0 : Vec 3)) fun _ => ![3 / 5, 0, 4 / 5, 0])) := by
  intro arm
  rw [armOrientation_eq, armRot_joinState]
  simp only [UnitQuat, Matrix.cons_val]
  norm_num

end Verif
