import Verif.Props.DualClass
import Verif.Props.SpringDamper
import Verif.Props.StateFollowing
import Verif.Props.MinJerk
import Verif.Props.FinalVelocity
import Verif.Props.DmpClass

/-! # C118: what an object remembers from previous steps; C17 for other classes -/

namespace Verif
open Spec
variable {d m n : ℕ}

/-! ## Steps that forget the previous ones -/

theorem same_memory {σ α β : Type} (step : α → Py σ β) (R : σ → σ → Prop)
    (hR : ∀ x x' s s', R s s' → R ((step x).exec s).2 ((step x').exec s').2) :
    ∀ (xs xs' : List α) (s s' s₁ s₁' : σ) (r r' : List β), R s s' → xs.length = xs'.length →
      (xs.mapM step).exec s = (.ok r, s₁) → (xs'.mapM step).exec s' = (.ok r', s₁') → R s₁ s₁' := by
  intro xs
  induction xs with
  | nil =>
    intro xs' s s' s₁ s₁' r r' h hl h1 h2
    obtain rfl : xs' = [] := List.length_eq_zero_iff.mp hl.symm
    simp only [List.mapM_nil, Py.exec_pure, Prod.mk.injEq] at h1 h2
    rwa [← h1.2, ← h2.2]
  | cons x xs ih =>
    intro xs' s s' s₁ s₁' r r' h hl h1 h2
    cases xs' with
    | nil => simp at hl
    | cons x' xs' =>
      have h3 := hR x x' s s' h
      simp only [List.mapM_cons, Py.exec_bind] at h1 h2
      rcases e1 : (step x).exec s with ⟨o, t⟩
      rcases e2 : (step x').exec s' with ⟨o', t'⟩
      rw [e1] at h1 h3
      rw [e2] at h2 h3
      cases o with
      | error e => simp at h1
      | ok o =>
        cases o' with
        | error e => simp at h2
        | ok o' =>
          simp only at h1 h2 h3
          rcases f1 : (xs.mapM step).exec t with ⟨p, u⟩
          rcases f2 : (xs'.mapM step).exec t' with ⟨p', u'⟩
          rw [f1] at h1
          rw [f2] at h2
          cases p with
          | error e => simp at h1
          | ok p =>
            cases p' with
            | error e => simp at h2
            | ok p' =>
              simp only [Py.exec_pure, Prod.mk.injEq] at h1 h2
              have := ih xs' t t' u u' p p' h3 (by simpa using hl) f1 f2
              rwa [← h1.2, ← h2.2]

theorem forgets {σ α β : Type} (step : α → Py σ β) (R : σ → σ → Prop)
    (h : ∀ x s s', R s s' → (step x).exec s = (step x).exec s')
    (hR : ∀ x x' s s', R s s' → R ((step x).exec s).2 ((step x').exec s').2)
    {xs xs' : List α} {s s₁ s₁' : σ} {r r' : List β} (hs : R s s) (hl : xs.length = xs'.length)
    (h1 : (xs.mapM step).exec s = (.ok r, s₁)) (h2 : (xs'.mapM step).exec s = (.ok r', s₁')) (zs : List α) :
    ((zs.mapM step).exec s₁).1 = ((zs.mapM step).exec s₁').1 := by
  have hr := same_memory step R hR xs xs' s s s₁ s₁' r r' hs hl h1 h2
  cases zs with
  | nil => simp
  | cons z zs => rw [List.mapM_cons, Py.exec_bind, Py.exec_bind, h z _ _ hr]

/-- An update that does not read the time computes the same in every interval of the same length. -/
theorem intLoop_autonomous {σ : Type} {upd : ℝ → ℝ → σ → σ} (hu : ∀ h t t' x, upd h t x = upd h t' x) (intDt h t t' : ℝ)
    (x : σ) : intLoop intDt (t + h) upd t x = intLoop intDt (t' + h) upd t' x := by
  by_cases hh : h ≤ 0
  · rw [intLoop_done _ (by linarith), intLoop_done _ (by linarith)]
  rw [not_le] at hh
  by_cases hi : intDt ≤ 0
  · rw [intLoop_diverges _ hi (by linarith), intLoop_diverges _ hi (by linarith)]
  rw [not_le] at hi
  rw [intLoop_eq _ hi, intLoop_eq _ hi]
  have hn : ∀ t, nSub intDt (t + h) t = nSub intDt h 0 := fun t => by simp [nSub]
  have hs : ∀ t, (subSteps intDt (t + h) t).map Prod.fst = (subSteps intDt h 0).map Prod.fst := by
    intro t
    simp only [subSteps, hn, List.map_map]
    refine List.map_congr_left fun i _ => ?_
    simp only [Function.comp]
    split_ifs
    · rfl
    · simp only
      ring
  have hf : ∀ l : List (ℝ × ℝ), l.foldl (fun x p => upd p.1 p.2 x) x = (l.map Prod.fst).foldl (fun x h => upd h 0 x) x := by
    intro l
    rw [List.foldl_map]
    exact congrArg (fun f => l.foldl f x) (funext fun x => funext fun p => hu _ _ _ _)
  rw [hf, hf, hs, hs]

theorem forgets_everything {σ α β : Type} (step : α → Py σ β) (R : σ → σ → Prop) (hrefl : ∀ s, R s s)
    (htrans : ∀ s s' s'', R s s' → R s' s'' → R s s'') (hsymm : ∀ s s', R s s' → R s' s)
    (h : ∀ x s s', R s s' → ((step x).exec s).1 = ((step x).exec s').1) (hR : ∀ x s, R s ((step x).exec s).2)
    (xs zs : List α) (s : σ) :
    ((zs.mapM step).exec ((xs.mapM step).exec s).2).1 = ((zs.mapM step).exec s).1 := by
  have h1 : ∀ (xs : List α) (s : σ), R s ((xs.mapM step).exec s).2 := by
    intro xs
    induction xs with
    | nil => intro s; simpa using hrefl s
    | cons x xs ih =>
      intro s
      have h3 := hR x s
      simp only [List.mapM_cons, Py.exec_bind]
      generalize (step x).exec s = q at h3 ⊢
      obtain ⟨o, t⟩ := q
      cases o with
      | error e => exact h3
      | ok o =>
        have h4 := htrans _ _ _ h3 (ih t)
        simp only
        generalize (xs.mapM step).exec t = q at h4 ⊢
        obtain ⟨o', t'⟩ := q
        cases o' with
        | error e => exact h4
        | ok o' => simpa using h4
  have h2 : ∀ (zs : List α) (s s' : σ), R s s' → ((zs.mapM step).exec s).1 = ((zs.mapM step).exec s').1 := by
    intro zs
    induction zs with
    | nil => intro s s' _; simp
    | cons z zs ih =>
      intro s s' hs
      have e := h z s s' hs
      have f := htrans _ _ _ (hsymm _ _ (hR z s)) (htrans _ _ _ hs (hR z s'))
      simp only [List.mapM_cons, Py.exec_bind]
      generalize (step z).exec s = q at e f ⊢
      generalize (step z).exec s' = q' at e f ⊢
      obtain ⟨o, t⟩ := q
      obtain ⟨o', t'⟩ := q'
      obtain rfl : o = o' := e
      cases o with
      | error e => rfl
      | ok o =>
        have g := ih t t' f
        simp only
        generalize (zs.mapM step).exec t = q at g ⊢
        generalize (zs.mapM step).exec t' = q' at g ⊢
        obtain ⟨p, u⟩ := q
        obtain ⟨p', u'⟩ := q'
        obtain rfl : p = p' := g
        cases p <;> rfl
  exact h2 zs _ _ (hsymm _ _ (h1 xs s))

namespace SpringDamper

/-- **C118 (spring-damper).** A `SpringDamper` remembers nothing: whatever has been passed to previous calls of `step`, how
many there have been and which exceptions they raised, further calls return the same as those of an object without
previous calls. -/
theorem C118_forgets_everything (s : SpringDamper d) (xs zs : List (Option (Coupling d) × Vec d × Vec d)) :
    ((zs.mapM fun x => step x.1 x.2.1 x.2.2).exec ((xs.mapM fun x => step x.1 x.2.1 x.2.2).exec s).2).1 =
      ((zs.mapM fun x => step x.1 x.2.1 x.2.2).exec s).1 := by
  refine _root_.Verif.forgets_everything _ (fun s s' => ∃ y yd i t l, s' =
    { s with currentY := y, currentYd := yd, initialized := i, t := t, lastT := l }) (fun s => ⟨_, _, _, _, _, rfl⟩) ?_ ?_ ?_ ?_ xs zs s
  · rintro s _ _ ⟨y, yd, i, t, l, rfl⟩ ⟨y', yd', i', t', l', rfl⟩
    exact ⟨y', yd', i', t', l', rfl⟩
  · rintro s _ ⟨y, yd, i, t, l, rfl⟩
    exact ⟨_, _, _, _, _, rfl⟩
  · rintro x s _ ⟨y, yd, i, t, l, rfl⟩
    rw [exec_step, exec_step]
    have := intLoop_autonomous (upd := springDamperBody s.goalY s.k (defaultDamping s.c s.k) x.1 none)
      (fun _ _ _ _ => rfl) s.intDt s.dt s.t t (x.2.1, x.2.2)
    simp only [springDamperStep]
    rw [this]
    split <;> rfl
  · intro x s
    rw [exec_step]
    split <;> exact ⟨_, _, _, _, _, rfl⟩

end SpringDamper

namespace SpringDamperOrientation

/-- **C118 (spring-damper for orientations).** As `SpringDamper.C118_forgets_everything`. -/
theorem C118_forgets_everything (ops : QuatOps) (s : SpringDamperOrientation)
    (xs zs : List (Option RotCoupling × Vec 4 × Vec 3)) :
    ((zs.mapM fun x => step ops x.1 x.2.1 x.2.2).exec ((xs.mapM fun x => step ops x.1 x.2.1 x.2.2).exec s).2).1 =
      ((zs.mapM fun x => step ops x.1 x.2.1 x.2.2).exec s).1 := by
  refine _root_.Verif.forgets_everything _ (fun s s' => ∃ y yd i t l, s' =
    { s with currentY := y, currentYd := yd, initialized := i, t := t, lastT := l }) (fun s => ⟨_, _, _, _, _, rfl⟩) ?_ ?_ ?_ ?_ xs zs s
  · rintro s _ _ ⟨y, yd, i, t, l, rfl⟩ ⟨y', yd', i', t', l', rfl⟩
    exact ⟨y', yd', i', t', l', rfl⟩
  · rintro s _ ⟨y, yd, i, t, l, rfl⟩
    exact ⟨_, _, _, _, _, rfl⟩
  · rintro x s _ ⟨y, yd, i, t, l, rfl⟩
    rw [exec_step, exec_step]
    have := intLoop_autonomous (upd := springDamperQuatBody ops s.goalY s.k (defaultDamping s.c s.k) x.1 none)
      (fun _ _ _ _ => rfl) s.intDt s.dt s.t t (x.2.1, x.2.2)
    simp only [springDamperQuatStep]
    rw [this]
    split <;> rfl
  · intro x s
    rw [exec_step]
    split <;> exact ⟨_, _, _, _, _, rfl⟩

end SpringDamperOrientation

namespace StateFollowingDMP

/-- **C118 (state-following DMP).** After equally many steps, whatever states and coupling terms have been passed to them, the
following steps return the same: the object remembers only the time. -/
theorem C118_forgets (s : StateFollowingDMP d n) {xs xs' : List (Option (Coupling d) × Vec d × Vec d)}
    {s₁ s₁' : StateFollowingDMP d n} {r r' : List (Vec d × Vec d)} (hl : xs.length = xs'.length)
    (h1 : (xs.mapM fun x => step x.1 x.2.1 x.2.2).exec s = (.ok r, s₁))
    (h2 : (xs'.mapM fun x => step x.1 x.2.1 x.2.2).exec s = (.ok r', s₁'))
    (zs : List (Option (Coupling d) × Vec d × Vec d)) :
    ((zs.mapM fun x => step x.1 x.2.1 x.2.2).exec s₁).1 = ((zs.mapM fun x => step x.1 x.2.1 x.2.2).exec s₁').1 := by
  refine forgets _ (fun s s' => ∃ y yd, s' = { s with currentY := y, currentYd := yd }) ?_ ?_ ⟨_, _, rfl⟩ hl h1 h2 zs
  · rintro x s _ ⟨y, yd, rfl⟩
    rw [exec_step, exec_step]
    rfl
  · rintro x x' s _ ⟨y, yd, rfl⟩
    rw [exec_step, exec_step]
    split <;> split <;> exact ⟨_, _, rfl⟩

end StateFollowingDMP

namespace CartesianDMP

/-- **C118 (Cartesian DMP).** After equally many steps, whatever poses, velocities, coupling terms and step functions have
been passed to them, the following steps return the same. -/
theorem C118_forgets (s : CartesianDMP m)
    {xs xs' : List (Option PoseCoupling × StepFunction × QuatStepFunction × Vec (3 + 4) × Vec (3 + 3))}
    {s₁ s₁' : CartesianDMP m} {r r' : List (Vec (3 + 4) × Vec (3 + 3))} (hl : xs.length = xs'.length)
    (h1 : (xs.mapM fun x => step x.1 x.2.1 x.2.2.1 x.2.2.2.1 x.2.2.2.2).exec s = (.ok r, s₁))
    (h2 : (xs'.mapM fun x => step x.1 x.2.1 x.2.2.1 x.2.2.2.1 x.2.2.2.2).exec s = (.ok r', s₁'))
    (zs : List (Option PoseCoupling × StepFunction × QuatStepFunction × Vec (3 + 4) × Vec (3 + 3))) :
    ((zs.mapM fun x => step x.1 x.2.1 x.2.2.1 x.2.2.2.1 x.2.2.2.2).exec s₁).1 =
      ((zs.mapM fun x => step x.1 x.2.1 x.2.2.1 x.2.2.2.1 x.2.2.2.2).exec s₁').1 := by
  refine forgets _ (fun s s' => ∃ y yd, s' = { s with currentY := y, currentYd := yd }) ?_ ?_ ⟨_, _, rfl⟩ hl h1 h2 zs
  · rintro x s _ ⟨y, yd, rfl⟩
    rw [exec_step, exec_step]
    rfl
  · rintro x x' s _ ⟨y, yd, rfl⟩
    have key : ∀ (x : Option PoseCoupling × StepFunction × QuatStepFunction × Vec (3 + 4) × Vec (3 + 3))
        (s : CartesianDMP m), ∃ y yd, ((step (m := m) x.1 x.2.1 x.2.2.1 x.2.2.2.1 x.2.2.2.2).exec s).2 =
        { s with lastT := some s.t, t := s.t + s.dt, currentY := y, currentYd := yd } := by
      intro x s
      rw [exec_step]
      split
      · exact ⟨_, _, rfl⟩
      · split <;> exact ⟨_, _, rfl⟩
    obtain ⟨a, b, e1⟩ := key x s
    obtain ⟨a', b', e2⟩ := key x' { s with currentY := y, currentYd := yd }
    rw [e1, e2]
    exact ⟨a', b', rfl⟩

end CartesianDMP

namespace DualCartesianDMP

theorem run_no_gain (sf : DualStepFunction) (a : DualStepArgs m) (h : a.pGain = 0) (e e' : Vec 14) :
    sf.run { a with trackingError := some e } = sf.run { a with trackingError := some e' } := by
  have hc : ∀ ops dt, ({ a with trackingError := some e } : DualStepArgs m).correction ops dt =
      ({ a with trackingError := some e' } : DualStepArgs m).correction ops dt := by
    intro ops dt
    simp [DualStepArgs.correction, h]
  cases sf with
  | python ops =>
    funext lastT t s
    have hb : ({ a with trackingError := some e } : DualStepArgs m).bodyPy ops =
        ({ a with trackingError := some e' } : DualStepArgs m).bodyPy ops := by
      funext dt t s
      unfold DualStepArgs.bodyPy
      rw [hc]
      rfl
    simp only [DualStepFunction.run, DualStepArgs.stepPy, hb]
  | cython =>
    funext lastT t s
    have hb : ({ a with trackingError := some e } : DualStepArgs m).bodyCy =
        ({ a with trackingError := some e' } : DualStepArgs m).bodyCy := by
      funext dt t s
      unfold DualStepArgs.bodyCy
      rw [hc]
      rfl
    simp only [DualStepFunction.run, DualStepArgs.stepCy, hb]

/-- **C118 (dual-arm DMP).** With `p_gain = 0`, after equally many steps, whatever poses, velocities, coupling terms and
step functions have been passed to them, the following steps return the same. -/
theorem C118_forgets (ops : QuatOps) (s : DualCartesianDMP m) (hp : s.pGain = 0)
    {xs xs' : List (Option DualCoupling × DualStepFunction × Vec 14 × Vec 12)}
    {s₁ s₁' : DualCartesianDMP m} {r r' : List (Vec 14 × Vec 12)} (hl : xs.length = xs'.length)
    (h1 : (xs.mapM fun x => step ops x.1 x.2.1 x.2.2.1 x.2.2.2).exec s = (.ok r, s₁))
    (h2 : (xs'.mapM fun x => step ops x.1 x.2.1 x.2.2.1 x.2.2.2).exec s = (.ok r', s₁'))
    (zs : List (Option DualCoupling × DualStepFunction × Vec 14 × Vec 12)) :
    ((zs.mapM fun x => step ops x.1 x.2.1 x.2.2.1 x.2.2.2).exec s₁).1 =
      ((zs.mapM fun x => step ops x.1 x.2.1 x.2.2.1 x.2.2.2).exec s₁').1 := by
  refine forgets _ (fun s s' => s.pGain = 0 ∧
    ∃ y yd i, s' = { s with currentY := y, currentYd := yd, initialized := i }) ?_ ?_ ⟨hp, _, _, _, rfl⟩ hl h1 h2 zs
  · rintro x s _ ⟨hp, y, yd, i, rfl⟩
    rw [exec_step, exec_step]
    have := run_no_gain x.2.1 (s.stepArgs x.1 0) hp (trackingError ops s.reference x.2.2.1)
      (trackingError ops (reference { s with currentY := y, currentYd := yd, initialized := i }) x.2.2.1)
    have e : ∀ e, stepArgs { s with currentY := y, currentYd := yd, initialized := i } x.1 e =
      { s.stepArgs x.1 0 with trackingError := some e } := fun _ => rfl
    have e' : ∀ e, stepArgs s x.1 e = { s.stepArgs x.1 0 with trackingError := some e } := fun _ => rfl
    rw [e, e', this]
    rfl
  · rintro x x' s _ ⟨hp, y, yd, i, rfl⟩
    rw [exec_step, exec_step]
    split <;> split <;> exact ⟨hp, _, _, _, rfl⟩

end DualCartesianDMP

/-! ## Steps that ignore the given state -/

/-- **C17 (minimum jerk trajectory).** `step` ignores the passed state. -/
theorem MinimumJerkTrajectory.C17_step_ignores_feedback (s : MinimumJerkTrajectory d) (fb fb' : List (Vec d × Vec d))
    (hlen : fb.length = fb'.length) :
    (fb.mapM fun p => MinimumJerkTrajectory.step p.1 p.2).exec s =
      (fb'.mapM fun p => MinimumJerkTrajectory.step p.1 p.2).exec s := by
  have h : ∀ p q : Vec d × Vec d, MinimumJerkTrajectory.step p.1 p.2 = MinimumJerkTrajectory.step q.1 q.2 :=
    fun _ _ => rfl
  induction fb generalizing fb' s with
  | nil => rw [List.length_eq_zero_iff.mp hlen.symm]
  | cons p fb ih =>
    cases fb' with
    | nil => simp at hlen
    | cons p' fb' =>
      simp only [List.mapM_cons, Py.exec_bind]
      rw [h p p']
      rcases (MinimumJerkTrajectory.step p'.1 p'.2).exec s with ⟨r, s'⟩
      cases r with
      | error e => rfl
      | ok x =>
        simp only
        rw [ih s' fb' (by simpa using hlen)]

namespace FvDMP

theorem fvStep_no_gain (a : StepArgs d m) (h : a.pGain = 0) (e e' : Vec d) :
    ({ a with trackingError := e } : StepArgs d m).fvStep = ({ a with trackingError := e' } : StepArgs d m).fvStep := by
  have hb : ({ a with trackingError := e } : StepArgs d m).fvBody = ({ a with trackingError := e' } : StepArgs d m).fvBody := by
    funext
    simp [StepArgs.fvBody, StepArgs.fvCoupling, h]
  funext
  simp [StepArgs.fvStep, hb]

/-- **C17 (final velocity).** With `p_gain = 0`, a sequence of calls of `step` of a DMPWithFinalVelocity does not depend on
the passed states. -/
theorem C17_step_ignores_feedback (s : FvDMP d m) (hp : s.pGain = 0) (coupling : Option (Coupling d))
    (fb fb' : List (Vec d × Vec d)) (hlen : fb.length = fb'.length) :
    (fb.mapM fun p => FvDMP.step coupling p.1 p.2).exec s =
      (fb'.mapM fun p => FvDMP.step (m := m) coupling p.1 p.2).exec s := by
  have h : ∀ (p q : Vec d × Vec d) (s : FvDMP d m), s.pGain = 0 →
      (FvDMP.step coupling p.1 p.2).exec s = (FvDMP.step coupling q.1 q.2).exec s ∧
      ((FvDMP.step coupling p.1 p.2).exec s).2.pGain = 0 := by
    intro p q s hs
    have e := fvStep_no_gain (s.beginStep.stepArgs coupling 0) hs (s.beginStep.currentY - p.1) (s.beginStep.currentY - q.1)
    have e' : ∀ e, s.beginStep.stepArgs coupling e = { s.beginStep.stepArgs coupling 0 with trackingError := e } :=
      fun _ => rfl
    rw [exec_step, exec_step, e', e' (s.beginStep.currentY - q.1), e]
    refine ⟨rfl, ?_⟩
    split <;> exact hs
  induction fb generalizing fb' s with
  | nil => rw [List.length_eq_zero_iff.mp hlen.symm]
  | cons p fb ih =>
    cases fb' with
    | nil => simp at hlen
    | cons p' fb' =>
      simp only [List.mapM_cons, Py.exec_bind]
      rw [(h p p' s hp).1]
      have h2 := (h p' p s hp).2
      rcases h3 : (FvDMP.step coupling p'.1 p'.2).exec s with ⟨r, s'⟩
      rw [h3] at h2
      cases r with
      | error e => rfl
      | ok x =>
        simp only
        rw [ih s' h2 fb' (by simpa using hlen)]

end FvDMP

/-! ## The hypotheses are met -/

theorem mapM_ok {σ α β : Type} (step : α → Py σ β) (P : σ → Prop) (Q : α → Prop)
    (h : ∀ x s, Q x → P s → ∃ r s', (step x).exec s = (.ok r, s') ∧ P s') :
    ∀ (xs : List α) (s : σ), (∀ x ∈ xs, Q x) → P s → ∃ r s', (xs.mapM step).exec s = (.ok r, s') := by
  intro xs
  induction xs with
  | nil => intro s _ _; exact ⟨[], s, by simp⟩
  | cons x xs ih =>
    intro s hq hs
    obtain ⟨r, s', h1, h2⟩ := h x s (hq x (by simp)) hs
    obtain ⟨r', s'', h3⟩ := ih s' (fun y hy => hq y (by simp [hy])) h2
    refine ⟨r :: r', s'', ?_⟩
    simp only [List.mapM_cons, Py.exec_bind]
    rw [h1]
    simp only
    rw [h3]
    rfl

/-- All steps of a dual-arm DMP with positive `int_dt` succeed. -/
theorem DualCartesianDMP.steps_ok (ops : QuatOps) (s : DualCartesianDMP m) (hi : 0 < s.intDt)
    (xs : List (Option DualCoupling × DualStepFunction × Vec 14 × Vec 12)) :
    ∃ r s₁, (xs.mapM fun x => step ops x.1 x.2.1 x.2.2.1 x.2.2.2).exec s = (.ok r, s₁) := by
  refine mapM_ok _ (fun s => 0 < s.intDt) (fun _ => True) ?_ xs s (fun _ _ => trivial) hi
  rintro x s - hi
  have hr : ∃ r, x.2.1.run (s.stepArgs x.1 (trackingError ops s.reference x.2.2.1)) s.t (s.t + s.dt) (x.2.2.1, x.2.2.2) =
      .ok r := by
    cases x.2.1 with
    | python ops => simp only [DualStepFunction.run, DualStepArgs.stepPy, DualCartesianDMP.stepArgs]; rw [intLoop_eq _ hi]; exact ⟨_, rfl⟩
    | cython => simp only [DualStepFunction.run, DualStepArgs.stepCy, DualCartesianDMP.stepArgs]; rw [intLoop_eq _ hi]; exact ⟨_, rfl⟩
  obtain ⟨r, hr⟩ := hr
  rw [exec_step, hr]
  exact ⟨_, _, rfl, hi⟩

/-- The default dual-arm DMP: any two histories of the same length succeed and lead to the same further steps. -/
example (ops : QuatOps) : ∃ s : DualCartesianDMP 10, s.pGain = 0 ∧
    ∀ xs xs' zs : List (Option DualCoupling × DualStepFunction × Vec 14 × Vec 12), xs.length = xs'.length →
      ∃ r s₁ r' s₁', (xs.mapM fun x => DualCartesianDMP.step ops x.1 x.2.1 x.2.2.1 x.2.2.2).exec s = (.ok r, s₁) ∧
        (xs'.mapM fun x => DualCartesianDMP.step ops x.1 x.2.1 x.2.2.1 x.2.2.2).exec s = (.ok r', s₁') ∧
        ((zs.mapM fun x => DualCartesianDMP.step ops x.1 x.2.1 x.2.2.1 x.2.2.2).exec s₁).1 =
          ((zs.mapM fun x => DualCartesianDMP.step ops x.1 x.2.1 x.2.2.1 x.2.2.2).exec s₁').1 := by
  obtain ⟨s, -, -, -, -, hi, hp, -⟩ :=
    DualCartesianDMP.create_ok 10 (by norm_num) one_pos (1 / 100) (1 / 1000) 0 false 25 (25 / 4)
  refine ⟨s, hp, fun xs xs' zs hl => ?_⟩
  have hi : 0 < s.intDt := by rw [hi]; norm_num
  obtain ⟨r, s₁, h1⟩ := s.steps_ok ops hi xs
  obtain ⟨r', s₁', h2⟩ := s.steps_ok ops hi xs'
  exact ⟨r, s₁, r', s₁', h1, h2, s.C118_forgets ops hp hl h1 h2 zs⟩

/-- The same for the default Cartesian DMP with the Runge-Kutta method and the Cython function for orientations. -/
example : ∃ s : CartesianDMP 10, ∀ (xs xs' : List (Option PoseCoupling × StepFunction × QuatStepFunction × Vec (3 + 4) × Vec (3 + 3))),
    (∀ x ∈ xs, x.2.1 = .rk4 ∧ x.2.2.1 = .cython) → (∀ x ∈ xs', x.2.1 = .rk4 ∧ x.2.2.1 = .cython) → xs.length = xs'.length →
      ∃ r s₁ r' s₁', (xs.mapM fun x => CartesianDMP.step x.1 x.2.1 x.2.2.1 x.2.2.2.1 x.2.2.2.2).exec s = (.ok r, s₁) ∧
        (xs'.mapM fun x => CartesianDMP.step x.1 x.2.1 x.2.2.1 x.2.2.2.1 x.2.2.2.2).exec s = (.ok r', s₁') ∧
        ∀ zs : List (Option PoseCoupling × StepFunction × QuatStepFunction × Vec (3 + 4) × Vec (3 + 3)),
        ((zs.mapM fun x => CartesianDMP.step x.1 x.2.1 x.2.2.1 x.2.2.2.1 x.2.2.2.2).exec s₁).1 =
          ((zs.mapM fun x => CartesianDMP.step x.1 x.2.1 x.2.2.1 x.2.2.2.1 x.2.2.2.2).exec s₁').1 := by
  obtain ⟨s, -, -, -, -, hi, -⟩ := CartesianDMP.create_ok 10 (by norm_num) one_pos (1 / 100) (1 / 1000) false 25 (25 / 4)
  have hi : 0 < s.intDt := by rw [hi]; norm_num
  have ok := mapM_ok (fun x : Option PoseCoupling × StepFunction × QuatStepFunction × Vec (3 + 4) × Vec (3 + 3) =>
    CartesianDMP.step (m := 10) x.1 x.2.1 x.2.2.1 x.2.2.2.1 x.2.2.2.2) (fun s => 0 < s.intDt)
    (fun x => x.2.1 = .rk4 ∧ x.2.2.1 = .cython) (by
      rintro ⟨c, sf, qf, y, yd⟩ s ⟨h1, h2⟩ hi
      obtain rfl : sf = .rk4 := h1
      obtain rfl : qf = .cython := h2
      have hr : ∃ r, (QuatStepFunction.cython).run (s.rotArgs c) s.t (s.t + s.dt) (sliceFrom y, sliceFrom yd) = .ok r := by
        simp only [QuatStepFunction.run, QuatStepArgs.stepCy, CartesianDMP.rotArgs]; rw [intLoop_eq _ hi]; exact ⟨_, rfl⟩
      have hq : ∃ r, (StepFunction.rk4).run (s.posArgs c) s.t (s.t + s.dt) (sliceTo y, sliceTo yd) = .ok r := ⟨_, rfl⟩
      obtain ⟨r, hr⟩ := hr
      obtain ⟨q, hq⟩ := hq
      simp only
      rw [CartesianDMP.exec_step, hq]
      simp only [hr]
      exact ⟨_, _, rfl, hi⟩)
  refine ⟨s, fun xs xs' hx hx' hl => ?_⟩
  obtain ⟨r, s₁, h1⟩ := ok xs s hx hi
  obtain ⟨r', s₁', h2⟩ := ok xs' s hx' hi
  exact ⟨r, s₁, r', s₁', h1, h2, s.C118_forgets hl h1 h2⟩

/-- The same for a state-following DMP. -/
example : ∃ s : StateFollowingDMP 2 3, ∀ xs xs' zs : List (Option (Coupling 2) × Vec 2 × Vec 2), xs.length = xs'.length →
      ∃ r s₁ r' s₁', (xs.mapM fun x => StateFollowingDMP.step x.1 x.2.1 x.2.2).exec s = (.ok r, s₁) ∧
        (xs'.mapM fun x => StateFollowingDMP.step x.1 x.2.1 x.2.2).exec s = (.ok r', s₁') ∧
        ((zs.mapM fun x => StateFollowingDMP.step x.1 x.2.1 x.2.2).exec s₁).1 =
          ((zs.mapM fun x => StateFollowingDMP.step x.1 x.2.1 x.2.2).exec s₁').1 := by
  obtain ⟨s, h, -⟩ := StateFollowingDMP.create_ok 2 (n := 3) (by norm_num) one_pos (1 / 100) (1 / 1000) 25 (25 / 4) (fun _ => 0)
  obtain ⟨-, -, _, _, -, -, he⟩ := StateFollowingDMP.create_eq h
  have hi : 0 < s.intDt ∧ 0 < s.executionTime := by rw [he]; norm_num
  have ok := mapM_ok (fun x : Option (Coupling 2) × Vec 2 × Vec 2 => StateFollowingDMP.step (n := 3) x.1 x.2.1 x.2.2)
    (fun s => 0 < s.intDt ∧ 0 < s.executionTime) (fun _ => True) (by
      rintro x s - hi
      have hr : ∃ r, (s.args x.1).step s.t (s.t + s.dt) (x.2.1, x.2.2) = .ok r := by
        have h1 : ¬(s.args x.1).goalT ≤ (s.args x.1).startT := not_le.2 hi.2
        have h2 : 0 < (s.args x.1).intDt := hi.1
        unfold StateFollowingArgs.step
        rw [if_neg h1]
        split_ifs
        · exact ⟨_, rfl⟩
        · rw [intLoop_eq _ h2]; exact ⟨_, rfl⟩
      obtain ⟨r, hr⟩ := hr
      rw [StateFollowingDMP.exec_step, hr]
      exact ⟨_, _, rfl, hi⟩)
  refine ⟨s, fun xs xs' zs hl => ?_⟩
  obtain ⟨r, s₁, h1⟩ := ok xs s (fun _ _ => trivial) hi
  obtain ⟨r', s₁', h2⟩ := ok xs' s (fun _ _ => trivial) hi
  exact ⟨r, s₁, r', s₁', h1, h2, s.C118_forgets hl h1 h2 zs⟩

end Verif
