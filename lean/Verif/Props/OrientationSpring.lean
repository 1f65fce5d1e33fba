import Verif.Lemmas.OrientationRun
import Verif.Props.SpringDamper

/-! # C75 (orientations reach the goal) and C76 (they do so directly) for `SpringDamperOrientation` -/

namespace Verif
open Filter Topology Spec
variable {ops : QuatOps} {eps : ℝ}

theorem springDamperQuatBody_none (goalY : Vec 4) (k c h t : ℝ) (s : Vec 4 × Vec 3) :
    springDamperQuatBody ops goalY k c none none h t s = geoBody ops goalY k c h s := by
  unfold springDamperQuatBody geoBody sdCoupling
  simp

theorem geoBody_eq_forced (goalY : Vec 4) (k c h : ℝ) (s : Vec 4 × Vec 3) :
    geoBody ops goalY k c h s = forcedBody ops goalY k c h 0 s := by
  unfold geoBody forcedBody
  simp

theorem springDamperQuatStep_eq (goalY : Vec 4) (k : ℝ) (c : Option ℝ) {intDt : ℝ} (hint : 0 < intDt) (lastT t : ℝ)
    (s : Vec 4 × Vec 3) : springDamperQuatStep ops goalY k c none none intDt lastT t s =
      .ok ((subSteps intDt t lastT).foldl (fun s p => geoBody ops goalY k (damping k c) p.1 s) s) := by
  unfold springDamperQuatStep
  rw [intLoop_eq _ hint, defaultDamping_eq]
  simp only [springDamperQuatBody_none]

/-- States computed one from another come close to the goal. -/
theorem springDamperQuat_reaches (hops : LawfulQuatOps ops eps) (heps : 0 < eps) {goalY : Vec 4} (hg : UnitQuat goalY)
    {k dt intDt : ℝ} {c : Option ℝ} (hk : 0 < k) (hc : 0 < damping k c) (hdt : 0 < dt) (hint : 0 < intDt)
    (hst : intDt * (damping k c ^ 2 + k) ≤ damping k c) (t0 : ℝ) {xs : ℕ → Vec 4 × Vec 3} (hx0 : UnitQuat (xs 0).1)
    (hx : ∀ i : ℕ, springDamperQuatStep ops goalY k c none none intDt (t0 + i * dt) (t0 + i * dt + dt) (xs i) =
      .ok (xs (i + 1))) :
    ReachesOrientation goalY k (Real.pi * (5 + 8 * (k / damping k c ^ 2)) * eps) xs := by
  refine reaches_of_steps hops heps hg hk hc hint hdt hst (t0 := t0) (F := fun _ => 0) (A := 0) one_pos ?_ hx0 ?_
  · intro i t _
    simp [rsq3]
  · intro i
    have h1 := hx i
    rw [springDamperQuatStep_eq _ _ _ hint] at h1
    injection h1 with h1
    rw [← h1]
    simp only [geoBody_eq_forced]

/-- States computed one from another approach the goal directly. -/
theorem springDamperQuat_direct (hops : LawfulQuatOps ops eps) (heps : 0 < eps) (heps1 : eps ≤ 1) {goalY q₀ : Vec 4}
    (hg : UnitQuat goalY) (hq : UnitQuat q₀) {k dt intDt : ℝ} {c : Option ℝ} (hk : 0 < k) (hc : 0 < damping k c)
    (hdt : 0 < dt) (hint : 0 < intDt) (hkc : 4 * k ≤ damping k c ^ 2) (hst : intDt * damping k c ≤ 1) (t0 : ℝ)
    {xs : ℕ → Vec 4 × Vec 3} (hx0 : xs 0 = (q₀, 0))
    (hx : ∀ i : ℕ, springDamperQuatStep ops goalY k c none none intDt (t0 + i * dt) (t0 + i * dt + dt) (xs i) =
      .ok (xs (i + 1))) : DirectApproach goalY q₀ eps xs := by
  refine geo_direct hops heps heps1 hg hq hk hc hkc (lt_min hint hdt) hx0 (fun i => ?_)
  obtain ⟨p, L, h1, h2, h3⟩ := subSteps_nonempty (t := t0 + i * dt) hint hdt hc hst
  refine ⟨p, L, h1, h2, ?_⟩
  have h4 := hx i
  rw [springDamperQuatStep_eq _ _ _ hint, h3] at h4
  injection h4 with h4
  exact h4.symm

theorem SpringDamperOrientation.run_objects {obj : ℕ → SpringDamperOrientation} {fb out : ℕ → Vec 4 × Vec 3}
    (h : Spec.Run (SpringDamperOrientation.step ops none) obj fb out) (i : ℕ) :
    springDamperQuatStep ops (obj 0).goalY (obj 0).k (obj 0).c none none (obj 0).intDt ((obj 0).t + i * (obj 0).dt)
        ((obj 0).t + i * (obj 0).dt + (obj 0).dt) (fb i) = .ok (out i) := by
  have key : ∀ i, (obj i).t = (obj 0).t + i * (obj 0).dt ∧ (obj i).goalY = (obj 0).goalY ∧ (obj i).k = (obj 0).k ∧
      (obj i).c = (obj 0).c ∧ (obj i).intDt = (obj 0).intDt ∧ (obj i).dt = (obj 0).dt := by
    intro i
    induction i with
    | zero => simp
    | succ i ih =>
      obtain ⟨h1, h2, h3, h4, h5, h6⟩ := ih
      have hi := h i
      rw [SpringDamperOrientation.exec_step] at hi
      cases hr : springDamperQuatStep ops (obj i).goalY (obj i).k (obj i).c none none (obj i).intDt (obj i).t
          ((obj i).t + (obj i).dt) ((fb i).1, (fb i).2) with
      | error e => rw [hr] at hi; cases hi
      | ok r =>
        rw [hr] at hi
        have e := congrArg Prod.snd hi
        simp only at e
        rw [← e]
        refine ⟨?_, h2, h3, h4, h5, h6⟩
        show (obj i).t + (obj i).dt = _
        rw [h1, h6]; push_cast; ring
  obtain ⟨h1, h2, h3, h4, h5, h6⟩ := key i
  have hi := h i
  rw [SpringDamperOrientation.exec_step, h2, h3, h4, h5, h6, h1] at hi
  cases hr : springDamperQuatStep ops (obj 0).goalY (obj 0).k (obj 0).c none none (obj 0).intDt
      ((obj 0).t + i * (obj 0).dt) ((obj 0).t + i * (obj 0).dt + (obj 0).dt) ((fb i).1, (fb i).2) with
  | error e => rw [hr] at hi; cases hi
  | ok r =>
    rw [hr] at hi
    exact congrArg Prod.fst hi

theorem ReachesOrientation.tail {goal : Vec 4} {K tol : ℝ} {fb out : ℕ → Vec 4 × Vec 3} (h : ReachesOrientation goal K tol fb)
    (hfb : ∀ i, fb (i + 1) = out i) : ReachesOrientation goal K tol out := by
  have h1 := (tendsto_add_atTop_nat 1).eventually h
  simp only [hfb] at h1
  exact h1

/-- **C75 (`SpringDamperOrientation.step`).** Whatever the first passed orientation and angular velocity, the goal
orientation and the history of the object: if the step size is small enough for stiffness and damping, an infinite sequence
of `step` calls, each one called with the result of the previous one, brings the orientation close to the goal, up to an
angle that is proportional to the threshold `eps` below which the quaternion logarithm is 0, and stops there. -/
theorem C75_spring_damper_step (hops : LawfulQuatOps ops eps) (heps : 0 < eps) {s : SpringDamperOrientation}
    (hg : UnitQuat s.goalY) (hk : 0 < s.k) (hc : 0 < damping s.k s.c) (hdt : 0 < s.dt) (hint : 0 < s.intDt)
    (hst : s.intDt * (damping s.k s.c ^ 2 + s.k) ≤ damping s.k s.c)
    {obj : ℕ → SpringDamperOrientation} {fb out : ℕ → Vec 4 × Vec 3} (h0 : obj 0 = s) (hu : UnitQuat (fb 0).1)
    (hrun : Spec.Run (SpringDamperOrientation.step ops none) obj fb out) (hfb : ∀ i, fb (i + 1) = out i) :
    ReachesOrientation s.goalY s.k (Real.pi * (5 + 8 * (s.k / damping s.k s.c ^ 2)) * eps) out := by
  subst h0
  refine ReachesOrientation.tail (fb := fb) ?_ hfb
  refine springDamperQuat_reaches hops heps hg hk hc hdt hint hst (obj 0).t hu (fun i => ?_)
  rw [hfb]
  exact SpringDamperOrientation.run_objects hrun i

/-- **C76 (`SpringDamperOrientation.step`).** Without initial angular velocity, and at least critically damped, the
orientations passed to an infinite sequence of `step` calls (each one called with the result of the previous one)
approach the goal directly: about one fixed axis, on the shorter way, without overshoot. -/
theorem C76_spring_damper_step (hops : LawfulQuatOps ops eps) (heps : 0 < eps) (heps1 : eps ≤ 1)
    {s : SpringDamperOrientation} (hg : UnitQuat s.goalY) (hk : 0 < s.k) (hc : 0 < damping s.k s.c) (hdt : 0 < s.dt)
    (hint : 0 < s.intDt) (hkc : 4 * s.k ≤ damping s.k s.c ^ 2) (hst : s.intDt * damping s.k s.c ≤ 1)
    {obj : ℕ → SpringDamperOrientation} {fb out : ℕ → Vec 4 × Vec 3} (h0 : obj 0 = s) {q₀ : Vec 4} (hq : UnitQuat q₀)
    (hfb0 : fb 0 = (q₀, 0)) (hrun : Spec.Run (SpringDamperOrientation.step ops none) obj fb out)
    (hfb : ∀ i, fb (i + 1) = out i) : DirectApproach s.goalY q₀ eps fb := by
  subst h0
  refine springDamperQuat_direct hops heps heps1 hg hq hk hc hdt hint hkc hst (obj 0).t hfb0 (fun i => ?_)
  rw [hfb]
  exact SpringDamperOrientation.run_objects hrun i

/-- Such executions exist from every object and every first state. -/
theorem C75_spring_damper_runs_exist (s : SpringDamperOrientation) (hint : 0 < s.intDt) (x : Vec 4 × Vec 3) :
    ∃ obj fb out, obj 0 = s ∧ fb 0 = x ∧ Spec.Run (SpringDamperOrientation.step ops none) obj fb out ∧
      ∀ i, fb (i + 1) = out i := by
  classical
  let next : SpringDamperOrientation × (Vec 4 × Vec 3) → SpringDamperOrientation × (Vec 4 × Vec 3) := fun p =>
    let r := (SpringDamperOrientation.step ops none p.2.1 p.2.2).exec p.1
    (r.2, match r.1 with | .ok x => x | .error _ => p.2)
  let tr : ℕ → SpringDamperOrientation × (Vec 4 × Vec 3) := fun i => next^[i] (s, x)
  have hsucc : ∀ i, tr (i + 1) = next (tr i) := fun i => Function.iterate_succ_apply' _ _ _
  have hstep : ∀ (o : SpringDamperOrientation) (y : Vec 4) (yd : Vec 3), 0 < o.intDt →
      ∃ r, (SpringDamperOrientation.step ops none y yd).exec o =
        (.ok r, { o.beginStep y yd with currentY := r.1, currentYd := r.2 }) := by
    intro o y yd ho
    rw [SpringDamperOrientation.exec_step, springDamperQuatStep_eq _ _ _ ho]
    exact ⟨_, rfl⟩
  have hinv : ∀ i, 0 < (tr i).1.intDt := by
    intro i
    induction i with
    | zero => exact hint
    | succ i ih =>
      obtain ⟨r, hr⟩ := hstep (tr i).1 (tr i).2.1 (tr i).2.2 ih
      rw [hsucc]; simp only [next, hr]; exact ih
  refine ⟨fun i => (tr i).1, fun i => (tr i).2, fun i => (tr (i + 1)).2, rfl, rfl, ?_, fun i => rfl⟩
  intro i
  obtain ⟨r, hr⟩ := hstep (tr i).1 (tr i).2.1 (tr i).2.2 (hinv i)
  simp only [hsucc]
  simp only [next, hr]

/-- **C75 (default damping).** Critical damping, the default, meets the conditions of C75 if `5 * int_dt * √k ≤ 2`. -/
theorem C75_default_damping {k intDt : ℝ} (hk : 0 < k) (h : 5 * (intDt * √k) ≤ 2) :
    0 < damping k none ∧ intDt * (damping k none ^ 2 + k) ≤ damping k none := by
  have hs : 0 < √k := Real.sqrt_pos.2 hk
  have hsq : √k ^ 2 = k := Real.sq_sqrt hk.le
  have hd : damping k none = 2 * √k := rfl
  rw [hd]
  refine ⟨by positivity, ?_⟩
  have e : intDt * ((2 * √k) ^ 2 + k) = 5 * (intDt * √k) * √k := by
    rw [mul_pow, hsq]
    have : 5 * (intDt * √k) * √k = 5 * intDt * √k ^ 2 := by ring
    rw [this, hsq]; ring
  rw [e]
  nlinarith

/-- **C76 (default damping).** Critical damping, the default, meets the conditions of C76 if `2 * int_dt * √k ≤ 1`. -/
theorem C76_default_damping {k intDt : ℝ} (hk : 0 < k) (h : 2 * (intDt * √k) ≤ 1) :
    0 < damping k none ∧ 4 * k ≤ damping k none ^ 2 ∧ intDt * damping k none ≤ 1 := by
  have hs : 0 < √k := Real.sqrt_pos.2 hk
  have hsq : √k ^ 2 = k := Real.sq_sqrt hk.le
  have hd : damping k none = 2 * √k := rfl
  rw [hd]
  exact ⟨by positivity, by rw [mul_pow, hsq]; linarith, by linarith⟩

/-- The constructor's defaults meet the conditions. -/
example : (1 / 1000 : ℝ) * (damping 1 none ^ 2 + 1) ≤ damping 1 none ∧ (1 / 1000 : ℝ) * damping 1 none ≤ 1 :=
  ⟨(C75_default_damping one_pos (by rw [Real.sqrt_one]; norm_num)).2,
    (C76_default_damping one_pos (by rw [Real.sqrt_one]; norm_num)).2.2⟩

/-- Finding (C75): the tolerance is not an artefact. An orientation at rest whose distance from the goal is below the
threshold is never left. -/
theorem C75_dead_zone (hops : LawfulQuatOps ops eps) (s : SpringDamperOrientation) (hint : 0 < s.intDt)
    (hg : UnitQuat s.goalY) {y : Vec 4} (hy : UnitQuat y) (hsin : Real.sin (rotationAngle s.goalY y / 2) < eps) :
    ((SpringDamperOrientation.step ops none y 0).exec s).1 = .ok (y, 0) := by
  have hu := LawfulQuatOps.unit_mul hops hg (LawfulQuatOps.unit_conj hops hy)
  have hd : QuatStepArgs.diff ops s.goalY y = 0 := by
    apply hops.log_small _ hu
    have hre : ops.mul s.goalY (ops.conj y) 0 = ∑ i, s.goalY i * y i := by
      have h1 := hops.mul s.goalY _ hg (LawfulQuatOps.unit_conj hops hy)
      rw [hops.conj y hy] at h1
      rw [← inner_of_mul_star, ← h1]
      rfl
    have hsum : ops.mul s.goalY (ops.conj y) 1 ^ 2 + ops.mul s.goalY (ops.conj y) 2 ^ 2 +
        ops.mul s.goalY (ops.conj y) 3 ^ 2 = 1 - |∑ i, s.goalY i * y i| ^ 2 := by
      unfold UnitQuat at hu
      rw [sq_abs, ← hre]
      linarith
    rw [hsum]
    unfold rotationAngle at hsin
    rwa [mul_div_cancel_left₀ _ (two_ne_zero), Real.sin_arccos] at hsin
  rw [SpringDamperOrientation.exec_step, springDamperQuatStep_eq _ _ _ hint]
  have hfix : ∀ h, geoBody ops s.goalY s.k (damping s.k s.c) h (y, 0) = (y, 0) := by
    intro h
    unfold geoBody
    simp only [hd, Pi.zero_apply, mul_zero, sub_zero, add_zero]
    rw [show (fun _ : Fin 3 => (0 : ℝ)) = 0 from rfl, LawfulQuatOps.exp_zero_mul hops hy]
  have : ∀ L : List (ℝ × ℝ), L.foldl (fun s' p => geoBody ops s.goalY s.k (damping s.k s.c) p.1 s') (y, 0) = (y, 0) := by
    intro L
    induction L with
    | nil => rfl
    | cons p L ih => rw [List.foldl_cons, hfix, ih]
  rw [this]

section OpenLoop
variable {s : SpringDamperOrientation}

/-- Rows of open-loop executions are the positions of one sequence of states. -/
theorem SpringDamperOrientation.openLoop_rows (s : SpringDamperOrientation) (hdt : 0 < s.dt) (hint : 0 < s.intDt) :
    ∃ xs : ℕ → Vec 4 × Vec 3, xs 0 = (s.startY, 0) ∧
      (∀ i : ℕ, springDamperQuatStep ops s.goalY s.k s.c none none s.intDt (0 + i * s.dt) (0 + i * s.dt + s.dt) (xs i) =
        .ok (xs (i + 1))) ∧
      ∀ r, ((SpringDamperOrientation.openLoop ops r none).exec s).1 =
        if arangeLen 0 (r + s.dt) s.dt = 0 then .error .indexError
        else .ok ((List.range (arangeLen 0 (r + s.dt) s.dt)).map (arangeAt 0 s.dt),
          (List.range (arangeLen 0 (r + s.dt) s.dt)).map (fun i => (xs i).1)) := by
  let nxt : ℕ → Vec 4 × Vec 3 → Vec 4 × Vec 3 := fun i x =>
    (subSteps s.intDt (arangeAt 0 s.dt (i + 1)) (arangeAt 0 s.dt i)).foldl
      (fun x p => geoBody ops s.goalY s.k (damping s.k s.c) p.1 x) x
  have hnxt : ∀ i x, springDamperQuatStep ops s.goalY s.k s.c none none s.intDt (arangeAt 0 s.dt i)
      (arangeAt 0 s.dt (i + 1)) x = .ok (nxt i x) := fun i x => springDamperQuatStep_eq _ _ _ hint _ _ _
  let xs : ℕ → Vec 4 × Vec 3 := fun i => Nat.rec (s.startY, 0) (fun i x => nxt i x) i
  have hxs : ∀ i, xs (i + 1) = nxt i (xs i) := fun i => rfl
  refine ⟨xs, rfl, fun i => ?_, fun r => openLoopWith_total (goalT := r) (startT := 0) (runT := some r) hdt.ne' hnxt rfl hxs⟩
  rw [hxs, ← hnxt]
  have e : arangeAt 0 s.dt (i + 1) = 0 + i * s.dt + s.dt := by unfold arangeAt; push_cast; ring
  rw [e]
  rfl

/-- **C75 (`SpringDamperOrientation.open_loop`).** Rows of sufficiently long open-loop executions are close to the goal
orientation. -/
theorem C75_spring_damper_open_loop (hops : LawfulQuatOps ops eps) (heps : 0 < eps) (hg : UnitQuat s.goalY)
    (hq : UnitQuat s.startY) (hk : 0 < s.k) (hc : 0 < damping s.k s.c) (hdt : 0 < s.dt) (hint : 0 < s.intDt)
    (hst : s.intDt * (damping s.k s.c ^ 2 + s.k) ≤ damping s.k s.c) :
    (∀ r : ℝ, 0 ≤ r → ∃ T Y, ((SpringDamperOrientation.openLoop ops r none).exec s).1 = .ok (T, Y)) ∧
    ∃ R : ℝ, ∀ (r : ℝ) T Y, ((SpringDamperOrientation.openLoop ops r none).exec s).1 = .ok (T, Y) →
      T.length = Y.length ∧ ∀ i (hT : i < T.length) (hY : i < Y.length), R ≤ T[i] →
        rotationAngle s.goalY Y[i] ≤ Real.pi * (5 + 8 * (s.k / damping s.k s.c ^ 2)) * eps := by
  obtain ⟨xs, hx0, hx, hol⟩ := SpringDamperOrientation.openLoop_rows (ops := ops) s hdt hint
  constructor
  · intro r hr
    rw [hol]
    have hn : arangeLen 0 (r + s.dt) s.dt ≠ 0 := by
      unfold arangeLen
      rw [sub_zero, Ne, Nat.ceil_eq_zero, not_le]
      positivity
    rw [if_neg hn]
    exact ⟨_, _, rfl⟩
  · have hr := springDamperQuat_reaches hops heps hg hk hc hdt hint hst 0 (by rw [hx0]; exact hq) hx
    obtain ⟨N, hN⟩ := eventually_atTop.1 hr
    refine ⟨N * s.dt, ?_⟩
    intro r T Y h
    rw [hol] at h
    split_ifs at h with hz
    simp only [Except.ok.injEq, Prod.mk.injEq] at h
    obtain ⟨rfl, rfl⟩ := h
    refine ⟨by simp, ?_⟩
    intro i hT hY hR
    simp only [List.getElem_map, List.getElem_range] at hR ⊢
    refine (hN i ?_).1
    unfold arangeAt at hR
    rw [zero_add] at hR
    have := le_of_mul_le_mul_right hR hdt
    exact_mod_cast this

/-- **C76 (`SpringDamperOrientation.open_loop`).** At least critically damped, open-loop executions of every length
show the beginning of one and the same direct approach from the start to the goal orientation. -/
theorem C76_spring_damper_open_loop (hops : LawfulQuatOps ops eps) (heps : 0 < eps) (heps1 : eps ≤ 1)
    (hg : UnitQuat s.goalY) (hq : UnitQuat s.startY) (hk : 0 < s.k) (hc : 0 < damping s.k s.c) (hdt : 0 < s.dt)
    (hint : 0 < s.intDt) (hkc : 4 * s.k ≤ damping s.k s.c ^ 2) (hst : s.intDt * damping s.k s.c ≤ 1) :
    ∃ xs : ℕ → Vec 4 × Vec 3, xs 0 = (s.startY, 0) ∧ DirectApproach s.goalY s.startY eps xs ∧
      ∀ (r : ℝ) T Y, ((SpringDamperOrientation.openLoop ops r none).exec s).1 = .ok (T, Y) →
        ∀ i (hY : i < Y.length), Y[i] = (xs i).1 := by
  obtain ⟨xs, hx0, hx, hol⟩ := SpringDamperOrientation.openLoop_rows (ops := ops) s hdt hint
  refine ⟨xs, hx0, springDamperQuat_direct hops heps heps1 hg hq hk hc hdt hint hkc hst 0 hx0 hx, ?_⟩
  intro r T Y h
  rw [hol] at h
  split_ifs at h with hz
  simp only [Except.ok.injEq, Prod.mk.injEq] at h
  obtain ⟨rfl, rfl⟩ := h
  intro i hY
  simp

end OpenLoop

end Verif
