import Verif.Lemmas.Cartesian
import Verif.Props.Convergence
import Verif.Props.Cartesian
import Verif.Spec.Spring

/-! # C56 (spring-damper systems) and C31, C34 for `SpringDamperOrientation` -/

namespace Verif
open Filter Topology Spec
variable {d : ℕ}

theorem defaultDamping_eq (c : Option ℝ) (k : ℝ) : defaultDamping c k = damping k c := by
  cases c <;> rfl

/-- One sub-step of the spring-damper system in one dimension. -/
theorem springDamperBody_sd (goalY : Vec d) (k c h t : ℝ) (s : Vec d × Vec d) (i : Fin d) :
    ((springDamperBody goalY k c none none h t s).1 i - goalY i, (springDamperBody goalY k c none none h t s).2 i) =
      sdStep k c h 0 (s.1 i - goalY i, s.2 i) := by
  unfold springDamperBody sdStep sdCoupling
  ext
  · simp only [Pi.zero_apply]; ring
  · simp only [Pi.zero_apply]; ring

theorem springDamper_foldl (goalY : Vec d) (k c : ℝ) (i : Fin d) (L : List (ℝ × ℝ)) : ∀ s : Vec d × Vec d,
    ((L.foldl (fun s p => springDamperBody goalY k c none none p.1 p.2 s) s).1 i - goalY i,
        (L.foldl (fun s p => springDamperBody goalY k c none none p.1 p.2 s) s).2 i) =
      L.foldl (fun s p => sdStep k c p.1 ((fun _ => (0 : ℝ)) p.2) s) (s.1 i - goalY i, s.2 i) := by
  induction L with
  | nil => intro s; rfl
  | cons p L ih => intro s; rw [List.foldl_cons, List.foldl_cons, ih, springDamperBody_sd]

theorem springDamperStep_eq (goalY : Vec d) (k : ℝ) (c : Option ℝ) (coupling : Option (Coupling d))
    (pre : Option (Vec d × Vec d)) {intDt : ℝ} (hint : 0 < intDt) (lastT t : ℝ) (s : Vec d × Vec d) :
    springDamperStep goalY k c coupling pre intDt lastT t s =
      .ok ((subSteps intDt t lastT).foldl (fun s p => springDamperBody goalY k (damping k c) coupling pre p.1 p.2 s) s) := by
  unfold springDamperStep
  rw [intLoop_eq _ hint, defaultDamping_eq]

/-- Every sequence of states, each one computed from the previous one, converges to the goal. -/
theorem springDamper_tendsto {goalY : Vec d} {k dt intDt : ℝ} {c : Option ℝ}
    (hst : StableSpring k (damping k c) dt intDt) (t0 : ℝ) {xs : ℕ → Vec d × Vec d}
    (hx : ∀ i : ℕ, springDamperStep goalY k c none none intDt (t0 + i * dt) (t0 + (i + 1) * dt) (xs i) =
      .ok (xs (i + 1))) : Tendsto xs atTop (𝓝 (goalY, 0)) := by
  obtain ⟨hk, hc, hdt, hint, h⟩ := hst
  apply tendsto_of_coordinates
  intro j
  have hrec : ∀ i : ℕ, ((xs (i + 1)).1 j - goalY j, (xs (i + 1)).2 j) =
      (subSteps intDt (t0 + (i + 1) * dt) (t0 + i * dt)).foldl
        (fun s p => sdStep k (damping k c) p.1 ((fun _ => (0 : ℝ)) p.2) s) ((xs i).1 j - goalY j, (xs i).2 j) := by
    intro i
    have h1 := hx i
    rw [springDamperStep_eq _ _ _ _ _ hint] at h1
    injection h1 with h1
    rw [← h1]
    exact springDamper_foldl goalY k (damping k c) j _ _
  rcases h with h | ⟨⟨n, hn, hn'⟩, h⟩
  · exact sd_tendsto_robust (t0 := t0) (x := fun i => ((xs i).1 j - goalY j, (xs i).2 j)) hk hc hint h hdt
      tendsto_const_nhds hrec
  · exact sd_tendsto_sharp (t0 := t0) (x := fun i => ((xs i).1 j - goalY j, (xs i).2 j)) hk hc hint h hn hn'
      tendsto_const_nhds hrec

namespace SpringDamper

/-- Object after the bookkeeping of `step`. -/
def beginStep (s : SpringDamper d) (y yd : Vec d) : SpringDamper d :=
  { s with lastT := some s.t, t := s.t + s.dt, currentY := y, currentYd := yd, initialized := true }

theorem exec_step (coupling : Option (Coupling d)) (y yd : Vec d) (s : SpringDamper d) :
    (step coupling y yd).exec s =
      match springDamperStep s.goalY s.k s.c coupling none s.intDt s.t (s.t + s.dt) (y, yd) with
      | .ok r => (.ok r, { s.beginStep y yd with currentY := r.1, currentYd := r.2 })
      | .error e => (.error e, s.beginStep y yd) := by
  unfold step
  simp only [Py.exec_bind, Py.exec_modify, Py.exec_get, Py.exec_lift, Py.exec_pure]
  cases hi : s.initialized with
  | false =>
    simp only [Bool.false_eq_true, if_false, Option.getD_some]
    cases springDamperStep s.goalY s.k s.c coupling none s.intDt s.t (s.t + s.dt) (y, yd) <;> rfl
  | true =>
    simp only [if_true, Option.getD_some]
    cases springDamperStep s.goalY s.k s.c coupling none s.intDt s.t (s.t + s.dt) (y, yd) <;> rfl

end SpringDamper

/-! ## C56 -/

theorem SpringDamper.run_objects {obj : ℕ → SpringDamper d} {fb out : ℕ → Vec d × Vec d}
    (h : Spec.Run (SpringDamper.step none) obj fb out) (i : ℕ) :
    (obj i).t = (obj 0).t + i * (obj 0).dt ∧ (obj i).goalY = (obj 0).goalY ∧ (obj i).k = (obj 0).k ∧
      (obj i).c = (obj 0).c ∧ (obj i).intDt = (obj 0).intDt ∧ (obj i).dt = (obj 0).dt ∧
      springDamperStep (obj 0).goalY (obj 0).k (obj 0).c none none (obj 0).intDt ((obj 0).t + i * (obj 0).dt)
        ((obj 0).t + (i + 1) * (obj 0).dt) (fb i) = .ok (out i) := by
  have key : ∀ i, (obj i).t = (obj 0).t + i * (obj 0).dt ∧ (obj i).goalY = (obj 0).goalY ∧ (obj i).k = (obj 0).k ∧
      (obj i).c = (obj 0).c ∧ (obj i).intDt = (obj 0).intDt ∧ (obj i).dt = (obj 0).dt := by
    intro i
    induction i with
    | zero => simp
    | succ i ih =>
      obtain ⟨h1, h2, h3, h4, h5, h6⟩ := ih
      have hi := h i
      rw [SpringDamper.exec_step] at hi
      cases hr : springDamperStep (obj i).goalY (obj i).k (obj i).c none none (obj i).intDt (obj i).t
          ((obj i).t + (obj i).dt) ((fb i).1, (fb i).2) with
      | error e => rw [hr] at hi; cases hi
      | ok r =>
        rw [hr] at hi
        have e := congrArg Prod.snd hi
        simp only at e
        rw [← e]
        refine ⟨?_, h2, h3, h4, h5, h6⟩
        show (obj i).t + (obj i).dt = _
        rw [h1, h6]; push_cast; ring
  obtain ⟨h1, h2, h3, h4, h5, h6⟩ := key i
  refine ⟨h1, h2, h3, h4, h5, h6, ?_⟩
  have hi := h i
  rw [SpringDamper.exec_step] at hi
  rw [h2, h3, h4, h5, h6, h1] at hi
  have e1 : (obj 0).t + (i + 1) * (obj 0).dt = (obj 0).t + i * (obj 0).dt + (obj 0).dt := by ring
  rw [e1]
  cases hr : springDamperStep (obj 0).goalY (obj 0).k (obj 0).c none none (obj 0).intDt ((obj 0).t + i * (obj 0).dt)
      ((obj 0).t + i * (obj 0).dt + (obj 0).dt) ((fb i).1, (fb i).2) with
  | error e => rw [hr] at hi; cases hi
  | ok r =>
    rw [hr] at hi
    exact congrArg Prod.fst hi

/-- **C56 (step).** Whatever the first passed state, goal and history of the object: if the step size is small enough
for stiffness and damping, the states returned by an infinite sequence of `step` calls, each one called with the result
of the previous one, converge to the goal with velocity 0. -/
theorem C56_step_converges {s : SpringDamper d} (hst : StableSpring s.k (damping s.k s.c) s.dt s.intDt)
    {obj : ℕ → SpringDamper d} {fb out : ℕ → Vec d × Vec d} (h0 : obj 0 = s)
    (hrun : Spec.Run (SpringDamper.step none) obj fb out) (hfb : ∀ i, fb (i + 1) = out i) :
    Tendsto out atTop (𝓝 (s.goalY, 0)) := by
  subst h0
  have hlim : Tendsto fb atTop (𝓝 ((obj 0).goalY, 0)) := by
    refine springDamper_tendsto hst (obj 0).t (fun i => ?_)
    rw [hfb]
    exact (SpringDamper.run_objects hrun i).2.2.2.2.2.2
  have : out = fun i => fb (i + 1) := by funext i; exact (hfb i).symm
  rw [this]
  exact (tendsto_add_atTop_iff_nat 1).2 hlim

/-- Such executions exist from every object and every first state. -/
theorem C56_runs_exist (s : SpringDamper d) (hint : 0 < s.intDt) (x : Vec d × Vec d) :
    ∃ obj fb out, obj 0 = s ∧ fb 0 = x ∧ Spec.Run (SpringDamper.step (d := d) none) obj fb out ∧
      ∀ i, fb (i + 1) = out i := by
  classical
  let next : SpringDamper d × (Vec d × Vec d) → SpringDamper d × (Vec d × Vec d) := fun p =>
    let r := (SpringDamper.step none p.2.1 p.2.2).exec p.1
    (r.2, match r.1 with | .ok x => x | .error _ => p.2)
  let tr : ℕ → SpringDamper d × (Vec d × Vec d) := fun i => next^[i] (s, x)
  have hsucc : ∀ i, tr (i + 1) = next (tr i) := fun i => Function.iterate_succ_apply' _ _ _
  have hstep : ∀ (o : SpringDamper d) (y yd : Vec d), 0 < o.intDt →
      ∃ r, (SpringDamper.step none y yd).exec o = (.ok r, { o.beginStep y yd with currentY := r.1, currentYd := r.2 }) := by
    intro o y yd ho
    rw [SpringDamper.exec_step, springDamperStep_eq _ _ _ _ _ ho]
    exact ⟨_, rfl⟩
  have hinv : ∀ i, 0 < (tr i).1.intDt := by
    intro i
    induction i with
    | zero => exact hint
    | succ i ih =>
      obtain ⟨r, hr⟩ := hstep (tr i).1 (tr i).2.1 (tr i).2.2 ih
      rw [hsucc]; simp only [next, hr]; exact ih
  refine ⟨fun i => (tr i).1, fun i => (tr i).2, fun i => (tr (i + 1)).2, rfl, rfl, ?_, fun i => rfl⟩
  intro i
  obtain ⟨r, hr⟩ := hstep (tr i).1 (tr i).2.1 (tr i).2.2 (hinv i)
  simp only [hsucc]
  simp only [next, hr]

/-- **C56 (default damping).** With the critical damping that is used by default the condition is
`30 * int_dt * √k ≤ 1`, or `int_dt * √k < 0.828` if `dt` is a multiple of `int_dt`. -/
theorem C56_default_damping {k dt intDt : ℝ} (hk : 0 < k) (hdt : 0 < dt) (hint : 0 < intDt)
    (h : 30 * (intDt * √k) ≤ 1 ∨ (∃ n : ℕ, 0 < n ∧ dt = n * intDt) ∧ intDt * √k ≤ 828 / 1000) :
    StableSpring k (damping k none) dt intDt := by
  have hs : 0 < √k := Real.sqrt_pos.2 hk
  have hsq : √k ^ 2 = k := Real.sq_sqrt hk.le
  have hd : damping k none = 2 * √k := rfl
  refine ⟨hk, by rw [hd]; positivity, hdt, hint, ?_⟩
  rw [hd]
  set r := √k with hr
  rcases h with h | ⟨hn, h⟩
  · left
    have e1 : 2 * intDt * (2 * k + (2 * r) ^ 2) * (k + (2 * r) ^ 2) = 30 * (intDt * r) * (2 * r ^ 3) := by
      rw [← hsq]; ring
    have e2 : k * (2 * r) = 2 * r ^ 3 := by rw [← hsq]; ring
    rw [e1, e2]
    have : 0 < 2 * r ^ 3 := by positivity
    nlinarith
  · right
    refine ⟨hn, ?_⟩
    have e1 : intDt ^ 2 * k + 2 * (intDt * (2 * r)) = (intDt * r) ^ 2 + 4 * (intDt * r) := by rw [← hsq]; ring
    rw [e1]
    have : 0 < intDt * r := by positivity
    nlinarith

/-- The constructor's defaults `dt = 0.01`, `k = 1`, `int_dt = 0.001` meet the condition. -/
example : StableSpring 1 (damping 1 none) (1 / 100) (1 / 1000) :=
  C56_default_damping one_pos (by norm_num) (by norm_num) (Or.inl (by rw [Real.sqrt_one]; norm_num))

/-- **C56 (open loop).** Rows of sufficiently long open-loop executions are as close to the goal as required. -/
theorem C56_open_loop_converges {s : SpringDamper d} (hst : StableSpring s.k (damping s.k s.c) s.dt s.intDt) :
    (∀ r : ℝ, 0 ≤ r → ∃ T Y, ((SpringDamper.openLoop r none).exec s).1 = .ok (T, Y)) ∧
    ∀ ε > 0, ∃ R : ℝ, ∀ (r : ℝ) T Y, ((SpringDamper.openLoop r none).exec s).1 = .ok (T, Y) →
      T.length = Y.length ∧
      ∀ i (hT : i < T.length) (hY : i < Y.length), R ≤ T[i] → ∀ k, |Y[i] k - s.goalY k| < ε := by
  have hst' := hst
  obtain ⟨hk, hc, hdt, hint, -⟩ := hst'
  let nxt : ℕ → Vec d × Vec d → Vec d × Vec d := fun i x =>
    (subSteps s.intDt (arangeAt 0 s.dt (i + 1)) (arangeAt 0 s.dt i)).foldl
      (fun x p => springDamperBody s.goalY s.k (damping s.k s.c) none none p.1 p.2 x) x
  have hnxt : ∀ i x, springDamperStep s.goalY s.k s.c none none s.intDt (arangeAt 0 s.dt i) (arangeAt 0 s.dt (i + 1)) x =
      .ok (nxt i x) := fun i x => springDamperStep_eq _ _ _ _ _ hint _ _ _
  let xs : ℕ → Vec d × Vec d := fun i => Nat.rec (s.startY, 0) (fun i x => nxt i x) i
  have hxs : ∀ i, xs (i + 1) = nxt i (xs i) := fun i => rfl
  have hlim : Tendsto xs atTop (𝓝 (s.goalY, 0)) := by
    refine springDamper_tendsto hst 0 (fun i => ?_)
    have := hnxt i (xs i)
    rw [← hxs] at this
    simp only [arangeAt] at this
    push_cast at this
    exact this
  have hol : ∀ r, ((SpringDamper.openLoop r none).exec s).1 =
      if arangeLen 0 (r + s.dt) s.dt = 0 then .error .indexError
      else .ok ((List.range (arangeLen 0 (r + s.dt) s.dt)).map (arangeAt 0 s.dt),
        (List.range (arangeLen 0 (r + s.dt) s.dt)).map (fun i => (xs i).1)) := fun r =>
    openLoopWith_total (goalT := r) (startT := 0) (runT := some r) hdt.ne' hnxt rfl hxs
  constructor
  · intro r hr
    rw [hol]
    have hn : arangeLen 0 (r + s.dt) s.dt ≠ 0 := by
      unfold arangeLen
      rw [sub_zero, Ne, Nat.ceil_eq_zero, not_le]
      positivity
    rw [if_neg hn]
    exact ⟨_, _, rfl⟩
  · intro ε hε
    have hev : ∃ N, ∀ i ≥ N, ∀ k, |(xs i).1 k - s.goalY k| < ε := by
      have h1 : Tendsto (fun i => (xs i).1) atTop (𝓝 s.goalY) := (continuous_fst.tendsto _).comp hlim
      have h2 : ∀ k, ∀ᶠ i in atTop, |(xs i).1 k - s.goalY k| < ε := by
        intro k
        have h3 := (tendsto_pi_nhds.1 h1) k
        obtain ⟨N, hN⟩ := (Metric.tendsto_atTop.1 h3) ε hε
        exact eventually_atTop.2 ⟨N, fun i hi => by simpa [Real.dist_eq] using hN i hi⟩
      exact eventually_atTop.1 (eventually_all.2 h2)
    obtain ⟨N, hN⟩ := hev
    refine ⟨N * s.dt, ?_⟩
    intro r T Y h
    rw [hol] at h
    split_ifs at h with hz
    simp only [Except.ok.injEq, Prod.mk.injEq] at h
    obtain ⟨rfl, rfl⟩ := h
    refine ⟨by simp, ?_⟩
    intro i hT hY hR k
    simp only [List.getElem_map, List.getElem_range] at hR ⊢
    apply hN
    unfold arangeAt at hR
    rw [zero_add] at hR
    have := le_of_mul_le_mul_right hR hdt
    exact_mod_cast this

/-- **C56.** At rest at the goal the spring-damper system stays there exactly: for every stiffness, damping, step size
and time at which the object is asked, and whatever happened to it before. -/
theorem C56_goal_is_equilibrium (s : SpringDamper d) (hint : 0 < s.intDt) :
    ((SpringDamper.step none s.goalY 0).exec s).1 = .ok (s.goalY, 0) := by
  rw [SpringDamper.exec_step, springDamperStep_eq _ _ _ _ _ hint]
  have hb : ∀ L : List (ℝ × ℝ), L.foldl (fun x p => springDamperBody s.goalY s.k (damping s.k s.c) none none p.1 p.2 x)
      (s.goalY, 0) = (s.goalY, 0) := by
    intro L
    induction L with
    | nil => rfl
    | cons p L ih =>
      rw [List.foldl_cons]
      have : springDamperBody s.goalY s.k (damping s.k s.c) none none p.1 p.2 (s.goalY, 0) = (s.goalY, 0) := by
        unfold springDamperBody sdCoupling
        ext i <;> simp
      rw [this, ih]
  simp only [hb]

/-- **C56.** It is the only equilibrium: a resting state that a sub-step of positive length leaves unchanged is the
goal. -/
theorem C56_only_equilibrium {goalY y : Vec d} {k c h t : ℝ} (hk : k ≠ 0) (hh : h ≠ 0)
    (he : springDamperBody goalY k c none none h t (y, 0) = (y, 0)) : y = goalY := by
  funext i
  have h2 := congrFun (congrArg Prod.snd he) i
  simp only [springDamperBody, sdCoupling, Pi.zero_apply] at h2
  have : h * (k * (goalY i - y i)) = 0 := by linarith
  rcases mul_eq_zero.1 this with h3 | h3
  · exact absurd h3 hh
  · rcases mul_eq_zero.1 h3 with h4 | h4
    · exact absurd h4 hk
    · linarith

/-- **C56, limit.** The exact bound cannot be improved: for `dt = int_dt` with `int_dt² k + 2 int_dt c ≥ 4` there is a
state from which the distance to the goal does not decrease in any step. -/
theorem C56_unstable {k c h : ℝ} (hk : 0 < k) (hh : 0 < h) (hs : 4 ≤ h ^ 2 * k + 2 * (h * c)) (goal : ℝ) :
    ∃ x : Vec 1 × Vec 1, x ≠ (fun _ => goal, 0) ∧ ∀ xs : ℕ → Vec 1 × Vec 1, xs 0 = x →
      (∀ i : ℕ, springDamperStep (fun _ => goal) k (some c) none none h (i * h) ((i + 1) * h) (xs i) = .ok (xs (i + 1))) →
      ∀ i, |(xs i).2 0| ≤ |(xs (i + 1)).2 0| ∧ (xs i).2 0 ≠ 0 := by
  obtain ⟨l, hl, he⟩ := sdStep_unstable (k := k) (c := c) (h := h) hs
  have hv : -(h * k) ≠ 0 := by
    have : 0 < h * k := by positivity
    linarith
  refine ⟨(fun _ => goal + (l - 1 + h * c), fun _ => -(h * k)), ?_, ?_⟩
  · intro hx
    have := congrFun (congrArg Prod.snd hx) 0
    exact hv this
  · intro xs h0 hx
    have hrec : ∀ i : ℕ, ((xs (i + 1)).1 0 - goal, (xs (i + 1)).2 0) = sdStep k c h 0 ((xs i).1 0 - goal, (xs i).2 0) := by
      intro i
      have h1 := hx i
      rw [springDamperStep_eq _ _ _ _ _ hh] at h1
      injection h1 with h1
      rw [← h1]
      have hu := subSteps_uniform (h := h) (a := i * h) (b := (i + 1) * h) (n := 1) hh (by push_cast; ring)
      obtain ⟨p, hp⟩ := List.length_eq_one_iff.1 hu.1
      have hp1 : p.1 = h := hu.2 p (by rw [hp]; simp)
      have := springDamper_foldl (fun _ : Fin 1 => goal) k c 0 (subSteps h ((i + 1) * h) (i * h)) (xs i)
      rw [hp] at this ⊢
      simp only [List.foldl_cons, List.foldl_nil, hp1] at this ⊢
      exact this
    have key : ∀ i : ℕ, ((xs i).1 0 - goal, (xs i).2 0) = (l ^ i * (l - 1 + h * c), l ^ i * -(h * k)) := by
      intro i
      induction i with
      | zero => rw [h0]; simp
      | succ i ih =>
        rw [hrec, ih]
        have hlin : ∀ r a b : ℝ, sdStep k c h 0 (r * a, r * b) = (r * (sdStep k c h 0 (a, b)).1, r * (sdStep k c h 0 (a, b)).2) := by
          intro r a b
          unfold sdStep
          ext
          · simp only; ring
          · simp only; ring
        rw [hlin, he]
        ext
        · simp only; ring
        · simp only; ring
    intro i
    have k1 := congrArg Prod.snd (key i)
    have k2 := congrArg Prod.snd (key (i + 1))
    simp only at k1 k2
    have hl1 : 1 ≤ |l| := by rw [abs_of_nonpos (by linarith)]; linarith
    have hl0 : l ≠ 0 := by intro h; rw [h] at hl; linarith
    constructor
    · rw [k1, k2, pow_succ, abs_mul, abs_mul, abs_mul]
      have h1 : 0 ≤ |l ^ i| := abs_nonneg _
      have h2 : 0 ≤ |-(h * k)| := abs_nonneg _
      have : |l ^ i| * 1 ≤ |l ^ i| * |l| := mul_le_mul_of_nonneg_left hl1 h1
      rw [mul_one] at this
      exact mul_le_mul_of_nonneg_right this h2
    · rw [k1]
      exact mul_ne_zero (pow_ne_zero _ hl0) hv

/-! ## C31, C34: orientation -/

section Orientation
variable {ops : QuatOps} {eps : ℝ}

theorem springDamperQuatBody_unit (hops : LawfulQuatOps ops eps) (goalY : Vec 4) (k c : ℝ) (coupling : Option RotCoupling)
    (pre : Option (Vec 3 × Vec 3)) (dt t : ℝ) {s : Vec 4 × Vec 3} (hs : UnitQuat s.1) :
    UnitQuat (springDamperQuatBody ops goalY k c coupling pre dt t s).1 :=
  LawfulQuatOps.unit_mul hops (LawfulQuatOps.unit_exp hops _) hs

/-- **C31 (spring-damper).** The orientation step function keeps unit quaternions: for all goals, gains, coupling terms,
velocities and step sizes. -/
theorem C31_spring_damper_function (hops : LawfulQuatOps ops eps) {goalY : Vec 4} {k : ℝ} {c : Option ℝ}
    {coupling : Option RotCoupling} {pre : Option (Vec 3 × Vec 3)} {intDt lastT t : ℝ} {s s' : Vec 4 × Vec 3}
    (hs : UnitQuat s.1) (h : springDamperQuatStep ops goalY k c coupling pre intDt lastT t s = .ok s') :
    UnitQuat s'.1 :=
  intLoop_inv (P := fun x : Vec 4 × Vec 3 => UnitQuat x.1)
    (fun dt t _ hx => springDamperQuatBody_unit hops goalY k _ coupling pre dt t hx) hs h

namespace SpringDamperOrientation

/-- Object after the bookkeeping of `step`. -/
def beginStep (s : SpringDamperOrientation) (y : Vec 4) (yd : Vec 3) : SpringDamperOrientation :=
  { s with lastT := some s.t, t := s.t + s.dt, currentY := y, currentYd := yd, initialized := true }

theorem exec_step (coupling : Option RotCoupling) (y : Vec 4) (yd : Vec 3) (s : SpringDamperOrientation) :
    (step ops coupling y yd).exec s =
      match springDamperQuatStep ops s.goalY s.k s.c coupling none s.intDt s.t (s.t + s.dt) (y, yd) with
      | .ok r => (.ok r, { s.beginStep y yd with currentY := r.1, currentYd := r.2 })
      | .error e => (.error e, s.beginStep y yd) := by
  unfold step
  simp only [Py.exec_bind, Py.exec_modify, Py.exec_get, Py.exec_lift, Py.exec_pure]
  cases hi : s.initialized with
  | false =>
    simp only [Bool.false_eq_true, if_false, Option.getD_some]
    cases springDamperQuatStep ops s.goalY s.k s.c coupling none s.intDt s.t (s.t + s.dt) (y, yd) <;> rfl
  | true =>
    simp only [if_true, Option.getD_some]
    cases springDamperQuatStep ops s.goalY s.k s.c coupling none s.intDt s.t (s.t + s.dt) (y, yd) <;> rfl

end SpringDamperOrientation

/-- **C31 (spring-damper).** `SpringDamperOrientation.step` returns a unit quaternion if it is called with one. -/
theorem C31_spring_damper_step (hops : LawfulQuatOps ops eps) {c : Option RotCoupling} {s : SpringDamperOrientation}
    {y : Vec 4} {yd : Vec 3} (hy : UnitQuat y) {r : Vec 4 × Vec 3}
    (h : ((SpringDamperOrientation.step ops c y yd).exec s).1 = .ok r) : UnitQuat r.1 := by
  rw [SpringDamperOrientation.exec_step] at h
  cases h1 : springDamperQuatStep ops s.goalY s.k s.c c none s.intDt s.t (s.t + s.dt) (y, yd) with
  | error e => rw [h1] at h; cases h
  | ok r' =>
    rw [h1] at h
    injection h with h
    rw [← h]
    exact C31_spring_damper_function hops (s := (y, yd)) hy h1

/-- **C31 (spring-damper).** Every row of `SpringDamperOrientation.open_loop` is a unit quaternion. -/
theorem C31_spring_damper_open_loop (hops : LawfulQuatOps ops eps) {c : Option RotCoupling} {s : SpringDamperOrientation}
    (hst : UnitQuat s.startY) {runT : ℝ} {T : List ℝ} {Y : List (Vec 4)}
    (h : ((SpringDamperOrientation.openLoop ops runT c).exec s).1 = .ok (T, Y)) : ∀ y ∈ Y, UnitQuat y := by
  have h1 : openLoopWith runT 0 s.dt (s.startY, (0 : Vec 3)) (some runT)
    (springDamperQuatStep ops s.goalY s.k s.c c none s.intDt) = .ok (T, Y) := h
  refine openLoopWith_forall (P := fun x : Vec 4 × Vec 3 => UnitQuat x.1) (Q := UnitQuat) hst (fun _ hx => hx)
    ?_ h1
  intro a b x x' hx hx'
  exact C31_spring_damper_function hops hx hx'

/-- **C34 (spring-damper).** At rest at the goal orientation or its antipode `SpringDamperOrientation.step` returns
exactly this state. -/
theorem C34_spring_damper (hops : LawfulQuatOps ops eps) (heps : 0 < eps) (s : SpringDamperOrientation)
    (hint : 0 < s.intDt) (hg : UnitQuat s.goalY) {y : Vec 4} (hy : y = s.goalY ∨ y = -s.goalY) :
    ((SpringDamperOrientation.step ops none y 0).exec s).1 = .ok (y, 0) := by
  have hyu : UnitQuat y := by
    rcases hy with rfl | rfl
    · exact hg
    · exact UnitQuat.neg hg
  have hd : QuatStepArgs.diff ops s.goalY y = 0 := LawfulQuatOps.diff_eq_zero hops heps hg hyu (by
    rcases hy with rfl | rfl
    · left; rfl
    · right; rw [neg_neg])
  have hfix : ∀ dt t, springDamperQuatBody ops s.goalY s.k (damping s.k s.c) none none dt t (y, 0) = (y, 0) := by
    intro dt t
    unfold springDamperQuatBody sdCoupling
    simp only [hd, Pi.zero_apply, mul_zero, sub_zero, add_zero]
    have : (fun _ : Fin 3 => (0 : ℝ)) = 0 := rfl
    rw [this, LawfulQuatOps.exp_zero_mul hops hyu]
  rw [SpringDamperOrientation.exec_step]
  have h1 : springDamperQuatStep ops s.goalY s.k s.c none none s.intDt s.t (s.t + s.dt) (y, 0) = .ok (y, 0) := by
    unfold springDamperQuatStep
    rw [intLoop_eq _ hint, defaultDamping_eq]
    congr 1
    generalize subSteps s.intDt (s.t + s.dt) s.t = L
    induction L with
    | nil => rfl
    | cons p L ih => rw [List.foldl_cons, hfix, ih]
  rw [h1]

/-- The hypotheses of the orientation theorems are met by the quaternion functions of the Cython module. -/
example : ∃ eps > 0, LawfulQuatOps QuatOps.cython eps ∧ UnitQuat ![1, 0, 0, 0] :=
  ⟨_, by norm_num, lawful_cython, by unfold UnitQuat; simp⟩

end Orientation
end Verif
