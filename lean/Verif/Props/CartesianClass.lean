import Verif.Props.Cartesian
import Verif.Props.Imitate

/-! # C33 (product structure), and C06, C20, C22, C24, C28 for Cartesian DMPs -/

namespace Verif
open Spec
variable {m : ℕ}

/-! ## C33 -/

/-- Successful `open_loop` calls, taken apart. -/
theorem CartesianDMP.openLoop_ok {ops : QuatOps} {runT : Option ℝ} {c : Option PoseCoupling} {name qname : String}
    {s : CartesianDMP m} {T : List ℝ} {Y : List (Vec (3 + 4))} :
    ((openLoop ops runT c name qname).exec s).1 = .ok (T, Y) ↔
      ∃ sf qf P R T', StepFunction.lookup name = .ok sf ∧ QuatStepFunction.lookup ops qname = .ok qf ∧
        dmpOpenLoop (s.posOpenLoopArgs c) s.dt runT sf = .ok (T, P) ∧
        openLoopWith s.executionTime 0 s.dt (sliceFrom s.startY, (0 : Vec 3)) runT (qf.run (s.rotOpenLoopArgs c)) =
          .ok (T', R) ∧ P.length = R.length ∧ Y = List.zipWith hstack P R := by
  rw [exec_openLoop]
  simp only [Except.bind]
  cases StepFunction.lookup name with
  | error e => simp
  | ok sf =>
    simp only
    cases h2 : dmpOpenLoop (s.posOpenLoopArgs c) s.dt runT sf with
    | error e => simp [h2]
    | ok p =>
      obtain ⟨T0, P⟩ := p
      simp only
      cases QuatStepFunction.lookup ops qname with
      | error e => simp
      | ok qf =>
        simp only
        cases h4 : openLoopWith s.executionTime 0 s.dt (sliceFrom s.startY, (0 : Vec 3)) runT
            (qf.run (s.rotOpenLoopArgs c)) with
        | error e => simp [h4]
        | ok r =>
          obtain ⟨T', R⟩ := r
          simp only
          constructor
          · intro h
            split_ifs at h with h5
            simp only [Except.ok.injEq, Prod.mk.injEq] at h
            refine ⟨sf, qf, P, R, T', rfl, rfl, ?_, h4, not_not.1 h5, h.2.symm⟩
            rw [h2, h.1]
          · rintro ⟨sf', qf', P', R', T'', hsf, hqf, hP, hR, hlen, hY⟩
            simp only [Except.ok.injEq] at hsf hqf
            subst hsf hqf
            rw [h2] at hP
            rw [h4] at hR
            simp only [Except.ok.injEq, Prod.mk.injEq] at hP hR
            obtain ⟨rfl, rfl⟩ := hP
            obtain ⟨rfl, rfl⟩ := hR
            rw [if_neg (not_not.2 hlen), hY]

theorem map_sliceTo_zipWith {P : List (Vec 3)} {R : List (Vec 4)} (h : P.length = R.length) :
    (List.zipWith hstack P R).map sliceTo = P := by
  apply List.ext_getElem
  · simp [h]
  · intro i h1 h2; simp

theorem map_sliceFrom_zipWith {P : List (Vec 3)} {R : List (Vec 4)} (h : P.length = R.length) :
    (List.zipWith hstack P R).map sliceFrom = R := by
  apply List.ext_getElem
  · simp [h]
  · intro i h1 h2; simp

/-- **C33.** The positions of a Cartesian DMP's `open_loop` are those of a regular three-dimensional DMP with the same
position parameters: neither orientation parameters nor the orientation step function matter. -/
theorem C33_position_is_regular_dmp (s : CartesianDMP m) (p : DMP 3 m) (h1 : p.startY = position s.startY)
    (h2 : p.goalY = position s.goalY) (h3 : p.executionTime = s.executionTime) (h4 : p.dt = s.dt)
    (h5 : p.intDt = s.intDt) (h6 : p.smooth = s.smooth) (h7 : p.alphaY = linear s.alphaY)
    (h8 : p.betaY = linear s.betaY) (h9 : p.ft = s.ftPos) {ops : QuatOps} {runT : Option ℝ} {c : Option PoseCoupling}
    {name qname : String} {T : List ℝ} {Y : List (Vec (3 + 4))}
    (hr : ((CartesianDMP.openLoop ops runT c name qname).exec s).1 = .ok (T, Y)) :
    ((DMP.openLoop runT (c.map PoseCoupling.pos) name).exec p).1 = .ok (T, Y.map position) := by
  obtain ⟨sf, qf, P, R, T', hsf, -, hP, -, hlen, rfl⟩ := CartesianDMP.openLoop_ok.1 hr
  have e : (List.zipWith hstack P R).map position = P := by
    rw [show (position : Vec (3 + 4) → Vec 3) = sliceTo from funext position_eq, map_sliceTo_zipWith hlen]
  rw [DMP.exec_openLoop, hsf, e, ← hP]
  simp only [Except.bind, h4]
  congr 1
  unfold DMP.openLoopArgs CartesianDMP.posOpenLoopArgs CartesianDMP.posArgs
  simp only [h1, h2, h3, h5, h6, h7, h8, h9, position_eq, linear_eq]

/-- Two Cartesian DMPs have the same orientation parameters. -/
structure Spec.SameOrientation {m : ℕ} (s s' : CartesianDMP m) : Prop where
  start : orientation s.startY = orientation s'.startY
  startYd : angular s.startYd = angular s'.startYd
  goal : orientation s.goalY = orientation s'.goalY
  alpha : angular s.alphaY = angular s'.alphaY
  beta : angular s.betaY = angular s'.betaY
  ft : s.ftRot = s'.ftRot
  time : s.executionTime = s'.executionTime
  dt : s.dt = s'.dt
  intDt : s.intDt = s'.intDt
  smooth : s.smooth = s'.smooth

/-- Two Cartesian DMPs have the same position parameters. -/
structure Spec.SamePosition {m : ℕ} (s s' : CartesianDMP m) : Prop where
  start : position s.startY = position s'.startY
  startYd : linear s.startYd = linear s'.startYd
  goal : position s.goalY = position s'.goalY
  alpha : linear s.alphaY = linear s'.alphaY
  beta : linear s.betaY = linear s'.betaY
  ft : s.ftPos = s'.ftPos
  time : s.executionTime = s'.executionTime
  dt : s.dt = s'.dt
  intDt : s.intDt = s'.intDt
  smooth : s.smooth = s'.smooth

theorem CartesianDMP.rotArgs_congr {s s' : CartesianDMP m} (h : SameOrientation s s') (c : Option PoseCoupling) :
    s.rotArgs c = s'.rotArgs c := by
  obtain ⟨h1, h2, h3, h4, h5, h6, h7, h8, h9, h10⟩ := h
  simp only [orientation_eq, angular_eq] at *
  unfold rotArgs
  rw [h1, h2, h3, h4, h5, h6, h7, h9, h10]

/-- The parts of `posArgs` that the step functions use. -/
theorem CartesianDMP.posRun_congr {s s' : CartesianDMP m} (h : SamePosition s s') (c : Option PoseCoupling)
    (sf : StepFunction) (lastT t : ℝ) (x : Vec 3 × Vec 3) :
    sf.run (s.posArgs c) lastT t x = sf.run (s'.posArgs c) lastT t x := by
  obtain ⟨h1, h2, h3, h4, h5, h6, h7, h8, h9, h10⟩ := h
  simp only [position_eq, linear_eq] at *
  rw [run_no_error sf (s.posArgs c) rfl 0 0 0 0, run_no_error sf (s'.posArgs c) rfl 0 0 0 0]
  congr 1
  unfold posArgs
  rw [h1, h2, h3, h4, h5, h6, h7, h9, h10]

/-- **C33.** The orientations of `open_loop` only depend on orientation parameters. -/
theorem C33_orientation_independent {s s' : CartesianDMP m} (h : SameOrientation s s') {ops : QuatOps} {runT : Option ℝ}
    {c : Option PoseCoupling} {name name' qname : String} {T T' : List ℝ} {Y Y' : List (Vec (3 + 4))}
    (hr : ((CartesianDMP.openLoop ops runT c name qname).exec s).1 = .ok (T, Y))
    (hr' : ((CartesianDMP.openLoop ops runT c name' qname).exec s').1 = .ok (T', Y')) :
    Y.map orientation = Y'.map orientation := by
  obtain ⟨sf, qf, P, R, T1, -, hqf, -, hR, hlen, rfl⟩ := CartesianDMP.openLoop_ok.1 hr
  obtain ⟨sf', qf', P', R', T1', -, hqf', -, hR', hlen', rfl⟩ := CartesianDMP.openLoop_ok.1 hr'
  rw [hqf] at hqf'
  simp only [Except.ok.injEq] at hqf'
  subst hqf'
  rw [show (orientation : Vec (3 + 4) → Vec 4) = sliceFrom from funext orientation_eq, map_sliceFrom_zipWith hlen,
    map_sliceFrom_zipWith hlen']
  have e : s.rotOpenLoopArgs c = s'.rotOpenLoopArgs c := by
    unfold CartesianDMP.rotOpenLoopArgs; rw [CartesianDMP.rotArgs_congr h]
  have hs := h.start
  rw [orientation_eq, orientation_eq] at hs
  rw [e, h.time, h.dt, hs, hR'] at hR
  simp only [Except.ok.injEq, Prod.mk.injEq] at hR
  exact hR.2.symm

/-- **C33.** The result of `step` for the position does not depend on orientation parameters or on the passed
orientation, and neither depends on results of earlier calls. -/
theorem C33_step_position {s s' s1 s1' : CartesianDMP m} (h : SamePosition s s') (ht : s.t = s'.t)
    {c : Option PoseCoupling} {sf : StepFunction} {qf qf' : QuatStepFunction} {y y' : Vec (3 + 4)} {yd yd' : Vec (3 + 3)}
    (hy : position y = position y') (hyd : linear yd = linear yd') {r r' : Vec (3 + 4) × Vec (3 + 3)}
    (hr : (CartesianDMP.step c sf qf y yd).exec s = (.ok r, s1))
    (hr' : (CartesianDMP.step c sf qf' y' yd').exec s' = (.ok r', s1')) :
    position r.1 = position r'.1 ∧ linear r.2 = linear r'.2 := by
  rw [CartesianDMP.exec_step] at hr hr'
  simp only [position_eq, linear_eq] at hy hyd ⊢
  rw [CartesianDMP.posRun_congr h, ht, h.dt, hy, hyd] at hr
  cases h1 : sf.run (s'.posArgs c) s'.t (s'.t + s'.dt) (sliceTo y', sliceTo yd') with
  | error e => rw [h1] at hr; cases hr
  | ok rp =>
    rw [h1] at hr hr'
    simp only at hr hr'
    cases h2 : qf.run (s.rotArgs c) s'.t (s'.t + s'.dt) (sliceFrom y, sliceFrom yd) with
    | error e => rw [h2] at hr; cases hr
    | ok rr =>
      rw [h2] at hr
      cases h3 : qf'.run (s'.rotArgs c) s'.t (s'.t + s'.dt) (sliceFrom y', sliceFrom yd') with
      | error e => rw [h3] at hr'; cases hr'
      | ok rr' =>
        rw [h3] at hr'
        simp only [Prod.mk.injEq, Except.ok.injEq] at hr hr'
        rw [← hr.1, ← hr'.1]
        simp

/-- **C33.** The result of `step` for the orientation does not depend on position parameters or on the passed
position, and neither depends on results of earlier calls. -/
theorem C33_step_orientation {s s' s1 s1' : CartesianDMP m} (h : SameOrientation s s') (ht : s.t = s'.t)
    {c : Option PoseCoupling} {sf sf' : StepFunction} {qf : QuatStepFunction} {y y' : Vec (3 + 4)} {yd yd' : Vec (3 + 3)}
    (hy : orientation y = orientation y') (hyd : angular yd = angular yd') {r r' : Vec (3 + 4) × Vec (3 + 3)}
    (hr : (CartesianDMP.step c sf qf y yd).exec s = (.ok r, s1))
    (hr' : (CartesianDMP.step c sf' qf y' yd').exec s' = (.ok r', s1')) :
    orientation r.1 = orientation r'.1 ∧ angular r.2 = angular r'.2 := by
  rw [CartesianDMP.exec_step] at hr hr'
  simp only [orientation_eq, angular_eq] at hy hyd ⊢
  rw [CartesianDMP.rotArgs_congr h, ht, h.dt, hy, hyd] at hr
  cases h1 : sf.run (s.posArgs c) s'.t (s'.t + s'.dt) (sliceTo y, sliceTo yd) with
  | error e => rw [h1] at hr; cases hr
  | ok rp =>
    rw [h1] at hr
    cases h1' : sf'.run (s'.posArgs c) s'.t (s'.t + s'.dt) (sliceTo y', sliceTo yd') with
    | error e => rw [h1'] at hr'; cases hr'
    | ok rp' =>
      rw [h1'] at hr'
      simp only at hr hr'
      cases h3 : qf.run (s'.rotArgs c) s'.t (s'.t + s'.dt) (sliceFrom y', sliceFrom yd') with
      | error e => rw [h3] at hr'; cases hr'
      | ok rr =>
        rw [h3] at hr hr'
        simp only [Prod.mk.injEq, Except.ok.injEq] at hr hr'
        rw [← hr.1, ← hr'.1]
        simp

/-- **C33.** `CartesianDMP.step` is memoryless: outcome (result or error) and object afterwards only depend on the
parameters, the time and the passed state, not on the states reached by earlier calls. -/
theorem C33_step_memoryless (s : CartesianDMP m) (lastT : Option ℝ) (cur : Vec (3 + 4)) (curd : Vec (3 + 3))
    (c : Option PoseCoupling) (sf : StepFunction) (qf : QuatStepFunction) (y : Vec (3 + 4)) (yd : Vec (3 + 3)) :
    (CartesianDMP.step c sf qf y yd).exec { s with lastT := lastT, currentY := cur, currentYd := curd } =
      (CartesianDMP.step c sf qf y yd).exec s := by
  rw [CartesianDMP.exec_step, CartesianDMP.exec_step]
  rfl

/-- Step `i` of both parts, started at time 0. -/
noncomputable def CartesianDMP.pairStep (s : CartesianDMP m) (c : Option PoseCoupling) (sf : StepFunction)
    (qf : QuatStepFunction) (i : ℕ) (p : (Vec 3 × Vec 3) × (Vec 4 × Vec 3)) :
    Except PyErr ((Vec 3 × Vec 3) × (Vec 4 × Vec 3)) :=
  (sf.run (s.posArgs c) (i * s.dt) ((i + 1 : ℕ) * s.dt) p.1).bind fun a =>
    (qf.run (s.rotArgs c) (i * s.dt) ((i + 1 : ℕ) * s.dt) p.2).map fun b => (a, b)

/-- **C33.** For a Cartesian DMP at time 0 with zero start velocity: `open_loop(run_t = n * dt)` returns a trajectory if
and only if `n` steps, each one called with the previous result, do, and then it consists of the start pose and exactly
the poses returned by those steps. -/
theorem C33_step_eq_open_loop (s : CartesianDMP m) (ht : s.t = 0) (hv : s.startYd = 0) (hdt : 0 < s.dt)
    (c : Option PoseCoupling) {ops : QuatOps} {name qname : String} {sf : StepFunction} {qf : QuatStepFunction}
    (hname : StepFunction.lookup name = .ok sf) (hqname : QuatStepFunction.lookup ops qname = .ok qf) (n : ℕ)
    (T : List ℝ) (Y : List (Vec (3 + 4))) :
    ((CartesianDMP.openLoop ops (some (n * s.dt)) c name qname).exec s).1 = .ok (T, Y) ↔
      ∃ rows, ((fedBack (CartesianDMP.step c sf qf) n s.startY 0).exec s).1 = .ok rows ∧
        T = (List.range (n + 1)).map (fun i : ℕ => i * s.dt) ∧ Y = s.startY :: rows.map Prod.fst := by
  -- execution of steps as a loop over pairs of states
  let φ : (Vec 3 × Vec 3) × (Vec 4 × Vec 3) → Vec (3 + 4) × Vec (3 + 3) :=
    fun p => (hstack p.1.1 p.2.1, hstack p.1.2 p.2.2)
  let f : ℕ → Vec (3 + 4) × Vec (3 + 3) → Except PyErr (Vec (3 + 4) × Vec (3 + 3)) := fun i x =>
    (s.pairStep c sf qf i ((sliceTo x.1, sliceTo x.2), (sliceFrom x.1, sliceFrom x.2))).map φ
  have hfed := fedBack_memoryless (CartesianDMP.step c sf qf) f
    (fun i s' => s'.t = i * s.dt ∧ s'.dt = s.dt ∧ s'.posArgs c = s.posArgs c ∧ s'.rotArgs c = s.rotArgs c)
    (by
      rintro i s' y yd ⟨h1, h2, h3, h4⟩
      rw [CartesianDMP.exec_step]
      simp only [f, CartesianDMP.pairStep]
      rw [h3, h4, h1, h2, show (i : ℝ) * s.dt + s.dt = (i + 1 : ℕ) * s.dt by push_cast; ring]
      cases sf.run (s.posArgs c) (i * s.dt) ((i + 1 : ℕ) * s.dt) (sliceTo y, sliceTo yd) with
      | error e => exact ⟨rfl, fun r hr => by cases hr⟩
      | ok rp =>
        simp only [Except.bind]
        cases qf.run (s.rotArgs c) (i * s.dt) ((i + 1 : ℕ) * s.dt) (sliceFrom y, sliceFrom yd) with
        | error e => exact ⟨rfl, fun r hr => by cases hr⟩
        | ok rr =>
          refine ⟨rfl, fun r _ => ⟨?_, h2, h3, h4⟩⟩
          show s'.t + s'.dt = _
          rw [h1, h2]; push_cast; ring)
    n 0 s (s.startY, 0) ⟨by simp [ht], rfl, rfl, rfl⟩
  have hmap := loopRows_map (s.pairStep c sf qf) f (fun p => (p.1, p.2)) id φ φ
    (fun i p => by simp only [f, φ, sliceTo_hstack, sliceFrom_hstack]) (fun p => rfl) n
    ((sliceTo s.startY, 0), (sliceFrom s.startY, 0)) 0
  have hφ : φ ((sliceTo s.startY, 0), (sliceFrom s.startY, 0)) = (s.startY, 0) := by
    simp only [φ, hstack_slices]
    have : hstack (0 : Vec 3) (0 : Vec 3) = 0 := by funext i; fin_cases i <;> rfl
    rw [this]
  rw [hφ] at hmap
  rw [hmap] at hfed
  simp only at hfed
  rw [hfed]
  -- the two open loops
  have hpos : dmpOpenLoop (s.posOpenLoopArgs c) s.dt (some (n * s.dt)) sf =
      (loopRows (fun i x => sf.run (s.posArgs c) (i * s.dt) ((i + 1 : ℕ) * s.dt) x) id n (sliceTo s.startY, 0) 0).map
        (fun rows => ((List.range (n + 1)).map (fun i : ℕ => i * s.dt), sliceTo s.startY :: rows.map Prod.fst)) := by
    have hrun : ∀ a b x, sf.run (s.posOpenLoopArgs c) a b x = sf.run (s.posArgs c) a b x := by
      intro a b x
      rw [run_no_error sf (s.posOpenLoopArgs c) rfl 0 0 0 0, run_no_error sf (s.posArgs c) rfl 0 0 0 0]
      congr 1
      unfold CartesianDMP.posOpenLoopArgs CartesianDMP.posArgs
      simp only [hv]
      rfl
    have := openLoopWith_eq (goalT := s.executionTime) hdt (sliceTo s.startY, (0 : Vec 3))
      (sf.run (s.posOpenLoopArgs c)) n
    simp only [hrun] at this
    exact this
  have hrot : openLoopWith s.executionTime 0 s.dt (sliceFrom s.startY, (0 : Vec 3)) (some (n * s.dt))
      (qf.run (s.rotOpenLoopArgs c)) =
      (loopRows (fun i x => qf.run (s.rotArgs c) (i * s.dt) ((i + 1 : ℕ) * s.dt) x) id n (sliceFrom s.startY, 0) 0).map
        (fun rows => ((List.range (n + 1)).map (fun i : ℕ => i * s.dt), sliceFrom s.startY :: rows.map Prod.fst)) := by
    have e : s.rotOpenLoopArgs c = s.rotArgs c := by
      unfold CartesianDMP.rotOpenLoopArgs CartesianDMP.rotArgs
      simp only [hv]
      rfl
    rw [e]
    exact openLoopWith_eq hdt _ _ n
  have hprod := loopRows_prod (fun i x => sf.run (s.posArgs c) (i * s.dt) ((i + 1 : ℕ) * s.dt) x)
    (fun i x => qf.run (s.rotArgs c) (i * s.dt) ((i + 1 : ℕ) * s.dt) x) id id n (sliceTo s.startY, 0)
    (sliceFrom s.startY, 0) 0
  rw [CartesianDMP.openLoop_ok]
  constructor
  · rintro ⟨sf', qf', P, R, T', hsf, hqf, hP, hR, hlen, rfl⟩
    rw [hname] at hsf
    rw [hqname] at hqf
    simp only [Except.ok.injEq] at hsf hqf
    subst hsf hqf
    rw [hpos] at hP
    rw [hrot] at hR
    cases h1 : loopRows (fun i x => sf.run (s.posArgs c) (i * s.dt) ((i + 1 : ℕ) * s.dt) x) id n
      (sliceTo s.startY, 0) 0 with
    | error e => rw [h1] at hP; cases hP
    | ok rp =>
      cases h2 : loopRows (fun i x => qf.run (s.rotArgs c) (i * s.dt) ((i + 1 : ℕ) * s.dt) x) id n
        (sliceFrom s.startY, 0) 0 with
      | error e => rw [h2] at hR; cases hR
      | ok rr =>
        rw [h1] at hP
        rw [h2] at hR
        simp only [Except.map, Except.ok.injEq, Prod.mk.injEq] at hP hR
        have h3 := (hprod (rp.zip rr)).2 ⟨rp, rr, h1, h2, rfl⟩
        have h3' : loopRows (s.pairStep c sf qf) (fun p => (p.1, p.2)) n
          ((sliceTo s.startY, 0), (sliceFrom s.startY, 0)) 0 = .ok (rp.zip rr) := h3
        refine ⟨(rp.zip rr).map φ, by rw [h3']; rfl, hP.1.symm, ?_⟩
        rw [← hP.2, ← hR.2, List.zipWith_cons_cons, hstack_slices]
        congr 1
        have l1 := loopRows_length h1
        have l2 := loopRows_length h2
        apply List.ext_getElem
        · simp [l1, l2]
        · intro i h4 h5; simp [φ]
  · rintro ⟨rows, hrows, hT, hY⟩
    cases h3 : loopRows (s.pairStep c sf qf) (fun p => (p.1, p.2)) n
          ((sliceTo s.startY, 0), (sliceFrom s.startY, 0)) 0 with
    | error e => rw [h3] at hrows; cases hrows
    | ok pr =>
      rw [h3] at hrows
      simp only [Except.map, Except.ok.injEq] at hrows
      obtain ⟨rp, rr, h1, h2, rfl⟩ := (hprod pr).1 h3
      rw [h1] at hpos
      rw [h2] at hrot
      have l1 := loopRows_length h1
      have l2 := loopRows_length h2
      refine ⟨sf, qf, _, _, _, hname, hqname, by rw [hpos, hT]; rfl, by rw [hrot]; rfl, by simp [l1, l2], ?_⟩
      rw [hY, ← hrows, List.zipWith_cons_cons, hstack_slices]
      congr 1
      apply List.ext_getElem
      · simp [l1, l2]
      · intro i h4 h5; simp [φ]

/-- Hypotheses of C33 can be met by two different DMPs. -/
example : ∃ s s' : CartesianDMP 10, SamePosition s s' ∧ s.t = 0 ∧ s.startYd = 0 ∧ 0 < s.dt ∧
    orientation s.goalY ≠ orientation s'.goalY := by
  obtain ⟨s, -, h1, h2, h3, -⟩ := CartesianDMP.create_ok 10 (by norm_num) one_pos (1 / 100) (1 / 1000) false 25 (25 / 4)
  refine ⟨s, { s with goalY := ![0, 0, 0, 1, 0, 0, 0] }, ⟨rfl, rfl, ?_, rfl, rfl, rfl, rfl, rfl, rfl, rfl⟩, by rw [h1]; rfl,
    by rw [h1]; rfl, by rw [h3]; norm_num, ?_⟩
  · rw [h1]; funext i; fin_cases i <;> rfl
  · rw [h1]
    intro h
    have := congrFun h 0
    exact zero_ne_one (α := ℝ) this

end Verif
