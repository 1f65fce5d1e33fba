import Verif.Lemmas.Signs
import Verif.Props.OutputRate
import Verif.Props.Frames
import Verif.Props.Quat
import Verif.Props.OrientationCartesian
import Verif.Props.CartesianReproduction

/-! # The signs of quaternions do not matter (C114) -/

namespace Verif
open Spec

variable {m n : ℕ}

theorem CartesianDMP.rotArgs_signs {s : CartesianDMP m} {y g : Vec (3 + 4)} (hy : SamePose s.startY y) (hg : SamePose s.goalY g)
    (c : Option PoseCoupling) :
    QuatStepArgs.SameArgs (s.rotArgs c) (({ s with startY := y, goalY := g } : CartesianDMP m).rotArgs c) := by
  have h1 := hy.orientation
  have h2 := hg.orientation
  rw [orientation_eq, orientation_eq] at h1 h2
  exact ⟨h2, h1, rfl⟩

/-- **C114 (CartesianDMP, step).** `step` does not depend on the signs of the quaternions of start, goal and passed state,
up to the sign of the returned quaternion: it moves to the same pose with the same velocity. (The time step is not
longer than the internal integration step, the passed orientation is not turned by exactly 180 degrees from the goal; with
smooth scaling also not the start.) -/
theorem C114_step {s : CartesianDMP m} (hτ : 0 < s.executionTime) (ht : 0 ≤ s.t) (hdt : 0 < s.dt) (hi : s.dt ≤ s.intDt)
    (sf : StepFunction) {qf : QuatStepFunction} (hqf : LawfulStep qf) {c : Option PoseCoupling} (hc : IgnoresSign c)
    (hs : UnitQuat (orientation s.startY)) (hg : UnitQuat (orientation s.goalY)) {lastY : Vec (3 + 4)}
    (hl : UnitQuat (orientation lastY)) (hno : NoHalfTurn (orientation s.goalY) (orientation lastY))
    (hsm : s.smooth = true → NoHalfTurn (orientation s.goalY) (orientation s.startY)) {y g lastY' : Vec (3 + 4)}
    (h1 : SamePose s.startY y) (h2 : SamePose s.goalY g) (h3 : SamePose lastY lastY') (lastYd : Vec (3 + 3)) :
    match ((CartesianDMP.step c sf qf lastY lastYd).exec s).1,
      ((CartesianDMP.step c sf qf lastY' lastYd).exec { s with startY := y, goalY := g }).1 with
    | .ok r, .ok r' => SamePose r.1 r'.1 ∧ r'.2 = r.2
    | .error e, .error e' => e' = e
    | _, _ => False := by
  have p1 := h1.position
  have p2 := h2.position
  have p3 := h3.position
  have o3 := h3.orientation
  rw [position_eq, position_eq] at p1 p2 p3
  rw [orientation_eq] at hs hg hl hno hsm o3
  rw [orientation_eq] at hno hsm o3
  have hpos : ({ s with startY := y, goalY := g } : CartesianDMP m).posArgs c = s.posArgs c := by
    unfold CartesianDMP.posArgs
    simp only [p1, p2]
  rw [CartesianDMP.exec_step, CartesianDMP.exec_step]
  simp only [hpos, p3]
  cases sf.run (s.posArgs c) s.t (s.t + s.dt) (sliceTo lastY, sliceTo lastYd) with
  | error e => rfl
  | ok rp =>
    obtain ⟨r, r', e1, e2, e3, -⟩ := QuatStepFunction.run_signs hqf (CartesianDMP.rotArgs_signs h1 h2 c) hg hs
      (by
        intro d hd
        cases c with
        | none => cases hd
        | some c => obtain rfl := Option.some.inj hd; exact hc c rfl)
      hsm hτ (lastT := s.t) (t := s.t + s.dt) (show 0 < s.t + s.dt by linarith) (by linarith)
      (show s.t + s.dt - s.t ≤ s.intDt by linarith) (x := (sliceFrom lastY, sliceFrom lastYd))
      (x' := (sliceFrom lastY', sliceFrom lastYd)) hl ⟨o3, rfl⟩ hno
    simp only [e1, e2]
    refine ⟨⟨?_, ?_⟩, ?_⟩
    · simp only [position_eq, sliceTo_hstack]
    · simp only [orientation_eq, sliceFrom_hstack]; exact e3.1
    · rw [e3.2]

/-- **C114 (CartesianDMP, open_loop).** The trajectory does not depend on the signs of the quaternions of start and goal, up
to the signs of the quaternions in the trajectory, if no orientation of the trajectory is turned by exactly 180 degrees from
the goal. (The time step is not longer than the internal integration step.) -/
theorem C114_open_loop {s : CartesianDMP m} (hτ : 0 < s.executionTime) (hdt : 0 < s.dt) (hi : s.dt ≤ s.intDt)
    {ops : QuatOps} {eps : ℝ} (heps : 0 < eps) (hops : LawfulQuatOps ops eps) {c : Option PoseCoupling} (hc : IgnoresSign c)
    (hs : UnitQuat (orientation s.startY)) (hg : UnitQuat (orientation s.goalY)) {y g : Vec (3 + 4)}
    (h1 : SamePose s.startY y) (h2 : SamePose s.goalY g) {runT : Option ℝ} {name qname : String} {T : List ℝ}
    {Y : List (Vec (3 + 4))} (h : ((CartesianDMP.openLoop ops runT c name qname).exec s).1 = .ok (T, Y))
    (hno : ∀ x ∈ Y, NoHalfTurn (orientation s.goalY) (orientation x)) :
    ∃ Y', ((CartesianDMP.openLoop ops runT c name qname).exec { s with startY := y, goalY := g }).1 = .ok (T, Y') ∧
      List.Forall₂ SamePose Y Y' := by
  have p1 := h1.position
  have p2 := h2.position
  have o1 := h1.orientation
  rw [position_eq, position_eq] at p1 p2
  rw [orientation_eq] at hs hg o1 hno
  rw [orientation_eq] at o1
  simp only [orientation_eq] at hno
  have hpos : ({ s with startY := y, goalY := g } : CartesianDMP m).posOpenLoopArgs c = s.posOpenLoopArgs c := by
    unfold CartesianDMP.posOpenLoopArgs CartesianDMP.posArgs
    simp only [p1, p2]
  rw [CartesianDMP.exec_openLoop] at h ⊢
  simp only [hpos] at h ⊢
  cases hn : StepFunction.lookup name with
  | error e => rw [hn] at h; cases h
  | ok sf =>
  rw [hn] at h
  simp only [Except.bind] at h ⊢
  cases hp : dmpOpenLoop (s.posOpenLoopArgs c) s.dt runT sf with
  | error e => rw [hp] at h; cases h
  | ok p =>
  rw [hp] at h
  simp only at h ⊢
  cases hq : QuatStepFunction.lookup ops qname with
  | error e => rw [hq] at h; cases h
  | ok qf =>
  rw [hq] at h
  simp only at h ⊢
  have hqf : LawfulStep qf := by
    unfold QuatStepFunction.lookup at hq
    split_ifs at hq
    · obtain rfl := Except.ok.inj hq; exact ⟨eps, heps, hops⟩
    · obtain rfl := Except.ok.inj hq; trivial
  cases hr : openLoopWith s.executionTime 0 s.dt (sliceFrom s.startY, (0 : Vec 3)) runT (qf.run (s.rotOpenLoopArgs c)) with
  | error e => rw [hr] at h; cases h
  | ok r =>
  rw [hr] at h
  simp only at h
  split_ifs at h with hlen
  · have h := Except.ok.inj h
    obtain ⟨rfl, rfl⟩ := Prod.mk.inj h
    push Not at hlen
    -- the orientations of the rows
    have hrows : ∀ q ∈ r.2, NoHalfTurn (sliceFrom s.goalY) q := by
      intro q hq
      obtain ⟨i, hi, rfl⟩ := List.getElem_of_mem hq
      have hi' : i < p.2.length := by omega
      have := hno ((List.zipWith hstack p.2 r.2)[i]'(by simp; omega)) (List.getElem_mem _)
      rw [List.getElem_zipWith, sliceFrom_hstack] at this
      exact this
    have hargs : QuatStepArgs.SameArgs (s.rotOpenLoopArgs c)
        (({ s with startY := y, goalY := g } : CartesianDMP m).rotOpenLoopArgs c) := by
      obtain ⟨a1, a2, -⟩ := CartesianDMP.rotArgs_signs h1 h2 c
      exact ⟨a1, a2, rfl⟩
    have hstart : NoHalfTurn (sliceFrom s.goalY) (sliceFrom s.startY) := by
      apply hrows
      unfold openLoopWith at hr
      simp only [bind, Except.bind] at hr
      split_ifs at hr with h3 h4
      · split at hr
        · cases hr
        · obtain rfl := Except.ok.inj hr
          simp
    obtain ⟨r', hr', hT', hrr⟩ : ∃ r', openLoopWith s.executionTime 0 s.dt (sliceFrom y, (0 : Vec 3)) runT
        (qf.run (({ s with startY := y, goalY := g } : CartesianDMP m).rotOpenLoopArgs c)) = .ok r' ∧ r'.1 = r.1 ∧
        List.Forall₂ SameRotation r.2 r'.2 := by
      unfold openLoopWith at hr ⊢
      simp only [bind, Except.bind] at hr ⊢
      split_ifs at hr ⊢ with h3 h4
      · simp only [Pure.pure, Except.pure] at hr ⊢
        cases hl : loopRows (fun i s_1 => qf.run (s.rotOpenLoopArgs c) (arangeAt 0 s.dt i) (arangeAt 0 s.dt (i + 1)) s_1) Prod.fst
          (arangeLen 0 (runT.getD s.executionTime + s.dt) s.dt - 1) (sliceFrom s.startY, (0 : Vec 3)) 0 with
        | error e => rw [hl] at hr; cases hr
        | ok rows =>
          rw [hl] at hr
          obtain rfl := Except.ok.inj hr
          obtain ⟨rows', h5, h6⟩ := loopRows_rel (S := SameRotation) (R := SameState) (P := fun x => UnitQuat x.1)
            (Q := fun q => NoHalfTurn (sliceFrom s.goalY) q) (out := Prod.fst) (out' := Prod.fst)
            (step' := fun i x => qf.run (({ s with startY := y, goalY := g } : CartesianDMP m).rotOpenLoopArgs c)
              (arangeAt 0 s.dt i) (arangeAt 0 s.dt (i + 1)) x)
            (fun x x' h => h.1)
            (fun i x x' hP hR hQ => by
              have e : ∀ i : ℕ, arangeAt 0 s.dt i = i * s.dt := fun i => by simp [arangeAt]
              exact QuatStepFunction.run_signs hqf hargs hg hs
                (by
                  intro d hd
                  cases c with
                  | none => cases hd
                  | some c => obtain rfl := Option.some.inj hd; exact hc c rfl)
                (fun _ => hstart) hτ (by rw [e]; show (0 : ℝ) < _; push_cast; positivity)
                (by rw [e, e]; push_cast; linarith)
                (by rw [e, e]; show _ ≤ s.intDt; push_cast; linarith) hP hR hQ)
            _ 0 (sliceFrom s.startY, (0 : Vec 3)) (sliceFrom y, (0 : Vec 3)) rows hs ⟨o1, rfl⟩ hstart hl
            (fun q hq => hrows q (by simp [hq]))
          rw [h5]
          exact ⟨_, rfl, rfl, .cons o1 h6⟩
    have hl2 : r.2.length = r'.2.length := hrr.length_eq
    refine ⟨List.zipWith hstack p.2 r'.2, ?_, ?_⟩
    · erw [hr']
      simp only
      rw [if_neg (by push Not; omega)]
    · rw [List.forall₂_iff_get]
      refine ⟨by simp [hl2], fun i hi hi' => ?_⟩
      simp only [List.get_eq_getElem, List.getElem_zipWith]
      refine ⟨by simp only [position_eq, sliceTo_hstack], ?_⟩
      simp only [orientation_eq, sliceFrom_hstack]
      exact (List.forall₂_iff_get.1 hrr).2 i (by simp at hi; omega) (by simp at hi'; omega)

/-- The parts of a trajectory. -/
theorem CartesianDMP.openLoop_parts {s : CartesianDMP m} {ops : QuatOps} {runT : Option ℝ} {c : Option PoseCoupling}
    {name qname : String} {T : List ℝ} {Y : List (Vec (3 + 4))} :
    ((CartesianDMP.openLoop ops runT c name qname).exec s).1 = .ok (T, Y) ↔
      ∃ sf p qf r, StepFunction.lookup name = .ok sf ∧ dmpOpenLoop (s.posOpenLoopArgs c) s.dt runT sf = .ok p ∧
        QuatStepFunction.lookup ops qname = .ok qf ∧
        openLoopWith s.executionTime 0 s.dt (sliceFrom s.startY, (0 : Vec 3)) runT (qf.run (s.rotOpenLoopArgs c)) = .ok r ∧
        p.2.length = r.2.length ∧ T = p.1 ∧ Y = List.zipWith hstack p.2 r.2 := by
  rw [CartesianDMP.exec_openLoop]
  constructor
  · intro h
    cases hn : StepFunction.lookup name with
    | error e => rw [hn] at h; cases h
    | ok sf =>
    rw [hn] at h
    simp only [Except.bind] at h
    cases hp : dmpOpenLoop (s.posOpenLoopArgs c) s.dt runT sf with
    | error e => rw [hp] at h; cases h
    | ok p =>
    rw [hp] at h
    simp only at h
    cases hq : QuatStepFunction.lookup ops qname with
    | error e => rw [hq] at h; cases h
    | ok qf =>
    rw [hq] at h
    simp only at h
    cases hr : openLoopWith s.executionTime 0 s.dt (sliceFrom s.startY, (0 : Vec 3)) runT (qf.run (s.rotOpenLoopArgs c)) with
    | error e => rw [hr] at h; cases h
    | ok r =>
    rw [hr] at h
    simp only at h
    split_ifs at h with hlen
    have h := Except.ok.inj h
    obtain ⟨rfl, rfl⟩ := Prod.mk.inj h
    push Not at hlen
    exact ⟨sf, p, qf, r, rfl, hp, rfl, hr, hlen, rfl, rfl⟩
  · rintro ⟨sf, p, qf, r, h1, h2, h3, h4, h5, rfl, rfl⟩
    rw [h1]
    simp only [Except.bind]
    rw [h2]
    simp only
    rw [h3]
    simp only
    rw [h4]
    simp only
    rw [if_neg (by push Not; exact h5)]

/-- The rows of a simulation with a step function that always returns. -/
theorem openLoopWith_iterates {p v : ℕ} {step : ℝ → ℝ → Vec p × Vec v → Except PyErr (Vec p × Vec v)}
    {F : ℝ → ℝ → Vec p × Vec v → Vec p × Vec v} {goalT h dt : ℝ} (hF : Composes step F 0 h) (hdt : 0 < dt)
    (start : Vec p × Vec v) (runT : Option ℝ) :
    openLoopWith goalT 0 dt start runT step =
      if arangeLen 0 (runT.getD goalT + dt) dt = 0 then .error .indexError
      else .ok ((List.range (arangeLen 0 (runT.getD goalT + dt) dt)).map (arangeAt 0 dt),
        (List.range (arangeLen 0 (runT.getD goalT + dt) dt)).map (fun i => (iterates F 0 dt start i).1)) := by
  refine openLoopWith_total hdt.ne' (nxt := fun i => F (0 + i * dt) (0 + (i + 1 : ℕ) * dt)) ?_ rfl (fun j => rfl)
  intro i x
  refine hF.ok _ _ x ?_ ?_
  · unfold arangeAt
    have : 0 ≤ (i : ℝ) * dt := by positivity
    linarith
  · unfold arangeAt
    push_cast
    nlinarith

/-- **C114 (CartesianDMP, open_loop).** The same for a time step that is a multiple of the internal integration step, if no
orientation of the trajectory that is sampled with the internal integration step is turned by exactly 180 degrees from the
goal. -/
theorem C114_open_loop_substeps {s : CartesianDMP m} (hτ : 0 < s.executionTime) (hi : 0 < s.intDt) {K : ℕ} (hK : 0 < K)
    (hdt : s.dt = K * s.intDt) {ops : QuatOps} {eps : ℝ} (heps : 0 < eps) (hops : LawfulQuatOps ops eps)
    {c : Option PoseCoupling} (hc : IgnoresSign c) (hs : UnitQuat (orientation s.startY)) (hg : UnitQuat (orientation s.goalY))
    {y g : Vec (3 + 4)} (h1 : SamePose s.startY y) (h2 : SamePose s.goalY g) {runT : Option ℝ} {name qname : String}
    {T : List ℝ} {Y : List (Vec (3 + 4))} (h : ((CartesianDMP.openLoop ops runT c name qname).exec s).1 = .ok (T, Y)) {R : ℝ}
    (hR : runT.getD s.executionTime + s.dt ≤ R) {Tfine : List ℝ} {Yfine : List (Vec (3 + 4))}
    (hfine : ((CartesianDMP.openLoop ops (some R) c name qname).exec { s with dt := s.intDt }).1 = .ok (Tfine, Yfine))
    (hno : ∀ x ∈ Yfine, NoHalfTurn (orientation s.goalY) (orientation x)) :
    ∃ Y', ((CartesianDMP.openLoop ops runT c name qname).exec { s with startY := y, goalY := g }).1 = .ok (T, Y') ∧
      List.Forall₂ SamePose Y Y' := by
  have p1 := h1.position
  have p2 := h2.position
  have o1 := h1.orientation
  rw [position_eq, position_eq] at p1 p2
  rw [orientation_eq] at hs hg o1 hno
  rw [orientation_eq] at o1
  simp only [orientation_eq] at hno
  have hpos : ({ s with startY := y, goalY := g } : CartesianDMP m).posOpenLoopArgs c = s.posOpenLoopArgs c := by
    unfold CartesianDMP.posOpenLoopArgs CartesianDMP.posArgs
    simp only [p1, p2]
  have hdt0 : 0 < s.dt := hdt ▸ mul_pos (Nat.cast_pos.2 hK) hi
  obtain ⟨sf, p, qf, r, hn, hp, hq, hr, hlen, rfl, rfl⟩ := CartesianDMP.openLoop_parts.1 h
  obtain ⟨sf0, p0, qf0, r0, hn0, hp0, hq0, hr0, hlen0, rfl, rfl⟩ := CartesianDMP.openLoop_parts.1 hfine
  obtain rfl := Except.ok.inj (hq0.symm.trans hq)
  have hqf : LawfulStep qf0 := by
    unfold QuatStepFunction.lookup at hq
    split_ifs at hq
    · obtain rfl := Except.ok.inj hq; exact ⟨eps, heps, hops⟩
    · obtain rfl := Except.ok.inj hq; trivial
  have hargs : QuatStepArgs.SameArgs (s.rotOpenLoopArgs c)
      (({ s with startY := y, goalY := g } : CartesianDMP m).rotOpenLoopArgs c) := by
    obtain ⟨a1, a2, -⟩ := CartesianDMP.rotArgs_signs h1 h2 c
    exact ⟨a1, a2, rfl⟩
  obtain ⟨F, hF⟩ := quat_composes qf0 (s.rotOpenLoopArgs c) hi hτ
  obtain ⟨F', hF'⟩ := quat_composes qf0 (({ s with startY := y, goalY := g } : CartesianDMP m).rotOpenLoopArgs c) hi hτ
  set a' := ({ s with startY := y, goalY := g } : CartesianDMP m).rotOpenLoopArgs c with ha'
  have hF : Composes (qf0.run (s.rotOpenLoopArgs c)) F 0 s.intDt := hF
  have hF' : Composes (qf0.run a') F' 0 s.intDt := hF'
  set x0 : Vec 4 × Vec 3 := (sliceFrom s.startY, 0) with hx0
  set x0' : Vec 4 × Vec 3 := (sliceFrom y, 0) with hx0'
  set N := arangeLen 0 (R + s.intDt) s.intDt with hN
  -- the orientations at the internal integration steps
  have hvisited : ∀ j < N, NoHalfTurn (sliceFrom s.goalY) (iterates F 0 s.intDt x0 j).1 := by
    intro j hj
    have hr0' : openLoopWith s.executionTime 0 s.intDt x0 (some R) (qf0.run (s.rotOpenLoopArgs c)) = .ok r0 := hr0
    rw [openLoopWith_iterates hF hi] at hr0'
    simp only [Option.getD_some] at hr0'
    rw [← hN, if_neg (by omega)] at hr0'
    obtain rfl := Except.ok.inj hr0'
    simp only [List.length_map, List.length_range] at hlen0
    have := hno ((List.zipWith hstack p0.2 ((List.range N).map (fun i => (iterates F 0 s.intDt x0 i).1)))[j]'(by
      simp; omega)) (List.getElem_mem _)
    rw [List.getElem_zipWith, sliceFrom_hstack] at this
    simpa using this
  have hrel : ∀ j ≤ N, SameState (iterates F 0 s.intDt x0 j) (iterates F' 0 s.intDt x0' j) ∧ UnitQuat (iterates F 0 s.intDt x0 j).1 := by
    intro j
    induction j with
    | zero => exact fun _ => ⟨⟨o1, rfl⟩, hs⟩
    | succ j ih =>
      intro hj
      obtain ⟨h3, h4⟩ := ih (by omega)
      have hpos0 : (0 : ℝ) ≤ j * s.intDt := by positivity
      have hlt : (0 : ℝ) + j * s.intDt < 0 + (j + 1 : ℕ) * s.intDt := by push_cast; linarith
      obtain ⟨z, z', e1, e2, e3, e4⟩ := QuatStepFunction.run_signs hqf hargs hg hs
        (by
          intro d hd
          cases c with
          | none => cases hd
          | some c => obtain rfl := Option.some.inj hd; exact hc c rfl)
        (fun _ => hvisited 0 (by omega)) hτ (lastT := 0 + j * s.intDt) (t := 0 + (j + 1 : ℕ) * s.intDt)
        (show (0 : ℝ) < _ by push_cast; linarith) hlt (show _ ≤ s.intDt by push_cast; linarith) h4 h3 (hvisited j (by omega))
      rw [hF.ok _ _ _ (by linarith) hlt] at e1
      rw [hF'.ok _ _ _ (by linarith) hlt] at e2
      obtain rfl := Except.ok.inj e1
      obtain rfl := Except.ok.inj e2
      exact ⟨e3, e4⟩
  -- the rows
  have hr1 : openLoopWith s.executionTime 0 s.dt x0 runT (qf0.run (s.rotOpenLoopArgs c)) = .ok r := hr
  rw [openLoopWith_iterates hF hdt0] at hr1
  set M := arangeLen 0 (runT.getD s.executionTime + s.dt) s.dt with hM
  by_cases hM0 : M = 0
  · rw [if_pos hM0] at hr1; cases hr1
  rw [if_neg hM0] at hr1
  obtain rfl := Except.ok.inj hr1
  have hr2 := openLoopWith_iterates (goalT := s.executionTime) hF' hdt0 x0' runT
  rw [← hM, if_neg hM0] at hr2
  have hrow : ∀ i < M, SameRotation (iterates F 0 s.dt x0 i).1 (iterates F' 0 s.dt x0' i).1 := by
    intro i hiM
    have e : s.dt = K * ((1 : ℕ) * s.intDt) := by rw [hdt]; push_cast; ring
    rw [e, hF.iterates_coarse hi one_pos hK, hF'.iterates_coarse hi one_pos hK]
    simp only [Nat.cast_one, one_mul]
    refine (hrel _ ?_).1.1
    rw [hM, arangeLen, Nat.lt_ceil, lt_div_iff₀ hdt0] at hiM
    rw [hN, arangeLen]
    refine le_of_lt ?_
    rw [Nat.lt_ceil, lt_div_iff₀ hi]
    push_cast
    rw [hdt] at hiM hR
    nlinarith
  simp only [List.length_map, List.length_range] at hlen
  refine ⟨List.zipWith hstack p.2 ((List.range M).map (fun i => (iterates F' 0 s.dt x0' i).1)),
    CartesianDMP.openLoop_parts.2 ⟨sf, p, qf0, _, hn, by rw [hpos]; exact hp, hq, hr2, by simpa using hlen, rfl, rfl⟩, ?_⟩
  rw [List.forall₂_iff_get]
  refine ⟨by simp, fun i hi hi' => ?_⟩
  simp only [List.get_eq_getElem, List.getElem_zipWith, List.getElem_map, List.getElem_range]
  refine ⟨by simp only [position_eq, sliceTo_hstack], ?_⟩
  simp only [orientation_eq, sliceFrom_hstack]
  exact hrow i (by simp at hi; omega)

/-- **C114 (CartesianDMP, imitate).** The learned weights do not depend on the signs of the quaternions of a demonstration: if
neighbours (and next but one neighbours) are not turned by exactly 180 degrees, and no orientation is turned by exactly 180
degrees from the last one, the signs may change arbitrarily from one time step to the next. -/
theorem C114_imitate (s : CartesianDMP m) {ops : QuatOps} {eps : ℝ} (hops : LawfulQuatOps ops eps) (T : Fin (n + 2) → ℝ)
    {Y Y' : Fin (n + 2) → Vec (3 + 4)} (hY : ∀ t, UnitQuat (orientation (Y t))) (h : ∀ t, SamePose (Y t) (Y' t))
    (hgoal : ∀ t, NoHalfTurn (orientation (Y (Fin.last _))) (orientation (Y t)))
    (hnext : ∀ i j : Fin (n + 2), j.val + 1 = i.val ∨ j.val + 2 = i.val → NoHalfTurn (orientation (Y i)) (orientation (Y j)))
    (reg : ℝ) (afv : Bool) :
    (CartesianDMP.imitate ops (quaternionGradient ops) T Y' reg afv).exec s =
      let q := (CartesianDMP.imitate ops (quaternionGradient ops) T Y reg afv).exec s
      (q.1, match q.1 with
        | .ok _ => { q.2 with startY := Y' 0, goalY := Y' (Fin.last _) }
        | .error _ => q.2) := by
  have hpos : (fun t => sliceTo (Y' t)) = fun t => sliceTo (Y t) := by
    funext t
    have := (h t).position
    rwa [position_eq, position_eq] at this
  have hrot : ∀ t, SameRotation (sliceFrom (Y t)) (sliceFrom (Y' t)) := by
    intro t
    have := (h t).orientation
    rwa [orientation_eq, orientation_eq] at this
  simp only [orientation_eq] at hY hgoal hnext
  have hgrad : quaternionGradient ops (fun t => sliceFrom (Y' t)) = quaternionGradient ops (fun t => sliceFrom (Y t)) := by
    funext t
    unfold quaternionGradient
    have key : ∀ i j : Fin (n + 2), j.val + 1 = i.val ∨ j.val + 2 = i.val →
        QuatStepArgs.diff ops (sliceFrom (Y' i)) (sliceFrom (Y' j)) = QuatStepArgs.diff ops (sliceFrom (Y i)) (sliceFrom (Y j)) :=
      fun i j hij => diff_signs hops (hY i) (hY j) (hrot i) (hrot j) (hnext i j hij)
    split_ifs with h1 h2
    · exact key 1 0 (.inl (by simp))
    · rw [key ⟨t.val + 1, h2⟩ ⟨t.val - 1, by omega⟩ (.inr (by simp only; omega))]
    · exact key t ⟨t.val - 1, by omega⟩ (.inl (by simp only; omega))
  have hforces : ∀ α β az sm, determineForcesQuaternion ops (quaternionGradient ops) T (fun t => sliceFrom (Y' t)) α β az afv sm =
      determineForcesQuaternion ops (quaternionGradient ops) T (fun t => sliceFrom (Y t)) α β az afv sm := by
    intro α β az sm
    have hd : ∀ t, QuatStepArgs.diff ops (sliceFrom (Y' (Fin.last _))) (sliceFrom (Y' t)) =
        QuatStepArgs.diff ops (sliceFrom (Y (Fin.last _))) (sliceFrom (Y t)) :=
      fun t => diff_signs hops (hY _) (hY _) (hrot _) (hrot _) (hgoal t)
    unfold determineForcesQuaternion demoRotYdd demoRotYd
    simp only [hgrad, hd]
  rw [CartesianDMP.exec_imitate, CartesianDMP.exec_imitate, hpos]
  simp only [hforces]
  cases dmpImitate m T (fun t => sliceTo (Y t)) reg (sliceTo s.alphaY) (sliceTo s.betaY) s.ftPos.overlap s.ftPos.alphaZ afv
    s.smooth with
  | error e => rfl
  | ok wp =>
    simp only
    cases dmpImitateWith m T reg s.ftRot.overlap s.ftRot.alphaZ (.ok (determineForcesQuaternion ops (quaternionGradient ops) T
      (fun t => sliceFrom (Y t)) (sliceFrom s.alphaY) (sliceFrom s.betaY) s.ftRot.alphaZ afv s.smooth)) with
    | error e => rfl
    | ok wr =>
      simp only
      rw [CartesianDMP.exec_configure, CartesianDMP.exec_configure, C25_configure_sets _ _ (by simp [AllOk, FieldOk]),
        C25_configure_sets _ _ (by simp [AllOk, FieldOk])]
      simp only [newValue_ofFn]

/-- **C114 (finding).** At an orientation that is turned by exactly 180 degrees from the goal the sign matters: with the goal
`g` and with the goal `-g`, which are the same orientation, the (Cython) DMP starts to turn in opposite directions. -/
theorem C114_finding_half_turn {s : CartesianDMP m} (hτ : 0 < s.executionTime) (ht : 0 ≤ s.t) (hdt : 0 < s.dt)
    (hi : s.dt ≤ s.intDt) (hsm : s.smooth = false) (hw : s.ftRot.weights = fun _ _ => 0) (sf : StepFunction)
    (hgain : ∀ k, angular s.alphaY k ≠ 0 ∧ angular s.betaY k ≠ 0) (hg : UnitQuat (orientation s.goalY)) {lastY g : Vec (3 + 4)}
    (hl : UnitQuat (orientation lastY)) (hhalf : rotationAngle (orientation s.goalY) (orientation lastY) = Real.pi)
    (hgo : orientation g = -orientation s.goalY) {r r' : Vec (3 + 4) × Vec (3 + 3)}
    (h : ((CartesianDMP.step none sf .cython lastY 0).exec s).1 = .ok r)
    (h' : ((CartesianDMP.step none sf .cython lastY 0).exec { s with goalY := g }).1 = .ok r') :
    angular r'.2 = -angular r.2 ∧ angular r.2 ≠ 0 := by
  rw [orientation_eq] at hg hl hhalf hgo
  rw [orientation_eq] at hhalf hgo
  simp only [angular_eq] at hgain ⊢
  set gy := sliceFrom s.goalY with hgy
  set q := sliceFrom lastY with hqd
  have hops := lawful_cython
  have hng : UnitQuat (-gy) := by unfold UnitQuat at *; simpa using hg
  have hx : UnitQuat (QuatOps.cython.mul gy (QuatOps.cython.conj q)) :=
    LawfulQuatOps.unit_mul hops hg (LawfulQuatOps.unit_conj hops hl)
  have hneg : QuatOps.cython.mul (-gy) (QuatOps.cython.conj q) = -QuatOps.cython.mul gy (QuatOps.cython.conj q) := by
    apply quat_injective
    rw [quat_neg, hops.mul _ _ hng (LawfulQuatOps.unit_conj hops hl), hops.mul _ _ hg (LawfulQuatOps.unit_conj hops hl), quat_neg,
      neg_mul]
  have h0 : QuatOps.cython.mul gy (QuatOps.cython.conj q) 0 = 0 := by
    have h1 : (Spec.quat (QuatOps.cython.mul gy (QuatOps.cython.conj q))).re = ∑ i, gy i * q i := by
      rw [hops.mul _ _ hg (LawfulQuatOps.unit_conj hops hl), hops.conj _ hl, inner_of_mul_star]
    have h2 : ∑ i, gy i * q i = 0 := by
      by_contra hne
      exact (ne_of_lt (noHalfTurn_iff.2 hne)) hhalf
    rw [h2] at h1
    exact h1
  obtain ⟨hd1, hd2⟩ := (C32_antipodal _ hx).2 h0
  have hd : QuatStepArgs.diff QuatOps.cython (-gy) q = -QuatStepArgs.diff QuatOps.cython gy q := by
    unfold QuatStepArgs.diff
    rw [hneg]
    exact hd1
  have hlen : length (QuatStepArgs.diff QuatOps.cython gy q) = Real.pi := hd2
  have hrun : ∀ (o : CartesianDMP m) (z : Vec (3 + 4) × Vec (3 + 3)), o.t = s.t → o.dt = s.dt → o.intDt = s.intDt →
      ((CartesianDMP.step none sf .cython lastY 0).exec o).1 = .ok z →
      sliceFrom z.2 = ((o.rotArgs none).update QuatOps.cython 0 0 s.dt (s.t + s.dt) (q, 0)).2 := by
    intro o z e1 e2 e3 hz
    rw [CartesianDMP.exec_step] at hz
    cases hp : sf.run (o.posArgs none) o.t (o.t + o.dt) (sliceTo lastY, sliceTo (0 : Vec (3 + 3))) with
    | error e => rw [hp] at hz; cases hz
    | ok rp =>
      rw [hp] at hz
      have hq : QuatStepFunction.cython.run (o.rotArgs none) o.t (o.t + o.dt) (sliceFrom lastY, sliceFrom (0 : Vec (3 + 3))) =
          .ok ((o.rotArgs none).update QuatOps.cython 0 0 s.dt (s.t + s.dt) (q, 0)) := by
        show (o.rotArgs none).stepCy _ _ _ = _
        unfold QuatStepArgs.stepCy
        simp only
        rw [if_neg (show ¬ o.t + o.dt ≤ (o.rotArgs none).startT by
            show ¬ o.t + o.dt ≤ 0
            rw [e1, e2]; linarith), intLoop_single _ (by rw [e2]; linarith)
          (show o.t + o.dt - o.t ≤ (o.rotArgs none).intDt by show _ ≤ o.intDt; rw [e2, e3]; linarith), e1, e2,
          add_sub_cancel_left]
        rfl
      simp only [hq] at hz
      rw [← Except.ok.inj hz]
      simp only [sliceFrom_hstack]
  have e1 := hrun s r rfl rfl rfl h
  have e2 := hrun { s with goalY := g } r' rfl rfl rfl h'
  have hf : ∀ z, s.ftRot.force z = 0 := by
    intro z; funext k; simp [ForcingTerm.force, hw]
  have f1 : ∀ k, sliceFrom r.2 k = s.dt * (sliceFrom s.alphaY k * (sliceFrom s.betaY k *
      QuatStepArgs.diff QuatOps.cython gy q k) / s.executionTime ^ 2) := by
    intro k
    rw [e1]
    simp [QuatStepArgs.update, CartesianDMP.rotArgs, hsm, hf, hgy]
  have f2 : ∀ k, sliceFrom r'.2 k = -(s.dt * (sliceFrom s.alphaY k * (sliceFrom s.betaY k *
      QuatStepArgs.diff QuatOps.cython gy q k) / s.executionTime ^ 2)) := by
    intro k
    rw [e2]
    simp only [QuatStepArgs.update, CartesianDMP.rotArgs, hsm, hf, hgo, hd]
    simp
    ring
  constructor
  · funext k
    rw [f2 k]
    show _ = -(sliceFrom r.2 k)
    rw [f1 k]
  · intro hz
    have hz0 : QuatStepArgs.diff QuatOps.cython gy q = 0 := by
      funext k
      have h3 := f1 k
      rw [hz] at h3
      have h4 : s.dt * (sliceFrom s.alphaY k * (sliceFrom s.betaY k * QuatStepArgs.diff QuatOps.cython gy q k) /
        s.executionTime ^ 2) = 0 := h3.symm
      have hne := hgain k
      have hτ2 : s.executionTime ^ 2 ≠ 0 := by positivity
      rcases mul_eq_zero.1 h4 with h5 | h5
      · exact absurd h5 hdt.ne'
      · rcases mul_eq_zero.1 ((div_eq_zero_iff.1 h5).resolve_right hτ2) with h6 | h6
        · exact absurd h6 hne.1
        · exact (mul_eq_zero.1 h6).resolve_left hne.2
    rw [hz0, length_eq_zero.2 rfl] at hlen
    exact absurd hlen Real.pi_pos.ne

/-- **C114 (CartesianDMP, new object).** Without weights for the orientation and without smooth scaling, with the default
ratio of the gains (or larger damping), the trajectory never depends on the signs of the quaternions, unless the start
orientation is turned by exactly 180 degrees from the goal. -/
theorem C114_open_loop_new {s : CartesianDMP m} {ops : QuatOps} {eps : ℝ} (hops : LawfulQuatOps ops eps) {name qname : String}
    {sf : StepFunction} {qf : QuatStepFunction} (hname : StepFunction.lookup name = .ok sf)
    (hqname : QuatStepFunction.lookup ops qname = .ok qf) {eps' : ℝ} (hqf : StepThreshold qf eps') (heps : 0 < eps)
    (heps1 : eps' ≤ 1) (hτ : 0 < s.executionTime) (hw : ∀ w ∈ s.getWeights.drop (3 * m), w = 0) (hsm : s.smooth = false)
    {α β : ℝ} (hα : ∀ k, angular s.alphaY k = α) (hβ : ∀ k, angular s.betaY k = β) (hβ0 : 0 < β) (hαβ : 4 * β ≤ α)
    (hint : 0 < s.intDt) {K : ℕ} (hK : 0 < K) (hdt : s.dt = K * s.intDt) (hrot : s.intDt * α ≤ s.executionTime)
    (hs : UnitQuat (orientation s.startY)) (hg : UnitQuat (orientation s.goalY))
    (hno : NoHalfTurn (orientation s.goalY) (orientation s.startY)) {y g : Vec (3 + 4)} (h1 : SamePose s.startY y)
    (h2 : SamePose s.goalY g) {r : ℝ} (hr : 0 ≤ r) :
    ∃ T Y Y', ((CartesianDMP.openLoop ops (some r) none name qname).exec s).1 = .ok (T, Y) ∧
      ((CartesianDMP.openLoop ops (some r) none name qname).exec { s with startY := y, goalY := g }).1 = .ok (T, Y') ∧
      List.Forall₂ SamePose Y Y' := by
  have hdt0 : 0 < s.dt := hdt ▸ mul_pos (Nat.cast_pos.2 hK) hint
  obtain ⟨T, Y, h⟩ := CartesianDMP.openLoop_returns hname hqname hdt0 hτ hint hr
  obtain ⟨Tf, Yf, hf⟩ := CartesianDMP.openLoop_returns (s := { s with dt := s.intDt }) hname hqname hint hτ hint
    (r := r + s.dt) (by linarith)
  have hst : Spec.Stable sf s.intDt s.intDt s.executionTime 0 0 := by
    have : 0 < s.executionTime ^ 2 := by positivity
    cases sf
    case euler => exact .euler (.inl rfl) hint (by simp)
    case eulerCython => exact .euler (.inr rfl) hint (by simp)
    case rk4 => exact .rk4 (.inl rfl) (by simpa using hτ) (by simp; positivity)
    case rk4Cython => exact .rk4 (.inr rfl) (by simpa using hτ) (by simp; positivity)
  obtain ⟨xs, hx0, hd, hrows⟩ := C76_cartesian_open_loop (s := { s with dt := s.intDt }) hname hqname hqf heps1 hint hτ hw hsm
    hst hα hβ hβ0 hαβ hint hrot hg hs
  obtain ⟨Y', h3, h4⟩ := C114_open_loop_substeps hτ hint hK hdt heps hops (c := none) (by intro d hd; cases hd) hs hg h1 h2 h
    (R := r + s.dt) le_rfl hf (by
      intro x hx
      obtain ⟨i, hi, rfl⟩ := List.getElem_of_mem hx
      have h5 := hd.antitone (Nat.zero_le i)
      simp only [hx0] at h5
      unfold NoHalfTurn at hno ⊢
      rw [hrows _ _ _ hf i hi]
      exact lt_of_le_of_lt h5 hno)
  exact ⟨T, Y, Y', h, h3, h4⟩

example : ∃ s : CartesianDMP 10, s.Reachable ∧ 0 < s.executionTime ∧ (∀ w ∈ s.getWeights.drop (3 * 10), w = 0) ∧
    s.smooth = false ∧ (∀ k, angular s.alphaY k = 25) ∧ (∀ k, angular s.betaY k = 25 / 4) ∧ 0 < s.intDt ∧
    s.dt = (10 : ℕ) * s.intDt ∧ s.intDt * 25 ≤ s.executionTime ∧ UnitQuat (orientation s.startY) ∧
    UnitQuat (orientation s.goalY) ∧ NoHalfTurn (orientation s.goalY) (orientation s.startY) ∧
    orientation s.goalY ≠ orientation s.startY ∧
    SamePose s.startY ![0, 0, 0, -1, 0, 0, 0] ∧ SamePose s.goalY ![1, 2, 3, -(3 / 5), -(4 / 5), 0, 0] := by
  obtain ⟨s, hs, h1, h2, h3, h4, h5, h6, h7, h8, h9, h10, h11⟩ := CartesianDMP.create_ok 10 (by norm_num) one_pos (1 / 100)
    (1 / 1000) false 25 (25 / 4)
  let a : ConfigArgs := { startY := some [0, 0, 0, 1, 0, 0, 0], goalY := some [1, 2, 3, 3 / 5, 4 / 5, 0, 0] }
  let s' := (CartesianOp.configure (m := 10) a).after s
  have hc : s' = { s with startY := ![0, 0, 0, 1, 0, 0, 0], goalY := ![1, 2, 3, 3 / 5, 4 / 5, 0, 0] } := by
    show ((CartesianDMP.configure a).exec s).2 = _
    rw [CartesianDMP.exec_configure, C25_configure_sets _ _ (by simp [AllOk, FieldOk, a])]
    have e1 : newValue (some [0, 0, 0, 1, 0, 0, 0]) s.startY = ![0, 0, 0, 1, 0, 0, 0] := by
      funext i; fin_cases i <;> rfl
    have e2 : newValue (some [1, 2, 3, 3 / 5, 4 / 5, 0, 0]) s.goalY = ![1, 2, 3, 3 / 5, 4 / 5, 0, 0] := by
      funext i; fin_cases i <;> rfl
    simp only [a, e1, e2]
    rfl
  refine ⟨s', .op _ (.create hs), ?_⟩
  rw [hc]
  have ha : ∀ (x : ℝ) k, angular (fun _ => x) k = x := by intro x k; fin_cases k <;> rfl
  simp only [h2, h3, h4, h5, h6, h7, ha]
  refine ⟨by norm_num, ?_, trivial, fun _ => trivial, fun _ => trivial, by norm_num, by norm_num, by norm_num, ?_, ?_, ?_, ?_,
    ⟨?_, ?_⟩, ⟨?_, ?_⟩⟩
  · intro w hw
    unfold CartesianDMP.getWeights at hw
    rw [List.drop_left' (by simp), List.mem_ofFn] at hw
    obtain ⟨i, rfl⟩ := hw
    simp only [h9]
  · simp [UnitQuat, orientation]
  · simp [UnitQuat, orientation]; norm_num
  · rw [noHalfTurn_iff]
    simp [Fin.sum_univ_four, orientation]
  · intro h
    have : (3 / 5 : ℝ) = 1 := congrFun h 0
    norm_num at this
  · funext k; fin_cases k <;> rfl
  · right; funext k; fin_cases k <;> simp [orientation]
  · funext k; fin_cases k <;> rfl
  · right; funext k; fin_cases k <;> simp [orientation]

/-- The finding is about orientations that can occur: a turn by 180 degrees about the x axis. -/
example : UnitQuat ![1, 0, 0, 0] ∧ UnitQuat ![0, 1, 0, 0] ∧ rotationAngle ![0, 1, 0, 0] ![1, 0, 0, 0] = Real.pi := by
  refine ⟨by simp [UnitQuat], by simp [UnitQuat], ?_⟩
  simp [rotationAngle, Fin.sum_univ_four]
  ring

/-- A demonstration whose quaternions change their signs in every time step. -/
example (n : ℕ) : ∃ Y Y' : Fin (n + 2) → Vec (3 + 4), (∀ t, UnitQuat (orientation (Y t))) ∧ (∀ t, SamePose (Y t) (Y' t)) ∧
    (∀ i j, NoHalfTurn (orientation (Y i)) (orientation (Y j))) ∧ Y 0 ≠ Y 1 ∧ orientation (Y' 1) = -orientation (Y 1) := by
  refine ⟨fun t => if t.val % 2 = 0 then ![0, 0, 0, 1, 0, 0, 0] else ![1, 2, 3, 3 / 5, 4 / 5, 0, 0],
    fun t => if t.val % 2 = 0 then ![0, 0, 0, 1, 0, 0, 0] else ![1, 2, 3, -(3 / 5), -(4 / 5), 0, 0], ?_, ?_, ?_, ?_, ?_⟩
  · intro t
    dsimp only
    split_ifs
    · simp [UnitQuat, orientation]
    · simp [UnitQuat, orientation]; norm_num
  · intro t
    dsimp only
    split_ifs
    · exact ⟨rfl, .inl rfl⟩
    · exact ⟨by funext k; fin_cases k <;> rfl, .inr (by funext k; fin_cases k <;> simp [orientation])⟩
  · intro i j
    rw [noHalfTurn_iff]
    dsimp only
    split_ifs <;> simp [Fin.sum_univ_four, orientation] <;> norm_num
  · intro h
    have := congrFun h 0
    simp at this
  · funext k; fin_cases k <;> simp [orientation]

end Verif
