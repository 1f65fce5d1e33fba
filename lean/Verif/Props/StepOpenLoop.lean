import Verif.Lemmas.FedBack
import Verif.Props.DmpClass
import Verif.Props.FinalVelocity
import Verif.Props.SpringDamper
import Verif.Props.StateFollowing
import Verif.Props.DualClass

/-! # `open_loop` and repeated calls of `step` of all movement primitives (C18, C20) -/

namespace Verif
open Spec
variable {d m n : ℕ}

/-- **C18.** `DMP`: `open_loop(run_t)` of a new or reset object that starts at rest makes `⌈run_t / dt⌉` steps and returns the
positions of as many calls of `step` in which every result is passed to the next call, for every duration. -/
theorem C18_dmp_any_duration (s : DMP d m) (ht : s.t = 0) (hv : s.startYd = 0) (hdt : 0 < s.dt)
    (hcur : s.initialized = true → s.currentY = s.startY ∧ s.currentYd = s.startYd)
    (coupling : Option (Coupling d)) {name : String} {sf : StepFunction} (hname : StepFunction.lookup name = .ok sf)
    (runT : Option ℝ) (hr : 0 ≤ runT.getD s.executionTime) :
    ((DMP.openLoop runT coupling name).exec s).1 =
      ((fedBack (DMP.step coupling sf) ⌈runT.getD s.executionTime / s.dt⌉₊ s.startY s.startYd).exec s).1.map fun rows =>
        ((List.range (⌈runT.getD s.executionTime / s.dt⌉₊ + 1)).map (fun i : ℕ => i * s.dt),
          s.startY :: rows.map Prod.fst) := by
  rw [DMP.exec_openLoop, hname]
  have hb : s.beginStep.currentY = s.startY ∧ s.beginStep.currentYd = s.startYd := by
    unfold DMP.beginStep
    cases hi : s.initialized with
    | false => simp
    | true => simpa using hcur hi
  have hl := fedBack_eq_loopRows coupling sf s ⌈runT.getD s.executionTime / s.dt⌉₊ 0 s rfl hv rfl (by simp [ht])
  rw [hb.1, hb.2] at hl
  rw [hl]
  have he := openLoopWith_steps hdt (s.startY, (0 : Vec d)) runT hr (sf.run (s.openLoopArgs coupling))
  have hat : ∀ i : ℕ, arangeAt 0 s.dt i = i * s.dt := fun i => by simp [arangeAt]
  simp only [hat]
  rw [hv]
  exact he

section
open FvDMP

/-- **C18.** `DMPWithFinalVelocity`: the same, for every start velocity. -/
theorem C18_fv (s : FvDMP d m) (ht : s.t = 0) (hdt : 0 < s.dt)
    (hcur : s.initialized = true → s.currentY = s.startY ∧ s.currentYd = s.startYd)
    (coupling : Option (Coupling d)) (runT : Option ℝ) (hr : 0 ≤ runT.getD s.executionTime) :
    ((FvDMP.openLoop runT coupling).exec s).1 =
      ((fedBack (FvDMP.step coupling) ⌈runT.getD s.executionTime / s.dt⌉₊ s.startY s.startYd).exec s).1.map fun rows =>
        ((List.range (⌈runT.getD s.executionTime / s.dt⌉₊ + 1)).map (fun i : ℕ => i * s.dt),
          s.startY :: rows.map Prod.fst) := by
  have he := openLoopWith_steps hdt (s.startY, s.startYd) runT hr (FvDMP.openLoopArgs s coupling).fvStep
  have hl := fedBack_loopRows (FvDMP.step (m := m) coupling)
    (fun i x => (FvDMP.openLoopArgs s coupling).fvStep (i * s.dt) ((i + 1 : ℕ) * s.dt) x)
    (fun i o x => FvDMP.openLoopArgs o coupling = FvDMP.openLoopArgs s coupling ∧ o.dt = s.dt ∧ o.t = i * s.dt ∧
      o.beginStep.currentY = x.1 ∧ o.beginStep.currentYd = x.2)
    (by
      rintro i o ⟨y, yd⟩ ⟨h1, h2, h3, h4, h5⟩
      simp only at h4 h5 ⊢
      rw [FvDMP.exec_step, h4, h5, h3, h2, sub_self]
      have e : ((o.beginStep.stepArgs coupling 0).fvStep (i * s.dt) (i * s.dt + s.dt) (y, yd)) =
          (FvDMP.openLoopArgs s coupling).fvStep (i * s.dt) ((i + 1 : ℕ) * s.dt) (y, yd) := by
        rw [← h1]
        have hb : (o.beginStep.stepArgs coupling 0).fvBody = (FvDMP.openLoopArgs o coupling).fvBody := by
          funext c dt t x
          simp only [StepArgs.fvBody, FvDMP.openLoopArgs, DMP.stepArgs, Pi.zero_apply, mul_zero, zero_div]
          rfl
        have ha : (i : ℝ) * s.dt + s.dt = (i + 1 : ℕ) * s.dt := by push_cast; ring
        unfold StepArgs.fvStep
        rw [hb, ha]
        rfl
      rw [e]
      cases (FvDMP.openLoopArgs s coupling).fvStep (i * s.dt) ((i + 1 : ℕ) * s.dt) (y, yd) with
      | error e => exact ⟨_, rfl, by simp⟩
      | ok r =>
        refine ⟨{ o.beginStep with currentY := r.1, currentYd := r.2 }, rfl, ?_⟩
        intro r' hr'
        cases hr'
        refine ⟨h1, h2, ?_, rfl, rfl⟩
        show o.t + o.dt = _
        rw [h3, h2]
        push_cast
        ring)
    ⌈runT.getD s.executionTime / s.dt⌉₊ 0 s (s.startY, s.startYd) (by
      refine ⟨rfl, rfl, by simp [ht], ?_, ?_⟩ <;>
      · unfold DMP.beginStep
        cases hi : s.initialized with
        | false => simp
        | true => simpa using by first | exact (hcur hi).1 | exact (hcur hi).2)
  simp only at hl
  rw [hl]
  exact he

end

/-- A new object meets the hypotheses. -/
example : ∃ s, FvDMP.create 2 10 1 (1 / 100) (1 / 1000) 0 (.scalar 25) (.scalar (25 / 4)) = .ok s ∧ s.t = 0 ∧ 0 < s.dt ∧
    (s.initialized = true → s.currentY = s.startY ∧ s.currentYd = s.startYd) ∧ 0 ≤ (none : Option ℝ).getD s.executionTime := by
  obtain ⟨s, hs, h1, h2, -, -, -, h6, h7, -⟩ := DMP.create_ok 2 10 (by norm_num) one_pos (1 / 100) (1 / 1000) 0 false 25 (25 / 4)
  refine ⟨s, hs, h7, by rw [h2]; norm_num, (fun h => by rw [h6] at h; cases h), ?_⟩
  show 0 ≤ s.executionTime
  rw [h1]; norm_num

/-- **C18.** `SpringDamper`: the same if the first call of `step` gets velocity 0, whatever the start velocity is. -/
theorem C18_spring_damper (s : SpringDamper d) (ht : s.t = 0) (hdt : 0 < s.dt) (coupling : Option (Coupling d)) {runT : ℝ}
    (hr : 0 ≤ runT) :
    ((SpringDamper.openLoop runT coupling).exec s).1 =
      ((fedBack (SpringDamper.step coupling) ⌈runT / s.dt⌉₊ s.startY 0).exec s).1.map fun rows =>
        ((List.range (⌈runT / s.dt⌉₊ + 1)).map (fun i : ℕ => i * s.dt), s.startY :: rows.map Prod.fst) := by
  have he := openLoopWith_steps (goalT := runT) hdt (s.startY, (0 : Vec d)) (some runT) hr
    (springDamperStep s.goalY s.k s.c coupling none s.intDt)
  have hl := fedBack_loopRows (SpringDamper.step coupling)
    (fun i x => springDamperStep s.goalY s.k s.c coupling none s.intDt (i * s.dt) ((i + 1 : ℕ) * s.dt) x)
    (fun i o _ => o.goalY = s.goalY ∧ o.k = s.k ∧ o.c = s.c ∧ o.intDt = s.intDt ∧ o.dt = s.dt ∧ o.t = i * s.dt)
    (by
      rintro i o ⟨y, yd⟩ ⟨h1, h2, h3, h4, h5, h6⟩
      have ha : (i : ℝ) * s.dt + s.dt = (i + 1 : ℕ) * s.dt := by push_cast; ring
      rw [SpringDamper.exec_step, h1, h2, h3, h4, h5, h6, ha]
      cases springDamperStep s.goalY s.k s.c coupling none s.intDt (i * s.dt) ((i + 1 : ℕ) * s.dt) (y, yd) with
      | error e => exact ⟨_, rfl, by simp⟩
      | ok r =>
        refine ⟨_, rfl, ?_⟩
        intro r' _
        refine ⟨h1, h2, h3, h4, h5, ?_⟩
        show o.t + o.dt = _
        rw [h6, h5, ha])
    ⌈runT / s.dt⌉₊ 0 s (s.startY, 0) ⟨rfl, rfl, rfl, rfl, rfl, by simp [ht]⟩
  simp only at hl
  rw [hl]
  exact he

/-- A new object meets the hypotheses. -/
example : (SpringDamper.create 2 (1 / 100) 1 none (1 / 1000)).t = 0 ∧ 0 < (SpringDamper.create 2 (1 / 100) 1 none (1 / 1000)).dt :=
  ⟨rfl, by norm_num [SpringDamper.create]⟩

/-- **C18.** `SpringDamperOrientation`: the same. -/
theorem C18_spring_damper_orientation (ops : QuatOps) (s : SpringDamperOrientation) (ht : s.t = 0) (hdt : 0 < s.dt)
    (coupling : Option RotCoupling) {runT : ℝ} (hr : 0 ≤ runT) :
    ((SpringDamperOrientation.openLoop ops runT coupling).exec s).1 =
      ((fedBack (SpringDamperOrientation.step ops coupling) ⌈runT / s.dt⌉₊ s.startY 0).exec s).1.map fun rows =>
        ((List.range (⌈runT / s.dt⌉₊ + 1)).map (fun i : ℕ => i * s.dt), s.startY :: rows.map Prod.fst) := by
  have he := openLoopWith_steps (goalT := runT) hdt (s.startY, (0 : Vec 3)) (some runT) hr
    (springDamperQuatStep ops s.goalY s.k s.c coupling none s.intDt)
  have hl := fedBack_loopRows (SpringDamperOrientation.step ops coupling)
    (fun i x => springDamperQuatStep ops s.goalY s.k s.c coupling none s.intDt (i * s.dt) ((i + 1 : ℕ) * s.dt) x)
    (fun i o _ => o.goalY = s.goalY ∧ o.k = s.k ∧ o.c = s.c ∧ o.intDt = s.intDt ∧ o.dt = s.dt ∧ o.t = i * s.dt)
    (by
      rintro i o ⟨y, yd⟩ ⟨h1, h2, h3, h4, h5, h6⟩
      have ha : (i : ℝ) * s.dt + s.dt = (i + 1 : ℕ) * s.dt := by push_cast; ring
      rw [SpringDamperOrientation.exec_step, h1, h2, h3, h4, h5, h6, ha]
      cases springDamperQuatStep ops s.goalY s.k s.c coupling none s.intDt (i * s.dt) ((i + 1 : ℕ) * s.dt) (y, yd) with
      | error e => exact ⟨_, rfl, by simp⟩
      | ok r =>
        refine ⟨_, rfl, ?_⟩
        intro r' _
        refine ⟨h1, h2, h3, h4, h5, ?_⟩
        show o.t + o.dt = _
        rw [h6, h5, ha])
    ⌈runT / s.dt⌉₊ 0 s (s.startY, 0) ⟨rfl, rfl, rfl, rfl, rfl, by simp [ht]⟩
  simp only at hl
  rw [hl]
  exact he

/-- A new object meets the hypotheses. -/
example : (SpringDamperOrientation.create (1 / 100) 1 none (1 / 1000)).t = 0 ∧
    0 < (SpringDamperOrientation.create (1 / 100) 1 none (1 / 1000)).dt := ⟨rfl, by norm_num [SpringDamperOrientation.create]⟩

/-- **C18.** `CartesianDMP` that starts at rest: `open_loop` returns if and only if all calls of `step` return, and its poses are their
results. (If both raise, the errors can be different ones because `open_loop` computes all positions first.) -/
theorem C18_cartesian (ops : QuatOps) (s : CartesianDMP m) (ht : s.t = 0) (hv : s.startYd = 0) (hdt : 0 < s.dt)
    (coupling : Option PoseCoupling) {name qname : String} {sf : StepFunction} {qf : QuatStepFunction}
    (hname : StepFunction.lookup name = .ok sf) (hqname : QuatStepFunction.lookup ops qname = .ok qf) (runT : Option ℝ)
    (hr : 0 ≤ runT.getD s.executionTime) (T : List ℝ) (Y : List (Vec (3 + 4))) :
    ((CartesianDMP.openLoop ops runT coupling name qname).exec s).1 = .ok (T, Y) ↔
      ∃ rows, ((fedBack (CartesianDMP.step coupling sf qf) ⌈runT.getD s.executionTime / s.dt⌉₊ s.startY s.startYd).exec s).1 =
          .ok rows ∧
        T = (List.range (⌈runT.getD s.executionTime / s.dt⌉₊ + 1)).map (fun i : ℕ => (i : ℝ) * s.dt) ∧
        Y = s.startY :: rows.map Prod.fst := by
  have hp : ∀ lastT t x, sf.run (s.posArgs coupling) lastT t x = sf.run (s.posOpenLoopArgs coupling) lastT t x := by
    intro lastT t x
    rw [run_no_error sf (s.posArgs coupling) rfl 0 0 0 0]
    congr 1
    unfold CartesianDMP.posOpenLoopArgs CartesianDMP.posArgs
    simp only [hv]
    congr 1
  have hq : s.rotArgs coupling = s.rotOpenLoopArgs coupling := by
    unfold CartesianDMP.rotOpenLoopArgs CartesianDMP.rotArgs
    simp only [hv]
    congr 1
  set N := ⌈runT.getD s.executionTime / s.dt⌉₊ with hN
  let F : ℕ → Vec 3 × Vec 3 → Except PyErr (Vec 3 × Vec 3) :=
    fun i x => sf.run (s.posOpenLoopArgs coupling) (i * s.dt) ((i + 1 : ℕ) * s.dt) x
  let G : ℕ → Vec 4 × Vec 3 → Except PyErr (Vec 4 × Vec 3) :=
    fun i x => qf.run (s.rotOpenLoopArgs coupling) (i * s.dt) ((i + 1 : ℕ) * s.dt) x
  let φ : (Vec 3 × Vec 3) × (Vec 4 × Vec 3) → Vec (3 + 4) × Vec (3 + 3) :=
    fun x => (hstack x.1.1 x.2.1, hstack x.1.2 x.2.2)
  let next : ℕ → Vec (3 + 4) × Vec (3 + 3) → Except PyErr (Vec (3 + 4) × Vec (3 + 3)) := fun i x =>
    ((F i (sliceTo x.1, sliceTo x.2)).bind fun a => (G i (sliceFrom x.1, sliceFrom x.2)).map fun b => (a, b)).map φ
  have hl := fedBack_loopRows (CartesianDMP.step (m := m) coupling sf qf) next
    (fun i o _ => o.posArgs coupling = s.posArgs coupling ∧ o.rotArgs coupling = s.rotOpenLoopArgs coupling ∧ o.dt = s.dt ∧
      o.t = i * s.dt)
    (by
      rintro i o ⟨y, yd⟩ ⟨h1, h2, h3, h4⟩
      have ha : (i : ℝ) * s.dt + s.dt = (i + 1 : ℕ) * s.dt := by push_cast; ring
      rw [CartesianDMP.exec_step, h1, h2, h3, h4, ha, hp]
      simp only [next, F, G]
      cases sf.run (s.posOpenLoopArgs coupling) (i * s.dt) ((i + 1 : ℕ) * s.dt) (sliceTo y, sliceTo yd) with
      | error e => exact ⟨_, rfl, by rintro r ⟨⟩⟩
      | ok rp =>
        cases qf.run (s.rotOpenLoopArgs coupling) (i * s.dt) ((i + 1 : ℕ) * s.dt) (sliceFrom y, sliceFrom yd) with
        | error e => exact ⟨_, rfl, by rintro r ⟨⟩⟩
        | ok rr =>
          refine ⟨_, rfl, ?_⟩
          intro r _
          refine ⟨h1, h2, h3, ?_⟩
          show o.t + o.dt = _
          rw [h4, h3, ha])
    N 0 s (s.startY, s.startYd) ⟨rfl, hq, rfl, by simp [ht]⟩
  have hstart : φ ((sliceTo s.startY, 0), (sliceFrom s.startY, 0)) = (s.startY, s.startYd) := by
    simp only [φ, hv]
    refine Prod.ext ?_ ?_
    · exact hstack_slices _
    · exact hstack_slices (0 : Vec (3 + 3))
  have hm := loopRows_map
    (fun i (x : (Vec 3 × Vec 3) × (Vec 4 × Vec 3)) => (F i x.1).bind fun a => (G i x.2).map fun b => (a, b))
    next (fun x => (id x.1, id x.2)) id φ φ
    (by
      intro i x
      simp only [next, φ, sliceTo_hstack, sliceFrom_hstack])
    (fun x => rfl) N ((sliceTo s.startY, 0), (sliceFrom s.startY, 0)) 0
  rw [hstart] at hm
  simp only at hl
  have hO : ((CartesianDMP.openLoop ops runT coupling name qname).exec s).1 =
      ((loopRows F id N (sliceTo s.startY, 0) 0).map fun rows =>
        ((List.range (N + 1)).map (fun i : ℕ => (i : ℝ) * s.dt), sliceTo s.startY :: rows.map Prod.fst)).bind fun p =>
      ((loopRows G id N (sliceFrom s.startY, 0) 0).map fun rows =>
        ((List.range (N + 1)).map (fun i : ℕ => (i : ℝ) * s.dt), sliceFrom s.startY :: rows.map Prod.fst)).bind fun r =>
      if p.2.length ≠ r.2.length then .error .valueError else .ok (p.1, List.zipWith hstack p.2 r.2) := by
    rw [CartesianDMP.exec_openLoop, hname, hqname]
    have hP := openLoopWith_steps hdt (sliceTo s.startY, (0 : Vec 3)) runT hr (sf.run (s.posOpenLoopArgs coupling))
    have hR := openLoopWith_steps hdt (sliceFrom s.startY, (0 : Vec 3)) runT hr (qf.run (s.rotOpenLoopArgs coupling))
    have hPd : dmpOpenLoop (s.posOpenLoopArgs coupling) s.dt runT sf =
      openLoopWith s.executionTime 0 s.dt (sliceTo s.startY, (0 : Vec 3)) runT (sf.run (s.posOpenLoopArgs coupling)) := rfl
    show (dmpOpenLoop (s.posOpenLoopArgs coupling) s.dt runT sf).bind _ = _
    rw [hPd, hP]
    congr 1
    funext p
    show (openLoopWith _ _ _ _ _ _).bind _ = _
    rw [hR]
  rw [hO, hl, hm]
  have hprod := loopRows_prod F G id id N (sliceTo s.startY, 0) (sliceFrom s.startY, 0) 0
  generalize loopRows (fun i (x : (Vec 3 × Vec 3) × (Vec 4 × Vec 3)) => (F i x.1).bind fun a => (G i x.2).map fun b => (a, b))
      (fun x => (id x.1, id x.2)) N ((sliceTo s.startY, 0), (sliceFrom s.startY, 0)) 0 = Z at hprod ⊢
  cases hA : loopRows F id N (sliceTo s.startY, 0) 0 with
  | error e =>
    simp only [Except.map, Except.bind, reduceCtorEq, false_iff]
    rintro ⟨rows, h1, -⟩
    cases Z with
    | error e => cases h1
    | ok z =>
      obtain ⟨ra, rb, h2, -⟩ := (hprod z).mp rfl
      rw [hA] at h2
      cases h2
  | ok ra =>
    cases hB : loopRows G id N (sliceFrom s.startY, 0) 0 with
    | error e =>
      simp only [Except.map, Except.bind, reduceCtorEq, false_iff]
      rintro ⟨rows, h1, -⟩
      cases Z with
      | error e => cases h1
      | ok z =>
        obtain ⟨ra, rb, -, h2, -⟩ := (hprod z).mp rfl
        rw [hB] at h2
        cases h2
    | ok rb =>
      rw [(hprod (ra.zip rb)).mpr ⟨ra, rb, hA, hB, rfl⟩]
      have la := loopRows_length hA
      have lb := loopRows_length hB
      simp only [Except.map, Except.bind, List.length_cons, List.length_map, la, lb, ne_eq, not_true_eq_false, if_false,
        Except.ok.injEq, Prod.mk.injEq, exists_eq_left']
      have hz : List.zipWith hstack (sliceTo s.startY :: ra.map Prod.fst) (sliceFrom s.startY :: rb.map Prod.fst) =
          s.startY :: ((ra.zip rb).map φ).map Prod.fst := by
        rw [List.zipWith_cons_cons, hstack_slices, List.map_map]
        congr 1
        rw [List.zipWith_map, List.map_zip_eq_zipWith]
        rfl
      rw [hz]
      constructor
      · rintro ⟨rfl, rfl⟩; exact ⟨rfl, rfl⟩
      · rintro ⟨rfl, rfl⟩; exact ⟨rfl, rfl⟩

/-- A new object meets the hypotheses. -/
example : ∃ s, CartesianDMP.create 10 1 (1 / 100) (1 / 1000) false (.scalar 25) (.scalar (25 / 4)) = .ok s ∧ s.t = 0 ∧
    s.startYd = 0 ∧ 0 < s.dt ∧ 0 ≤ (none : Option ℝ).getD s.executionTime := by
  obtain ⟨s, hs, h1, h2, h3, -⟩ := CartesianDMP.create_ok 10 (by norm_num) one_pos (1 / 100) (1 / 1000) false 25 (25 / 4)
  refine ⟨s, hs, by rw [h1]; rfl, by rw [h1]; rfl, by rw [h3]; norm_num, ?_⟩
  show 0 ≤ s.executionTime
  rw [h2]; norm_num

/-- Comparison of times on the grid. -/
theorem lt_ceil_div {dt run : ℝ} (hdt : 0 < dt) (i : ℕ) : i * dt < run ↔ i < ⌈run / dt⌉₊ := by
  rw [Nat.lt_ceil, lt_div_iff₀ hdt]

/-- **C18.** `DualCartesianDMP` at time 0, in any state and with any `p_gain`: `open_loop` makes `⌈run_t / dt⌉` calls of `step` that
start with the start state and returns their results; the object is in the same state as after these calls, except for its
time, which is 0. If one of these calls raises, `open_loop` raises the same error. -/
theorem C18_dual (ops : QuatOps) (s : DualCartesianDMP m) (ht : s.t = 0) (hdt : 0 < s.dt) (coupling : Option DualCoupling)
    {name : String} {sf : DualStepFunction} (hname : DualStepFunction.lookup ops name = .ok sf) (runT : Option ℝ) :
    (∃ rows s', (fedBack (DualCartesianDMP.step ops coupling sf) ⌈runT.getD s.executionTime / s.dt⌉₊ s.startY s.startYd).exec s =
        (.ok rows, s') ∧
      (DualCartesianDMP.openLoop ops runT coupling name).exec s =
        (.ok ((List.range (⌈runT.getD s.executionTime / s.dt⌉₊ + 1)).map (fun i : ℕ => (i : ℝ) * s.dt),
          s.startY :: rows.map Prod.fst), { s' with t := 0 })) ∨
    ∃ e s', (fedBack (DualCartesianDMP.step ops coupling sf) ⌈runT.getD s.executionTime / s.dt⌉₊ s.startY s.startYd).exec s =
        (.error e, s') ∧
      (DualCartesianDMP.openLoop ops runT coupling name).exec s = (.error e, s') := by
  have hs : ({ s with t := 0 } : DualCartesianDMP m) = s := by
    obtain ⟨⟨⟩⟩ := s
    simp only at ht
    subst ht
    rfl
  have key := Py.while_fedBack (cond := fun o : DualCartesianDMP m => o.t < runT.getD s.executionTime)
    (body := DualCartesianDMP.loopBody ops coupling sf) (DualCartesianDMP.step ops coupling sf)
    ⌈runT.getD s.executionTime / s.dt⌉₊ (fun i => (i : ℝ) * s.dt) (fun x _ => (x.T, x.Y))
    (fun i x o o' z => o' = o ∧ o.dt = s.dt ∧ o.t = i * s.dt ∧ z = (x.y, x.yd)) (fun o o' => o = o')
    (by
      rintro i x o o' z ⟨rfl, h1, h2, h3⟩
      rw [h2]
      exact lt_ceil_div hdt i)
    (by
      rintro i x o o' z ⟨rfl, h1, h2, rfl⟩
      have ha : o'.t + o'.dt = (i + 1 : ℕ) * s.dt := by rw [h1, h2]; push_cast; ring
      simp only
      rw [DualCartesianDMP.exec_loopBody, DualCartesianDMP.exec_step]
      cases sf.run (o'.stepArgs coupling (DualCartesianDMP.trackingError ops o'.reference x.y)) o'.t (o'.t + o'.dt)
          (x.y, x.yd) with
      | error e => exact .inr ⟨e, _, _, rfl, rfl, rfl⟩
      | ok r =>
        left
        refine ⟨r, _, _, _, rfl, rfl, ⟨rfl, h1, ha, rfl⟩, ?_⟩
        rw [ha])
    ⌈runT.getD s.executionTime / s.dt⌉₊ 0 ⟨s.startY, s.startYd, [0], [s.startY]⟩ s s (s.startY, s.startYd) (by omega)
    ⟨rfl, rfl, by simp [ht], rfl⟩
  have hloop : DualCartesianDMP.loop ops coupling sf (runT.getD s.executionTime) s =
      (Py.while (fun o : DualCartesianDMP m => o.t < runT.getD s.executionTime) (DualCartesianDMP.loopBody ops coupling sf)
        ⟨s.startY, s.startYd, [0], [s.startY]⟩).exec s := by
    unfold DualCartesianDMP.loop
    rw [hs]
  rw [DualCartesianDMP.exec_openLoop, hname]
  simp only [hloop]
  rcases key with ⟨rows, o', x', s', g1, g2, ⟨z', hz, -⟩, g3⟩ | ⟨e, o', s', g1, g2, g3⟩
  · left
    subst hz
    refine ⟨rows, o', g1, ?_⟩
    rw [g2]
    simp only [Prod.mk.injEq] at g3
    simp only [g3.1, g3.2, List.range_succ_eq_map, List.map_cons, List.map_map, List.singleton_append, Nat.cast_zero, zero_mul]
    congr 4
    apply List.map_congr_left
    intro j _
    simp only [Function.comp]
    congr 2
    omega
  · right
    subst g3
    exact ⟨e, s', g1, by rw [g2]⟩

/-- A new object meets the hypotheses. -/
example : ∃ s, DualCartesianDMP.create 10 1 (1 / 100) (1 / 1000) 2 false (.scalar 25) (.scalar (25 / 4)) = .ok s ∧ s.t = 0 ∧
    0 < s.dt ∧ s.startYd = 0 ∧ s.initialized = false := by
  obtain ⟨s, hs, h1, -, h3, -, -, -, -, -, -, h4⟩ :=
    DualCartesianDMP.create_ok 10 (by norm_num) one_pos (1 / 100) (1 / 1000) 2 false 25 (25 / 4)
  exact ⟨s, hs, by rw [h1]; rfl, by rw [h3]; norm_num, by rw [h1]; rfl, h4⟩

/-- **C18.** `StateFollowingDMP` at time 0: `open_loop` makes `⌈run_t / dt⌉` steps and returns the positions of as many calls of `step`,
the first one with the start position and velocity 0. If one raises, so does the other with the same error. -/
theorem C18_state_following (s : StateFollowingDMP d n) (ht : s.t = 0) (hdt : 0 < s.dt) (coupling : Option (Coupling d))
    (runT : Option ℝ) :
    s.openLoop runT coupling =
      ((fedBack (StateFollowingDMP.step coupling) ⌈runT.getD s.executionTime / s.dt⌉₊ s.startY 0).exec s).1.map fun rows =>
        ((List.range (⌈runT.getD s.executionTime / s.dt⌉₊ + 1)).map (fun i : ℕ => (i : ℝ) * s.dt),
          s.startY :: rows.map Prod.fst) := by
  set a : StateFollowingArgs d n := { s.args coupling with goalYd := 0, goalYdd := 0, startYd := 0, startYdd := 0 } with hadef
  have hstep : ∀ lastT t x, (s.args coupling).step lastT t x = a.step lastT t x := fun _ _ _ => rfl
  have key := Py.while_fedBack (cond := fun l : StateFollowingArgs.Locals d => l.t < runT.getD s.executionTime)
    (body := a.openLoopBody s.dt) (StateFollowingDMP.step (n := n) coupling)
    ⌈runT.getD s.executionTime / s.dt⌉₊ (fun i => (i : ℝ) * s.dt) (fun _ l => (l.T, l.Y))
    (fun i _ l o z => o.args coupling = s.args coupling ∧ o.dt = s.dt ∧ o.t = i * s.dt ∧ l.t = i * s.dt ∧ l.s = z)
    (fun _ _ => True)
    (by
      rintro i x l o z ⟨-, -, -, h4, -⟩
      rw [h4]
      exact lt_ceil_div hdt i)
    (by
      rintro i x l o z ⟨h1, h2, h3, h4, rfl⟩
      have ha : (i : ℝ) * s.dt + s.dt = (i + 1 : ℕ) * s.dt := by push_cast; ring
      have hbody : (a.openLoopBody s.dt x).exec l = match a.step (i * s.dt) ((i + 1 : ℕ) * s.dt) l.s with
          | .error e => (.error e, { l with t := (i + 1 : ℕ) * s.dt })
          | .ok r => (.ok (), { l with
              t := (i + 1 : ℕ) * s.dt, s := r, T := l.T ++ [((i + 1 : ℕ) : ℝ) * s.dt], Y := l.Y ++ [r.1] }) := by
        unfold StateFollowingArgs.openLoopBody
        simp only [Py.exec_bind, Py.exec_get, Py.exec_modify, Py.exec_lift, h4, ha]
        cases a.step (i * s.dt) ((i + 1 : ℕ) * s.dt) l.s <;> rfl
      rw [hbody, StateFollowingDMP.exec_step, h1, h2, h3, ha, hstep]
      cases a.step (i * s.dt) ((i + 1 : ℕ) * s.dt) l.s with
      | error e => exact .inr ⟨e, _, _, rfl, rfl, trivial⟩
      | ok r => exact .inl ⟨r, _, _, _, rfl, rfl, ⟨h1, rfl, rfl, rfl, rfl⟩, rfl⟩)
    ⌈runT.getD s.executionTime / s.dt⌉₊ 0 () ⟨0, (s.startY, 0), [0], [s.startY]⟩ s (s.startY, 0) (by omega)
    ⟨rfl, rfl, by simp [ht], by simp, rfl⟩
  have ho : s.openLoop runT coupling =
      ((Py.while (fun l : StateFollowingArgs.Locals d => l.t < runT.getD s.executionTime) (a.openLoopBody s.dt) ()).exec
        ⟨0, (s.startY, 0), [0], [s.startY]⟩).1.map fun _ =>
      (((Py.while (fun l : StateFollowingArgs.Locals d => l.t < runT.getD s.executionTime) (a.openLoopBody s.dt) ()).exec
        ⟨0, (s.startY, 0), [0], [s.startY]⟩).2.T,
       ((Py.while (fun l : StateFollowingArgs.Locals d => l.t < runT.getD s.executionTime) (a.openLoopBody s.dt) ()).exec
        ⟨0, (s.startY, 0), [0], [s.startY]⟩).2.Y) := rfl
  rw [ho]
  rcases key with ⟨rows, o', x', s', g1, g2, -, g3⟩ | ⟨e, o', s', g1, g2, -⟩
  · simp only at g1
    rw [g1, g2]
    simp only [Prod.mk.injEq] at g3
    simp only [Except.map, g3.1, g3.2, List.range_succ_eq_map, List.map_cons, List.map_map, List.singleton_append, Nat.cast_zero,
      zero_mul]
    congr 3
    apply List.map_congr_left
    intro j _
    simp only [Function.comp]
    congr 2
    omega
  · simp only at g1
    rw [g1, g2]
    rfl

/-- A new object meets the hypotheses. -/
example : ∃ s : StateFollowingDMP 2 5, StateFollowingDMP.create 2 5 1 (1 / 100) (1 / 1000) (.scalar 25) (.scalar (25 / 4))
    (fun _ => 0) = .ok s ∧ s.t = 0 ∧ 0 < s.dt := by
  obtain ⟨s, hs, -⟩ := StateFollowingDMP.create_ok 2 (n := 5) (by norm_num) one_pos (1 / 100) (1 / 1000) 25 (25 / 4) (fun _ => 0)
  obtain ⟨-, -, α', β', -, -, h3⟩ := StateFollowingDMP.create_eq hs
  exact ⟨s, hs, by rw [h3]; rfl, by rw [h3]; norm_num⟩

/-! ## C20 -/

section
variable {σ : Type} {p v : ℕ} {step : Vec p → Vec v → Py σ (Vec p × Vec v)} {o : σ} {y0 : Vec p} {yd0 : Vec v} {dt : ℝ}

/-- `T` and `Y` are the times and positions of an execution of duration `r`. -/
def Recorded (step : Vec p → Vec v → Py σ (Vec p × Vec v)) (o : σ) (y0 : Vec p) (yd0 : Vec v) (dt r : ℝ) (T : List ℝ)
    (Y : List (Vec p)) : Prop :=
  ∃ rows, ((fedBack step ⌈r / dt⌉₊ y0 yd0).exec o).1 = .ok rows ∧
    T = (List.range (⌈r / dt⌉₊ + 1)).map (fun i : ℕ => (i : ℝ) * dt) ∧ Y = y0 :: rows.map Prod.fst

theorem Recorded.of_map {r : ℝ} {T : List ℝ} {Y : List (Vec p)}
    (h : (((fedBack step ⌈r / dt⌉₊ y0 yd0).exec o).1.map fun rows =>
      ((List.range (⌈r / dt⌉₊ + 1)).map (fun i : ℕ => (i : ℝ) * dt), y0 :: rows.map Prod.fst)) = .ok (T, Y)) :
    Recorded step o y0 yd0 dt r T Y := by
  cases hf : ((fedBack step ⌈r / dt⌉₊ y0 yd0).exec o).1 with
  | error e => rw [hf] at h; cases h
  | ok rows =>
    rw [hf] at h
    cases h
    exact ⟨rows, hf, rfl, rfl⟩

theorem Recorded.grid (hdt : 0 < dt) {r : ℝ} {T : List ℝ} {Y : List (Vec p)} (h : Recorded step o y0 yd0 dt r T Y) :
    TimeGrid dt r T ∧ Y.length = T.length ∧ Y.head? = some y0 := by
  obtain ⟨rows, h1, rfl, rfl⟩ := h
  exact ⟨timeGrid_range hdt, by simp [length_of_fedBack _ _ _ _ _ _ h1], rfl⟩

theorem Recorded.prefix (hdt : 0 < dt) {r r' : ℝ} (hr : r ≤ r') {T T' : List ℝ} {Y Y' : List (Vec p)}
    (h : Recorded step o y0 yd0 dt r T Y) (h' : Recorded step o y0 yd0 dt r' T' Y') : T <+: T' ∧ Y <+: Y' := by
  obtain ⟨rows, h1, rfl, rfl⟩ := h
  obtain ⟨rows', h1', rfl, rfl⟩ := h'
  have hn : ⌈r / dt⌉₊ ≤ ⌈r' / dt⌉₊ := Nat.ceil_mono (by gcongr)
  constructor
  · apply List.IsPrefix.map
    obtain ⟨k, hk⟩ : ∃ k, ⌈r' / dt⌉₊ + 1 = (⌈r / dt⌉₊ + 1) + k := ⟨⌈r' / dt⌉₊ - ⌈r / dt⌉₊, by omega⟩
    rw [hk, List.range_add (n := ⌈r / dt⌉₊ + 1)]
    exact List.prefix_append _ _
  · rw [List.prefix_cons_inj]
    exact (fedBack_prefix _ _ _ hn _ _ _ _ _ h1 h1').map _

end

/-- **C20.** `DMPWithFinalVelocity`, in any state: if `open_loop` returns, its times are the grid `0, dt, ...` up to the first one that
is not before `run_t`, there is one position per time and the first one is `start_y`; a longer run extends it. -/
theorem C20_fv (s : FvDMP d m) (hdt : 0 < s.dt) (coupling : Option (Coupling d)) (runT : Option ℝ)
    (hr : 0 ≤ runT.getD s.executionTime) {T : List ℝ} {Y : List (Vec d)}
    (h : ((FvDMP.openLoop runT coupling).exec s).1 = .ok (T, Y)) :
    (TimeGrid s.dt (runT.getD s.executionTime) T ∧ Y.length = T.length ∧ Y.head? = some s.startY) ∧
    ∀ r' T' Y', runT.getD s.executionTime ≤ r' → ((FvDMP.openLoop (some r') coupling).exec s).1 = .ok (T', Y') →
      T <+: T' ∧ Y <+: Y' := by
  have key : ∀ runT : Option ℝ, 0 ≤ runT.getD s.executionTime → ∀ T Y,
      ((FvDMP.openLoop runT coupling).exec s).1 = .ok (T, Y) →
      Recorded (FvDMP.step coupling) { s with t := 0, initialized := false } s.startY s.startYd s.dt (runT.getD s.executionTime)
        T Y := by
    intro runT hr T Y h
    apply Recorded.of_map
    rw [← h]
    exact (C18_fv { s with t := 0, initialized := false } rfl hdt (by intro h; cases h) coupling runT hr).symm
  have h0 := key runT hr T Y h
  refine ⟨h0.grid hdt, ?_⟩
  intro r' T' Y' hr' h'
  exact h0.prefix hdt hr' (key (some r') (hr.trans hr') T' Y' h')

/-- **C20.** `SpringDamper`: the same. -/
theorem C20_spring_damper (s : SpringDamper d) (hdt : 0 < s.dt) (coupling : Option (Coupling d)) {runT : ℝ} (hr : 0 ≤ runT)
    {T : List ℝ} {Y : List (Vec d)} (h : ((SpringDamper.openLoop runT coupling).exec s).1 = .ok (T, Y)) :
    (TimeGrid s.dt runT T ∧ Y.length = T.length ∧ Y.head? = some s.startY) ∧
    ∀ r' T' Y', runT ≤ r' → ((SpringDamper.openLoop r' coupling).exec s).1 = .ok (T', Y') → T <+: T' ∧ Y <+: Y' := by
  have key : ∀ runT : ℝ, 0 ≤ runT → ∀ T Y, ((SpringDamper.openLoop runT coupling).exec s).1 = .ok (T, Y) →
      Recorded (SpringDamper.step coupling) { s with t := 0 } s.startY 0 s.dt runT T Y := by
    intro runT hr T Y h
    apply Recorded.of_map
    rw [← h]
    exact (C18_spring_damper { s with t := 0 } rfl hdt coupling hr).symm
  have h0 := key runT hr T Y h
  exact ⟨h0.grid hdt, fun r' T' Y' hr' h' => h0.prefix hdt hr' (key r' (hr.trans hr') T' Y' h')⟩

/-- **C20.** `SpringDamperOrientation`: the same. -/
theorem C20_spring_damper_orientation (ops : QuatOps) (s : SpringDamperOrientation) (hdt : 0 < s.dt)
    (coupling : Option RotCoupling) {runT : ℝ} (hr : 0 ≤ runT) {T : List ℝ} {Y : List (Vec 4)}
    (h : ((SpringDamperOrientation.openLoop ops runT coupling).exec s).1 = .ok (T, Y)) :
    (TimeGrid s.dt runT T ∧ Y.length = T.length ∧ Y.head? = some s.startY) ∧
    ∀ r' T' Y', runT ≤ r' → ((SpringDamperOrientation.openLoop ops r' coupling).exec s).1 = .ok (T', Y') →
      T <+: T' ∧ Y <+: Y' := by
  have key : ∀ runT : ℝ, 0 ≤ runT → ∀ T Y, ((SpringDamperOrientation.openLoop ops runT coupling).exec s).1 = .ok (T, Y) →
      Recorded (SpringDamperOrientation.step ops coupling) { s with t := 0 } s.startY 0 s.dt runT T Y := by
    intro runT hr T Y h
    apply Recorded.of_map
    rw [← h]
    exact (C18_spring_damper_orientation ops { s with t := 0 } rfl hdt coupling hr).symm
  have h0 := key runT hr T Y h
  exact ⟨h0.grid hdt, fun r' T' Y' hr' h' => h0.prefix hdt hr' (key r' (hr.trans hr') T' Y' h')⟩

/-- **C20.** `CartesianDMP`: the same. -/
theorem C20_cartesian (ops : QuatOps) (s : CartesianDMP m) (hdt : 0 < s.dt) (coupling : Option PoseCoupling)
    (name qname : String) (runT : Option ℝ) (hr : 0 ≤ runT.getD s.executionTime) {T : List ℝ} {Y : List (Vec (3 + 4))}
    (h : ((CartesianDMP.openLoop ops runT coupling name qname).exec s).1 = .ok (T, Y)) :
    (TimeGrid s.dt (runT.getD s.executionTime) T ∧ Y.length = T.length ∧ Y.head? = some s.startY) ∧
    ∀ r' T' Y', runT.getD s.executionTime ≤ r' →
      ((CartesianDMP.openLoop ops (some r') coupling name qname).exec s).1 = .ok (T', Y') → T <+: T' ∧ Y <+: Y' := by
  have hn : ∃ sf, StepFunction.lookup name = .ok sf := by
    rw [CartesianDMP.exec_openLoop] at h
    cases hn : StepFunction.lookup name with
    | error e => rw [hn] at h; cases h
    | ok sf => exact ⟨sf, rfl⟩
  obtain ⟨sf, hn⟩ := hn
  have hq : ∃ qf, QuatStepFunction.lookup ops qname = .ok qf := by
    rw [CartesianDMP.exec_openLoop, hn] at h
    cases hq : QuatStepFunction.lookup ops qname with
    | error e =>
      rw [hq] at h
      simp only [Except.bind] at h
      cases hp : dmpOpenLoop (s.posOpenLoopArgs coupling) s.dt runT sf <;> rw [hp] at h <;> cases h
    | ok qf => exact ⟨qf, rfl⟩
  obtain ⟨qf, hq⟩ := hq
  have key : ∀ runT : Option ℝ, 0 ≤ runT.getD s.executionTime → ∀ T Y,
      ((CartesianDMP.openLoop ops runT coupling name qname).exec s).1 = .ok (T, Y) →
      Recorded (CartesianDMP.step coupling sf qf) { s with t := 0, startYd := 0 } s.startY 0 s.dt (runT.getD s.executionTime)
        T Y := by
    intro runT hr T Y h
    have h' : ((CartesianDMP.openLoop ops runT coupling name qname).exec { s with t := 0, startYd := 0 }).1 = .ok (T, Y) := by
      rw [← h, CartesianDMP.exec_openLoop, CartesianDMP.exec_openLoop]
      rfl
    exact (C18_cartesian ops { s with t := 0, startYd := 0 } rfl rfl hdt coupling hn hq runT hr T Y).mp h'
  have h0 := key runT hr T Y h
  refine ⟨h0.grid hdt, ?_⟩
  intro r' T' Y' hr' h'
  exact h0.prefix hdt hr' (key (some r') (hr.trans hr') T' Y' h')

/-- **C20.** `DualCartesianDMP`: the same, for the same state of the object and any `p_gain`. -/
theorem C20_dual (ops : QuatOps) (s : DualCartesianDMP m) (hdt : 0 < s.dt) (coupling : Option DualCoupling)
    (name : String) (runT : Option ℝ) {T : List ℝ} {Y : List (Vec 14)}
    (h : ((DualCartesianDMP.openLoop ops runT coupling name).exec s).1 = .ok (T, Y)) :
    (TimeGrid s.dt (runT.getD s.executionTime) T ∧ Y.length = T.length ∧ Y.head? = some s.startY) ∧
    ∀ r' T' Y', runT.getD s.executionTime ≤ r' →
      ((DualCartesianDMP.openLoop ops (some r') coupling name).exec s).1 = .ok (T', Y') → T <+: T' ∧ Y <+: Y' := by
  have hn : ∃ sf, DualStepFunction.lookup ops name = .ok sf := by
    rw [DualCartesianDMP.exec_openLoop] at h
    cases hn : DualStepFunction.lookup ops name with
    | error e => rw [hn] at h; cases h
    | ok sf => exact ⟨sf, rfl⟩
  obtain ⟨sf, hn⟩ := hn
  have key : ∀ runT : Option ℝ, ∀ T Y,
      ((DualCartesianDMP.openLoop ops runT coupling name).exec s).1 = .ok (T, Y) →
      Recorded (DualCartesianDMP.step ops coupling sf) { s with t := 0 } s.startY s.startYd s.dt (runT.getD s.executionTime)
        T Y := by
    intro runT T Y h
    have h' : ((DualCartesianDMP.openLoop ops runT coupling name).exec { s with t := 0 }).1 = .ok (T, Y) := by
      rw [← h, DualCartesianDMP.exec_openLoop, DualCartesianDMP.exec_openLoop, hn]
      rfl
    rcases C18_dual ops { s with t := 0 } rfl hdt coupling hn runT with ⟨rows, s', h1, h2⟩ | ⟨e, s', h1, h2⟩
    · rw [h2] at h'
      cases h'
      exact ⟨rows, congrArg Prod.fst h1, rfl, rfl⟩
    · rw [h2] at h'
      cases h'
  have h0 := key runT T Y h
  refine ⟨h0.grid hdt, ?_⟩
  intro r' T' Y' hr' h'
  exact h0.prefix hdt hr' (key (some r') T' Y' h')

/-- **C20.** `StateFollowingDMP`: the same. -/
theorem C20_state_following (s : StateFollowingDMP d n) (hdt : 0 < s.dt) (coupling : Option (Coupling d)) (runT : Option ℝ)
    {T : List ℝ} {Y : List (Vec d)} (h : s.openLoop runT coupling = .ok (T, Y)) :
    (TimeGrid s.dt (runT.getD s.executionTime) T ∧ Y.length = T.length ∧ Y.head? = some s.startY) ∧
    ∀ r' T' Y', runT.getD s.executionTime ≤ r' → s.openLoop (some r') coupling = .ok (T', Y') → T <+: T' ∧ Y <+: Y' := by
  have key : ∀ runT : Option ℝ, ∀ T Y, s.openLoop runT coupling = .ok (T, Y) →
      Recorded (StateFollowingDMP.step coupling) { s with t := 0 } s.startY 0 s.dt (runT.getD s.executionTime) T Y := by
    intro runT T Y h
    apply Recorded.of_map
    rw [← h]
    exact (C18_state_following { s with t := 0 } rfl hdt coupling runT).symm
  have h0 := key runT T Y h
  refine ⟨h0.grid hdt, ?_⟩
  intro r' T' Y' hr' h'
  exact h0.prefix hdt hr' (key (some r') T' Y' h')

end Verif
