import Verif.Lemmas.Superposition
import Verif.Props.FramesFinalVelocity
import Verif.Props.FramesSpring
import Verif.Lemmas.HeapClasses

/-! # C101: superposition of movements -/

namespace Verif
open Spec
variable {d m n : ℕ}

theorem mixL_parts (p q : ℝ) (x : Vec (d + d)) : mixL p q x = mix p q (mixL 1 0 x) (mixL 0 1 x) := by
  funext k
  simp only [mix, mixL, LinearMap.coe_mk, AddHom.coe_mk]
  ring

/-- Trajectories of a pair of movements. -/
theorem mixRows_of_pair (R : Except PyErr (List ℝ × List (Vec (d + d)))) {A : ℝ → ℝ → Except PyErr (List ℝ × List (Vec d))}
    (hA : ∀ p q, A p q = R.map (fun r => (r.1, r.2.map (mixL p q)))) (p q : ℝ) :
    A p q = ((A 1 0).bind fun r₁ => (A 0 1).map fun r₂ => mixRows p q r₁ r₂) ∧
      ∀ r₁ r₂, A 1 0 = .ok r₁ → A 0 1 = .ok r₂ → SameTimes r₁ r₂ := by
  rw [hA p q, hA 1 0, hA 0 1]
  cases R with
  | error e => exact ⟨rfl, fun r₁ r₂ h => by cases h⟩
  | ok r =>
    refine ⟨?_, ?_⟩
    · simp only [Except.map, Except.bind, mixRows, Except.ok.injEq, Prod.mk.injEq, true_and, List.zipWith_map,
        List.zipWith_self]
      exact List.map_congr_left fun x _ => mixL_parts p q x
    · intro r₁ r₂ h₁ h₂
      cases h₁; cases h₂
      exact ⟨rfl, by simp⟩

/-- Results of `step` of a pair of movements. -/
theorem mixStep_of_pair (R : Except PyErr (Vec (d + d) × Vec (d + d))) {A : ℝ → ℝ → Except PyErr (Vec d × Vec d)}
    (hA : ∀ p q, A p q = R.map (fun r => (mixL p q r.1, mixL p q r.2))) (p q : ℝ) :
    A p q = (A 1 0).bind fun r₁ => (A 0 1).map fun r₂ => (mix p q r₁.1 r₂.1, mix p q r₁.2 r₂.2) := by
  rw [hA p q, hA 1 0, hA 0 1]
  cases R with
  | error e => rfl
  | ok r =>
    simp only [Except.map, Except.bind, Except.ok.injEq, Prod.mk.injEq]
    exact ⟨mixL_parts p q _, mixL_parts p q _⟩

/-! ## DMP -/

namespace DMP

theorem mix_openLoopArgs (p q : ℝ) (s₁ s₂ : DMP d m) :
    (s₁.mix p q s₂).openLoopArgs none =
      ((s₁.pair s₂).openLoopArgs none).image (mixL p q) s₁.alphaY s₁.betaY := by
  unfold openLoopArgs StepArgs.image DMP.mix Movement.mix pair
  simp only [mixL_append, map_zero, ForcingTerm.pair_map]

theorem mix_stepArgs (p q : ℝ) (s₁ s₂ : DMP d m) (e₁ e₂ : Vec d) :
    (s₁.mix p q s₂).stepArgs none (Spec.mix p q e₁ e₂) =
      ((s₁.pair s₂).stepArgs none (Fin.append e₁ e₂)).image (mixL p q) s₁.alphaY s₁.betaY := by
  unfold stepArgs StepArgs.image DMP.mix Movement.mix pair
  simp only [mixL_append, ForcingTerm.pair_map]

theorem mix_beginStep (p q : ℝ) {s₁ s₂ : DMP d m} (h : s₁.SameSystem s₂) :
    (s₁.mix p q s₂).beginStep = s₁.beginStep.mix p q s₂.beginStep := by
  unfold beginStep
  rw [h.initialized, show (s₁.mix p q s₂).initialized = s₁.initialized from rfl]
  cases s₁.initialized <;> rfl

theorem SameSystem.begin {s₁ s₂ : DMP d m} (h : s₁.SameSystem s₂) : s₁.beginStep.SameSystem s₂.beginStep := by
  have ht : s₂.t + s₂.dt = s₁.t + s₁.dt := by rw [h.t, h.dt]
  have hl : some s₂.t = some s₁.t := by rw [h.t]
  unfold beginStep
  rw [h.initialized]
  cases s₁.initialized <;>
  exact ⟨ht, hl, h.executionTime, h.dt, h.intDt, h.pGain, h.smooth, h.ft, h.alphaY, h.betaY, rfl⟩

end DMP

/-- **C101 (open_loop).** Superposition: without coupling term, the trajectory of a DMP whose start, goal and weights are
`p` times those of one plus `q` times those of another DMP is `p` times the trajectory of the first one plus `q` times that
of the second one, row by row, for each of the integrators. The time stamps are the same. -/
theorem C101_open_loop {s₁ s₂ : DMP d m} (h : s₁.SameSystem s₂) (p q : ℝ) (runT : Option ℝ) (name : String) :
    let run := fun s : DMP d m => ((DMP.openLoop runT none name).exec s).1
    run (s₁.mix p q s₂) = ((run s₁).bind fun r₁ => (run s₂).map fun r₂ => mixRows p q r₁ r₂) ∧
      ∀ r₁ r₂, run s₁ = .ok r₁ → run s₂ = .ok r₂ → SameTimes r₁ r₂ := by
  intro run
  have key := mixRows_of_pair (((StepFunction.lookup name).bind fun sf =>
      dmpOpenLoop ((s₁.pair s₂).openLoopArgs none) s₁.dt runT sf)) (A := fun p q => run (s₁.mix p q s₂)) (by
    intro p q
    simp only [run]
    rw [DMP.exec_openLoop]
    cases StepFunction.lookup name with
    | error e => rfl
    | ok sf =>
      have hs := (sim_image ((s₁.pair s₂).openLoopArgs none) (mixL p q) (mixL_gain p q s₁.alphaY)
        (mixL_gain p q s₁.betaY) rfl rfl).openLoop sf s₁.dt runT
      simp only [one_mul, Option.map_id', List.map_id', add_zero] at hs
      rw [← DMP.mix_openLoopArgs] at hs
      exact hs) p q
  rw [s₁.mix_one_zero, h.mix_zero_one] at key
  exact key

/-- **C101 (step).** The same for one call of `step` with mixed feedback; the objects are mixed again, so this extends to any
number of steps. -/
theorem C101_step {s₁ s₂ : DMP d m} (h : s₁.SameSystem s₂) (p q : ℝ) (sf : StepFunction) (y₁ yd₁ y₂ yd₂ : Vec d) :
    let r₁ := (DMP.step none sf y₁ yd₁).exec s₁
    let r₂ := (DMP.step none sf y₂ yd₂).exec s₂
    let r := (DMP.step none sf (mix p q y₁ y₂) (mix p q yd₁ yd₂)).exec (s₁.mix p q s₂)
    r.1 = (r₁.1.bind fun x₁ => r₂.1.map fun x₂ => (mix p q x₁.1 x₂.1, mix p q x₁.2 x₂.2)) ∧
      r.2 = r₁.2.mix p q r₂.2 ∧ r₁.2.SameSystem r₂.2 := by
  intro r₁ r₂ r
  set R := sf.run ((s₁.beginStep.pair s₂.beginStep).stepArgs none
    (Fin.append (s₁.beginStep.currentY - y₁) (s₂.beginStep.currentY - y₂))) s₁.t (s₁.t + s₁.dt)
    (Fin.append s₁.beginStep.currentY s₂.beginStep.currentY, Fin.append s₁.beginStep.currentYd s₂.beginStep.currentYd) with hR
  have hA : ∀ p q, (DMP.step none sf (mix p q y₁ y₂) (mix p q yd₁ yd₂)).exec (s₁.mix p q s₂) =
      (s₁.beginStep.mix p q s₂.beginStep).finishStep (R.map (fun r => (mixL p q r.1, mixL p q r.2))) := by
    intro p q
    rw [DMP.exec_step, DMP.mix_beginStep p q h]
    have e : (s₁.beginStep.mix p q s₂.beginStep).currentY - mix p q y₁ y₂ =
        mix p q (s₁.beginStep.currentY - y₁) (s₂.beginStep.currentY - y₂) := mix_sub p q _ _ _ _
    have ea : s₁.beginStep.alphaY = s₁.alphaY := by unfold DMP.beginStep; cases s₁.initialized <;> rfl
    have eb : s₁.beginStep.betaY = s₁.betaY := by unfold DMP.beginStep; cases s₁.initialized <;> rfl
    rw [e, DMP.mix_stepArgs]
    have hs := (sim_image ((s₁.beginStep.pair s₂.beginStep).stepArgs none
      (Fin.append (s₁.beginStep.currentY - y₁) (s₂.beginStep.currentY - y₂))) (mixL p q)
      (mixL_gain p q s₁.beginStep.alphaY) (mixL_gain p q s₁.beginStep.betaY) rfl rfl).run sf s₁.t (s₁.t + s₁.dt)
      (Fin.append s₁.beginStep.currentY s₂.beginStep.currentY, Fin.append s₁.beginStep.currentYd s₂.beginStep.currentYd)
    simp only [one_mul, simMap_one, add_zero, mixL_append] at hs
    exact congrArg _ hs
  have h10 : r₁ = s₁.beginStep.finishStep (R.map (fun r => (mixL 1 0 r.1, mixL 1 0 r.2))) := by
    have := hA 1 0
    rwa [s₁.mix_one_zero, Verif.mix_one_zero, Verif.mix_one_zero, s₁.beginStep.mix_one_zero] at this
  have h01 : r₂ = s₂.beginStep.finishStep (R.map (fun r => (mixL 0 1 r.1, mixL 0 1 r.2))) := by
    have := hA 0 1
    rwa [h.mix_zero_one, Verif.mix_zero_one, Verif.mix_zero_one, h.begin.mix_zero_one] at this
  have hpq : r = (s₁.beginStep.mix p q s₂.beginStep).finishStep (R.map (fun r => (mixL p q r.1, mixL p q r.2))) := hA p q
  clear_value r r₁ r₂ R
  have hb := h.begin
  cases R with
  | error e =>
    subst h10 h01 hpq
    exact ⟨rfl, rfl, hb⟩
  | ok x =>
    subst h10 h01 hpq
    refine ⟨?_, ?_, ?_⟩
    · simp only [DMP.finishStep, Except.map, Except.bind, Except.ok.injEq, Prod.mk.injEq]
      exact ⟨mixL_parts p q _, mixL_parts p q _⟩
    · simp only [DMP.finishStep, Except.map, mixL_parts p q x.1, mixL_parts p q x.2]
      rfl
    · exact ⟨hb.t, hb.lastT, hb.executionTime, hb.dt, hb.intDt, hb.pGain, hb.smooth, hb.ft, hb.alphaY, hb.betaY,
        hb.initialized⟩

/-- The weights learned from a pair of demonstrations. -/
theorem mix_weights (T : Fin (n + 2) → ℝ) (reg ov z : ℝ) {F : ℝ → ℝ → Except PyErr (Fin (n + 2) → Vec d)}
    {G : Except PyErr (Fin (n + 2) → Vec (d + d))} (hF : ∀ p q, F p q = G.map (fun G t => mixL p q (G t))) :
    ∃ R : Except PyErr (Fin (d + d) → Fin m → ℝ), ∀ p q,
      dmpImitateWith m T reg ov z (F p q) = R.map (fun W k i => mixL p q (fun j => W j i) k) :=
  ⟨_, fun p q => by rw [hF, dmpImitateWith_map_except]⟩

theorem mixWeights_parts (p q : ℝ) (W : Fin (d + d) → Fin m → ℝ) :
    (fun k i => mixL p q (fun j => W j i) k) =
      fun k i => p * mixL 1 0 (fun j => W j i) k + q * mixL 0 1 (fun j => W j i) k := by
  funext k i
  exact congrFun (mixL_parts p q (fun j => W j i)) k

/-- **C101 (imitate).** Imitation is linear: a demonstration whose positions are `p` times those of one plus `q` times those
of another demonstration with the same time stamps gives the DMP whose start, goal and weights are mixed in the same way. An
exception is raised for all three demonstrations or for none. -/
theorem C101_imitate {s₁ s₂ : DMP d m} (h : s₁.SameSystem s₂) (p q : ℝ) (T : Fin (n + 2) → ℝ)
    (Y₁ Y₂ : Fin (n + 2) → Vec d) (reg : ℝ) (afv : Bool) :
    let r₁ := (DMP.imitate T Y₁ reg afv).exec s₁
    let r₂ := (DMP.imitate T Y₂ reg afv).exec s₂
    let r := (DMP.imitate T (fun t => mix p q (Y₁ t) (Y₂ t)) reg afv).exec (s₁.mix p q s₂)
    r.1 = r₁.1 ∧ r₂.1 = r₁.1 ∧ r.2 = r₁.2.mix p q r₂.2 ∧ r₁.2.SameSystem r₂.2 := by
  intro r₁ r₂ r
  obtain ⟨R, hR⟩ := mix_weights (m := m) T reg s₁.ft.overlap s₁.ft.alphaZ
    (F := fun p q => .ok (determineForces T (fun t => mix p q (Y₁ t) (Y₂ t)) s₁.alphaY s₁.betaY s₁.ft.alphaZ afv s₁.smooth))
    (G := .ok (determineForces T (fun t => Fin.append (Y₁ t) (Y₂ t)) (Fin.append s₁.alphaY s₁.alphaY)
      (Fin.append s₁.betaY s₁.betaY) s₁.ft.alphaZ afv s₁.smooth)) (by
    intro p q
    simp only [Except.map, Except.ok.injEq]
    funext t
    rw [← determineForces_image (mixL p q) T _ (mixL_gain p q s₁.alphaY) (mixL_gain p q s₁.betaY)]
    simp only [mixL_append])
  have hA : ∀ p q, (DMP.imitate T (fun t => mix p q (Y₁ t) (Y₂ t)) reg afv).exec (s₁.mix p q s₂) =
      match R with
      | .ok W => (.ok (), { s₁.mix p q s₂ with
          startY := mix p q (Y₁ 0) (Y₂ 0)
          goalY := mix p q (Y₁ (Fin.last _)) (Y₂ (Fin.last _))
          ft := { s₁.ft with weights := fun k i => mixL p q (fun j => W j i) k } })
      | .error e => (.error e, s₁.mix p q s₂) := by
    intro p q
    have e := hR p q
    rw [DMP.exec_imitate]
    have e' : dmpImitate m T (fun t => mix p q (Y₁ t) (Y₂ t)) reg (s₁.mix p q s₂).alphaY (s₁.mix p q s₂).betaY
        (s₁.mix p q s₂).ft.overlap (s₁.mix p q s₂).ft.alphaZ afv (s₁.mix p q s₂).smooth =
        (R.map (fun W k i => mixL p q (fun j => W j i) k)).map
          (fun w => (w, mix p q (Y₁ 0) (Y₂ 0), mix p q (Y₁ (Fin.last _)) (Y₂ (Fin.last _)))) := by
      rw [← e]; rfl
    rw [e']
    cases R with
    | error e => rfl
    | ok W => simp only [Except.map, DMP.exec_configure, movement_configure_rows]; rfl
  have h10 := hA 1 0
  have h01 := hA 0 1
  have hpq := hA p q
  simp only [s₁.mix_one_zero, Verif.mix_one_zero] at h10
  simp only [h.mix_zero_one, Verif.mix_zero_one] at h01
  simp only [r, r₁, r₂, hpq, h10, h01]
  cases R with
  | error e => exact ⟨rfl, rfl, rfl, h⟩
  | ok W =>
    refine ⟨rfl, rfl, ?_, ?_⟩
    · simp only [mixWeights_parts p q W]; rfl
    · exact ⟨h.t, h.lastT, h.executionTime, h.dt, h.intDt, h.pGain, h.smooth, rfl, h.alphaY, h.betaY, h.initialized⟩

/-! ## DMPs with final velocity -/

/-- **C101 (final velocity, open_loop).** The same for `DMPWithFinalVelocity`; here the velocities and accelerations at
the start and at the goal are mixed, too. -/
theorem C101_fv_open_loop {s₁ s₂ : FvDMP d m} (h : s₁.SameSystem s₂) (p q : ℝ) (runT : Option ℝ) :
    let run := fun s : FvDMP d m => ((FvDMP.openLoop runT none).exec s).1
    run (s₁.mix p q s₂) = ((run s₁).bind fun r₁ => (run s₂).map fun r₂ => mixRows p q r₁ r₂) ∧
      ∀ r₁ r₂, run s₁ = .ok r₁ → run s₂ = .ok r₂ → SameTimes r₁ r₂ := by
  intro run
  set a := FvDMP.openLoopArgs (s₁.pair s₂) none with ha
  have hargs : ∀ p q, FvDMP.openLoopArgs (s₁.mix p q s₂) none = a.image (mixL p q) s₁.alphaY s₁.betaY := by
    intro p q
    simp only [ha]
    unfold FvDMP.openLoopArgs DMP.stepArgs StepArgs.image DMP.mix Movement.mix DMP.pair
    simp only [mixL_append, map_zero, ForcingTerm.pair_map]
  have key := mixRows_of_pair (openLoopWith a.goalT a.startT s₁.dt (a.startY, a.startYd) runT a.fvStep)
    (A := fun p q => run (s₁.mix p q s₂)) (by
    intro p q
    simp only [run]
    rw [FvDMP.exec_openLoop, hargs]
    have hs := (fvSim_image a (mixL p q) (mixL_gain p q s₁.alphaY) (mixL_gain p q s₁.betaY) rfl rfl).openLoop_one s₁.dt runT
    simp only [add_zero] at hs
    exact hs) p q
  rw [s₁.mix_one_zero, h.mix_zero_one] at key
  exact key

/-- **C101 (final velocity, step).** -/
theorem C101_fv_step {s₁ s₂ : FvDMP d m} (h : s₁.SameSystem s₂) (p q : ℝ) (y₁ yd₁ y₂ yd₂ : Vec d) :
    let r₁ := (FvDMP.step none y₁ yd₁).exec s₁
    let r₂ := (FvDMP.step none y₂ yd₂).exec s₂
    let r := (FvDMP.step none (mix p q y₁ y₂) (mix p q yd₁ yd₂)).exec (s₁.mix p q s₂)
    r.1 = (r₁.1.bind fun x₁ => r₂.1.map fun x₂ => (mix p q x₁.1 x₂.1, mix p q x₁.2 x₂.2)) ∧
      r.2 = r₁.2.mix p q r₂.2 ∧ r₁.2.SameSystem r₂.2 := by
  intro r₁ r₂ r
  set R := ((s₁.beginStep.pair s₂.beginStep).stepArgs none
    (Fin.append (s₁.beginStep.currentY - y₁) (s₂.beginStep.currentY - y₂))).fvStep s₁.t (s₁.t + s₁.dt)
    (Fin.append s₁.beginStep.currentY s₂.beginStep.currentY, Fin.append s₁.beginStep.currentYd s₂.beginStep.currentYd) with hR
  have hA : ∀ p q, (FvDMP.step none (mix p q y₁ y₂) (mix p q yd₁ yd₂)).exec (s₁.mix p q s₂) =
      FvDMP.finish (s₁.beginStep.mix p q s₂.beginStep) (R.map (fun r => (mixL p q r.1, mixL p q r.2))) := by
    intro p q
    rw [FvDMP.exec_step_finish, DMP.mix_beginStep p q h]
    have e : (s₁.beginStep.mix p q s₂.beginStep).currentY - mix p q y₁ y₂ =
        mix p q (s₁.beginStep.currentY - y₁) (s₂.beginStep.currentY - y₂) := mix_sub p q _ _ _ _
    rw [e, DMP.mix_stepArgs]
    have hs := (fvSim_image ((s₁.beginStep.pair s₂.beginStep).stepArgs none
      (Fin.append (s₁.beginStep.currentY - y₁) (s₂.beginStep.currentY - y₂))) (mixL p q)
      (mixL_gain p q s₁.beginStep.alphaY) (mixL_gain p q s₁.beginStep.betaY) rfl rfl).fvStep s₁.t (s₁.t + s₁.dt) (.inl rfl)
      (Fin.append s₁.beginStep.currentY s₂.beginStep.currentY, Fin.append s₁.beginStep.currentYd s₂.beginStep.currentYd)
    simp only [one_mul, simMap_one, add_zero, mixL_append] at hs
    exact congrArg _ hs
  have h10 : r₁ = FvDMP.finish s₁.beginStep (R.map (fun r => (mixL 1 0 r.1, mixL 1 0 r.2))) := by
    have := hA 1 0
    rwa [s₁.mix_one_zero, Verif.mix_one_zero, Verif.mix_one_zero, s₁.beginStep.mix_one_zero] at this
  have h01 : r₂ = FvDMP.finish s₂.beginStep (R.map (fun r => (mixL 0 1 r.1, mixL 0 1 r.2))) := by
    have := hA 0 1
    rwa [h.mix_zero_one, Verif.mix_zero_one, Verif.mix_zero_one, h.begin.mix_zero_one] at this
  have hpq : r = FvDMP.finish (s₁.beginStep.mix p q s₂.beginStep) (R.map (fun r => (mixL p q r.1, mixL p q r.2))) := hA p q
  clear_value r r₁ r₂ R
  have hb := h.begin
  cases R with
  | error e =>
    subst h10 h01 hpq
    exact ⟨rfl, rfl, hb⟩
  | ok x =>
    subst h10 h01 hpq
    refine ⟨?_, ?_, ?_⟩
    · simp only [FvDMP.finish, Except.map, Except.bind, Except.ok.injEq, Prod.mk.injEq]
      exact ⟨mixL_parts p q _, mixL_parts p q _⟩
    · simp only [FvDMP.finish, Except.map, mixL_parts p q x.1, mixL_parts p q x.2]
      rfl
    · exact ⟨hb.t, hb.lastT, hb.executionTime, hb.dt, hb.intDt, hb.pGain, hb.smooth, hb.ft, hb.alphaY, hb.betaY,
        hb.initialized⟩

theorem mixL_rows (p q : ℝ) (T : Fin (n + 2) → ℝ) (Y₁ Y₂ : Fin (n + 2) → Vec d) (t : Fin (n + 2)) :
    fvYd T (fun t => mix p q (Y₁ t) (Y₂ t)) t = mix p q (fvYd T Y₁ t) (fvYd T Y₂ t) ∧
      fvYdd T (fun t => mix p q (Y₁ t) (Y₂ t)) t = mix p q (fvYdd T Y₁ t) (fvYdd T Y₂ t) := by
  have g : ∀ p q (t : Fin (n + 2)), fvYd T (fun t => mix p q (Y₁ t) (Y₂ t)) t =
        mixL p q (fvYd T (fun t => Fin.append (Y₁ t) (Y₂ t)) t) ∧
      fvYdd T (fun t => mix p q (Y₁ t) (Y₂ t)) t = mixL p q (fvYdd T (fun t => Fin.append (Y₁ t) (Y₂ t)) t) := by
    intro p q t
    have h1 := fvYd_map (mixL p q) 0 T (fun t => Fin.append (Y₁ t) (Y₂ t)) t
    have h2 := fvYdd_map (mixL p q) 0 T (fun t => Fin.append (Y₁ t) (Y₂ t)) t
    simp only [mixL_append, add_zero] at h1 h2
    exact ⟨h1, h2⟩
  have g1 := g 1 0 t
  have g2 := g 0 1 t
  simp only [mix_one_zero] at g1
  simp only [mix_zero_one] at g2
  rw [(g p q t).1, (g p q t).2, mixL_parts p q, mixL_parts p q (fvYdd T _ t), ← g1.1, ← g2.1, ← g1.2, ← g2.2]
  exact ⟨rfl, rfl⟩

/-- **C101 (final velocity, imitate).** -/
theorem C101_fv_imitate {s₁ s₂ : FvDMP d m} (h : s₁.SameSystem s₂) (p q : ℝ) (T : Fin (n + 2) → ℝ)
    (Y₁ Y₂ : Fin (n + 2) → Vec d) (reg : ℝ) :
    let r₁ := (FvDMP.imitate T Y₁ reg).exec s₁
    let r₂ := (FvDMP.imitate T Y₂ reg).exec s₂
    let r := (FvDMP.imitate T (fun t => mix p q (Y₁ t) (Y₂ t)) reg).exec (s₁.mix p q s₂)
    r.1 = r₁.1 ∧ r₂.1 = r₁.1 ∧ r.2 = r₁.2.mix p q r₂.2 ∧ r₁.2.SameSystem r₂.2 := by
  intro r₁ r₂ r
  obtain ⟨R, hR⟩ := mix_weights (m := m) T reg s₁.ft.overlap s₁.ft.alphaZ
    (F := fun p q => fvDetermineForces T (fun t => mix p q (Y₁ t) (Y₂ t)) s₁.alphaY s₁.betaY)
    (G := fvDetermineForces T (fun t => Fin.append (Y₁ t) (Y₂ t)) (Fin.append s₁.alphaY s₁.alphaY)
      (Fin.append s₁.betaY s₁.betaY)) (by
    intro p q
    have := fvDetermineForces_map (mixL p q) 0 T (fun t => Fin.append (Y₁ t) (Y₂ t)) (mixL_gain p q s₁.alphaY)
      (mixL_gain p q s₁.betaY)
    simpa only [mixL_append, add_zero] using this)
  have hA : ∀ p q, (FvDMP.imitate T (fun t => mix p q (Y₁ t) (Y₂ t)) reg).exec (s₁.mix p q s₂) =
      match R with
      | .ok W => (.ok (), { s₁.mix p q s₂ with
          startY := mix p q (Y₁ 0) (Y₂ 0)
          startYd := mix p q (fvYd T Y₁ 0) (fvYd T Y₂ 0)
          startYdd := mix p q (fvYdd T Y₁ 0) (fvYdd T Y₂ 0)
          goalY := mix p q (Y₁ (Fin.last _)) (Y₂ (Fin.last _))
          goalYd := mix p q (fvYd T Y₁ (Fin.last _)) (fvYd T Y₂ (Fin.last _))
          goalYdd := mix p q (fvYdd T Y₁ (Fin.last _)) (fvYdd T Y₂ (Fin.last _))
          ft := { s₁.ft with weights := fun k i => mixL p q (fun j => W j i) k } })
      | .error e => (.error e, s₁.mix p q s₂) := by
    intro p q
    have e := hR p q
    rw [FvDMP.exec_imitate]
    have e' : dmpImitateWith m T reg (s₁.mix p q s₂).ft.overlap (s₁.mix p q s₂).ft.alphaZ
        (fvDetermineForces T (fun t => mix p q (Y₁ t) (Y₂ t)) (s₁.mix p q s₂).alphaY (s₁.mix p q s₂).betaY) =
        R.map (fun W k i => mixL p q (fun j => W j i) k) := by
      rw [← e]; rfl
    rw [e']
    cases R with
    | error e => rfl
    | ok W =>
      simp only [Except.map, DMP.exec_configure, movement_configure_all, (mixL_rows p q T Y₁ Y₂ _).1,
        (mixL_rows p q T Y₁ Y₂ _).2]
      rfl
  have h10 := hA 1 0
  have h01 := hA 0 1
  have hpq := hA p q
  simp only [s₁.mix_one_zero, Verif.mix_one_zero] at h10
  simp only [h.mix_zero_one, Verif.mix_zero_one] at h01
  simp only [r, r₁, r₂, hpq, h10, h01]
  cases R with
  | error e => exact ⟨rfl, rfl, rfl, h⟩
  | ok W =>
    refine ⟨rfl, rfl, ?_, ?_⟩
    · simp only [mixWeights_parts p q W]; rfl
    · exact ⟨h.t, h.lastT, h.executionTime, h.dt, h.intDt, h.pGain, h.smooth, rfl, h.alphaY, h.betaY, h.initialized⟩

/-! ## Spring-damper systems -/

namespace SpringDamper

theorem mix_one_zero (s₁ s₂ : SpringDamper d) : s₁.mix 1 0 s₂ = s₁ := by
  unfold SpringDamper.mix Movement.mix
  simp only [Verif.mix_one_zero]

theorem SameSystem.mix_zero_one {s₁ s₂ : SpringDamper d} (h : s₁.SameSystem s₂) : s₁.mix 0 1 s₂ = s₂ := by
  unfold SpringDamper.mix Movement.mix
  simp only [Verif.mix_zero_one]
  obtain ⟨h1, h2, h3, h4, h5, h6, h7⟩ := h
  rcases s₂ with ⟨⟨⟩⟩
  simp_all

/-- Two systems side by side. -/
def pair (s₁ s₂ : SpringDamper d) : SpringDamper (d + d) :=
  { t := s₁.t, lastT := s₁.lastT
    startY := Fin.append s₁.startY s₂.startY, startYd := Fin.append s₁.startYd s₂.startYd
    startYdd := Fin.append s₁.startYdd s₂.startYdd
    goalY := Fin.append s₁.goalY s₂.goalY, goalYd := Fin.append s₁.goalYd s₂.goalYd
    goalYdd := Fin.append s₁.goalYdd s₂.goalYdd
    currentY := Fin.append s₁.currentY s₂.currentY, currentYd := Fin.append s₁.currentYd s₂.currentYd
    dt := s₁.dt, k := s₁.k, c := s₁.c, intDt := s₁.intDt, initialized := s₁.initialized }

theorem pair_mapped (p q : ℝ) (s₁ s₂ : SpringDamper d) : (s₁.pair s₂).mapped (mixL p q) 0 = s₁.mix p q s₂ := by
  unfold pair SpringDamper.mapped SpringDamper.mix Movement.mix
  simp only [mixL_append, add_zero]

end SpringDamper

/-- **C101 (spring-damper, open_loop).** Superposition for spring-damper systems. -/
theorem C101_spring_damper_open_loop {s₁ s₂ : SpringDamper d} (h : s₁.SameSystem s₂) (p q runT : ℝ) :
    let run := fun s : SpringDamper d => ((SpringDamper.openLoop runT none).exec s).1
    run (s₁.mix p q s₂) = ((run s₁).bind fun r₁ => (run s₂).map fun r₂ => mixRows p q r₁ r₂) ∧
      ∀ r₁ r₂, run s₁ = .ok r₁ → run s₂ = .ok r₂ → SameTimes r₁ r₂ := by
  intro run
  have key := mixRows_of_pair ((SpringDamper.openLoop runT none).exec (s₁.pair s₂)).1
    (A := fun p q => run (s₁.mix p q s₂)) (by
    intro p q
    have hs := C73_spring_damper_open_loop (s₁.pair s₂) (mixL p q) 0 (coupling := none) (coupling' := none) trivial runT
    simp only [add_zero, SpringDamper.pair_mapped] at hs
    exact hs) p q
  rw [s₁.mix_one_zero, h.mix_zero_one] at key
  exact key

/-- **C101 (spring-damper, step).** -/
theorem C101_spring_damper_step {s₁ s₂ : SpringDamper d} (h : s₁.SameSystem s₂) (p q : ℝ) (y₁ yd₁ y₂ yd₂ : Vec d) :
    let r₁ := (SpringDamper.step none y₁ yd₁).exec s₁
    let r₂ := (SpringDamper.step none y₂ yd₂).exec s₂
    let r := (SpringDamper.step none (mix p q y₁ y₂) (mix p q yd₁ yd₂)).exec (s₁.mix p q s₂)
    r.1 = (r₁.1.bind fun x₁ => r₂.1.map fun x₂ => (mix p q x₁.1 x₂.1, mix p q x₁.2 x₂.2)) ∧
      r.2 = r₁.2.mix p q r₂.2 ∧ r₁.2.SameSystem r₂.2 := by
  intro r₁ r₂ r
  set R := springDamperStep (Fin.append s₁.goalY s₂.goalY) s₁.k s₁.c none none s₁.intDt s₁.t (s₁.t + s₁.dt)
    (Fin.append y₁ y₂, Fin.append yd₁ yd₂) with hR
  have hA : ∀ p q, springDamperStep (mix p q s₁.goalY s₂.goalY) s₁.k s₁.c none none s₁.intDt s₁.t (s₁.t + s₁.dt)
      (mix p q y₁ y₂, mix p q yd₁ yd₂) = R.map (fun r => (mixL p q r.1, mixL p q r.2)) := by
    intro p q
    have := springDamperStep_mapped (mixL p q) 0 (coupling := none) (coupling' := none) trivial
      (Fin.append s₁.goalY s₂.goalY) s₁.k s₁.c s₁.intDt s₁.t (s₁.t + s₁.dt) (Fin.append y₁ y₂, Fin.append yd₁ yd₂)
    simpa only [mixL_append, add_zero] using this
  have h10 := hA 1 0
  have h01 := hA 0 1
  simp only [Verif.mix_one_zero] at h10
  simp only [Verif.mix_zero_one] at h01
  have hb : (s₁.mix p q s₂).beginStep (mix p q y₁ y₂) (mix p q yd₁ yd₂) = (s₁.beginStep y₁ yd₁).mix p q (s₂.beginStep y₂ yd₂) :=
    rfl
  have hs : (s₁.beginStep y₁ yd₁).SameSystem (s₂.beginStep y₂ yd₂) := by
    refine ⟨?_, ?_, h.dt, h.k, h.c, h.intDt, rfl⟩
    · show s₂.t + s₂.dt = s₁.t + s₁.dt
      rw [h.t, h.dt]
    · show some s₂.t = some s₁.t
      rw [h.t]
  have e₁ := SpringDamper.exec_step none y₁ yd₁ s₁
  have e₂ := SpringDamper.exec_step none y₂ yd₂ s₂
  have e := SpringDamper.exec_step none (mix p q y₁ y₂) (mix p q yd₁ yd₂) (s₁.mix p q s₂)
  rw [h10] at e₁
  rw [h.k, h.c, h.intDt, h.t, h.dt, h01] at e₂
  rw [hb, show springDamperStep (s₁.mix p q s₂).goalY (s₁.mix p q s₂).k (s₁.mix p q s₂).c none none (s₁.mix p q s₂).intDt
    (s₁.mix p q s₂).t ((s₁.mix p q s₂).t + (s₁.mix p q s₂).dt) (mix p q y₁ y₂, mix p q yd₁ yd₂) = _ from hA p q] at e
  simp only [r, r₁, r₂, e, e₁, e₂]
  clear_value R
  cases R with
  | error e => exact ⟨rfl, rfl, hs⟩
  | ok x =>
    refine ⟨?_, ?_, ?_⟩
    · simp only [Except.map, Except.bind, Except.ok.injEq, Prod.mk.injEq]
      exact ⟨mixL_parts p q _, mixL_parts p q _⟩
    · simp only [Except.map, mixL_parts p q x.1, mixL_parts p q x.2]
      rfl
    · exact ⟨hs.t, hs.lastT, hs.dt, hs.k, hs.c, hs.intDt, hs.initialized⟩

/-! ## Non-vacuity -/

/-- Two DMPs that differ in start, goal and weights meet the hypothesis, whatever the first one is. -/
example (s : DMP d m) (y g : Vec d) (w : Fin d → Fin m → ℝ) :
    s.SameSystem { s with startY := y, goalY := g, ft := { s.ft with weights := w } } :=
  ⟨rfl, rfl, rfl, rfl, rfl, rfl, rfl, rfl, rfl, rfl, rfl⟩

example (s : SpringDamper d) (y g : Vec d) : s.SameSystem { s with startY := y, goalY := g } :=
  ⟨rfl, rfl, rfl, rfl, rfl, rfl, rfl⟩

end Verif
