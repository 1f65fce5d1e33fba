import Verif.Props.CartesianReproduction
import Verif.Props.DualImitate
import Verif.Props.Disturbance
import Verif.Lemmas.DualSim
import Verif.Props.OutputRate
import Verif.Props.Conditioning

/-! # Positions of dual-arm DMPs: C109 for `DualCartesianDMP` -/

namespace Verif

open Spec Set

variable {m n : ℕ}

/-- The parameters of a regular DMP are those of the position of an arm. -/
structure ArmArgs (a : DualStepArgs m) (arm : Fin 2) (p : StepArgs 3 m) : Prop where
  goalY : p.goalY = armPos arm a.goalY
  startY : p.startY = armPos arm a.startY
  goalT : p.goalT = a.goalT
  startT : p.startT = a.startT
  alphaY : p.alphaY = armLin arm a.alphaY
  betaY : p.betaY = armLin arm a.betaY
  intDt : p.intDt = a.intDt
  smooth : p.smooth = a.smooth
  phase : ∀ t, p.ft.phaseAt t = a.ft.phaseAt t
  force : ∀ z, p.ft.force z = armLin arm (a.ft.force z)
  coupling : p.coupling = none
  precomputed : p.precomputed = none
  trackingError : p.trackingError = 0

/-- One sub-step. -/
theorem ArmArgs.update {a : DualStepArgs m} {arm : Fin 2} {p : StepArgs 3 m} (h : ArmArgs a arm p)
    (hβ : a.smooth = true → ∀ k : Fin 3, a.betaY ⟨7 * arm + k, by omega⟩ = armLin arm a.betaY k) (ops : QuatOps) {cdd : Vec 12}
    (hc : armLin arm cdd = 0) (dt t : ℝ) (s : Vec 14 × Vec 12) :
    armPoseLinear arm (a.update ops 0 cdd dt t s) = p.eulerBody dt t (armPoseLinear arm s) := by
  have hlin : armLin arm (a.update ops 0 cdd dt t s).2 = (p.eulerBody dt t (armPoseLinear arm s)).2 := by
    funext k
    have hck : armLin arm cdd k = 0 := by rw [hc]; rfl
    simp only [DualStepArgs.update, armLin_joinVel, StepArgs.eulerBody, StepArgs.addCd, StepArgs.acc, StepArgs.initialCdd,
      h.coupling, h.precomputed, h.trackingError, h.goalY, h.startY, h.goalT, h.startT, h.alphaY, h.betaY, h.smooth, h.phase,
      h.force, armPoseLinear, armPosition_eq, armLinear_eq, hck, DualStepArgs.smoothingPos, Pi.add_apply, Pi.smul_apply,
      smul_eq_mul, Pi.zero_apply, show armLin arm (0 : Vec 12) k = 0 from rfl]
    cases hs : a.smooth
    · simp
    · simp [hβ hs]
  have hpos : (p.eulerBody dt t (armPoseLinear arm s)).1 = armPos arm s.1 + dt • (p.eulerBody dt t (armPoseLinear arm s)).2 := by
    simp only [StepArgs.eulerBody, StepArgs.addCd, h.coupling, armPoseLinear, armPosition_eq]
  ext1
  · rw [hpos, ← hlin, ← DualStepArgs.update_armPos]
    simp only [armPoseLinear, armPosition_eq]
  · rw [← hlin]
    simp only [armPoseLinear, armLinear_eq]

/-- One step. -/
theorem ArmArgs.run {a : DualStepArgs m} {arm : Fin 2} {p : StepArgs 3 m} (h : ArmArgs a arm p)
    (hβ : a.smooth = true → ∀ k : Fin 3, a.betaY ⟨7 * arm + k, by omega⟩ = armLin arm a.betaY k) (hc : a.coupling = none)
    (hcor : ∀ ops dt, armLin arm (a.correction ops dt) = 0) (hT : a.startT < a.goalT) (hint : 0 < a.intDt)
    {sf : DualStepFunction} {lastT t : ℝ} (hlt : lastT ≤ t) (ht : a.startT < t) {x y : Vec 14 × Vec 12}
    (hy : sf.run a lastT t x = .ok y) :
    StepFunction.euler.run p lastT t (armPoseLinear arm x) = .ok (armPoseLinear arm y) := by
  rw [run_euler_eq p h.coupling h.precomputed (.inl rfl) (by rw [h.intDt]; exact hint) (by rw [h.startT, h.goalT]; exact hT) hlt
    (by rw [h.startT]; exact ht), h.intDt]
  congr 1
  cases sf with
  | python ops =>
    simp only [DualStepFunction.run, DualStepArgs.stepPy] at hy
    rw [if_neg (not_le.2 ht), intLoop_eq _ hint] at hy
    simp only [Except.map, Except.ok.injEq] at hy
    have key : ∀ (L : List (ℝ × ℝ)) (s : Vec 14 × Vec 12) (c : Vec 12), armLin arm c = 0 →
        armPoseLinear arm (L.foldl (fun s p => a.bodyPy ops p.1 p.2 s) (s, (0, c))).1 =
          L.foldl (fun s q => p.eulerBody q.1 q.2 s) (armPoseLinear arm s) := by
      intro L
      induction L with
      | nil => intro s c _; rfl
      | cons q L ih =>
        intro s c hc0
        have hb : a.bodyPy ops q.1 q.2 (s, (0, c)) =
            (a.update ops 0 (c + a.correction ops q.1) q.1 q.2 s, (0, c + a.correction ops q.1)) := by
          unfold DualStepArgs.bodyPy
          simp only [hc]
        have hc1 : armLin arm (c + a.correction ops q.1) = 0 := by
          show armLin arm c + armLin arm (a.correction ops q.1) = 0
          rw [hc0, hcor, add_zero]
        rw [List.foldl_cons, List.foldl_cons, hb, ih _ _ hc1, h.update hβ ops hc1]
    rw [← hy]
    exact (key _ x 0 rfl).symm
  | cython =>
    simp only [DualStepFunction.run, DualStepArgs.stepCy] at hy
    rw [if_neg (not_le.2 ht), intLoop_eq _ hint] at hy
    simp only [Except.ok.injEq] at hy
    have key : ∀ (L : List (ℝ × ℝ)) (s : Vec 14 × Vec 12),
        armPoseLinear arm (L.foldl (fun s p => a.bodyCy p.1 p.2 s) s) =
          L.foldl (fun s q => p.eulerBody q.1 q.2 s) (armPoseLinear arm s) := by
      intro L
      induction L with
      | nil => intro s; rfl
      | cons q L ih =>
        intro s
        have hb : a.bodyCy q.1 q.2 s = a.update QuatOps.cython 0 (a.correction QuatOps.cython q.1) q.1 q.2 s := by
          unfold DualStepArgs.bodyCy
          simp only [hc, zero_add]
        rw [List.foldl_cons, List.foldl_cons, hb, ih, h.update hβ _ (hcor _ _)]
    rw [← hy]
    exact (key _ x).symm

/-- There is a DMP with the parameters of the position of an arm. -/
theorem Spec.TimedDual.regular {s : DualCartesianDMP m} (hs : TimedDual s) (hm : 2 ≤ m) (hτ : 0 < s.executionTime) (arm : Fin 2) :
    ∃ p : DMP 3 m, p.Reachable ∧ p.executionTime = s.executionTime ∧ p.smooth = s.smooth ∧ p.alphaY = armLinear arm s.alphaY ∧
      p.betaY = armLinear arm s.betaY ∧ p.ft.overlap = 8 / 10 ∧ p.ft.alphaZ = s.ft.alphaZ ∧ p.ft.goalT = s.ft.goalT ∧
      p.ft.startT = s.ft.startT ∧ p.ft.centers = s.ft.centers ∧ p.ft.widths = s.ft.widths := by
  obtain ⟨p, hp, e1, -, -, -, e5, e6, -, -, -, e10, -⟩ := DMP.exists_configured (d := 3) hm hτ s.dt s.intDt 0
    s.smooth (armLinear arm s.alphaY) (armLinear arm s.betaY) 0 0 0 0
  obtain ⟨ft, h1, h2⟩ := hp.valid
  obtain ⟨ft0, h3, f1, f2, f3, f4, f5⟩ := hs.made
  rw [e1] at h1
  rw [DMP.initForcingTerm_ok_iff] at h1 h3
  obtain ⟨-, -, -, rfl⟩ := create_ok h1
  obtain ⟨-, -, -, rfl⟩ := create_ok h3
  refine ⟨p, hp, e1, e10, e5, e6, ?_, ?_, ?_, ?_, ?_, ?_⟩
  · rw [h2]
  · rw [h2, f3]
  · rw [h2, f1]
  · rw [h2, f2]
  · rw [h2, f4]
  · rw [h2, f5]

theorem Spec.TimedDual.reachable {s : DualCartesianDMP m} (hs : TimedDual s) : s.Reachable := by
  induction hs with
  | create h => exact .create h
  | op o _ _ ih => exact .op o ih

/-- Steps after `imitate`. -/
theorem dual_learned {τ : ℝ} (hτ : 0 < τ) {y v a : Fin 2 → ℝ → Vec 3} (h : ∀ arm, TwiceDifferentiable τ (y arm) (v arm) (a arm))
    {afv : Bool} (hend : afv = true ∨ ∀ arm, v arm τ = 0) (α β : Vec 12) {smooth : Bool}
    (hβ : smooth = true → ∀ i j, β i = β j) {reg : ℝ} (hreg : 0 ≤ reg) {ε : ℝ} (hε : 0 < ε) :
    ∃ N, ∀ m : ℕ, N ≤ m → ∃ n0, ∀ n : ℕ, n0 ≤ n → ∀ s : DualCartesianDMP m, TimedDual s → s.executionTime = τ →
      s.alphaY = α → s.betaY = β → s.smooth = smooth →
      ∀ (ops : QuatOps) (qgrad : (Fin (n + 2) → Vec 4) → Fin (n + 2) → Vec 3) (Y : Fin (n + 2) → Vec 14),
      (∀ arm i, armPosition arm (Y i) = y arm (linspaceTimes τ n i)) →
      ∃ w, (DualCartesianDMP.imitate ops qgrad (linspaceTimes τ n) Y reg afv).exec s =
        (.ok (), { s with startY := Y 0, goalY := Y (Fin.last _), ft := { s.ft with weights := w } }) ∧
      ∃ h > 0, ∀ dt intDt : ℝ, 0 < dt → 0 < intDt → min intDt dt ≤ h →
        ∀ (sf : DualStepFunction) (xs : ℕ → Vec 14 × Vec 12) (e : ℕ → Vec 14) (arm : Fin 2),
        armPoseLinear arm (xs 0) = (y arm 0, v arm 0) →
        (∀ i : ℕ, ∃ r, sf.run (({ s with startY := Y 0, goalY := Y (Fin.last _), ft := { s.ft with weights := w }
                                         dt := dt, intDt := intDt } : DualCartesianDMP m).stepArgs none (e i))
          (0 + i * dt) (0 + (i + 1) * dt) (xs i) = .ok r ∧ armPoseLinear arm (xs (i + 1)) = armPoseLinear arm r) →
        (∀ i, s.pGain = 0 ∨ armPos arm (e i) = 0) →
        ∀ i : ℕ, i * dt ≤ τ → ∀ k, |(armPoseLinear arm (xs i)).1 k - y arm (i * dt) k| < ε ∧
          |(armPoseLinear arm (xs i)).2 k - v arm (i * dt) k| < ε := by
  choose N hN using fun arm => C109_solution hτ (h arm) (hend.imp_right fun h => h arm) (armLinear arm α) (armLinear arm β) smooth
    hreg (half_pos hε)
  refine ⟨max 2 (max (N 0) (N 1)), fun m hm => ?_⟩
  have hm2 : 2 ≤ m := (le_max_left _ _).trans hm
  have hmN : ∀ arm, N arm ≤ m := by
    have h0 := (le_max_right 2 (max (N 0) (N 1))).trans hm
    intro arm
    fin_cases arm
    · exact (le_max_left _ _).trans h0
    · exact (le_max_right _ _).trans h0
  choose n0 hn0 using fun arm => hN arm m (hmN arm)
  refine ⟨max (n0 0) (n0 1), fun n hn s hs hsτ hsα hsβ hsm ops qgrad Y hY => ?_⟩
  have hnN : ∀ arm, n0 arm ≤ n := by
    intro arm
    fin_cases arm
    · exact (le_max_left _ _).trans hn
    · exact (le_max_right _ _).trans hn
  have hTlast : linspaceTimes τ n (Fin.last (n + 1)) = τ := by
    simp only [linspaceTimes, Fin.val_last]; push_cast; field_simp
  have hT0 : linspaceTimes τ n 0 = 0 := by simp [linspaceTimes]
  obtain ⟨w, hs', hw⟩ := C28_dual_imitate hs.reachable ops qgrad (linspaceTimes τ n) Y hreg (by rw [hT0, hTlast]; exact hτ) afv
  refine ⟨w, hs', ?_⟩
  -- the regular DMPs of the arms learn the same weights
  have key : ∀ arm, ∃ p' : DMP 3 m, p'.Reachable ∧ p'.executionTime = τ ∧ p'.smooth = smooth ∧ p'.alphaY = armLinear arm α ∧
      p'.betaY = armLinear arm β ∧ p'.startY = y arm 0 ∧ p'.goalY = y arm τ ∧ (∀ t, p'.ft.phaseAt t = s.ft.phaseAt t) ∧
      (∀ z, p'.ft.force z = armLin arm (({ s.ft with weights := w } : ForcingTerm 12 m).force z)) ∧
      ∀ y' v', SolvesDmp p' 0 (y arm 0, v arm 0) y' v' → ∀ t ∈ Icc 0 τ, ∀ k,
        |y' t k - y arm t k| < ε / 2 ∧ |v' t k - v arm t k| < ε / 2 := by
    intro arm
    obtain ⟨p, hp, e1, e2, e3, e4, e5, e6, e7, e8, e9, e10⟩ := hs.regular hm2 (by rw [hsτ]; exact hτ) arm
    obtain ⟨p', him, hclose⟩ := hn0 arm n (hnN arm) p hp (e1.trans hsτ) (e3.trans (by rw [hsα])) (e4.trans (by rw [hsβ])) (e2.trans hsm)
    have hp' : p' = { p with startY := y arm 0, goalY := y arm τ, ft := { p.ft with weights := positionWeights arm w } } := by
      have hwa := (hw arm).1
      simp only [hY] at hwa
      rw [DMP.exec_imitate, e3, e4, e5, e6, e2, hwa] at him
      simp only at him
      rw [DMP.exec_configure, C25_configure_sets _ _ (by simp [AllOk, FieldOk])] at him
      rw [← (Prod.mk.inj him).2]
      simp only [newValue_ofFn, hT0, hTlast, e2, e3, e4]
      rfl
    have hr' : p'.Reachable := hp.op (.imitate (linspaceTimes τ n) (fun i => y arm (linspaceTimes τ n i)) reg afv) him
      (by intro τ h; cases h)
    refine ⟨p', hr', ?_, ?_, ?_, ?_, ?_, ?_, ?_, ?_, hclose⟩
    · rw [hp']; exact e1.trans hsτ
    · rw [hp']; exact e2.trans hsm
    · rw [hp']; exact e3.trans (by rw [hsα])
    · rw [hp']; exact e4.trans (by rw [hsβ])
    · rw [hp']
    · rw [hp']
    · intro t
      rw [hp']
      simp only [ForcingTerm.phaseAt, e6, e7, e8]
    · intro z
      rw [hp']
      funext k
      have hrbf : ∀ i, p.ft.rbf z i = s.ft.rbf z i := by
        intro i
        simp only [ForcingTerm.rbf, e9, e10]
      have hact : ∀ i, ({ p.ft with weights := positionWeights arm w } : ForcingTerm 3 m).activations z i =
          ({ s.ft with weights := w } : ForcingTerm 12 m).activations z i := by
        intro i
        show p.ft.rbf z i / ∑ j, p.ft.rbf z j = s.ft.rbf z i / ∑ j, s.ft.rbf z j
        simp only [hrbf]
      simp only [ForcingTerm.force, hact, positionWeights, armLinear_eq, armLin]
  choose p hp e1 e2 e3 e4 e5 e6 e7 e8 hclose using key
  have herr : ∀ arm, ∃ C, 0 ≤ C ∧ ∃ y' v', SolvesDmp (p arm) 0 (y arm 0, v arm 0) y' v' ∧
      ∀ (D δ : ℝ), 0 < D → 0 < δ → ∀ xs : ℕ → Vec 3 × Vec 3, xs 0 = (y' 0, v' 0) →
      (∀ i : ℕ, StepFunction.euler.run { (p arm).stepArgs none 0 with intDt := δ } (0 + i * D) (0 + (i + 1) * D) (xs i) =
        .ok (xs (i + 1))) →
      ∀ i : ℕ, 0 + i * D ≤ τ → ∀ k, |(xs i).1 k - y' (0 + i * D) k| ≤ C * Spec.largestStep D δ .euler ∧
        |(xs i).2 k - v' (0 + i * D) k| ≤ C * Spec.largestStep D δ .euler := by
    intro arm
    obtain ⟨y', v', hsol, -⟩ := C77_solution_exists (hp arm) 0 (y arm 0, v arm 0)
    have haT : ((p arm).stepArgs none 0).startT < ((p arm).stepArgs none 0).goalT := (hp arm).valid.pos.2
    obtain ⟨C, hC0, hC⟩ := run_error ((p arm).stepArgs none 0) rfl rfl rfl haT (by omega) (le_refl (0 : ℝ)) τ (y := y') (v := v')
      hsol.velocity (by
        intro t k
        have e : ((p arm).stepArgs none 0).goalT - ((p arm).stepArgs none 0).startT = (p arm).executionTime := sub_zero _
        rw [e]
        exact hsol.acceleration t k)
    exact ⟨C, hC0, y', v', hsol, fun D δ hD hδ xs => hC .euler D δ hD hδ xs⟩
  choose C hC0 y' v' hsol herr using herr
  refine ⟨ε / (2 * (|C 0 + C 1| + 1)), by positivity, ?_⟩
  intro dt intDt hdt hint hstep sf xs e arm hx0 hrun he i hi k
  have hst := (hsol arm).start
  have hargs : ∀ e, ArmArgs (({ s with startY := Y 0, goalY := Y (Fin.last _), ft := { s.ft with weights := w }
                                       dt := dt, intDt := intDt } : DualCartesianDMP m).stepArgs none e) arm
      { (p arm).stepArgs none 0 with intDt := intDt } := by
    intro e
    refine ⟨?_, ?_, (e1 arm).trans hsτ.symm, rfl, ?_, ?_, rfl, (e2 arm).trans hsm.symm, e7 arm, e8 arm, rfl, rfl, rfl⟩
    · show (p arm).goalY = armPos arm (Y (Fin.last _))
      rw [e6, ← armPosition_eq, hY, hTlast]
    · show (p arm).startY = armPos arm (Y 0)
      rw [e5, ← armPosition_eq, hY, hT0]
    · show (p arm).alphaY = armLin arm s.alphaY
      rw [e3, hsα, armLinear_eq]
    · show (p arm).betaY = armLin arm s.betaY
      rw [e4, hsβ, armLinear_eq]
  have hruns : ∀ i : ℕ, StepFunction.euler.run { (p arm).stepArgs none 0 with intDt := intDt } (0 + i * dt) (0 + (i + 1) * dt)
      (armPoseLinear arm (xs i)) = .ok (armPoseLinear arm (xs (i + 1))) := by
    intro i
    have hpos : (0 : ℝ) < 0 + (i + 1) * dt := by positivity
    obtain ⟨r, hr, hxr⟩ := hrun i
    rw [hxr]
    refine (hargs (e i)).run ?_ rfl ?_ (show (0 : ℝ) < s.executionTime by rw [hsτ]; exact hτ) hint (by nlinarith) hpos hr
    · intro h k
      show s.betaY _ = armLin arm s.betaY k
      rw [hsβ]
      exact hβ (hsm.symm.trans h) _ _
    · intro ops dt'
      funext k
      simp only [DualStepArgs.correction, DualCartesianDMP.stepArgs, armLin_joinVel, Pi.zero_apply]
      rcases he i with h | h
      · rw [h]; simp
      · rw [h]; simp
  have h1 := herr arm dt intDt hdt hint (fun i => armPoseLinear arm (xs i)) (by
    show armPoseLinear arm (xs 0) = _
    rw [hx0, hst]) hruns i (by rw [zero_add]; exact hi) k
  rw [zero_add] at h1
  have hCle : C arm ≤ |C 0 + C 1| := by
    rw [abs_of_nonneg (add_nonneg (hC0 0) (hC0 1))]
    fin_cases arm
    · simpa using hC0 1
    · simpa using hC0 0
  have hsmall : C arm * Spec.largestStep dt intDt .euler ≤ ε / 2 := by
    have h2 : C arm * Spec.largestStep dt intDt .euler ≤ |C 0 + C 1| * (ε / (2 * (|C 0 + C 1| + 1))) :=
      mul_le_mul hCle hstep (le_min hint.le hdt.le) (abs_nonneg _)
    refine h2.trans ?_
    have h3 : 0 ≤ |C 0 + C 1| := abs_nonneg _
    rw [mul_div_assoc', div_le_div_iff₀ (by positivity) (by norm_num)]
    nlinarith
  have h3 := hclose arm _ _ (hsol arm) (i * dt) ⟨by positivity, hi⟩ k
  constructor
  · calc |(armPoseLinear arm (xs i)).1 k - y arm (i * dt) k|
        = |((armPoseLinear arm (xs i)).1 k - y' arm (i * dt) k) + (y' arm (i * dt) k - y arm (i * dt) k)| := by ring_nf
      _ ≤ _ := abs_add_le _ _
      _ < ε := by linarith [h1.1, h3.1]
  · calc |(armPoseLinear arm (xs i)).2 k - v arm (i * dt) k|
        = |((armPoseLinear arm (xs i)).2 k - v' arm (i * dt) k) + (v' arm (i * dt) k - v arm (i * dt) k)| := by ring_nf
      _ ≤ _ := abs_add_le _ _
      _ < ε := by linarith [h1.2, h3.2]

/-- **C109 (positions of a `DualCartesianDMP`, `open_loop`).** Let `y 0` and `y 1` be twice continuously differentiable movements of
the positions of both arms that, unless `allow_final_velocity`, end at rest. A dual-arm DMP with `p_gain = 0`, enough weights and
the initial velocities of the movements that imitates sufficiently many equidistant samples of them, with any orientations,
reproduces them: for both step functions and sufficiently small steps, `open_loop` returns at each time stamp up to `τ` the
positions of the movements up to an error of less than `ε`. With smooth scaling, `beta_y` has to be a scalar: the wrong entries
of `beta_y` are used otherwise. -/
theorem C109_dual_open_loop {τ : ℝ} (hτ : 0 < τ) {y v a : Fin 2 → ℝ → Vec 3}
    (h : ∀ arm, TwiceDifferentiable τ (y arm) (v arm) (a arm)) {afv : Bool} (hend : afv = true ∨ ∀ arm, v arm τ = 0)
    (α β : Vec 12) {smooth : Bool} (hβ : smooth = true → ∀ i j, β i = β j) {reg : ℝ} (hreg : 0 ≤ reg) {ε : ℝ} (hε : 0 < ε) :
    ∃ N, ∀ m : ℕ, N ≤ m → ∃ n0, ∀ n : ℕ, n0 ≤ n → ∀ s : DualCartesianDMP m, TimedDual s → s.executionTime = τ →
      s.alphaY = α → s.betaY = β → s.smooth = smooth → s.pGain = 0 → (∀ arm, armLinear arm s.startYd = v arm 0) →
      ∀ (ops : QuatOps) (qgrad : (Fin (n + 2) → Vec 4) → Fin (n + 2) → Vec 3) (Y : Fin (n + 2) → Vec 14),
      (∀ arm i, armPosition arm (Y i) = y arm (linspaceTimes τ n i)) →
      ∃ s', (DualCartesianDMP.imitate ops qgrad (linspaceTimes τ n) Y reg afv).exec s = (.ok (), s') ∧
      ∃ h > 0, ∀ (name : String) (sf : DualStepFunction) (dt intDt : ℝ), DualStepFunction.lookup ops name = .ok sf → 0 < dt →
        0 < intDt → min intDt dt ≤ h → ∀ runT, ∃ T P,
        ((DualCartesianDMP.openLoop ops runT none name).exec { s' with dt := dt, intDt := intDt }).1 = .ok (T, P) ∧
          T.length = P.length ∧
          ∀ i (hT : i < T.length) (hP : i < P.length), T[i] ≤ τ → ∀ arm k, |armPosition arm P[i] k - y arm T[i] k| < ε := by
  obtain ⟨N, hN⟩ := dual_learned hτ h hend α β hβ hreg hε
  refine ⟨N, fun m hm => ?_⟩
  obtain ⟨n0, hn0⟩ := hN m hm
  refine ⟨n0, fun n hn s hs hsτ hsα hsβ hsm hp hv ops qgrad Y hY => ?_⟩
  obtain ⟨w, hs', h, h0, hh⟩ := hn0 n hn s hs hsτ hsα hsβ hsm ops qgrad Y hY
  refine ⟨_, hs', h, h0, fun name sf dt intDt hname hdt hint hstep runT => ?_⟩
  set s' : DualCartesianDMP m := { s with startY := Y 0, goalY := Y (Fin.last _), ft := { s.ft with weights := w }
                                          dt := dt, intDt := intDt } with hs'd
  have hol := DualCartesianDMP.openLoop_free s' hp hint hdt ops runT none hname
  refine ⟨_, _, hol, by simp, ?_⟩
  set F := intResult s'.intDt ((s'.stepArgs none 0).bodyFree sf.ops) with hF
  let xs : ℕ → Vec 14 × Vec 12 := iterates F 0 s'.dt (s'.startY, s'.startYd)
  have hruns : ∀ i : ℕ, sf.run (s'.stepArgs none 0) (0 + i * dt) (0 + (i + 1) * dt) (xs i) = .ok (xs (i + 1)) := by
    intro i
    have hi0 : (0 : ℝ) ≤ i * dt := by positivity
    rw [DualCartesianDMP.run_eq s' none sf 0 (fun dt => DualStepArgs.correction_pGain _ _ _ (.inl hp)) (by linarith)]
    have := (s'.composes hint none sf).ok (0 + i * dt) (0 + (i + 1) * dt) (xs i) (by linarith) (by linarith)
    rw [this]
    show _ = Except.ok (F (0 + i * s'.dt) (0 + (i + 1 : ℕ) * s'.dt) (xs i))
    push_cast
    rfl
  intro i hT hP hi arm k
  simp only [List.getElem_map, List.getElem_range, zero_add] at hi ⊢
  have hx0 : armPoseLinear arm (xs 0) = (y arm 0, v arm 0) := by
    show (armPosition arm (Y 0), armLinear arm s.startYd) = _
    rw [hY, hv]
    simp [linspaceTimes]
  have h1 := (hh dt intDt hdt hint hstep sf xs (fun _ => 0) arm hx0 (fun i => ⟨_, hruns i, rfl⟩)
    (fun _ => .inl hp) i hi k).1
  exact h1

/-- **C109 (positions of a `DualCartesianDMP`, `step`).** The same for positions and linear velocities returned by calls of `step`
with any `p_gain`, if each call gets the positions and linear velocities that the previous call returned. -/
theorem C109_dual_step {τ : ℝ} (hτ : 0 < τ) {y v a : Fin 2 → ℝ → Vec 3}
    (h : ∀ arm, TwiceDifferentiable τ (y arm) (v arm) (a arm)) {afv : Bool} (hend : afv = true ∨ ∀ arm, v arm τ = 0)
    (α β : Vec 12) {smooth : Bool} (hβ : smooth = true → ∀ i j, β i = β j) {reg : ℝ} (hreg : 0 ≤ reg) {ε : ℝ} (hε : 0 < ε) :
    ∃ N, ∀ m : ℕ, N ≤ m → ∃ n0, ∀ n : ℕ, n0 ≤ n → ∀ s : DualCartesianDMP m, TimedDual s → s.executionTime = τ →
      s.alphaY = α → s.betaY = β → s.smooth = smooth → s.t = 0 → s.initialized = false →
      ∀ (ops : QuatOps) (qgrad : (Fin (n + 2) → Vec 4) → Fin (n + 2) → Vec 3) (Y : Fin (n + 2) → Vec 14),
      (∀ arm i, armPosition arm (Y i) = y arm (linspaceTimes τ n i)) →
      ∃ s', (DualCartesianDMP.imitate ops qgrad (linspaceTimes τ n) Y reg afv).exec s = (.ok (), s') ∧
      ∃ h > 0, ∀ (sf : DualStepFunction) (dt intDt : ℝ), 0 < dt → 0 < intDt → min intDt dt ≤ h →
        ∀ (obj : ℕ → DualCartesianDMP m) (fb out : ℕ → Vec 14 × Vec 12), obj 0 = { s' with dt := dt, intDt := intDt } →
          Spec.Run (DualCartesianDMP.step ops none sf) obj fb out → ∀ arm,
          armPosition arm (fb 0).1 = y arm 0 → armLinear arm (fb 0).2 = v arm 0 →
          (∀ i, armPosition arm (fb (i + 1)).1 = armPosition arm (out i).1 ∧ armLinear arm (fb (i + 1)).2 = armLinear arm (out i).2) →
          ∀ i : ℕ, (i + 1) * dt ≤ τ → ∀ k, |armPosition arm (out i).1 k - y arm ((i + 1) * dt) k| < ε ∧
            |armLinear arm (out i).2 k - v arm ((i + 1) * dt) k| < ε := by
  obtain ⟨N, hN⟩ := dual_learned hτ h hend α β hβ hreg hε
  refine ⟨N, fun m hm => ?_⟩
  obtain ⟨n0, hn0⟩ := hN m hm
  refine ⟨n0, fun n hn s hs hsτ hsα hsβ hsm ht hini ops qgrad Y hY => ?_⟩
  obtain ⟨w, hs', h, h0, hh⟩ := hn0 n hn s hs hsτ hsα hsβ hsm ops qgrad Y hY
  refine ⟨_, hs', h, h0, fun sf dt intDt hdt hint hstep obj fb out ho hrun arm hf0 hf0' hf i hi k => ?_⟩
  have hpos : ∀ u w : Vec 14, armPos arm (DualCartesianDMP.trackingError ops u w) = armPosition arm u - armPosition arm w := by
    intro u w
    funext k
    simp only [DualCartesianDMP.trackingError, armPos_joinState, armPosition_eq, Pi.sub_apply]
  -- states passed to the calls, followed by the result of call `i`
  have hargs := fun j => DualCartesianDMP.run_args ho hrun j
  have hY0 : armPosition arm (Y 0) = y arm 0 := by
    rw [hY]; simp [linspaceTimes]
  have h1 := hh dt intDt hdt hint hstep sf fb
    (fun j => DualCartesianDMP.trackingError ops (obj j).reference (fb j).1) arm (by
      show (armPosition arm (fb 0).1, armLinear arm (fb 0).2) = _
      rw [hf0, hf0']) (fun j => by
      refine ⟨out j, ?_, ?_⟩
      · have := (hargs j).1
        simp only [ht] at this
        rw [show (0 : ℝ) + (j + 1) * dt = 0 + j * dt + dt by ring]
        exact this
      · show (armPosition arm (fb (j + 1)).1, armLinear arm (fb (j + 1)).2) = (armPosition arm (out j).1, armLinear arm (out j).2)
        rw [(hf j).1, (hf j).2]) (fun j => by
      right
      rw [hpos]
      cases j with
      | zero =>
        rw [ho, hf0]
        simp only [DualCartesianDMP.reference, hini]
        rw [show ∀ a b : Vec 14, (if false = true then a else b) = b from fun _ _ => rfl, hY0, sub_self]
      | succ j => rw [(hargs j).2, (hf j).1, sub_self]) (i + 1) (by push_cast; exact hi) k
  have h2 : armPoseLinear arm (fb (i + 1)) = (armPosition arm (out i).1, armLinear arm (out i).2) := by
    show (armPosition arm (fb (i + 1)).1, armLinear arm (fb (i + 1)).2) = _
    rw [(hf i).1, (hf i).2]
  rw [h2] at h1
  push_cast at h1
  exact h1

/-- Such objects exist, for instance new ones; the velocities of movements that start at rest are those of new objects. -/
example {m : ℕ} (hm : 2 ≤ m) : ∃ s : DualCartesianDMP m, TimedDual s ∧ s.executionTime = 1 ∧ s.betaY = (fun _ => 25 / 4) ∧
    s.smooth = true ∧ s.pGain = 0 ∧ s.t = 0 ∧ s.initialized = false ∧ ∀ arm, armLinear arm s.startYd = 0 := by
  obtain ⟨s, h0, h1, h2, -, -, h3, h4, -, h5, -, h6⟩ := DualCartesianDMP.create_ok m hm (τ := 1) one_pos (1 / 100) (1 / 1000) 0 true
    25 (25 / 4)
  refine ⟨s, .create h0, h2, h5, h4, h3, by rw [h1]; rfl, h6, fun arm => ?_⟩
  rw [h1, armLinear_eq]
  rfl

end Verif
