import Verif.Spec.Phase
import Verif.Props.CartesianClass
import Verif.Props.CartesianImitate
import Verif.Props.OrientationCartesian
import Verif.Props.Reproduction

/-! # Positions of Cartesian DMPs: C108 and C109 for `CartesianDMP` -/

namespace Verif

open Spec Set

variable {m n : ℕ}

theorem Spec.TimedCartesian.reachable {s : CartesianDMP m} (hs : TimedCartesian s) : s.Reachable := by
  induction hs with
  | create h => exact .create h
  | op o _ _ ih => exact .op o ih

/-- The forcing term of the position belongs to the execution time. -/
theorem Spec.TimedCartesian.forcingTerm {s : CartesianDMP m} (hs : TimedCartesian s) :
    ∃ ft, DMP.initForcingTerm 3 m s.executionTime = .ok ft ∧ s.ftPos = { ft with weights := s.ftPos.weights } := by
  induction hs with
  | create h =>
    rename_i τ dt intDt smooth α β s
    unfold CartesianDMP.create at h
    rw [CartesianDMP.initForcingTerms_eq] at h
    cases h1 : DMP.initForcingTerm 3 m τ with
    | error e => rw [h1] at h; cases h
    | ok ft =>
      rw [h1] at h
      cases h2 : ensure1dArray α (3 + 3) with
      | error e => rw [h2] at h; cases h
      | ok a =>
        rw [h2] at h
        cases h3 : ensure1dArray β (3 + 3) with
        | error e => rw [h3] at h; cases h
        | ok b =>
          rw [h3] at h
          simp only [bind, Except.bind, Except.map, Pure.pure, Except.pure, Except.ok.injEq] at h
          subst h
          exact ⟨ft, h1, rfl⟩
  | @op s o hs hok ih =>
    obtain ⟨ft, h1, h2⟩ := ih
    cases o with
    | step c sf qf y yd =>
      simp only [CartesianOp.after, CartesianDMP.exec_step]
      split
      · exact ⟨ft, h1, h2⟩
      · split <;> exact ⟨ft, h1, h2⟩
    | openLoop ops t c nm qn => simp only [CartesianOp.after, CartesianDMP.exec_openLoop]; exact ⟨ft, h1, h2⟩
    | configure a => exact ⟨ft, h1, h2⟩
    | reset => exact ⟨ft, h1, h2⟩
    | setWeights w =>
      simp only [CartesianOp.after, CartesianDMP.exec_setWeights]
      split
      · exact ⟨ft, h1, h2⟩
      · split
        · exact ⟨ft, h1, by rw [h2]⟩
        · exact ⟨ft, h1, by rw [h2]⟩
    | setExecutionTime τ =>
      have h3 := hok τ rfl
      simp only [CartesianOp.after]
      rw [CartesianDMP.exec_setExecutionTime] at h3 ⊢
      cases h4 : DMP.initForcingTerm 3 m τ with
      | error e => rw [h4] at h3; cases h3
      | ok ft' => exact ⟨ft', h4, rfl⟩
    | imitate ops qgrad T Y reg afv =>
      simp only [CartesianOp.after, CartesianDMP.exec_imitate]
      split
      · exact ⟨ft, h1, h2⟩
      · split
        · exact ⟨ft, h1, by rw [h2]⟩
        · exact ⟨ft, h1, by rw [h2]; rfl⟩

/-- There is a DMP with the parameters of the position of a Cartesian DMP. -/
theorem Spec.TimedCartesian.regular {s : CartesianDMP m} (hs : TimedCartesian s) :
    ∃ p : DMP 3 m, p.Reachable ∧ p.startY = position s.startY ∧ p.goalY = position s.goalY ∧
      p.executionTime = s.executionTime ∧ p.dt = s.dt ∧ p.intDt = s.intDt ∧ p.smooth = s.smooth ∧
      p.alphaY = linear s.alphaY ∧ p.betaY = linear s.betaY ∧ p.ft = s.ftPos := by
  obtain ⟨ft, h1, h2⟩ := hs.forcingTerm
  have h3 := (DMP.initForcingTerm_isOk_iff (d := 3) (m := m) s.executionTime).1 ⟨ft, h1⟩
  obtain ⟨p, hp, e1, e2, e3, -, e5, e6, e7, e8, -, e10, e11, -⟩ := DMP.exists_configured (d := 3) h3.1 h3.2 s.dt s.intDt 0
    s.smooth (linear s.alphaY) (linear s.betaY) (position s.goalY) (position s.startY) 0 s.ftPos.weights
  refine ⟨p, hp, e8, e7, e1, e2, e3, e10, e5, e6, ?_⟩
  obtain ⟨ft', h4, h5⟩ := hp.valid
  rw [e1, h1] at h4
  obtain rfl := Except.ok.inj h4
  rw [h5, e11, h2]

/-- `open_loop` without coupling term and with known names of step functions returns. -/
theorem CartesianDMP.openLoop_returns {s : CartesianDMP m} {ops : QuatOps} {sf : StepFunction} {qf : QuatStepFunction}
    {name qname : String} (hname : StepFunction.lookup name = .ok sf) (hqname : QuatStepFunction.lookup ops qname = .ok qf)
    (hdt : 0 < s.dt) (hτ : 0 < s.executionTime) (hint : 0 < s.intDt) {r : ℝ} (hr : 0 ≤ r) :
    ∃ T Y, ((CartesianDMP.openLoop ops (some r) none name qname).exec s).1 = .ok (T, Y) := by
  have hst : Spec.Stable sf s.dt s.intDt s.executionTime 0 0 := by
    have : 0 < s.executionTime ^ 2 := by positivity
    cases sf
    case euler => exact .euler (.inl rfl) hint (by simp)
    case eulerCython => exact .euler (.inr rfl) hint (by simp)
    case rk4 => exact .rk4 (.inl rfl) (by simpa using hτ) (by simp; positivity)
    case rk4Cython => exact .rk4 (.inr rfl) (by simpa using hτ) (by simp; positivity)
  obtain ⟨ps, xs, -, -, -, -, h⟩ := CartesianDMP.openLoop_rows hname hqname hdt hτ hint hst
  rw [h, if_neg]
  · exact ⟨_, _, rfl⟩
  · rw [Option.getD_some]
    unfold arangeLen
    rw [sub_zero, Nat.ceil_eq_zero, not_le]
    positivity

/-- **C108 (positions of a `CartesianDMP`).** Whatever the orientations are, the positions of a Cartesian DMP with enough weights
can follow every movement that starts at rest. -/
theorem C108_cartesian_positions {τ : ℝ} (hτ : 0 < τ) {y v a : ℝ → Vec 3} (h : TwiceDifferentiable τ y v a)
    (hrest : v 0 = 0) (α β goal : Vec 3) (smooth : Bool) {ε : ℝ} (hε : 0 < ε) :
    ∃ N, ∀ m : ℕ, N ≤ m → ∃ W : Fin 3 → Fin m → ℝ, ∀ s : CartesianDMP m, TimedCartesian s → s.executionTime = τ →
      linear s.alphaY = α → linear s.betaY = β → position s.goalY = goal → position s.startY = y 0 → s.smooth = smooth →
      s.ftPos.weights = W →
      ∃ h > 0, ∀ (name : String) (sf : StepFunction) (dt intDt : ℝ), StepFunction.lookup name = .ok sf → 0 < dt →
        0 < intDt → Spec.largestStep dt intDt sf ≤ h → ∀ ops qname qf, QuatStepFunction.lookup ops qname = .ok qf →
        (∀ r : ℝ, 0 ≤ r → ∃ T Y,
          ((CartesianDMP.openLoop ops (some r) none name qname).exec { s with dt := dt, intDt := intDt }).1 = .ok (T, Y)) ∧
        ∀ runT T Y,
        ((CartesianDMP.openLoop ops runT none name qname).exec { s with dt := dt, intDt := intDt }).1 = .ok (T, Y) →
          ∀ i (hT : i < T.length) (hY : i < Y.length), T[i] ≤ τ → ∀ k, |position Y[i] k - y T[i] k| < ε := by
  obtain ⟨N, hN⟩ := C108_open_loop hτ h hrest α β goal smooth hε
  refine ⟨N, fun m hm => ?_⟩
  obtain ⟨W, hW⟩ := hN m hm
  refine ⟨W, fun s hs hsτ hsα hsβ hsg hs0 hsm hsW => ?_⟩
  obtain ⟨p, hp, e1, e2, e3, e4, e5, e6, e7, e8, e9⟩ := hs.regular
  obtain ⟨h, h0, hh⟩ := hW p hp (e3.trans hsτ) (e7.trans hsα) (e8.trans hsβ) (e2.trans hsg) (e1.trans hs0) (e6.trans hsm)
    (by rw [e9]; exact hsW)
  refine ⟨h, h0, fun name sf dt intDt hname hdt hint hstep ops qname qf hqname =>
    ⟨fun r hr => CartesianDMP.openLoop_returns hname hqname hdt (by show 0 < s.executionTime; rw [hsτ]; exact hτ) hint hr,
      fun runT T Y hr i hT hY hi k => ?_⟩⟩
  have h1 := C33_position_is_regular_dmp { s with dt := dt, intDt := intDt } { p with dt := dt, intDt := intDt } e1 e2 e3 rfl
    rfl e6 e7 e8 e9 hr
  have h2 := (hh name sf dt intDt hname hdt hint hstep).2 runT T _ h1 i hT (by simpa using hY) hi k
  simpa using h2

/-- **C109 (positions of a `CartesianDMP`).** Let `y` be a twice continuously differentiable movement of a position that starts
at rest and, unless `allow_final_velocity`, ends at rest. A Cartesian DMP with enough weights that imitates sufficiently many
equidistant samples of it, with any orientations, reproduces it: for all integrators with sufficiently small steps, `open_loop`
returns at each time stamp up to `τ` the position of the movement up to an error of less than `ε`. -/
theorem C109_cartesian_positions {τ : ℝ} (hτ : 0 < τ) {y v a : ℝ → Vec 3} (h : TwiceDifferentiable τ y v a) {afv : Bool}
    (hrest : v 0 = 0) (hend : afv = true ∨ v τ = 0) (α β : Vec 3) (smooth : Bool) {reg : ℝ} (hreg : 0 ≤ reg) {ε : ℝ}
    (hε : 0 < ε) :
    ∃ N, ∀ m : ℕ, N ≤ m → ∃ n0, ∀ n : ℕ, n0 ≤ n → ∀ s : CartesianDMP m, TimedCartesian s → s.executionTime = τ →
      linear s.alphaY = α → linear s.betaY = β → s.smooth = smooth →
      ∀ (ops : QuatOps) (qgrad : (Fin (n + 2) → Vec 4) → Fin (n + 2) → Vec 3) (Y : Fin (n + 2) → Vec (3 + 4)),
      (∀ i, position (Y i) = y (linspaceTimes τ n i)) →
      ∃ s', (CartesianDMP.imitate ops qgrad (linspaceTimes τ n) Y reg afv).exec s = (.ok (), s') ∧
      ∃ h > 0, ∀ (name : String) (sf : StepFunction) (dt intDt : ℝ), StepFunction.lookup name = .ok sf → 0 < dt →
        0 < intDt → Spec.largestStep dt intDt sf ≤ h → ∀ qname qf, QuatStepFunction.lookup ops qname = .ok qf →
        (∀ r : ℝ, 0 ≤ r → ∃ T P,
          ((CartesianDMP.openLoop ops (some r) none name qname).exec { s' with dt := dt, intDt := intDt }).1 = .ok (T, P)) ∧
        ∀ runT T P,
        ((CartesianDMP.openLoop ops runT none name qname).exec { s' with dt := dt, intDt := intDt }).1 = .ok (T, P) →
          ∀ i (hT : i < T.length) (hP : i < P.length), T[i] ≤ τ → ∀ k, |position P[i] k - y T[i] k| < ε := by
  obtain ⟨N, hN⟩ := C109_imitated_movement hτ h hrest hend α β smooth hreg hε
  refine ⟨N, fun m hm => ?_⟩
  obtain ⟨n0, hn0⟩ := hN m hm
  refine ⟨n0, fun n hn s hs hsτ hsα hsβ hsm ops qgrad Y hY => ?_⟩
  have hTlast : linspaceTimes τ n (Fin.last (n + 1)) = τ := by
    simp only [linspaceTimes, Fin.val_last]; push_cast; field_simp
  have hT0 : linspaceTimes τ n 0 = 0 := by simp [linspaceTimes]
  obtain ⟨p, hp, e1, e2, e3, e4, e5, e6, e7, e8, e9⟩ := hs.regular
  obtain ⟨p', him, h, h0, hh⟩ := hn0 n hn p hp (e3.trans hsτ) (e7.trans hsα) (e8.trans hsβ) (e6.trans hsm)
  obtain ⟨wp, wr, hs', hwp, -⟩ := C28_cartesian_imitate hs.reachable ops qgrad (linspaceTimes τ n) Y hreg
    (by rw [hT0, hTlast]; exact hτ) afv
  refine ⟨_, hs', h, h0, fun name sf dt intDt hname hdt hint hstep qname qf hqname =>
    ⟨fun r hr => CartesianDMP.openLoop_returns hname hqname hdt (by show 0 < s.executionTime; rw [hsτ]; exact hτ) hint hr,
      fun runT T P hr i hT hP hi k => ?_⟩⟩
  -- the regular DMP learns the same weights
  have hp' : p' = { p with startY := position (Y 0), goalY := position (Y (Fin.last _)), ft := { p.ft with weights := wp } } := by
    simp only [hY] at hwp
    rw [DMP.exec_imitate, e7, e8, e9, e6, hs.reachable.valid.pos, hwp] at him
    simp only at him
    rw [DMP.exec_configure, C25_configure_sets _ _ (by simp [AllOk, FieldOk])] at him
    rw [← (Prod.mk.inj him).2]
    simp only [newValue_ofFn, hY, e6, e7, e8, e9]
    rfl
  have h1 := C33_position_is_regular_dmp _ { p' with dt := dt, intDt := intDt } (by rw [hp']) (by rw [hp'])
    (by rw [hp']; exact e3) rfl rfl (by rw [hp']; exact e6) (by rw [hp']; exact e7) (by rw [hp']; exact e8)
    (by rw [hp']; show ({ p.ft with weights := wp } : ForcingTerm 3 m) = _; rw [e9]) hr
  have h2 := (hh name sf dt intDt hname hdt hint hstep).2 runT T _ h1 i hT (by simpa using hP) hi k
  simpa using h2

/-- Such objects exist, for instance new ones. -/
example {m : ℕ} (hm : 2 ≤ m) : ∃ s : CartesianDMP m, TimedCartesian s ∧ s.executionTime = 1 ∧ linear s.alphaY = (fun _ => 25) ∧
    linear s.betaY = (fun _ => 25 / 4) ∧ s.smooth = false := by
  obtain ⟨s, h0, -, h1, -, -, h2, h3, h4, -⟩ := CartesianDMP.create_ok m hm one_pos (1 / 100) (1 / 1000) false 25 (25 / 4)
  exact ⟨s, .create h0, h1, by rw [h3, linear_eq]; rfl, by rw [h4, linear_eq]; rfl, h2⟩

end Verif
