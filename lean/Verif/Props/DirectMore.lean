import Verif.Props.Direct
import Verif.Props.OrientationCartesian
import Verif.Props.DualArms
import Verif.Spec.Spring

/-! # C115: Direct movements of Cartesian and dual-arm DMPs and of spring-damper systems -/

namespace Verif
open Filter Topology Spec
variable {d m : ℕ}

theorem Spec.StraightMovement.direct {start goal : Vec d} {xs : ℕ → Vec d × Vec d} (h : StraightMovement start goal xs) :
    DirectMovement start goal xs := by
  obtain ⟨r, w, h1, h2, h3, h4, h5⟩ := h
  intro k
  refine ⟨r, w, h1, h2, h3, h4, fun i => ?_⟩
  obtain ⟨e1, e2⟩ := h5 i
  rw [e1, e2]
  exact ⟨rfl, rfl⟩

/-! ## Cartesian DMPs -/

theorem CartesianDMP.pos_weights_zero {s : CartesianDMP m} (hw : ∀ w ∈ s.getWeights.take (3 * m), w = 0) (k : Fin 3)
    (i : Fin m) : s.ftPos.weights k i = 0 := by
  apply hw
  unfold CartesianDMP.getWeights
  rw [List.take_left' (by simp), List.mem_ofFn]
  refine ⟨finProdFinEquiv (k, i), ?_⟩
  have h := finProdFinEquiv.symm_apply_apply (k, i)
  have h1 : (finProdFinEquiv (k, i)).divNat = k := congrArg Prod.fst h
  have h2 : (finProdFinEquiv (k, i)).modNat = i := congrArg Prod.snd h
  rw [h1, h2]

/-- **C115 (`CartesianDMP.step`).** Positions, whatever the orientations do. -/
theorem C115_cartesian_step {s : CartesianDMP m} (hs : TimedCartesian s) {sf : StepFunction} {qf : QuatStepFunction}
    (hdt : 0 < s.dt) (ht : 0 ≤ s.t) (hw : ∀ w ∈ s.getWeights.take (3 * m), w = 0)
    (hgain : ∀ k, NoOvershoot sf s.dt s.intDt s.executionTime (linear s.alphaY k) (linear s.betaY k))
    {obj : ℕ → CartesianDMP m} {fb out : ℕ → Vec (3 + 4) × Vec (3 + 3)} (h0 : obj 0 = s)
    (hrun : Spec.Run (CartesianDMP.step none sf qf) obj fb out) (hfb : ∀ i, fb (i + 1) = out i)
    (hv0 : linear (fb 0).2 = 0) (hsm : s.smooth = true → position (fb 0).1 = position s.startY) :
    DirectMovement (position (fb 0).1) (position s.goalY) (fun i => (position (fb i).1, linear (fb i).2)) ∧
      ((∀ k l, linear s.alphaY k = linear s.alphaY l ∧ linear s.betaY k = linear s.betaY l) →
        StraightMovement (position (fb 0).1) (position s.goalY) (fun i => (position (fb i).1, linear (fb i).2))) := by
  subst h0
  have hrun' := CartesianDMP.run_objects hrun
  have hph := (C01_cartesian hs).1
  have hτ := hs.positive
  have h1 := run_direct ((obj 0).posArgs none) rfl rfl rfl (show (0 : ℝ) < (obj 0).executionTime from hτ)
    (CartesianDMP.pos_weights_zero hw) (sf := sf) hdt (show (0 : ℝ) ≤ (obj 0).t from ht) hph.decreasing.antitone
    (phaseAt_nonneg _) (fun t h => (hph.range t (ht.trans h)).2)
    (fun k => by
      have := hgain k
      rw [linear_eq, linear_eq] at this
      show NoOvershoot sf (obj 0).dt (obj 0).intDt ((obj 0).executionTime - 0) _ _
      rw [sub_zero]; exact this)
    (xs := fun i => (position (fb i).1, linear (fb i).2)) (y0 := position (fb 0).1) (by simp only [hv0])
    (fun h => by rw [hsm h, position_eq (obj 0).startY]; rfl)
    (fun i => by simp only [hfb]; exact (hrun' i).2.1)
  rw [position_eq (obj 0).goalY, linear_eq (obj 0).alphaY, linear_eq (obj 0).betaY]
  exact h1

/-- **C115 (`CartesianDMP.open_loop`).** -/
theorem C115_cartesian_open_loop {s : CartesianDMP m} (hs : TimedCartesian s) {ops : QuatOps} {name qname : String}
    {sf : StepFunction} {qf : QuatStepFunction} (hname : StepFunction.lookup name = .ok sf)
    (hqname : QuatStepFunction.lookup ops qname = .ok qf) (hdt : 0 < s.dt)
    (hw : ∀ w ∈ s.getWeights.take (3 * m), w = 0)
    (hgain : ∀ k, NoOvershoot sf s.dt s.intDt s.executionTime (linear s.alphaY k) (linear s.betaY k)) :
    ∃ xs : ℕ → Vec 3 × Vec 3, DirectMovement (position s.startY) (position s.goalY) xs ∧
      ((∀ k l, linear s.alphaY k = linear s.alphaY l ∧ linear s.betaY k = linear s.betaY l) →
        StraightMovement (position s.startY) (position s.goalY) xs) ∧
      (∀ r : ℝ, 0 ≤ r → ∃ T Y, ((CartesianDMP.openLoop ops (some r) none name qname).exec s).1 = .ok (T, Y)) ∧
      ∀ (runT : Option ℝ) T Y, ((CartesianDMP.openLoop ops runT none name qname).exec s).1 = .ok (T, Y) →
        ∀ i (hY : i < Y.length), position Y[i] = (xs i).1 := by
  have hph := (C01_cartesian hs).1
  have hτ := hs.positive
  have hst : Spec.Stable sf s.dt s.intDt s.executionTime 0 0 := by
    cases sf with
    | euler => exact .euler (.inl rfl) (hgain 0).positive (by norm_num)
    | eulerCython => exact .euler (.inr rfl) (hgain 0).positive (by norm_num)
    | rk4 => exact .rk4 (.inl rfl) (by simpa using hτ) (by simp only [mul_zero, zero_mul, add_zero]; positivity)
    | rk4Cython => exact .rk4 (.inr rfl) (by simpa using hτ) (by simp only [mul_zero, zero_mul, add_zero]; positivity)
  obtain ⟨ps, xs, hp0, hx0, hp, hx, hol⟩ := CartesianDMP.openLoop_rows hname hqname hdt hτ (hgain 0).positive hst
  have h1 := run_direct (s.posOpenLoopArgs none) rfl rfl rfl (show (0 : ℝ) < s.executionTime from hτ)
    (CartesianDMP.pos_weights_zero hw) (sf := sf) hdt (le_refl (0 : ℝ)) hph.decreasing.antitone (phaseAt_nonneg _)
    (fun t h => (hph.range t h).2)
    (fun k => by
      have := hgain k
      rw [linear_eq, linear_eq] at this
      show NoOvershoot sf s.dt s.intDt (s.executionTime - 0) _ _
      rw [sub_zero]; exact this)
    hp0 (fun h => rfl) hp
  refine ⟨ps, ?_, ?_, ?_, ?_⟩
  · rw [position_eq, position_eq]; exact h1.1
  · rw [position_eq, position_eq, linear_eq, linear_eq]; exact h1.2
  · intro r hr
    have hn : arangeLen 0 (r + s.dt) s.dt ≠ 0 := by
      unfold arangeLen
      rw [sub_zero, Ne, Nat.ceil_eq_zero, not_le]
      positivity
    rw [hol, Option.getD_some, if_neg hn]
    exact ⟨_, _, rfl⟩
  · intro runT T Y h
    rw [hol] at h
    split_ifs at h with hz
    simp only [Except.ok.injEq, Prod.mk.injEq] at h
    obtain ⟨rfl, rfl⟩ := h
    intro i hY
    simp only [List.getElem_map, List.getElem_range]
    rw [position_eq, sliceTo_hstack]

/-! ## Spring-damper systems -/

theorem springDamper_direct {goalY : Vec d} {k dt intDt : ℝ} {c : Option ℝ} (hk : 0 ≤ k) (hc : 0 < damping k c)
    (h4 : 4 * k ≤ damping k c ^ 2) (hdt : 0 < dt) (hint : 0 < intDt) (hstep : min intDt dt * damping k c ≤ 1) (t0 : ℝ)
    {y0 : Vec d} {xs : ℕ → Vec d × Vec d} (hx0 : xs 0 = (y0, 0))
    (hx : ∀ i : ℕ, springDamperStep goalY k c none none intDt (t0 + i * dt) (t0 + (i + 1) * dt) (xs i) =
      .ok (xs (i + 1))) : StraightMovement y0 goalY xs := by
  let X := fraction .euler k (damping k c) intDt dt t0 (fun _ => 0)
  have hX : ∀ j i, ((xs i).1 j - goalY j, (xs i).2 j) = (y0 j - goalY j) • X i := by
    intro j i
    induction i with
    | zero =>
      rw [hx0]
      show _ = (y0 j - goalY j) • ((1 : ℝ), (0 : ℝ))
      simp
    | succ i ih =>
      have h1 := hx i
      rw [springDamperStep_eq _ _ _ _ _ hint] at h1
      injection h1 with h1
      rw [← h1, springDamper_foldl goalY k (damping k c) j _ _, ih]
      exact foldl_smul k (damping k c) (y0 j - goalY j) (fun _ => 0) (fun _ => 0) (fun t => by ring) _ _
  obtain ⟨h1, h2, h3⟩ := fraction_direct (sf := .euler) (t0 := t0) (Z := fun _ => 0) antitone_const (fun _ _ => zero_le_one)
    (fun _ => le_refl _) hk hc h4 hint hdt hstep
  refine ⟨fun i => (X i).1, fun i => -(X i).2, rfl, h1, h2, fun i => by simpa using h3 i, fun i => ?_⟩
  constructor
  · funext j
    have e1 := congrArg Prod.fst (hX j i)
    simp only [Prod.smul_fst, smul_eq_mul] at e1
    simp only [Pi.add_apply, Pi.smul_apply, Pi.sub_apply, smul_eq_mul]
    linarith
  · funext j
    have e1 := congrArg Prod.snd (hX j i)
    simp only [Prod.smul_snd, smul_eq_mul] at e1
    simp only [Pi.smul_apply, Pi.sub_apply, smul_eq_mul]
    linarith

/-- **C115 (`SpringDamper.step`).** A spring-damper system that is at least critically damped (as it is by default) and
starts at rest moves on the straight line to the goal, without overshoot. -/
theorem C115_spring_damper_step {s : SpringDamper d} (hk : 0 < s.k) (hc : 0 < damping s.k s.c)
    (h4 : 4 * s.k ≤ damping s.k s.c ^ 2) (hdt : 0 < s.dt) (hint : 0 < s.intDt)
    (hstep : min s.intDt s.dt * damping s.k s.c ≤ 1)
    {obj : ℕ → SpringDamper d} {fb out : ℕ → Vec d × Vec d} (h0 : obj 0 = s)
    (hrun : Spec.Run (SpringDamper.step none) obj fb out) (hfb : ∀ i, fb (i + 1) = out i) (hv0 : (fb 0).2 = 0) :
    StraightMovement (fb 0).1 s.goalY fb := by
  subst h0
  refine springDamper_direct hk.le hc h4 hdt hint hstep (obj 0).t (by rw [← hv0]) (fun i => ?_)
  rw [hfb]
  exact (SpringDamper.run_objects hrun i).2.2.2.2.2.2

/-- **C115 (`SpringDamper.open_loop`).** -/
theorem C115_spring_damper_open_loop {s : SpringDamper d} (hk : 0 < s.k) (hc : 0 < damping s.k s.c)
    (h4 : 4 * s.k ≤ damping s.k s.c ^ 2) (hdt : 0 < s.dt) (hint : 0 < s.intDt)
    (hstep : min s.intDt s.dt * damping s.k s.c ≤ 1) :
    ∃ xs : ℕ → Vec d × Vec d, StraightMovement s.startY s.goalY xs ∧
      (∀ r : ℝ, 0 ≤ r → ∃ T Y, ((SpringDamper.openLoop r none).exec s).1 = .ok (T, Y)) ∧
      ∀ (r : ℝ) T Y, ((SpringDamper.openLoop r none).exec s).1 = .ok (T, Y) →
        ∀ i (hT : i < T.length) (hY : i < Y.length), T[i] = i * s.dt ∧ Y[i] = (xs i).1 := by
  let nxt : ℕ → Vec d × Vec d → Vec d × Vec d := fun i x =>
    (subSteps s.intDt (arangeAt 0 s.dt (i + 1)) (arangeAt 0 s.dt i)).foldl
      (fun x p => springDamperBody s.goalY s.k (damping s.k s.c) none none p.1 p.2 x) x
  have hnxt : ∀ i x, springDamperStep s.goalY s.k s.c none none s.intDt (arangeAt 0 s.dt i) (arangeAt 0 s.dt (i + 1)) x =
      .ok (nxt i x) := fun i x => springDamperStep_eq _ _ _ _ _ hint _ _ _
  let xs : ℕ → Vec d × Vec d := fun i => Nat.rec (s.startY, 0) (fun i x => nxt i x) i
  have hxs : ∀ i, xs (i + 1) = nxt i (xs i) := fun i => rfl
  have hol : ∀ r, ((SpringDamper.openLoop r none).exec s).1 =
      if arangeLen 0 (r + s.dt) s.dt = 0 then .error .indexError
      else .ok ((List.range (arangeLen 0 (r + s.dt) s.dt)).map (arangeAt 0 s.dt),
        (List.range (arangeLen 0 (r + s.dt) s.dt)).map (fun i => (xs i).1)) := fun r =>
    openLoopWith_total (goalT := r) (startT := 0) (runT := some r) hdt.ne' hnxt rfl hxs
  refine ⟨xs, ?_, ?_, ?_⟩
  · refine springDamper_direct hk.le hc h4 hdt hint hstep 0 rfl (fun i => ?_)
    have := hnxt i (xs i)
    rw [← hxs] at this
    simp only [arangeAt] at this
    push_cast at this
    exact this
  · intro r hr
    have hn : arangeLen 0 (r + s.dt) s.dt ≠ 0 := by
      unfold arangeLen
      rw [sub_zero, Ne, Nat.ceil_eq_zero, not_le]
      positivity
    rw [hol, if_neg hn]
    exact ⟨_, _, rfl⟩
  · intro r T Y h
    rw [hol] at h
    split_ifs at h with hz
    simp only [Except.ok.injEq, Prod.mk.injEq] at h
    obtain ⟨rfl, rfl⟩ := h
    intro i hT hY
    simp only [List.getElem_map, List.getElem_range, arangeAt, zero_add, and_self]

/-- The defaults of the constructor (`dt` 0.01, `k` 1, critical damping, `int_dt` 0.001) meet the conditions. -/
example : ∃ s : SpringDamper 3, s = SpringDamper.create 3 (1 / 100) 1 none (1 / 1000) ∧ 0 < s.k ∧ 0 < damping s.k s.c ∧
    4 * s.k ≤ damping s.k s.c ^ 2 ∧ 0 < s.dt ∧ 0 < s.intDt ∧ min s.intDt s.dt * damping s.k s.c ≤ 1 := by
  refine ⟨_, rfl, ?_⟩
  simp only [SpringDamper.create, damping, Option.getD_none, Real.sqrt_one]
  norm_num

/-! ## Dual-arm DMPs -/

/-- **C115 (`DualCartesianDMP.open_loop`).** Positions of both arms, without coupling term and tracking error gain. -/
theorem C115_dual_open_loop {s : DualCartesianDMP m} (hs : TimedDual s) (arm : Fin 2)
    (hβ : s.smooth = true → UniformRightGains s.betaY) (hdt : 0 < s.dt) (hgain : s.pGain = 0) (hrest : s.startYd = 0)
    (hw : ∀ w ∈ s.getWeights, w = 0)
    (hno : ∀ k, NoOvershoot .euler s.dt s.intDt s.executionTime (armLinear arm s.alphaY k) (armLinear arm s.betaY k))
    {ops : QuatOps} {qname : String} (hq : qname = "python" ∨ qname = "cython") :
    ∃ xs : ℕ → Vec 3 × Vec 3, DirectMovement (armPosition arm s.startY) (armPosition arm s.goalY) xs ∧
      ((∀ k l, armLinear arm s.alphaY k = armLinear arm s.alphaY l ∧ armLinear arm s.betaY k = armLinear arm s.betaY l) →
        StraightMovement (armPosition arm s.startY) (armPosition arm s.goalY) xs) ∧
      ∀ (runT : Option ℝ), (∀ r, runT = some r → 0 ≤ r) → ∃ T Y,
        ((DualCartesianDMP.openLoop ops runT none qname).exec s).1 = .ok (T, Y) ∧
        ∀ i (hY : i < Y.length), armPosition arm Y[i] = (xs i).1 := by
  obtain ⟨p, hp, ha, -⟩ := hs.exists_arm arm
  have hap : ∀ x, position (armPose arm x) = armPosition arm x := by
    intro x; rw [armPose_eq, position_eq, sliceTo_hstack, armPosition_eq]
  have hal : ∀ x, linear (armVelocity arm x) = armLinear arm x := by
    intro x; fin_cases arm <;> (funext k; fin_cases k <;> rfl)
  have hv0 : armVelocity arm s.startYd = 0 := by
    rw [hrest]
    fin_cases arm <;> (funext k; fin_cases k <;> rfl)
  have hw' : ∀ w ∈ p.getWeights.take (3 * m), w = 0 := by
    intro w hw1
    unfold CartesianDMP.getWeights at hw1
    rw [List.take_left' (by simp), List.mem_ofFn] at hw1
    obtain ⟨i, rfl⟩ := hw1
    rw [ha.positionWeights]
    have : ∀ j i, s.ft.weights j i = 0 := DualCartesianDMP.weights_zero hw
    simp only [this]
    generalize i.divNat = k
    fin_cases arm <;> fin_cases k <;> rfl
  have hqf : ∃ qf, QuatStepFunction.lookup ops qname = .ok qf := by
    rcases hq with rfl | rfl
    · exact ⟨_, rfl⟩
    · exact ⟨_, rfl⟩
  obtain ⟨qf, hqf⟩ := hqf
  obtain ⟨xs, h1, h2, -, h3⟩ := C115_cartesian_open_loop hp (ops := ops) (name := "euler") (sf := .euler) rfl hqf
    (by rw [ha.dt]; exact hdt) hw' (fun k => by
      rw [ha.dt, ha.intDt, ha.executionTime, ha.alphaY, ha.betaY, hal, hal]; exact hno k)
  rw [ha.startY, ha.goalY, hap, hap] at h1 h2
  rw [ha.alphaY, ha.betaY, hal, hal] at h2
  refine ⟨xs, h1, h2, ?_⟩
  intro runT hR
  obtain ⟨T, P, e1, e2⟩ := C112_open_loop hs hp ha (fun h _ => hβ h) (hno 0).positive hdt hgain hv0 ops hR
    (name := "euler") (.inl rfl) hq
  refine ⟨T, P, e1, ?_⟩
  intro i hY
  have := h3 runT T _ e2 i (by simpa using hY)
  rw [List.getElem_map, hap] at this
  exact this

/-- Dual-arm DMPs with the default parameters of the constructor meet the conditions. -/
example : ∃ s : DualCartesianDMP 10, TimedDual s ∧ (s.smooth = true → UniformRightGains s.betaY) ∧ 0 < s.dt ∧ s.pGain = 0 ∧
    s.startYd = 0 ∧ (∀ w ∈ s.getWeights, w = 0) ∧
    ∀ arm k, NoOvershoot .euler s.dt s.intDt s.executionTime (armLinear arm s.alphaY k) (armLinear arm s.betaY k) := by
  obtain ⟨s, h0, h1, h2, e1, e2, h3, h4, h6, h5, h7, -⟩ := DualCartesianDMP.create_ok 10 (by norm_num) (τ := 1) one_pos
    (1 / 100) (1 / 1000) 0 true 25 (25 / 4)
  refine ⟨s, .create h0, fun _ => by rw [h5]; exact ⟨rfl, rfl, rfl⟩, by rw [e1]; norm_num, h3, by rw [h1]; rfl, ?_, ?_⟩
  · intro w hw
    unfold DualCartesianDMP.getWeights at hw
    rw [List.mem_ofFn] at hw
    obtain ⟨i, rfl⟩ := hw
    simp only [h7]
  · intro arm k
    have hc : ∀ x : ℝ, armLinear arm (fun _ => x) k = x := by
      intro x; fin_cases arm <;> fin_cases k <;> rfl
    rw [e1, e2, h2, h6, h5, hc, hc]
    refine ⟨by norm_num, by norm_num, by norm_num, ?_⟩
    simp only [largestStep]
    norm_num

end Verif
