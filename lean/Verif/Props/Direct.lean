import Verif.Lemmas.Direct
import Verif.Spec.Direct
import Verif.Props.Integration
import Verif.Props.PhaseObjects
import Verif.Props.DmpClass
import Verif.Props.CartesianImitate

/-!
# C115: Movements without forcing term are direct

A DMP whose weights are zero moves from the start to the goal like a critically damped spring: it neither overshoots nor
turns around.
-/

namespace Verif
open Filter Topology Spec
variable {d m : ℕ}

/-- Target of the spring in units of the way from the goal to the start. -/
noncomputable def StepArgs.target (a : StepArgs d m) (t : ℝ) : ℝ := if a.smooth then a.ft.phaseAt t else 0

/-- One step of the remaining fraction of the way. -/
noncomputable def fractionStep (sf : StepFunction) (k c intDt : ℝ) (Z : ℝ → ℝ) (lastT t : ℝ) (x : ℝ × ℝ) : ℝ × ℝ :=
  match sf with
  | .euler | .eulerCython => (subSteps intDt t lastT).foldl (fun s p => sdStep k c p.1 (k * Z p.2) s) x
  | .rk4 | .rk4Cython =>
    rkStep k c (t - lastT) (k * Z t) (k * Z (t + (t - lastT) / 2)) (k * Z (t + (t - lastT))) x

theorem drive_target (a : StepArgs d m) (hw : ∀ k i, a.ft.weights k i = 0) (k : Fin d) {r : ℝ}
    (hr : a.smooth = true → a.startY k - a.goalY k = r) (t : ℝ) :
    a.drive k t = r * (a.alphaY k * a.betaY k / (a.goalT - a.startT) ^ 2 * a.target t) := by
  have hf : a.ft.call t k = 0 := by
    simp [ForcingTerm.call, ForcingTerm.force, hw]
  unfold StepArgs.drive StepArgs.target
  rw [hf]
  cases h : a.smooth with
  | false => simp
  | true =>
    rw [← hr h]
    simp only [if_true]
    ring

theorem foldl_smul (k c r : ℝ) (u Z : ℝ → ℝ) (hu : ∀ t, u t = r * (k * Z t)) (L : List (ℝ × ℝ)) :
    ∀ x : ℝ × ℝ, L.foldl (fun s p => sdStep k c p.1 (u p.2) s) (r • x) =
      r • L.foldl (fun s p => sdStep k c p.1 (k * Z p.2) s) x := by
  induction L with
  | nil => intro x; rfl
  | cons p L ih => intro x; rw [List.foldl_cons, List.foldl_cons, hu, sdStep_smul, ih]

theorem run_fraction (a : StepArgs d m) (hc : a.coupling = none) (hp : a.precomputed = none) (he : a.trackingError = 0)
    (hT : a.startT < a.goalT) (hint : 0 < a.intDt) (hw : ∀ k i, a.ft.weights k i = 0) {sf : StepFunction} {lastT t : ℝ}
    (hlt : lastT ≤ t) (ht : a.startT < t) {s s' : Vec d × Vec d} (h : sf.run a lastT t s = .ok s') (k : Fin d) {r : ℝ}
    (hr : a.smooth = true → a.startY k - a.goalY k = r) {x : ℝ × ℝ} (hs : (s.1 k - a.goalY k, s.2 k) = r • x) :
    (s'.1 k - a.goalY k, s'.2 k) =
      r • fractionStep sf (a.alphaY k * a.betaY k / (a.goalT - a.startT) ^ 2) (a.alphaY k / (a.goalT - a.startT)) a.intDt
        a.target lastT t x := by
  have euler : ∀ sf : StepFunction, sf = .euler ∨ sf = .eulerCython → sf.run a lastT t s = .ok s' →
      (s'.1 k - a.goalY k, s'.2 k) = r • (subSteps a.intDt t lastT).foldl
        (fun s p => sdStep (a.alphaY k * a.betaY k / (a.goalT - a.startT) ^ 2) (a.alphaY k / (a.goalT - a.startT)) p.1
          (a.alphaY k * a.betaY k / (a.goalT - a.startT) ^ 2 * a.target p.2) s) x := by
    intro sf hsf h
    rw [run_euler_eq a hc hp hsf hint hT hlt ht] at h
    injection h with h
    rw [← h, StepArgs.foldl_sd a hc hp he hT, hs]
    exact foldl_smul _ _ _ _ _ (drive_target a hw k hr) _ _
  have rk : a.stepRk4 lastT t s = .ok s' → (s'.1 k - a.goalY k, s'.2 k) = r •
      rkStep (a.alphaY k * a.betaY k / (a.goalT - a.startT) ^ 2) (a.alphaY k / (a.goalT - a.startT)) (t - lastT)
        (a.alphaY k * a.betaY k / (a.goalT - a.startT) ^ 2 * a.target t)
        (a.alphaY k * a.betaY k / (a.goalT - a.startT) ^ 2 * a.target (t + (t - lastT) / 2))
        (a.alphaY k * a.betaY k / (a.goalT - a.startT) ^ 2 * a.target (t + (t - lastT))) x := by
    intro h
    rw [StepArgs.stepRk4_sd a hc hp he hT h, hs, drive_target a hw k hr, drive_target a hw k hr, drive_target a hw k hr,
      rkStep_smul]
  cases sf with
  | euler => exact euler _ (.inl rfl) h
  | eulerCython => exact euler _ (.inr rfl) h
  | rk4 => exact rk h
  | rk4Cython =>
    refine rk ?_
    have h' : a.stepRk4Cy lastT t s = .ok s' := h
    rwa [C10_rk4_cython_eq_python] at h'

/-- The remaining fractions of the way. -/
noncomputable def fraction (sf : StepFunction) (k c intDt dt t0 : ℝ) (Z : ℝ → ℝ) : ℕ → ℝ × ℝ
  | 0 => (1, 0)
  | i + 1 => fractionStep sf k c intDt Z (t0 + i * dt) (t0 + (i + 1) * dt) (fraction sf k c intDt dt t0 Z i)

theorem fraction_direct {sf : StepFunction} {k c intDt dt t0 : ℝ} {Z : ℝ → ℝ} (hZ : Antitone Z) (hZ1 : ∀ t, t0 ≤ t → Z t ≤ 1)
    (hZ0 : ∀ t, 0 ≤ Z t) (hk : 0 ≤ k) (hc : 0 < c) (h4 : 4 * k ≤ c ^ 2) (hint : 0 < intDt) (hdt : 0 < dt)
    (hstep : largestStep dt intDt sf * c ≤ 1) :
    Antitone (fun i => (fraction sf k c intDt dt t0 Z i).1) ∧ (∀ i, 0 ≤ (fraction sf k c intDt dt t0 Z i).1) ∧
      ∀ i, (fraction sf k c intDt dt t0 Z i).2 ≤ 0 := by
  set x := fraction sf k c intDt dt t0 Z with hx
  -- Runge-Kutta methods read the phase one step ahead
  have key : ∃ δ : ℝ, 0 ≤ δ ∧ ∀ i : ℕ, Cone (c / 2) (Z (t0 + i * dt + δ)) (x i) →
      Cone (c / 2) (Z (t0 + (i + 1) * dt + δ)) (x (i + 1)) ∧ (x (i + 1)).1 ≤ (x i).1 := by
    have euler : largestStep dt intDt sf = min intDt dt →
        (∀ i, x (i + 1) = (subSteps intDt (t0 + (i + 1) * dt) (t0 + i * dt)).foldl
          (fun s p => sdStep k c p.1 (k * Z p.2) s) (x i)) →
        ∀ i : ℕ, Cone (c / 2) (Z (t0 + i * dt + 0)) (x i) →
          Cone (c / 2) (Z (t0 + (i + 1) * dt + 0)) (x (i + 1)) ∧ (x (i + 1)).1 ≤ (x i).1 := by
      intro hl hrec i hi
      rw [hrec, add_zero]
      rw [add_zero] at hi
      refine subSteps_cone hZ hk hc h4 hint _ (by nlinarith) ?_ hi
      rw [hl] at hstep
      rwa [show t0 + ((i : ℝ) + 1) * dt - (t0 + i * dt) = dt by ring]
    have rk : largestStep dt intDt sf = dt →
        (∀ i : ℕ, x (i + 1) = rkStep k c (t0 + (i + 1) * dt - (t0 + i * dt)) (k * Z (t0 + (i + 1) * dt))
          (k * Z (t0 + (i + 1) * dt + (t0 + (i + 1) * dt - (t0 + i * dt)) / 2))
          (k * Z (t0 + (i + 1) * dt + (t0 + (i + 1) * dt - (t0 + i * dt)))) (x i)) →
        ∀ i : ℕ, Cone (c / 2) (Z (t0 + i * dt + dt)) (x i) →
          Cone (c / 2) (Z (t0 + (i + 1) * dt + dt)) (x (i + 1)) ∧ (x (i + 1)).1 ≤ (x i).1 := by
      intro hl hrec i hi
      rw [hl] at hstep
      have e : t0 + ((i : ℝ) + 1) * dt - (t0 + i * dt) = dt := by ring
      have e2 : t0 + (i : ℝ) * dt + dt = t0 + (i + 1) * dt := by ring
      rw [hrec, e]
      rw [e2] at hi
      exact rkStep_cone hk hc h4 hdt.le hstep (hZ (by linarith)) (hZ (by linarith)) hi
    cases sf with
    | euler => exact ⟨0, le_refl _, euler rfl fun i => rfl⟩
    | eulerCython => exact ⟨0, le_refl _, euler rfl fun i => rfl⟩
    | rk4 => exact ⟨dt, hdt.le, rk rfl fun i => rfl⟩
    | rk4Cython => exact ⟨dt, hdt.le, rk rfl fun i => rfl⟩
  obtain ⟨δ, hδ, key⟩ := key
  have hcone : ∀ i : ℕ, Cone (c / 2) (Z (t0 + i * dt + δ)) (x i) := by
    intro i
    induction i with
    | zero =>
      have h1 := hZ1 (t0 + ((0 : ℕ) : ℝ) * dt + δ) (by simpa using hδ)
      refine ⟨h1, le_refl (0 : ℝ), ?_⟩
      show 0 ≤ 0 + c / 2 * (1 - _)
      rw [zero_add]
      exact mul_nonneg (by positivity) (by linarith)
    | succ i ih =>
      push_cast
      exact (key i ih).1
  exact ⟨antitone_nat_of_succ_le fun i => (key i (hcone i)).2, fun i => (hZ0 _).trans (hcone i).above,
    fun i => (hcone i).down⟩

/-- Sequences of states from rest. -/
theorem run_direct (a : StepArgs d m) (hc : a.coupling = none) (hp : a.precomputed = none) (he : a.trackingError = 0)
    (hT : a.startT < a.goalT) (hw : ∀ k i, a.ft.weights k i = 0) {sf : StepFunction} {dt t0 : ℝ} (hdt : 0 < dt)
    (ht0 : a.startT ≤ t0) (hph : Antitone a.ft.phaseAt) (hph0 : ∀ t, 0 ≤ a.ft.phaseAt t)
    (hph1 : ∀ t, t0 ≤ t → a.ft.phaseAt t ≤ 1)
    (hgain : ∀ k, NoOvershoot sf dt a.intDt (a.goalT - a.startT) (a.alphaY k) (a.betaY k)) {xs : ℕ → Vec d × Vec d}
    {y0 : Vec d} (hx0 : xs 0 = (y0, 0)) (hsm : a.smooth = true → y0 = a.startY)
    (hx : ∀ i : ℕ, sf.run a (t0 + i * dt) (t0 + (i + 1) * dt) (xs i) = .ok (xs (i + 1))) :
    DirectMovement y0 a.goalY xs ∧
      ((∀ k l, a.alphaY k = a.alphaY l ∧ a.betaY k = a.betaY l) → StraightMovement y0 a.goalY xs) := by
  have hτ : 0 < a.goalT - a.startT := by linarith
  let X : Fin d → ℕ → ℝ × ℝ := fun k =>
    fraction sf (a.alphaY k * a.betaY k / (a.goalT - a.startT) ^ 2) (a.alphaY k / (a.goalT - a.startT)) a.intDt dt t0 a.target
  have hZ : Antitone a.target := by
    intro s t hst
    unfold StepArgs.target
    split
    · exact hph hst
    · exact le_refl _
  have hZ0 : ∀ t, 0 ≤ a.target t := by
    intro t
    unfold StepArgs.target
    split
    · exact hph0 t
    · exact le_refl _
  have hZ1 : ∀ t, t0 ≤ t → a.target t ≤ 1 := by
    intro t ht
    unfold StepArgs.target
    split
    · exact hph1 t ht
    · exact zero_le_one
  have hX : ∀ k i, ((xs i).1 k - a.goalY k, (xs i).2 k) = (y0 k - a.goalY k) • X k i := by
    intro k i
    induction i with
    | zero =>
      rw [hx0]
      show _ = (y0 k - a.goalY k) • ((1 : ℝ), (0 : ℝ))
      simp
    | succ i ih =>
      exact run_fraction a hc hp he hT (hgain k).positive hw (by nlinarith) (by
        have : 0 < ((i : ℝ) + 1) * dt := by positivity
        linarith) (hx i) k (fun h => by rw [hsm h]) ih
  have hpos : ∀ k, Antitone (fun i => (X k i).1) ∧ (∀ i, 0 ≤ (X k i).1) ∧ ∀ i, (X k i).2 ≤ 0 := by
    intro k
    obtain ⟨g1, g2, g3, g4⟩ := hgain k
    have hα : 0 < a.alphaY k := by linarith
    refine fraction_direct hZ hZ1 hZ0 (by positivity) (by positivity) ?_ g3 hdt ?_
    · rw [div_pow, ← mul_div_assoc]
      refine div_le_div_of_nonneg_right ?_ (by positivity)
      nlinarith
    · rw [← mul_div_assoc, div_le_one hτ]
      exact g4
  constructor
  · intro k
    obtain ⟨h1, h2, h3⟩ := hpos k
    refine ⟨fun i => (X k i).1, fun i => -(X k i).2, rfl, h1, h2, fun i => by simpa using h3 i, fun i => ?_⟩
    have e1 := congrArg Prod.fst (hX k i)
    have e2 := congrArg Prod.snd (hX k i)
    simp only [Prod.smul_fst, Prod.smul_snd, smul_eq_mul] at e1 e2
    constructor <;> linarith
  · intro hu
    by_cases hd : Nonempty (Fin d)
    · obtain ⟨l⟩ := hd
      have hXl : ∀ k, X k = X l := by
        intro k
        simp only [X, (hu k l).1, (hu k l).2]
      obtain ⟨h1, h2, h3⟩ := hpos l
      refine ⟨fun i => (X l i).1, fun i => -(X l i).2, rfl, h1, h2, fun i => by simpa using h3 i, fun i => ?_⟩
      constructor
      · funext k
        have e1 := congrArg Prod.fst (hX k i)
        rw [hXl k] at e1
        simp only [Prod.smul_fst, smul_eq_mul] at e1
        simp only [Pi.add_apply, Pi.smul_apply, Pi.sub_apply, smul_eq_mul]
        linarith
      · funext k
        have e1 := congrArg Prod.snd (hX k i)
        rw [hXl k] at e1
        simp only [Prod.smul_snd, smul_eq_mul] at e1
        simp only [Pi.smul_apply, Pi.sub_apply, smul_eq_mul]
        linarith
    · have : IsEmpty (Fin d) := not_nonempty_iff.1 hd
      exact ⟨fun _ => 1, fun _ => 0, rfl, antitone_const, fun _ => zero_le_one, fun _ => le_refl _,
        fun i => ⟨Subsingleton.elim _ _, Subsingleton.elim _ _⟩⟩

theorem DMP.weights_zero {s : DMP d m} (hw : ∀ w ∈ s.getWeights, w = 0) (k : Fin d) (i : Fin m) :
    s.ft.weights k i = 0 := by
  apply hw
  unfold DMP.getWeights
  rw [List.mem_ofFn]
  refine ⟨finProdFinEquiv (k, i), ?_⟩
  have h := finProdFinEquiv.symm_apply_apply (k, i)
  have h1 : (finProdFinEquiv (k, i)).divNat = k := congrArg Prod.fst h
  have h2 : (finProdFinEquiv (k, i)).modNat = i := congrArg Prod.snd h
  rw [h1, h2]

theorem phaseAt_nonneg (ft : ForcingTerm d m) (t : ℝ) : 0 ≤ ft.phaseAt t := (Real.exp_pos _).le

/-- **C115 (`DMP.open_loop`).** Let all weights be zero, all gains at least critically damped, and the steps of the
integrator not longer than the execution time divided by the gain `α`. Then `open_loop` returns with every step function
and for every duration, and all its results show the same movement, which is direct. It is straight if the gains of all
dimensions are equal. -/
theorem C115_open_loop {s : DMP d m} (hs : s.Reachable) {name : String} {sf : StepFunction}
    (hname : StepFunction.lookup name = .ok sf) (hdt : 0 < s.dt) (hw : ∀ w ∈ s.getWeights, w = 0) (hint : 0 < s.intDt)
    (hgain : ∀ k, NoOvershoot sf s.dt s.intDt s.executionTime (s.alphaY k) (s.betaY k)) :
    ∃ xs : ℕ → Vec d × Vec d, DirectMovement s.startY s.goalY xs ∧
      ((∀ k l, s.alphaY k = s.alphaY l ∧ s.betaY k = s.betaY l) → StraightMovement s.startY s.goalY xs) ∧
      (∀ r : ℝ, 0 ≤ r → ∃ T Y, ((DMP.openLoop (some r) none name).exec s).1 = .ok (T, Y)) ∧
      ∀ (runT : Option ℝ) T Y, ((DMP.openLoop runT none name).exec s).1 = .ok (T, Y) →
        ∀ i (hT : i < T.length) (hY : i < Y.length), T[i] = i * s.dt ∧ Y[i] = (xs i).1 := by
  have hτ := hs.valid.pos.2
  have hph := C01_dmp hs
  obtain ⟨xs, hx0, hx, hret, hrows⟩ := openLoop_states (s := s) (coupling := none) hname hdt (fun i x =>
    run_ok (s.openLoopArgs none) rfl rfl (show (0 : ℝ) < s.executionTime from hτ) hint sf (by nlinarith) (by
      show (0 : ℝ) < 0 + (i + 1) * s.dt
      rw [zero_add]; positivity) x)
  obtain ⟨h1, h2⟩ := run_direct (s.openLoopArgs none) rfl rfl rfl (show (0 : ℝ) < s.executionTime from hτ)
    (DMP.weights_zero hw) hdt (le_refl (0 : ℝ)) hph.decreasing.antitone (phaseAt_nonneg _) (fun t ht => (hph.range t ht).2)
    (fun k => by
      show NoOvershoot sf s.dt s.intDt (s.executionTime - 0) _ _
      rw [sub_zero]; exact hgain k) hx0 (fun _ => rfl) hx
  exact ⟨xs, h1, h2, hret, hrows⟩

/-- **C115 (`DMP.step`).** The same is true of an infinite sequence of calls of `step` that begins at rest, at any position
without smooth scaling and at the configured start position with it. With `p_gain` different from 0 the passed states must
be the returned ones. -/
theorem C115_step {s : DMP d m} (hs : s.Reachable) {sf : StepFunction} (hdt : 0 < s.dt) (ht : 0 ≤ s.t)
    (hw : ∀ w ∈ s.getWeights, w = 0)
    (hgain : ∀ k, NoOvershoot sf s.dt s.intDt s.executionTime (s.alphaY k) (s.betaY k))
    {obj : ℕ → DMP d m} {fb out : ℕ → Vec d × Vec d} (h0 : obj 0 = s) (hrun : Spec.Run (DMP.step none sf) obj fb out)
    (hfb : s.pGain = 0 ∨
      (fb 0).1 = (if s.initialized then s.currentY else s.startY) ∧ ∀ i, (fb (i + 1)).1 = (out i).1) {y0 : Vec d}
    (hy0 : (if s.initialized then s.currentY else s.startY) = y0)
    (hv0 : (if s.initialized then s.currentYd else s.startYd) = 0) (hsm : s.smooth = true → y0 = s.startY) :
    DirectMovement y0 s.goalY (fun i => if i = 0 then (y0, 0) else out (i - 1)) ∧
      ((∀ k l, s.alphaY k = s.alphaY l ∧ s.betaY k = s.betaY l) →
        StraightMovement y0 s.goalY (fun i => if i = 0 then (y0, 0) else out (i - 1))) := by
  have hx := step_states h0 hrun hfb
  have hτ := hs.valid.pos.2
  have hph := C01_dmp hs
  have e : (fun i => if i = 0 then (y0, 0) else out (i - 1)) =
      fun i => ((obj i).beginStep.currentY, (obj i).beginStep.currentYd) := by
    funext i
    cases i with
    | zero =>
      rw [if_pos rfl, h0, ← hy0, ← hv0]
      rfl
    | succ i =>
      rw [if_neg (by omega), Nat.add_sub_cancel]
      exact ((run_result hrun i).2).symm
  rw [e]
  exact run_direct (s.stepArgs none 0) rfl rfl rfl (show (0 : ℝ) < s.executionTime from hτ)
    (DMP.weights_zero hw) hdt (show (0 : ℝ) ≤ s.t from ht) hph.decreasing.antitone (phaseAt_nonneg _)
    (fun t h => (hph.range t (ht.trans h)).2)
    (fun k => by
      show NoOvershoot sf s.dt s.intDt (s.executionTime - 0) _ _
      rw [sub_zero]; exact hgain k)
    (xs := fun i => ((obj i).beginStep.currentY, (obj i).beginStep.currentYd)) ((congrFun e 0).symm.trans (if_pos rfl)) hsm hx

/-- DMPs with the default parameters of the constructor, an execution time of one second, smooth scaling or not and any
start and goal meet the conditions of C115 with every step function. -/
example (sf : StepFunction) (smooth : Bool) (y g : Vec 3) : ∃ s : DMP 3 10, s.Reachable ∧ 0 < s.dt ∧ 0 ≤ s.t ∧ 0 < s.intDt ∧
    (∀ w ∈ s.getWeights, w = 0) ∧ s.smooth = smooth ∧
    (∀ k, NoOvershoot sf s.dt s.intDt s.executionTime (s.alphaY k) (s.betaY k)) ∧
    (∀ k l, s.alphaY k = s.alphaY l ∧ s.betaY k = s.betaY l) ∧ s.startY = y ∧ s.goalY = g ∧
    ∃ obj fb out, obj 0 = s ∧ Spec.Run (DMP.step none sf) obj fb out ∧ s.pGain = 0 ∧
      (if s.initialized then s.currentY else s.startY) = s.startY ∧
      (if s.initialized then s.currentYd else s.startYd) = 0 := by
  obtain ⟨s, hs, h1, h2, h3, h4, h5, h6, h7, h8, h9, h10, h11, h12, h13⟩ :=
    DMP.create_ok 3 10 (by norm_num) one_pos (1 / 100) (1 / 1000) 0 smooth 25 (25 / 4)
  have hc : (DMP.configure { startY := some (List.ofFn y), goalY := some (List.ofFn g) }).exec s =
      (.ok (), { s with startY := y, goalY := g }) := by
    rw [DMP.exec_configure, C25_configure_sets _ _ (by simp [AllOk, FieldOk])]
    simp only [newValue_ofFn]
    rfl
  have hr : DMP.Reachable { s with startY := y, goalY := g } := .op (.configure _) (.create hs) hc (by intro τ h; cases h)
  have hdt : 0 < s.dt := by rw [h2]; norm_num
  have hst : Spec.Stable sf s.dt s.intDt s.executionTime (s.alphaY 0) (s.betaY 0) := by
    rw [h1, h2, h3, h11, h12]
    cases sf with
    | euler => exact .euler (.inl rfl) (by norm_num) (by norm_num)
    | eulerCython => exact .euler (.inr rfl) (by norm_num) (by norm_num)
    | rk4 => exact .rk4 (.inl rfl) (by norm_num) (by norm_num)
    | rk4Cython => exact .rk4 (.inr rfl) (by norm_num) (by norm_num)
  obtain ⟨obj, fb, out, e1, e2, -⟩ := runs_exist hr (sf := sf) hdt (by rw [h7]) 0 hst
  refine ⟨{ s with startY := y, goalY := g }, hr, hdt, by rw [h7], by rw [h3]; norm_num, ?_, h5, ?_, ?_, rfl, rfl, obj, fb, out,
    e1, e2, h4, by simp [h6], by simp [h6, h9]⟩
  · intro w hw
    unfold DMP.getWeights at hw
    rw [List.mem_ofFn] at hw
    obtain ⟨i, rfl⟩ := hw
    simp only [h13]
  · intro k
    simp only [h1, h2, h3, h11, h12]
    refine ⟨by norm_num, by norm_num, by norm_num, ?_⟩
    cases sf <;> simp only [largestStep] <;> norm_num
  · intro k l
    simp only [h11, h12, and_self]

end Verif
