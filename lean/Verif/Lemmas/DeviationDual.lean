import Verif.Lemmas.Deviation
import Verif.Props.OrientationDual

/-! # Difference of two executions of a dual-arm DMP -/

namespace Verif
variable {m : ℕ}

/-- The difference of two states in one dimension of the position of an arm. -/
def dualDev (x y : Vec 14 × Vec 12) (arm : Fin 2) (k : Fin 3) : ℝ × ℝ :=
  (armPos arm x.1 k - armPos arm y.1 k, armLin arm x.2 k - armLin arm y.2 k)

theorem DualStepArgs.update_sd_input (a : DualStepArgs m) (hT : a.startT < a.goalT) (ops : QuatOps) (cdd : Vec 12) (h t : ℝ)
    (s : Vec 14 × Vec 12) (arm : Fin 2) (k : Fin 3) :
    (armPos arm (a.update ops 0 cdd h t s).1 k - armPos arm a.goalY k, armLin arm (a.update ops 0 cdd h t s).2 k) =
      sdStep (armLin arm a.alphaY k * armLin arm a.betaY k / (a.goalT - a.startT) ^ 2)
        (armLin arm a.alphaY k / (a.goalT - a.startT)) h (a.drive arm k t + armLin arm cdd k / (a.goalT - a.startT) ^ 2)
        (armPos arm s.1 k - armPos arm a.goalY k, armLin arm s.2 k) := by
  have hτ : a.goalT - a.startT ≠ 0 := by linarith
  simp only [DualStepArgs.update, armPos_joinState, armLin_joinVel, sdStep, DualStepArgs.drive, ForcingTerm.call,
    show armLin arm (0 : Vec 12) = 0 from rfl, Pi.zero_apply, add_zero, zero_div]
  ext
  · simp only; field_simp; ring
  · simp only; field_simp; ring

/-- The difference after one sub-step. -/
theorem DualStepArgs.update_dev (a : DualStepArgs m) (hT : a.startT < a.goalT) (ops : QuatOps) (e e' : Option (Vec 14))
    (cdd cdd' : Vec 12) (h t : ℝ) (s s' : Vec 14 × Vec 12) (arm : Fin 2) (k : Fin 3) :
    dualDev (({ a with trackingError := e' } : DualStepArgs m).update ops 0 cdd' h t s')
        (({ a with trackingError := e } : DualStepArgs m).update ops 0 cdd h t s) arm k =
      sdStep (armLin arm a.alphaY k * armLin arm a.betaY k / (a.goalT - a.startT) ^ 2)
        (armLin arm a.alphaY k / (a.goalT - a.startT)) h
        ((armLin arm cdd' k - armLin arm cdd k) / (a.goalT - a.startT) ^ 2) (dualDev s' s arm k) := by
  have h1 := a.update_sd_input hT ops cdd h t s arm k
  have h2 := a.update_sd_input hT ops cdd' h t s' arm k
  have e1 : ∀ x' x, dualDev x' x arm k = (armPos arm x'.1 k - armPos arm a.goalY k, armLin arm x'.2 k) -
      (armPos arm x.1 k - armPos arm a.goalY k, armLin arm x.2 k) := by
    intro x' x; unfold dualDev; ext <;> simp
  rw [e1, e1]
  refine (congrArg₂ (· - ·) h2 h1).trans ?_
  rw [sdStep_sub]
  congr 1
  ring

/-- Inputs of the sub-steps: the Python function adds up the corrections. -/
noncomputable def summed (w τ : ℝ) : List (ℝ × ℝ) → ℝ → List (ℝ × ℝ)
  | [], _ => []
  | p :: L, c => (p.1, (c + w / p.1) / τ ^ 2) :: summed w τ L (c + w / p.1)

theorem summed_fst (w τ : ℝ) : ∀ L c, (summed w τ L c).map Prod.fst = L.map Prod.fst
  | [], _ => rfl
  | p :: L, c => by simp [summed, summed_fst w τ L]

theorem summed_le {hmin : ℝ} (w τ : ℝ) (hmin0 : 0 < hmin) : ∀ (L : List (ℝ × ℝ)) (c : ℝ), (∀ p ∈ L, hmin ≤ p.1) →
    ∀ q ∈ summed w τ L c, |q.2| ≤ (|c| + L.length * (|w| / hmin)) / τ ^ 2
  | [], _, _, q, hq => by simp [summed] at hq
  | p :: L, c, hL, q, hq => by
    have hp : hmin ≤ p.1 := hL p (by simp)
    have hw : |w / p.1| ≤ |w| / hmin := by
      rw [abs_div, abs_of_pos (hmin0.trans_le hp)]
      exact div_le_div_of_nonneg_left (abs_nonneg w) hmin0 hp
    have hc : |c + w / p.1| ≤ |c| + |w| / hmin := (abs_add_le _ _).trans (by linarith)
    have hw0 : 0 ≤ |w| / hmin := by positivity
    rw [summed, List.mem_cons] at hq
    rcases hq with rfl | hq
    · simp only
      rw [abs_div, abs_of_nonneg (sq_nonneg τ)]
      refine div_le_div_of_nonneg_right ?_ (sq_nonneg τ)
      refine hc.trans ?_
      rw [List.length_cons]
      push_cast
      have : 0 ≤ (L.length : ℝ) * (|w| / hmin) := by positivity
      linarith
    · refine (summed_le w τ hmin0 L _ (fun p hp => hL p (by simp [hp])) q hq).trans ?_
      refine div_le_div_of_nonneg_right ?_ (sq_nonneg τ)
      rw [List.length_cons]
      push_cast
      linarith

/-- The difference of two steps is that of a damped spring with bounded input. -/
theorem dual_run_dev (a : DualStepArgs m) (hc : a.coupling = none) (hT : a.startT < a.goalT) (hint : 0 < a.intDt)
    (sf : DualStepFunction) (e e' : Vec 14) {lastT t hmin : ℝ} (ht : a.startT < t) (hmin0 : 0 < hmin)
    (hle : ∀ p ∈ subSteps a.intDt t lastT, hmin ≤ p.1) {x x' y y' : Vec 14 × Vec 12}
    (hy : sf.run { a with trackingError := some e } lastT t x = .ok y)
    (hy' : sf.run { a with trackingError := some e' } lastT t x' = .ok y') (arm : Fin 2) (k : Fin 3) :
    ∃ L : List (ℝ × ℝ), L.map Prod.fst = (subSteps a.intDt t lastT).map Prod.fst ∧
      (∀ p ∈ L, |p.2| ≤ (subSteps a.intDt t lastT).length *
        (|a.pGain * (armPos arm e' k - armPos arm e k)| / hmin) / (a.goalT - a.startT) ^ 2) ∧
      dualDev y' y arm k = L.foldl (fun s p => sdStep
        (armLin arm a.alphaY k * armLin arm a.betaY k / (a.goalT - a.startT) ^ 2)
        (armLin arm a.alphaY k / (a.goalT - a.startT)) p.1 p.2 s) (dualDev x' x arm k) := by
  set w := a.pGain * (armPos arm e' k - armPos arm e k) with hw
  set τ := a.goalT - a.startT with hτ
  have hcorr : ∀ (ops : QuatOps) (e : Vec 14) (h : ℝ),
      armLin arm (({ a with trackingError := some e } : DualStepArgs m).correction ops h) k = a.pGain * armPos arm e k / h := by
    intro ops e h
    simp only [DualStepArgs.correction, armLin_joinVel]
  have hadd : ∀ u v : Vec 12, armLin arm (u + v) k = armLin arm u k + armLin arm v k := fun _ _ => rfl
  cases sf with
  | python ops =>
    simp only [DualStepFunction.run, DualStepArgs.stepPy] at hy hy'
    rw [if_neg (not_le.2 ht)] at hy hy'
    rw [intLoop_eq _ hint] at hy hy'
    simp only [Except.map, Except.ok.injEq] at hy hy'
    refine ⟨summed w τ (subSteps a.intDt t lastT) 0, summed_fst _ _ _ _, ?_, ?_⟩
    · have := summed_le w τ hmin0 (subSteps a.intDt t lastT) 0 hle
      simpa using this
    have key : ∀ (L : List (ℝ × ℝ)) (s s' : Vec 14 × Vec 12) (c c' : Vec 12),
        dualDev (L.foldl (fun s p => ({ a with trackingError := some e' } : DualStepArgs m).bodyPy ops p.1 p.2 s) (s', (0, c'))).1
          (L.foldl (fun s p => ({ a with trackingError := some e } : DualStepArgs m).bodyPy ops p.1 p.2 s) (s, (0, c))).1 arm k =
        (summed w τ L (armLin arm c' k - armLin arm c k)).foldl (fun s p => sdStep
          (armLin arm a.alphaY k * armLin arm a.betaY k / τ ^ 2) (armLin arm a.alphaY k / τ) p.1 p.2 s) (dualDev s' s arm k) := by
      intro L
      induction L with
      | nil => intro s s' c c'; rfl
      | cons p L ih =>
        intro s s' c c'
        have hb : ∀ (e : Vec 14) (s : Vec 14 × Vec 12) (c : Vec 12),
            ({ a with trackingError := some e } : DualStepArgs m).bodyPy ops p.1 p.2 (s, (0, c)) =
              (({ a with trackingError := some e } : DualStepArgs m).update ops 0
                (c + ({ a with trackingError := some e } : DualStepArgs m).correction ops p.1) p.1 p.2 s,
                (0, c + ({ a with trackingError := some e } : DualStepArgs m).correction ops p.1)) := by
          intro e s c
          unfold DualStepArgs.bodyPy
          simp only [hc]
        rw [List.foldl_cons, List.foldl_cons, hb, hb, ih, a.update_dev hT]
        have hcc : armLin arm (c' + ({ a with trackingError := some e' } : DualStepArgs m).correction ops p.1) k -
            armLin arm (c + ({ a with trackingError := some e } : DualStepArgs m).correction ops p.1) k =
            armLin arm c' k - armLin arm c k + w / p.1 := by
          rw [hadd, hadd, hcorr, hcorr, hw]; ring
        rw [hcc]
        rfl
    rw [← hy, ← hy']
    refine (key _ x x' 0 0).trans ?_
    rw [sub_self]
  | cython =>
    simp only [DualStepFunction.run, DualStepArgs.stepCy] at hy hy'
    rw [if_neg (not_le.2 ht)] at hy hy'
    rw [intLoop_eq _ hint] at hy hy'
    simp only [Except.ok.injEq] at hy hy'
    refine ⟨(subSteps a.intDt t lastT).map fun p => (p.1, w / p.1 / τ ^ 2), by simp [Function.comp_def], ?_, ?_⟩
    · intro q hq
      obtain ⟨p, hp, rfl⟩ := List.mem_map.1 hq
      have hp1 := hle p hp
      have hw0 : 0 ≤ |w| / hmin := by positivity
      have h1 : |w / p.1| ≤ |w| / hmin := by
        rw [abs_div, abs_of_pos (hmin0.trans_le hp1)]
        exact div_le_div_of_nonneg_left (abs_nonneg w) hmin0 hp1
      have hn : (1 : ℝ) ≤ (subSteps a.intDt t lastT).length := by
        exact_mod_cast List.length_pos_of_mem hp
      show |w / p.1 / τ ^ 2| ≤ _
      rw [abs_div, abs_of_nonneg (sq_nonneg τ)]
      refine div_le_div_of_nonneg_right (h1.trans ?_) (sq_nonneg τ)
      nlinarith
    rw [← hy, ← hy', List.foldl_map]
    clear hy hy' hle
    generalize subSteps a.intDt t lastT = L
    induction L generalizing x x' with
    | nil => rfl
    | cons p L ih =>
      have hb : ∀ (e : Vec 14) (s : Vec 14 × Vec 12), ({ a with trackingError := some e } : DualStepArgs m).bodyCy p.1 p.2 s =
          ({ a with trackingError := some e } : DualStepArgs m).update QuatOps.cython 0
            (({ a with trackingError := some e } : DualStepArgs m).correction QuatOps.cython p.1) p.1 p.2 s := by
        intro e s
        unfold DualStepArgs.bodyCy
        simp only [hc, zero_add]
      rw [List.foldl_cons, List.foldl_cons, List.foldl_cons, ih, hb, hb]
      congr 1
      rw [a.update_dev hT, hcorr, hcorr, hw]
      congr 1
      ring

/-- One step contracts a form of the difference of two states, up to the difference of the tracking errors. -/
theorem dual_contraction {dt intDt τ α β : ℝ} (pGain : ℝ) (hτ : 0 < τ) (hdt : 0 < dt) (hα : 0 < α) (hβ : 0 < β)
    (hst : Spec.Stable .euler dt intDt τ α β) :
    ∃ A B C ρ K : ℝ, 0 < A ∧ B ^ 2 < 4 * A * C ∧ 0 ≤ ρ ∧ ρ < 1 ∧ 0 ≤ K ∧
      ∀ (a : DualStepArgs m) (sf : DualStepFunction) (arm : Fin 2) (k : Fin 3) (e e' : Vec 14), a.coupling = none →
        a.startT < a.goalT → a.goalT - a.startT = τ → armLin arm a.alphaY k = α → armLin arm a.betaY k = β →
        a.intDt = intDt → a.pGain = pGain → ∀ t, a.startT ≤ t →
        ∀ x x' y y', sf.run { a with trackingError := some e } t (t + dt) x = .ok y →
          sf.run { a with trackingError := some e' } t (t + dt) x' = .ok y' →
          qf A B C (dualDev y' y arm k) ≤ ρ * qf A B C (dualDev x' x arm k) + K * (armPos arm e' k - armPos arm e k) ^ 2 := by
  have hk : 0 < α * β / τ ^ 2 := by positivity
  have hc : 0 < α / τ := by positivity
  obtain ⟨hint, hsub⟩ := hst.sub hτ hα (.inl rfl)
  obtain ⟨n, hmin, hn, hmin0, hsteps⟩ := subSteps_bounds hint hdt
  obtain ⟨A, B, C, ρ, K, hA, hd, hρ0, hρ, hK, h⟩ := euler_contraction_inputs hk hc hint hdt hsub
  refine ⟨A, B, C, ρ, K * (n * (|pGain| / hmin) / τ ^ 2) ^ 2, hA, hd, hρ0, hρ, by positivity, ?_⟩
  intro a sf arm k e e' hc' hT' e1 e2 e3 e4 e5 t ht x x' y y' hy hy'
  subst e1 e2 e3 e4 e5
  obtain ⟨L, hL, hW, hdev⟩ := dual_run_dev a hc' hT' hint sf e e' (show a.startT < t + dt by linarith) hmin0
    (fun p hp => ((hsteps t).2 p hp).1) hy hy' arm k
  rw [hdev]
  refine (h t _ L hL hW _).trans (le_of_eq ?_)
  rw [(hsteps t).1, abs_mul]
  have e6 : (armPos arm e' k - armPos arm e k) ^ 2 = |armPos arm e' k - armPos arm e k| ^ 2 := (sq_abs _).symm
  rw [e6]
  ring

end Verif
