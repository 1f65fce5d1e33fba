import Verif.Props.CartesianSteps

/-! # C109: executions of Cartesian DMPs with `step` -/

namespace Verif
open Spec Set

variable {m : ℕ}

/-- **C109 (positions of a `CartesianDMP`, `step`).** Let `y` be a twice continuously differentiable movement of a position with any
initial velocity that, unless `allow_final_velocity`, ends at rest. A Cartesian DMP at time 0 with enough weights that imitates
sufficiently many equidistant samples of it, with any orientations, reproduces it step by step: positions and velocities returned
by calls of `step`, from the first position and velocity of the movement and each with the result of the previous one, are those
of the movement up to an error of less than `ε`. -/
theorem C109_cartesian_position_step {τ : ℝ} (hτ : 0 < τ) {y v a : ℝ → Vec 3} (h : TwiceDifferentiable τ y v a) {afv : Bool}
    (hend : afv = true ∨ v τ = 0) (α β : Vec 3) (smooth : Bool) {reg : ℝ} (hreg : 0 ≤ reg) {ε : ℝ} (hε : 0 < ε) :
    ∃ N, ∀ m : ℕ, N ≤ m → ∃ n0, ∀ n : ℕ, n0 ≤ n → ∀ s : CartesianDMP m, TimedCartesian s → s.executionTime = τ →
      linear s.alphaY = α → linear s.betaY = β → s.smooth = smooth → s.t = 0 →
      ∀ (ops : QuatOps) (qgrad : (Fin (n + 2) → Vec 4) → Fin (n + 2) → Vec 3) (Y : Fin (n + 2) → Vec (3 + 4)),
      (∀ i, position (Y i) = y (linspaceTimes τ n i)) →
      ∃ s', (CartesianDMP.imitate ops qgrad (linspaceTimes τ n) Y reg afv).exec s = (.ok (), s') ∧
      ∃ h > 0, ∀ (sf : StepFunction) (qf : QuatStepFunction) (dt intDt : ℝ), 0 < dt → 0 < intDt → largestStep dt intDt sf ≤ h →
        ∀ (obj : ℕ → CartesianDMP m) (fb out : ℕ → Vec (3 + 4) × Vec (3 + 3)), obj 0 = { s' with dt := dt, intDt := intDt } →
          Run (CartesianDMP.step none sf qf) obj fb out → position (fb 0).1 = y 0 → linear (fb 0).2 = v 0 →
          (∀ i, fb (i + 1) = out i) → ∀ i : ℕ, (i + 1) * dt ≤ τ → ∀ k,
            |position (out i).1 k - y ((i + 1) * dt) k| < ε ∧ |linear (out i).2 k - v ((i + 1) * dt) k| < ε := by
  obtain ⟨N, hN⟩ := C109_solution hτ h hend α β smooth hreg (half_pos hε)
  refine ⟨N, fun m hm => ?_⟩
  obtain ⟨n0, hn0⟩ := hN m hm
  refine ⟨n0, fun n hn s hs hsτ hsα hsβ hsm ht ops qgrad Y hY => ?_⟩
  have hTlast : linspaceTimes τ n (Fin.last (n + 1)) = τ := by
    simp only [linspaceTimes, Fin.val_last]; push_cast; field_simp
  have hT0 : linspaceTimes τ n 0 = 0 := by simp [linspaceTimes]
  obtain ⟨p, hp, e1, e2, e3, e4, e5, e6, e7, e8, e9⟩ := hs.regular
  obtain ⟨p', him, hclose⟩ := hn0 n hn p hp (e3.trans hsτ) (e7.trans hsα) (e8.trans hsβ) (e6.trans hsm)
  obtain ⟨wp, wr, hs', hwp, -⟩ := C28_cartesian_imitate hs.reachable ops qgrad (linspaceTimes τ n) Y hreg
    (by rw [hT0, hTlast]; exact hτ) afv
  refine ⟨_, hs', ?_⟩
  have hs'T := hs.op (.imitate ops qgrad (linspaceTimes τ n) Y reg afv) (by intro τ h; cases h)
  rw [show (CartesianOp.imitate ops qgrad (linspaceTimes τ n) Y reg afv).after s = _ from congrArg Prod.snd hs'] at hs'T
  -- the regular DMP learns the same weights
  have hp' : p' = { p with startY := position (Y 0), goalY := position (Y (Fin.last _)), ft := { p.ft with weights := wp } } := by
    simp only [hY] at hwp
    rw [DMP.exec_imitate, e7, e8, e9, e6, hs.reachable.valid.pos, hwp] at him
    simp only at him
    rw [DMP.exec_configure, C25_configure_sets _ _ (by simp [AllOk, FieldOk])] at him
    rw [← (Prod.mk.inj him).2]
    simp only [newValue_ofFn, hY, e6, e7, e8, e9]
    rfl
  obtain ⟨y', v', hsol, -⟩ := C77_cartesian_position_exists hs'T 0 (y 0, v 0)
  have hreg' := (SolvesPosition.regular (p := p') (by rw [hp']) (by rw [hp'])
    (by rw [hp']; exact e3) (by rw [hp']; exact e6) (by rw [hp']; exact e7) (by rw [hp']; exact e8)
    (by rw [hp']; show ({ p.ft with weights := wp } : ForcingTerm 3 m) = _; rw [e9])).1 hsol
  have hclose := hclose y' v' hreg'
  obtain ⟨C, hC⟩ := C77_cartesian_position_step hs'T ht.ge (x0 := (y 0, v 0)) (y := y') (v := v')
    ((congrArg (fun x => SolvesPosition _ x (y 0, v 0) y' v') ht).mpr hsol) τ
  refine ⟨ε / (2 * (|C| + 1)), by positivity, ?_⟩
  intro sf qf dt intDt hdt hint hstep obj fb out ho hrun hy hv hfb i hi k
  have h1 := hC sf qf dt intDt hdt hint obj fb out ho hrun (by rw [hy, hv]) hfb i
    (by show s.t + _ ≤ τ; rw [ht, zero_add]; exact hi) k
  have ht0 : ∀ x : ℝ, s.t + x = x := fun x => by rw [ht, zero_add]
  simp only [ht0] at h1
  have h2 := small_steps hε (largestStep_nonneg hdt hint sf) hstep
  have h3 := hclose ((i + 1) * dt) ⟨by positivity, hi⟩ k
  constructor
  · calc |position (out i).1 k - y ((i + 1) * dt) k|
        = |(position (out i).1 k - y' ((i + 1) * dt) k) + (y' ((i + 1) * dt) k - y ((i + 1) * dt) k)| := by ring_nf
      _ ≤ _ := abs_add_le _ _
      _ < ε := by linarith [h1.1, h3.1]
  · calc |linear (out i).2 k - v ((i + 1) * dt) k|
        = |(linear (out i).2 k - v' ((i + 1) * dt) k) + (v' ((i + 1) * dt) k - v ((i + 1) * dt) k)| := by ring_nf
      _ ≤ _ := abs_add_le _ _
      _ < ε := by linarith [h1.2, h3.2]

/-- Such objects exist, for instance new ones, and so do movements with a velocity at the start and at the end. -/
example {m : ℕ} (hm : 2 ≤ m) : ∃ (s : CartesianDMP m) (y v a : ℝ → Vec 3), TimedCartesian s ∧ s.executionTime = 1 ∧
    linear s.alphaY = (fun _ => 25) ∧ linear s.betaY = (fun _ => 25 / 4) ∧ s.smooth = false ∧ s.t = 0 ∧
    TwiceDifferentiable 1 y v a ∧ v 0 = 1 ∧ v 1 = 1 := by
  obtain ⟨s, h0, h5, h1, -, -, h2, h3, h4, -⟩ := CartesianDMP.create_ok m hm one_pos (1 / 100) (1 / 1000) false 25 (25 / 4)
  refine ⟨s, fun t _ => t, fun _ => 1, fun _ => 0, .create h0, h1, by rw [h3, linear_eq]; rfl, by rw [h4, linear_eq]; rfl, h2,
    by rw [h5]; rfl,
    ⟨fun t _ k => (hasDerivAt_id t).hasDerivWithinAt, fun t _ k => hasDerivWithinAt_const _ _ _, fun k => continuousOn_const⟩,
    rfl, rfl⟩

end Verif
