import Verif.Props.Rk4Steps
import Verif.Props.CartesianIntegration
import Verif.Spec.PositionAhead

/-! # C81: accuracy of the Runge-Kutta integrator for the positions of a Cartesian DMP -/

namespace Verif
open Spec

variable {m : ℕ}

/-- The equation of the positions is the one of a regular DMP. -/
theorem Spec.SolvesPositionAhead.regular {s : CartesianDMP m} {p : DMP 3 m} (e1 : p.startY = position s.startY)
    (e2 : p.goalY = position s.goalY) (e3 : p.executionTime = s.executionTime) (e6 : p.smooth = s.smooth)
    (e7 : p.alphaY = linear s.alphaY) (e8 : p.betaY = linear s.betaY) (e9 : p.ft = s.ftPos) {δ t0 : ℝ} {x0 : Vec 3 × Vec 3}
    {y v : ℝ → Vec 3} : SolvesPositionAhead s δ t0 x0 y v ↔ SolvesDmpAhead p δ t0 x0 y v := by
  constructor
  · intro h
    refine ⟨h.start, h.velocity, fun t k => ?_⟩
    rw [e1, e2, e3, e6, e7, e8, e9]
    exact h.acceleration t k
  · intro h
    refine ⟨h.start, h.velocity, fun t k => ?_⟩
    rw [← e1, ← e2, ← e3, ← e6, ← e7, ← e8, ← e9]
    exact h.acceleration t k

/-- **C81 (positions of a `CartesianDMP`, the shifted equations have solutions).** -/
theorem C81_cartesian_solution_exists {s : CartesianDMP m} (hs : TimedCartesian s) (δ t0 : ℝ) (x0 : Vec 3 × Vec 3) :
    ∃ y v, SolvesPositionAhead s δ t0 x0 y v := by
  obtain ⟨p, hp, e1, e2, e3, e4, e5, e6, e7, e8, e9⟩ := hs.regular
  obtain ⟨y, v, h⟩ := C81_solution_exists hp δ t0 x0
  exact ⟨y, v, (SolvesPositionAhead.regular e1 e2 e3 e6 e7 e8 e9).2 h⟩

/-- **C81 (positions of a `CartesianDMP`, open_loop).** With a Runge-Kutta method the positions returned by `open_loop` differ, up to
time `R`, by at most `C dt⁴` from the solution of the differential equation of the positions with phase and forcing term evaluated
`dt` ahead of time, whatever the orientations are. -/
theorem C81_cartesian_open_loop {s : CartesianDMP m} (hs : TimedCartesian s) (R : ℝ) :
    ∃ C, ∀ (name : String) (sf : StepFunction) (dt intDt : ℝ) (y v : ℝ → Vec 3), StepFunction.lookup name = .ok sf →
      (sf = .rk4 ∨ sf = .rk4Cython) → 0 < dt → 0 < intDt → SolvesPositionAhead s dt 0 (position s.startY, 0) y v →
      ∀ ops runT qname T Y,
      ((CartesianDMP.openLoop ops runT none name qname).exec { s with dt := dt, intDt := intDt }).1 = .ok (T, Y) →
        ∀ i (hT : i < T.length) (hY : i < Y.length), T[i] ≤ R → ∀ k, |position Y[i] k - y T[i] k| ≤ C * dt ^ 4 := by
  obtain ⟨p, hp, e1, e2, e3, e4, e5, e6, e7, e8, e9⟩ := hs.regular
  obtain ⟨C, hC⟩ := C81_open_loop hp R
  refine ⟨C, fun name sf dt intDt y v hname hsf hdt hint hsol ops runT qname T Y hr i hT hY hi k => ?_⟩
  have h1 := C33_position_is_regular_dmp { s with dt := dt, intDt := intDt } { p with dt := dt, intDt := intDt } e1 e2 e3 rfl
    rfl e6 e7 e8 e9 hr
  have h2 := hC name sf dt intDt y v hname hsf hdt hint
    (by rw [e1]; exact (SolvesPositionAhead.regular e1 e2 e3 e6 e7 e8 e9).1 hsol) runT T _ h1 i hT (by simpa using hY) hi k
  simpa using h2

/-- **C81 (positions of a `CartesianDMP`, step).** The same for positions and velocities returned by calls of `step`, each with the
result of the previous one, from any position and velocity `x0` passed to the first call. -/
theorem C81_cartesian_step {s : CartesianDMP m} (hs : TimedCartesian s) (x0 : Vec 3 × Vec 3) (R : ℝ) :
    ∃ C, ∀ (sf : StepFunction) (qf : QuatStepFunction) (dt intDt : ℝ) (y v : ℝ → Vec 3), (sf = .rk4 ∨ sf = .rk4Cython) →
      0 < dt → 0 < intDt → SolvesPositionAhead s dt s.t x0 y v →
      ∀ (obj : ℕ → CartesianDMP m) (fb out : ℕ → Vec (3 + 4) × Vec (3 + 3)), obj 0 = { s with dt := dt, intDt := intDt } →
        Run (CartesianDMP.step none sf qf) obj fb out → (position (fb 0).1, linear (fb 0).2) = x0 → (∀ i, fb (i + 1) = out i) →
        ∀ i : ℕ, s.t + (i + 1) * dt ≤ R → ∀ k,
          |position (out i).1 k - y (s.t + (i + 1) * dt) k| ≤ C * dt ^ 4 ∧
          |linear (out i).2 k - v (s.t + (i + 1) * dt) k| ≤ C * dt ^ 4 := by
  obtain ⟨p, hp, e1, e2, e3, e4, e5, e6, e7, e8, e9⟩ := hs.regular
  have hval := hp.valid
  have hm : 0 < m := by have := hval.forcing.1; omega
  have hτ : 0 < p.executionTime := hval.pos.2
  have haT : (s.posArgs none).startT < (s.posArgs none).goalT := hs.positive
  have haτ : (s.posArgs none).goalT - (s.posArgs none).startT = p.executionTime := (sub_zero _).trans e3.symm
  have hg : (s.posArgs none).goalY = p.goalY := by rw [e2, position_eq]; rfl
  have hα : (s.posArgs none).alphaY = p.alphaY := by rw [e7, linear_eq]; rfl
  have hβ : (s.posArgs none).betaY = p.betaY := by rw [e8, linear_eq]; rfl
  have hdrive : ∀ k, (s.posArgs none).drive k = (p.openLoopArgs none).drive k := by
    intro k
    funext t
    have h1 : (s.posArgs none).ft = p.ft := e9.symm
    have h2 : (s.posArgs none).startY = p.startY := by rw [e1, position_eq]; rfl
    have h3 : (s.posArgs none).smooth = p.smooth := e6.symm
    have h4 : (p.openLoopArgs none).goalT - (p.openLoopArgs none).startT = p.executionTime := sub_zero _
    simp only [StepArgs.drive, hg, hα, hβ, h1, h2, h3, haτ, h4]
    rfl
  have hK := fun k => rk4_late_error (p.alphaY k * p.betaY k / p.executionTime ^ 2) (p.alphaY k / p.executionTime) s.t R
    ((p.openLoopArgs none).drive_derivs hm k) (x0.1 k - p.goalY k, x0.2 k)
  choose C hC0 hC using hK
  refine ⟨∑ k, C k, ?_⟩
  intro sf qf dt intDt y v hsf hdt hint hsol obj fb out h0 hrun hfb0 hfb i hi k
  have hsol' := (SolvesPositionAhead.regular e1 e2 e3 e6 e7 e8 e9).1 hsol
  have hrun' := CartesianDMP.run_objects hrun
  have hx : ∀ i : ℕ, sf.run { s.posArgs none with intDt := intDt } (s.t + i * dt) (s.t + (i + 1) * dt)
      (position (fb i).1, linear (fb i).2) = .ok (position (fb (i + 1)).1, linear (fb (i + 1)).2) := by
    intro i
    have := (hrun' i).2.1
    rw [h0] at this
    simp only [hfb]
    exact this
  have h1 := hC k dt (fun t => (y t k - p.goalY k, v t k)) hdt (by
      rw [← hsol'.start]) (fun t => by
      have h1 := ((hsol'.velocity t k).sub_const (p.goalY k)).prodMk (hsol'.acceleration t k)
      rw [DMP.acceleration_eq hτ] at h1
      simp only [iteratedDeriv_zero]
      exact h1) (fun i => (position (fb i).1 k - p.goalY k, linear (fb i).2 k)) (by
      simp only [← hfb0]) (fun i _ => by
      simp only [iteratedDeriv_zero]
      have h2 := run_rk4_sd { s.posArgs none with intDt := intDt } rfl rfl rfl haT hsf (hx i) k
      rw [← hdrive, ← hg, ← hα, ← hβ, ← haτ]
      exact h2) (i + 1) (by push_cast; exact hi)
  have h3 : C k ≤ ∑ k, C k := Finset.single_le_sum (fun j _ => hC0 j) (Finset.mem_univ k)
  have h4 := mul_le_mul_of_nonneg_right h3 (by positivity : 0 ≤ dt ^ 4)
  push_cast at h1
  simp only [hfb] at h1
  constructor
  · have h2 := (norm_fst_le _).trans h1
    rw [Prod.fst_sub, Real.norm_eq_abs, sub_sub_sub_cancel_right] at h2
    exact h2.trans h4
  · have h2 := (norm_snd_le _).trans h1
    rw [Prod.snd_sub, Real.norm_eq_abs] at h2
    exact h2.trans h4

/-- The hypotheses can be met for every Cartesian DMP and all step sizes. -/
example {s : CartesianDMP m} (hs : TimedCartesian s) {dt : ℝ} (hdt : 0 < dt) (ops : QuatOps) :
    ∃ y v, SolvesPositionAhead s dt 0 (position s.startY, 0) y v ∧
    ∃ T Y, ((CartesianDMP.openLoop ops (some 1) none "rk4" "python").exec { s with dt := dt, intDt := 1 }).1 = .ok (T, Y) := by
  obtain ⟨y, v, h⟩ := C81_cartesian_solution_exists hs dt 0 (position s.startY, 0)
  exact ⟨y, v, h, CartesianDMP.openLoop_returns (s := { s with dt := dt, intDt := 1 }) (name := "rk4") (qname := "python") rfl rfl
    hdt hs.positive one_pos zero_le_one⟩

end Verif
