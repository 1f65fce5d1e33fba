import Verif.Spec.FvHistory
import Verif.Props.Imitate
import Mathlib.Analysis.Calculus.Deriv.Pow
import Mathlib.Analysis.Calculus.Deriv.Add
import Mathlib.Analysis.Calculus.Deriv.Mul
import Mathlib.LinearAlgebra.Matrix.ToLinearEquiv

/-! # C29, C30: DMP with final velocity -/

namespace Verif
open Matrix
variable {d m n : ℕ}

theorem constraintMatrix_mulVec (t0 t1 : ℝ) (b : Fin 6 → ℝ) : constraintMatrix t0 t1 *ᵥ b =
    ![b 0 + t0 * b 1 + t0 ^ 2 * b 2 + t0 ^ 3 * b 3 + t0 ^ 4 * b 4 + t0 ^ 5 * b 5,
      b 1 + 2 * t0 * b 2 + 3 * t0 ^ 2 * b 3 + 4 * t0 ^ 3 * b 4 + 5 * t0 ^ 4 * b 5,
      2 * b 2 + 6 * t0 * b 3 + 12 * t0 ^ 2 * b 4 + 20 * t0 ^ 3 * b 5,
      b 0 + t1 * b 1 + t1 ^ 2 * b 2 + t1 ^ 3 * b 3 + t1 ^ 4 * b 4 + t1 ^ 5 * b 5,
      b 1 + 2 * t1 * b 2 + 3 * t1 ^ 2 * b 3 + 4 * t1 ^ 3 * b 4 + 5 * t1 ^ 4 * b 5,
      2 * b 2 + 6 * t1 * b 3 + 12 * t1 ^ 2 * b 4 + 20 * t1 ^ 3 * b 5] := by
  funext i
  fin_cases i <;> simp [constraintMatrix, mulVec, dotProduct, Fin.sum_univ_six]

theorem constraintMatrix_injective {t0 t1 : ℝ} {b : Fin 6 → ℝ} (h : constraintMatrix t0 t1 *ᵥ b = 0) (hne : t0 ≠ t1) :
    b = 0 := by
  rw [constraintMatrix_mulVec] at h
  have e0 : b 0 + t0 * b 1 + t0 ^ 2 * b 2 + t0 ^ 3 * b 3 + t0 ^ 4 * b 4 + t0 ^ 5 * b 5 = 0 := congrFun h 0
  have e1 : b 1 + 2 * t0 * b 2 + 3 * t0 ^ 2 * b 3 + 4 * t0 ^ 3 * b 4 + 5 * t0 ^ 4 * b 5 = 0 := congrFun h 1
  have e2 : 2 * b 2 + 6 * t0 * b 3 + 12 * t0 ^ 2 * b 4 + 20 * t0 ^ 3 * b 5 = 0 := congrFun h 2
  have e3 : b 0 + t1 * b 1 + t1 ^ 2 * b 2 + t1 ^ 3 * b 3 + t1 ^ 4 * b 4 + t1 ^ 5 * b 5 = 0 := congrFun h 3
  have e4 : b 1 + 2 * t1 * b 2 + 3 * t1 ^ 2 * b 3 + 4 * t1 ^ 3 * b 4 + 5 * t1 ^ 4 * b 5 = 0 := congrFun h 4
  have e5 : 2 * b 2 + 6 * t1 * b 3 + 12 * t1 ^ 2 * b 4 + 20 * t1 ^ 3 * b 5 = 0 := congrFun h 5
  have hh : t1 - t0 ≠ 0 := sub_ne_zero.2 hne.symm
  have h5 : b 5 * (t1 - t0) ^ 5 = 0 := by
    linear_combination 6 * (e3 - e0) - 3 * (t1 - t0) * (e1 + e4) + (t1 - t0) ^ 2 / 2 * (e5 - e2)
  have b5 : b 5 = 0 := (mul_eq_zero.1 h5).resolve_right (pow_ne_zero 5 hh)
  rw [b5] at e0 e1 e2 e3 e4 e5
  have h4 : b 4 * (t1 - t0) ^ 4 = 0 := by
    linear_combination -15 * (e3 - e0) + (t1 - t0) * (8 * e1 + 7 * e4) + (t1 - t0) ^ 2 * (3 / 2 * e2 - e5)
  have b4 : b 4 = 0 := (mul_eq_zero.1 h4).resolve_right (pow_ne_zero 4 hh)
  rw [b4] at e0 e1 e2 e3 e4 e5
  have h3 : b 3 * (t1 - t0) = 0 := by linear_combination (e5 - e2) / 6
  have b3 : b 3 = 0 := (mul_eq_zero.1 h3).resolve_right hh
  rw [b3] at e0 e1 e2
  have b2 : b 2 = 0 := by linear_combination e2 / 2
  rw [b2] at e0 e1
  have b1 : b 1 = 0 := by linear_combination e1
  rw [b1] at e0
  have b0 : b 0 = 0 := by linear_combination e0
  funext i
  fin_cases i <;> assumption

theorem constraintMatrix_det {t0 t1 : ℝ} (hne : t0 ≠ t1) : (constraintMatrix t0 t1).det ≠ 0 := by
  intro h
  obtain ⟨v, hv, hz⟩ := Matrix.exists_mulVec_eq_zero_iff.2 h
  exact hv (constraintMatrix_injective hz hne)

/-- Boundary conditions of the quintic with coefficients `c` (lowest order first) in one dimension. -/
structure Spec.QuinticBoundary (c : Fin 6 → ℝ) (t0 t1 y0 v0 a0 y1 v1 a1 : ℝ) : Prop where
  y0 : c 0 + t0 * c 1 + t0 ^ 2 * c 2 + t0 ^ 3 * c 3 + t0 ^ 4 * c 4 + t0 ^ 5 * c 5 = y0
  v0 : c 1 + 2 * t0 * c 2 + 3 * t0 ^ 2 * c 3 + 4 * t0 ^ 3 * c 4 + 5 * t0 ^ 4 * c 5 = v0
  a0 : 2 * c 2 + 6 * t0 * c 3 + 12 * t0 ^ 2 * c 4 + 20 * t0 ^ 3 * c 5 = a0
  y1 : c 0 + t1 * c 1 + t1 ^ 2 * c 2 + t1 ^ 3 * c 3 + t1 ^ 4 * c 4 + t1 ^ 5 * c 5 = y1
  v1 : c 1 + 2 * t1 * c 2 + 3 * t1 ^ 2 * c 3 + 4 * t1 ^ 3 * c 4 + 5 * t1 ^ 4 * c 5 = v1
  a1 : 2 * c 2 + 6 * t1 * c 3 + 12 * t1 ^ 2 * c 4 + 20 * t1 ^ 3 * c 5 = a1

theorem quinticBoundary_iff (c : Fin 6 → ℝ) (t0 t1 y0 v0 a0 y1 v1 a1 : ℝ) :
    Spec.QuinticBoundary c t0 t1 y0 v0 a0 y1 v1 a1 ↔
      constraintMatrix t0 t1 *ᵥ c = ![y0, v0, a0, y1, v1, a1] := by
  rw [constraintMatrix_mulVec]
  constructor
  · rintro ⟨h0, h1, h2, h3, h4, h5⟩
    rw [h0, h1, h2, h3, h4, h5]
  · intro h
    exact ⟨congrFun h 0, congrFun h 1, congrFun h 2, congrFun h 3, congrFun h 4, congrFun h 5⟩

/-- **C29.** For different start and goal times the constraints can be solved; the coefficients are the only ones whose
quintic meets all six boundary conditions in every dimension. -/
theorem C29_solve_constraints {t0 t1 : ℝ} (hne : t0 ≠ t1) (y0 v0 a0 y1 v1 a1 : Vec d) :
    ∃ c, solveConstraints t0 t1 y0 v0 a0 y1 v1 a1 = .ok c ∧
      (∀ k, Spec.QuinticBoundary (fun i => c i k) t0 t1 (y0 k) (v0 k) (a0 k) (y1 k) (v1 k) (a1 k)) ∧
      ∀ c' : Fin 6 → Vec d,
        (∀ k, Spec.QuinticBoundary (fun i => c' i k) t0 t1 (y0 k) (v0 k) (a0 k) (y1 k) (v1 k) (a1 k)) → c' = c := by
  have hdet := constraintMatrix_det hne
  set M := constraintMatrix t0 t1 with hM
  set Y : Fin 6 → Vec d := ![y0, v0, a0, y1, v1, a1] with hY
  have hYk : ∀ k, (fun i => Y i k) = ![y0 k, v0 k, a0 k, y1 k, v1 k, a1 k] := by
    intro k; funext i; fin_cases i <;> rfl
  have hmul : ∀ k, M *ᵥ (fun i => (M⁻¹ * Matrix.of Y) i k) = ![y0 k, v0 k, a0 k, y1 k, v1 k, a1 k] := by
    intro k
    rw [← hYk]
    funext i
    have := congrFun (congrFun (Matrix.mul_nonsing_inv_cancel_left (A := M) (Matrix.of Y) (isUnit_iff_ne_zero.2 hdet)) i) k
    exact this
  refine ⟨fun i k => (M⁻¹ * Matrix.of Y) i k, ?_, ?_, ?_⟩
  · unfold solveConstraints linalgSolve
    rw [if_neg hdet]
  · intro k
    rw [quinticBoundary_iff]
    exact hmul k
  · intro c' hc'
    funext i k
    have h1 := (quinticBoundary_iff _ _ _ _ _ _ _ _ _).1 (hc' k)
    rw [← hmul k, ← hM] at h1
    have h2 : M *ᵥ ((fun i => c' i k) - fun i => (M⁻¹ * Matrix.of Y) i k) = 0 := by
      rw [mulVec_sub, h1, sub_self]
    have h3 := constraintMatrix_injective h2 hne
    exact sub_eq_zero.1 (congrFun h3 i)

/-- **C29.** If start and goal time are equal, LinAlgError is raised. -/
theorem C29_equal_times_raise (t : ℝ) (y0 v0 a0 y1 v1 a1 : Vec d) :
    solveConstraints t t y0 v0 a0 y1 v1 a1 = .error .linAlgError := by
  unfold solveConstraints linalgSolve
  rw [if_pos]
  apply Matrix.det_zero_of_row_eq (i := 0) (j := 3) (by decide)
  funext j
  fin_cases j <;> rfl

theorem applyConstraints_before {t goalT : ℝ} (h : t ≤ goalT + 1 / 2 ^ 52) (goalY : Vec d) (c : Fin 6 → Vec d) :
    applyConstraints t goalY goalT c =
      (fun k => c 0 k + t * c 1 k + t ^ 2 * c 2 k + t ^ 3 * c 3 k + t ^ 4 * c 4 k + t ^ 5 * c 5 k,
       fun k => c 1 k + 2 * t * c 2 k + 3 * t ^ 2 * c 3 k + 4 * t ^ 3 * c 4 k + 5 * t ^ 4 * c 5 k,
       fun k => 2 * c 2 k + 6 * t * c 3 k + 12 * t ^ 2 * c 4 k + 20 * t ^ 3 * c 5 k) := by
  unfold applyConstraints
  rw [if_neg (not_lt.2 h)]

/-- **C29.** The reference starts and ends with the requested positions, velocities and accelerations. -/
theorem C29_reference_boundary {t0 t1 : ℝ} (hlt : t0 < t1) {y0 v0 a0 y1 v1 a1 : Vec d} {c : Fin 6 → Vec d}
    (h : solveConstraints t0 t1 y0 v0 a0 y1 v1 a1 = .ok c) :
    applyConstraints t0 y1 t1 c = (y0, v0, a0) ∧ applyConstraints t1 y1 t1 c = (y1, v1, a1) := by
  obtain ⟨c', hc', hb, _⟩ := C29_solve_constraints hlt.ne y0 v0 a0 y1 v1 a1
  rw [hc'] at h
  injection h with h
  subst h
  have heps : (0 : ℝ) < 1 / 2 ^ 52 := by positivity
  rw [applyConstraints_before (by linarith), applyConstraints_before (by linarith)]
  constructor
  · refine Prod.ext (funext fun k => (hb k).y0) (Prod.ext (funext fun k => (hb k).v0) (funext fun k => (hb k).a0))
  · refine Prod.ext (funext fun k => (hb k).y1) (Prod.ext (funext fun k => (hb k).v1) (funext fun k => (hb k).a1))

/-- **C29.** Until the goal time the reference velocity and acceleration are the first and second derivative of the
reference position. -/
theorem C29_reference_derivatives {t goalT : ℝ} (h : t ≤ goalT) (goalY : Vec d) (c : Fin 6 → Vec d) (k : Fin d) :
    HasDerivAt (fun u => (applyConstraints u goalY goalT c).1 k) ((applyConstraints t goalY goalT c).2.1 k) t ∧
    HasDerivAt (fun u => (applyConstraints u goalY goalT c).2.1 k) ((applyConstraints t goalY goalT c).2.2 k) t := by
  have heps : (0 : ℝ) < 1 / 2 ^ 52 := by positivity
  have hev : ∀ᶠ u in nhds t, u ≤ goalT + 1 / 2 ^ 52 :=
    (eventually_lt_nhds (by linarith : t < goalT + 1 / 2 ^ 52)).mono fun _ h => h.le
  have hpow : ∀ n : ℕ, HasDerivAt (fun u : ℝ => u ^ n) (n * t ^ (n - 1)) t := fun n => hasDerivAt_pow n t
  constructor
  · rw [applyConstraints_before (by linarith)]
    have hd : HasDerivAt (fun u : ℝ => c 0 k + u * c 1 k + u ^ 2 * c 2 k + u ^ 3 * c 3 k + u ^ 4 * c 4 k + u ^ 5 * c 5 k)
        (c 1 k + 2 * t * c 2 k + 3 * t ^ 2 * c 3 k + 4 * t ^ 3 * c 4 k + 5 * t ^ 4 * c 5 k) t := by
      have := ((((((hasDerivAt_const t (c 0 k)).add ((hasDerivAt_id t).mul_const (c 1 k))).add
        ((hpow 2).mul_const (c 2 k))).add ((hpow 3).mul_const (c 3 k))).add ((hpow 4).mul_const (c 4 k))).add
        ((hpow 5).mul_const (c 5 k)))
      refine (this.congr_deriv ?_)
      push_cast; ring
    refine hd.congr_of_eventuallyEq (hev.mono fun u hu => ?_)
    simp only [applyConstraints_before hu]
  · rw [applyConstraints_before (by linarith)]
    have hd : HasDerivAt (fun u : ℝ => c 1 k + 2 * u * c 2 k + 3 * u ^ 2 * c 3 k + 4 * u ^ 3 * c 4 k + 5 * u ^ 4 * c 5 k)
        (2 * c 2 k + 6 * t * c 3 k + 12 * t ^ 2 * c 4 k + 20 * t ^ 3 * c 5 k) t := by
      have := (((((hasDerivAt_const t (c 1 k)).add (((hasDerivAt_id t).const_mul 2).mul_const (c 2 k))).add
        (((hpow 2).const_mul 3).mul_const (c 3 k))).add (((hpow 3).const_mul 4).mul_const (c 4 k))).add
        (((hpow 4).const_mul 5).mul_const (c 5 k)))
      refine (this.congr_deriv ?_)
      push_cast; ring
    refine hd.congr_of_eventuallyEq (hev.mono fun u hu => ?_)
    simp only [applyConstraints_before hu]

/-- **C29.** After the goal time (plus the machine epsilon) the reference is the goal position at rest. -/
theorem C29_reference_after_goal {t goalT : ℝ} (h : goalT + 1 / 2 ^ 52 < t) (goalY : Vec d) (c : Fin 6 → Vec d) :
    applyConstraints t goalY goalT c = (goalY, 0, 0) := by
  unfold applyConstraints
  rw [if_pos h]

/-- The hypotheses of C29 are met by a concrete problem: the constraints from rest at 0 to rest at 1. -/
example : ∃ c, solveConstraints (d := 1) 0 1 0 0 0 1 0 0 = .ok c ∧ (fun i => c i 0) = ![0, 0, 0, 10, -15, 6] := by
  obtain ⟨c, hc, _, hu⟩ := C29_solve_constraints (d := 1) (t0 := 0) (t1 := 1) (by norm_num) 0 0 0 1 0 0
  refine ⟨c, hc, ?_⟩
  have := hu (fun i _ => (![0, 0, 0, 10, -15, 6] : Fin 6 → ℝ) i) (by
    intro k
    have e2 : (![0, 0, 0, 10, -15, 6] : Fin 6 → ℝ) 2 = 0 := rfl
    have e3 : (![0, 0, 0, 10, -15, 6] : Fin 6 → ℝ) 3 = 10 := rfl
    have e4 : (![0, 0, 0, 10, -15, 6] : Fin 6 → ℝ) 4 = -15 := rfl
    have e5 : (![0, 0, 0, 10, -15, 6] : Fin 6 → ℝ) 5 = 6 := rfl
    constructor <;> norm_num [e2, e3, e4, e5])
  rw [← this]

/-! ## C30 -/

/-- Acceleration of one dimension of the DMP with final velocity (Muelling et al. 2013, Eq. 6) for a moving goal
`g, gd, gdd`. -/
noncomputable def Spec.movingGoalAcceleration (alpha beta tau g gd gdd f y v : ℝ) : ℝ :=
  (alpha * (beta * (g - y) + tau * gd - tau * v) + f) / tau ^ 2 + gdd

/-- **C30.** Each sub-step without coupling terms and tracking error is a semi-implicit Euler step with the acceleration
of the moving goal DMP. -/
theorem C30_body_acceleration (a : StepArgs d m) (hc : a.coupling = none) (hp : a.precomputed = none)
    (he : a.trackingError = 0) (c : Fin 6 → Vec d) (dt t : ℝ) (s : Vec d × Vec d) (k : Fin d) :
    let g := applyConstraints t a.goalY a.goalT c
    let ydd := Spec.movingGoalAcceleration (a.alphaY k) (a.betaY k) (a.goalT - a.startT) (g.1 k) (g.2.1 k) (g.2.2 k)
      (a.ft.call t k) (s.1 k) (s.2 k)
    (a.fvBody c dt t s).2 k = s.2 k + dt * ydd ∧ (a.fvBody c dt t s).1 k = s.1 k + dt * (a.fvBody c dt t s).2 k := by
  have hcc : a.fvCoupling s = (0, 0) := by
    unfold StepArgs.fvCoupling
    rw [hc, hp]
  intro g ydd
  constructor
  · simp only [StepArgs.fvBody, hcc, he, Pi.zero_apply, mul_zero, zero_div, add_zero]
    show s.2 k + dt * _ = s.2 k + dt * Spec.movingGoalAcceleration _ _ _ _ _ _ _ _ _
    unfold Spec.movingGoalAcceleration
    congr 4
    simp only [ForcingTerm.call]
    ring
  · simp only [StepArgs.fvBody]

/-- **C30.** With zero weights the quintic solves the differential equation: in a state on the polynomial the commanded
acceleration is the second derivative of the polynomial, and no other acceleration. -/
theorem C30_quintic_is_solution (alpha beta tau g gd gdd : ℝ) :
    Spec.movingGoalAcceleration alpha beta tau g gd gdd 0 g gd = gdd := by
  unfold Spec.movingGoalAcceleration
  simp

/-- **C30.** The same for a sub-step of the program at any time until the goal time: starting on the polynomial, the
velocity changes by `dt` times the second derivative of the polynomial. -/
theorem C30_step_on_quintic (a : StepArgs d m) (hc : a.coupling = none) (hp : a.precomputed = none)
    (he : a.trackingError = 0) (hw : a.ft.weights = fun _ _ => 0) {c : Fin 6 → Vec d}
    (dt t : ℝ) (k : Fin d) :
    let g := applyConstraints t a.goalY a.goalT c
    (a.fvBody c dt t (g.1, g.2.1)).2 k = g.2.1 k + dt * g.2.2 k := by
  intro g
  have h := (C30_body_acceleration a hc hp he c dt t (g.1, g.2.1) k).1
  have hf : a.ft.call t k = 0 := C04_force_zero a.ft k (fun i => by rw [hw]) _
  rw [h, hf]
  show g.2.1 k + dt * Spec.movingGoalAcceleration _ _ _ (g.1 k) (g.2.1 k) (g.2.2 k) 0 (g.1 k) (g.2.1 k) = _
  rw [C30_quintic_is_solution]

/-- **C30.** The forces determined from a demonstration are exactly the ones for which the acceleration equation returns
the demonstrated (backward difference) acceleration in the demonstrated state. -/
theorem C30_forces_invert_acceleration (T : Fin (n + 2) → ℝ) (Y : Fin (n + 2) → Vec d) (alphaY betaY : Vec d)
    (hT : T 0 < T (Fin.last _)) :
    ∃ (c : Fin 6 → Vec d) (F : Fin (n + 2) → Vec d),
      solveConstraints (T 0) (T (Fin.last _)) (Y 0) (fvYd T Y 0) (fvYdd T Y 0) (Y (Fin.last _))
        (fvYd T Y (Fin.last _)) (fvYdd T Y (Fin.last _)) = .ok c ∧
      fvDetermineForces T Y alphaY betaY = .ok F ∧
      ∀ t k f, (let g := applyConstraints (T t) (Y (Fin.last _)) (T (Fin.last _)) c
        Spec.movingGoalAcceleration (alphaY k) (betaY k) (T (Fin.last _) - T 0) (g.1 k) (g.2.1 k) (g.2.2 k) f
          (Y t k) (fvYd T Y t k) = fvYdd T Y t k) ↔ f = F t k := by
  obtain ⟨c, hc, _⟩ := C29_solve_constraints hT.ne (Y 0) (fvYd T Y 0) (fvYdd T Y 0) (Y (Fin.last _))
    (fvYd T Y (Fin.last _)) (fvYdd T Y (Fin.last _))
  refine ⟨c, fun t k => (T (Fin.last _) - T 0) ^ 2 * fvYdd T Y t k - alphaY k *
    (betaY k * ((applyConstraints (T t) (Y (Fin.last _)) (T (Fin.last _)) c).1 k - Y t k)
      + (T (Fin.last _) - T 0) * ((applyConstraints (T t) (Y (Fin.last _)) (T (Fin.last _)) c).2.1 k - fvYd T Y t k))
    - (T (Fin.last _) - T 0) ^ 2 * (applyConstraints (T t) (Y (Fin.last _)) (T (Fin.last _)) c).2.2 k, hc, ?_, ?_⟩
  · unfold fvDetermineForces
    simp only
    rw [hc]
    rfl
  · intro t k f
    simp only
    have hτ : (T (Fin.last (n + 1)) - T 0) ^ 2 ≠ 0 := pow_ne_zero 2 (by linarith)
    unfold Spec.movingGoalAcceleration
    rw [← eq_sub_iff_add_eq, div_eq_iff hτ]
    constructor
    · intro h; linarith
    · intro h; rw [h]; ring

/-! ## The class -/

namespace FvDMP
open DMP

theorem exec_imitate (T : Fin (n + 2) → ℝ) (Y : Fin (n + 2) → Vec d) (reg : ℝ) (s : FvDMP d m) :
    (FvDMP.imitate T Y reg).exec s =
      match dmpImitateWith m T reg s.ft.overlap s.ft.alphaZ (fvDetermineForces T Y s.alphaY s.betaY) with
      | .ok w => (DMP.configure
          { startY := some (List.ofFn (Y 0)), startYd := some (List.ofFn (fvYd T Y 0))
            startYdd := some (List.ofFn (fvYdd T Y 0)), goalY := some (List.ofFn (Y (Fin.last _)))
            goalYd := some (List.ofFn (fvYd T Y (Fin.last _))), goalYdd := some (List.ofFn (fvYdd T Y (Fin.last _))) }).exec
          { s with ft := { s.ft with weights := w } }
      | .error e => (.error e, s) := by
  unfold FvDMP.imitate
  simp only [Py.exec_bind, Py.exec_lift, Py.exec_get, Py.exec_modify]
  cases dmpImitateWith m T reg s.ft.overlap s.ft.alphaZ (fvDetermineForces T Y s.alphaY s.betaY) <;> rfl

theorem exec_step (coupling : Option (Coupling d)) (lastY lastYd : Vec d) (s : FvDMP d m) :
    (FvDMP.step coupling lastY lastYd).exec s =
      match (s.beginStep.stepArgs coupling (s.beginStep.currentY - lastY)).fvStep s.t (s.t + s.dt)
          (s.beginStep.currentY, s.beginStep.currentYd) with
      | .ok r => (.ok r, { s.beginStep with currentY := r.1, currentYd := r.2 })
      | .error e => (.error e, s.beginStep) := by
  unfold FvDMP.step
  simp only [Py.exec_bind, Py.exec_lift, Py.exec_get, Py.exec_modify, Py.exec_pure]
  have e : (if s.initialized = true then ({ s with lastT := some s.t, t := s.t + s.dt } : DMP d m) else
      { s with lastT := some s.t, t := s.t + s.dt, currentY := s.startY, currentYd := s.startYd,
               initialized := true }) = s.beginStep := by
    unfold beginStep
    cases s.initialized <;> simp
  rw [e]
  have hl : s.beginStep.lastT.getD 0 = s.t := rfl
  have ht : s.beginStep.t = s.t + s.dt := rfl
  simp only [hl, ht]
  cases (s.beginStep.stepArgs coupling (s.beginStep.currentY - lastY)).fvStep s.t
        (s.t + s.dt) (s.beginStep.currentY, s.beginStep.currentYd) <;> rfl

theorem op_valid (o : FvOp d m) {s s' : FvDMP d m} {r : Except PyErr Unit} (hs : DMP.Valid s)
    (h : o.exec s = (r, s')) (hok : ∀ τ, o = .setExecutionTime τ → r = .ok ()) : DMP.Valid s' := by
  have h' : (o.exec s).2 = s' := by rw [h]
  cases o with
  | step c y yd =>
    simp only [FvOp.exec, exec_step] at h'
    subst h'
    cases (s.beginStep.stepArgs c (s.beginStep.currentY - y)).fvStep s.t (s.t + s.dt)
      (s.beginStep.currentY, s.beginStep.currentYd) <;> exact hs.congr rfl rfl
  | openLoop t c =>
    have : (o : FvDMP d m) → ((FvDMP.openLoop t c).exec o).2 = o := by
      intro o
      unfold FvDMP.openLoop
      simp only [Py.exec_bind, Py.exec_lift, Py.exec_get]
    simp only [FvOp.exec, this] at h'
    subst h'; exact hs
  | configure a => simp only [FvOp.exec] at h'; subst h'; exact hs.congr rfl rfl
  | reset => simp only [FvOp.exec] at h'; subst h'; exact hs.congr rfl rfl
  | setWeights w => exact DMP.op_valid (.setWeights w) hs h (by intro τ h; cases h)
  | setExecutionTime τ => exact DMP.op_valid (.setExecutionTime τ) hs h (fun τ' h => hok τ' (by cases h; rfl))
  | imitate T Y reg =>
    simp only [FvOp.exec, exec_imitate] at h'
    subst h'
    cases dmpImitateWith m T reg s.ft.overlap s.ft.alphaZ (fvDetermineForces T Y s.alphaY s.betaY) <;>
      exact hs.congr rfl rfl

theorem Reachable.valid {s : FvDMP d m} (h : FvDMP.Reachable s) : DMP.Valid s := by
  induction h with
  | create h => exact DMP.create_valid h
  | op o _ h hok ih => exact op_valid o ih h hok

end FvDMP

open Verif.Spec in
/-- **C29.** Imitation of any demonstration that spans a positive time makes start and goal of the polynomial those of
the demonstration: first and last position, velocity and acceleration zero at the start, and at the end the velocity and
acceleration of the last demonstrated step (backward differences). Nothing else but the weights changes. -/
theorem C29_imitate_boundary {s : FvDMP d m} (hs : FvDMP.Reachable s) (T : Fin (n + 3) → ℝ) (Y : Fin (n + 3) → Vec d)
    {reg : ℝ} (hreg : 0 ≤ reg) (hT : T 0 < T (Fin.last _)) :
    let v : Fin (n + 2) → Vec d := fun i k => (Y i.succ k - Y i.castSucc k) / (T i.succ - T i.castSucc)
    let a : Vec d := fun k => (v (Fin.last (n + 1)) k - v (Fin.last n).castSucc k) /
      (T (Fin.last (n + 2)) - T (Fin.last (n + 1)).castSucc)
    ∃ w, (FvDMP.imitate T Y reg).exec s =
      (.ok (), { s with
        startY := Y 0
        startYd := 0
        startYdd := 0
        goalY := Y (Fin.last _)
        goalYd := v (Fin.last _)
        goalYdd := a
        ft := { s.ft with weights := w } }) := by
  intro v a
  obtain ⟨ft, h1, h2⟩ := hs.valid
  rw [DMP.initForcingTerm_ok_iff] at h1
  obtain ⟨e1, e2, e3, e4, hm, _, hov, _⟩ := create_eq h1
  have hov' : s.ft.overlap = 8 / 10 := by rw [h2]; exact e3
  obtain ⟨ft', hft'⟩ : ∃ ft', ForcingTerm.create d m (T (Fin.last (n + 2))) (T 0) s.ft.overlap s.ft.alphaZ = .ok ft' := by
    unfold ForcingTerm.create
    rw [if_neg (by omega), if_neg (not_le.2 hT), if_neg (by rw [hov']; norm_num)]
    exact ⟨_, rfl⟩
  obtain ⟨c, F, _, hF, _⟩ := C30_forces_invert_acceleration T Y s.alphaY s.betaY hT
  rw [FvDMP.exec_imitate, hF, dmpImitateWith_eq hft' hreg]
  refine ⟨ridgeRegression (Matrix.of (ft'.designMatrix T)) (Matrix.of F) reg, ?_⟩
  simp only
  rw [DMP.exec_configure, C25_configure_sets _ _ (by simp [AllOk, FieldOk])]
  have hx : ∀ {n : ℕ} (x o : Vec n), newValue (some (List.ofFn x)) o = x := by
    intro n x o; funext i; simp [newValue]
  simp only [hx]
  have hv0 : fvYd T Y 0 = 0 := rfl
  have ha0 : fvYdd T Y 0 = 0 := rfl
  have hv1 : fvYd T Y (Fin.last (n + 2)) = v (Fin.last _) := rfl
  have ha1 : fvYdd T Y (Fin.last (n + 2)) = a := rfl
  rw [hv0, ha0, hv1, ha1]
  rfl

/-- The hypotheses are met by a newly constructed object and a demonstration with four samples. -/
example : ∃ s : FvDMP 1 2, FvDMP.Reachable s ∧ ∃ T : Fin 4 → ℝ, T 0 < T (Fin.last _) := by
  obtain ⟨s, hs, _⟩ := DMP.create_ok 1 2 le_rfl one_pos (1 / 100) (1 / 1000) 0 false 25 (25 / 4)
  exact ⟨s, .create hs, fun i => i.val, by norm_num⟩

end Verif
