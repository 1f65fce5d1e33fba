import Verif.Props.OrientationIntegration
import Verif.Props.OrientationSpring

/-!
# C77: orientations of spring-damper systems follow their differential equation
-/

namespace Verif
open Spec Quaternion Set

/-- Steps from states of a solution. -/
theorem spring_orientation_error {goal : Vec 4} (hg : UnitQuat goal) {k c t₀ R : ℝ} {q : ℝ → Vec 4} {w : ℝ → Vec 3}
    (h : SolvesSpringOrientation goal k c t₀ R q w) :
    ∃ C, ∀ ε > 0, ∃ H > 0, ∀ (ops : QuatOps) (eps dt intDt : ℝ), LawfulQuatOps ops eps → 0 < eps → 0 < dt → 0 < intDt →
      min intDt dt ≤ H → ∀ xs : ℕ → Vec 4 × Vec 3, xs 0 = (q t₀, w t₀) →
      (∀ i : ℕ, xs (i + 1) = (subSteps intDt (t₀ + (i + 1) * dt) (t₀ + i * dt)).foldl
        (fun x p => geoBody ops goal k c p.1 x) (xs i)) → ∀ i : ℕ, t₀ + i * dt ≤ R →
      rotationAngle (xs i).1 (q (t₀ + i * dt)) < ε + C * eps ∧ (∀ j, |(xs i).1 j - q (t₀ + i * dt) j| < ε + C * eps) ∧
      ∀ j, |(xs i).2 j - w (t₀ + i * dt) j| < ε + C * eps := by
  have hπ := Real.pi_pos
  rcases lt_or_ge R t₀ with hR | hR
  · refine ⟨1, fun ε _ => ⟨1, one_pos, ?_⟩⟩
    intro ops eps dt intDt hops heps hdt hint hle xs hx0 hx i hi
    have : 0 ≤ i * dt := by positivity
    linarith
  have h0 : t₀ ∈ Icc t₀ R := ⟨le_rfl, hR⟩
  have hq : ContinuousOn (fun t => quat (q t)) (Icc t₀ R) := fun t ht => (h.velocity t ht).continuousWithinAt
  obtain ⟨a, b, hb, ha, hba⟩ := exists_rotationTo h.unit hq hg h.angle
  have hac := continuous_rotationTo hq hg hb ha hba
  have hmov : OrientationMovement t₀ R q w (fun t j => k * a t j - c * w t j) := by
    refine ⟨h.unit, h.velocity, fun t ht j => h.acceleration t ht (a t) (ha t ht) j, fun j => ?_⟩
    have h1 := hac j
    have h2 : ContinuousOn (fun t => w t j) (Icc t₀ R) := fun t ht => (h.acceleration t ht (a t) (ha t ht) j).continuousWithinAt
    fun_prop
  obtain ⟨M, hM0, hM⟩ := hmov.run_error hg (fun _ => k) (fun _ => c) hb ha hba
  refine ⟨(Real.pi + 1) * M, fun ε hε => ?_⟩
  obtain ⟨H, hH0, hH⟩ := hM (ε / (2 * ((Real.pi + 1) * M))) (by positivity)
  refine ⟨H, hH0, ?_⟩
  intro ops eps dt intDt hops heps hdt hint hle xs hx0 hx i hi
  have hu0 : UnitQuat (xs 0).1 := by rw [hx0]; exact h.unit t₀ h0
  have key := hH ops eps hops heps (fun _ => 0) (fun _ => 0) H le_rfl (fun _ _ _ _ _ => le_rfl)
    (fun r t hr hrt ht _ => by
      have e : (0 : Vec 3) - requiredAcceleration (fun _ => k) (fun _ => c) a w (fun t j => k * a t j - c * w t j) t = 0 := by
        funext j
        simp only [requiredAcceleration, Pi.sub_apply, Pi.zero_apply]
        ring
      rw [e, length_eq_zero.2 rfl]; simp) dt intDt hdt hint hle xs hu0 (fun i => by
      rw [hx]
      congr 1
      funext x p
      unfold geoBody axisBody
      simp) i hi
  have e0 : stateError (xs 0) (q t₀) (w t₀) = 0 := by
    rw [hx0]; unfold stateError; simp [length_eq_zero.2]
  rw [e0] at key
  have hidt : 0 ≤ (i : ℝ) * dt := by positivity
  have hi' : t₀ + (i : ℝ) * dt ∈ Icc t₀ R := ⟨by linarith, hi⟩
  obtain ⟨k1, k2, k3⟩ := orientation_close key.1 (h.unit _ hi') key.2
  set δ := M * (0 + ε / (2 * ((Real.pi + 1) * M)) + eps + (0 - 0)) with hδ
  have hδ0 : 0 ≤ δ := by positivity
  have hδ1 : (Real.pi + 1) * δ = ε / 2 + (Real.pi + 1) * M * eps := by
    rw [hδ]; field_simp; ring
  have hlt : Real.pi * δ < ε + (Real.pi + 1) * M * eps := by nlinarith
  have hlt' : δ < ε + (Real.pi + 1) * M * eps := by nlinarith
  exact ⟨k1.trans_lt hlt, fun j => (k2 j).trans_lt hlt', fun j => (k3 j).trans_lt hlt'⟩

/-- **C77 (`SpringDamperOrientation.step`).** Let orientations `q` and angular velocities `w` solve the differential equation of a
spring-damper system for orientations from the current time of the object. If the first `step` gets the orientation and angular
velocity of the solution, and each further one the result of the previous one, orientations and angular velocities converge to those
of the solution with the step size, uniformly until time `R`, up to an error that is proportional to the threshold `eps` below which
the quaternion logarithm is 0. -/
theorem C77_spring_orientation_step (s : SpringDamperOrientation) (hg : UnitQuat s.goalY) {R : ℝ} {q : ℝ → Vec 4} {w : ℝ → Vec 3}
    (hsol : SolvesSpringOrientation s.goalY s.k (Spec.damping s.k s.c) s.t R q w) :
    ∃ C, ∀ ε > 0, ∃ h > 0, ∀ (ops : QuatOps) (eps dt intDt : ℝ), LawfulQuatOps ops eps → 0 < eps → 0 < dt → 0 < intDt →
      min intDt dt ≤ h →
      ∀ (obj : ℕ → SpringDamperOrientation) (fb out : ℕ → Vec 4 × Vec 3), obj 0 = { s with dt := dt, intDt := intDt } →
        Spec.Run (SpringDamperOrientation.step ops none) obj fb out → fb 0 = (q s.t, w s.t) → (∀ i, fb (i + 1) = out i) →
        ∀ i : ℕ, s.t + (i + 1) * dt ≤ R →
        rotationAngle (out i).1 (q (s.t + (i + 1) * dt)) < ε + C * eps ∧
        ∀ j, |(out i).2 j - w (s.t + (i + 1) * dt) j| < ε + C * eps := by
  obtain ⟨C, hC⟩ := spring_orientation_error hg hsol
  refine ⟨C, fun ε hε => ?_⟩
  obtain ⟨H, hH0, hH⟩ := hC ε hε
  refine ⟨H, hH0, ?_⟩
  intro ops eps dt intDt hops heps hdt hint hle obj fb out h0 hrun hfb0 hfb i hi
  have key := hH ops eps dt intDt hops heps hdt hint hle fb hfb0 (fun i => by
    have h1 := SpringDamperOrientation.run_objects hrun i
    rw [h0] at h1
    simp only at h1
    rw [springDamperQuatStep_eq _ _ _ hint] at h1
    injection h1 with h1
    rw [hfb, ← h1, show s.t + ((i : ℝ) + 1) * dt = s.t + i * dt + dt by ring]) (i + 1) (by push_cast; exact hi)
  rw [hfb] at key
  push_cast at key
  exact ⟨key.1, key.2.2⟩

/-- **C77 (`SpringDamperOrientation.open_loop`).** Let orientations `q` and angular velocities `w` solve the differential equation of
a spring-damper system for orientations, from its start orientation at rest. The orientations returned by `open_loop` converge to
`q` with the step size, uniformly until time `R`, up to an error that is proportional to the threshold `eps`. -/
theorem C77_spring_orientation_open_loop (s : SpringDamperOrientation) (hg : UnitQuat s.goalY) {R : ℝ} {q : ℝ → Vec 4}
    {w : ℝ → Vec 3} (hsol : SolvesSpringOrientation s.goalY s.k (Spec.damping s.k s.c) 0 R q w) (hq0 : q 0 = s.startY)
    (hw0 : w 0 = 0) :
    ∃ C, ∀ ε > 0, ∃ h > 0, ∀ (ops : QuatOps) (eps dt intDt : ℝ), LawfulQuatOps ops eps → 0 < eps → 0 < dt → 0 < intDt →
      min intDt dt ≤ h →
      (∀ r : ℝ, 0 ≤ r → ∃ T Y,
        ((SpringDamperOrientation.openLoop ops r none).exec { s with dt := dt, intDt := intDt }).1 = .ok (T, Y)) ∧
      ∀ r T Y, ((SpringDamperOrientation.openLoop ops r none).exec { s with dt := dt, intDt := intDt }).1 = .ok (T, Y) →
        T.length = Y.length ∧ ∀ i (hT : i < T.length) (hY : i < Y.length), T[i] ≤ R →
          rotationAngle Y[i] (q T[i]) < ε + C * eps ∧ ∀ j, |Y[i] j - q T[i] j| < ε + C * eps := by
  obtain ⟨C, hC⟩ := spring_orientation_error hg hsol
  refine ⟨C, fun ε hε => ?_⟩
  obtain ⟨H, hH0, hH⟩ := hC ε hε
  refine ⟨H, hH0, ?_⟩
  intro ops eps dt intDt hops heps hdt hint hle
  let nxt : ℕ → Vec 4 × Vec 3 → Vec 4 × Vec 3 := fun i x =>
    (subSteps intDt (arangeAt 0 dt (i + 1)) (arangeAt 0 dt i)).foldl
      (fun x p => geoBody ops s.goalY s.k (Spec.damping s.k s.c) p.1 x) x
  have hnxt : ∀ i x, springDamperQuatStep ops s.goalY s.k s.c none none intDt (arangeAt 0 dt i) (arangeAt 0 dt (i + 1)) x =
      .ok (nxt i x) := fun i x => springDamperQuatStep_eq _ _ _ hint _ _ _
  let xs : ℕ → Vec 4 × Vec 3 := fun i => Nat.rec (s.startY, 0) (fun i x => nxt i x) i
  have hxs : ∀ i, xs (i + 1) = nxt i (xs i) := fun i => rfl
  have hol : ∀ r, ((SpringDamperOrientation.openLoop ops r none).exec { s with dt := dt, intDt := intDt }).1 =
      if arangeLen 0 (r + dt) dt = 0 then .error .indexError
      else .ok ((List.range (arangeLen 0 (r + dt) dt)).map (arangeAt 0 dt),
        (List.range (arangeLen 0 (r + dt) dt)).map (fun i => (xs i).1)) := fun r =>
    openLoopWith_total (goalT := r) (startT := 0) (runT := some r) hdt.ne' hnxt rfl hxs
  constructor
  · intro r hr
    rw [hol]
    have hn : arangeLen 0 (r + dt) dt ≠ 0 := by
      unfold arangeLen
      rw [sub_zero, Ne, Nat.ceil_eq_zero, not_le]
      positivity
    rw [if_neg hn]
    exact ⟨_, _, rfl⟩
  · intro r T Y h
    rw [hol] at h
    split_ifs at h with hz
    simp only [Except.ok.injEq, Prod.mk.injEq] at h
    obtain ⟨rfl, rfl⟩ := h
    refine ⟨by simp, ?_⟩
    intro i hT hY hi
    simp only [List.getElem_map, List.getElem_range] at hi ⊢
    have key := hH ops eps dt intDt hops heps hdt hint hle xs (by rw [hq0, hw0]; rfl) (fun i => by
      rw [hxs]
      simp only [nxt, arangeAt]
      push_cast
      rfl) i hi
    exact ⟨key.1, key.2.1⟩

/-- **C77 (default damping of `SpringDamperOrientation`).** Without the argument `c` the solution turns from the start orientation to
the goal orientation about one fixed axis, the shorter way, without overshoot. It meets the hypotheses of
`C77_spring_orientation_open_loop` for all times. -/
theorem C77_spring_orientation_critically_damped (s : SpringDamperOrientation) (hc : s.c = none) (hk : 0 < s.k)
    (hg : UnitQuat s.goalY) (hstart : UnitQuat s.startY) {a₀ : Vec 3} (ha₀ : IsRotationTo s.goalY s.startY a₀)
    (hlt : length a₀ < Real.pi) (R : ℝ) :
    ∃ q w, SolvesSpringOrientation s.goalY s.k (Spec.damping s.k s.c) 0 R q w ∧ q 0 = s.startY ∧ w 0 = 0 ∧ ∀ t,
      quat (q t) = rot ((1 - (1 + √s.k * t) * Real.exp (-(√s.k * t))) • a₀) * quat s.startY ∧
      w t = (s.k * t * Real.exp (-(√s.k * t))) • a₀ := by
  set c := √s.k with hcd
  have hc0 : 0 < c := Real.sqrt_pos.2 hk
  have hsq : c ^ 2 = s.k := Real.sq_sqrt hk.le
  have hexp : ∀ t : ℝ, HasDerivAt (fun t => Real.exp (-(c * t))) (Real.exp (-(c * t)) * -c) t := by
    intro t
    have : HasDerivAt (fun t : ℝ => -(c * t)) (-c) t := by
      have h := ((hasDerivAt_id t).const_mul c).neg
      rw [mul_one] at h
      exact h
    exact this.exp
  let φ : ℝ → ℝ := fun t => 1 - (1 + c * t) * Real.exp (-(c * t))
  let φ' : ℝ → ℝ := fun t => s.k * t * Real.exp (-(c * t))
  have hφ : ∀ t, HasDerivAt φ (φ' t) t := by
    intro t
    have h1 : HasDerivAt (fun t : ℝ => 1 + c * t) c t := by
      simpa using ((hasDerivAt_id t).const_mul c).const_add 1
    have h2 := ((h1.mul (hexp t)).const_sub 1)
    refine h2.congr_deriv ?_
    simp only [φ', ← hsq]; ring
  have hφ' : ∀ t, HasDerivAt φ' (s.k * Real.exp (-(c * t)) * (1 - c * t)) t := by
    intro t
    have h1 : HasDerivAt (fun t : ℝ => s.k * t) s.k t := by
      simpa using (hasDerivAt_id t).const_mul s.k
    have h2 := h1.mul (hexp t)
    refine h2.congr_deriv ?_
    ring
  -- the remaining rotation
  have hrem : ∀ t, 0 ≤ t → length ((1 - φ t) • a₀) ≤ length a₀ := by
    intro t ht
    have e : 1 - φ t = (1 + c * t) * Real.exp (-(c * t)) := by simp only [φ]; ring
    have h1 : 0 ≤ (1 + c * t) * Real.exp (-(c * t)) := by positivity
    have h2 : (1 + c * t) * Real.exp (-(c * t)) ≤ 1 := by
      have h3 := Real.add_one_le_exp (c * t)
      rw [Real.exp_neg, ← div_eq_mul_inv, div_le_one (Real.exp_pos _)]
      linarith
    rw [e, length_smul, abs_of_nonneg h1]
    have := length_nonneg a₀
    nlinarith
  have hrot : ∀ t, 0 ≤ t → IsRotationTo s.goalY (turn a₀ s.startY (φ t)) ((1 - φ t) • a₀) :=
    fun t ht => ⟨((hrem t ht).trans hlt.le), turn_remaining ha₀.rotation (φ t)⟩
  refine ⟨fun t => turn a₀ s.startY (φ t), fun t => φ' t • a₀, ?_, ?_, ?_, fun t => ⟨quat_turn _ _ _, rfl⟩⟩
  · refine ⟨fun t _ => unit_turn _ hstart _, fun t ht => ?_, fun t _ => turn_velocity _ _ (hφ t).hasDerivWithinAt, ?_⟩
    · rw [(hrot t ht.1).angle]
      exact (hrem t ht.1).trans_lt hlt
    · intro t ht a ha j
      have e1 := (hrot t ht.1).unique hg ha ((hrem t ht.1).trans_lt hlt)
      have h1 := ((hφ' t).mul_const (a₀ j)).hasDerivWithinAt (s := Icc 0 R)
      refine h1.congr_deriv ?_
      rw [e1, hc]
      simp only [Spec.damping, Option.getD_none, Pi.smul_apply, smul_eq_mul, φ, φ', ← hcd]
      ring
  · show turn a₀ _ (φ 0) = _
    have : φ 0 = 0 := by simp [φ]
    rw [this, turn_zero]
  · show φ' 0 • a₀ = 0
    have : φ' 0 = 0 := by simp [φ']
    rw [this, zero_smul]

/-- Such a system exists: it turns by 1 rad about the first axis. -/
example : ∃ (s : SpringDamperOrientation) (a₀ : Vec 3), s.c = none ∧ 0 < s.k ∧ UnitQuat s.goalY ∧ UnitQuat s.startY ∧
    IsRotationTo s.goalY s.startY a₀ ∧ length a₀ < Real.pi ∧ s.goalY ≠ s.startY := by
  have hl : length ![1, 0, 0] = 1 := by simp [length]
  have hp : UnitQuat ![1, 0, 0, 0] := by simp [UnitQuat]
  let g : Vec 4 := turn ![1, 0, 0] ![1, 0, 0, 0] 1
  have hr : IsRotationTo g ![1, 0, 0, 0] ![1, 0, 0] := by
    refine ⟨by rw [hl]; linarith [Real.two_le_pi], .inl ?_⟩
    have : quat ![1, 0, 0, 0] = 1 := by ext <;> simp [quat]
    rw [quat_turn, one_smul, this]; simp
  refine ⟨{ SpringDamperOrientation.create (1 / 100) 25 none (1 / 1000) with startY := ![1, 0, 0, 0], goalY := g }, ![1, 0, 0],
    rfl, by show (0 : ℝ) < 25; norm_num, unit_turn _ hp 1, hp, hr, by rw [hl]; linarith [Real.two_le_pi], ?_⟩
  intro h
  have h12 := hr.angle
  have h13 : rotationAngle g ![1, 0, 0, 0] = 0 := by
    rw [show g = _ from h]; unfold rotationAngle; simp [Fin.sum_univ_four]
  rw [h13, hl] at h12
  norm_num at h12

end Verif
