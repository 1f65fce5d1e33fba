import Verif.Props.OrientationCartesian
import Verif.Props.SmallChanges
import Verif.Props.CartesianClass
import Mathlib.Analysis.Real.Pi.Bounds

/-! # C104 for Cartesian DMPs: positions, and a finding about orientations -/

namespace Verif
open Filter Topology Spec Quaternion
variable {m : ℕ} {ops : QuatOps} {eps : ℝ} {g q₀ : Vec 4} {u : Vec 3} {θ₀ K C θ ω : ℝ} {s : Vec 4 × Vec 3}

/-- Two movements to goals on opposite sides, at the same angle, remain mirror images of each other; the angle that is covered by a
list of sub-steps is bounded by their duration. -/
theorem OnPath.foldl_mirror {g₁ g₂ : Vec 4} {u₁ u₂ : Vec 3} (hops : LawfulQuatOps ops eps) (heps : 0 < eps)
    (hs₁ : GeoStart ops g₁ q₀ u₁ θ₀) (hs₂ : GeoStart ops g₂ q₀ u₂ θ₀) (hK : 0 < K) (hC : 0 < C) (hKC : 4 * K ≤ C ^ 2) :
    ∀ (L : List (ℝ × ℝ)), (∀ p ∈ L, 0 < p.1 ∧ p.1 * C ≤ 1) →
      ∀ {θ ω : ℝ} {s₁ s₂ : Vec 4 × Vec 3}, OnPath ops g₁ q₀ u₁ θ₀ C θ ω s₁ → OnPath ops g₂ q₀ u₂ θ₀ C θ ω s₂ →
      ∃ θ' ω', OnPath ops g₁ q₀ u₁ θ₀ C θ' ω' (L.foldl (fun s p => geoBody ops g₁ K C p.1 s) s₁) ∧
        OnPath ops g₂ q₀ u₂ θ₀ C θ' ω' (L.foldl (fun s p => geoBody ops g₂ K C p.1 s) s₂) ∧
        θ - θ' ≤ (L.map Prod.fst).sum * (C / 2 * θ₀) := by
  intro L
  induction L with
  | nil => intro _ θ ω s₁ s₂ h₁ h₂; exact ⟨θ, ω, h₁, h₂, by simp⟩
  | cons p L ih =>
    intro hL θ ω s₁ s₂ h₁ h₂
    obtain ⟨hp, hpC⟩ := hL p (by simp)
    obtain ⟨ω₁, o₁, hω₁, e₁⟩ := h₁.step hops heps hs₁ hK hC hKC hp hpC
    obtain ⟨ω₂, o₂, -, e₂⟩ := h₂.step hops heps hs₂ hK hC hKC hp hpC
    rw [← e₁] at e₂
    subst e₂
    obtain ⟨θ', ω', r₁, r₂, hb⟩ := ih (fun q hq => hL q (by simp [hq])) o₁ o₂
    refine ⟨θ', ω', r₁, r₂, ?_⟩
    have hw : ω₂ ≤ C / 2 * θ₀ := o₁.cone.trans (mul_le_mul_of_nonneg_left o₁.hle (by positivity))
    have := mul_le_mul_of_nonneg_left hw hp.le
    rw [List.map_cons, List.sum_cons, add_mul]
    linarith

/-- Two runs of a quaternion step function from rest to goals on opposite sides, at the same angle: there is a row at which they differ
by at least 90 degrees. -/
theorem quat_run_mirror {a₁ a₂ : QuatStepArgs m} {qf : QuatStepFunction} (hqf : StepThreshold qf eps) (heps1 : eps ≤ 1 / 2)
    {g₁ g₂ : Vec 4} (h₁ : a₁ = { a₂ with goalY := g₁ }) (h₂ : a₂.goalY = g₂)
    (hc : a₂.coupling = none) (hp : a₂.precomputed = none)
    (hT : a₂.startT < a₂.goalT) (hint : 0 < a₂.intDt) (hw : ∀ k i, a₂.ft.weights k i = 0) (hsm : a₂.smooth = false)
    (hg₁ : UnitQuat g₁) (hg₂ : UnitQuat g₂) {α β : ℝ} (hα : ∀ k, a₂.alphaY k = α) (hβ : ∀ k, a₂.betaY k = β) (hβ0 : 0 < β)
    (hαβ : 4 * β ≤ α) (hst : a₂.intDt * α ≤ a₂.goalT - a₂.startT) {dt t0 : ℝ} (hdt : 0 < dt) (ht0 : a₂.startT ≤ t0)
    (hrows : 4 * (dt * α) ≤ a₂.goalT - a₂.startT)
    (hq : UnitQuat q₀) (hu : length u = 1) (h0 : 2 ≤ θ₀) (hπ : θ₀ < Real.pi)
    (he₁ : quat g₁ = NormedSpace.exp ((1 / 2 : ℝ) • Spec.pure (θ₀ • u)) * quat q₀)
    (he₂ : quat g₂ = -NormedSpace.exp ((1 / 2 : ℝ) • Spec.pure (θ₀ • (-u))) * quat q₀)
    {xs ys : ℕ → Vec 4 × Vec 3} (hx0 : xs 0 = (q₀, 0)) (hy0 : ys 0 = (q₀, 0))
    (hx : ∀ i : ℕ, qf.run a₁ (t0 + i * dt) (t0 + (i + 1) * dt) (xs i) = .ok (xs (i + 1)))
    (hy : ∀ i : ℕ, qf.run a₂ (t0 + i * dt) (t0 + (i + 1) * dt) (ys i) = .ok (ys (i + 1))) :
    ∃ i, Real.pi / 2 ≤ rotationAngle (xs i).1 (ys i).1 := by
  have hdirect : DirectApproach a₁.goalY q₀ eps xs := by
    subst h₁
    exact quat_run_direct (a := { a₂ with goalY := g₁ }) hqf (by linarith) hc hp hT hint hw hsm hg₁ hα hβ hβ0 hαβ hst hdt ht0 hq hx0 hx
  obtain ⟨heps, hops⟩ := stepThreshold_lawful hqf
  have hα0 : 0 < α := by linarith
  have hτ : 0 < a₂.goalT - a₂.startT := by linarith
  have hK : 0 < α * β / (a₂.goalT - a₂.startT) ^ 2 := by positivity
  have hC : 0 < α / (a₂.goalT - a₂.startT) := by positivity
  have hKC : 4 * (α * β / (a₂.goalT - a₂.startT) ^ 2) ≤ (α / (a₂.goalT - a₂.startT)) ^ 2 := by
    rw [div_pow, ← mul_div_assoc]
    apply div_le_div_of_nonneg_right _ (by positivity)
    nlinarith
  have hqq : quat q₀ * star (quat q₀) = 1 := by
    rw [Quaternion.self_mul_star, (isUnit_iff_normSq q₀).1 hq]; rfl
  have hu' : length (-u) = 1 := by rw [← hu]; simp [length]
  have hs₁ : GeoStart qf.quatOps g₁ q₀ u θ₀ := ⟨hg₁, hq, hu, by linarith, hπ.le,
    .inl (by rw [he₁, mul_assoc, hqq, mul_one]), .inl hπ⟩
  have hs₂ : GeoStart qf.quatOps g₂ q₀ (-u) θ₀ := ⟨hg₂, hq, hu', by linarith, hπ.le,
    .inr (by rw [he₂, mul_assoc, hqq, mul_one]), .inl hπ⟩
  have hst' : a₂.intDt * (α / (a₂.goalT - a₂.startT)) ≤ 1 := by
    rw [← mul_div_assoc, div_le_one hτ]; exact hst
  have hF₂ : ∀ t, a₂.forcing qf.quatOps t = 0 := by
    intro t
    funext k
    simp [QuatStepArgs.forcing, hsm, C04_force_zero a₂.ft k (hw k), ForcingTerm.call]
  have hF₁ : ∀ t, a₁.forcing qf.quatOps t = 0 := by
    subst h₁
    intro t
    funext k
    simp [QuatStepArgs.forcing, hsm, C04_force_zero a₂.ft k (hw k), ForcingTerm.call]
  set C := α / (a₂.goalT - a₂.startT) with hCdef
  set K := α * β / (a₂.goalT - a₂.startT) ^ 2 with hKdef
  have hrC : dt * (C / 2 * θ₀) ≤ θ₀ / 8 := by
    have : dt * C ≤ 1 / 4 := by
      rw [hCdef, ← mul_div_assoc, div_le_iff₀ hτ]
      linarith
    have := mul_le_mul_of_nonneg_right this (show 0 ≤ θ₀ by linarith)
    linarith
  have hrow : ∀ i θ ω, OnPath qf.quatOps g₁ q₀ u θ₀ C θ ω (xs i) → OnPath qf.quatOps g₂ q₀ (-u) θ₀ C θ ω (ys i) →
      ∃ θ' ω', OnPath qf.quatOps g₁ q₀ u θ₀ C θ' ω' (xs (i + 1)) ∧ OnPath qf.quatOps g₂ q₀ (-u) θ₀ C θ' ω' (ys (i + 1)) ∧
        θ - θ' ≤ θ₀ / 8 := by
    intro i θ ω o₁ o₂
    obtain ⟨p, L, -, h5, h6⟩ := subSteps_nonempty (t := t0 + i * dt) hint hdt hC hst'
    have htot := (subSteps_isPartition hint (t0 + i * dt) (show t0 + i * dt ≤ t0 + i * dt + dt by linarith)).total
    rw [h6, add_sub_cancel_left] at htot
    have hpos : 0 < ((i : ℝ) + 1) * dt := by positivity
    have e : t0 + ((i : ℝ) + 1) * dt = t0 + i * dt + dt := by ring
    obtain ⟨θ', ω', r₁, r₂, hb⟩ := o₁.foldl_mirror hops heps hs₁ hs₂ hK hC hKC (p :: L) h5 o₂
    rw [htot] at hb
    refine ⟨θ', ω', ?_, ?_, hb.trans hrC⟩
    · have h4 := hx i
      subst h₁
      rw [QuatStepFunction.run_eq (a := { a₂ with goalY := g₁ }) hc hp hT hint (by
        show a₂.startT < _
        linarith), e] at h4
      have h6' : subSteps ({ a₂ with goalY := g₁ } : QuatStepArgs m).intDt (t0 + i * dt + dt) (t0 + i * dt) = p :: L := h6
      rw [h6'] at h4
      injection h4 with h4
      rw [← h4]
      simp only [QuatStepArgs.update_forced { a₂ with goalY := g₁ } qf.quatOps hα hβ hT, hF₁]
      simpa only [forcedBody, geoBody, Pi.zero_apply, add_zero] using r₁
    · have h4 := hy i
      rw [QuatStepFunction.run_eq hc hp hT hint (by linarith), e, h6] at h4
      injection h4 with h4
      rw [← h4]
      simp only [a₂.update_forced qf.quatOps hα hβ hT, hF₂, h₂]
      simpa only [forcedBody, geoBody, Pi.zero_apply, add_zero] using r₂
  have hall : ∀ i, ∃ θ ω, OnPath qf.quatOps g₁ q₀ u θ₀ C θ ω (xs i) ∧ OnPath qf.quatOps g₂ q₀ (-u) θ₀ C θ ω (ys i) := by
    intro i
    induction i with
    | zero => exact ⟨θ₀, 0, by rw [hx0]; exact OnPath.start hs₁ hC, by rw [hy0]; exact OnPath.start hs₂ hC⟩
    | succ i ih =>
      obtain ⟨θ, ω, o₁, o₂⟩ := ih
      obtain ⟨θ', ω', r₁, r₂, -⟩ := hrow i θ ω o₁ o₂
      exact ⟨θ', ω', r₁, r₂⟩
  have hgoal : a₁.goalY = g₁ := by rw [h₁]
  rw [hgoal] at hdirect
  -- an index at which the angle that is left is at most 3/4 pi
  have hex : ∃ i, rotationAngle g₁ (xs i).1 ≤ θ₀ - Real.pi / 4 := by
    obtain ⟨i, hi⟩ := hdirect.reaches.exists
    refine ⟨i, ?_⟩
    obtain ⟨θ, ω, o₁, -⟩ := hall i
    rw [o₁.angle hs₁ hC] at hi ⊢
    by_contra hlt
    rw [not_le] at hlt
    have h6 := sin_half_mono (a := Real.pi / 3) (b := θ) (by positivity) (by linarith [Real.pi_lt_d2]) (o₁.hle.trans hπ.le)
    rw [show Real.pi / 3 / 2 = Real.pi / 6 by ring, Real.sin_pi_div_six] at h6
    linarith
  classical
  set n := Nat.find hex with hn
  have hn1 : rotationAngle g₁ (xs n).1 ≤ θ₀ - Real.pi / 4 := Nat.find_spec hex
  have hpos : n ≠ 0 := by
    intro h
    rw [h] at hn1
    have h7 := (OnPath.start hs₁ hC).angle hs₁ hC
    rw [hx0] at hn1
    rw [h7] at hn1
    linarith [Real.pi_pos]
  obtain ⟨k, hk⟩ := Nat.exists_eq_succ_of_ne_zero hpos
  have hn2 : θ₀ - Real.pi / 4 < rotationAngle g₁ (xs k).1 := by
    have := Nat.find_min hex (m := k) (by omega)
    exact not_le.1 this
  obtain ⟨θ, ω, o₁, o₂⟩ := hall k
  obtain ⟨θ', ω', r₁, r₂, hb⟩ := hrow k θ ω o₁ o₂
  rw [o₁.angle hs₁ hC] at hn2
  rw [hk, r₁.angle hs₁ hC] at hn1
  refine ⟨k + 1, ?_⟩
  rw [rotationAngle_eq (θ := (θ₀ - θ') + (θ₀ - θ')) hu (by linarith [Real.pi_pos]) (by linarith [Real.pi_pos]) (.inl (by
    rw [r₁.path, r₂.path, star_mul, mul_assoc, ← mul_assoc (quat _) (star (quat _)), hqq, one_mul, star_exp_axis, exp_add_axis]
    congr 4
    rw [smul_neg, neg_smul, neg_neg]))]
  linarith

/-- Unit quaternion of a rotation about the z-axis by an angle of almost `π`, multiplied with an orientation. -/
theorem exists_antipodal (hq : UnitQuat q₀) {δ : ℝ} (hδ : 0 < δ) :
    ∃ (g₁ g₂ : Vec 4) (θ₀ : ℝ) (u : Vec 3), UnitQuat g₁ ∧ UnitQuat g₂ ∧ Close δ g₁ g₂ ∧ length u = 1 ∧ 2 ≤ θ₀ ∧
      θ₀ < Real.pi ∧ quat g₁ = NormedSpace.exp ((1 / 2 : ℝ) • Spec.pure (θ₀ • u)) * quat q₀ ∧
      quat g₂ = -NormedSpace.exp ((1 / 2 : ℝ) • Spec.pure (θ₀ • (-u))) * quat q₀ := by
  set ε := min δ 1 with hε
  have hε0 : 0 < ε := lt_min hδ one_pos
  have hε1 : ε ≤ 1 := min_le_right _ _
  have hεδ : ε ≤ δ := min_le_left _ _
  set θ := Real.pi - ε with hθ
  have hπ3 := Real.pi_gt_three
  set u : Vec 3 := ![0, 0, 1] with hu
  have hlu : length u = 1 := by simp [hu, length]
  have hlu' : length (-u) = 1 := by simp [hu, length]
  have hsq : ∀ φ : ℝ, UnitQuat ![Real.cos (φ / 2), 0, 0, Real.sin (φ / 2)] := by
    intro φ
    show _ = _
    simp [Real.cos_sq_add_sin_sq]
  have hexp : ∀ φ : ℝ, quat ![Real.cos (φ / 2), 0, 0, Real.sin (φ / 2)] =
      NormedSpace.exp ((1 / 2 : ℝ) • Spec.pure (φ • u)) := by
    intro φ
    rw [exp_axis hlu]
    ext <;> simp [hu]
  have hneg : θ • (-u) = (-θ) • u := by rw [smul_neg, neg_smul]
  have hsq' : UnitQuat (-(![Real.cos (-θ / 2), 0, 0, Real.sin (-θ / 2)] : Vec 4)) := by
    have := hsq (-θ)
    unfold UnitQuat at this ⊢
    simp
  refine ⟨hamilton ![Real.cos (θ / 2), 0, 0, Real.sin (θ / 2)] q₀,
    hamilton (-![Real.cos (-θ / 2), 0, 0, Real.sin (-θ / 2)]) q₀, θ, u, isUnit_hamilton (hsq θ) hq,
    isUnit_hamilton hsq' hq, ?_, hlu, by linarith, by linarith, ?_, ?_⟩
  · have hc : Real.cos (θ / 2) = Real.sin (ε / 2) := by
      rw [hθ, sub_div, Real.cos_pi_div_two_sub]
    have hs0 : 0 ≤ Real.sin (ε / 2) := Real.sin_nonneg_of_nonneg_of_le_pi (by linarith) (by linarith)
    have hs1 : Real.sin (ε / 2) ≤ ε / 2 := Real.sin_le (by linarith)
    have hb : ∀ k, |q₀ k| ≤ 1 := by
      intro k
      have h1 : q₀ 0 ^ 2 + q₀ 1 ^ 2 + q₀ 2 ^ 2 + q₀ 3 ^ 2 = 1 := by
        rw [← normSq_quat]; exact (isUnit_iff_normSq q₀).1 hq
      rw [← sq_le_one_iff_abs_le_one]
      have a0 := sq_nonneg (q₀ 0)
      have a1 := sq_nonneg (q₀ 1)
      have a2 := sq_nonneg (q₀ 2)
      have a3 := sq_nonneg (q₀ 3)
      fin_cases k
      · show q₀ 0 ^ 2 ≤ 1; linarith
      · show q₀ 1 ^ 2 ≤ 1; linarith
      · show q₀ 2 ^ 2 ≤ 1; linarith
      · show q₀ 3 ^ 2 ≤ 1; linarith
    intro k
    have e : hamilton ![Real.cos (θ / 2), 0, 0, Real.sin (θ / 2)] q₀ k -
        hamilton (-![Real.cos (-θ / 2), 0, 0, Real.sin (-θ / 2)]) q₀ k = 2 * Real.sin (ε / 2) * q₀ k := by
      rw [← hc, neg_div, Real.cos_neg, Real.sin_neg]
      fin_cases k <;> simp [hamilton] <;> ring
    rw [e, abs_mul, abs_of_nonneg (by positivity)]
    have := mul_le_mul_of_nonneg_left (hb k) (show 0 ≤ 2 * Real.sin (ε / 2) by positivity)
    linarith
  · rw [quat_hamilton, hexp]
  · rw [quat_hamilton, hneg, ← hexp]
    congr 1

/-- The DMP of the positions of a Cartesian DMP. -/
def CartesianDMP.positionDmp (s : CartesianDMP m) : DMP 3 m :=
  { Movement.init 3 3 with
    startY := position s.startY, goalY := position s.goalY
    executionTime := s.executionTime, dt := s.dt, intDt := s.intDt, pGain := 0, smooth := s.smooth, ft := s.ftPos
    alphaY := linear s.alphaY, betaY := linear s.betaY, initialized := false }

theorem CartesianDMP.SamePositionSystem.dmp {s₁ s₂ : CartesianDMP m} (h : s₁.SamePositionSystem s₂) :
    s₁.positionDmp.SameSystem s₂.positionDmp :=
  ⟨rfl, rfl, h.executionTime, h.dt, h.intDt, rfl, h.smooth, h.ft, h.alphaY, h.betaY, rfl⟩

/-- C104 (positions of a `CartesianDMP`): whatever happens to the orientations, small changes of start, goal and weights of
the position have small effects on the positions of all rows. -/
theorem C104_cartesian_positions {s : CartesianDMP m} (hs : s.Reachable) (hτ : 0 < s.executionTime) {name : String}
    {sf : StepFunction} (hname : StepFunction.lookup name = .ok sf) (hdt : 0 < s.dt)
    (hgain : ∀ k, 0 < linear s.alphaY k ∧ 0 < linear s.betaY k)
    (hst : ∀ k, Spec.Stable sf s.dt s.intDt s.executionTime (linear s.alphaY k) (linear s.betaY k)) :
    ∃ K : ℝ, 0 ≤ K ∧ ∀ (δ : ℝ) (s₁ s₂ : CartesianDMP m), s.SamePositionSystem s₁ → CartesianDMP.NearPositions δ s₁ s₂ →
      ∀ ops qname runT T₁ Y₁ T₂ Y₂,
      ((CartesianDMP.openLoop ops runT none name qname).exec s₁).1 = .ok (T₁, Y₁) →
      ((CartesianDMP.openLoop ops runT none name qname).exec s₂).1 = .ok (T₂, Y₂) →
      CloseRows (K * δ) (T₁, Y₁.map position) (T₂, Y₂.map position) := by
  obtain ⟨⟨d1, d2⟩, -⟩ := hs.decays
  obtain ⟨K, hK, h⟩ := DMP.openLoop_lipschitz (s := s.positionDmp) hs.valid.two d1 d2 hτ hname hdt hgain hst
  refine ⟨K, hK, fun δ s₁ s₂ h₁ h₂ ops qname runT T₁ Y₁ T₂ Y₂ r₁ r₂ => ?_⟩
  have e₁ := C33_position_is_regular_dmp s₁ s₁.positionDmp rfl rfl rfl rfl rfl rfl rfl rfl rfl r₁
  have e₂ := C33_position_is_regular_dmp s₂ s₂.positionDmp rfl rfl rfl rfl rfl rfl rfl rfl rfl r₂
  rw [Option.map_none] at e₁ e₂
  have hn : DMP.Near δ s₁.positionDmp s₂.positionDmp := ⟨h₂.system.dmp, h₂.start, h₂.goal, h₂.weights⟩
  exact h δ s₁.positionDmp s₂.positionDmp h₁.dmp hn runT _ _ e₁ e₂

/-- Default Cartesian DMPs meet the hypotheses of `C104_cartesian_positions`; goals that differ by 1 mm and anything in the
orientations make them near. -/
example : ∃ s : CartesianDMP 10, s.Reachable ∧ 0 < s.executionTime ∧ 0 < s.dt ∧
    (∀ k, 0 < linear s.alphaY k ∧ 0 < linear s.betaY k) ∧
    (∀ k, Spec.Stable .rk4Cython s.dt s.intDt s.executionTime (linear s.alphaY k) (linear s.betaY k)) ∧
    CartesianDMP.NearPositions (1 / 1000) s { s with goalY := ![1 / 1000, 0, 0, 0, 0, 1, 0] } := by
  obtain ⟨s, hs, h1, h2, h3, h4, h5, h6, h7, h8, h9, h10, h11⟩ := CartesianDMP.create_ok 10 (by norm_num) one_pos (1 / 100)
    (1 / 1000) false 25 (25 / 4)
  have hl : ∀ (x : ℝ) k, linear (fun _ => x) k = x := by intro x k; fin_cases k <;> rfl
  refine ⟨s, .create hs, ?_⟩
  simp only [h2, h3, h4, h6, h7, hl]
  refine ⟨by norm_num, by norm_num, fun k => ⟨by norm_num, by norm_num⟩,
    fun k => .rk4 (Or.inr rfl) (by norm_num) (by norm_num), ⟨⟨h2.symm, h3.symm, h4.symm, rfl, rfl, ?_, ?_⟩, ?_, ?_, ?_⟩⟩
  · show linear (fun _ => 25) = linear s.alphaY
    rw [h6]
  · show linear (fun _ => 25 / 4) = linear s.betaY
    rw [h7]
  · exact fun k => by
      show |position s.startY k - position s.startY k| ≤ _
      rw [sub_self, abs_zero]; norm_num
  · have hg : s.goalY = 0 := by
      have : s.toMovement.goalY = (Movement.init (3 + 4) (3 + 3)).goalY := by rw [h1]
      exact this
    intro k
    show |position s.goalY k - position _ k| ≤ _
    rw [hg]
    fin_cases k
    · norm_num [position]
    · norm_num [position]
    · show |(0 : ℝ) - 0| ≤ 1 / 1000
      norm_num
  · exact fun k i => by
      show |s.ftPos.weights k i - s.ftPos.weights k i| ≤ _
      rw [sub_self, abs_zero]; norm_num

section
variable {s : CartesianDMP m} {sf : StepFunction} {qf : QuatStepFunction} {name qname : String}

/-- C104 (finding): movements of a `CartesianDMP` do not depend continuously on the goal orientation. Even with zero
rotational weights and critically damped gains there are two goal orientations, arbitrarily close to each other, such that
the trajectories computed by `open_loop` differ by 90 degrees or more at some time: close to a rotation by 180 degrees the
way to the goal changes its direction. -/
theorem C104_orientation_jump (hname : StepFunction.lookup name = .ok sf)
    (hqname : QuatStepFunction.lookup ops qname = .ok qf) (hqf : StepThreshold qf eps) (heps1 : eps ≤ 1 / 2) (hdt : 0 < s.dt)
    (hτ : 0 < s.executionTime) (hw : ∀ w ∈ s.getWeights.drop (3 * m), w = 0) (hsm : s.smooth = false)
    {α' β' : ℝ} (hst : Spec.Stable sf s.dt s.intDt s.executionTime α' β')
    {α β : ℝ} (hα : ∀ k, angular s.alphaY k = α) (hβ : ∀ k, angular s.betaY k = β) (hβ0 : 0 < β) (hαβ : 4 * β ≤ α)
    (hint : 0 < s.intDt) (hrot : s.intDt * α ≤ s.executionTime) (hrows : 4 * (s.dt * α) ≤ s.executionTime)
    (hq : UnitQuat (orientation s.startY)) {δ : ℝ} (hδ : 0 < δ) :
    ∃ g₁ g₂ : Vec 4, UnitQuat g₁ ∧ UnitQuat g₂ ∧ Close δ g₁ g₂ ∧ ∃ R : ℝ, ∀ runT, R ≤ runT →
      ∃ T₁ Y₁ T₂ Y₂,
        ((CartesianDMP.openLoop ops (some runT) none name qname).exec
          { s with goalY := hstack (position s.goalY) g₁ }).1 = .ok (T₁, Y₁) ∧
        ((CartesianDMP.openLoop ops (some runT) none name qname).exec
          { s with goalY := hstack (position s.goalY) g₂ }).1 = .ok (T₂, Y₂) ∧
        ∃ i, ∃ (h₁ : i < Y₁.length) (h₂ : i < Y₂.length),
          Real.pi / 2 ≤ rotationAngle (orientation Y₁[i]) (orientation Y₂[i]) := by
  obtain ⟨g₁, g₂, θ₀, u, hg₁, hg₂, hcl, hu, hθ2, hθπ, he₁, he₂⟩ := exists_antipodal hq hδ
  refine ⟨g₁, g₂, hg₁, hg₂, hcl, ?_⟩
  have hw' := CartesianDMP.rot_weights_zero hw
  obtain ⟨ps₁, xs, -, hx0, -, hx, hol₁⟩ := CartesianDMP.openLoop_rows (s := { s with goalY := hstack (position s.goalY) g₁ })
    hname hqname hdt hτ hint hst
  obtain ⟨ps₂, ys, -, hy0, -, hy, hol₂⟩ := CartesianDMP.openLoop_rows (s := { s with goalY := hstack (position s.goalY) g₂ })
    hname hqname hdt hτ hint hst
  obtain ⟨i, hi⟩ := quat_run_mirror (a₁ := CartesianDMP.rotOpenLoopArgs { s with goalY := hstack (position s.goalY) g₁ } none)
    (a₂ := CartesianDMP.rotOpenLoopArgs { s with goalY := hstack (position s.goalY) g₂ } none)
    (dt := s.dt) (t0 := 0) (q₀ := orientation s.startY) (u := u) (θ₀ := θ₀) (α := α) (β := β) (xs := xs) (ys := ys)
    (g₁ := g₁) (g₂ := g₂) hqf heps1
    (by
      have e : sliceFrom (hstack (position s.goalY) g₁) = g₁ := sliceFrom_hstack _ _
      simp only [CartesianDMP.rotOpenLoopArgs, CartesianDMP.rotArgs, e])
    (sliceFrom_hstack _ _) rfl rfl hτ hint hw' hsm hg₁ hg₂
    (fun k => by rw [angular_eq] at hα; exact hα k) (fun k => by rw [angular_eq] at hβ; exact hβ k) hβ0 hαβ
    (by show s.intDt * α ≤ s.executionTime - 0; rw [sub_zero]; exact hrot) hdt le_rfl
    (by show 4 * (s.dt * α) ≤ s.executionTime - 0; rw [sub_zero]; exact hrows) hq hu hθ2 hθπ he₁ he₂
    (by rw [hx0, orientation_eq]) (by rw [hy0, orientation_eq]) hx hy
  refine ⟨i * s.dt, fun runT hR => ?_⟩
  have hn : i < arangeLen 0 (runT + s.dt) s.dt := by
    unfold arangeLen
    rw [sub_zero, Nat.lt_ceil, lt_div_iff₀ hdt]
    linarith
  have hn0 : ¬ arangeLen 0 (runT + s.dt) s.dt = 0 := by omega
  refine ⟨_, _, _, _, (hol₁ (some runT)).trans (if_neg hn0), (hol₂ (some runT)).trans (if_neg hn0), i, by
    rw [List.length_map, List.length_range]; exact hn, by
    rw [List.length_map, List.length_range]; exact hn, ?_⟩
  simp only [List.getElem_map, List.getElem_range]
  rw [orientation_eq (hstack (ps₁ i).1 _), orientation_eq (hstack (ps₂ i).1 _), sliceFrom_hstack, sliceFrom_hstack]
  exact hi

end

/-- A Cartesian DMP with the default parameters of the constructor, execution time 1 s and no rotation at its start meets the
hypotheses of `C104_orientation_jump`. -/
example {δ : ℝ} (hδ : 0 < δ) : ∃ s : CartesianDMP 10, s.Reachable ∧ s.dt = 1 / 100 ∧ s.intDt = 1 / 1000 ∧ s.executionTime = 1 ∧
    ∃ g₁ g₂ : Vec 4, Close δ g₁ g₂ ∧ ∃ R : ℝ, ∀ runT, R ≤ runT → ∃ T₁ Y₁ T₂ Y₂,
        ((CartesianDMP.openLoop QuatOps.cython (some runT) none "rk4-cython" "cython").exec
          { s with goalY := hstack (position s.goalY) g₁ }).1 = .ok (T₁, Y₁) ∧
        ((CartesianDMP.openLoop QuatOps.cython (some runT) none "rk4-cython" "cython").exec
          { s with goalY := hstack (position s.goalY) g₂ }).1 = .ok (T₂, Y₂) ∧
        ∃ i, ∃ (h₁ : i < Y₁.length) (h₂ : i < Y₂.length),
          Real.pi / 2 ≤ rotationAngle (orientation Y₁[i]) (orientation Y₂[i]) := by
  obtain ⟨s, hs, h1, h2, h3, h4, h5, h6, h7, h8, h9, h10, h11⟩ := CartesianDMP.create_ok 10 (by norm_num) one_pos (1 / 100)
    (1 / 1000) false 25 (25 / 4)
  let a : ConfigArgs := { startY := some [0, 0, 0, 1, 0, 0, 0] }
  let s' := (CartesianOp.configure (m := 10) a).after s
  have hc : s' = { s with startY := ![0, 0, 0, 1, 0, 0, 0] } := by
    show ((CartesianDMP.configure a).exec s).2 = _
    rw [CartesianDMP.exec_configure, C25_configure_sets _ _ (by simp [AllOk, FieldOk, a])]
    have e1 : newValue (some [0, 0, 0, 1, 0, 0, 0]) s.startY = ![0, 0, 0, 1, 0, 0, 0] := by
      funext i; fin_cases i <;> rfl
    simp only [a, e1]
    rfl
  have hr : s'.Reachable := .op _ (.create hs)
  have ha : ∀ (x : ℝ) k, angular (fun _ => x) k = x := by intro x k; fin_cases k <;> rfl
  refine ⟨s', hr, ?_⟩
  rw [hc]
  refine ⟨h3, h4, h2, ?_⟩
  obtain ⟨g₁, g₂, -, -, hcl, hR⟩ := C104_orientation_jump (s := { s with startY := ![0, 0, 0, 1, 0, 0, 0] }) (ops := QuatOps.cython)
    (sf := .rk4Cython) (qf := .cython) (name := "rk4-cython") (qname := "cython") (eps := 1 / 10 ^ 16) (α := 25) (β := 25 / 4)
    (α' := 25) (β' := 25 / 4) rfl rfl rfl (by norm_num)
    (by show 0 < s.dt; rw [h3]; norm_num) (by show 0 < s.executionTime; rw [h2]; norm_num)
    (by
      intro w hw
      unfold CartesianDMP.getWeights at hw
      rw [List.drop_left' (by simp), List.mem_ofFn] at hw
      obtain ⟨i, rfl⟩ := hw
      simp only [h9])
    h5 (by
      show Spec.Stable .rk4Cython s.dt s.intDt s.executionTime 25 (25 / 4)
      rw [h2, h3, h4]
      exact .rk4 (Or.inr rfl) (by norm_num) (by norm_num))
    (fun k => by show angular s.alphaY k = 25; rw [h6, ha]) (fun k => by show angular s.betaY k = 25 / 4; rw [h7, ha]) (by norm_num)
    (by norm_num) (by show 0 < s.intDt; rw [h4]; norm_num)
    (by show s.intDt * 25 ≤ s.executionTime; rw [h2, h4]; norm_num)
    (by show 4 * (s.dt * 25) ≤ s.executionTime; rw [h2, h3]; norm_num)
    (by simp [UnitQuat, orientation]) hδ
  exact ⟨g₁, g₂, hcl, hR⟩

end Verif
