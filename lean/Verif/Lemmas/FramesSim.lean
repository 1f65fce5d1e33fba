import Verif.Lemmas.Frames
import Verif.Props.Equivariance

/-! # Simulations: linear maps, world frames, time scaling of orientations -/

namespace Verif
open Spec
variable {d d' m : ℕ}

/-- Arguments mapped by a linear map `P` and an offset `b`; `c'` is the coupling term in the new coordinates. -/
def StepArgs.affine (a : StepArgs d m) (P : Vec d →ₗ[ℝ] Vec d') (b : Vec d') (α β : ℝ) (c' : Option (Coupling d')) :
    StepArgs d' m :=
  { goalY := P a.goalY + b, goalYd := P a.goalYd, goalYdd := P a.goalYdd
    startY := P a.startY + b, startYd := P a.startYd, startYdd := P a.startYdd
    goalT := a.goalT, startT := a.startT, alphaY := fun _ => α, betaY := fun _ => β
    ft := a.ft.mapWeights P, coupling := c', precomputed := a.precomputed.map (fun q => (P q.1, P q.2))
    intDt := a.intDt, pGain := a.pGain, trackingError := P a.trackingError, smooth := a.smooth }

theorem CouplingMapped.cases {P : Vec d →ₗ[ℝ] Vec d'} {b : Vec d'} {c : Option (Coupling d)}
    {c' : Option (Coupling d')} (h : CouplingMapped P b c c') : (c = none ∧ c' = none) ∨
    ∃ f f', c = some f ∧ c' = some f' ∧ ∀ y v, f' (P y + b) (P v) = (P (f y v).1, P (f y v).2) := by
  rcases c with _ | f <;> rcases c' with _ | f'
  · exact .inl ⟨rfl, rfl⟩
  · exact h.elim
  · exact h.elim
  · exact .inr ⟨f, f', rfl, rfl, h⟩

/-- The acceleration that a coupling term adds. -/
def couplingAcc (c : Option (Coupling d)) (i Y V : Vec d) : Vec d :=
  match c with
  | some f => (f Y V).2
  | none => i

theorem CouplingMapped.acc {P : Vec d →ₗ[ℝ] Vec d'} {b : Vec d'} {c : Option (Coupling d)} {c' : Option (Coupling d')}
    (h : CouplingMapped P b c c') (i Y V : Vec d) :
    couplingAcc c' (P i) (P Y + b) (P V) = P (couplingAcc c i Y V) := by
  rcases h.cases with ⟨h1, h2⟩ | ⟨f, f', h1, h2, h3⟩ <;> subst h1 <;> subst h2
  · rfl
  · exact congrArg Prod.snd (h3 Y V)

theorem StepArgs.acc_eq (a : StepArgs d m) (Y V i : Vec d) (z e : ℝ) (f t : Vec d) : a.acc Y V i z e f t =
    fun k => (a.alphaY k * (a.betaY k * (a.goalY k - Y k) - e * V k -
      (if a.smooth = true then a.betaY * (a.goalY - a.startY) * fun _ => z else 0 : Vec d) k) + f k +
      couplingAcc a.coupling i Y V k + t k) / e ^ 2 := rfl

theorem sim_affine (a : StepArgs d m) (P : Vec d →ₗ[ℝ] Vec d') (b : Vec d') {α β : ℝ} (hα : ∀ k, a.alphaY k = α)
    (hβ : ∀ k, a.betaY k = β) {c' : Option (Coupling d')} (hc : CouplingMapped P b a.coupling c') :
    a.Sim (a.affine P b α β c') 1 P b where
  pos := one_pos
  intDt := (one_mul _).symm
  goalT := (one_mul _).symm
  startT := (one_mul _).symm
  start := by simp [simMap, StepArgs.affine]
  acc := by
    intro Y V u h
    have hf : (a.affine P b α β c').ft.force ((a.affine P b α β c').ft.phaseAt (1 * u)) =
        P (a.ft.force (a.ft.phaseAt u)) := by
      rw [one_mul]; exact a.ft.mapWeights_force P _
    have hz : (a.affine P b α β c').ft.phaseAt (1 * u) = a.ft.phaseAt u := by rw [one_mul]; rfl
    rw [hf, hz]
    simp only [inv_one, one_smul, one_mul]
    have ht : (fun k => (a.affine P b α β c').pGain * (a.affine P b α β c').trackingError k / h) =
        P (fun k => a.pGain * a.trackingError k / h) := by
      have : (fun k => a.pGain * a.trackingError k / h) = (a.pGain / h) • a.trackingError := by
        funext k; simp only [Pi.smul_apply, smul_eq_mul]; ring
      rw [this, map_smul]
      funext k; simp only [StepArgs.affine, Pi.smul_apply, smul_eq_mul]; ring
    rw [ht]
    have hi : (a.affine P b α β c').initialCdd = P a.initialCdd := by
      unfold StepArgs.initialCdd StepArgs.affine
      cases a.precomputed with
      | none => simp
      | some q => rfl
    rw [hi]
    generalize (fun k => a.pGain * a.trackingError k / h) = tdd
    rw [StepArgs.acc_eq, StepArgs.acc_eq, show (a.affine P b α β c').coupling = c' from rfl, hc.acc]
    generalize couplingAcc a.coupling a.initialCdd Y V = cdd
    generalize a.ft.force (a.ft.phaseAt u) = f
    generalize a.ft.phaseAt u = z
    have e : (fun k => (a.alphaY k * (a.betaY k * (a.goalY k - Y k) - (a.goalT - a.startT) * V k -
          (if a.smooth = true then a.betaY * (a.goalY - a.startY) * fun _ => z else 0 : Vec d) k) + f k + cdd k + tdd k) /
          (a.goalT - a.startT) ^ 2) =
        (1 / (a.goalT - a.startT) ^ 2) • (α • (β • (a.goalY - Y) - (a.goalT - a.startT) • V -
          (if a.smooth then (β * z) else 0) • (a.goalY - a.startY)) + f + cdd + tdd) := by
      funext k
      simp only [hα, hβ, Pi.smul_apply, Pi.add_apply, Pi.sub_apply, smul_eq_mul]
      split_ifs
      · simp only [Pi.mul_apply, Pi.sub_apply, hβ]; ring
      · simp only [Pi.zero_apply]; ring
    rw [e]
    simp only [map_smul, map_add, map_sub]
    funext k
    have hsm' : (a.affine P b α β c').smooth = a.smooth := rfl
    rcases Bool.eq_false_or_eq_true a.smooth with hsm | hsm
    · simp only [hsm', hsm, if_true]
      simp only [StepArgs.affine, Pi.smul_apply, Pi.add_apply, Pi.sub_apply, Pi.mul_apply, smul_eq_mul]; ring
    · simp only [hsm', hsm, Bool.false_eq_true, if_false]
      simp only [StepArgs.affine, Pi.smul_apply, Pi.add_apply, Pi.sub_apply, Pi.zero_apply, smul_eq_mul]; ring
  cd := by
    intro s
    unfold StepArgs.addCd
    rcases hc.cases with ⟨ha, hc2⟩ | ⟨f, f', ha, hc2, hc3⟩
    · subst hc2; simp only [show (a.affine P b α β none).coupling = none from rfl, ha]
    · subst hc2; simp only [show (a.affine P b α β (some f')).coupling = some f' from rfl, ha]
      · have hcp : f' (simMap 1 P b s).1 (simMap 1 P b s).2 = (P (f s.1 s.2).1, P (f s.1 s.2).2) := by
          simpa [simMap] using hc3 s.1 s.2
        rw [hcp]
        simp only [StepArgs.affine, simMap, inv_one, one_smul]
        congr 1
        have : (fun k => s.2 k + (f s.1 s.2).1 k / (a.goalT - a.startT)) =
            s.2 + (1 / (a.goalT - a.startT)) • (f s.1 s.2).1 := by
          funext k; simp only [Pi.add_apply, Pi.smul_apply, smul_eq_mul]; ring
        rw [this, map_add, map_smul]
        funext k; simp only [Pi.add_apply, Pi.smul_apply, smul_eq_mul]; ring
  cy := by
    intro dt t s
    have hcy : (a.affine P b α β c').cyCoupling (simMap 1 P b s) = (P (a.cyCoupling s).1, P (a.cyCoupling s).2) := by
      unfold StepArgs.cyCoupling
      rcases hc.cases with ⟨ha, hc2⟩ | ⟨f, f', ha, hc2, hc3⟩
      · subst hc2; simp only [show (a.affine P b α β none).coupling = none from rfl, ha]
        cases hp : a.precomputed <;> simp [StepArgs.affine, hp]
      · subst hc2; simp only [show (a.affine P b α β (some f')).coupling = some f' from rfl, ha]
        simpa [simMap] using hc3 s.1 s.2
    have hf : (a.affine P b α β c').ft.force ((a.affine P b α β c').ft.phaseAt t) = P (a.ft.force (a.ft.phaseAt t)) :=
      a.ft.mapWeights_force P _
    have hz : (a.affine P b α β c').ft.phaseAt t = a.ft.phaseAt t := rfl
    unfold StepArgs.eulerBodyCy
    simp only [one_mul, hcy]
    rw [hf, hz]
    generalize (a.cyCoupling s).1 = cd
    generalize (a.cyCoupling s).2 = cdd
    generalize a.ft.force (a.ft.phaseAt t) = f
    generalize a.ft.phaseAt t = z
    have e : (fun k => s.2 k + (dt * ((a.alphaY k * (a.betaY k * (a.goalY k - s.1 k) - (a.goalT - a.startT) * s.2 k -
          if a.smooth = true then a.betaY k * (a.goalY k - a.startY k) * z else 0) + f k +
          (cdd k + a.pGain * a.trackingError k / dt)) / (a.goalT - a.startT) ^ 2) + cd k / (a.goalT - a.startT))) =
        s.2 + (dt / (a.goalT - a.startT) ^ 2) • (α • (β • (a.goalY - s.1) - (a.goalT - a.startT) • s.2 -
          (if a.smooth then (β * z) else 0) • (a.goalY - a.startY)) + f + (cdd + (a.pGain / dt) • a.trackingError)) +
          (1 / (a.goalT - a.startT)) • cd := by
      funext k
      simp only [hα, hβ, Pi.smul_apply, Pi.add_apply, Pi.sub_apply, smul_eq_mul]
      split_ifs <;> ring
    have hv : (fun k => (simMap 1 P b s).2 k + (dt * (((a.affine P b α β c').alphaY k * ((a.affine P b α β c').betaY k *
          ((a.affine P b α β c').goalY k - (simMap 1 P b s).1 k) -
          ((a.affine P b α β c').goalT - (a.affine P b α β c').startT) * (simMap 1 P b s).2 k -
          if (a.affine P b α β c').smooth = true then
            (a.affine P b α β c').betaY k * ((a.affine P b α β c').goalY k - (a.affine P b α β c').startY k) * z else 0) +
          P f k + (P cdd k + (a.affine P b α β c').pGain * (a.affine P b α β c').trackingError k / dt)) /
          ((a.affine P b α β c').goalT - (a.affine P b α β c').startT) ^ 2) +
          P cd k / ((a.affine P b α β c').goalT - (a.affine P b α β c').startT))) =
        P (s.2 + (dt / (a.goalT - a.startT) ^ 2) • (α • (β • (a.goalY - s.1) - (a.goalT - a.startT) • s.2 -
          (if a.smooth then (β * z) else 0) • (a.goalY - a.startY)) + f + (cdd + (a.pGain / dt) • a.trackingError)) +
          (1 / (a.goalT - a.startT)) • cd) := by
      simp only [map_smul, map_add, map_sub]
      funext k
      have hsm' : (a.affine P b α β c').smooth = a.smooth := rfl
      rcases Bool.eq_false_or_eq_true a.smooth with hsm | hsm
      · simp only [hsm', hsm, if_true]
        simp only [StepArgs.affine, simMap, inv_one, one_smul, Pi.smul_apply, Pi.add_apply, Pi.sub_apply, smul_eq_mul]
        ring
      · simp only [hsm', hsm, Bool.false_eq_true, if_false]
        simp only [StepArgs.affine, simMap, inv_one, one_smul, Pi.smul_apply, Pi.add_apply, Pi.sub_apply, smul_eq_mul]
        ring
    have e' := fun k => congrFun e k
    have hv' := fun k => congrFun hv k
    beta_reduce at e' hv'
    generalize (s.2 + (dt / (a.goalT - a.startT) ^ 2) • (α • (β • (a.goalY - s.1) - (a.goalT - a.startT) • s.2 -
          (if a.smooth then (β * z) else 0) • (a.goalY - a.startY)) + f + (cdd + (a.pGain / dt) • a.trackingError)) +
          (1 / (a.goalT - a.startT)) • cd) = w at e' hv'
    simp only [hv', e']
    have hw : (fun k => s.1 k + dt * w k) = s.1 + dt • w := rfl
    ext k
    · simp only [simMap, hw, map_add, map_smul, Pi.add_apply, Pi.smul_apply, smul_eq_mul]
      ring
    · simp only [simMap, inv_one, one_smul]

/-! ## Orientations: world frame and time scaling -/

namespace QuatStepArgs
open Quaternion

/-- Arguments in a world frame rotated by `p`. -/
noncomputable def world (a : QuatStepArgs m) (p : Vec 4) : QuatStepArgs m :=
  { a with
    startY := turnedWorld p a.startY
    startYd := rotated p a.startYd
    goalY := turnedWorld p a.goalY
    ft := a.ft.mapWeights (rotL p)
    precomputed := a.precomputed.map (fun q => (rotated p q.1, rotated p q.2))
    coupling := a.coupling.map (fun c q v =>
      let r := c (turnedWorld (coords (star (quat p))) q) (rotated (coords (star (quat p))) v)
      (rotated p r.1, rotated p r.2)) }

theorem update_world (a : QuatStepArgs m) {ops : QuatOps} {eps : ℝ} (h : LawfulQuatOps ops eps) (hlog : LogRotates ops)
    {α β : ℝ} (hα : ∀ k, a.alphaY k = α) (hβ : ∀ k, a.betaY k = β) {p : Vec 4} (hp : UnitQuat p)
    (hg : UnitQuat a.goalY) (hst : UnitQuat a.startY) (cd cdd : Vec 3) (dt t : ℝ) {s : Vec 4 × Vec 3}
    (hs : UnitQuat s.1) :
    (a.world p).update ops (rotated p cd) (rotated p cdd) dt t (turnedWorld p s.1, rotated p s.2) =
      (turnedWorld p (a.update ops cd cdd dt t s).1, rotated p (a.update ops cd cdd dt t s).2) := by
  have hv : ((a.world p).update ops (rotated p cd) (rotated p cdd) dt t (turnedWorld p s.1, rotated p s.2)).2 =
      rotated p (a.update ops cd cdd dt t s).2 := by
    have hf : (a.world p).ft.force ((a.world p).ft.phaseAt t) = rotL p (a.ft.force (a.ft.phaseAt t)) :=
      a.ft.mapWeights_force (rotL p) _
    have hz : (a.world p).ft.phaseAt t = a.ft.phaseAt t := rfl
    have e2 : (a.update ops cd cdd dt t s).2 = s.2 + ((dt / (a.goalT - a.startT) ^ 2) •
        (α • (β • diff ops a.goalY s.1 - (a.goalT - a.startT) • s.2 -
          (if a.smooth then β * a.ft.phaseAt t else 0) • diff ops a.goalY a.startY) +
          a.ft.force (a.ft.phaseAt t) + cdd) + (1 / (a.goalT - a.startT)) • cd) := by
      funext k
      unfold update
      rcases Bool.eq_false_or_eq_true a.smooth with hsm | hsm
      · simp only [hsm, if_true, hα, hβ, Pi.add_apply, Pi.smul_apply, Pi.sub_apply, smul_eq_mul]; ring
      · simp only [hsm, Bool.false_eq_true, if_false, hα, hβ, Pi.add_apply, Pi.smul_apply, Pi.sub_apply, smul_eq_mul,
          Pi.zero_apply]
        ring
    rw [e2]
    change _ = rotL p _
    simp only [map_add, map_smul, map_sub]
    funext k
    unfold update
    simp only [hz] at hf
    simp only [hz, hf]
    have hsm' : (a.world p).smooth = a.smooth := rfl
    have hg' : (a.world p).goalY = turnedWorld p a.goalY := rfl
    have hs' : (a.world p).startY = turnedWorld p a.startY := rfl
    have hα' : ∀ k, (a.world p).alphaY k = α := hα
    have hβ' : ∀ k, (a.world p).betaY k = β := hβ
    have hτ : (a.world p).goalT - (a.world p).startT = a.goalT - a.startT := rfl
    simp only [hg', hs', hα', hβ', hτ, diff_world h hlog hp hg hs, diff_world h hlog hp hg hst, ← rotL_apply]
    rcases Bool.eq_false_or_eq_true a.smooth with hsm | hsm
    · simp only [hsm', hsm, if_true, Pi.add_apply, Pi.smul_apply, Pi.sub_apply, smul_eq_mul]; ring
    · simp only [hsm', hsm, Bool.false_eq_true, if_false, Pi.add_apply, Pi.smul_apply, Pi.sub_apply, smul_eq_mul,
        Pi.zero_apply]
      ring
  refine Prod.ext ?_ hv
  have e1 : ((a.world p).update ops (rotated p cd) (rotated p cdd) dt t (turnedWorld p s.1, rotated p s.2)).1 =
    ops.mul (ops.exp (fun k => dt * ((a.world p).update ops (rotated p cd) (rotated p cdd) dt t
      (turnedWorld p s.1, rotated p s.2)).2 k)) (turnedWorld p s.1) := rfl
  have e2 : (a.update ops cd cdd dt t s).1 = ops.mul (ops.exp (fun k => dt * (a.update ops cd cdd dt t s).2 k)) s.1 := rfl
  rw [e1, hv]
  have e3 : (fun k => dt * rotated p (a.update ops cd cdd dt t s).2 k) =
      rotated p (fun k => dt * (a.update ops cd cdd dt t s).2 k) :=
    ((rotL p).map_smul dt (a.update ops cd cdd dt t s).2).symm
  rw [e3, mul_world h hp _ hs, ← e2]

theorem sim_world (a : QuatStepArgs m) {qf : QuatStepFunction} (hq : LawfulStep qf) (hlog : FrameFree qf) {α β : ℝ}
    (hα : ∀ k, a.alphaY k = α) (hβ : ∀ k, a.betaY k = β) {p : Vec 4} (hp : UnitQuat p)
    (hg : UnitQuat a.goalY) (hst : UnitQuat a.startY) :
    Sim qf a (a.world p) 1 (turnedWorld p) (rotated p) where
  lawful := hq
  pos := one_pos
  intDt := (one_mul _).symm
  goalT := (one_mul _).symm
  startT := (one_mul _).symm
  startY := rfl
  startYd := rfl
  startUnit := hst
  body := by
    intro dt t s hs
    simp only [one_mul]
    have h0 : (0 : Vec 3) = rotated p 0 := ((rotL p).map_zero).symm
    have hadd : ∀ x y : Vec 3, rotated p x + rotated p y = rotated p (x + y) := fun x y => ((rotL p).map_add x y).symm
    cases qf with
    | python ops =>
      obtain ⟨eps, _, hl⟩ := hq
      simp only [QuatStepFunction.body, bodyPy]
      have hu := fun cd cdd => a.update_world hl hlog hα hβ hp hg hst cd cdd dt t hs
      have hc' : (a.world p).coupling = a.coupling.map (fun c q v =>
        let r := c (turnedWorld (coords (star (quat p))) q) (rotated (coords (star (quat p))) v)
        (rotated p r.1, rotated p r.2)) := rfl
      have hp' : (a.world p).precomputed = a.precomputed.map (fun q => (rotated p q.1, rotated p q.2)) := rfl
      rw [hc', hp']
      cases hc : a.coupling <;> cases hpc : a.precomputed <;> simp only [Option.map_none, Option.map_some]
      · have := hu 0 0; rwa [← h0] at this
      · simp only [zero_add]; exact hu _ _
      · rw [turnedWorld_conj hp, rotated_conj_rotated hp]; exact hu _ _
      · rw [turnedWorld_conj hp, rotated_conj_rotated hp, hadd, hadd]; exact hu _ _
    | cython =>
      simp only [QuatStepFunction.body, bodyCy]
      have hu := fun cd cdd => a.update_world lawful_cython logRotates_cython hα hβ hp hg hst cd cdd dt t hs
      have hc' : (a.world p).coupling = a.coupling.map (fun c q v =>
        let r := c (turnedWorld (coords (star (quat p))) q) (rotated (coords (star (quat p))) v)
        (rotated p r.1, rotated p r.2)) := rfl
      have hp' : (a.world p).precomputed = a.precomputed.map (fun q => (rotated p q.1, rotated p q.2)) := rfl
      rw [hc', hp']
      cases hc : a.coupling <;> cases hpc : a.precomputed <;> simp only [Option.map_none, Option.map_some]
      · have := hu 0 0; rwa [← h0] at this
      · exact hu _ _
      · rw [turnedWorld_conj hp, rotated_conj_rotated hp]; exact hu _ _
      · rw [turnedWorld_conj hp, rotated_conj_rotated hp]; exact hu _ _

/-- Arguments with all times multiplied by `c`. The coupling term sees the velocity in the old time unit. -/
noncomputable def scaleTime (a : QuatStepArgs m) (c : ℝ) : QuatStepArgs m :=
  { a with
    startYd := c⁻¹ • a.startYd
    goalT := c * a.goalT
    startT := c * a.startT
    ft := a.ft.scaleTime c
    intDt := c * a.intDt
    coupling := a.coupling.map (fun f q v => f q (c • v)) }

theorem update_scaleTime (a : QuatStepArgs m) (ops : QuatOps) {c : ℝ} (hc : 0 < c) (cd cdd : Vec 3) (dt t : ℝ)
    (s : Vec 4 × Vec 3) :
    (a.scaleTime c).update ops cd cdd (c * dt) (c * t) (s.1, c⁻¹ • s.2) =
      ((a.update ops cd cdd dt t s).1, c⁻¹ • (a.update ops cd cdd dt t s).2) := by
  have hc' := hc.ne'
  have hz : (a.scaleTime c).ft.phaseAt (c * t) = a.ft.phaseAt t := a.ft.scaleTime_phaseAt hc t
  have hf : ∀ z, (a.scaleTime c).ft.force z = a.ft.force z := fun z => a.ft.scaleTime_force c z
  have hτ : (a.scaleTime c).goalT - (a.scaleTime c).startT = c * (a.goalT - a.startT) := by
    simp only [scaleTime]; ring
  have hv : ((a.scaleTime c).update ops cd cdd (c * dt) (c * t) (s.1, c⁻¹ • s.2)).2 =
      c⁻¹ • (a.update ops cd cdd dt t s).2 := by
    unfold update
    have hsm' : (a.scaleTime c).smooth = a.smooth := rfl
    simp only [hz, hf, hτ, hsm']
    generalize a.ft.force (a.ft.phaseAt t) = f
    generalize a.ft.phaseAt t = z
    generalize a.goalT - a.startT = τ
    funext k
    simp only [scaleTime, Pi.smul_apply, smul_eq_mul]
    have e : c * τ * (c⁻¹ * s.2 k) = τ * s.2 k := by field_simp
    rw [e]
    by_cases hτ0 : τ = 0
    · simp [hτ0]
    · rcases Bool.eq_false_or_eq_true a.smooth with hsm | hsm
      · simp only [hsm, if_true]; field_simp
      · simp only [hsm, Bool.false_eq_true, if_false, Pi.zero_apply]; field_simp
  refine Prod.ext ?_ hv
  have e1 : ((a.scaleTime c).update ops cd cdd (c * dt) (c * t) (s.1, c⁻¹ • s.2)).1 =
    ops.mul (ops.exp (fun k => c * dt * ((a.scaleTime c).update ops cd cdd (c * dt) (c * t) (s.1, c⁻¹ • s.2)).2 k)) s.1 :=
    rfl
  have e2 : (a.update ops cd cdd dt t s).1 = ops.mul (ops.exp (fun k => dt * (a.update ops cd cdd dt t s).2 k)) s.1 := rfl
  rw [e1, hv, e2]
  congr 2
  funext k
  simp only [Pi.smul_apply, smul_eq_mul]
  field_simp

theorem sim_scaleTime (a : QuatStepArgs m) {qf : QuatStepFunction} (hq : LawfulStep qf) {c : ℝ} (hc : 0 < c)
    (hst : UnitQuat a.startY) : Sim qf a (a.scaleTime c) c id (c⁻¹ • ·) where
  lawful := hq
  pos := hc
  intDt := rfl
  goalT := rfl
  startT := rfl
  startY := rfl
  startYd := rfl
  startUnit := hst
  body := by
    intro dt t s hs
    have hc' := hc.ne'
    have hsm : ∀ v : Vec 3, c • c⁻¹ • v = v := fun v => by rw [smul_smul, mul_inv_cancel₀ hc', one_smul]
    have hcp : (a.scaleTime c).coupling = a.coupling.map (fun f q v => f q (c • v)) := rfl
    have hp' : (a.scaleTime c).precomputed = a.precomputed := rfl
    simp only [id]
    cases qf with
    | python ops =>
      simp only [QuatStepFunction.body, bodyPy]
      rw [hcp, hp']
      cases hc : a.coupling <;> cases hpc : a.precomputed <;>
      · simp only [Option.map_none, Option.map_some, hsm]
        exact a.update_scaleTime ops ‹0 < c› _ _ dt t s
    | cython =>
      simp only [QuatStepFunction.body, bodyCy]
      rw [hcp, hp']
      cases hc : a.coupling <;> cases hpc : a.precomputed <;>
      · simp only [Option.map_none, Option.map_some, hsm]
        exact a.update_scaleTime _ ‹0 < c› _ _ dt t s

end QuatStepArgs

end Verif
