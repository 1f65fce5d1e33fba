import Verif.Lemmas.FramesFv
import Verif.Spec.Superposition

/-! # Linear maps that respect the gains of each dimension, and pairs of DMPs -/

namespace Verif
open Spec
variable {d d' m n : ℕ}

/-- Arguments mapped by a linear map; the gains are `α` and `β`. -/
def StepArgs.image (a : StepArgs d m) (P : Vec d →ₗ[ℝ] Vec d') (α β : Vec d') : StepArgs d' m :=
  { goalY := P a.goalY, goalYd := P a.goalYd, goalYdd := P a.goalYdd
    startY := P a.startY, startYd := P a.startYd, startYdd := P a.startYdd
    goalT := a.goalT, startT := a.startT, alphaY := α, betaY := β
    ft := a.ft.mapWeights P, coupling := none, precomputed := none
    intDt := a.intDt, pGain := a.pGain, trackingError := P a.trackingError, smooth := a.smooth }

theorem StepArgs.acc_form (a : StepArgs d m) (hc : a.coupling = none) (Y V i : Vec d) (z e : ℝ) (f t : Vec d) :
    a.acc Y V i z e f t = (1 / e ^ 2) • (a.alphaY * (a.betaY * (a.goalY - Y) - e • V -
      (if a.smooth = true then z else 0) • (a.betaY * (a.goalY - a.startY))) + f + i + t) := by
  rw [StepArgs.acc_eq, hc]
  funext k
  simp only [couplingAcc, Pi.smul_apply, Pi.add_apply, Pi.mul_apply, Pi.sub_apply, smul_eq_mul]
  split_ifs
  · simp only [Pi.mul_apply, Pi.sub_apply]; ring
  · simp only [Pi.zero_apply]; ring

theorem StepArgs.eulerBodyCy_form (a : StepArgs d m) (hc : a.coupling = none) (hp : a.precomputed = none) (dt t : ℝ)
    (s : Vec d × Vec d) :
    a.eulerBodyCy dt t s =
      let v := s.2 + dt • a.acc s.1 s.2 0 (a.ft.phaseAt t) (a.goalT - a.startT) (a.ft.force (a.ft.phaseAt t))
        (fun k => a.pGain * a.trackingError k / dt)
      (s.1 + dt • v, v) := by
  have hv : (fun k => s.2 k + (dt * ((a.alphaY k * (a.betaY k * (a.goalY k - s.1 k) - (a.goalT - a.startT) * s.2 k -
          if a.smooth = true then a.betaY k * (a.goalY k - a.startY k) * a.ft.phaseAt t else 0) +
          a.ft.force (a.ft.phaseAt t) k + ((0 : Vec d) k + a.pGain * a.trackingError k / dt)) / (a.goalT - a.startT) ^ 2) +
          (0 : Vec d) k / (a.goalT - a.startT))) =
      s.2 + dt • a.acc s.1 s.2 0 (a.ft.phaseAt t) (a.goalT - a.startT) (a.ft.force (a.ft.phaseAt t))
        (fun k => a.pGain * a.trackingError k / dt) := by
    rw [a.acc_form hc]
    funext k
    simp only [Pi.smul_apply, Pi.add_apply, Pi.mul_apply, Pi.sub_apply, smul_eq_mul, Pi.zero_apply]
    split_ifs <;> ring
  unfold StepArgs.eulerBodyCy StepArgs.cyCoupling
  simp only [hc, hp]
  refine Prod.ext ?_ hv
  show (fun k => s.1 k + dt * _) = _
  funext k
  exact congrArg (fun x => s.1 k + dt * x) (congrFun hv k)

theorem StepArgs.image_tracking (a : StepArgs d m) (P : Vec d →ₗ[ℝ] Vec d') (α β : Vec d') (h : ℝ) :
    (fun k => (a.image P α β).pGain * (a.image P α β).trackingError k / h) =
      P (fun k => a.pGain * a.trackingError k / h) := by
  have : (fun k => a.pGain * a.trackingError k / h) = (a.pGain / h) • a.trackingError := by
    funext k; simp only [Pi.smul_apply, smul_eq_mul]; ring
  rw [this, map_smul]
  funext k; simp only [StepArgs.image, Pi.smul_apply, smul_eq_mul]; ring

theorem StepArgs.acc_image (a : StepArgs d m) (P : Vec d →ₗ[ℝ] Vec d') {α β : Vec d'}
    (hα : ∀ x, α * P x = P (a.alphaY * x)) (hβ : ∀ x, β * P x = P (a.betaY * x)) (hc : a.coupling = none)
    (Y V : Vec d) (z e : ℝ) (f t : Vec d) :
    (a.image P α β).acc (P Y) (P V) 0 z e (P f) (P t) = P (a.acc Y V 0 z e f t) := by
  rw [a.acc_form hc, (a.image P α β).acc_form rfl]
  have h1 : (a.image P α β).betaY * ((a.image P α β).goalY - P Y) = P (a.betaY * (a.goalY - Y)) := by
    rw [← hβ, map_sub]; rfl
  have h2 : (a.image P α β).betaY * ((a.image P α β).goalY - (a.image P α β).startY) =
      P (a.betaY * (a.goalY - a.startY)) := by
    rw [← hβ, map_sub]; rfl
  rw [h1, h2]
  simp only [map_smul, map_add, ← hα, map_sub, map_zero]
  rfl

theorem sim_image (a : StepArgs d m) (P : Vec d →ₗ[ℝ] Vec d') {α β : Vec d'}
    (hα : ∀ x, α * P x = P (a.alphaY * x)) (hβ : ∀ x, β * P x = P (a.betaY * x)) (hc : a.coupling = none)
    (hp : a.precomputed = none) : a.Sim (a.image P α β) 1 P 0 where
  pos := one_pos
  intDt := (one_mul _).symm
  goalT := (one_mul _).symm
  startT := (one_mul _).symm
  start := by simp [simMap, StepArgs.image]
  acc := by
    intro Y V u h
    have hf : (a.image P α β).ft.force ((a.image P α β).ft.phaseAt (1 * u)) = P (a.ft.force (a.ft.phaseAt u)) := by
      rw [one_mul]; exact a.ft.mapWeights_force P _
    have hz : (a.image P α β).ft.phaseAt (1 * u) = a.ft.phaseAt u := by rw [one_mul]; rfl
    have hi : (a.image P α β).initialCdd = 0 := rfl
    have hi' : a.initialCdd = 0 := by unfold StepArgs.initialCdd; rw [hp]
    rw [hf, hz, hi, hi', inv_one, one_smul, one_smul, one_smul, one_mul, add_zero, a.image_tracking]
    exact a.acc_image P hα hβ hc Y V _ _ _ _
  cd := by
    intro s
    unfold StepArgs.addCd
    rw [hc, show (a.image P α β).coupling = none from rfl]
  cy := by
    intro dt t s
    rw [one_mul, one_mul, a.eulerBodyCy_form hc hp, (a.image P α β).eulerBodyCy_form rfl rfl]
    have hf : (a.image P α β).ft.force ((a.image P α β).ft.phaseAt t) = P (a.ft.force (a.ft.phaseAt t)) :=
      a.ft.mapWeights_force P _
    have hz : (a.image P α β).ft.phaseAt t = a.ft.phaseAt t := rfl
    have h1 : (simMap 1 P 0 s).1 = P s.1 := add_zero _
    have h2 : (simMap 1 P 0 s).2 = P s.2 := by simp [simMap]
    have ha := a.acc_image P hα hβ hc s.1 s.2 (a.ft.phaseAt t) (a.goalT - a.startT) (a.ft.force (a.ft.phaseAt t))
      (fun k => a.pGain * a.trackingError k / dt)
    have ha' : (a.image P α β).acc (P s.1) (P s.2) 0 (a.ft.phaseAt t)
        ((a.image P α β).goalT - (a.image P α β).startT) (P (a.ft.force (a.ft.phaseAt t)))
        (P (fun k => a.pGain * a.trackingError k / dt)) = _ := ha
    rw [hf, hz, h1, h2, a.image_tracking, ha']
    refine Prod.ext ?_ ?_
    · simp only [simMap, map_add, map_smul, add_zero]
    · simp only [simMap, map_add, map_smul, inv_one, one_smul]

theorem fvSim_image (a : StepArgs d m) (P : Vec d →ₗ[ℝ] Vec d') {α β : Vec d'}
    (hα : ∀ x, α * P x = P (a.alphaY * x)) (hβ : ∀ x, β * P x = P (a.betaY * x)) (hc : a.coupling = none)
    (hp : a.precomputed = none) : a.FvSim (a.image P α β) 1 P 0 where
  pos := one_pos
  intDt := (one_mul _).symm
  goalT := (one_mul _).symm
  startT := (one_mul _).symm
  startY := (add_zero _).symm
  startYd := by simp [StepArgs.image]
  startYdd := by simp [StepArgs.image]
  goalY := (add_zero _).symm
  goalYd := by simp [StepArgs.image]
  goalYdd := by simp [StepArgs.image]
  alpha := hα
  beta := hβ
  force t := by rw [one_mul]; exact a.ft.mapWeights_force P _
  coupling s := by simp [StepArgs.fvCoupling, hc, hp, StepArgs.image]
  tracking h := by rw [one_mul, map_smul]; rfl

theorem determineForces_image (P : Vec d →ₗ[ℝ] Vec d') (T : Fin (n + 2) → ℝ) (Y : Fin (n + 2) → Vec d)
    {a b : Vec d} {α β : Vec d'} (hα : ∀ x, α * P x = P (a * x)) (hβ : ∀ x, β * P x = P (b * x)) (z : ℝ)
    (afv smooth : Bool) (t : Fin (n + 2)) :
    determineForces T (fun i => P (Y i)) α β z afv smooth t = P (determineForces T Y a b z afv smooth t) := by
  have h1 := demoYd_map P 0 T Y afv t
  have h2 := demoYdd_map P 0 T Y afv t
  simp only [add_zero] at h1 h2
  have form : ∀ {d : ℕ} (Y : Fin (n + 2) → Vec d) (α β : Vec d), determineForces T Y α β z afv smooth t =
      (T (Fin.last (n + 1)) - T 0) ^ 2 • demoYdd T Y afv t - α * (β * (Y (Fin.last (n + 1)) - Y t) -
        (T (Fin.last (n + 1)) - T 0) • demoYd T Y afv t -
        (if smooth = true then phase (T t) z (T (Fin.last (n + 1))) (T 0) else 0) •
          (β * (Y (Fin.last (n + 1)) - Y 0))) := by
    intro d Y α β
    funext k
    unfold determineForces
    simp only [Pi.smul_apply, Pi.mul_apply, Pi.sub_apply, smul_eq_mul]
    split_ifs <;> ring
  rw [form, form, h1, h2]
  simp only [map_sub, map_smul, ← hα, ← hβ]

/-! ## Pairs -/

/-- `p` times the first half plus `q` times the second half of the coordinates. -/
def mixL (p q : ℝ) : Vec (d + d) →ₗ[ℝ] Vec d where
  toFun x := fun k => p * x (Fin.castAdd d k) + q * x (Fin.natAdd d k)
  map_add' x y := by funext k; simp only [Pi.add_apply]; ring
  map_smul' c x := by funext k; simp only [Pi.smul_apply, smul_eq_mul, RingHom.id_apply]; ring

theorem mixL_append (p q : ℝ) (x y : Vec d) : mixL p q (Fin.append x y) = mix p q x y := by
  funext k; simp only [mixL, mix, LinearMap.coe_mk, AddHom.coe_mk, Fin.append_left, Fin.append_right]

theorem mixL_gain (p q : ℝ) (a : Vec d) (x : Vec (d + d)) : a * mixL p q x = mixL p q (Fin.append a a * x) := by
  funext k
  simp only [mixL, LinearMap.coe_mk, AddHom.coe_mk, Pi.mul_apply, Fin.append_left, Fin.append_right]; ring

theorem mix_one_zero (x y : Vec d) : mix 1 0 x y = x := by funext k; simp [mix]

theorem mix_zero_one (x y : Vec d) : mix 0 1 x y = y := by funext k; simp [mix]

theorem mix_zero (p q : ℝ) : mix p q (0 : Vec d) 0 = 0 := by funext k; simp [mix]

theorem append_zero : Fin.append (0 : Vec d) (0 : Vec d) = 0 := by
  funext k
  refine Fin.addCases (fun i => ?_) (fun i => ?_) k <;> simp only [Fin.append_left, Fin.append_right, Pi.zero_apply]

theorem mix_sub (p q : ℝ) (x y x' y' : Vec d) : mix p q x y - mix p q x' y' = mix p q (x - x') (y - y') := by
  funext k; simp [mix]; ring

/-- Two forcing terms side by side. -/
def ForcingTerm.pair (f₁ f₂ : ForcingTerm d m) : ForcingTerm (d + d) m :=
  { f₁ with weights := Fin.append f₁.weights f₂.weights }

theorem ForcingTerm.pair_map (p q : ℝ) (f₁ f₂ : ForcingTerm d m) :
    (f₁.pair f₂).mapWeights (mixL p q) = f₁.mix p q f₂ := by
  unfold ForcingTerm.mapWeights ForcingTerm.pair ForcingTerm.mix
  congr 1
  funext k i
  simp only [mixL, LinearMap.coe_mk, AddHom.coe_mk, Fin.append_left, Fin.append_right]

theorem ForcingTerm.mix_one_zero (f₁ f₂ : ForcingTerm d m) : f₁.mix 1 0 f₂ = f₁ := by
  unfold ForcingTerm.mix; simp

theorem ForcingTerm.SameBasis.mix_zero_one {f₁ f₂ : ForcingTerm d m} (h : f₁.SameBasis f₂) : f₁.mix 0 1 f₂ = f₂ := by
  unfold ForcingTerm.mix
  simp only [zero_mul, one_mul, zero_add]
  exact h.symm

/-- Two DMPs side by side. -/
def DMP.pair (s₁ s₂ : DMP d m) : DMP (d + d) m :=
  { t := s₁.t, lastT := s₁.lastT
    startY := Fin.append s₁.startY s₂.startY, startYd := Fin.append s₁.startYd s₂.startYd
    startYdd := Fin.append s₁.startYdd s₂.startYdd
    goalY := Fin.append s₁.goalY s₂.goalY, goalYd := Fin.append s₁.goalYd s₂.goalYd
    goalYdd := Fin.append s₁.goalYdd s₂.goalYdd
    currentY := Fin.append s₁.currentY s₂.currentY, currentYd := Fin.append s₁.currentYd s₂.currentYd
    executionTime := s₁.executionTime, dt := s₁.dt, intDt := s₁.intDt, pGain := s₁.pGain, smooth := s₁.smooth
    ft := s₁.ft.pair s₂.ft, alphaY := Fin.append s₁.alphaY s₁.alphaY, betaY := Fin.append s₁.betaY s₁.betaY
    initialized := s₁.initialized }

theorem DMP.mix_one_zero (s₁ s₂ : DMP d m) : s₁.mix 1 0 s₂ = s₁ := by
  unfold DMP.mix Movement.mix
  simp only [Verif.mix_one_zero, ForcingTerm.mix_one_zero]

theorem DMP.SameSystem.mix_zero_one {s₁ s₂ : DMP d m} (h : s₁.SameSystem s₂) : s₁.mix 0 1 s₂ = s₂ := by
  unfold DMP.mix Movement.mix
  simp only [Verif.mix_zero_one, h.ft.mix_zero_one]
  obtain ⟨h1, h2, h3, h4, h5, h6, h7, -, h9, h10, h11⟩ := h
  rcases s₂ with ⟨⟨⟩⟩
  simp_all

end Verif
