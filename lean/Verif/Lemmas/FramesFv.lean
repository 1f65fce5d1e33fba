import Verif.Lemmas.FramesSim
import Verif.Lemmas.FramesImitate
import Verif.Lemmas.SimQuat
import Verif.Lemmas.SubSteps
import Verif.Lemmas.FedBack
import Verif.Props.FinalVelocity

/-! # Simulations between DMPs with final velocity -/

namespace Verif
open Spec
variable {d d' m m' n : ℕ}

/-- Simulation for the integration loop, where only times until the end of the step matter. -/
theorem intLoop_map_le {σ τ : Type} (upd : ℝ → ℝ → σ → σ) (upd' : ℝ → ℝ → τ → τ) (φ : σ → τ) {c : ℝ} (hc : 0 < c)
    (intDt t : ℝ) (h : ∀ dt ct s, ct ≤ t → upd' (c * dt) (c * ct) (φ s) = φ (upd dt ct s)) (lastT : ℝ) (s : σ) :
    intLoop (c * intDt) (c * t) upd' (c * lastT) (φ s) = (intLoop intDt t upd lastT s).map φ := by
  unfold intLoop
  rw [show ((c * lastT, φ s) : ℝ × τ) = (fun p : ℝ × σ => (c * p.1, φ p.2)) (lastT, s) from rfl,
    whileLoop_map (fun p : ℝ × σ => p.1 < t) _ (fun p : ℝ × τ => p.1 < c * t) _
      (fun p : ℝ × σ => (c * p.1, φ p.2))]
  · cases whileLoop _ _ (lastT, s) <;> rfl
  · intro p
    simp only
    exact mul_lt_mul_iff_right₀ hc
  · rintro ⟨x, s⟩ _
    simp only
    have h1 : (c * t - c * x < c * intDt) ↔ (t - x < intDt) := by
      rw [← mul_sub]; exact mul_lt_mul_iff_right₀ hc
    have h2 : (if c * t - c * x < c * intDt then c * t - c * x else c * intDt) =
        c * (if t - x < intDt then t - x else intDt) := by
      simp only [h1]
      split_ifs <;> ring
    rw [h2, ← mul_add, h]
    split_ifs <;> linarith

/-- Simulation for the loop over time steps, where only the first steps matter. -/
theorem loopRows_map_lt {σ τ β γ : Type} (step : ℕ → σ → Except PyErr σ) (step' : ℕ → τ → Except PyErr τ)
    (out : σ → β) (out' : τ → γ) (φ : σ → τ) (ψ : β → γ) (N : ℕ)
    (hstep : ∀ i s, i < N → step' i (φ s) = (step i s).map φ) (hout : ∀ s, out' (φ s) = ψ (out s)) :
    ∀ (k : ℕ) (s : σ) (i : ℕ), i + k ≤ N →
      loopRows step' out' k (φ s) i = (loopRows step out k s i).map (List.map ψ) := by
  intro k
  induction k with
  | zero => intro s i _; rfl
  | succ k ih =>
    intro s i hi
    simp only [loopRows, hstep i s (by omega)]
    cases hs : step i s with
    | error e => rfl
    | ok s1 =>
      simp only [Except.map, bind, Except.bind, ih s1 (i + 1) (by omega)]
      cases hr : loopRows step out k s1 (i + 1) with
      | error e => simp
      | ok rows => simp [Pure.pure, Except.pure, hout]

/-- Coefficients of the polynomial in the coordinates `P y + b` with times multiplied by `c`. -/
noncomputable def coeffMap (c : ℝ) (P : Vec d →ₗ[ℝ] Vec d') (b : Vec d') (q : Fin 6 → Vec d) : Fin 6 → Vec d' :=
  ![P (q 0) + b, c⁻¹ • P (q 1), c⁻¹ ^ 2 • P (q 2), c⁻¹ ^ 3 • P (q 3), c⁻¹ ^ 4 • P (q 4), c⁻¹ ^ 5 • P (q 5)]

/-- The reference in the new coordinates. -/
noncomputable def refMap (c : ℝ) (P : Vec d →ₗ[ℝ] Vec d') (b : Vec d') (g : Vec d × Vec d × Vec d) :
    Vec d' × Vec d' × Vec d' :=
  (P g.1 + b, c⁻¹ • P g.2.1, c⁻¹ • c⁻¹ • P g.2.2)

theorem solveConstraints_map (P : Vec d →ₗ[ℝ] Vec d') (b : Vec d') {c : ℝ} (hc : c ≠ 0) {t0 t1 : ℝ} (hne : t0 ≠ t1)
    (y0 v0 a0 y1 v1 a1 : Vec d) :
    ∃ q, solveConstraints t0 t1 y0 v0 a0 y1 v1 a1 = .ok q ∧
      solveConstraints (c * t0) (c * t1) (P y0 + b) (c⁻¹ • P v0) (c⁻¹ • c⁻¹ • P a0) (P y1 + b) (c⁻¹ • P v1)
        (c⁻¹ • c⁻¹ • P a1) = .ok (coeffMap c P b q) := by
  have hne' : c * t0 ≠ c * t1 := fun h => hne (mul_left_cancel₀ hc h)
  obtain ⟨q, h1, h2, -⟩ := C29_solve_constraints hne y0 v0 a0 y1 v1 a1
  obtain ⟨q', h1', -, h3'⟩ := C29_solve_constraints hne' (P y0 + b) (c⁻¹ • P v0) (c⁻¹ • c⁻¹ • P a0) (P y1 + b)
    (c⁻¹ • P v1) (c⁻¹ • c⁻¹ • P a1)
  refine ⟨q, h1, ?_⟩
  rw [h1', h3' (coeffMap c P b q) fun k => ?_]
  have w1 : q 0 + t0 • q 1 + t0 ^ 2 • q 2 + t0 ^ 3 • q 3 + t0 ^ 4 • q 4 + t0 ^ 5 • q 5 = y0 :=
    funext fun k => (h2 k).y0
  have w2 : q 1 + (2 * t0) • q 2 + (3 * t0 ^ 2) • q 3 + (4 * t0 ^ 3) • q 4 + (5 * t0 ^ 4) • q 5 = v0 :=
    funext fun k => (h2 k).v0
  have w3 : (2 : ℝ) • q 2 + (6 * t0) • q 3 + (12 * t0 ^ 2) • q 4 + (20 * t0 ^ 3) • q 5 = a0 :=
    funext fun k => (h2 k).a0
  have w4 : q 0 + t1 • q 1 + t1 ^ 2 • q 2 + t1 ^ 3 • q 3 + t1 ^ 4 • q 4 + t1 ^ 5 • q 5 = y1 :=
    funext fun k => (h2 k).y1
  have w5 : q 1 + (2 * t1) • q 2 + (3 * t1 ^ 2) • q 3 + (4 * t1 ^ 3) • q 4 + (5 * t1 ^ 4) • q 5 = v1 :=
    funext fun k => (h2 k).v1
  have w6 : (2 : ℝ) • q 2 + (6 * t1) • q 3 + (12 * t1 ^ 2) • q 4 + (20 * t1 ^ 3) • q 5 = a1 :=
    funext fun k => (h2 k).a1
  refine ⟨?_, ?_, ?_, ?_, ?_, ?_⟩
  · rw [← w1]; simp [coeffMap, map_add, map_smul]; field_simp; ring
  · rw [← w2]; simp [coeffMap, map_add, map_smul]; field_simp
  · rw [← w3]; simp [coeffMap, map_add, map_smul]; field_simp
  · rw [← w4]; simp [coeffMap, map_add, map_smul]; field_simp; ring
  · rw [← w5]; simp [coeffMap, map_add, map_smul]; field_simp
  · rw [← w6]; simp [coeffMap, map_add, map_smul]; field_simp

/-- The reference. It changes to the goal `2 ^ (-52)` after the goal time, whatever the unit of time is. -/
theorem applyConstraints_map (P : Vec d →ₗ[ℝ] Vec d') (b : Vec d') {c : ℝ} (hc : 0 < c) (t : ℝ) (goalY : Vec d)
    (goalT : ℝ) (q : Fin 6 → Vec d) (ht : c = 1 ∨ t ≤ goalT) :
    applyConstraints (c * t) (P goalY + b) (c * goalT) (coeffMap c P b q) =
      refMap c P b (applyConstraints t goalY goalT q) := by
  have hc' := hc.ne'
  have hiff : c * goalT + 1 / 2 ^ 52 < c * t ↔ goalT + 1 / 2 ^ 52 < t := by
    rcases ht with rfl | ht
    · simp
    · have : c * t ≤ c * goalT := (mul_le_mul_iff_right₀ hc).2 ht
      have e : (0 : ℝ) < 1 / 2 ^ 52 := by positivity
      constructor <;> intro <;> linarith
  unfold applyConstraints
  by_cases hl : goalT + 1 / 2 ^ 52 < t
  · rw [if_pos hl, if_pos (hiff.2 hl)]
    simp [refMap]
  · rw [if_neg hl, if_neg (fun x => hl (hiff.1 x))]
    have v1 : (fun k => q 0 k + t * q 1 k + t ^ 2 * q 2 k + t ^ 3 * q 3 k + t ^ 4 * q 4 k + t ^ 5 * q 5 k) =
      q 0 + t • q 1 + t ^ 2 • q 2 + t ^ 3 • q 3 + t ^ 4 • q 4 + t ^ 5 • q 5 := rfl
    have v2 : (fun k => q 1 k + 2 * t * q 2 k + 3 * t ^ 2 * q 3 k + 4 * t ^ 3 * q 4 k + 5 * t ^ 4 * q 5 k) =
      q 1 + (2 * t) • q 2 + (3 * t ^ 2) • q 3 + (4 * t ^ 3) • q 4 + (5 * t ^ 4) • q 5 := rfl
    have v3 : (fun k => 2 * q 2 k + 6 * t * q 3 k + 12 * t ^ 2 * q 4 k + 20 * t ^ 3 * q 5 k) =
      (2 : ℝ) • q 2 + (6 * t) • q 3 + (12 * t ^ 2) • q 4 + (20 * t ^ 3) • q 5 := rfl
    rw [v1, v2, v3]
    refine Prod.ext (funext fun k => ?_) (Prod.ext (funext fun k => ?_) (funext fun k => ?_))
    · simp [refMap, coeffMap, map_add, map_smul]; field_simp; ring
    · simp [refMap, coeffMap, map_add, map_smul]; field_simp
    · simp [refMap, coeffMap, map_add, map_smul]; field_simp

namespace StepArgs

/-- One sub-step towards a moving reference `g t` (position, velocity, acceleration). -/
noncomputable def refBody (a : StepArgs d m) (g : ℝ → Vec d × Vec d × Vec d) (dt t : ℝ) (s : Vec d × Vec d) :
    Vec d × Vec d :=
  let τ := a.goalT - a.startT
  let ydd : Vec d := (1 / τ ^ 2) • (a.alphaY * (a.betaY * ((g t).1 - s.1) + τ • ((g t).2.1 - s.2))
    + a.ft.force (a.ft.phaseAt t) + (a.fvCoupling s).2 + (a.pGain / dt) • a.trackingError) + (g t).2.2
  let yd' := s.2 + dt • ydd + (1 / τ) • (a.fvCoupling s).1
  (s.1 + dt • yd', yd')

theorem fvBody_eq_refBody (a : StepArgs d m) (c : Fin 6 → Vec d) (dt t : ℝ) (s : Vec d × Vec d) :
    a.fvBody c dt t s = a.refBody (fun t => applyConstraints t a.goalY a.goalT c) dt t s := by
  unfold fvBody refBody
  ext k
  · simp only [Pi.add_apply, Pi.smul_apply, smul_eq_mul, Pi.mul_apply, Pi.sub_apply]
    ring
  · simp only [Pi.add_apply, Pi.smul_apply, smul_eq_mul, Pi.mul_apply, Pi.sub_apply]
    ring

/-- `a'` describes the movement of `a` in the coordinates `P y + b`, with times multiplied by `c`. -/
structure FvSim (a : StepArgs d m) (a' : StepArgs d' m') (c : ℝ) (P : Vec d →ₗ[ℝ] Vec d') (b : Vec d') : Prop where
  pos : 0 < c
  intDt : a'.intDt = c * a.intDt
  goalT : a'.goalT = c * a.goalT
  startT : a'.startT = c * a.startT
  startY : a'.startY = P a.startY + b
  startYd : a'.startYd = c⁻¹ • P a.startYd
  startYdd : a'.startYdd = c⁻¹ • c⁻¹ • P a.startYdd
  goalY : a'.goalY = P a.goalY + b
  goalYd : a'.goalYd = c⁻¹ • P a.goalYd
  goalYdd : a'.goalYdd = c⁻¹ • c⁻¹ • P a.goalYdd
  alpha : ∀ Y, a'.alphaY * P Y = P (a.alphaY * Y)
  beta : ∀ Y, a'.betaY * P Y = P (a.betaY * Y)
  force : ∀ t, a'.ft.force (a'.ft.phaseAt (c * t)) = P (a.ft.force (a.ft.phaseAt t))
  coupling : ∀ s, a'.fvCoupling (simMap c P b s) = (P (a.fvCoupling s).1, P (a.fvCoupling s).2)
  tracking : ∀ h, (a'.pGain / (c * h)) • a'.trackingError = P ((a.pGain / h) • a.trackingError)

namespace FvSim
variable {a : StepArgs d m} {a' : StepArgs d' m'} {c : ℝ} {P : Vec d →ₗ[ℝ] Vec d'} {b : Vec d'}

theorem refBody (h : a.FvSim a' c P b) (hτ : a.goalT - a.startT ≠ 0) {g : ℝ → Vec d × Vec d × Vec d}
    {g' : ℝ → Vec d' × Vec d' × Vec d'} (dt t : ℝ) (hg : g' (c * t) = refMap c P b (g t)) (s : Vec d × Vec d) :
    a'.refBody g' (c * dt) (c * t) (simMap c P b s) = simMap c P b (a.refBody g dt t s) := by
  have hc := h.pos.ne'
  have hτ' : a'.goalT - a'.startT = c * (a.goalT - a.startT) := by rw [h.goalT, h.startT]; ring
  unfold StepArgs.refBody
  simp only [hτ', h.coupling, h.force, h.tracking, hg]
  generalize a.goalT - a.startT = τ at hτ
  generalize a.fvCoupling s = cc
  generalize a.ft.force (a.ft.phaseAt t) = f
  generalize (a.pGain / dt) • a.trackingError = te
  set A : Vec d := (1 / τ ^ 2) • (a.alphaY * (a.betaY * ((g t).1 - s.1) + τ • ((g t).2.1 - s.2)) + f + cc.2 + te) +
    (g t).2.2 with hA
  have e1 : (refMap c P b (g t)).1 - (simMap c P b s).1 = P ((g t).1 - s.1) := by
    rw [map_sub]; simp [refMap, simMap]
  have e2 : (c * τ) • ((refMap c P b (g t)).2.1 - (simMap c P b s).2) = P (τ • ((g t).2.1 - s.2)) := by
    rw [map_smul, map_sub]
    simp only [refMap, simMap, ← smul_sub, smul_smul]
    congr 1; field_simp
  have e3 : (1 / (c * τ) ^ 2) • (a'.alphaY * (a'.betaY * ((refMap c P b (g t)).1 - (simMap c P b s).1) +
      (c * τ) • ((refMap c P b (g t)).2.1 - (simMap c P b s).2)) + P f + P cc.2 + P te) +
      (refMap c P b (g t)).2.2 = c⁻¹ • c⁻¹ • P A := by
    rw [e1, e2, h.beta, ← map_add, h.alpha, ← map_add, ← map_add, ← map_add, hA]
    generalize a.alphaY * (a.betaY * ((g t).1 - s.1) + τ • ((g t).2.1 - s.2)) + f + cc.2 + te = X
    rw [map_add, map_smul, smul_add, smul_add]
    congr 1
    rw [smul_smul, smul_smul]
    congr 1; field_simp
  rw [e3]
  clear_value A
  have e4 : (simMap c P b s).2 + (c * dt) • c⁻¹ • c⁻¹ • P A + (1 / (c * τ)) • P cc.1 =
      c⁻¹ • P (s.2 + dt • A + (1 / τ) • cc.1) := by
    simp only [map_add, map_smul]
    funext k
    simp only [simMap, Pi.add_apply, Pi.smul_apply, smul_eq_mul]
    field_simp
  rw [e4]
  generalize s.2 + dt • A + (1 / τ) • cc.1 = V
  refine Prod.ext ?_ rfl
  show P s.1 + b + (c * dt) • c⁻¹ • P V = P (s.1 + dt • V) + b
  rw [map_add, map_smul, smul_smul, mul_right_comm, mul_inv_cancel₀ hc, one_mul]
  abel

theorem fvStep (h : a.FvSim a' c P b) (lastT t : ℝ) (ht : c = 1 ∨ t ≤ a.goalT) (s : Vec d × Vec d) :
    a'.fvStep (c * lastT) (c * t) (simMap c P b s) = (a.fvStep lastT t s).map (simMap c P b) := by
  have hle : ∀ x y : ℝ, c * x ≤ c * y ↔ x ≤ y := fun x y => mul_le_mul_iff_right₀ h.pos
  unfold StepArgs.fvStep
  have e1 : a'.goalT ≤ a'.startT ↔ a.goalT ≤ a.startT := by rw [h.goalT, h.startT, hle]
  have e2 : c * t ≤ a'.startT ↔ t ≤ a.startT := by rw [h.startT, hle]
  by_cases h1 : a.goalT ≤ a.startT
  · rw [if_pos h1, if_pos (e1.2 h1)]; rfl
  rw [if_neg h1, if_neg (mt e1.1 h1)]
  by_cases h2 : t ≤ a.startT
  · rw [if_pos h2, if_pos (e2.2 h2)]; rfl
  rw [if_neg h2, if_neg (mt e2.1 h2)]
  obtain ⟨q, hq, hq'⟩ := solveConstraints_map P b h.pos.ne' (ne_of_lt (not_le.1 h1)) a.startY a.startYd a.startYdd a.goalY
    a.goalYd a.goalYdd
  rw [← h.startT, ← h.goalT, ← h.startY, ← h.startYd, ← h.startYdd, ← h.goalY, ← h.goalYd, ← h.goalYdd] at hq'
  rw [hq, hq', h.intDt]
  exact intLoop_map_le (a.fvBody q) (a'.fvBody (coeffMap c P b q)) (simMap c P b) h.pos a.intDt t (fun dt ct x hct => by
    rw [fvBody_eq_refBody, fvBody_eq_refBody]
    refine h.refBody (sub_ne_zero.2 (ne_of_gt (not_le.1 h1))) dt ct ?_ x
    rw [h.goalY, h.goalT]
    exact applyConstraints_map P b h.pos ct a.goalY a.goalT q (ht.imp id fun hl => hct.trans hl)) lastT s

theorem openLoop (h : a.FvSim a' c P b) (h0 : a.startT = 0) {dt : ℝ} (hdt : 0 < dt) (runT : Option ℝ)
    (hr : 0 ≤ runT.getD a.goalT) (ht : c = 1 ∨ ⌈runT.getD a.goalT / dt⌉₊ * dt ≤ a.goalT) :
    openLoopWith a'.goalT a'.startT (c * dt) (a'.startY, a'.startYd) (runT.map (c * ·)) a'.fvStep =
      (openLoopWith a.goalT a.startT dt (a.startY, a.startYd) runT a.fvStep).map
        (fun r => (r.1.map (c * ·), r.2.map (fun y => P y + b))) := by
  have hrun : (runT.map (c * ·)).getD (c * a.goalT) = c * runT.getD a.goalT := by cases runT <;> simp
  rw [h.startT, h.goalT, h0, mul_zero, openLoopWith_steps hdt _ _ hr,
    openLoopWith_steps (mul_pos h.pos hdt) _ _ (by rw [hrun]; exact mul_nonneg h.pos.le hr), hrun,
    mul_div_mul_left _ _ h.pos.ne']
  have hs : (a'.startY, a'.startYd) = simMap c P b (a.startY, a.startYd) := by
    rw [h.startY, h.startYd]; rfl
  rw [hs, loopRows_map_lt
    (fun i s => a.fvStep (i * dt) ((i + 1 : ℕ) * dt) s)
    (fun i s => a'.fvStep (i * (c * dt)) ((i + 1 : ℕ) * (c * dt)) s)
    id id (simMap c P b) (simMap c P b) ⌈runT.getD a.goalT / dt⌉₊ ?_ (fun s => rfl) _ _ 0 (by omega)]
  · cases loopRows (fun i s => a.fvStep (i * dt) ((i + 1 : ℕ) * dt) s) id ⌈runT.getD a.goalT / dt⌉₊
      (a.startY, a.startYd) 0 with
    | error e => rfl
    | ok rows =>
      simp only [Except.map, List.map_map, List.map_cons]
      congr 2
      refine List.map_congr_left fun i _ => ?_
      simp only [Function.comp_apply]; ring
  · intro i s hi
    rw [show (i : ℝ) * (c * dt) = c * (i * dt) by ring, show ((i + 1 : ℕ) : ℝ) * (c * dt) = c * ((i + 1 : ℕ) * dt) by ring]
    refine h.fvStep _ _ (ht.imp id fun hl => le_trans ?_ hl) s
    have : ((i + 1 : ℕ) : ℝ) ≤ ⌈runT.getD a.goalT / dt⌉₊ := by exact_mod_cast hi
    exact mul_le_mul_of_nonneg_right this hdt.le

theorem openLoop_one (h : a.FvSim a' 1 P b) (dt : ℝ) (runT : Option ℝ) :
    openLoopWith a'.goalT a'.startT dt (a'.startY, a'.startYd) runT a'.fvStep =
      (openLoopWith a.goalT a.startT dt (a.startY, a.startYd) runT a.fvStep).map
        (fun r => (r.1, r.2.map (fun y => P y + b))) := by
  have h1 := openLoopWith_map_inv (goalT := a.goalT) (startT := a.startT) (dt := dt) one_pos (a.startY, a.startYd) runT
    a.fvStep a'.fvStep (fun y => P y + b) (fun v => P v) (fun _ => True) trivial (fun _ _ _ _ _ _ => trivial)
    (fun x y s _ => by
      have := h.fvStep x y (.inl rfl) s
      simp only [simMap_one] at this
      simpa [simMap] using this)
  simp only [one_mul, Option.map_id', List.map_id'] at h1
  rw [h.goalT, h.startT, h.startY, h.startYd, one_mul, one_mul, inv_one, one_smul]
  exact h1

end FvSim

theorem fvSim_shift (a : StepArgs d m) (b : Vec d) : a.FvSim (a.shift b) 1 LinearMap.id b where
  pos := one_pos
  intDt := (one_mul _).symm
  goalT := (one_mul _).symm
  startT := (one_mul _).symm
  startY := rfl
  startYd := by simp [shift]
  startYdd := by simp [shift]
  goalY := rfl
  goalYd := by simp [shift]
  goalYdd := by simp [shift]
  alpha _ := rfl
  beta _ := rfl
  force t := by rw [one_mul]; rfl
  coupling s := by
    unfold fvCoupling shift
    cases a.coupling <;> cases a.precomputed <;> simp [simMap]
  tracking h := by rw [one_mul]; rfl

theorem fvSim_affine (a : StepArgs d m) (P : Vec d →ₗ[ℝ] Vec d') (b : Vec d') {α β : ℝ} (hα : ∀ k, a.alphaY k = α)
    (hβ : ∀ k, a.betaY k = β) {c' : Option (Coupling d')} (hc : CouplingMapped P b a.coupling c') :
    a.FvSim (a.affine P b α β c') 1 P b where
  pos := one_pos
  intDt := (one_mul _).symm
  goalT := (one_mul _).symm
  startT := (one_mul _).symm
  startY := rfl
  startYd := by simp [affine]
  startYdd := by simp [affine]
  goalY := rfl
  goalYd := by simp [affine]
  goalYdd := by simp [affine]
  alpha Y := by
    have : a.alphaY * Y = α • Y := funext fun k => by simp [hα]
    rw [this, map_smul]; rfl
  beta Y := by
    have : a.betaY * Y = β • Y := funext fun k => by simp [hβ]
    rw [this, map_smul]; rfl
  force t := by rw [one_mul]; exact a.ft.mapWeights_force P _
  coupling s := by
    unfold fvCoupling
    rcases hc.cases with ⟨ha, hc2⟩ | ⟨f, f', ha, hc2, hc3⟩
    · subst hc2
      simp only [show (a.affine P b α β none).coupling = none from rfl, ha]
      cases hp : a.precomputed <;> simp [affine, hp]
    · subst hc2
      have hcp : f' (simMap 1 P b s).1 (simMap 1 P b s).2 = (P (f s.1 s.2).1, P (f s.1 s.2).2) := by
        simpa [simMap] using hc3 s.1 s.2
      simp only [show (a.affine P b α β (some f')).coupling = some f' from rfl, ha, hcp]
      cases hp : a.precomputed <;> simp [affine, hp]
  tracking h := by rw [one_mul, map_smul]; rfl

theorem fvSim_dim (a : StepArgs d m) (k : Fin d) (hc : a.coupling = none) (hp : a.precomputed = none) :
    a.FvSim { goalY := fun _ => a.goalY k, goalYd := fun _ => a.goalYd k, goalYdd := fun _ => a.goalYdd k
              startY := fun _ => a.startY k, startYd := fun _ => a.startYd k, startYdd := fun _ => a.startYdd k
              goalT := a.goalT, startT := a.startT, alphaY := fun _ => a.alphaY k, betaY := fun _ => a.betaY k
              ft := { a.ft with weights := fun _ => a.ft.weights k }
              coupling := none, precomputed := none, intDt := a.intDt, pGain := a.pGain
              trackingError := fun _ => a.trackingError k, smooth := a.smooth } 1 (projDim k) 0 where
  pos := one_pos
  intDt := (one_mul _).symm
  goalT := (one_mul _).symm
  startT := (one_mul _).symm
  startY := by simp [projDim]
  startYd := by simp [projDim]
  startYdd := by simp [projDim]
  goalY := by simp [projDim]
  goalYd := by simp [projDim]
  goalYdd := by simp [projDim]
  alpha Y := rfl
  beta Y := rfl
  force t := by rw [one_mul]; rfl
  coupling s := by
    unfold fvCoupling
    simp only [hc, hp]; rfl
  tracking h := by rw [one_mul]; rfl

/-- Arguments with all times multiplied by `c`; accelerations of start and goal are in the new unit of time, too. -/
noncomputable def fvScaleTime (a : StepArgs d m) (c : ℝ) : StepArgs d m :=
  { a.scaleTime c with
    startYdd := c⁻¹ • c⁻¹ • a.startYdd, goalYd := c⁻¹ • a.goalYd, goalYdd := c⁻¹ • c⁻¹ • a.goalYdd }

theorem fvSim_scaleTime (a : StepArgs d m) {c : ℝ} (hc : 0 < c) : a.FvSim (a.fvScaleTime c) c LinearMap.id 0 where
  pos := hc
  intDt := rfl
  goalT := rfl
  startT := rfl
  startY := by simp [fvScaleTime, scaleTime]
  startYd := rfl
  startYdd := rfl
  goalY := by simp [fvScaleTime, scaleTime]
  goalYd := rfl
  goalYdd := rfl
  alpha _ := rfl
  beta _ := rfl
  force t := by
    show (a.ft.scaleTime c).force ((a.ft.scaleTime c).phaseAt (c * t)) = _
    rw [a.ft.scaleTime_phaseAt hc]; rfl
  coupling s := by
    have hc' := hc.ne'
    unfold fvCoupling fvScaleTime scaleTime
    cases a.coupling <;> cases a.precomputed <;> simp [simMap, smul_smul, hc']
  tracking h := by
    simp only [fvScaleTime, scaleTime, LinearMap.id_apply]
    rw [mul_div_mul_left _ _ hc.ne']

end StepArgs

/-! ## Demonstrations -/

theorem fvYd_map (P : Vec d →ₗ[ℝ] Vec d') (b : Vec d') (T : Fin (n + 2) → ℝ) (Y : Fin (n + 2) → Vec d)
    (i : Fin (n + 2)) : fvYd T (fun t => P (Y t) + b) i = P (fvYd T Y i) := by
  have h0 : ∀ i : Fin (n + 2), i.val = 0 → fvYd T Y i = 0 := fun i hi => funext fun k => by
    simp [fvYd, backwardDifference, hi]
  have h1 : ∀ i : Fin (n + 2), i.val ≠ 0 →
      fvYd T Y i = (T i - T ⟨i.val - 1, by omega⟩)⁻¹ • (Y i - Y ⟨i.val - 1, by omega⟩) := fun i hi => funext fun k => by
    simp only [fvYd, backwardDifference, hi, if_false, Pi.smul_apply, Pi.sub_apply, smul_eq_mul]
    ring
  by_cases hi : i.val = 0
  · rw [h0 i hi, map_zero]
    funext k
    simp [fvYd, backwardDifference, hi]
  · rw [h1 i hi, map_smul, map_sub]
    funext k
    simp only [fvYd, backwardDifference, hi, if_false, Pi.smul_apply, Pi.sub_apply, Pi.add_apply, smul_eq_mul]
    ring

theorem fvYdd_map (P : Vec d →ₗ[ℝ] Vec d') (b : Vec d') (T : Fin (n + 2) → ℝ) (Y : Fin (n + 2) → Vec d)
    (i : Fin (n + 2)) : fvYdd T (fun t => P (Y t) + b) i = P (fvYdd T Y i) := by
  have h : ∀ Y : Fin (n + 2) → Vec d, fvYdd T Y = fvYd T (fvYd T Y) := fun Y => rfl
  have h' : ∀ Y : Fin (n + 2) → Vec d', fvYdd T Y = fvYd T (fvYd T Y) := fun Y => rfl
  rw [h, h', funext (fvYd_map P b T Y)]
  have := fvYd_map P 0 T (fvYd T Y) i
  simpa using this

/-- Forces of a mapped demonstration, where gains and map are compatible. -/
theorem fvDetermineForces_map (P : Vec d →ₗ[ℝ] Vec d') (b : Vec d') (T : Fin (n + 2) → ℝ) (Y : Fin (n + 2) → Vec d)
    {a bt : Vec d} {a' bt' : Vec d'} (ha : ∀ Y, a' * P Y = P (a * Y)) (hb : ∀ Y, bt' * P Y = P (bt * Y)) :
    fvDetermineForces T (fun t => P (Y t) + b) a' bt' = (fvDetermineForces T Y a bt).map (fun F t => P (F t)) := by
  unfold fvDetermineForces
  by_cases hT : T 0 = T (Fin.last (n + 1))
  · simp only [hT, C29_equal_times_raise]; rfl
  · obtain ⟨q, hq, hq'⟩ := solveConstraints_map P b one_ne_zero hT (Y 0) (fvYd T Y 0) (fvYdd T Y 0) (Y (Fin.last (n + 1)))
      (fvYd T Y (Fin.last (n + 1))) (fvYdd T Y (Fin.last (n + 1)))
    simp only [one_mul, inv_one, one_smul] at hq'
    simp only [fvYd_map, fvYdd_map, hq, hq', Bind.bind, Except.bind, Pure.pure, Except.pure, Except.map, Except.ok.injEq]
    funext t k
    have hg := applyConstraints_map P b one_pos (T t) (Y (Fin.last (n + 1))) (T (Fin.last (n + 1))) q (.inl rfl)
    simp only [one_mul] at hg
    rw [hg]
    generalize applyConstraints (T t) (Y (Fin.last (n + 1))) (T (Fin.last (n + 1))) q = g
    generalize T (Fin.last (n + 1)) - T 0 = τ
    have e : (fun k => τ ^ 2 * fvYdd T Y t k - a k * (bt k * (g.1 k - Y t k) + τ * (g.2.1 k - fvYd T Y t k)) -
        τ ^ 2 * g.2.2 k) = τ ^ 2 • fvYdd T Y t - a * (bt * (g.1 - Y t) + τ • (g.2.1 - fvYd T Y t)) - τ ^ 2 • g.2.2 := rfl
    rw [e, map_sub, map_sub, map_smul, map_smul, ← ha, map_add, ← hb, map_smul, map_sub, map_sub]
    simp [refMap]

end Verif
