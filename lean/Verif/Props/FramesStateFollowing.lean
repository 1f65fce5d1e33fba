import Verif.Props.Frames
import Verif.Props.StateFollowing

/-!
# C13, C14, C62, C73 for state-following DMPs
-/

namespace Verif
open scoped BigOperators
variable {d d' n : ℕ}

/-! ## Specification -/

/-- A state-following DMP in the coordinates `P y + b`: positions and via points are mapped to `P y + b`, velocities and
accelerations by `P`; the gains are `α` and `β`. -/
def StateFollowingDMP.mapped (P : Vec d →ₗ[ℝ] Vec d') (b α β : Vec d') (s : StateFollowingDMP d n) :
    StateFollowingDMP d' n where
  t := s.t
  lastT := s.lastT
  startY := P s.startY + b
  startYd := P s.startYd
  startYdd := P s.startYdd
  goalY := P s.goalY + b
  goalYd := P s.goalYd
  goalYdd := P s.goalYdd
  currentY := P s.currentY + b
  currentYd := P s.currentYd
  executionTime := s.executionTime
  dt := s.dt
  intDt := s.intDt
  alphaY := α
  betaY := β
  ft :=
    { goalT := s.ft.goalT, startT := s.ft.startT, alphaZ := s.ft.alphaZ
      viapoints := fun i => P (s.ft.viapoints i) + b
      centers := s.ft.centers, widths := s.ft.widths }

/-- A state-following DMP whose time is measured in a unit that is smaller by the factor `c`. -/
noncomputable def StateFollowingDMP.inTimeUnit (c : ℝ) (s : StateFollowingDMP d n) : StateFollowingDMP d n :=
  { s with
    t := c * s.t
    lastT := s.lastT.map (c * ·)
    startYd := c⁻¹ • s.startYd
    startYdd := c⁻¹ • c⁻¹ • s.startYdd
    goalYd := c⁻¹ • s.goalYd
    goalYdd := c⁻¹ • c⁻¹ • s.goalYdd
    currentYd := c⁻¹ • s.currentYd
    executionTime := c * s.executionTime
    dt := c * s.dt
    intDt := c * s.intDt
    ft := { s.ft with goalT := c * s.ft.goalT, startT := c * s.ft.startT } }

/-- Dimension `k` of a state-following DMP. -/
def StateFollowingDMP.restrict (s : StateFollowingDMP d n) (k : Fin d) : StateFollowingDMP 1 n where
  t := s.t
  lastT := s.lastT
  startY := fun _ => s.startY k
  startYd := fun _ => s.startYd k
  startYdd := fun _ => s.startYdd k
  goalY := fun _ => s.goalY k
  goalYd := fun _ => s.goalYd k
  goalYdd := fun _ => s.goalYdd k
  currentY := fun _ => s.currentY k
  currentYd := fun _ => s.currentYd k
  executionTime := s.executionTime
  dt := s.dt
  intDt := s.intDt
  alphaY := fun _ => s.alphaY k
  betaY := fun _ => s.betaY k
  ft :=
    { goalT := s.ft.goalT, startT := s.ft.startT, alphaZ := s.ft.alphaZ
      viapoints := fun i _ => s.ft.viapoints i k
      centers := s.ft.centers, widths := s.ft.widths }

/-! ## Simulation -/

/-- `a'` simulates `a` along `simMap c P b`, with times multiplied by `c`. -/
structure StateFollowingArgs.Sim (a : StateFollowingArgs d n) (a' : StateFollowingArgs d' n) (c : ℝ)
    (P : Vec d →ₗ[ℝ] Vec d') (b : Vec d') : Prop where
  pos : 0 < c
  intDt : a'.intDt = c * a.intDt
  goalT : a'.goalT = c * a.goalT
  startT : a'.startT = c * a.startT
  start : a'.startY = P a.startY + b
  alpha : ∀ v, a'.alphaY * P v = P (a.alphaY * v)
  beta : ∀ v, a'.betaY * P v = P (a.betaY * v)
  via : ∀ i, a'.ft.viapoints i = P (a.ft.viapoints i) + b
  call : ∀ t, a'.ft.call (c * t) = a.ft.call t
  couplings : ∀ s, a'.couplings (simMap c P b s) = (P (a.couplings s).1, P (a.couplings s).2)

namespace StateFollowingArgs

theorem body_eq (a : StateFollowingArgs d n) (dt t : ℝ) (s : Vec d × Vec d) :
    let τ := 1 / 2 * (a.goalT - a.startT)
    let A : Vec d := ∑ i, (a.ft.call t i * (τ ^ 2)⁻¹) • (a.alphaY * (a.betaY * (a.ft.viapoints i - s.1) - τ • s.2)) +
      (τ ^ 2)⁻¹ • (a.couplings s).2
    let V := s.2 + (dt • A + τ⁻¹ • (a.couplings s).1)
    a.body dt t s = (s.1 + dt • V, V) := by
  intro τ A V
  have hV : (a.body dt t s).2 = V := by
    funext k
    simp only [body, V, A, τ, Pi.add_apply, Pi.smul_apply, Finset.sum_apply, Pi.mul_apply, Pi.sub_apply, smul_eq_mul]
    congr 2
    · congr 2
      · exact Finset.sum_congr rfl fun i _ => by ring
      · ring
    · ring
  refine Prod.ext ?_ hV
  rw [← hV]
  rfl

namespace Sim
variable {a : StateFollowingArgs d n} {a' : StateFollowingArgs d' n} {c : ℝ} {P : Vec d →ₗ[ℝ] Vec d'} {b : Vec d'}

theorem body (h : a.Sim a' c P b) (dt t : ℝ) (s : Vec d × Vec d) :
    a'.body (c * dt) (c * t) (simMap c P b s) = simMap c P b (a.body dt t s) := by
  have hc := h.pos.ne'
  rw [body_eq, body_eq]
  simp only [h.couplings]
  set q := a.couplings s
  clear_value q
  have hτ : 1 / 2 * (a'.goalT - a'.startT) = c * (1 / 2 * (a.goalT - a.startT)) := by
    rw [h.goalT, h.startT]; ring
  simp only [hτ, h.call]
  set τ := 1 / 2 * (a.goalT - a.startT)
  have hterm : ∀ i, a'.alphaY * (a'.betaY * (a'.ft.viapoints i - (simMap c P b s).1) - (c * τ) • (simMap c P b s).2) =
      P (a.alphaY * (a.betaY * (a.ft.viapoints i - s.1) - τ • s.2)) := by
    intro i
    have e1 : a'.ft.viapoints i - (simMap c P b s).1 = P (a.ft.viapoints i - s.1) := by
      rw [h.via, map_sub]; simp only [simMap]; abel
    have e2 : (c * τ) • (simMap c P b s).2 = P (τ • s.2) := by
      rw [simMap, map_smul, smul_smul]; congr 1; field_simp
    rw [e1, e2, h.beta, ← map_sub, h.alpha]
  simp only [hterm]
  set F : Fin n → Vec d := fun i => a.alphaY * (a.betaY * (a.ft.viapoints i - s.1) - τ • s.2)
  have hA : ∑ i, (a.ft.call t i * ((c * τ) ^ 2)⁻¹) • P (F i) + ((c * τ) ^ 2)⁻¹ • P q.2 =
      c⁻¹ • c⁻¹ • P (∑ i, (a.ft.call t i * (τ ^ 2)⁻¹) • F i + (τ ^ 2)⁻¹ • q.2) := by
    rw [map_add, map_sum, map_smul, smul_add, smul_add, Finset.smul_sum, Finset.smul_sum]
    congr 1
    · refine Finset.sum_congr rfl fun i _ => ?_
      rw [map_smul, smul_smul, smul_smul]
      congr 1
      rw [mul_pow, mul_inv]; ring
    · rw [smul_smul, smul_smul]
      congr 1
      rw [mul_pow, mul_inv]; ring
  rw [hA]
  set A := ∑ i, (a.ft.call t i * (τ ^ 2)⁻¹) • F i + (τ ^ 2)⁻¹ • q.2
  have hV : (simMap c P b s).2 + ((c * dt) • c⁻¹ • c⁻¹ • P A + (c * τ)⁻¹ • P q.1) =
      c⁻¹ • P (s.2 + (dt • A + τ⁻¹ • q.1)) := by
    simp only [simMap, map_add, map_smul, smul_add, smul_smul, mul_inv]
    congr 3
    field_simp
  rw [hV]
  generalize s.2 + (dt • A + τ⁻¹ • q.1) = V
  refine Prod.ext ?_ rfl
  exact StepArgs.Sim.img_y hc _ _ _

theorem step (h : a.Sim a' c P b) (lastT t : ℝ) (s : Vec d × Vec d) :
    a'.step (c * lastT) (c * t) (simMap c P b s) = (a.step lastT t s).map (simMap c P b) := by
  unfold StateFollowingArgs.step
  have h1 : a'.goalT ≤ a'.startT ↔ a.goalT ≤ a.startT := by
    rw [h.goalT, h.startT, mul_le_mul_iff_right₀ h.pos]
  have h2 : c * t ≤ a'.startT ↔ t ≤ a.startT := by rw [h.startT, mul_le_mul_iff_right₀ h.pos]
  simp only [h1, h2, h.intDt]
  split_ifs
  · rfl
  · rfl
  · exact intLoop_map_scale _ _ (simMap c P b) h.pos _ _ h.body _ _

theorem openLoop (h : a.Sim a' c P b) (dt : ℝ) (runT : Option ℝ) :
    a'.openLoop (c * dt) (runT.map (c * ·)) =
      (a.openLoop dt runT).map (fun r => (r.1.map (c * ·), r.2.map (fun y => P y + b))) := by
  have hrun : (runT.map (c * ·)).getD a'.goalT = c * runT.getD a.goalT := by
    cases runT
    · exact h.goalT
    · rfl
  unfold StateFollowingArgs.openLoop
  simp only [hrun]
  have hw := Py.while_rel
    (cond := fun l : Locals d => l.t < runT.getD a.goalT) (body := a.openLoopBody dt)
    (cond' := fun l : Locals d' => l.t < c * runT.getD a.goalT) (body' := a'.openLoopBody (c * dt))
    (R := fun _ l _ l' => l' = { t := c * l.t, s := simMap c P b l.s, T := l.T.map (c * ·), Y := l.Y.map (fun y => P y + b) })
    (RE := fun _ _ => True)
    (by
      rintro _ l _ _ rfl
      exact (mul_lt_mul_iff_right₀ h.pos).symm)
    (by
      rintro _ l _ _ rfl
      unfold openLoopBody
      simp only [Py.exec_bind, Py.exec_get, Py.exec_modify, Py.exec_lift]
      have hs := h.step l.t (l.t + dt) l.s
      rw [mul_add] at hs
      rw [hs]
      cases a.step l.t (l.t + dt) l.s with
      | error e => exact .inr ⟨e, _, _, rfl, rfl, trivial⟩
      | ok r =>
        refine .inl ⟨(), _, (), _, rfl, rfl, ?_⟩
        simp only [List.map_append, List.map_cons, List.map_nil, mul_add]
        rfl)
    (fun _ _ _ _ _ => trivial)
    (x := ()) (x' := ())
    (s := { t := a.startT, s := (a.startY, 0), T := [a.startT], Y := [a.startY] })
    (s' := { t := a'.startT, s := (a'.startY, 0), T := [a'.startT], Y := [a'.startY] })
    (by simp [h.startT, h.start, simMap])
  rcases hw with ⟨_, l, _, l', h1, h2, rfl⟩ | ⟨e, l, l', h1, h2, -⟩
  · rw [h1, h2]; rfl
  · rw [h1, h2]; rfl

end Sim
end StateFollowingArgs

namespace StateFollowingDMP

theorem sim_mapped (s : StateFollowingDMP d n) (P : Vec d →ₗ[ℝ] Vec d') (b : Vec d') {α β : Vec d'}
    (hα : ∀ v, α * P v = P (s.alphaY * v)) (hβ : ∀ v, β * P v = P (s.betaY * v))
    {coupling : Option (Coupling d)} {coupling' : Option (Coupling d')} (hc : CouplingMapped P b coupling coupling') :
    (s.args coupling).Sim ((s.mapped P b α β).args coupling') 1 P b where
  pos := one_pos
  intDt := (one_mul _).symm
  goalT := (one_mul _).symm
  startT := (one_mul _).symm
  start := rfl
  alpha := hα
  beta := hβ
  via := fun _ => rfl
  call := fun t => by rw [one_mul]; rfl
  couplings := by
    intro x
    rw [simMap_one]
    cases coupling <;> cases coupling'
    · simp [StateFollowingArgs.couplings, args]
    · exact hc.elim
    · exact hc.elim
    · exact hc x.1 x.2

theorem step_mapped (s : StateFollowingDMP d n) (P : Vec d →ₗ[ℝ] Vec d') (b : Vec d') {α β : Vec d'}
    (hα : ∀ v, α * P v = P (s.alphaY * v)) (hβ : ∀ v, β * P v = P (s.betaY * v))
    {coupling : Option (Coupling d)} {coupling' : Option (Coupling d')} (hc : CouplingMapped P b coupling coupling')
    (lastY lastYd : Vec d) :
    (step coupling' (P lastY + b) (P lastYd)).exec (s.mapped P b α β) =
      let r := (step coupling lastY lastYd).exec s
      (r.1.map (fun x => (P x.1 + b, P x.2)), r.2.mapped P b α β) := by
  rw [exec_step, exec_step]
  have h := (sim_mapped s P b hα hβ hc).step s.t (s.t + s.dt) (lastY, lastYd)
  simp only [one_mul, simMap_one] at h
  have h' : ((s.mapped P b α β).args coupling').step (s.mapped P b α β).t
      ((s.mapped P b α β).t + (s.mapped P b α β).dt) (P lastY + b, P lastYd) = _ := h
  rw [h']
  cases (s.args coupling).step s.t (s.t + s.dt) (lastY, lastYd) <;> rfl

theorem openLoop_mapped (s : StateFollowingDMP d n) (P : Vec d →ₗ[ℝ] Vec d') (b : Vec d') {α β : Vec d'}
    (hα : ∀ v, α * P v = P (s.alphaY * v)) (hβ : ∀ v, β * P v = P (s.betaY * v))
    {coupling : Option (Coupling d)} {coupling' : Option (Coupling d')} (hc : CouplingMapped P b coupling coupling')
    (runT : Option ℝ) :
    (s.mapped P b α β).openLoop runT coupling' =
      (s.openLoop runT coupling).map (fun r => (r.1, r.2.map (fun y => P y + b))) := by
  have h0 := sim_mapped s P b hα hβ hc
  have h1 : StateFollowingArgs.Sim
      { s.args coupling with goalYd := 0, goalYdd := 0, startYd := 0, startYdd := 0 }
      { (s.mapped P b α β).args coupling' with goalYd := 0, goalYdd := 0, startYd := 0, startYdd := 0 } 1 P b :=
    ⟨h0.pos, h0.intDt, h0.goalT, h0.startT, h0.start, h0.alpha, h0.beta, h0.via, h0.call, h0.couplings⟩
  have h := h1.openLoop s.dt runT
  simp only [one_mul, Option.map_id', List.map_id'] at h
  exact h

theorem const_mul_map {α : ℝ} {a : Vec d} (h : ∀ k, a k = α) (P : Vec d →ₗ[ℝ] Vec d') (v : Vec d) :
    (fun _ => α) * P v = P (a * v) := by
  rw [show a * v = α • v from funext fun k => by simp [h], map_smul]
  rfl

/-- **C73 (state following, open_loop).** With the same gains in all dimensions: map start and via points by `y ↦ P y + b`,
for any linear map `P` to any number of dimensions; then every point of the trajectory is mapped by `y ↦ P y + b`. -/
theorem C73_state_following_open_loop (s : StateFollowingDMP d n) {α β : ℝ} (hα : ∀ k, s.alphaY k = α)
    (hβ : ∀ k, s.betaY k = β) (P : Vec d →ₗ[ℝ] Vec d') (b : Vec d') {coupling : Option (Coupling d)}
    {coupling' : Option (Coupling d')} (hc : CouplingMapped P b coupling coupling') (runT : Option ℝ) :
    (s.mapped P b (fun _ => α) (fun _ => β)).openLoop runT coupling' =
      (s.openLoop runT coupling).map (fun r => (r.1, r.2.map (fun y => P y + b))) :=
  openLoop_mapped s P b (const_mul_map hα P) (const_mul_map hβ P) hc runT

/-- **C73 (state following, step).** The same for one call of `step`; the object is again the mapped object. -/
theorem C73_state_following_step (s : StateFollowingDMP d n) {α β : ℝ} (hα : ∀ k, s.alphaY k = α)
    (hβ : ∀ k, s.betaY k = β) (P : Vec d →ₗ[ℝ] Vec d') (b : Vec d') {coupling : Option (Coupling d)}
    {coupling' : Option (Coupling d')} (hc : CouplingMapped P b coupling coupling') (lastY lastYd : Vec d) :
    (step coupling' (P lastY + b) (P lastYd)).exec (s.mapped P b (fun _ => α) (fun _ => β)) =
      let r := (step coupling lastY lastYd).exec s
      (r.1.map (fun x => (P x.1 + b, P x.2)), r.2.mapped P b (fun _ => α) (fun _ => β)) :=
  step_mapped s P b (const_mul_map hα P) (const_mul_map hβ P) hc lastY lastYd

/-- **C13 (state following).** Shift start and via points by `b` (whatever the gains are): every point of the trajectory is
shifted by `b`, and so is every state of an execution step by step. -/
theorem C13_state_following (s : StateFollowingDMP d n) (b : Vec d) (coupling : Option (Coupling d)) :
    let s' : StateFollowingDMP d n :=
      { s with
        startY := s.startY + b
        goalY := s.goalY + b
        currentY := s.currentY + b
        ft := { s.ft with viapoints := fun i => s.ft.viapoints i + b } }
    let coupling' := coupling.map (fun f y v => f (y - b) v)
    (∀ runT, s'.openLoop runT coupling' =
      (s.openLoop runT coupling).map (fun r => (r.1, r.2.map (fun y => y + b)))) ∧
    ∀ lastY lastYd, ((step coupling' (lastY + b) lastYd).exec s').1 =
      ((step coupling lastY lastYd).exec s).1.map (fun x => (x.1 + b, x.2)) := by
  intro s' coupling'
  have hs' : s' = s.mapped LinearMap.id b s.alphaY s.betaY := rfl
  have hc : CouplingMapped LinearMap.id b coupling coupling' := by
    cases coupling with
    | none => trivial
    | some f => intro y v; simp
  constructor
  · intro runT
    exact openLoop_mapped s LinearMap.id b (fun _ => rfl) (fun _ => rfl) hc runT
  · intro lastY lastYd
    exact congrArg Prod.fst (step_mapped s LinearMap.id b (fun _ => rfl) (fun _ => rfl) hc lastY lastYd)

/-- **C62 (state following).** Component `k` of trajectories and of states depends on the parameters, the via points and the
feedback of dimension `k` only. -/
theorem C62_state_following (s : StateFollowingDMP d n) (k : Fin d) :
    (∀ runT, (s.restrict k).openLoop runT none =
      (s.openLoop runT none).map (fun r => (r.1, r.2.map (fun y _ => y k)))) ∧
    ∀ lastY lastYd, (step none (fun _ => lastY k) (fun _ => lastYd k)).exec (s.restrict k) =
      let r := (step none lastY lastYd).exec s
      (r.1.map (fun x => (fun _ => x.1 k, fun _ => x.2 k)), r.2.restrict k) := by
  let P : Vec d →ₗ[ℝ] Vec 1 := LinearMap.pi fun _ => LinearMap.proj k
  have hr : ∀ x : StateFollowingDMP d n, x.restrict k = x.mapped P 0 (fun _ => x.alphaY k) (fun _ => x.betaY k) := by
    intro x
    unfold restrict mapped
    simp only [add_zero]
    rfl
  have hP : ∀ v, P v = fun _ => v k := fun v => rfl
  constructor
  · intro runT
    rw [hr]
    have h := openLoop_mapped s P 0 (α := fun _ => s.alphaY k) (β := fun _ => s.betaY k) (fun _ => rfl) (fun _ => rfl)
      (coupling := none) (coupling' := none) trivial runT
    simp only [add_zero, hP] at h
    exact h
  · intro lastY lastYd
    have h := step_mapped s P 0 (α := fun _ => s.alphaY k) (β := fun _ => s.betaY k) (fun _ => rfl) (fun _ => rfl)
      (coupling := none) (coupling' := none) trivial lastY lastYd
    simp only [add_zero, hP] at h
    rw [hr, h]
    simp only
    rw [hr]
    rw [exec_step]
    cases (s.args none).step s.t (s.t + s.dt) (lastY, lastYd) <;> rfl

/-! ## Time -/

theorem phase_scale {c : ℝ} (hc : 0 < c) (t α g s : ℝ) : phase (c * t) α (c * g) (c * s) = phase t α g s := by
  unfold phase
  rw [← mul_sub, ← mul_sub]
  congr 1
  rw [mul_left_comm, mul_div_mul_left _ _ hc.ne']

/-- **C14 (state following, constructor).** An object constructed with all times multiplied by `c > 0` is the same object in
another unit of time. -/
theorem C14_state_following_create {c : ℝ} (hc : 0 < c) (τ dt intDt : ℝ) (α β : ArrayLike) (g : ℕ → ℝ) :
    create d n (c * τ) (c * dt) (c * intDt) α β g = (create d n τ dt intDt α β g).map (inTimeUnit c) := by
  have hle : c * τ ≤ 0 ↔ τ ≤ 0 := by
    constructor
    · intro h; by_contra h'; exact absurd h (not_le.2 (mul_pos hc (not_le.1 h')))
    · intro h; exact mul_nonpos_of_nonneg_of_nonpos hc.le h
  have hcen : ∀ i, StateFollowingForcing.initCenter n (c * τ) 0 (-Real.log (1 / 100)) i =
      StateFollowingForcing.initCenter n τ 0 (-Real.log (1 / 100)) i := by
    intro i
    unfold StateFollowingForcing.initCenter
    split_ifs
    · have := phase_scale hc 0 (-Real.log (1 / 100)) τ 0
      rwa [mul_zero] at this
    · have := phase_scale hc (i * ((τ - 0) / n)) (-Real.log (1 / 100)) τ 0
      rw [mul_zero] at this
      rw [← this]
      congr 1
      ring
  have hwid : ∀ i, StateFollowingForcing.initWidth n (c * τ) 0 (-Real.log (1 / 100)) (-Real.log (1 / 10)) g i =
      StateFollowingForcing.initWidth n τ 0 (-Real.log (1 / 100)) (-Real.log (1 / 10)) g i := by
    intro i
    unfold StateFollowingForcing.initWidth
    simp only [hcen]
  unfold create canonicalSystemAlpha StateFollowingForcing.create
  simp only [hle]
  have h0 : ¬ (1 / 100 : ℝ) ≤ 0 := by norm_num
  rw [if_neg h0]
  by_cases h1 : τ ≤ 0
  · simp [h1, Bind.bind, Except.bind, Except.map]
  · simp only [h1, if_false, Bind.bind, Except.bind]
    cases ensure1dArray α d with
    | error e => rfl
    | ok α' =>
      cases ensure1dArray β d with
      | error e => rfl
      | ok β' =>
        simp only
        split_ifs
        · rfl
        · rfl
        · simp only [Except.map, Pure.pure, Except.pure, inTimeUnit, Movement.init, hcen, hwid, mul_zero, smul_zero,
            Option.map_none]

theorem sim_time (s : StateFollowingDMP d n) {c : ℝ} (hc : 0 < c) (coupling : Option (Coupling d)) :
    (s.args coupling).Sim ((s.inTimeUnit c).args (coupling.map (fun f y v => f y (c • v)))) c LinearMap.id 0 where
  pos := hc
  intDt := rfl
  goalT := rfl
  startT := (mul_zero c).symm
  start := (add_zero _).symm
  alpha := fun _ => rfl
  beta := fun _ => rfl
  via := fun _ => (add_zero _).symm
  call := fun t => by
    have := phase_scale hc t s.ft.alphaZ s.ft.goalT s.ft.startT
    funext i
    simp only [args, inTimeUnit, StateFollowingForcing.call, this]
    rfl
  couplings := by
    intro x
    cases coupling with
    | none => simp [StateFollowingArgs.couplings, args]
    | some f => simp [StateFollowingArgs.couplings, args, simMap, smul_smul, hc.ne']

/-- **C14 (state following, open_loop).** In another unit of time the trajectory visits the same positions, at times
multiplied by `c`. -/
theorem C14_state_following_open_loop (s : StateFollowingDMP d n) {c : ℝ} (hc : 0 < c) (coupling : Option (Coupling d))
    (runT : Option ℝ) :
    (s.inTimeUnit c).openLoop (runT.map (c * ·)) (coupling.map (fun f y v => f y (c • v))) =
      (s.openLoop runT coupling).map (fun r => (r.1.map (c * ·), r.2)) := by
  have h0 := sim_time s hc coupling
  have h1 : StateFollowingArgs.Sim
      { s.args coupling with goalYd := 0, goalYdd := 0, startYd := 0, startYdd := 0 }
      { (s.inTimeUnit c).args (coupling.map (fun f y v => f y (c • v))) with
        goalYd := 0, goalYdd := 0, startYd := 0, startYdd := 0 } c LinearMap.id 0 :=
    ⟨h0.pos, h0.intDt, h0.goalT, h0.startT, h0.start, h0.alpha, h0.beta, h0.via, h0.call, h0.couplings⟩
  have h := h1.openLoop s.dt runT
  simp only [LinearMap.id_apply, add_zero, List.map_id'] at h
  exact h

/-- **C14 (state following, step).** The same for one call of `step`: positions are the same, velocities are divided by `c`;
the object is again the object in the other unit of time. -/
theorem C14_state_following_step (s : StateFollowingDMP d n) {c : ℝ} (hc : 0 < c) (coupling : Option (Coupling d))
    (lastY lastYd : Vec d) :
    (step (coupling.map (fun f y v => f y (c • v))) lastY (c⁻¹ • lastYd)).exec (s.inTimeUnit c) =
      let r := (step coupling lastY lastYd).exec s
      (r.1.map (fun x => (x.1, c⁻¹ • x.2)), r.2.inTimeUnit c) := by
  rw [exec_step, exec_step]
  have h := (sim_time s hc coupling).step s.t (s.t + s.dt) (lastY, lastYd)
  simp only [simMap, LinearMap.id_apply, add_zero, mul_add] at h
  have h' : ((s.inTimeUnit c).args (coupling.map (fun f y v => f y (c • v)))).step (s.inTimeUnit c).t
      ((s.inTimeUnit c).t + (s.inTimeUnit c).dt) (lastY, c⁻¹ • lastYd) = _ := h
  rw [h']
  cases (s.args coupling).step s.t (s.t + s.dt) (lastY, lastYd) <;> simp [Except.map, inTimeUnit, mul_add, simMap]

/-- Hypotheses are met: an object with two via points in the plane, a rotation and a translation, other time units. -/
example : ∃ s : StateFollowingDMP 2 2, create 2 2 1 (1 / 100) (1 / 1000) (.scalar 25) (.scalar (25 / 4)) (fun _ => 0) = .ok s ∧
    (∀ k, s.alphaY k = 25) ∧ (∀ k, s.betaY k = 25 / 4) ∧ (0 : ℝ) < 2 :=
  (create_ok 2 (by norm_num) one_pos (1 / 100) (1 / 1000) 25 (25 / 4) fun _ => 0).imp
    fun _ h => ⟨h.1, h.2.1, h.2.2, two_pos⟩

end StateFollowingDMP
end Verif
