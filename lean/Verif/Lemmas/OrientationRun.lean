import Verif.Lemmas.OrientationEnergy
import Verif.Lemmas.Cartesian
import Verif.Lemmas.SimQuat
import Verif.Props.Forcing

/-! # Executions of the orientation dynamics come close to the goal -/

namespace Verif
open Spec Quaternion Filter Topology

variable {ops : QuatOps} {eps : ℝ}

theorem summable_exp_div {l : ℝ} (hl : 0 < l) {n : ℕ} (hn : 0 < n) :
    Summable fun k : ℕ => Real.exp (-l * ((k / n : ℕ) : ℝ)) := by
  have hn' : (0 : ℝ) < n := by exact_mod_cast hn
  have h1 : Summable fun k : ℕ => Real.exp l * Real.exp (-l / n) ^ k := by
    apply Summable.mul_left
    apply summable_geometric_of_lt_one (Real.exp_pos _).le
    rw [Real.exp_lt_one_iff]
    exact div_neg_of_neg_of_pos (by linarith) hn'
  refine Summable.of_nonneg_of_le (fun k => (Real.exp_pos _).le) (fun k => ?_) h1
  rw [← Real.exp_nat_mul, ← Real.exp_add]
  apply Real.exp_le_exp.2
  have h2 : (k : ℝ) < n * ((k / n : ℕ) : ℝ) + n := by
    have h3 := Nat.div_add_mod k n
    have h4 := Nat.mod_lt k hn
    have : k < n * (k / n) + n := by omega
    exact_mod_cast this
  have h5 : (k : ℝ) / n < ((k / n : ℕ) : ℝ) + 1 := by
    rw [div_lt_iff₀ hn']
    linarith
  have h6 : (k : ℝ) * (-l / n) = -l * (k / n) := by ring
  rw [h6]
  have := mul_lt_mul_of_pos_left h5 hl
  linarith

/-- Sub-steps of consecutive steps in one sequence. -/
theorem exists_flat {σ : Type} {n : ℕ} (hn : 0 < n) (upd : ℝ × ℝ → σ → σ) {L : ℕ → List (ℝ × ℝ)}
    (hL : ∀ i, (L i).length = n) {xs : ℕ → σ} (hxs : ∀ i, xs (i + 1) = (L i).foldl (fun s p => upd p s) (xs i)) :
    ∃ (ys : ℕ → σ) (p : ℕ → ℝ × ℝ), (∀ k, p k ∈ L (k / n)) ∧ (∀ k, ys (k + 1) = upd (p k) (ys k)) ∧
      ∀ i, ys (i * n) = xs i := by
  have hlt : ∀ k, k % n < (L (k / n)).length := fun k => by rw [hL]; exact Nat.mod_lt k hn
  refine ⟨fun k => ((L (k / n)).take (k % n)).foldl (fun s p => upd p s) (xs (k / n)),
    fun k => (L (k / n))[k % n]'(hlt k), fun k => List.getElem_mem _, fun k => ?_, fun i => ?_⟩
  · have h3 := Nat.div_add_mod k n
    have h4 := Nat.mod_lt k hn
    have e : ((L (k / n)).take (k % n + 1)).foldl (fun s p => upd p s) (xs (k / n)) =
        upd ((L (k / n))[k % n]'(hlt k)) (((L (k / n)).take (k % n)).foldl (fun s p => upd p s) (xs (k / n))) := by
      rw [List.take_add_one, List.foldl_append, List.getElem?_eq_getElem (hlt k)]
      rfl
    rw [← e]
    by_cases hc : k % n + 1 < n
    · have h5 : (k + 1) / n = k / n := by
        rw [← h3, add_assoc, Nat.mul_add_div hn, Nat.div_eq_of_lt hc, Nat.mul_add_div hn, Nat.mod_div_self]
      have h6 : (k + 1) % n = k % n + 1 := by
        conv_lhs => rw [← h3, add_assoc, Nat.mul_add_mod]
        exact Nat.mod_eq_of_lt hc
      simp only [h5, h6]
    · have hc' : k % n + 1 = n := by omega
      have hk : k + 1 = n * (k / n + 1) := by rw [mul_add, mul_one]; omega
      have h5 : (k + 1) / n = k / n + 1 := by rw [hk, Nat.mul_div_cancel_left _ hn]
      have h6 : (k + 1) % n = 0 := by rw [hk]; simp
      simp only [h5, h6]
      rw [List.take_zero, List.foldl_nil, hxs, hc', List.take_of_length_le (by rw [hL])]
  · simp only [Nat.mul_div_cancel _ hn, Nat.mul_mod_left, List.take_zero, List.foldl_nil]

/-- Sub-steps of a step of the fixed duration `dt`. -/
theorem subSteps_bounds {intDt dt : ℝ} (hint : 0 < intDt) (hdt : 0 < dt) : ∃ (n : ℕ) (hmin : ℝ), 0 < n ∧ 0 < hmin ∧
    ∀ t, (subSteps intDt (t + dt) t).length = n ∧
      ∀ p ∈ subSteps intDt (t + dt) t, hmin ≤ p.1 ∧ p.1 ≤ intDt ∧ t ≤ p.2 := by
  set n := ⌈dt / intDt⌉₊ with hn
  have hn0 : 0 < n := Nat.ceil_pos.2 (div_pos hdt hint)
  have hlast : ((n - 1 : ℕ) : ℝ) * intDt < dt := by
    have : n - 1 < n := by omega
    rw [hn, Nat.lt_ceil] at this
    rwa [lt_div_iff₀ hint] at this
  refine ⟨n, min intDt (dt - ((n - 1 : ℕ) : ℝ) * intDt), hn0, lt_min hint (by linarith), fun t => ?_⟩
  have hsub : nSub intDt (t + dt) t = n := by unfold nSub; rw [add_sub_cancel_left]
  refine ⟨by unfold subSteps; simp [hsub], fun p hp => ⟨?_, ?_, ?_⟩⟩
  · unfold subSteps at hp
    rw [hsub, List.mem_map] at hp
    obtain ⟨i, hi, rfl⟩ := hp
    rw [List.mem_range] at hi
    split_ifs with h
    · exact min_le_left _ _
    · have : i = n - 1 := by omega
      subst this
      refine (min_le_right _ _).trans (le_of_eq ?_)
      simp only
      ring
  · exact ((subSteps_isPartition hint t (by linarith)).pos p hp).2
  · unfold subSteps at hp
    rw [hsub, List.mem_map] at hp
    obtain ⟨i, hi, rfl⟩ := hp
    split_ifs with h
    · have : 0 ≤ ((i : ℝ) + 1) * intDt := by positivity
      simp only
      linarith
    · simp only
      linarith

/-- Bound of the energy in terms of the angle. -/
theorem reaches_of_energy {g : Vec 4} {K C H : ℝ} (hK : 0 < K) (hC : 0 < C) (hH : 0 < H) (heps : 0 < eps)
    (hst : H * (C ^ 2 + K) ≤ C) {s : Vec 4 × Vec 3}
    (he : energy g K s ≤ (8 * K * (Real.pi * eps) / C) ^ 2 +
      K * (Real.pi * eps + H * (8 * K * (Real.pi * eps) / C)) ^ 2 + 24 * K * (Real.pi * eps) ^ 2) :
    rotationAngle g s.1 ≤ Real.pi * (5 + 8 * (K / C ^ 2)) * eps ∧
      length s.2 ≤ √K * (Real.pi * (5 + 8 * (K / C ^ 2)) * eps) := by
  have hpe : 0 < Real.pi * eps := mul_pos Real.pi_pos heps
  set δ := Real.pi * eps with hδ
  set r := K / C ^ 2 with hr
  have hr0 : 0 < r := by positivity
  have hHC : H * C ≤ 1 := by
    have h1 : H * C ^ 2 ≤ C := by
      have : 0 < H * K := by positivity
      linarith [show H * (C ^ 2 + K) = H * C ^ 2 + H * K by ring]
    have h2 : H * C * C ≤ 1 * C := by linarith [show H * C * C = H * C ^ 2 by ring]
    exact le_of_mul_le_mul_right h2 hC
  have e1 : (8 * K * δ / C) ^ 2 = K * δ ^ 2 * (64 * r) := by rw [hr]; field_simp; ring
  have e2 : H * (8 * K * δ / C) ≤ 8 * r * δ := by
    have : H * (8 * K * δ / C) = H * C * (8 * r * δ) := by rw [hr]; field_simp
    rw [this]
    have h3 : 0 ≤ 8 * r * δ := by positivity
    calc H * C * (8 * r * δ) ≤ 1 * (8 * r * δ) := mul_le_mul_of_nonneg_right hHC h3
      _ = _ := one_mul _
  have e3 : (δ + H * (8 * K * δ / C)) ^ 2 ≤ (δ + 8 * r * δ) ^ 2 := by
    apply pow_le_pow_left₀
    · have : 0 ≤ H * (8 * K * δ / C) := by positivity
      linarith
    · linarith
  have e4 := mul_le_mul_of_nonneg_left e3 hK.le
  have hE : energy g K s ≤ K * (δ * (5 + 8 * r)) ^ 2 := by
    refine he.trans ?_
    rw [e1]
    linarith [show K * (δ * (5 + 8 * r)) ^ 2 = K * δ ^ 2 * (64 * r) + K * (δ + 8 * r * δ) ^ 2 + 24 * K * δ ^ 2 by ring]
  have hT : Real.pi * (5 + 8 * r) * eps = δ * (5 + 8 * r) := by rw [hδ]; ring
  rw [hT]
  have hT0 : 0 ≤ δ * (5 + 8 * r) := by positivity
  unfold energy at hE
  constructor
  · have h1 : K * rotationAngle g s.1 ^ 2 ≤ K * (δ * (5 + 8 * r)) ^ 2 := by
      have := rsq3_nonneg s.2
      linarith
    exact le_of_sq_le_sq (le_of_mul_le_mul_left h1 hK) hT0
  · apply le_of_sq_le_sq _ (by positivity)
    rw [length_sq, mul_pow, Real.sq_sqrt hK.le]
    have : 0 ≤ K * rotationAngle g s.1 ^ 2 := by positivity
    linarith

/-- Steps of a fixed duration `dt`, integrated with sub-steps, with an exponentially decaying acceleration. -/
theorem reaches_of_steps (hops : LawfulQuatOps ops eps) (heps : 0 < eps) {g : Vec 4} (hg : UnitQuat g)
    {K C intDt dt t0 : ℝ} (hK : 0 < K) (hC : 0 < C) (hint : 0 < intDt) (hdt : 0 < dt) (hst : intDt * (C ^ 2 + K) ≤ C)
    {F : ℝ → Vec 3} {A l : ℝ} (hl : 0 < l) (hF : ∀ (i : ℕ) (t : ℝ), t0 + i * dt ≤ t → rsq3 (F t) ≤ A * Real.exp (-l * i))
    {xs : ℕ → Vec 4 × Vec 3} (hx0 : UnitQuat (xs 0).1)
    (hx : ∀ i : ℕ, xs (i + 1) = (subSteps intDt (t0 + i * dt + dt) (t0 + i * dt)).foldl
      (fun s p => forcedBody ops g K C p.1 (F p.2) s) (xs i)) :
    ReachesOrientation g K (Real.pi * (5 + 8 * (K / C ^ 2)) * eps) xs := by
  obtain ⟨n, hmin, hn, hmin0, hsub⟩ := subSteps_bounds hint hdt
  obtain ⟨ys, p, hp, hys, hyx⟩ := exists_flat hn (fun p s => forcedBody ops g K C p.1 (F p.2) s)
    (L := fun i => subSteps intDt (t0 + i * dt + dt) (t0 + i * dt)) (fun i => (hsub _).1) hx
  have hpe : 0 < Real.pi * eps := mul_pos Real.pi_pos heps
  have hsum : Summable fun k => rsq3 (F (p k).2) := by
    refine Summable.of_nonneg_of_le (fun k => rsq3_nonneg _) (fun k => ?_) ((summable_exp_div hl hn).mul_left A)
    exact hF _ _ ((hsub _).2 _ (hp k)).2.2
  have hy0 : UnitQuat (ys 0).1 := by
    have := hyx 0
    rw [zero_mul] at this
    rw [this]
    exact hx0
  have hult := energy_ultimate hops heps hg hK hC hmin0 hst (h := fun k => (p k).1)
    (fun k => ⟨((hsub _).2 _ (hp k)).1, ((hsub _).2 _ (hp k)).2.1⟩) hsum hy0 hys
    (24 * K * (Real.pi * eps) ^ 2) (by positivity)
  have htend : Tendsto (fun i => i * n) atTop atTop := tendsto_id.atTop_mul_const' hn
  have := htend.eventually hult
  unfold ReachesOrientation
  filter_upwards [this] with i hi
  rw [hyx] at hi
  exact reaches_of_energy hK hC hint heps hst hi

/-! ## Step functions of Cartesian DMPs -/

/-- Quaternion functions of a step function. -/
noncomputable def QuatStepFunction.quatOps : QuatStepFunction → QuatOps
  | .python ops => ops
  | .cython => QuatOps.cython

theorem stepThreshold_lawful {qf : QuatStepFunction} (h : StepThreshold qf eps) :
    0 < eps ∧ LawfulQuatOps qf.quatOps eps := by
  cases qf with
  | python ops => exact h
  | cython =>
    have h' : eps = 1 / 10 ^ 16 := h
    rw [h']
    exact ⟨by norm_num, lawful_cython⟩

theorem stepThreshold_lawfulStep {qf : QuatStepFunction} (h : StepThreshold qf eps) : LawfulStep qf := by
  cases qf with
  | python ops => exact ⟨eps, h.1, h.2⟩
  | cython => trivial

namespace QuatStepArgs
variable {m : ℕ}

/-- Acceleration that does not depend on the state. -/
noncomputable def forcing (a : QuatStepArgs m) (ops : QuatOps) (t : ℝ) : Vec 3 := fun k =>
  (a.ft.call t k - a.alphaY k * (if a.smooth then a.betaY k * a.ft.phaseAt t * diff ops a.goalY a.startY k else 0)) /
    (a.goalT - a.startT) ^ 2

theorem update_forced (a : QuatStepArgs m) (ops : QuatOps) {α β : ℝ} (hα : ∀ k, a.alphaY k = α) (hβ : ∀ k, a.betaY k = β)
    (hT : a.startT < a.goalT) (h t : ℝ) (s : Vec 4 × Vec 3) :
    a.update ops 0 0 h t s = forcedBody ops a.goalY (α * β / (a.goalT - a.startT) ^ 2) (α / (a.goalT - a.startT)) h
      (a.forcing ops t) s := by
  have hτ : a.goalT - a.startT ≠ 0 := by linarith
  have e : ∀ k, (a.update ops 0 0 h t s).2 k =
      (forcedBody ops a.goalY (α * β / (a.goalT - a.startT) ^ 2) (α / (a.goalT - a.startT)) h (a.forcing ops t) s).2 k := by
    intro k
    unfold update forcedBody forcing
    simp only [hα, hβ, Pi.zero_apply, zero_div, add_zero, ForcingTerm.call]
    cases a.smooth with
    | false => simp only [Bool.false_eq_true, if_false, Pi.zero_apply]; field_simp; ring
    | true => simp only [if_true]; field_simp; ring
  have e2 : (a.update ops 0 0 h t s).2 =
      (forcedBody ops a.goalY (α * β / (a.goalT - a.startT) ^ 2) (α / (a.goalT - a.startT)) h (a.forcing ops t) s).2 :=
    funext e
  have e1 : (a.update ops 0 0 h t s).1 = ops.mul (ops.exp (fun k => h * (a.update ops 0 0 h t s).2 k)) s.1 := rfl
  ext1
  · rw [e1, e2]; rfl
  · exact e2

theorem forcing_decays (a : QuatStepArgs m) (ops : QuatOps) (hm : 1 < m) (hα : 0 < a.ft.alphaZ)
    (hft : a.ft.startT < a.ft.goalT) {dt : ℝ} (hdt : 0 < dt) (t0 : ℝ) :
    ∃ A l : ℝ, 0 < l ∧ ∀ (i : ℕ) (t : ℝ), t0 + i * dt ≤ t → rsq3 (a.forcing ops t) ≤ A * Real.exp (-l * i) := by
  classical
  set τ := a.goalT - a.startT with hτ
  -- bound of the acceleration relative to the phase
  have hb : ∀ k, ∃ B : ℝ, ∀ t, |a.forcing ops t k| ≤ B * a.ft.phaseAt t := by
    intro k
    obtain ⟨w, hw⟩ : ∃ w, ∀ i, |a.ft.weights k i| ≤ w := by
      obtain ⟨w, hw⟩ := (Set.finite_range fun i => |a.ft.weights k i|).bddAbove
      exact ⟨w, fun i => hw ⟨i, rfl⟩⟩
    refine ⟨(w + |a.alphaY k * (a.betaY k * diff ops a.goalY a.startY k)|) / τ ^ 2, fun t => ?_⟩
    have hz : 0 < a.ft.phaseAt t := Real.exp_pos _
    have h1 := C04_force_bounded a.ft hm t k w hw
    unfold forcing
    rw [abs_div, abs_of_nonneg (sq_nonneg τ), div_mul_eq_mul_div]
    apply div_le_div_of_nonneg_right _ (sq_nonneg τ)
    cases a.smooth with
    | false =>
      simp only [Bool.false_eq_true, if_false, mul_zero, sub_zero]
      have : 0 ≤ |a.alphaY k * (a.betaY k * diff ops a.goalY a.startY k)| * a.ft.phaseAt t := by positivity
      linarith [show (w + |a.alphaY k * (a.betaY k * diff ops a.goalY a.startY k)|) * a.ft.phaseAt t =
        a.ft.phaseAt t * w + |a.alphaY k * (a.betaY k * diff ops a.goalY a.startY k)| * a.ft.phaseAt t by ring]
    | true =>
      simp only [if_true]
      have e : a.alphaY k * (a.betaY k * a.ft.phaseAt t * diff ops a.goalY a.startY k) =
        a.alphaY k * (a.betaY k * diff ops a.goalY a.startY k) * a.ft.phaseAt t := by ring
      rw [e]
      refine (abs_sub _ _).trans ?_
      rw [abs_mul _ (a.ft.phaseAt t), abs_of_pos hz]
      linarith [show (w + |a.alphaY k * (a.betaY k * diff ops a.goalY a.startY k)|) * a.ft.phaseAt t =
        a.ft.phaseAt t * w + |a.alphaY k * (a.betaY k * diff ops a.goalY a.startY k)| * a.ft.phaseAt t by ring]
  choose B hB using hb
  set S := a.ft.goalT - a.ft.startT with hS
  have hS0 : 0 < S := by linarith
  set l := 2 * (a.ft.alphaZ * dt / S) with hl
  have hl0 : 0 < l := by positivity
  refine ⟨(∑ k, B k ^ 2) * Real.exp (-(2 * (a.ft.alphaZ * (t0 - a.ft.startT) / S))), l, hl0, fun i t ht => ?_⟩
  have hz : a.ft.phaseAt t ^ 2 ≤ Real.exp (-(2 * (a.ft.alphaZ * (t0 - a.ft.startT) / S))) * Real.exp (-l * i) := by
    unfold ForcingTerm.phaseAt phase
    rw [← Real.exp_nat_mul, ← Real.exp_add]
    apply Real.exp_le_exp.2
    have : a.ft.alphaZ * (t0 + i * dt - a.ft.startT) / S ≤ a.ft.alphaZ * (t - a.ft.startT) / S := by
      apply div_le_div_of_nonneg_right _ hS0.le
      apply mul_le_mul_of_nonneg_left _ hα.le
      linarith
    have e1 : ((2 : ℕ) : ℝ) * (-a.ft.alphaZ * (t - a.ft.startT) / (a.ft.goalT - a.ft.startT)) =
      -(2 * (a.ft.alphaZ * (t - a.ft.startT) / S)) := by rw [hS]; push_cast; ring
    have e2 : -(2 * (a.ft.alphaZ * (t0 - a.ft.startT) / S)) + -l * i =
      -(2 * (a.ft.alphaZ * (t0 + i * dt - a.ft.startT) / S)) := by rw [hl]; ring
    rw [e1, e2]
    linarith
  have hk : ∀ k, a.forcing ops t k ^ 2 ≤ B k ^ 2 * a.ft.phaseAt t ^ 2 := by
    intro k
    rw [← mul_pow, ← sq_abs]
    exact pow_le_pow_left₀ (abs_nonneg _) (hB k t) 2
  calc rsq3 (a.forcing ops t) = ∑ k, a.forcing ops t k ^ 2 := by
        simp only [rsq3, Fin.sum_univ_three]
    _ ≤ ∑ k, B k ^ 2 * a.ft.phaseAt t ^ 2 := Finset.sum_le_sum fun k _ => hk k
    _ = (∑ k, B k ^ 2) * a.ft.phaseAt t ^ 2 := by rw [Finset.sum_mul]
    _ ≤ (∑ k, B k ^ 2) * (Real.exp (-(2 * (a.ft.alphaZ * (t0 - a.ft.startT) / S))) * Real.exp (-l * i)) :=
        mul_le_mul_of_nonneg_left hz (Finset.sum_nonneg fun k _ => sq_nonneg _)
    _ = _ := by ring

end QuatStepArgs

section Step
variable {m : ℕ} {a : QuatStepArgs m} {qf : QuatStepFunction}

theorem QuatStepFunction.run_eq (hc : a.coupling = none) (hp : a.precomputed = none) (hT : a.startT < a.goalT)
    (hint : 0 < a.intDt) {lastT t : ℝ} (ht : a.startT < t) (s : Vec 4 × Vec 3) :
    qf.run a lastT t s = .ok ((subSteps a.intDt t lastT).foldl (fun s p => a.update qf.quatOps 0 0 p.1 p.2 s) s) := by
  cases qf with
  | python ops =>
    simp only [QuatStepFunction.run, QuatStepArgs.stepPy]
    rw [if_neg (not_le.2 hT), if_neg (not_le.2 ht), intLoop_eq _ hint]
    simp only [QuatStepArgs.bodyPy, hc, hp, QuatStepFunction.quatOps]
  | cython =>
    simp only [QuatStepFunction.run, QuatStepArgs.stepCy]
    rw [if_neg (not_le.2 ht), intLoop_eq _ hint]
    simp only [QuatStepArgs.bodyCy, hc, hp, QuatStepFunction.quatOps]

/-- States computed one from another by an orientation step function come close to the goal. -/
theorem quat_run_reaches (hqf : StepThreshold qf eps) (hc : a.coupling = none) (hp : a.precomputed = none)
    (hT : a.startT < a.goalT) (hint : 0 < a.intDt) (hm : 1 < m) (hz : 0 < a.ft.alphaZ) (hft : a.ft.startT < a.ft.goalT)
    (hg : UnitQuat a.goalY) {α β : ℝ} (hα : ∀ k, a.alphaY k = α) (hβ : ∀ k, a.betaY k = β) (hα0 : 0 < α) (hβ0 : 0 < β)
    (hst : a.intDt * (α + β) ≤ a.goalT - a.startT) {dt t0 : ℝ} (hdt : 0 < dt) (ht0 : a.startT ≤ t0)
    {xs : ℕ → Vec 4 × Vec 3} (hx0 : UnitQuat (xs 0).1)
    (hx : ∀ i : ℕ, qf.run a (t0 + i * dt) (t0 + (i + 1) * dt) (xs i) = .ok (xs (i + 1))) :
    ReachesOrientation a.goalY (α * β / (a.goalT - a.startT) ^ 2) (Real.pi * (5 + 8 * (β / α)) * eps) xs := by
  obtain ⟨heps, hops⟩ := stepThreshold_lawful hqf
  have hτ : 0 < a.goalT - a.startT := by linarith
  obtain ⟨A, l, hl, hA⟩ := a.forcing_decays qf.quatOps hm hz hft hdt t0
  have e : β / α = α * β / (a.goalT - a.startT) ^ 2 / (α / (a.goalT - a.startT)) ^ 2 := by field_simp
  rw [e]
  refine reaches_of_steps hops heps hg (by positivity) (by positivity) hint hdt ?_ hl hA hx0 (fun i => ?_)
  · have e2 : a.intDt * ((α / (a.goalT - a.startT)) ^ 2 + α * β / (a.goalT - a.startT) ^ 2) =
      α / (a.goalT - a.startT) * (a.intDt * (α + β) / (a.goalT - a.startT)) := by field_simp
    rw [e2]
    have h1 : a.intDt * (α + β) / (a.goalT - a.startT) ≤ 1 := (div_le_one hτ).2 hst
    have h2 : 0 ≤ α / (a.goalT - a.startT) := by positivity
    exact (mul_le_mul_of_nonneg_left h1 h2).trans (le_of_eq (mul_one _))
  · have h1 := hx i
    have hpos : 0 < ((i : ℝ) + 1) * dt := by positivity
    rw [QuatStepFunction.run_eq hc hp hT hint (by linarith)] at h1
    injection h1 with h1
    rw [← h1, show t0 + ((i : ℝ) + 1) * dt = t0 + i * dt + dt by ring]
    simp only [a.update_forced qf.quatOps hα hβ hT]

/-- Without forcing, states computed one from another approach the goal directly. -/
theorem quat_run_direct (hqf : StepThreshold qf eps) (heps1 : eps ≤ 1) (hc : a.coupling = none) (hp : a.precomputed = none)
    (hT : a.startT < a.goalT) (hint : 0 < a.intDt) (hw : ∀ k i, a.ft.weights k i = 0) (hsm : a.smooth = false)
    (hg : UnitQuat a.goalY) {α β : ℝ} (hα : ∀ k, a.alphaY k = α) (hβ : ∀ k, a.betaY k = β) (hβ0 : 0 < β)
    (hαβ : 4 * β ≤ α) (hst : a.intDt * α ≤ a.goalT - a.startT) {dt t0 : ℝ} (hdt : 0 < dt) (ht0 : a.startT ≤ t0)
    {q₀ : Vec 4} (hq : UnitQuat q₀) {xs : ℕ → Vec 4 × Vec 3} (hx0 : xs 0 = (q₀, 0))
    (hx : ∀ i : ℕ, qf.run a (t0 + i * dt) (t0 + (i + 1) * dt) (xs i) = .ok (xs (i + 1))) :
    DirectApproach a.goalY q₀ eps xs := by
  obtain ⟨heps, hops⟩ := stepThreshold_lawful hqf
  have hα0 : 0 < α := by linarith
  have hτ : 0 < a.goalT - a.startT := by linarith
  have hK : 0 < α * β / (a.goalT - a.startT) ^ 2 := by positivity
  have hC : 0 < α / (a.goalT - a.startT) := by positivity
  have hF : ∀ t, a.forcing qf.quatOps t = 0 := by
    intro t
    funext k
    simp [QuatStepArgs.forcing, hsm, C04_force_zero a.ft k (hw k), ForcingTerm.call]
  refine geo_direct hops heps heps1 hg hq hK hC ?_ (lt_min hint hdt) hx0 (fun i => ?_)
  · rw [div_pow, ← mul_div_assoc]
    apply div_le_div_of_nonneg_right _ (by positivity)
    nlinarith
  · have hst' : a.intDt * (α / (a.goalT - a.startT)) ≤ 1 := by
      rw [← mul_div_assoc, div_le_one hτ]; exact hst
    obtain ⟨p, L, h1, h2, h3⟩ := subSteps_nonempty (t := t0 + i * dt) hint hdt hC hst'
    refine ⟨p, L, h1, h2, ?_⟩
    have h4 := hx i
    have hpos : 0 < ((i : ℝ) + 1) * dt := by positivity
    rw [QuatStepFunction.run_eq hc hp hT hint (by linarith), show t0 + ((i : ℝ) + 1) * dt = t0 + i * dt + dt by ring, h3]
      at h4
    injection h4 with h4
    rw [← h4]
    simp only [a.update_forced qf.quatOps hα hβ hT, hF]
    simp only [forcedBody, geoBody, Pi.zero_apply, add_zero]

end Step

end Verif
