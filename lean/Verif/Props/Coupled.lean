import Verif.Spec.Coupled
import Verif.Lemmas.Coupled
import Verif.Model.Coupling
import Verif.Lemmas.Cartesian
import Verif.Props.Convergence

/-! # C107: coupled movements end at a compromise -/

namespace Verif
open Filter Topology
variable {d m : ℕ}

/-- The coupling term acts on dimensions `i` and `j` like a spring between them. -/
def PairCoupled (c : Coupling d) (i j : Fin d) (lf0 lf1 D P Q : ℝ) : Prop :=
  ∀ y v, (c y v).1 i = -(P * lf0 * (y i - y j + D)) ∧ (c y v).1 j = P * lf1 * (y i - y j + D) ∧
    (c y v).2 i = -(Q * lf0 * (y i - y j + D)) ∧ (c y v).2 j = Q * lf1 * (y i - y j + D)

theorem couplingPos1d_pair (desired : ℝ) (lf : Vec 2) (k c1 c2 : ℝ) :
    PairCoupled (couplingPos1d desired lf k c1 c2) 0 1 (lf 0) (lf 1) desired (c1 * k) (c2 * (c1 * k)) := by
  intro y v
  simp only [couplingPos1d, Matrix.cons_val_zero, Matrix.cons_val_one]
  refine ⟨?_, ?_, ?_, ?_⟩ <;> ring

theorem couplingPos3d_pair (desired : Vec 3) (lf : Vec 2) (k c1 c2 : ℝ) (i : Fin 3) :
    PairCoupled (couplingPos3d desired lf k c1 c2) (Fin.castAdd 3 i) (Fin.natAdd 3 i) (lf 0) (lf 1) (desired i)
      (c1 * k) (c2 * k) := by
  intro y v
  simp only [couplingPos3d, hstack, Fin.append_left, Fin.append_right, sliceTo, sliceFrom]
  refine ⟨?_, ?_, ?_, ?_⟩ <;> ring

namespace StepArgs

theorem acc_coupled (a : StepArgs d m) {c : Coupling d} (hc : a.coupling = some c) (hT : a.startT < a.goalT)
    (Y V : Vec d) (t : ℝ) (k : Fin d) :
    a.acc Y V a.initialCdd (a.ft.phaseAt t) (a.goalT - a.startT) (a.ft.force (a.ft.phaseAt t)) (fun _ => 0) k =
      -(a.alphaY k * a.betaY k / (a.goalT - a.startT) ^ 2) * (Y k - a.goalY k) -
        a.alphaY k / (a.goalT - a.startT) * V k + a.drive k t + (c Y V).2 k / (a.goalT - a.startT) ^ 2 := by
  have hτ : a.goalT - a.startT ≠ 0 := by linarith
  unfold acc drive ForcingTerm.call
  simp only [hc]
  cases a.smooth
  · simp only [Bool.false_eq_true, if_false, Pi.zero_apply]; field_simp; ring
  · simp only [if_true, Pi.mul_apply, Pi.sub_apply]; field_simp; ring

/-- One sub-step of the Python function in one dimension. -/
theorem eulerBody_coupled (a : StepArgs d m) {c : Coupling d} (hc : a.coupling = some c) (he : a.trackingError = 0)
    (hT : a.startT < a.goalT) (h t : ℝ) (s : Vec d × Vec d) :
    ∃ y' w : Vec d, (∀ k, w k = s.2 k + h * (-(a.alphaY k * a.betaY k / (a.goalT - a.startT) ^ 2) * (s.1 k - a.goalY k) -
        a.alphaY k / (a.goalT - a.startT) * s.2 k + a.drive k t + (c s.1 s.2).2 k / (a.goalT - a.startT) ^ 2)) ∧
      (∀ k, y' k = s.1 k + h * w k) ∧
      a.eulerBody h t s = (y', fun k => w k + (c y' w).1 k / (a.goalT - a.startT)) := by
  have hz : (fun k => a.pGain * a.trackingError k / h) = fun _ => (0 : ℝ) := by funext k; simp [he]
  let w : Vec d := s.2 + h • a.acc s.1 s.2 a.initialCdd (a.ft.phaseAt t) (a.goalT - a.startT)
    (a.ft.force (a.ft.phaseAt t)) (fun _ => 0)
  refine ⟨s.1 + h • w, w, ?_, ?_, ?_⟩
  · intro k
    simp only [w, Pi.add_apply, Pi.smul_apply, smul_eq_mul, acc_coupled a hc hT]
  · intro k
    simp only [Pi.add_apply, Pi.smul_apply, smul_eq_mul]
  · unfold eulerBody addCd
    simp only [hc, hz]
    rfl

/-- One sub-step of the Cython function. -/
theorem eulerBodyCy_coupled (a : StepArgs d m) {c : Coupling d} (hc : a.coupling = some c) (he : a.trackingError = 0)
    (hT : a.startT < a.goalT) (h t : ℝ) (s : Vec d × Vec d) (k : Fin d) :
    (a.eulerBodyCy h t s).2 k = s.2 k +
        (h * (-(a.alphaY k * a.betaY k / (a.goalT - a.startT) ^ 2) * (s.1 k - a.goalY k) -
          a.alphaY k / (a.goalT - a.startT) * s.2 k + a.drive k t + (c s.1 s.2).2 k / (a.goalT - a.startT) ^ 2) +
         (c s.1 s.2).1 k / (a.goalT - a.startT)) ∧
      (a.eulerBodyCy h t s).1 k = s.1 k + h * (a.eulerBodyCy h t s).2 k := by
  have hτ : a.goalT - a.startT ≠ 0 := by linarith
  refine ⟨?_, rfl⟩
  unfold eulerBodyCy cyCoupling drive ForcingTerm.call
  simp only [hc, he, Pi.zero_apply, mul_zero, zero_div, add_zero]
  cases a.smooth
  · simp only [Bool.false_eq_true, if_false]; field_simp; ring
  · simp only [if_true]; field_simp; ring

end StepArgs

section Core
variable (a : StepArgs d m)

/-- Sub-steps of the two Euler functions. -/
noncomputable def StepFunction.eulerSub (sf : StepFunction) (a : StepArgs d m) (h t : ℝ) (s : Vec d × Vec d) :
    Vec d × Vec d := if sf = .euler then a.eulerBody h t s else a.eulerBodyCy h t s

theorem run_euler_coupled {sf : StepFunction} (hsf : sf = .euler ∨ sf = .eulerCython) (hd : 0 < a.intDt)
    (hT : a.startT < a.goalT) {lastT t : ℝ} (ht : a.startT < t) (s : Vec d × Vec d) :
    sf.run a lastT t s = .ok ((subSteps a.intDt t lastT).foldl (fun s p => sf.eulerSub a p.1 p.2 s) s) := by
  rcases hsf with rfl | rfl
  · show a.stepEuler lastT t s = _
    unfold StepArgs.stepEuler
    rw [if_neg (not_le.2 hT), if_neg (not_le.2 ht), intLoop_eq _ hd]
    rfl
  · show a.stepEulerCy lastT t s = _
    unfold StepArgs.stepEulerCy
    rw [if_neg (not_le.2 hT)]
    simp only [if_neg (not_le.2 ht)]
    rw [intLoop_eq _ hd]
    rfl

/-- Folding commutes with a change of coordinates. -/
theorem foldl_coordinates {σ : Type} {L : List (ℝ × ℝ)} {h : ℝ} {f : ℝ → ℝ → σ → σ} {g : ℝ → ℝ → ℝ × ℝ → ℝ × ℝ}
    {φ : σ → ℝ × ℝ} (hφ : ∀ t s, φ (f h t s) = g h t (φ s)) (hL : ∀ p ∈ L, p.1 = h) (s : σ) :
    φ (L.foldl (fun s p => f p.1 p.2 s) s) = L.foldl (fun s p => g p.1 p.2 s) (φ s) := by
  induction L generalizing s with
  | nil => rfl
  | cons p L ih =>
    rw [List.foldl_cons, List.foldl_cons, ih (fun q hq => hL q (by simp [hq])), hL p (by simp), hφ]

/-- Coordinates of two coupled dimensions: the weighted sum is not affected by the coupling. -/
def pairSum (lf0 lf1 g0 g1 : ℝ) (i j : Fin d) (x : Vec d × Vec d) : ℝ × ℝ :=
  (lf1 * x.1 i + lf0 * x.1 j - (lf1 * g0 + lf0 * g1), lf1 * x.2 i + lf0 * x.2 j)

/-- Coordinates of two coupled dimensions: difference, relative to `q` and `w`. -/
def pairDiff (q w : ℝ) (i j : Fin d) (x : Vec d × Vec d) : ℝ × ℝ := (x.1 i - x.1 j - q, x.2 i - x.2 j - w)

theorem pair_combine {xs : ℕ → Vec d × Vec d} {i j : Fin d} {lf0 lf1 g0 g1 : ℝ} {y v : ℝ × ℝ} (hS : 0 < lf0 + lf1)
    (hy : lf1 * y.1 + lf0 * y.2 = lf1 * g0 + lf0 * g1) (hv : lf1 * v.1 + lf0 * v.2 = 0)
    (hsum : Tendsto (fun n => pairSum lf0 lf1 g0 g1 i j (xs n)) atTop (𝓝 (0, 0)))
    (hdiff : Tendsto (fun n => pairDiff (y.1 - y.2) (v.1 - v.2) i j (xs n)) atTop (𝓝 (0, 0))) :
    Tendsto (fun n => (xs n).1 i) atTop (𝓝 y.1) ∧ Tendsto (fun n => (xs n).1 j) atTop (𝓝 y.2) ∧
      Tendsto (fun n => (xs n).2 i) atTop (𝓝 v.1) ∧ Tendsto (fun n => (xs n).2 j) atTop (𝓝 v.2) := by
  have hs1 := (continuous_fst.tendsto ((0 : ℝ), (0 : ℝ))).comp hsum
  have hs2 := (continuous_snd.tendsto ((0 : ℝ), (0 : ℝ))).comp hsum
  have hd1 := (continuous_fst.tendsto ((0 : ℝ), (0 : ℝ))).comp hdiff
  have hd2 := (continuous_snd.tendsto ((0 : ℝ), (0 : ℝ))).comp hdiff
  have comb : ∀ {f g : ℕ → ℝ} {q : ℝ} {z : ℕ → ℝ} (r : ℝ), Tendsto f atTop (𝓝 0) → Tendsto g atTop (𝓝 0) →
      (∀ n, (lf0 + lf1) * (z n - q) = f n + r * g n) → Tendsto z atTop (𝓝 q) := by
    intro f g q z r hf hg h
    have h1 : Tendsto (fun n => (f n + r * g n) / (lf0 + lf1) + q) atTop (𝓝 ((0 + r * 0) / (lf0 + lf1) + q)) :=
      ((hf.add (hg.const_mul r)).div_const _).add_const q
    have h2 : (0 + r * 0) / (lf0 + lf1) + q = q := by simp
    rw [h2] at h1
    refine h1.congr fun n => ?_
    rw [← h n]; field_simp; ring
  refine ⟨comb lf0 hs1 hd1 ?_, comb (-lf1) hs1 hd1 ?_, comb lf0 hs2 hd2 ?_, comb (-lf1) hs2 hd2 ?_⟩ <;> intro n <;>
    simp only [pairSum, pairDiff, Function.comp_def]
  · linear_combination -hy
  · linear_combination -hy
  · linear_combination -hv
  · linear_combination -hv

/-- The compromise balances both stiffnesses. -/
theorem compromise_balance {αβ G lf0 lf1 D g0 g1 : ℝ} (hden : αβ + (lf0 + lf1) * G ≠ 0) :
    let y := Spec.compromise αβ G lf0 lf1 D g0 g1
    y.1 - y.2 + D = αβ / (αβ + (lf0 + lf1) * G) * Spec.conflict D g0 g1 ∧
      αβ * (g0 - g1 - (y.1 - y.2)) = (lf0 + lf1) * G * (y.1 - y.2 + D) ∧
      lf1 * y.1 + lf0 * y.2 = lf1 * g0 + lf0 * g1 := by
  intro y
  simp only [y, Spec.compromise, Spec.conflict]
  obtain ⟨N, hN⟩ : ∃ N, N = αβ + (lf0 + lf1) * G := ⟨_, rfl⟩
  rw [← hN] at hden ⊢
  obtain rfl : αβ = N - (lf0 + lf1) * G := by rw [hN]; ring
  refine ⟨?_, ?_, ?_⟩
  · field_simp; ring
  · field_simp; ring
  · ring

/-- The stiffness of the coupling is not negative. -/
theorem couplingStiffness_nonneg {sf : StepFunction} {dt intDt τ α β S P Q : ℝ} (hdt : 0 < dt) (hτ : 0 < τ) (hα : 0 < α)
    (hβ : 0 < β) (hS : 0 < S) (hP : 0 ≤ P) (hQ : 0 ≤ Q) (hst : Spec.CoupledStable sf dt intDt τ α β S P Q) :
    0 ≤ Spec.couplingStiffness sf dt intDt τ α β S P Q := by
  rcases hst with ⟨rfl, hint, n, hn, hdt, h1, -⟩ | ⟨rfl, hint, n, hn, hdt, -⟩ | ⟨hsf, a, b, ha, hb, h1, h2, h3, h4, h5, h6⟩
  · have h3 : α ≤ τ / intDt := by rw [le_div_iff₀ hint]; linarith
    have h4 : 0 ≤ P * (τ / intDt - α) := mul_nonneg hP (by linarith)
    simp only [Spec.couplingStiffness]; linarith
  · simp only [Spec.couplingStiffness]; positivity
  · have hb0 : 0 < b := by rw [hb]; positivity
    have ha0 : 0 < a := by rw [ha]; positivity
    have hgap : 0 < Spec.rkGap a b := by
      unfold Spec.rkGap
      have : 0 ≤ a * Spec.rkSide a b * (1 - Spec.rkDiag a b) := mul_nonneg (by positivity) (by linarith)
      have : 0 < b * Spec.rkSide a b ^ 2 := by positivity
      have := sq_nonneg (1 - Spec.rkDiag a b)
      linarith
    rcases hsf with rfl | rfl <;> simp only [Spec.couplingStiffness, ← ha, ← hb] <;> positivity

/-- Limit of two coupled dimensions, Euler methods. -/
theorem euler_coupled_tendsto {c : Coupling d} (hc : a.coupling = some c) (he : a.trackingError = 0)
    (hT : a.startT < a.goalT) (hm : 1 < m) (hα : 0 < a.ft.alphaZ) (hft : a.ft.startT < a.ft.goalT)
    {i j : Fin d} {lf0 lf1 D P Q α β : ℝ} (hpair : PairCoupled c i j lf0 lf1 D P Q)
    (h0 : 0 ≤ lf0) (h1 : 0 ≤ lf1) (hS : 0 < lf0 + lf1) (hP : 0 ≤ P) (hQ : 0 ≤ Q)
    (hαi : a.alphaY i = α) (hαj : a.alphaY j = α) (hβi : a.betaY i = β) (hβj : a.betaY j = β)
    (hα0 : 0 < α) (hβ0 : 0 < β)
    {sf : StepFunction} (hsf : sf = .euler ∨ sf = .eulerCython) {dt t0 : ℝ} (hdt0 : 0 < dt) (ht0 : a.startT ≤ t0)
    (hst : Spec.CoupledStable sf dt a.intDt (a.goalT - a.startT) α β (lf0 + lf1) P Q)
    {xs : ℕ → Vec d × Vec d}
    (hx : ∀ i : ℕ, sf.run a (t0 + i * dt) (t0 + (i + 1) * dt) (xs i) = .ok (xs (i + 1))) :
    let G := Spec.couplingStiffness sf dt a.intDt (a.goalT - a.startT) α β (lf0 + lf1) P Q
    let F := Spec.velocityFactor sf dt (a.goalT - a.startT) α β (lf0 + lf1) Q
    let y := Spec.compromise (α * β) G lf0 lf1 D (a.goalY i) (a.goalY j)
    let v := Spec.reportedVelocity F (α * β) G (a.goalT - a.startT) P lf0 lf1 D (a.goalY i) (a.goalY j)
    Tendsto (fun n => pairSum lf0 lf1 (a.goalY i) (a.goalY j) i j (xs n)) atTop (𝓝 (0, 0)) ∧
      Tendsto (fun n => pairDiff (y.1 - y.2) (v.1 - v.2) i j (xs n)) atTop (𝓝 (0, 0)) := by
  intro G F y v
  have hτ' : 0 < a.goalT - a.startT := by linarith
  have hG : 0 ≤ G := couplingStiffness_nonneg hdt0 hτ' hα0 hβ0 hS hP hQ hst
  obtain ⟨n, hn, hdt, hint⟩ : ∃ n : ℕ, 0 < n ∧ dt = n * a.intDt ∧ 0 < a.intDt := by
    rcases hst with ⟨-, hint, n, hn, hdt, -, -⟩ | ⟨-, hint, n, hn, hdt, -⟩ | ⟨hsf', -⟩
    · exact ⟨n, hn, hdt, hint⟩
    · exact ⟨n, hn, hdt, hint⟩
    · rcases hsf with rfl | rfl <;> simp at hsf'
  set τ := a.goalT - a.startT with hτdef
  have hτ : 0 < τ := hτ'
  set S := lf0 + lf1 with hSdef
  set H := a.intDt with hHdef
  have hk : 0 < α * β / τ ^ 2 := by positivity
  have hcc : 0 < α / τ := by positivity
  have hdi := a.drive_tendsto hm hα hft i
  have hdj := a.drive_tendsto hm hα hft j
  have hend : ∀ i : ℕ, a.startT < t0 + (i + 1) * dt := by
    intro i
    have : 0 < ((i : ℝ) + 1) * dt := by positivity
    linarith
  have hsub : ∀ i : ℕ, xs (i + 1) = (subSteps H (t0 + (i + 1) * dt) (t0 + i * dt)).foldl
      (fun s p => sf.eulerSub a p.1 p.2 s) (xs i) := by
    intro i
    have h1 := hx i
    rw [run_euler_coupled a hsf hint hT (hend i)] at h1
    injection h1 with h1
    exact h1.symm
  have huni : ∀ i : ℕ, ∀ p ∈ subSteps H (t0 + (i + 1) * dt) (t0 + i * dt), p.1 = H := fun i =>
    (subSteps_uniform (h := H) (a := t0 + i * dt) (b := t0 + (i + 1) * dt) (n := n) hint (by rw [← hdt]; ring)).2
  have hden : 0 < α * β + S * G := by positivity
  obtain ⟨hE, hbal, -⟩ := compromise_balance (αβ := α * β) (G := G) (lf0 := lf0) (lf1 := lf1) (D := D) (g0 := a.goalY i)
    (g1 := a.goalY j) hden.ne'
  rw [← hSdef] at hbal hE
  change y.1 - y.2 + D = _ at hE
  change α * β * (a.goalY i - a.goalY j - (y.1 - y.2)) = S * G * (y.1 - y.2 + D) at hbal
  -- the weighted sum of the dimensions is not affected by the coupling
  let φs : Vec d × Vec d → ℝ × ℝ := pairSum lf0 lf1 (a.goalY i) (a.goalY j) i j
  have hφs : ∀ t s, φs (sf.eulerSub a H t s) =
      sdStep (α * β / τ ^ 2) (α / τ) H (lf1 * a.drive i t + lf0 * a.drive j t) (φs s) := by
    intro t s
    rcases hsf with rfl | rfl
    · obtain ⟨y', w, hw, hy, hb⟩ := a.eulerBody_coupled hc he hT H t s
      simp only [← hτdef] at hw hb
      simp only [StepFunction.eulerSub, if_true, hb, φs, pairSum, sdStep]
      obtain ⟨e1, e2, e3, e4⟩ := hpair y' w
      obtain ⟨e5, e6, e7, e8⟩ := hpair s.1 s.2
      rw [e1, e2, hy i, hy j, hw i, hw j, e7, e8, hαi, hαj, hβi, hβj]
      ext
      · simp only; field_simp; ring
      · simp only; field_simp; ring
    · obtain ⟨bi, bi'⟩ := a.eulerBodyCy_coupled hc he hT H t s i
      obtain ⟨bj, bj'⟩ := a.eulerBodyCy_coupled hc he hT H t s j
      simp only [← hτdef] at bi bj
      obtain ⟨e5, e6, e7, e8⟩ := hpair s.1 s.2
      simp only [StepFunction.eulerSub, reduceCtorEq, if_false, φs, pairSum, sdStep]
      rw [bi', bj', bi, bj, e5, e6, e7, e8, hαi, hαj, hβi, hβj]
      ext
      · simp only; field_simp; ring
      · simp only; field_simp; ring
  have hbase : H ^ 2 * (α * β) + 2 * (H * α * τ) < 4 * τ ^ 2 := by
    rcases hst with ⟨-, -, -, -, -, h, h'⟩ | ⟨-, -, -, -, -, h'⟩ | ⟨hsf', -⟩
    · have : 0 ≤ H ^ 2 * (S * Q) := by positivity
      have : 0 ≤ H * (S * P) * (τ - H * α) := mul_nonneg (by positivity) (by linarith)
      linarith
    · have : 0 ≤ H ^ 2 * (S * Q) := by positivity
      have : 0 ≤ H * (S * P) * τ := by positivity
      linarith
    · rcases hsf with rfl | rfl <;> simp at hsf'
  have hsum : Tendsto (fun n => φs (xs n)) atTop (𝓝 (0, 0)) := by
    refine sd_tendsto_sharp (t0 := t0) (u := fun t => lf1 * a.drive i t + lf0 * a.drive j t) hk hcc hint ?_ hn hdt ?_ ?_
    · have e1 : H ^ 2 * (α * β / τ ^ 2) + 2 * (H * (α / τ)) = (H ^ 2 * (α * β) + 2 * (H * α * τ)) / τ ^ 2 := by field_simp
      rw [e1, div_lt_iff₀ (by positivity)]
      exact hbase
    · simpa using (hdi.const_mul lf1).add (hdj.const_mul lf0)
    · intro n
      rw [hsub n]
      exact foldl_coordinates (g := fun h t => sdStep (α * β / τ ^ 2) (α / τ) h (lf1 * a.drive i t + lf0 * a.drive j t))
        hφs (huni n) _
  -- the difference of the dimensions
  let φd : Vec d × Vec d → ℝ × ℝ := pairDiff (y.1 - y.2) (v.1 - v.2) i j
  have hdrive : Tendsto (fun t => a.drive i t - a.drive j t) atTop (𝓝 0) := by simpa using hdi.sub hdj
  have hdiff : Tendsto (fun n => φd (xs n)) atTop (𝓝 (0, 0)) := by
    rcases hst with ⟨rfl, -, -, -, -, hH1, hH2⟩ | ⟨rfl, -, -, -, -, hH2⟩ | ⟨hsf', -⟩
    · have hv : v.1 - v.2 = -(P / τ * S * (y.1 - y.2 + D)) := by
        rw [hE]
        simp only [v, F, Spec.reportedVelocity, Spec.velocityFactor, hSdef]
        ring
      have hbal' : H * (α * β / τ ^ 2) * (a.goalY i - a.goalY j - (y.1 - y.2)) =
          S * (P / τ * (1 - H * (α / τ)) + H * (Q / τ ^ 2)) * (y.1 - y.2 + D) := by
        have e : G = P * (τ / H - α) + Q := rfl
        rw [e] at hbal
        have e2 : S * (P / τ * (1 - H * (α / τ)) + H * (Q / τ ^ 2)) * (y.1 - y.2 + D) =
            H / τ ^ 2 * (S * (P * (τ / H - α) + Q) * (y.1 - y.2 + D)) := by field_simp
        rw [e2, ← hbal]; ring
      refine cp_tendsto_sharp (t0 := t0) (u := fun t => a.drive i t - a.drive j t)
        (k := (α * β + S * Q) / τ ^ 2) (c := α / τ) (p := S * P / τ) (by positivity) hcc (by positivity) hint ?_ ?_ hn hdt
        hdrive ?_
      · rw [← mul_div_assoc, div_lt_one hτ]; exact hH1
      · have e1 : H ^ 2 * ((α * β + S * Q) / τ ^ 2) + H * (S * P / τ) * (1 - H * (α / τ)) + 2 * (H * (α / τ)) =
            (H ^ 2 * (α * β + S * Q) + H * (S * P) * (τ - H * α) + 2 * (H * α * τ)) / τ ^ 2 := by field_simp
        rw [e1, div_lt_iff₀ (by positivity)]
        exact hH2
      · intro n
        rw [hsub n]
        refine foldl_coordinates (g := fun h t => cpStep ((α * β + S * Q) / τ ^ 2) (α / τ) (S * P / τ) h
          (a.drive i t - a.drive j t)) ?_ (huni n) _
        intro t s
        obtain ⟨y', w, hw, hy, hb⟩ := a.eulerBody_coupled hc he hT H t s
        simp only [← hτdef] at hw hb
        simp only [StepFunction.eulerSub, if_true, hb, φd, pairDiff, cpStep]
        obtain ⟨e1, e2, e3, e4⟩ := hpair y' w
        obtain ⟨e5, e6, e7, e8⟩ := hpair s.1 s.2
        rw [e1, e2, hy i, hy j, hw i, hw j, e7, e8, hαi, hαj, hβi, hβj]
        have key : (v.1 - v.2) * (1 - H * (α / τ)) + H * (α * β / τ ^ 2) * (a.goalY i - a.goalY j - (y.1 - y.2)) -
            H * (S * Q / τ ^ 2) * (y.1 - y.2 + D) = 0 := by
          rw [hv, hbal']; ring
        ext
        · simp only [hSdef]
          rw [hSdef] at key
          linear_combination H * key
        · simp only [hSdef]
          rw [hSdef] at key hv
          linear_combination (1 - P / τ * (lf0 + lf1) * H) * key - hv
    · have hv : v.1 - v.2 = 0 := by simp [v, F, Spec.reportedVelocity, Spec.velocityFactor]
      have hbal' : H * (α * β / τ ^ 2) * (a.goalY i - a.goalY j - (y.1 - y.2)) =
          S * (P / τ + H * (Q / τ ^ 2)) * (y.1 - y.2 + D) := by
        have e : G = P * (τ / H) + Q := rfl
        rw [e] at hbal
        have e2 : S * (P / τ + H * (Q / τ ^ 2)) * (y.1 - y.2 + D) =
            H / τ ^ 2 * (S * (P * (τ / H) + Q) * (y.1 - y.2 + D)) := by field_simp
        rw [e2, ← hbal]; ring
      obtain ⟨κ, hκ⟩ : ∃ κ, κ = (α * β + S * Q) / τ ^ 2 + S * P / (τ * H) := ⟨_, rfl⟩
      have hκ0 : 0 < κ := by rw [hκ]; positivity
      have hκH : H * κ = H * ((α * β + S * Q) / τ ^ 2) + S * P / τ := by rw [hκ]; field_simp
      refine sd_tendsto_sharp (t0 := t0) (u := fun t => a.drive i t - a.drive j t) (k := κ) (c := α / τ)
        hκ0 hcc hint ?_ hn hdt hdrive ?_
      · have e1 : H ^ 2 * κ + 2 * (H * (α / τ)) =
            (H ^ 2 * (α * β + S * Q) + H * (S * P) * τ + 2 * (H * α * τ)) / τ ^ 2 := by
          rw [pow_two, mul_assoc, hκH]; field_simp
        rw [e1, div_lt_iff₀ (by positivity)]
        exact hH2
      · intro n
        rw [hsub n]
        refine foldl_coordinates (g := fun h t => sdStep κ (α / τ) h (a.drive i t - a.drive j t)) ?_ (huni n) _
        intro t s
        obtain ⟨bi, bi'⟩ := a.eulerBodyCy_coupled hc he hT H t s i
        obtain ⟨bj, bj'⟩ := a.eulerBodyCy_coupled hc he hT H t s j
        simp only [← hτdef] at bi bj
        obtain ⟨e5, e6, e7, e8⟩ := hpair s.1 s.2
        simp only [StepFunction.eulerSub, reduceCtorEq, if_false, φd, pairDiff, sdStep]
        rw [bi', bj', bi, bj, e5, e6, e7, e8, hαi, hαj, hβi, hβj, hv]
        have key : H * (α * β / τ ^ 2) * (a.goalY i - a.goalY j - (y.1 - y.2)) -
            H * (S * Q / τ ^ 2) * (y.1 - y.2 + D) - S * P / τ * (y.1 - y.2 + D) = 0 := by
          rw [hbal']; ring
        rw [hSdef] at key hκH
        ext
        · simp only
          linear_combination H * key + H * (s.1 i - s.1 j - (y.1 - y.2)) * hκH
        · simp only
          linear_combination key + (s.1 i - s.1 j - (y.1 - y.2)) * hκH
    · rcases hsf with rfl | rfl <;> simp at hsf'
  exact ⟨hsum, hdiff⟩

/-- One Runge-Kutta step with a coupling term. -/
theorem stepRk4_coupled {c : Coupling d} (hc : a.coupling = some c) (he : a.trackingError = 0) (hT : a.startT < a.goalT)
    {lastT t : ℝ} {s s' : Vec d × Vec d} (h : a.stepRk4 lastT t s = .ok s') :
    let A := fun (Y V : Vec d) (t : ℝ) (k : Fin d) =>
      -(a.alphaY k * a.betaY k / (a.goalT - a.startT) ^ 2) * (Y k - a.goalY k) -
        a.alphaY k / (a.goalT - a.startT) * V k + a.drive k t + (c Y V).2 k / (a.goalT - a.startT) ^ 2
    let dt := t - lastT
    ∃ K0 K1 K2 K3 C1 C2 C3 Y1 Y2 Y3 y' w : Vec d,
      (∀ k, K0 k = A s.1 s.2 t k) ∧ (∀ k, Y1 k = s.1 k + dt / 2 * s.2 k) ∧ (∀ k, C1 k = s.2 k + dt / 2 * K0 k) ∧
      (∀ k, K1 k = A Y1 C1 (t + dt / 2) k) ∧ (∀ k, Y2 k = s.1 k + dt / 2 * C1 k) ∧ (∀ k, C2 k = s.2 k + dt / 2 * K1 k) ∧
      (∀ k, K2 k = A Y2 C2 (t + dt / 2) k) ∧ (∀ k, Y3 k = s.1 k + dt * C2 k) ∧ (∀ k, C3 k = s.2 k + dt * K2 k) ∧
      (∀ k, K3 k = A Y3 C3 (t + dt) k) ∧
      (∀ k, y' k = s.1 k + dt * (s.2 k + dt / 6 * (K0 k + K1 k + K2 k))) ∧
      (∀ k, w k = s.2 k + dt / 6 * (K0 k + 2 * K1 k + 2 * K2 k + K3 k)) ∧
      s' = (y', fun k => w k + (c y' w).1 k / (a.goalT - a.startT)) := by
  intro A dt
  have hz : (fun k => a.pGain * a.trackingError k / (t - lastT)) = fun _ => (0 : ℝ) := by funext k; simp [he]
  have h2 : 1 / 2 * (t - lastT) = (t - lastT) / 2 := by ring
  unfold StepArgs.stepRk4 StepArgs.addCd at h
  simp only [hc, hz, h2] at h
  injection h with h
  subst h
  refine ⟨_, _, _, _, _, _, _, _, _, _, _, _, fun k => a.acc_coupled hc hT _ _ _ k, fun k => rfl, fun k => rfl,
    fun k => a.acc_coupled hc hT _ _ _ k, fun k => rfl, fun k => rfl, fun k => a.acc_coupled hc hT _ _ _ k,
    fun k => rfl, fun k => rfl, fun k => a.acc_coupled hc hT _ _ _ k, fun k => rfl, fun k => rfl, rfl⟩

/-- A linear combination of two dimensions in one Runge-Kutta step. -/
theorem stepRk4_functional {c : Coupling d} (hc : a.coupling = some c) (he : a.trackingError = 0) (hT : a.startT < a.goalT)
    {lastT t : ℝ} {s s' : Vec d × Vec d} (h : a.stepRk4 lastT t s = .ok s') :
    ∃ y' w : Vec d, s' = (y', fun k => w k + (c y' w).1 k / (a.goalT - a.startT)) ∧
      ∀ (i j : Fin d) (p q k b g : ℝ) (u : ℝ → ℝ),
        (∀ (Y V : Vec d) (t : ℝ),
          p * (-(a.alphaY i * a.betaY i / (a.goalT - a.startT) ^ 2) * (Y i - a.goalY i) -
            a.alphaY i / (a.goalT - a.startT) * V i + a.drive i t + (c Y V).2 i / (a.goalT - a.startT) ^ 2) +
          q * (-(a.alphaY j * a.betaY j / (a.goalT - a.startT) ^ 2) * (Y j - a.goalY j) -
            a.alphaY j / (a.goalT - a.startT) * V j + a.drive j t + (c Y V).2 j / (a.goalT - a.startT) ^ 2) =
          -k * (p * Y i + q * Y j - g) - b * (p * V i + q * V j) + u t) →
        (p * y' i + q * y' j - g, p * w i + q * w j) =
          rkStep k b (t - lastT) (u t) (u (t + (t - lastT) / 2)) (u (t + (t - lastT)))
            (p * s.1 i + q * s.1 j - g, p * s.2 i + q * s.2 j) := by
  obtain ⟨K0, K1, K2, K3, C1, C2, C3, Y1, Y2, Y3, y', w, hK0, hY1, hC1, hK1, hY2, hC2, hK2, hY3, hC3, hK3, hy, hw, hs⟩ :=
    stepRk4_coupled a hc he hT h
  refine ⟨y', w, hs, ?_⟩
  intro i j p q k b g u hlin
  generalize t - lastT = dt at *
  have E0 : p * K0 i + q * K0 j = -k * (p * s.1 i + q * s.1 j - g) - b * (p * s.2 i + q * s.2 j) + u t := by
    rw [hK0 i, hK0 j]; exact hlin _ _ _
  have E1 : p * K1 i + q * K1 j = -k * (p * Y1 i + q * Y1 j - g) - b * (p * C1 i + q * C1 j) + u (t + dt / 2) := by
    rw [hK1 i, hK1 j]; exact hlin _ _ _
  have E2 : p * K2 i + q * K2 j = -k * (p * Y2 i + q * Y2 j - g) - b * (p * C2 i + q * C2 j) + u (t + dt / 2) := by
    rw [hK2 i, hK2 j]; exact hlin _ _ _
  have E3 : p * K3 i + q * K3 j = -k * (p * Y3 i + q * Y3 j - g) - b * (p * C3 i + q * C3 j) + u (t + dt) := by
    rw [hK3 i, hK3 j]; exact hlin _ _ _
  rw [hY1 i, hY1 j, hC1 i, hC1 j] at E1
  rw [hY2 i, hY2 j, hC2 i, hC2 j, hC1 i, hC1 j] at E2
  rw [hY3 i, hY3 j, hC3 i, hC3 j, hC2 i, hC2 j] at E3
  simp only [rkStep]
  rw [hy i, hy j, hw i, hw j]
  generalize u t = u0 at *
  generalize u (t + dt / 2) = u1 at *
  generalize u (t + dt) = u2 at *
  generalize he0 : p * s.1 i + q * s.1 j - g = e at *
  generalize hv0 : p * s.2 i + q * s.2 j = v at *
  have F1 : p * K1 i + q * K1 j =
      -k * (e + dt / 2 * v) - b * (v + dt / 2 * (-k * e - b * v + u0)) + u1 := by
    rw [← E0]; linear_combination E1 - k * he0 - (k * dt / 2 + b) * hv0
  have F2 : p * K2 i + q * K2 j = -k * (e + dt / 2 * (v + dt / 2 * (-k * e - b * v + u0))) -
      b * (v + dt / 2 * (-k * (e + dt / 2 * v) - b * (v + dt / 2 * (-k * e - b * v + u0)) + u1)) + u1 := by
    rw [← F1, ← E0]; linear_combination E2 - k * he0 - (k * dt / 2 + b) * hv0
  have F3 : p * K3 i + q * K3 j = -k * (e + dt * (v + dt / 2 *
      (-k * (e + dt / 2 * v) - b * (v + dt / 2 * (-k * e - b * v + u0)) + u1))) -
      b * (v + dt * (-k * (e + dt / 2 * (v + dt / 2 * (-k * e - b * v + u0))) -
      b * (v + dt / 2 * (-k * (e + dt / 2 * v) - b * (v + dt / 2 * (-k * e - b * v + u0)) + u1)) + u1)) + u2 := by
    rw [← F2, ← F1]; linear_combination E3 - k * he0 - (k * dt + b) * hv0
  rw [← F3, ← F2, ← F1, ← E0]
  ext
  · simp only; linear_combination he0 + dt * hv0
  · simp only; linear_combination hv0

/-- Limit of two coupled dimensions, Runge-Kutta methods. -/
theorem rk4_coupled_tendsto {c : Coupling d} (hc : a.coupling = some c) (he : a.trackingError = 0)
    (hT : a.startT < a.goalT) (hm : 1 < m) (hα : 0 < a.ft.alphaZ) (hft : a.ft.startT < a.ft.goalT)
    {i j : Fin d} {lf0 lf1 D P Q α β : ℝ} (hpair : PairCoupled c i j lf0 lf1 D P Q)
    (h0 : 0 ≤ lf0) (h1 : 0 ≤ lf1) (hS : 0 < lf0 + lf1) (hP : 0 ≤ P) (hQ : 0 ≤ Q)
    (hαi : a.alphaY i = α) (hαj : a.alphaY j = α) (hβi : a.betaY i = β) (hβj : a.betaY j = β)
    (hα0 : 0 < α) (hβ0 : 0 < β)
    {sf : StepFunction} (hsf : sf = .rk4 ∨ sf = .rk4Cython) {dt t0 : ℝ} (hdt0 : 0 < dt)
    (hst : Spec.CoupledStable sf dt a.intDt (a.goalT - a.startT) α β (lf0 + lf1) P Q)
    {xs : ℕ → Vec d × Vec d}
    (hx : ∀ i : ℕ, sf.run a (t0 + i * dt) (t0 + (i + 1) * dt) (xs i) = .ok (xs (i + 1))) :
    let G := Spec.couplingStiffness sf dt a.intDt (a.goalT - a.startT) α β (lf0 + lf1) P Q
    let F := Spec.velocityFactor sf dt (a.goalT - a.startT) α β (lf0 + lf1) Q
    let y := Spec.compromise (α * β) G lf0 lf1 D (a.goalY i) (a.goalY j)
    let v := Spec.reportedVelocity F (α * β) G (a.goalT - a.startT) P lf0 lf1 D (a.goalY i) (a.goalY j)
    Tendsto (fun n => pairSum lf0 lf1 (a.goalY i) (a.goalY j) i j (xs n)) atTop (𝓝 (0, 0)) ∧
      Tendsto (fun n => pairDiff (y.1 - y.2) (v.1 - v.2) i j (xs n)) atTop (𝓝 (0, 0)) := by
  intro G F y v
  have hτ' : 0 < a.goalT - a.startT := by linarith
  have hG : 0 ≤ G := couplingStiffness_nonneg hdt0 hτ' hα0 hβ0 hS hP hQ hst
  obtain ⟨A, B, hA, hB, g1, g2, g3, g4, g5, g6⟩ : ∃ A B : ℝ, A = dt * α / (a.goalT - a.startT) ∧
      B = dt ^ 2 * (α * β + (lf0 + lf1) * Q) / (a.goalT - a.startT) ^ 2 ∧ dt * β < a.goalT - a.startT ∧
      2 * (dt * α * (a.goalT - a.startT)) < 4 * (a.goalT - a.startT) ^ 2 + dt ^ 2 * (α * β) ∧
      0 < Spec.rkSide A B ∧ Spec.rkDiag A B ≤ 1 ∧ |Spec.rkDet A B| < 1 ∧
      |2 * Spec.rkDiag A B - A * Spec.rkSide A B - dt * ((lf0 + lf1) * P) / (a.goalT - a.startT) * Spec.rkSide A B| <
        1 + Spec.rkDet A B := by
    rcases hst with ⟨hsf', -⟩ | ⟨hsf', -⟩ | ⟨-, A, B, hA, hB, g1, g2, g3, g4, g5, g6⟩
    · rcases hsf with rfl | rfl <;> simp at hsf'
    · rcases hsf with rfl | rfl <;> simp at hsf'
    · exact ⟨A, B, hA, hB, g1, g2, g3, g4, g5, g6⟩
  set τ := a.goalT - a.startT with hτdef
  have hτ : 0 < τ := hτ'
  set S := lf0 + lf1 with hSdef
  have hk : 0 < α * β / τ ^ 2 := by positivity
  have hcc : 0 < α / τ := by positivity
  have hdi := a.drive_tendsto hm hα hft i
  have hdj := a.drive_tendsto hm hα hft j
  have hdrive : Tendsto (fun t => a.drive i t - a.drive j t) atTop (𝓝 0) := by simpa using hdi.sub hdj
  have hstep : ∀ n : ℕ, a.stepRk4 (t0 + n * dt) (t0 + (n + 1) * dt) (xs n) = .ok (xs (n + 1)) := by
    intro n
    have := hx n
    rcases hsf with rfl | rfl
    · exact this
    · rw [← C10_rk4_cython_eq_python]; exact this
  have hden : 0 < α * β + S * G := by positivity
  obtain ⟨hE, hbal, -⟩ := compromise_balance (αβ := α * β) (G := G) (lf0 := lf0) (lf1 := lf1) (D := D) (g0 := a.goalY i)
    (g1 := a.goalY j) hden.ne'
  rw [← hSdef] at hbal hE
  change y.1 - y.2 + D = _ at hE
  change α * β * (a.goalY i - a.goalY j - (y.1 - y.2)) = S * G * (y.1 - y.2 + D) at hbal
  have hB0 : 0 < B := by rw [hB]; positivity
  have hA0 : 0 < A := by rw [hA]; positivity
  have hgap : 0 < Spec.rkGap A B := by
    unfold Spec.rkGap
    have : 0 ≤ A * Spec.rkSide A B * (1 - Spec.rkDiag A B) := mul_nonneg (by positivity) (by linarith)
    have : 0 < B * Spec.rkSide A B ^ 2 := by positivity
    have := sq_nonneg (1 - Spec.rkDiag A B)
    linarith
  constructor
  · refine rk_tendsto (t0 := t0) (u := fun t => lf1 * a.drive i t + lf0 * a.drive j t) hk hcc hdt0 ?_ ?_ ?_ ?_
    · have e1 : dt * (α * β / τ ^ 2) = (dt * β) * (α / τ ^ 2) := by ring
      have e2 : α / τ = τ * (α / τ ^ 2) := by field_simp
      rw [e1, e2]
      exact mul_lt_mul_of_pos_right g1 (by positivity)
    · have e1 : 2 * (dt * (α / τ)) = 2 * (dt * α * τ) / τ ^ 2 := by field_simp
      have e2 : 4 + dt ^ 2 * (α * β / τ ^ 2) = (4 * τ ^ 2 + dt ^ 2 * (α * β)) / τ ^ 2 := by field_simp
      rw [e1, e2]
      exact div_lt_div_of_pos_right g2 (by positivity)
    · simpa using (hdi.const_mul lf1).add (hdj.const_mul lf0)
    · intro n
      obtain ⟨y', w, hs, hfun⟩ := stepRk4_functional a hc he hT (hstep n)
      have edt : t0 + (n + 1) * dt - (t0 + n * dt) = dt := by ring
      have := hfun i j lf1 lf0 (α * β / τ ^ 2) (α / τ) (lf1 * a.goalY i + lf0 * a.goalY j)
        (fun t => lf1 * a.drive i t + lf0 * a.drive j t) (by
          intro Y V t
          obtain ⟨-, -, e7, e8⟩ := hpair Y V
          rw [e7, e8, hαi, hαj, hβi, hβj]
          ring)
      rw [edt] at this
      rw [hs]
      simp only [pairSum]
      rw [← this]
      obtain ⟨e5, e6, -, -⟩ := hpair y' w
      rw [e5, e6]
      ext
      · rfl
      · simp only; ring
  · set κ := (α * β + S * Q) / τ ^ 2 with hκ
    have hA' : dt * (α / τ) = A := by rw [hA]; ring
    have hB' : dt ^ 2 * κ = B := by rw [hB, hκ]; ring
    refine rc_tendsto (t0 := t0) (u := fun t => a.drive i t - a.drive j t) (k := κ) (c := α / τ) (p := S * P / τ) hdt0
      (by rw [hA', hB']; exact g3) (by rw [hA', hB']; exact g5) ?_ hdrive ?_
    · rw [hA', hB', ← mul_div_assoc]; exact g6
    · intro n
      obtain ⟨y', w, hs, hfun⟩ := stepRk4_functional a hc he hT (hstep n)
      have edt : t0 + (n + 1) * dt - (t0 + n * dt) = dt := by ring
      set r := y.1 - y.2 + D with hr
      set X := S * P / τ * r / Spec.rkGap A B with hX
      have hXg : X * Spec.rkGap A B = S * P / τ * r := by rw [hX]; field_simp
      have hGe : G = P * (τ / dt) * (B * Spec.rkSide A B / Spec.rkGap A B) + Q := by
        rw [hA, hB]
        rcases hsf with rfl | rfl <;> rfl
      have hFe : F = (1 - Spec.rkDiag A B) / Spec.rkGap A B := by
        rw [hA, hB]
        rcases hsf with rfl | rfl <;> rfl
      have hδ : (α * β * (a.goalY i - a.goalY j - (y.1 - y.2)) - S * Q * r) / τ ^ 2 = κ * (dt * Spec.rkSide A B * X) := by
        rw [hbal, hGe, hX, ← hB']
        field_simp
        ring
      have hw : v.1 - v.2 = -((1 - Spec.rkDiag A B) * X) := by
        have : v.1 - v.2 = -(F * (S * P / τ * r)) := by
          rw [hE]
          simp only [v, Spec.reportedVelocity, hSdef]
          ring
        rw [this, hFe, hX]; ring
      have hf := hfun i j 1 (-1) κ (α / τ) (y.1 - y.2)
        (fun t => a.drive i t - a.drive j t + κ * (dt * Spec.rkSide A B * X)) (by
          intro Y V t
          obtain ⟨-, -, e7, e8⟩ := hpair Y V
          rw [e7, e8, hαi, hαj, hβi, hβj, ← hδ, hκ, hr, hSdef]
          ring)
      rw [edt] at hf
      have hrest := rkStep_rest κ (α / τ) dt X (a.drive i (t0 + (n + 1) * dt) - a.drive j (t0 + (n + 1) * dt))
        (a.drive i (t0 + (n + 1) * dt + dt / 2) - a.drive j (t0 + (n + 1) * dt + dt / 2))
        (a.drive i (t0 + (n + 1) * dt + dt) - a.drive j (t0 + (n + 1) * dt + dt))
        (pairDiff (y.1 - y.2) (v.1 - v.2) i j (xs n))
      simp only [hA', hB', hXg, ← hw] at hrest
      have e0 : (1 * (xs n).1 i + -1 * (xs n).1 j - (y.1 - y.2), 1 * (xs n).2 i + -1 * (xs n).2 j) =
          ((pairDiff (y.1 - y.2) (v.1 - v.2) i j (xs n)).1,
            (pairDiff (y.1 - y.2) (v.1 - v.2) i j (xs n)).2 + (v.1 - v.2)) := by
        simp only [pairDiff]; ext <;> simp <;> ring
      rw [e0, hrest] at hf
      have f1 := congrArg Prod.fst hf
      have f2 := congrArg Prod.snd hf
      simp only at f1 f2
      rw [hs]
      obtain ⟨e5, e6, -, -⟩ := hpair y' w
      simp only [rcStep]
      rw [← f1]
      unfold pairDiff at f2 ⊢
      simp only [e5, e6]
      ext
      · simp only; ring
      · simp only
        rw [hSdef] at f2 ⊢
        linear_combination f2

/-- Limit of two coupled dimensions. -/
theorem run_coupled_tendsto {c : Coupling d} (hc : a.coupling = some c) (he : a.trackingError = 0)
    (hT : a.startT < a.goalT) (hm : 1 < m) (hα : 0 < a.ft.alphaZ) (hft : a.ft.startT < a.ft.goalT)
    {i j : Fin d} {lf0 lf1 D P Q α β : ℝ} (hpair : PairCoupled c i j lf0 lf1 D P Q)
    (h0 : 0 ≤ lf0) (h1 : 0 ≤ lf1) (hS : 0 < lf0 + lf1) (hP : 0 ≤ P) (hQ : 0 ≤ Q)
    (hαi : a.alphaY i = α) (hαj : a.alphaY j = α) (hβi : a.betaY i = β) (hβj : a.betaY j = β)
    (hα0 : 0 < α) (hβ0 : 0 < β)
    {sf : StepFunction} {dt t0 : ℝ} (hdt0 : 0 < dt) (ht0 : a.startT ≤ t0)
    (hst : Spec.CoupledStable sf dt a.intDt (a.goalT - a.startT) α β (lf0 + lf1) P Q)
    {xs : ℕ → Vec d × Vec d}
    (hx : ∀ i : ℕ, sf.run a (t0 + i * dt) (t0 + (i + 1) * dt) (xs i) = .ok (xs (i + 1))) :
    let G := Spec.couplingStiffness sf dt a.intDt (a.goalT - a.startT) α β (lf0 + lf1) P Q
    let F := Spec.velocityFactor sf dt (a.goalT - a.startT) α β (lf0 + lf1) Q
    let y := Spec.compromise (α * β) G lf0 lf1 D (a.goalY i) (a.goalY j)
    let v := Spec.reportedVelocity F (α * β) G (a.goalT - a.startT) P lf0 lf1 D (a.goalY i) (a.goalY j)
    Tendsto (fun n => (xs n).1 i) atTop (𝓝 y.1) ∧ Tendsto (fun n => (xs n).1 j) atTop (𝓝 y.2) ∧
      Tendsto (fun n => (xs n).2 i) atTop (𝓝 v.1) ∧ Tendsto (fun n => (xs n).2 j) atTop (𝓝 v.2) := by
  intro G F y v
  have hy : lf1 * y.1 + lf0 * y.2 = lf1 * a.goalY i + lf0 * a.goalY j := by
    simp only [y, Spec.compromise]; ring
  have hv : lf1 * v.1 + lf0 * v.2 = 0 := by simp only [v, Spec.reportedVelocity]; ring
  have hsf : (sf = .euler ∨ sf = .eulerCython) ∨ (sf = .rk4 ∨ sf = .rk4Cython) := by cases sf <;> simp
  rcases hsf with hsf | hsf
  · obtain ⟨l1, l2⟩ := euler_coupled_tendsto a hc he hT hm hα hft hpair h0 h1 hS hP hQ hαi hαj hβi hβj hα0 hβ0 hsf hdt0 ht0
      hst hx
    exact pair_combine hS hy hv l1 l2
  · obtain ⟨l1, l2⟩ := rk4_coupled_tendsto a hc he hT hm hα hft hpair h0 h1 hS hP hQ hαi hαj hβi hβj hα0 hβ0 hsf hdt0
      hst hx
    exact pair_combine hS hy hv l1 l2

/-- Step functions return with a coupling term. -/
theorem run_coupled_returns {sf : StepFunction} {dt τ α β S P Q : ℝ} (hst : Spec.CoupledStable sf dt a.intDt τ α β S P Q)
    (hT : a.startT < a.goalT) {lastT t : ℝ} (ht : a.startT < t) (s : Vec d × Vec d) : ∃ s', sf.run a lastT t s = .ok s' := by
  rcases hst with ⟨rfl, hint, -⟩ | ⟨rfl, hint, -⟩ | ⟨rfl | rfl, -⟩
  · exact ⟨_, run_euler_coupled a (.inl rfl) hint hT ht s⟩
  · exact ⟨_, run_euler_coupled a (.inr rfl) hint hT ht s⟩
  · exact ⟨_, rfl⟩
  · show ∃ s', a.stepRk4Cy lastT t s = .ok s'
    rw [C10_rk4_cython_eq_python]; exact ⟨_, rfl⟩

end Core

/-! ## The class -/

/-- Limit of two coupled dimensions in an infinite sequence of calls of `step`. -/
theorem step_coupled_tendsto {s : DMP d m} (hs : s.Reachable) {sf : StepFunction} (ht : 0 ≤ s.t)
    {c : Coupling d} {i j : Fin d} {lf0 lf1 D P Q α β : ℝ} (hpair : PairCoupled c i j lf0 lf1 D P Q)
    (h0 : 0 ≤ lf0) (h1 : 0 ≤ lf1) (hS : 0 < lf0 + lf1) (hP : 0 ≤ P) (hQ : 0 ≤ Q)
    (hαi : s.alphaY i = α) (hαj : s.alphaY j = α) (hβi : s.betaY i = β) (hβj : s.betaY j = β)
    (hα0 : 0 < α) (hβ0 : 0 < β) (hdt : 0 < s.dt)
    (hst : Spec.CoupledStable sf s.dt s.intDt s.executionTime α β (lf0 + lf1) P Q)
    {obj : ℕ → DMP d m} {fb out : ℕ → Vec d × Vec d} (ho : obj 0 = s) (hrun : Spec.Run (DMP.step (some c) sf) obj fb out)
    (hfb : s.pGain = 0 ∨
      (fb 0).1 = (if s.initialized then s.currentY else s.startY) ∧ ∀ i, (fb (i + 1)).1 = (out i).1) :
    let G := Spec.couplingStiffness sf s.dt s.intDt s.executionTime α β (lf0 + lf1) P Q
    let F := Spec.velocityFactor sf s.dt s.executionTime α β (lf0 + lf1) Q
    let y := Spec.compromise (α * β) G lf0 lf1 D (s.goalY i) (s.goalY j)
    let v := Spec.reportedVelocity F (α * β) G s.executionTime P lf0 lf1 D (s.goalY i) (s.goalY j)
    Tendsto (fun n => (out n).1 i) atTop (𝓝 y.1) ∧ Tendsto (fun n => (out n).1 j) atTop (𝓝 y.2) ∧
      Tendsto (fun n => (out n).2 i) atTop (𝓝 v.1) ∧ Tendsto (fun n => (out n).2 j) atTop (𝓝 v.2) := by
  intro G F y v
  have hx := step_states ho hrun hfb
  obtain ⟨hm, hα, hft⟩ := hs.valid.forcing
  let a := s.stepArgs (some c) 0
  let xs : ℕ → Vec d × Vec d := fun i => ((obj i).beginStep.currentY, (obj i).beginStep.currentYd)
  have hτ : a.goalT - a.startT = s.executionTime := sub_zero _
  have hlim := run_coupled_tendsto a (c := c) rfl rfl (show (0 : ℝ) < s.executionTime from hs.valid.pos.2) hm hα hft hpair
    h0 h1 hS hP hQ hαi hαj hβi hβj hα0 hβ0 (sf := sf) hdt (show (0 : ℝ) ≤ s.t from ht) (by rw [hτ]; exact hst)
    (xs := xs) hx
  rw [hτ] at hlim
  have : out = fun i => xs (i + 1) := by funext i; exact ((run_result hrun i).2).symm
  rw [this]
  obtain ⟨l1, l2, l3, l4⟩ := hlim
  exact ⟨(tendsto_add_atTop_iff_nat 1).2 l1, (tendsto_add_atTop_iff_nat 1).2 l2,
    (tendsto_add_atTop_iff_nat 1).2 l3, (tendsto_add_atTop_iff_nat 1).2 l4⟩

/-- Rows of a long open-loop trajectory with two coupled dimensions. -/
theorem openLoop_coupled_tendsto {s : DMP d m} (hs : s.Reachable) {name : String} {sf : StepFunction}
    (hname : StepFunction.lookup name = .ok sf)
    {c : Coupling d} {i j : Fin d} {lf0 lf1 D P Q α β : ℝ} (hpair : PairCoupled c i j lf0 lf1 D P Q)
    (h0 : 0 ≤ lf0) (h1 : 0 ≤ lf1) (hS : 0 < lf0 + lf1) (hP : 0 ≤ P) (hQ : 0 ≤ Q)
    (hαi : s.alphaY i = α) (hαj : s.alphaY j = α) (hβi : s.betaY i = β) (hβj : s.betaY j = β)
    (hα0 : 0 < α) (hβ0 : 0 < β) (hdt : 0 < s.dt)
    (hst : Spec.CoupledStable sf s.dt s.intDt s.executionTime α β (lf0 + lf1) P Q) :
    let G := Spec.couplingStiffness sf s.dt s.intDt s.executionTime α β (lf0 + lf1) P Q
    let y := Spec.compromise (α * β) G lf0 lf1 D (s.goalY i) (s.goalY j)
    (∀ r : ℝ, 0 ≤ r → ∃ T Y, ((DMP.openLoop (some r) (some c) name).exec s).1 = .ok (T, Y)) ∧
    ∀ ε > 0, ∃ R : ℝ, ∀ (runT : Option ℝ) T Y, ((DMP.openLoop runT (some c) name).exec s).1 = .ok (T, Y) →
      ∀ l (hT : l < T.length) (hY : l < Y.length), R ≤ T[l] → |Y[l] i - y.1| < ε ∧ |Y[l] j - y.2| < ε := by
  intro G y
  obtain ⟨hm, hα, hft⟩ := hs.valid.forcing
  let a := s.openLoopArgs (some c)
  have haT : a.startT < a.goalT := hs.valid.pos.2
  have hτ : a.goalT - a.startT = s.executionTime := sub_zero _
  obtain ⟨xs, -, hx, hret, hrows⟩ := openLoop_states (coupling := some c) hname hdt (fun i x => by
    refine run_coupled_returns a hst haT ?_ x
    show (0 : ℝ) < 0 + (i + 1) * s.dt
    have : 0 < ((i : ℝ) + 1) * s.dt := by positivity
    linarith)
  have hlim := run_coupled_tendsto a (c := c) rfl rfl haT hm hα hft hpair
    h0 h1 hS hP hQ hαi hαj hβi hβj hα0 hβ0 (sf := sf) hdt (le_refl a.startT) (by rw [hτ]; exact hst)
    (xs := xs) hx
  rw [hτ] at hlim
  obtain ⟨l1, l2, -, -⟩ := hlim
  refine ⟨hret, fun ε hε => ?_⟩
  obtain ⟨N1, hN1⟩ := Metric.tendsto_atTop.1 l1 ε hε
  obtain ⟨N2, hN2⟩ := Metric.tendsto_atTop.1 l2 ε hε
  refine ⟨(max N1 N2 : ℕ) * s.dt, ?_⟩
  intro runT T Y h l hT hY hR
  obtain ⟨e1, e2⟩ := hrows runT T Y h l hT hY
  rw [e1] at hR
  have hl : max N1 N2 ≤ l := by have := le_of_mul_le_mul_right hR hdt; exact_mod_cast this
  rw [e2]
  have b1 := hN1 l (le_trans (le_max_left _ _) hl)
  have b2 := hN2 l (le_trans (le_max_right _ _) hl)
  rw [Real.dist_eq] at b1 b2
  exact ⟨b1, b2⟩

/-! ## C107 -/

/-- **C107 (step, two dimensions).** Two coupled dimensions: positions and velocities returned by an infinite sequence
of `step` calls converge. The positions end at a compromise between the goals and the desired displacement, whatever
the weights, the start and the current state. -/
theorem C107_pos1d_step {s : DMP 2 m} (hs : s.Reachable) {sf : StepFunction} (ht : 0 ≤ s.t)
    (desired : ℝ) {lf : Vec 2} {k c1 c2 α β : ℝ} (hlf : ∀ i, 0 ≤ lf i) (hS : 0 < lf 0 + lf 1)
    (hk : 0 ≤ k) (hc1 : 0 ≤ c1) (hc2 : 0 ≤ c2) (hα : ∀ i, s.alphaY i = α) (hβ : ∀ i, s.betaY i = β)
    (hα0 : 0 < α) (hβ0 : 0 < β) (hdt : 0 < s.dt)
    (hst : Spec.CoupledStable sf s.dt s.intDt s.executionTime α β (lf 0 + lf 1) (c1 * k) (c2 * (c1 * k)))
    {obj : ℕ → DMP 2 m} {fb out : ℕ → Vec 2 × Vec 2} (ho : obj 0 = s)
    (hrun : Spec.Run (DMP.step (some (couplingPos1d desired lf k c1 c2)) sf) obj fb out)
    (hfb : s.pGain = 0 ∨
      (fb 0).1 = (if s.initialized then s.currentY else s.startY) ∧ ∀ i, (fb (i + 1)).1 = (out i).1) :
    let G := Spec.couplingStiffness sf s.dt s.intDt s.executionTime α β (lf 0 + lf 1) (c1 * k) (c2 * (c1 * k))
    let F := Spec.velocityFactor sf s.dt s.executionTime α β (lf 0 + lf 1) (c2 * (c1 * k))
    let y := Spec.compromise (α * β) G (lf 0) (lf 1) desired (s.goalY 0) (s.goalY 1)
    let v := Spec.reportedVelocity F (α * β) G s.executionTime (c1 * k) (lf 0) (lf 1) desired (s.goalY 0) (s.goalY 1)
    Tendsto out atTop (𝓝 (![y.1, y.2], ![v.1, v.2])) := by
  intro G F y v
  obtain ⟨l1, l2, l3, l4⟩ := step_coupled_tendsto hs ht (couplingPos1d_pair desired lf k c1 c2) (hlf 0) (hlf 1) hS
    (by positivity) (by positivity) (hα 0) (hα 1) (hβ 0) (hβ 1) hα0 hβ0 hdt hst ho hrun hfb
  rw [nhds_prod_eq]
  refine Tendsto.prodMk ?_ ?_ <;> rw [tendsto_pi_nhds] <;> intro i <;> fin_cases i
  exacts [l1, l2, l3, l4]

/-- **C107 (open_loop, two dimensions).** Under the same conditions `open_loop` returns for every duration, and its
positions at late times are arbitrarily close to the compromise. -/
theorem C107_pos1d_open_loop {s : DMP 2 m} (hs : s.Reachable) {name : String} {sf : StepFunction}
    (hname : StepFunction.lookup name = .ok sf)
    (desired : ℝ) {lf : Vec 2} {k c1 c2 α β : ℝ} (hlf : ∀ i, 0 ≤ lf i) (hS : 0 < lf 0 + lf 1)
    (hk : 0 ≤ k) (hc1 : 0 ≤ c1) (hc2 : 0 ≤ c2) (hα : ∀ i, s.alphaY i = α) (hβ : ∀ i, s.betaY i = β)
    (hα0 : 0 < α) (hβ0 : 0 < β) (hdt : 0 < s.dt)
    (hst : Spec.CoupledStable sf s.dt s.intDt s.executionTime α β (lf 0 + lf 1) (c1 * k) (c2 * (c1 * k))) :
    let G := Spec.couplingStiffness sf s.dt s.intDt s.executionTime α β (lf 0 + lf 1) (c1 * k) (c2 * (c1 * k))
    let y := Spec.compromise (α * β) G (lf 0) (lf 1) desired (s.goalY 0) (s.goalY 1)
    let c := couplingPos1d desired lf k c1 c2
    (∀ r : ℝ, 0 ≤ r → ∃ T Y, ((DMP.openLoop (some r) (some c) name).exec s).1 = .ok (T, Y)) ∧
    ∀ ε > 0, ∃ R : ℝ, ∀ (runT : Option ℝ) T Y, ((DMP.openLoop runT (some c) name).exec s).1 = .ok (T, Y) →
      ∀ l (hT : l < T.length) (hY : l < Y.length), R ≤ T[l] → |Y[l] 0 - y.1| < ε ∧ |Y[l] 1 - y.2| < ε :=
  openLoop_coupled_tendsto hs hname (couplingPos1d_pair desired lf k c1 c2) (hlf 0) (hlf 1) hS
    (by positivity) (by positivity) (hα 0) (hα 1) (hβ 0) (hβ 1) hα0 hβ0 hdt hst

/-- **C107 (step, two positions in space).** The same holds for two coupled positions in three dimensions, coordinate
by coordinate. Its acceleration is not multiplied by `c1`. -/
theorem C107_pos3d_step {s : DMP (3 + 3) m} (hs : s.Reachable) {sf : StepFunction} (ht : 0 ≤ s.t)
    (desired : Vec 3) {lf : Vec 2} {k c1 c2 α β : ℝ} (hlf : ∀ i, 0 ≤ lf i) (hS : 0 < lf 0 + lf 1)
    (hk : 0 ≤ k) (hc1 : 0 ≤ c1) (hc2 : 0 ≤ c2) (hα : ∀ i, s.alphaY i = α) (hβ : ∀ i, s.betaY i = β)
    (hα0 : 0 < α) (hβ0 : 0 < β) (hdt : 0 < s.dt)
    (hst : Spec.CoupledStable sf s.dt s.intDt s.executionTime α β (lf 0 + lf 1) (c1 * k) (c2 * k))
    {obj : ℕ → DMP (3 + 3) m} {fb out : ℕ → Vec (3 + 3) × Vec (3 + 3)} (ho : obj 0 = s)
    (hrun : Spec.Run (DMP.step (some (couplingPos3d desired lf k c1 c2)) sf) obj fb out)
    (hfb : s.pGain = 0 ∨
      (fb 0).1 = (if s.initialized then s.currentY else s.startY) ∧ ∀ i, (fb (i + 1)).1 = (out i).1) :
    let G := Spec.couplingStiffness sf s.dt s.intDt s.executionTime α β (lf 0 + lf 1) (c1 * k) (c2 * k)
    let F := Spec.velocityFactor sf s.dt s.executionTime α β (lf 0 + lf 1) (c2 * k)
    let y := fun i : Fin 3 => Spec.compromise (α * β) G (lf 0) (lf 1) (desired i) (sliceTo s.goalY i) (sliceFrom s.goalY i)
    let v := fun i : Fin 3 => Spec.reportedVelocity F (α * β) G s.executionTime (c1 * k) (lf 0) (lf 1) (desired i)
      (sliceTo s.goalY i) (sliceFrom s.goalY i)
    Tendsto out atTop (𝓝 (hstack (fun i => (y i).1) (fun i => (y i).2), hstack (fun i => (v i).1) (fun i => (v i).2))) := by
  intro G F y v
  have key := fun i : Fin 3 => step_coupled_tendsto hs ht (couplingPos3d_pair desired lf k c1 c2 i) (hlf 0) (hlf 1) hS
    (by positivity) (by positivity) (hα _) (hα _) (hβ _) (hβ _) hα0 hβ0 hdt hst ho hrun hfb
  rw [nhds_prod_eq]
  refine Tendsto.prodMk ?_ ?_ <;> rw [tendsto_pi_nhds] <;> intro l
  · refine Fin.addCases (fun i => ?_) (fun i => ?_) l
    · simp only [hstack, Fin.append_left]; exact (key i).1
    · simp only [hstack, Fin.append_right]; exact (key i).2.1
  · refine Fin.addCases (fun i => ?_) (fun i => ?_) l
    · simp only [hstack, Fin.append_left]; exact (key i).2.2.1
    · simp only [hstack, Fin.append_right]; exact (key i).2.2.2

/-- **C107 (open_loop, two positions in space).** -/
theorem C107_pos3d_open_loop {s : DMP (3 + 3) m} (hs : s.Reachable) {name : String} {sf : StepFunction}
    (hname : StepFunction.lookup name = .ok sf)
    (desired : Vec 3) {lf : Vec 2} {k c1 c2 α β : ℝ} (hlf : ∀ i, 0 ≤ lf i) (hS : 0 < lf 0 + lf 1)
    (hk : 0 ≤ k) (hc1 : 0 ≤ c1) (hc2 : 0 ≤ c2) (hα : ∀ i, s.alphaY i = α) (hβ : ∀ i, s.betaY i = β)
    (hα0 : 0 < α) (hβ0 : 0 < β) (hdt : 0 < s.dt)
    (hst : Spec.CoupledStable sf s.dt s.intDt s.executionTime α β (lf 0 + lf 1) (c1 * k) (c2 * k)) (i : Fin 3) :
    let G := Spec.couplingStiffness sf s.dt s.intDt s.executionTime α β (lf 0 + lf 1) (c1 * k) (c2 * k)
    let y := Spec.compromise (α * β) G (lf 0) (lf 1) (desired i) (sliceTo s.goalY i) (sliceFrom s.goalY i)
    let c := couplingPos3d desired lf k c1 c2
    (∀ r : ℝ, 0 ≤ r → ∃ T Y, ((DMP.openLoop (some r) (some c) name).exec s).1 = .ok (T, Y)) ∧
    ∀ ε > 0, ∃ R : ℝ, ∀ (runT : Option ℝ) T Y, ((DMP.openLoop runT (some c) name).exec s).1 = .ok (T, Y) →
      ∀ l (hT : l < T.length) (hY : l < Y.length), R ≤ T[l] →
        |sliceTo Y[l] i - y.1| < ε ∧ |sliceFrom Y[l] i - y.2| < ε :=
  openLoop_coupled_tendsto hs hname (couplingPos3d_pair desired lf k c1 c2 i) (hlf 0) (hlf 1) hS
    (by positivity) (by positivity) (hα _) (hα _) (hβ _) (hβ _) hα0 hβ0 hdt hst

/-- If the goals have the desired displacement, each dimension ends at its own goal and rests there. -/
theorem compromise_compatible (F αβ G τ P lf0 lf1 : ℝ) {desired g0 g1 : ℝ} (h : g0 - g1 = -desired) :
    Spec.compromise αβ G lf0 lf1 desired g0 g1 = (g0, g1) ∧
      Spec.reportedVelocity F αβ G τ P lf0 lf1 desired g0 g1 = (0, 0) := by
  have hc : Spec.conflict desired g0 g1 = 0 := by rw [Spec.conflict, h]; ring
  constructor
  · simp [Spec.compromise, hc]
  · simp [Spec.reportedVelocity, hc]

/-- A leader (following factor 0) ends at its own goal, whatever the other dimension does. -/
theorem compromise_leader (αβ G lf desired g0 g1 : ℝ) :
    (Spec.compromise αβ G 0 lf desired g0 g1).1 = g0 ∧ (Spec.compromise αβ G lf 0 desired g0 g1).2 = g1 := by
  constructor <;> simp [Spec.compromise]

/-- If the goals have the desired displacement, the coupling does not keep the movement from reaching them. -/
theorem C107_goals_reached {s : DMP 2 m} (hs : s.Reachable) {sf : StepFunction} (ht : 0 ≤ s.t)
    {desired : ℝ} {lf : Vec 2} {k c1 c2 α β : ℝ} (hlf : ∀ i, 0 ≤ lf i) (hS : 0 < lf 0 + lf 1)
    (hk : 0 ≤ k) (hc1 : 0 ≤ c1) (hc2 : 0 ≤ c2) (hα : ∀ i, s.alphaY i = α) (hβ : ∀ i, s.betaY i = β)
    (hα0 : 0 < α) (hβ0 : 0 < β) (hdt : 0 < s.dt)
    (hst : Spec.CoupledStable sf s.dt s.intDt s.executionTime α β (lf 0 + lf 1) (c1 * k) (c2 * (c1 * k)))
    {obj : ℕ → DMP 2 m} {fb out : ℕ → Vec 2 × Vec 2} (ho : obj 0 = s)
    (hrun : Spec.Run (DMP.step (some (couplingPos1d desired lf k c1 c2)) sf) obj fb out)
    (hfb : s.pGain = 0 ∨
      (fb 0).1 = (if s.initialized then s.currentY else s.startY) ∧ ∀ i, (fb (i + 1)).1 = (out i).1)
    (hg : s.goalY 0 - s.goalY 1 = -desired) : Tendsto out atTop (𝓝 (s.goalY, 0)) := by
  have h := C107_pos1d_step hs ht desired hlf hS hk hc1 hc2 hα hβ hα0 hβ0 hdt hst ho hrun hfb
  obtain ⟨e1, e2⟩ := compromise_compatible (Spec.velocityFactor sf s.dt s.executionTime α β (lf 0 + lf 1) (c2 * (c1 * k))) (α * β)
    (Spec.couplingStiffness sf s.dt s.intDt s.executionTime α β (lf 0 + lf 1) (c1 * k) (c2 * (c1 * k))) s.executionTime (c1 * k) (lf 0) (lf 1) hg
  simp only [e1, e2] at h
  have e3 : (![s.goalY 0, s.goalY 1] : Vec 2) = s.goalY := by funext i; fin_cases i <;> rfl
  have e4 : (![0, 0] : Vec 2) = 0 := by funext i; fin_cases i <;> rfl
  rwa [e3, e4] at h

/-- A leader reaches its goal, whatever the goal of the follower and the desired displacement are. -/
theorem C107_leader_reaches_goal {s : DMP 2 m} (hs : s.Reachable) {sf : StepFunction} (ht : 0 ≤ s.t)
    {desired : ℝ} {lf : Vec 2} {k c1 c2 α β : ℝ} (hlf : ∀ i, 0 ≤ lf i) (hS : 0 < lf 0 + lf 1)
    (hk : 0 ≤ k) (hc1 : 0 ≤ c1) (hc2 : 0 ≤ c2) (hα : ∀ i, s.alphaY i = α) (hβ : ∀ i, s.betaY i = β)
    (hα0 : 0 < α) (hβ0 : 0 < β) (hdt : 0 < s.dt)
    (hst : Spec.CoupledStable sf s.dt s.intDt s.executionTime α β (lf 0 + lf 1) (c1 * k) (c2 * (c1 * k)))
    {obj : ℕ → DMP 2 m} {fb out : ℕ → Vec 2 × Vec 2} (ho : obj 0 = s)
    (hrun : Spec.Run (DMP.step (some (couplingPos1d desired lf k c1 c2)) sf) obj fb out)
    (hfb : s.pGain = 0 ∨
      (fb 0).1 = (if s.initialized then s.currentY else s.startY) ∧ ∀ i, (fb (i + 1)).1 = (out i).1)
    (hlead : lf 1 = 0) : Tendsto (fun i => (out i).1 1) atTop (𝓝 (s.goalY 1)) := by
  obtain ⟨-, h, -, -⟩ := step_coupled_tendsto hs ht (couplingPos1d_pair desired lf k c1 c2) (hlf 0) (hlf 1) hS
    (by positivity) (by positivity) (hα 0) (hα 1) (hβ 0) (hβ 1) hα0 hβ0 hdt hst ho hrun hfb
  rw [hlead, (compromise_leader _ _ _ _ _ _).2] at h
  exact h

/-- Displacement of a compromise. -/
theorem compromise_displacement {αβ G lf0 lf1 : ℝ} (hαβ : 0 < αβ) (hG : 0 ≤ G) (h0 : 0 ≤ lf0) (h1 : 0 ≤ lf1)
    (desired g0 g1 : ℝ) :
    let y := Spec.compromise αβ G lf0 lf1 desired g0 g1
    y.1 - y.2 + desired = αβ / (αβ + (lf0 + lf1) * G) * Spec.conflict desired g0 g1 ∧
      (y.1 - y.2 = -desired ↔ g0 - g1 = -desired) := by
  intro y
  have hden : 0 < αβ + (lf0 + lf1) * G := by positivity
  have e : y.1 - y.2 + desired = αβ / (αβ + (lf0 + lf1) * G) * Spec.conflict desired g0 g1 := by
    simp only [y, Spec.compromise, Spec.conflict]; field_simp; ring
  refine ⟨e, ?_⟩
  rw [eq_neg_iff_add_eq_zero, e, eq_neg_iff_add_eq_zero]
  have : αβ / (αβ + (lf0 + lf1) * G) ≠ 0 := by positivity
  simp [this, Spec.conflict]

/-- Finding (C107): the desired displacement is attained only if the goals have it already. Otherwise the fraction
`αβ / (αβ + (lf0 + lf1) G)` of the conflict remains. -/
theorem C107_displacement_error {s : DMP 2 m} (hs : s.Reachable) {sf : StepFunction} (ht : 0 ≤ s.t)
    {desired : ℝ} {lf : Vec 2} {k c1 c2 α β : ℝ} (hlf : ∀ i, 0 ≤ lf i) (hS : 0 < lf 0 + lf 1)
    (hk : 0 ≤ k) (hc1 : 0 ≤ c1) (hc2 : 0 ≤ c2) (hα : ∀ i, s.alphaY i = α) (hβ : ∀ i, s.betaY i = β)
    (hα0 : 0 < α) (hβ0 : 0 < β) (hdt : 0 < s.dt)
    (hst : Spec.CoupledStable sf s.dt s.intDt s.executionTime α β (lf 0 + lf 1) (c1 * k) (c2 * (c1 * k)))
    {obj : ℕ → DMP 2 m} {fb out : ℕ → Vec 2 × Vec 2} (ho : obj 0 = s)
    (hrun : Spec.Run (DMP.step (some (couplingPos1d desired lf k c1 c2)) sf) obj fb out)
    (hfb : s.pGain = 0 ∨
      (fb 0).1 = (if s.initialized then s.currentY else s.startY) ∧ ∀ i, (fb (i + 1)).1 = (out i).1) :
    let G := Spec.couplingStiffness sf s.dt s.intDt s.executionTime α β (lf 0 + lf 1) (c1 * k) (c2 * (c1 * k))
    Tendsto (fun i => (out i).1 0 - (out i).1 1 + desired) atTop
      (𝓝 (α * β / (α * β + (lf 0 + lf 1) * G) * (s.goalY 0 - s.goalY 1 + desired))) ∧
    (Tendsto (fun i => (out i).1 0 - (out i).1 1) atTop (𝓝 (-desired)) ↔ s.goalY 0 - s.goalY 1 = -desired) := by
  intro G
  obtain ⟨l1, l2, -, -⟩ := step_coupled_tendsto hs ht (couplingPos1d_pair desired lf k c1 c2) (hlf 0) (hlf 1) hS
    (by positivity) (by positivity) (hα 0) (hα 1) (hβ 0) (hβ 1) hα0 hβ0 hdt hst ho hrun hfb
  have hG := couplingStiffness_nonneg hdt hs.valid.pos.2 hα0 hβ0 hS (by positivity) (by positivity) hst
  obtain ⟨e1, e2⟩ := compromise_displacement (αβ := α * β) (by positivity) hG (hlf 0) (hlf 1) desired (s.goalY 0) (s.goalY 1)
  have l := l1.sub l2
  refine ⟨?_, ?_⟩
  · have := l.add_const desired
    rw [e1] at this
    exact this
  · rw [← e2]
    constructor
    · intro h; exact tendsto_nhds_unique l h
    · intro h; rw [h] at l; exact l

/-- Different stiffnesses of the coupling give different compromises. -/
theorem compromise_ne {αβ G G' lf0 lf1 desired g0 g1 : ℝ} (hαβ : 0 < αβ) (hG0 : 0 ≤ G) (hG0' : 0 ≤ G') (h0 : 0 < lf0)
    (h1 : 0 ≤ lf1) (hGne : G ≠ G') (hE : Spec.conflict desired g0 g1 ≠ 0) :
    (Spec.compromise αβ G lf0 lf1 desired g0 g1).1 ≠ (Spec.compromise αβ G' lf0 lf1 desired g0 g1).1 := by
  have hd : 0 < αβ + (lf0 + lf1) * G := by positivity
  have hd' : 0 < αβ + (lf0 + lf1) * G' := by positivity
  simp only [Spec.compromise]
  intro h
  have h2 : lf0 * G / (αβ + (lf0 + lf1) * G) = lf0 * G' / (αβ + (lf0 + lf1) * G') :=
    mul_right_cancel₀ hE (by linarith)
  rw [div_eq_div_iff hd.ne' hd'.ne'] at h2
  have h3 : lf0 * αβ * G = lf0 * αβ * G' := by linear_combination h2
  exact hGne (mul_left_cancel₀ (by positivity) h3)

/-- Finding (C107): where a coupled movement ends depends on `int_dt`. Two objects that differ in `int_dt` converge
to different positions unless the goals have the desired displacement. -/
theorem C107_depends_on_int_dt {s s' : DMP 2 m} (hs : s.Reachable) (hs' : s'.Reachable) {sf : StepFunction}
    (ht : 0 ≤ s.t) (ht' : 0 ≤ s'.t)
    {desired : ℝ} {lf : Vec 2} {k c1 c2 α β : ℝ} (hlf0 : 0 < lf 0) (hlf1 : 0 ≤ lf 1)
    (hk : 0 < k) (hc1 : 0 < c1) (hc2 : 0 ≤ c2) (hα : ∀ i, s.alphaY i = α ∧ s'.alphaY i = α)
    (hβ : ∀ i, s.betaY i = β ∧ s'.betaY i = β) (hα0 : 0 < α) (hβ0 : 0 < β)
    (hsf : sf = .euler ∨ sf = .eulerCython) (hdt : 0 < s.dt) (hdt' : 0 < s'.dt)
    (hτ : s'.executionTime = s.executionTime) (hg : s'.goalY = s.goalY) (hne : s.intDt ≠ s'.intDt)
    (hconf : s.goalY 0 - s.goalY 1 ≠ -desired)
    (hst : Spec.CoupledStable sf s.dt s.intDt s.executionTime α β (lf 0 + lf 1) (c1 * k) (c2 * (c1 * k)))
    (hst' : Spec.CoupledStable sf s'.dt s'.intDt s'.executionTime α β (lf 0 + lf 1) (c1 * k) (c2 * (c1 * k)))
    {obj obj' : ℕ → DMP 2 m} {fb out fb' out' : ℕ → Vec 2 × Vec 2} (ho : obj 0 = s) (ho' : obj' 0 = s')
    (hrun : Spec.Run (DMP.step (some (couplingPos1d desired lf k c1 c2)) sf) obj fb out)
    (hrun' : Spec.Run (DMP.step (some (couplingPos1d desired lf k c1 c2)) sf) obj' fb' out')
    (hp : s.pGain = 0) (hp' : s'.pGain = 0) :
    ∃ l l' : ℝ, l ≠ l' ∧ Tendsto (fun i => (out i).1 0) atTop (𝓝 l) ∧ Tendsto (fun i => (out' i).1 0) atTop (𝓝 l') := by
  have hlf : ∀ i, 0 ≤ lf i := by intro i; fin_cases i; exacts [hlf0.le, hlf1]
  obtain ⟨l1, -, -, -⟩ := step_coupled_tendsto hs ht (couplingPos1d_pair desired lf k c1 c2) (hlf 0) (hlf 1)
    (by linarith) (by positivity) (by positivity) (hα 0).1 (hα 1).1 (hβ 0).1 (hβ 1).1 hα0 hβ0 hdt hst ho hrun (.inl hp)
  obtain ⟨l1', -, -, -⟩ := step_coupled_tendsto hs' ht' (couplingPos1d_pair desired lf k c1 c2) (hlf 0) (hlf 1)
    (by linarith) (by positivity) (by positivity) (hα 0).2 (hα 1).2 (hβ 0).2 (hβ 1).2 hα0 hβ0 hdt' hst' ho' hrun'
    (.inl hp')
  rw [hτ, hg] at l1'
  rw [hτ] at hst'
  refine ⟨_, _, ?_, l1, l1'⟩
  have hτ0 := hs.valid.pos.2
  have hi : 0 < s.intDt := by
    rcases hst with ⟨-, h, -⟩ | ⟨-, h, -⟩ | ⟨h, -⟩
    · exact h
    · exact h
    · rcases hsf with rfl | rfl <;> simp at h
  have hi' : 0 < s'.intDt := by
    rcases hst' with ⟨-, h, -⟩ | ⟨-, h, -⟩ | ⟨h, -⟩
    · exact h
    · exact h
    · rcases hsf with rfl | rfl <;> simp at h
  have hdiv : s.executionTime / s.intDt ≠ s.executionTime / s'.intDt := by
    intro h
    rw [div_eq_div_iff hi.ne' hi'.ne'] at h
    exact hne (mul_left_cancel₀ hτ0.ne' h).symm
  have hP : 0 < c1 * k := by positivity
  set G := Spec.couplingStiffness sf s.dt s.intDt s.executionTime α β (lf 0 + lf 1) (c1 * k) (c2 * (c1 * k)) with hGdef
  set G' := Spec.couplingStiffness sf s'.dt s'.intDt s.executionTime α β (lf 0 + lf 1) (c1 * k) (c2 * (c1 * k)) with hGdef'
  have hGne : G ≠ G' := by
    rw [hGdef, hGdef']
    rcases hsf with rfl | rfl <;> simp only [Spec.couplingStiffness] <;> intro h
    · have := mul_left_cancel₀ hP.ne' (add_right_cancel h)
      exact hdiv (by linarith)
    · exact hdiv (mul_left_cancel₀ hP.ne' (add_right_cancel h))
  have hG0 : 0 ≤ G := couplingStiffness_nonneg hdt hτ0 hα0 hβ0 (by linarith) hP.le (by positivity) hst
  have hG0' : 0 ≤ G' := couplingStiffness_nonneg hdt' hτ0 hα0 hβ0 (by linarith) hP.le (by positivity) hst'
  exact compromise_ne (by positivity) hG0 hG0' hlf0 hlf1 hGne
    (by intro h; exact hconf (by rw [Spec.conflict] at h; linarith))

/-- Finding (C107): the Python and the Cython function for the Euler method do not end at the same position. The same
object, executed with the one and with the other, converges to different positions of the follower unless the goals have
the desired displacement. -/
theorem C107_python_differs_from_cython {s : DMP 2 m} (hs : s.Reachable) (ht : 0 ≤ s.t)
    {desired : ℝ} {lf : Vec 2} {k c1 c2 α β : ℝ} (hlf0 : 0 < lf 0) (hlf1 : 0 ≤ lf 1)
    (hk : 0 < k) (hc1 : 0 < c1) (hc2 : 0 ≤ c2) (hα : ∀ i, s.alphaY i = α)
    (hβ : ∀ i, s.betaY i = β) (hα0 : 0 < α) (hβ0 : 0 < β) (hdt : 0 < s.dt)
    (hconf : s.goalY 0 - s.goalY 1 ≠ -desired)
    (hst : Spec.CoupledStable .euler s.dt s.intDt s.executionTime α β (lf 0 + lf 1) (c1 * k) (c2 * (c1 * k)))
    (hst' : Spec.CoupledStable .eulerCython s.dt s.intDt s.executionTime α β (lf 0 + lf 1) (c1 * k) (c2 * (c1 * k)))
    {obj obj' : ℕ → DMP 2 m} {fb out fb' out' : ℕ → Vec 2 × Vec 2} (ho : obj 0 = s) (ho' : obj' 0 = s)
    (hrun : Spec.Run (DMP.step (some (couplingPos1d desired lf k c1 c2)) .euler) obj fb out)
    (hrun' : Spec.Run (DMP.step (some (couplingPos1d desired lf k c1 c2)) .eulerCython) obj' fb' out')
    (hp : s.pGain = 0) :
    ∃ l l' : ℝ, l ≠ l' ∧ Tendsto (fun i => (out i).1 0) atTop (𝓝 l) ∧ Tendsto (fun i => (out' i).1 0) atTop (𝓝 l') := by
  have hS : 0 < lf 0 + lf 1 := by linarith
  have hP : 0 < c1 * k := by positivity
  obtain ⟨l1, -, -, -⟩ := step_coupled_tendsto hs ht (couplingPos1d_pair desired lf k c1 c2) hlf0.le hlf1
    hS hP.le (by positivity) (hα 0) (hα 1) (hβ 0) (hβ 1) hα0 hβ0 hdt hst ho hrun (.inl hp)
  obtain ⟨l1', -, -, -⟩ := step_coupled_tendsto hs ht (couplingPos1d_pair desired lf k c1 c2) hlf0.le hlf1
    hS hP.le (by positivity) (hα 0) (hα 1) (hβ 0) (hβ 1) hα0 hβ0 hdt hst' ho' hrun' (.inl hp)
  refine ⟨_, _, ?_, l1, l1'⟩
  have hτ0 := hs.valid.pos.2
  have hG0 := couplingStiffness_nonneg hdt hτ0 hα0 hβ0 hS hP.le (by positivity) hst
  have hG0' := couplingStiffness_nonneg hdt hτ0 hα0 hβ0 hS hP.le (by positivity) hst'
  have hGne : Spec.couplingStiffness .euler s.dt s.intDt s.executionTime α β (lf 0 + lf 1) (c1 * k) (c2 * (c1 * k)) ≠
      Spec.couplingStiffness .eulerCython s.dt s.intDt s.executionTime α β (lf 0 + lf 1) (c1 * k) (c2 * (c1 * k)) := by
    simp only [Spec.couplingStiffness]
    intro h
    have := mul_left_cancel₀ hP.ne' (add_right_cancel h)
    linarith
  exact compromise_ne (by positivity) hG0 hG0' hlf0 hlf1 hGne
    (by intro h; exact hconf (by rw [Spec.conflict] at h; linarith))

/-- Finding (C107): with the Python function for the Euler method and with the Runge-Kutta methods a follower that stands
still reports a velocity different from 0 unless the goals have the desired displacement. The Cython function for the
Euler method reports 0. -/
theorem C107_reported_velocity {s : DMP 2 m} (hs : s.Reachable) {sf : StepFunction} (ht : 0 ≤ s.t)
    {desired : ℝ} {lf : Vec 2} {k c1 c2 α β : ℝ} (hlf0 : 0 < lf 0) (hlf1 : 0 ≤ lf 1)
    (hk : 0 < k) (hc1 : 0 < c1) (hc2 : 0 ≤ c2) (hα : ∀ i, s.alphaY i = α) (hβ : ∀ i, s.betaY i = β)
    (hα0 : 0 < α) (hβ0 : 0 < β) (hdt : 0 < s.dt)
    (hst : Spec.CoupledStable sf s.dt s.intDt s.executionTime α β (lf 0 + lf 1) (c1 * k) (c2 * (c1 * k)))
    {obj : ℕ → DMP 2 m} {fb out : ℕ → Vec 2 × Vec 2} (ho : obj 0 = s)
    (hrun : Spec.Run (DMP.step (some (couplingPos1d desired lf k c1 c2)) sf) obj fb out) (hp : s.pGain = 0)
    (hconf : s.goalY 0 - s.goalY 1 ≠ -desired) :
    ∃ y v : ℝ, Tendsto (fun i => (out i).1 0) atTop (𝓝 y) ∧ Tendsto (fun i => (out i).2 0) atTop (𝓝 v) ∧
      (sf = .eulerCython → v = 0) ∧ (sf = .euler → v ≠ 0) ∧
      (sf = .rk4 ∨ sf = .rk4Cython → v = 0 → Spec.rkDiag (s.dt * α / s.executionTime)
        (s.dt ^ 2 * (α * β + (lf 0 + lf 1) * (c2 * (c1 * k))) / s.executionTime ^ 2) = 1) := by
  have hP : 0 < c1 * k := by positivity
  have hS : 0 < lf 0 + lf 1 := by linarith
  have hτ := hs.valid.pos.2
  obtain ⟨l1, -, l3, -⟩ := step_coupled_tendsto hs ht (couplingPos1d_pair desired lf k c1 c2) hlf0.le hlf1 hS
    hP.le (by positivity) (hα 0) (hα 1) (hβ 0) (hβ 1) hα0 hβ0 hdt hst ho hrun (.inl hp)
  have hG := couplingStiffness_nonneg hdt hτ hα0 hβ0 hS hP.le (by positivity) hst
  refine ⟨_, _, l1, l3, ?_, ?_, ?_⟩
  · rintro rfl
    simp [Spec.reportedVelocity, Spec.velocityFactor]
  · rintro rfl
    have hE : Spec.conflict desired (s.goalY 0) (s.goalY 1) ≠ 0 := by
      intro h'; exact hconf (by rw [Spec.conflict] at h'; linarith)
    simp only [Spec.reportedVelocity, Spec.velocityFactor, one_mul]
    refine neg_ne_zero.2 (mul_ne_zero (by positivity) (mul_ne_zero (by positivity) hE))
  · intro hsf hv
    have hE : Spec.conflict desired (s.goalY 0) (s.goalY 1) ≠ 0 := by
      intro h'; exact hconf (by rw [Spec.conflict] at h'; linarith)
    have hgap : 0 < Spec.rkGap (s.dt * α / s.executionTime)
        (s.dt ^ 2 * (α * β + (lf 0 + lf 1) * (c2 * (c1 * k))) / s.executionTime ^ 2) := by
      rcases hst with ⟨h, -⟩ | ⟨h, -⟩ | ⟨-, a, b, ha, hb, h1, h2, h3, h4, h5, h6⟩
      · rcases hsf with rfl | rfl <;> simp at h
      · rcases hsf with rfl | rfl <;> simp at h
      · rw [← ha, ← hb]
        have hb0 : 0 < b := by rw [hb]; positivity
        have ha0 : 0 < a := by rw [ha]; positivity
        unfold Spec.rkGap
        have : 0 ≤ a * Spec.rkSide a b * (1 - Spec.rkDiag a b) := mul_nonneg (by positivity) (by linarith)
        have : 0 < b * Spec.rkSide a b ^ 2 := by positivity
        have := sq_nonneg (1 - Spec.rkDiag a b)
        linarith
    have hF : Spec.velocityFactor sf s.dt s.executionTime α β (lf 0 + lf 1) (c2 * (c1 * k)) = 0 := by
      simp only [Spec.reportedVelocity, neg_eq_zero] at hv
      rcases mul_eq_zero.1 hv with h | h
      · exact h
      · exact absurd h (mul_ne_zero (by positivity) (mul_ne_zero (by positivity) hE))
    have hF' : (1 - Spec.rkDiag (s.dt * α / s.executionTime)
        (s.dt ^ 2 * (α * β + (lf 0 + lf 1) * (c2 * (c1 * k))) / s.executionTime ^ 2)) / Spec.rkGap (s.dt * α / s.executionTime)
        (s.dt ^ 2 * (α * β + (lf 0 + lf 1) * (c2 * (c1 * k))) / s.executionTime ^ 2) = 0 := by
      rw [← hF]
      rcases hsf with rfl | rfl <;> rfl
    rcases div_eq_zero_iff.1 hF' with h | h
    · linarith
    · exact absurd h hgap.ne'

/-- Executions of coupled movements exist. -/
theorem coupled_runs_exist {s : DMP d m} (hs : s.Reachable) {sf : StepFunction} {α β S P Q : ℝ}
    (hst : Spec.CoupledStable sf s.dt s.intDt s.executionTime α β S P Q) (hdt : 0 < s.dt) (ht : 0 ≤ s.t) (c : Coupling d) :
    ∃ obj fb out, obj 0 = s ∧ Spec.Run (DMP.step (m := m) (some c) sf) obj fb out := by
  obtain ⟨obj, fb, out, e1, e2, -⟩ := runs_exist_of_returns (coupling := some c) (sf := sf) hs.valid ht
    (fun x h1 h2 h3 h4 h5 _ _ y yd => by
      rw [DMP.exec_step]
      obtain ⟨r, hr⟩ := run_coupled_returns (x.beginStep.stepArgs (some c) (x.beginStep.currentY - y))
        (show Spec.CoupledStable sf s.dt x.intDt s.executionTime α β S P Q by rw [h4]; exact hst)
        (show (0 : ℝ) < x.executionTime from h1.pos.2)
        (lastT := x.t) (show (0 : ℝ) < x.t + x.dt by rw [h2]; linarith) (x.beginStep.currentY, x.beginStep.currentYd)
      rw [hr]
      exact ⟨_, rfl⟩) hdt.le
  exact ⟨obj, fb, out, e1, e2⟩

/-- The default gains of the coupling (`k = 1`, `c1 = 100`, `c2 = 30`, the second dimension leads) with the default
values of the DMP meet the hypotheses of the theorems, with all four step functions. -/
example : ∃ s : DMP 2 10, s.Reachable ∧ 0 ≤ s.t ∧ 0 < s.dt ∧ s.pGain = 0 ∧
    (∀ i, s.alphaY i = 25) ∧ (∀ i, s.betaY i = 25 / 4) ∧
    ∀ sf : StepFunction,
      Spec.CoupledStable sf s.dt s.intDt s.executionTime 25 (25 / 4) (1 + 0) (100 * 1) (30 * (100 * 1)) ∧
      ∃ (obj : ℕ → DMP 2 10) (fb out : ℕ → Vec 2 × Vec 2), obj 0 = s ∧
        Spec.Run (DMP.step (some (couplingPos1d 1 ![1, 0] 1 100 30)) sf) obj fb out := by
  obtain ⟨s, hs, h1, h2, h3, h4, h5, h6, h7, h8, h9, h10, h11, h12, h13⟩ :=
    DMP.create_ok 2 10 (by norm_num) one_pos (1 / 100) (1 / 1000) 0 false 25 (25 / 4)
  have hdt : 0 < s.dt := by rw [h2]; norm_num
  refine ⟨s, .create hs, by rw [h7], hdt, h4, fun i => by rw [h11], fun i => by rw [h12], fun sf => ?_⟩
  have hst : Spec.CoupledStable sf s.dt s.intDt s.executionTime 25 (25 / 4) (1 + 0) (100 * 1) (30 * (100 * 1)) := by
    rw [h1, h2, h3]
    have hrk : (sf = .rk4 ∨ sf = .rk4Cython) →
        Spec.CoupledStable sf (1 / 100) (1 / 1000) 1 25 (25 / 4) (1 + 0) (100 * 1) (30 * (100 * 1)) := fun h =>
      .rk4 h _ _ rfl rfl (by norm_num) (by norm_num) (by norm_num [Spec.rkSide]) (by norm_num [Spec.rkDiag])
        (by norm_num [Spec.rkDet, Spec.rkDiag, Spec.rkSide, abs_lt])
        (by norm_num [Spec.rkDet, Spec.rkDiag, Spec.rkSide, abs_lt])
    cases sf
    · exact hrk (by simp)
    · exact .euler rfl (by norm_num) 10 (by norm_num) (by norm_num) (by norm_num) (by norm_num)
    · exact .eulerCython rfl (by norm_num) 10 (by norm_num) (by norm_num) (by norm_num)
    · exact hrk (by simp)
  exact ⟨hst, coupled_runs_exist (.create hs) hst hdt (by rw [h7]) _⟩

/-- The default gains in space with two followers: the stability conditions hold. -/
example (sf : StepFunction) :
    Spec.CoupledStable sf (1 / 100) (1 / 1000) 1 25 (25 / 4) (1 + 1) (100 * 1) (30 * 1) := by
  have hrk : (sf = .rk4 ∨ sf = .rk4Cython) →
      Spec.CoupledStable sf (1 / 100) (1 / 1000) 1 25 (25 / 4) (1 + 1) (100 * 1) (30 * 1) := fun h =>
    .rk4 h _ _ rfl rfl (by norm_num) (by norm_num) (by norm_num [Spec.rkSide]) (by norm_num [Spec.rkDiag])
      (by norm_num [Spec.rkDet, Spec.rkDiag, Spec.rkSide, abs_lt])
      (by norm_num [Spec.rkDet, Spec.rkDiag, Spec.rkSide, abs_lt])
  cases sf
  · exact hrk (by simp)
  · exact .euler rfl (by norm_num) 10 (by norm_num) (by norm_num) (by norm_num) (by norm_num)
  · exact .eulerCython rfl (by norm_num) 10 (by norm_num) (by norm_num) (by norm_num)
  · exact hrk (by simp)

end Verif
