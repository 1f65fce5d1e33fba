import Verif.Lemmas.LinearOde
import Verif.Spec.StateFollowingSolution
import Verif.Props.OutputRate

/-! # C77: the state-following DMP approximates the solution of its differential equation -/

namespace Verif
open scoped BigOperators
open Spec
variable {d n : ℕ}

theorem StateFollowingForcing.call_contDiff {r : WithTop ℕ∞} (ft : StateFollowingForcing d n) (hn : 0 < n) (i : Fin n) :
    ContDiff ℝ r (fun t => ft.call t i) := by
  have hph : ContDiff ℝ r (fun t => phase t ft.alphaZ ft.goalT ft.startT) := by
    unfold phase
    fun_prop
  have hrbf : ∀ i, ContDiff ℝ r (fun t => ft.rbf Real.exp (phase t ft.alphaZ ft.goalT ft.startT) i) := by
    intro i
    unfold StateFollowingForcing.rbf
    exact Real.contDiff_exp.comp (contDiff_const.mul ((hph.sub contDiff_const).pow 2))
  unfold StateFollowingForcing.call
  exact (hrbf i).div (ContDiff.sum fun j _ => hrbf j) fun t => (ft.sum_rbf_pos hn _).ne'

namespace StateFollowingDMP

/-- Spring constant, damping and drive of dimension `k`. -/
noncomputable def stiffness (s : StateFollowingDMP d n) (k : Fin d) : ℝ :=
  s.alphaY k * s.betaY k / (s.executionTime / 2) ^ 2

noncomputable def damping (s : StateFollowingDMP d n) (k : Fin d) : ℝ := s.alphaY k / (s.executionTime / 2)

noncomputable def sfDrive (s : StateFollowingDMP d n) (k : Fin d) (t : ℝ) : ℝ := s.stiffness k * Spec.attractor s t k

theorem sfDrive_contDiff (s : StateFollowingDMP d n) (hn : 0 < n) (k : Fin d) : ContDiff ℝ 1 (s.sfDrive k) := by
  unfold sfDrive Spec.attractor
  exact contDiff_const.mul (ContDiff.sum fun i _ => (s.ft.call_contDiff hn i).mul contDiff_const)

theorem attraction_eq (s : StateFollowingDMP d n) (hτ : 0 < s.executionTime) (k : Fin d) (t y v : ℝ) :
    Spec.attraction (s.alphaY k) (s.betaY k) (s.executionTime / 2) (Spec.attractor s t k) y v =
      -s.stiffness k * y - s.damping k * v + s.sfDrive k t := by
  unfold Spec.attraction stiffness damping sfDrive stiffness
  field_simp
  ring

theorem body_sd (s : StateFollowingDMP d n) (hn : 0 < n) (hτ : 0 < s.executionTime) (k : Fin d) (dt t : ℝ)
    (x : Vec d × Vec d) :
    (((s.args none).body dt t x).1 k, ((s.args none).body dt t x).2 k) =
      sdStep (s.stiffness k) (s.damping k) dt (s.sfDrive k t) (x.1 k, x.2 k) := by
  have hs1 : ∑ i, s.ft.call t i = 1 := (s.ft.call_convex hn t).2
  have h1 : ∑ i, s.ft.call t i * s.alphaY k * (s.betaY k * (s.ft.viapoints i k - x.1 k) -
        1 / 2 * (s.executionTime - 0) * x.2 k) / (1 / 2 * (s.executionTime - 0)) ^ 2 =
      -s.stiffness k * x.1 k - s.damping k * x.2 k + s.sfDrive k t := by
    have : ∀ i, s.ft.call t i * s.alphaY k * (s.betaY k * (s.ft.viapoints i k - x.1 k) -
        1 / 2 * (s.executionTime - 0) * x.2 k) / (1 / 2 * (s.executionTime - 0)) ^ 2 =
        s.stiffness k * (s.ft.call t i * s.ft.viapoints i k) -
          (s.stiffness k * x.1 k + s.damping k * x.2 k) * s.ft.call t i := fun i => by
      unfold stiffness damping
      rw [sub_zero]
      field_simp
      ring
    simp only [this]
    rw [Finset.sum_sub_distrib, ← Finset.mul_sum, ← Finset.mul_sum, hs1]
    unfold sfDrive Spec.attractor
    ring
  have hcoup : (s.args none).couplings x = (0, 0) := rfl
  unfold StateFollowingArgs.body
  simp only [hcoup, Pi.zero_apply, zero_div, add_zero, sdStep]
  unfold args
  simp only [h1]

theorem intResult_sd (s : StateFollowingDMP d n) (hn : 0 < n) (hτ : 0 < s.executionTime) (k : Fin d) (δ t t' : ℝ)
    (x : Vec d × Vec d) :
    ((intResult δ (s.args none).body t t' x).1 k, (intResult δ (s.args none).body t t' x).2 k) =
      (subSteps δ t' t).foldl (fun z p => sdStep (s.stiffness k) (s.damping k) p.1 (s.sfDrive k p.2) z) (x.1 k, x.2 k) := by
  unfold intResult
  generalize subSteps δ t' t = L
  induction L generalizing x with
  | nil => rfl
  | cons p L ih => rw [List.foldl_cons, List.foldl_cons, ih, body_sd s hn hτ]

theorem composes (s : StateFollowingDMP d n) (hτ : 0 < s.executionTime) {δ : ℝ} (hδ : 0 < δ) :
    Composes (({ s with intDt := δ } : StateFollowingDMP d n).args none).step (intResult δ (s.args none).body) 0 δ :=
  .of_intLoop hδ fun x y z hx hy => by
    refine (if_neg (show ¬ s.executionTime ≤ 0 from hτ.not_ge)).trans ?_
    exact if_neg (show ¬ y ≤ 0 from (hx.trans_lt hy).not_ge)

/-- Errors of a sequence of steps. -/
theorem sf_error {s : StateFollowingDMP d n} (hn : 0 < n) (hτ : 0 < s.executionTime) {y v : ℝ → Vec d} {t0 : ℝ}
    {x0 : Vec d × Vec d} (hsol : Spec.SolvesStateFollowing s t0 x0 y v) (R : ℝ) :
    ∃ C, 0 ≤ C ∧ ∀ δ D : ℝ, 0 < δ → 0 < D → ∀ xs : ℕ → Vec d × Vec d, xs 0 = x0 →
      (∀ i : ℕ, xs (i + 1) = intResult δ (s.args none).body (t0 + i * D) (t0 + (i + 1) * D) (xs i)) →
      ∀ i : ℕ, t0 + i * D ≤ R → ∀ k,
        |(xs i).1 k - y (t0 + i * D) k| ≤ C * min δ D ∧ |(xs i).2 k - v (t0 + i * D) k| ≤ C * min δ D := by
  have hx : ∀ k t, HasDerivAt (fun t => (y t k, v t k))
      (sdField (s.stiffness k) (s.damping k) (y t k, v t k) (s.sfDrive k t)) t := by
    intro k t
    have h1 := (hsol.velocity t k).prodMk (hsol.acceleration t k)
    rw [attraction_eq s hτ] at h1
    exact h1
  have h := fun k => sd_grid_error (s.sfDrive_contDiff hn k) (hx k) t0 R
  choose C hC0 hC using h
  have hsum : ∀ k, C k ≤ ∑ k, C k := fun k => Finset.single_le_sum (fun j _ => hC0 j) (Finset.mem_univ k)
  refine ⟨∑ k, C k, Finset.sum_nonneg fun k _ => hC0 k, ?_⟩
  intro δ D hδ hD xs h0 hstep i hi k
  have h1 := hC k δ D hδ hD (fun i => ((xs i).1 k, (xs i).2 k))
    (by show ((xs 0).1 k, (xs 0).2 k) = (y t0 k, v t0 k)
        rw [h0, ← hsol.start])
    (fun i _ => by
      show ((xs (i + 1)).1 k, (xs (i + 1)).2 k) = _
      rw [hstep]
      exact s.intResult_sd hn hτ k δ _ _ _) i hi
  have h2 := h1.trans (mul_le_mul_of_nonneg_right (hsum k) (le_min hδ.le hD.le))
  constructor
  · have := (norm_fst_le _).trans h2
    simpa using this
  · have := (norm_snd_le _).trans h2
    simpa using this

/-- **C77 (StateFollowingDMP: the differential equation has exactly one solution).** -/
theorem C77_state_following_exists {s : StateFollowingDMP d n} (hn : 0 < n) (hτ : 0 < s.executionTime) (t0 : ℝ)
    (x0 : Vec d × Vec d) :
    ∃ y v, Spec.SolvesStateFollowing s t0 x0 y v ∧ ∀ y' v', Spec.SolvesStateFollowing s t0 x0 y' v' → y' = y ∧ v' = v := by
  have hex := fun k => sd_solution_exists (s.stiffness k) (s.damping k) (s.sfDrive_contDiff hn k).continuous t0 (x0.1 k, x0.2 k)
  choose x hx0 hx using hex
  refine ⟨fun t k => (x k t).1, fun t k => (x k t).2, ⟨?_, ?_, ?_⟩, ?_⟩
  · ext k
    · simp [hx0]
    · simp [hx0]
  · intro t k
    exact (hx k t).fst
  · intro t k
    rw [attraction_eq s hτ]
    exact (hx k t).snd
  · intro y' v' h
    have huniq : ∀ k, (fun t => (y' t k, v' t k)) = x k := by
      intro k
      refine sd_solution_unique (t0 := t0) (fun t => ?_) (hx k) ?_
      · have h1 := (h.velocity t k).prodMk (h.acceleration t k)
        rw [attraction_eq s hτ] at h1
        exact h1
      · rw [hx0, ← h.start]
    exact ⟨by funext t k; exact congrArg Prod.fst (congrFun (huniq k) t),
      by funext t k; exact congrArg Prod.snd (congrFun (huniq k) t)⟩

/-- **C77 (StateFollowingDMP, open_loop).** Let `y` be the solution of the differential equation that starts at rest in the
start position. For every duration `R` there is a constant `C` such that, for all positive `dt` and `int_dt`, `open_loop`
returns, and its positions up to time `R` differ from the solution by at most `C` times the largest integration step. -/
theorem C77_state_following_open_loop {s : StateFollowingDMP d n} (hn : 0 < n) (hτ : 0 < s.executionTime)
    {y v : ℝ → Vec d} (hsol : Spec.SolvesStateFollowing s 0 (s.startY, 0) y v) (R : ℝ) :
    ∃ C, ∀ dt intDt : ℝ, 0 < dt → 0 < intDt → ∀ runT : Option ℝ,
      ∃ T Y, ({ s with dt := dt, intDt := intDt } : StateFollowingDMP d n).openLoop runT none = .ok (T, Y) ∧
        Y.length = T.length ∧ ∀ i (hT : i < T.length) (hY : i < Y.length), T[i] = i * dt ∧ (T[i] ≤ R → ∀ k,
          |Y[i] k - y T[i] k| ≤ C * min intDt dt) := by
  obtain ⟨C, -, hC⟩ := sf_error hn hτ hsol R
  refine ⟨C, fun dt intDt hdt hint runT => ?_⟩
  set s' : StateFollowingDMP d n := { s with dt := dt, intDt := intDt } with hs'
  set a : StateFollowingArgs d n := { s'.args none with goalYd := 0, goalYdd := 0, startYd := 0, startYdd := 0 } with ha
  have hF : Composes a.step (intResult intDt (s.args none).body) a.startT intDt := s.composes hτ hint
  have e := StateFollowingArgs.openLoop_eq hF hdt runT
  refine ⟨_, _, e, by simp [sampled], ?_⟩
  intro i hT hY
  have e0 : a.startT = 0 := rfl
  simp only [sampled, e0, List.getElem_map, List.getElem_range, zero_add]
  refine ⟨trivial, fun hR k => ?_⟩
  have h1 := (hC intDt dt hint hdt (iterates (intResult intDt (s.args none).body) 0 dt (s.startY, 0)) rfl
    (fun i => by simp only [iterates]; push_cast; rfl) i (by rw [zero_add]; exact hR) k).1
  rw [zero_add] at h1
  exact h1

/-- **C77 (StateFollowingDMP, step).** Let `y`, `v` be the solution that starts in the state passed to the first call of
`step`. For every time `R` there is a constant `C` such that, for all positive `dt` and `int_dt`, positions and velocities
returned by calls of `step` up to time `R`, each with the result of the previous one, differ from the solution by at most
`C` times the largest integration step. -/
theorem C77_state_following_step {s : StateFollowingDMP d n} (hn : 0 < n) (hτ : 0 < s.executionTime) (ht : 0 ≤ s.t)
    {x0 : Vec d × Vec d} {y v : ℝ → Vec d} (hsol : Spec.SolvesStateFollowing s s.t x0 y v) (R : ℝ) :
    ∃ C, ∀ dt intDt : ℝ, 0 < dt → 0 < intDt → ∀ (obj : ℕ → StateFollowingDMP d n) (fb out : ℕ → Vec d × Vec d),
      obj 0 = { s with dt := dt, intDt := intDt } → Spec.Run (step none) obj fb out → fb 0 = x0 → (∀ i, fb (i + 1) = out i) →
      ∀ i : ℕ, s.t + (i + 1) * dt ≤ R → ∀ k,
        |(out i).1 k - y (s.t + (i + 1) * dt) k| ≤ C * min intDt dt ∧
        |(out i).2 k - v (s.t + (i + 1) * dt) k| ≤ C * min intDt dt := by
  obtain ⟨C, -, hC⟩ := sf_error hn hτ hsol R
  refine ⟨C, fun dt intDt hdt hint obj fb out h0 hrun hfb0 hfb i hi k => ?_⟩
  have hF := s.composes hτ hint
  have hobj : ∀ i : ℕ, ∃ lt y yd, obj i = { s with
      dt := dt, intDt := intDt, lastT := lt, t := s.t + i * dt, currentY := y, currentYd := yd } := by
    intro i
    induction i with
    | zero => exact ⟨s.lastT, s.currentY, s.currentYd, by rw [h0]; simp⟩
    | succ i ih =>
      obtain ⟨lt, y, yd, hi⟩ := ih
      have h1 := hrun i
      rw [exec_step] at h1
      cases hr : ((obj i).args none).step (obj i).t ((obj i).t + (obj i).dt) ((fb i).1, (fb i).2) with
      | error e => rw [hr] at h1; cases h1
      | ok r =>
        rw [hr] at h1
        refine ⟨some (obj i).t, r.1, r.2, (Prod.mk.inj h1).2.symm.trans ?_⟩
        have e1 : (obj i).t + (obj i).dt = s.t + (i + 1 : ℕ) * dt := by
          rw [hi]; push_cast; ring
        rw [e1, hi]
  have hx : ∀ i : ℕ, fb (i + 1) = intResult intDt (s.args none).body (s.t + i * dt) (s.t + (i + 1) * dt) (fb i) := by
    intro i
    obtain ⟨lt, y, yd, hi⟩ := hobj i
    have h1 := hrun i
    rw [exec_step] at h1
    have e1 : (obj i).t = s.t + i * dt := by rw [hi]
    have e2 : (obj i).t + (obj i).dt = s.t + (i + 1) * dt := by
      have : (obj i).dt = dt := by rw [hi]
      rw [e1, this]; ring
    have e3 : (obj i).args none = ({ s with intDt := intDt } : StateFollowingDMP d n).args none := by rw [hi]; rfl
    have hpos : 0 ≤ (i : ℝ) * dt := by positivity
    have e4 := hF.ok (s.t + i * dt) (s.t + (i + 1) * dt) (fb i) (by linarith) (by linarith)
    rw [e2, e1, e3, e4] at h1
    rw [hfb i]
    exact (Except.ok.inj (Prod.mk.inj h1).1).symm
  have h1 := hC intDt dt hint hdt fb hfb0 hx (i + 1) (by push_cast; exact hi) k
  rw [hfb i] at h1
  push_cast at h1
  exact h1

/-- A new object with the default gains meets the hypotheses; with via points that differ its attractor moves. -/
example : ∃ s : StateFollowingDMP 1 2, 0 < s.executionTime ∧ 0 ≤ s.t ∧
    ∃ y v, Spec.SolvesStateFollowing s 0 (s.startY, 0) y v ∧ ¬ ∀ t, y t = s.startY := by
  obtain ⟨s0, h1, h2, h3⟩ := create_ok 1 (n := 2) (by norm_num) (executionTime := 1) one_pos (1 / 100) (1 / 1000) 25
    (25 / 4) (fun _ => 0)
  obtain ⟨-, -, α', β', -, -, e⟩ := create_eq h1
  have hτ0 : s0.executionTime = 1 := by rw [e]
  have ht0 : s0.t = 0 := by rw [e]; rfl
  have hy0 : s0.startY = 0 := by rw [e]; rfl
  set s : StateFollowingDMP 1 2 := { s0 with ft := { s0.ft with viapoints := fun i _ => i.val + 1 } } with hs
  have hτ : 0 < s.executionTime := by show 0 < s0.executionTime; rw [hτ0]; exact one_pos
  obtain ⟨y, v, hsol, -⟩ := C77_state_following_exists (s := s) (by norm_num) hτ 0 (s.startY, 0)
  refine ⟨s, hτ, by show 0 ≤ s0.t; rw [ht0], y, v, hsol, fun hconst => ?_⟩
  have hv : ∀ t, v t 0 = 0 := by
    intro t
    have h4 := hsol.velocity t 0
    have h5 : (fun t => y t 0) = fun _ => s.startY 0 := by funext t; rw [hconst]
    rw [h5] at h4
    exact h4.unique (hasDerivAt_const t _)
  have h6 := hsol.acceleration 0 0
  have h7 : (fun t => v t 0) = fun _ => 0 := funext hv
  rw [h7] at h6
  have h8 := h6.unique (hasDerivAt_const 0 _)
  have hα : s.alphaY 0 = 25 := h2 0
  have hβ : s.betaY 0 = 25 / 4 := h3 0
  have hyz : y 0 0 = 0 := by rw [hconst]; show s0.startY 0 = 0; rw [hy0]; rfl
  have hτ1 : s.executionTime = 1 := hτ0
  rw [hα, hβ, hyz, hv, hτ1] at h8
  have hatt : 0 < Spec.attractor s 0 0 := by
    unfold Spec.attractor
    refine Finset.sum_pos (fun i _ => mul_pos ((s.ft.call_convex (by norm_num) 0).1 i) ?_) Finset.univ_nonempty
    show (0 : ℝ) < (i.val : ℝ) + 1
    positivity
  unfold Spec.attraction at h8
  have h9 : (25 : ℝ) * (25 / 4 * (Spec.attractor s 0 0 - 0) - 1 / 2 * 0) / (1 / 2) ^ 2 = 625 * Spec.attractor s 0 0 := by ring
  rw [h9] at h8
  linarith

end StateFollowingDMP
end Verif
