import Verif.Spec.SmallChangesStateFollowing
import Verif.Props.Disturbance
import Verif.Props.SmallChanges
import Verif.Props.StateFollowingIntegration

/-!
# C104 and C105 for state-following DMPs
-/

namespace Verif
open Spec
variable {d n : ℕ}

namespace StateFollowingDMP

theorem SameSystem.trans' {s₁ s₂ s₃ : StateFollowingDMP d n} (h : s₁.SameSystem s₂) (h' : s₂.SameSystem s₃) :
    s₁.SameSystem s₃ :=
  ⟨h'.t.trans h.t, h'.lastT.trans h.lastT, h'.executionTime.trans h.executionTime, h'.dt.trans h.dt,
    h'.intDt.trans h.intDt, h'.alphaY.trans h.alphaY, h'.betaY.trans h.betaY, by rw [h'.ft, h.ft]⟩

theorem SameSystem.attractor_sub {s s₁ s₂ : StateFollowingDMP d n} (hn : 0 < n) (h₁ : s.SameSystem s₁) (h₂ : s.SameSystem s₂)
    {W : ℝ} (hW : ∀ i, Close W (s₁.ft.viapoints i) (s₂.ft.viapoints i)) (t : ℝ) (k : Fin d) :
    |Spec.attractor s₁ t k - Spec.attractor s₂ t k| ≤ W := by
  have e₁ : s₁.ft.call t = s.ft.call t := by rw [h₁.ft]; rfl
  have e₂ : s₂.ft.call t = s.ft.call t := by rw [h₂.ft]; rfl
  obtain ⟨hp, hs⟩ := s.ft.call_convex hn t
  unfold Spec.attractor
  rw [e₁, e₂, ← Finset.sum_sub_distrib]
  calc |∑ i, (s.ft.call t i * s₁.ft.viapoints i k - s.ft.call t i * s₂.ft.viapoints i k)|
      ≤ ∑ i, |s.ft.call t i * s₁.ft.viapoints i k - s.ft.call t i * s₂.ft.viapoints i k| := Finset.abs_sum_le_sum_abs _ _
    _ ≤ ∑ i, s.ft.call t i * W := by
        refine Finset.sum_le_sum fun i _ => ?_
        rw [← mul_sub, abs_mul, abs_of_pos (hp i)]
        exact mul_le_mul_of_nonneg_left (hW i k) (hp i).le
    _ = W := by rw [← Finset.sum_mul, hs, one_mul]

/-- One step contracts a form of the difference of two states, up to the difference of the via points. -/
theorem sf_contraction {s : StateFollowingDMP d n} (hn : 0 < n) (hτ : 0 < s.executionTime) (hdt : 0 < s.dt) (k : Fin d)
    (hgain : 0 < s.alphaY k ∧ 0 < s.betaY k)
    (hst : Spec.Stable .euler s.dt s.intDt (s.executionTime / 2) (s.alphaY k) (s.betaY k)) :
    ∃ A B C ρ K : ℝ, 0 < A ∧ B ^ 2 < 4 * A * C ∧ 0 ≤ ρ ∧ ρ < 1 ∧ 0 ≤ K ∧ 0 < s.intDt ∧ ∀ (s₁ s₂ : StateFollowingDMP d n),
      s.SameSystem s₁ → s.SameSystem s₂ → ∀ W, (∀ i, Close W (s₁.ft.viapoints i) (s₂.ft.viapoints i)) → ∀ (t : ℝ)
      (x x' : Vec d × Vec d),
      qf A B C (dev (intResult s.intDt (s₁.args none).body t (t + s.dt) x) (intResult s.intDt (s₂.args none).body t (t + s.dt) x') k) ≤
        ρ * qf A B C (dev x x' k) + K * W ^ 2 := by
  obtain ⟨hα, hβ⟩ := hgain
  set τ := s.executionTime / 2 with hτdef
  have hτ' : 0 < τ := by positivity
  have hkk : s.stiffness k = s.alphaY k * s.betaY k / τ ^ 2 := rfl
  have hcc : s.damping k = s.alphaY k / τ := rfl
  have hk : 0 < s.stiffness k := by rw [hkk]; positivity
  have hc : 0 < s.damping k := by rw [hcc]; positivity
  have hint : 0 < s.intDt ∧ StableSub (s.stiffness k) (s.damping k) s.dt s.intDt := by
    rcases hst with ⟨-, hint, h⟩ | ⟨-, hint, q, hq, hq', h⟩ | ⟨hsf, h1, h2⟩
    · refine ⟨hint, .inl ?_⟩
      have e1 : 2 * s.intDt * (2 * s.stiffness k + s.damping k ^ 2) * (s.stiffness k + s.damping k ^ 2) =
          (2 * s.intDt * (s.alphaY k + 2 * s.betaY k) * (s.alphaY k + s.betaY k)) * (s.alphaY k ^ 2 / τ ^ 4) := by
        rw [hkk, hcc]; field_simp; ring
      have e2 : s.stiffness k * s.damping k = s.betaY k * τ * (s.alphaY k ^ 2 / τ ^ 4) := by
        rw [hkk, hcc]; field_simp
      rw [e1, e2]
      exact mul_le_mul_of_nonneg_right h (by positivity)
    · refine ⟨hint, .inr ⟨⟨q, hq, hq'⟩, ?_⟩⟩
      have e1 : s.intDt ^ 2 * s.stiffness k + 2 * (s.intDt * s.damping k) =
          (s.intDt ^ 2 * (s.alphaY k * s.betaY k) + 2 * (s.intDt * s.alphaY k * τ)) / τ ^ 2 := by
        rw [hkk, hcc]; field_simp
      rw [e1, div_lt_iff₀ (by positivity)]
      exact h
    · rcases hsf with hsf | hsf <;> cases hsf
  obtain ⟨A, B, C, ρ, K, hA, hd, hρ0, hρ, hK, hq⟩ := euler_contraction_inputs hk hc hint.1 hdt hint.2
  refine ⟨A, B, C, ρ, K * s.stiffness k ^ 2, hA, hd, hρ0, hρ, by positivity, hint.1, ?_⟩
  intro s₁ s₂ h₁ h₂ W hW t x x'
  have par : ∀ {o}, s.SameSystem o → o.stiffness k = s.stiffness k ∧ o.damping k = s.damping k ∧ 0 < o.executionTime := by
    intro o h
    refine ⟨?_, ?_, by rw [h.executionTime]; exact hτ⟩
    · unfold stiffness; rw [h.alphaY, h.betaY, h.executionTime]
    · unfold damping; rw [h.alphaY, h.executionTime]
  obtain ⟨p1, p2, p3⟩ := par h₁
  obtain ⟨p1', p2', p3'⟩ := par h₂
  have r₁ := intResult_sd s₁ hn p3 k s.intDt t (t + s.dt) x
  have r₂ := intResult_sd s₂ hn p3' k s.intDt t (t + s.dt) x'
  rw [p1, p2] at r₁
  rw [p1', p2'] at r₂
  have e : dev (intResult s.intDt (s₁.args none).body t (t + s.dt) x) (intResult s.intDt (s₂.args none).body t (t + s.dt) x') k =
      (subSteps s.intDt (t + s.dt) t).foldl
        (fun z p => sdStep (s.stiffness k) (s.damping k) p.1 (s₁.sfDrive k p.2 - s₂.sfDrive k p.2) z) (dev x x' k) := by
    have := sdFold_sub (s.stiffness k) (s.damping k) (fun p => s₁.sfDrive k p.2) (fun p => s₂.sfDrive k p.2)
      (subSteps s.intDt (t + s.dt) t) (x.1 k, x.2 k) (x'.1 k, x'.2 k)
    rw [← r₁, ← r₂] at this
    exact this
  have h := hq t (s.stiffness k * W)
    ((subSteps s.intDt (t + s.dt) t).map fun p => (p.1, s₁.sfDrive k p.2 - s₂.sfDrive k p.2)) (by simp [Function.comp_def]) (by
    intro p hp
    obtain ⟨q, -, rfl⟩ := List.mem_map.1 hp
    show |s₁.sfDrive k q.2 - s₂.sfDrive k q.2| ≤ _
    unfold sfDrive
    rw [p1, p1', ← mul_sub, abs_mul, abs_of_pos hk]
    exact mul_le_mul_of_nonneg_left (h₁.attractor_sub hn h₂ hW _ _) hk.le) (dev x x' k)
  rw [List.foldl_map] at h
  rw [e]
  refine h.trans (le_of_eq ?_)
  ring

theorem sampled_get (F : ℝ → ℝ → Vec d × Vec d → Vec d × Vec d) (t0 dt : ℝ) (x : Vec d × Vec d) (N i : ℕ)
    (h : i < (sampled F t0 dt x N).2.length) : (sampled F t0 dt x N).2[i] = (iterates F t0 dt x i).1 := by
  simp [sampled]

/-- States of `open_loop`. -/
theorem openLoop_iterates (s : StateFollowingDMP d n) (hτ : 0 < s.executionTime) (hdt : 0 < s.dt) (hint : 0 < s.intDt)
    (runT : Option ℝ) :
    s.openLoop runT none = .ok (sampled (intResult s.intDt (s.args none).body) 0 s.dt (s.startY, 0)
      (loopCount 0 (runT.getD s.executionTime) s.dt)) :=
  StateFollowingArgs.openLoop_eq (a := { s.args none with goalYd := 0, goalYdd := 0, startYd := 0, startYdd := 0 })
    (s.composes hτ hint) hdt runT

/-- **C104 (state following).** For every state-following DMP with positive gains whose integration is stable there is a
constant `K` such that, whatever its start and via points are, changing them by at most `δ` changes every row of every
trajectory that `open_loop` returns by at most `K * δ`. -/
theorem C104_state_following_open_loop {s : StateFollowingDMP d n} (hn : 0 < n) (hτ : 0 < s.executionTime) (hdt : 0 < s.dt)
    (hint : 0 < s.intDt) (hgain : ∀ k, 0 < s.alphaY k ∧ 0 < s.betaY k)
    (hst : ∀ k, Spec.Stable .euler s.dt s.intDt (s.executionTime / 2) (s.alphaY k) (s.betaY k)) :
    ∃ K : ℝ, 0 ≤ K ∧ ∀ (δ : ℝ) (s₁ s₂ : StateFollowingDMP d n), s.SameSystem s₁ → Near δ s₁ s₂ → ∀ runT, ∃ r₁ r₂,
      s₁.openLoop runT none = .ok r₁ ∧ s₂.openLoop runT none = .ok r₂ ∧ CloseRows (K * δ) r₁ r₂ := by
  have key : ∀ k, ∃ M : ℝ, 0 ≤ M ∧ ∀ (δ : ℝ) (s₁ s₂ : StateFollowingDMP d n), s.SameSystem s₁ → Near δ s₁ s₂ → ∀ i : ℕ,
      |(iterates (intResult s.intDt (s₁.args none).body) 0 s.dt (s₁.startY, 0) i).1 k -
        (iterates (intResult s.intDt (s₂.args none).body) 0 s.dt (s₂.startY, 0) i).1 k| ≤ M * δ := by
    intro k
    obtain ⟨A, B, C, ρ, K, hA, hd, hρ0, hρ, hK, -, h⟩ := sf_contraction hn hτ hdt k (hgain k) (hst k)
    obtain ⟨M, hM0, hM⟩ := bound_of_noisy hA hd hρ0 hρ hK
    refine ⟨M + 1, by linarith, fun δ s₁ s₂ hs₁ hnear i => ?_⟩
    have hδ : 0 ≤ δ := (abs_nonneg _).trans (hnear.start k)
    set xs := iterates (intResult s.intDt (s₁.args none).body) 0 s.dt (s₁.startY, 0) with hxs
    set ys := iterates (intResult s.intDt (s₂.args none).body) 0 s.dt (s₂.startY, 0) with hys
    have hMδ : 0 ≤ M * δ := mul_nonneg hM0 hδ
    cases i with
    | zero => exact (hnear.start k).trans (by linarith)
    | succ i =>
      have hb := hM δ (fun i => dev (xs i) (ys i) k) (fun i => dev (xs (i + 1)) (ys (i + 1)) k) hδ (hnear.start k)
        (by show |(0 : ℝ) - 0| ≤ δ; simpa using hδ) (fun i => by simpa using hδ) (fun i => by
          have h2 := h s₁ s₂ hs₁ (hs₁.trans' hnear.system) δ hnear.viapoints (0 + i * s.dt) (xs i) (ys i)
          have e : (0 : ℝ) + i * s.dt + s.dt = 0 + (i + 1 : ℕ) * s.dt := by push_cast; ring
          rw [e] at h2
          exact h2) i
      have := hb.1
      show |(dev (xs (i + 1)) (ys (i + 1)) k).1| ≤ _
      linarith
  choose M hM0 hM using key
  refine ⟨∑ k, M k, Finset.sum_nonneg fun k _ => hM0 k, fun δ s₁ s₂ hs₁ hnear runT => ?_⟩
  have hs₂ := hs₁.trans' hnear.system
  have ex : ∀ o, s.SameSystem o → o.openLoop runT none = .ok (sampled (intResult s.intDt (o.args none).body) 0 s.dt (o.startY, 0)
      (loopCount 0 (runT.getD s.executionTime) s.dt)) := by
    intro o ho
    have := o.openLoop_iterates (by rw [ho.executionTime]; exact hτ) (by rw [ho.dt]; exact hdt) (by rw [ho.intDt]; exact hint)
      runT
    rw [ho.executionTime, ho.dt, ho.intDt] at this
    exact this
  refine ⟨_, _, ex s₁ hs₁, ex s₂ hs₂, closeRows_of_index ⟨rfl, by simp [sampled]⟩ fun i h₁ h₂ k => ?_⟩
  have hδ : 0 ≤ δ := (abs_nonneg _).trans (hnear.start k)
  rw [sampled_get, sampled_get]
  exact (hM k δ s₁ s₂ hs₁ hnear i).trans (mul_le_mul_of_nonneg_right
    (Finset.single_le_sum (fun k _ => hM0 k) (Finset.mem_univ k)) hδ)

/-- Objects and results of a sequence of calls of `step`. -/
theorem run_results {s : StateFollowingDMP d n} (hτ : 0 < s.executionTime) (hdt : 0 < s.dt) (hint : 0 < s.intDt) (ht : 0 ≤ s.t)
    {obj : ℕ → StateFollowingDMP d n} {fb out : ℕ → Vec d × Vec d} (h0 : obj 0 = s) (hrun : Run (step none) obj fb out) (i : ℕ) :
    out i = intResult s.intDt (s.args none).body (s.t + i * s.dt) (s.t + i * s.dt + s.dt) (fb i) := by
  have hF := s.composes hτ hint
  have hobj : ∀ i : ℕ, ∃ lt y yd, obj i = { s with lastT := lt, t := s.t + i * s.dt, currentY := y, currentYd := yd } := by
    intro i
    induction i with
    | zero => exact ⟨s.lastT, s.currentY, s.currentYd, by rw [h0]; simp⟩
    | succ i ih =>
      obtain ⟨lt, y, yd, hi⟩ := ih
      have h1 := hrun i
      rw [exec_step] at h1
      cases hr : ((obj i).args none).step (obj i).t ((obj i).t + (obj i).dt) ((fb i).1, (fb i).2) with
      | error e => rw [hr] at h1; cases h1
      | ok r =>
        rw [hr] at h1
        refine ⟨some (obj i).t, r.1, r.2, (Prod.mk.inj h1).2.symm.trans ?_⟩
        have e1 : (obj i).t + (obj i).dt = s.t + (i + 1 : ℕ) * s.dt := by
          rw [hi]; push_cast; ring
        rw [e1, hi]
  obtain ⟨lt, y, yd, hi⟩ := hobj i
  have h1 := hrun i
  rw [exec_step] at h1
  have e1 : (obj i).t = s.t + i * s.dt := by rw [hi]
  have e2 : (obj i).t + (obj i).dt = s.t + i * s.dt + s.dt := by
    have : (obj i).dt = s.dt := by rw [hi]
    rw [e1, this]
  have e3 : (obj i).args none = s.args none := by rw [hi]; rfl
  have hpos : 0 ≤ (i : ℝ) * s.dt := by positivity
  have e4 := hF.ok (s.t + i * s.dt) (s.t + i * s.dt + s.dt) (fb i) (by linarith) (by linarith)
  have e4' : (s.args none).step (s.t + i * s.dt) (s.t + i * s.dt + s.dt) (fb i) = _ := e4
  rw [e2, e1, e3, e4'] at h1
  exact (Except.ok.inj (Prod.mk.inj h1).1).symm

/-- **C105 (state following).** For every state-following DMP with positive gains whose integration is stable there is a
constant `K`, which does not depend on start and via points, such that passing positions and velocities to `step` that differ
from the returned ones by at most `δ` changes positions and velocities that `step` returns by at most `K * δ`, in all
calls. -/
theorem C105_state_following_step (s : StateFollowingDMP d n) (hn : 0 < n) (hτ : 0 < s.executionTime) (hdt : 0 < s.dt)
    (hint : 0 < s.intDt) (ht : 0 ≤ s.t) (hgain : ∀ k, 0 < s.alphaY k ∧ 0 < s.betaY k)
    (hst : ∀ k, Spec.Stable .euler s.dt s.intDt (s.executionTime / 2) (s.alphaY k) (s.betaY k)) :
    ∃ K : ℝ, 0 ≤ K ∧ ∀ (s₂ : StateFollowingDMP d n), s.SameSystem s₂ → ∀ (δ : ℝ), 0 ≤ δ → ∀ x0 obj fb out obj' fb' out',
      obj 0 = s₂ → Run (step none) obj fb out → Measured 0 x0 fb out →
      obj' 0 = s₂ → Run (step none) obj' fb' out' → Measured δ x0 fb' out' →
      ∀ i, StateWithin (K * δ) (out' i) (out i) := by
  have key : ∀ k, ∃ M : ℝ, 0 ≤ M ∧ ∀ (s₂ : StateFollowingDMP d n), s.SameSystem s₂ → ∀ (δ : ℝ), 0 ≤ δ →
      ∀ x0 obj fb out obj' fb' out', obj 0 = s₂ → Run (step none) obj fb out → Measured 0 x0 fb out →
      obj' 0 = s₂ → Run (step none) obj' fb' out' → Measured δ x0 fb' out' →
      ∀ i, |(out' i).1 k - (out i).1 k| ≤ M * δ ∧ |(out' i).2 k - (out i).2 k| ≤ M * δ := by
    intro k
    obtain ⟨A, B, C, ρ, K, hA, hd, hρ0, hρ, hK, -, h⟩ := sf_contraction hn hτ hdt k (hgain k) (hst k)
    obtain ⟨M, hM0, hM⟩ := noisy_dev (K := 0) hA hd hρ0 hρ le_rfl
    refine ⟨M, hM0, ?_⟩
    intro s₂ hs δ hδ x0 obj fb out obj' fb' out' h0 hrun hm h0' hrun' hm'
    have hres : ∀ {obj fb out}, obj 0 = s₂ → Run (step none) obj fb out → ∀ i : ℕ,
        out i = intResult s.intDt (s₂.args none).body (s.t + i * s.dt) (s.t + i * s.dt + s.dt) (fb i) := by
      intro obj fb out h0 hrun i
      have := run_results (s := s₂) (by rw [hs.executionTime]; exact hτ) (by rw [hs.dt]; exact hdt)
        (by rw [hs.intDt]; exact hint) (by rw [hs.t]; exact ht) h0 hrun i
      rw [hs.intDt, hs.dt, hs.t] at this
      exact this
    refine hM d δ x0 fb out fb' out' k hδ hm hm' (fun i => ?_)
    have := h s₂ s₂ hs hs 0 (fun i k => by simp) (s.t + i * s.dt) (fb' i) (fb i)
    rw [← hres h0 hrun, ← hres h0' hrun'] at this
    simpa using this
  choose M hM0 hM using key
  refine ⟨∑ k, M k, Finset.sum_nonneg fun k _ => hM0 k, ?_⟩
  intro s₂ hs δ hδ x0 obj fb out obj' fb' out' h0 hrun hm h0' hrun' hm' i
  have hle : ∀ k, M k * δ ≤ (∑ k, M k) * δ := fun k =>
    mul_le_mul_of_nonneg_right (Finset.single_le_sum (fun k _ => hM0 k) (Finset.mem_univ k)) hδ
  exact ⟨fun k => (hM k s₂ hs δ hδ x0 obj fb out obj' fb' out' h0 hrun hm h0' hrun' hm' i).1.trans (hle k),
    fun k => (hM k s₂ hs δ hδ x0 obj fb out obj' fb' out' h0 hrun hm h0' hrun' hm' i).2.trans (hle k)⟩

/-- Executions of a state-following DMP that are disturbed in any way exist. -/
theorem C105_state_following_runs_exist (s : StateFollowingDMP d n) (hτ : 0 < s.executionTime) (hdt : 0 < s.dt)
    (hint : 0 < s.intDt) (ht : 0 ≤ s.t) {δ : ℝ} (x0 : Vec d × Vec d)
    (e : ℕ → Vec d × Vec d) (he : ∀ i, (∀ k, |(e i).1 k| ≤ δ) ∧ ∀ k, |(e i).2 k| ≤ δ) :
    ∃ obj fb out, obj 0 = s ∧ Run (step none) obj fb out ∧ Measured δ x0 fb out ∧
      fb 0 = x0 + e 0 ∧ ∀ i, fb (i + 1) = out i + e (i + 1) := by
  obtain ⟨obj, fb, out, h0, hrun, hf0, hf⟩ := disturbed_run (step (d := d) (n := n) none)
    (fun o => 0 < o.executionTime ∧ 0 < o.dt ∧ 0 < o.intDt ∧ 0 ≤ o.t) (by
      rintro o y yd ⟨h1, h2, h3, h4⟩
      have e4 : (o.args none).step o.t (o.t + o.dt) (y, yd) = _ :=
        (o.composes h1 h3).ok o.t (o.t + o.dt) (y, yd) h4 (by linarith)
      rw [exec_step, e4]
      exact ⟨_, _, rfl, h1, h2, h3, by show 0 ≤ o.t + o.dt; linarith⟩) (s := s) ⟨hτ, hdt, hint, ht⟩ x0 e
  exact ⟨obj, fb, out, h0, hrun, ⟨by rw [hf0]; exact within_add _ _ (he 0), fun i => by rw [hf]; exact within_add _ _ (he _)⟩, hf0, hf⟩

/-- The defaults meet the hypotheses of C104 and C105, and objects whose via points differ by `δ` exist. -/
example (δ : ℝ) (hδ : 0 ≤ δ) : ∃ s s' : StateFollowingDMP 2 10, 0 < s.executionTime ∧ 0 < s.dt ∧ 0 < s.intDt ∧ 0 ≤ s.t ∧
    (∀ k, 0 < s.alphaY k ∧ 0 < s.betaY k) ∧
    (∀ k, Spec.Stable .euler s.dt s.intDt (s.executionTime / 2) (s.alphaY k) (s.betaY k)) ∧ s.SameSystem s ∧ Near δ s s' ∧
    ∀ i k, s'.ft.viapoints i k = s.ft.viapoints i k + δ := by
  obtain ⟨s, h1, h2, h3⟩ := create_ok 2 (n := 10) (by norm_num) (executionTime := 1) one_pos (1 / 100) (1 / 1000) 25
    (25 / 4) (fun _ => 0)
  obtain ⟨-, -, α', β', -, -, e⟩ := create_eq h1
  have e1 : s.executionTime = 1 := by rw [e]
  have e2 : s.dt = 1 / 100 := by rw [e]
  have e3 : s.intDt = 1 / 1000 := by rw [e]
  have e4 : s.t = 0 := by rw [e]; rfl
  refine ⟨s, { s with ft := { s.ft with viapoints := fun i k => s.ft.viapoints i k + δ } }, by rw [e1]; norm_num,
    by rw [e2]; norm_num, by rw [e3]; norm_num, by rw [e4], fun k => by rw [h2, h3]; norm_num, fun k => ?_,
    ⟨rfl, rfl, rfl, rfl, rfl, rfl, rfl, rfl⟩,
    ⟨⟨rfl, rfl, rfl, rfl, rfl, rfl, rfl, rfl⟩, fun k => by simpa using hδ, fun i k => by simp [abs_of_nonneg hδ]⟩,
    fun i k => rfl⟩
  rw [h2, h3, e1, e2, e3]
  refine .eulerMultiple (.inl rfl) (by norm_num) 10 (by norm_num) (by norm_num) ?_
  norm_num

end StateFollowingDMP
end Verif
