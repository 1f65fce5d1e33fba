import Verif.Lemmas.ExpPoly
import Verif.Props.Conditioning
import Verif.Props.PrompEM
import Mathlib.LinearAlgebra.Matrix.ToLinearEquiv

/-! # Weights are determined by the movement they generate (C96) -/

namespace Verif
open Spec

variable {d m n w : ℕ}

/-- The forcing term with other weights. -/
def ForcingTerm.withWeights (ft : ForcingTerm d m) (W : Fin d → Fin m → ℝ) : ForcingTerm d m := { ft with weights := W }

/-- The DMP with other weights. -/
def DMP.withWeights (s : DMP d m) (W : Fin d → Fin m → ℝ) : DMP d m := { s with ft := s.ft.withWeights W }

theorem ForcingTerm.Made.weights_unique {ft : ForcingTerm d m} {τ : ℝ} (h : ft.Made τ) {V W : Fin d → Fin m → ℝ}
    {S : Finset ℝ} (hS : 2 ^ m - 1 ≤ S.card)
    (he : ∀ t ∈ S, (ft.withWeights V).call t = (ft.withWeights W).call t) : V = W := by
  obtain ⟨ft0, h0, e1, e2, e3, e4, e5⟩ := h
  have hc := h0
  rw [DMP.initForcingTerm_ok_iff] at hc
  obtain ⟨hm, hτ, -, hft0⟩ := create_ok hc
  have hb := C05_basis_functions hc log_hundred_pos (by norm_num)
  have hphase : ∀ t, ft.phaseAt t = phase t (-Real.log (1 / 100)) τ 0 := by
    intro t
    simp only [ForcingTerm.phaseAt, e1, e2, e3, hft0]
  have hinj : Function.Injective ft.phaseAt := by
    have h1 := (phaseOver_phase hτ).decreasing
    intro a b hab
    rw [hphase, hphase] at hab
    exact h1.injective hab
  funext k
  have hz := ExpPoly.gaussians_independent (c := ft.centers) (h := ft.widths) (w := fun i => V k i - W k i)
    (S := S.image ft.phaseAt) (by rw [e4]; exact hb.1.injective) (by rw [e5]; exact fun i => (hb.2.2.2.1 i).ne')
    (by rw [Finset.card_image_of_injective _ hinj]; exact hS) ?_
  · funext i
    have := congrFun hz i
    simpa [sub_eq_zero] using this
  · intro z hz
    obtain ⟨t, ht, rfl⟩ := Finset.mem_image.1 hz
    have h1 := congrFun (he t ht) k
    have hp : ft.phaseAt t ≠ 0 := by rw [hphase]; unfold phase; exact (Real.exp_pos _).ne'
    have hs := (sum_rbf_pos ft (by omega) (ft.phaseAt t)).ne'
    simp only [ForcingTerm.call, ForcingTerm.force, ForcingTerm.withWeights] at h1
    have h2 := mul_left_cancel₀ (show ft.phaseAt t ≠ 0 from hp) h1
    simp only [ForcingTerm.activations, ForcingTerm.rbf] at h2 hs
    have h3 : ∑ i, (V k i - W k i) * (Real.exp (-ft.widths i * (ft.phaseAt t - ft.centers i) ^ 2) /
        ∑ j, Real.exp (-ft.widths j * (ft.phaseAt t - ft.centers j) ^ 2)) = 0 := by
      simp only [sub_mul, Finset.sum_sub_distrib]
      rw [sub_eq_zero]
      exact h2
    simp only [mul_div_assoc', ← Finset.sum_div] at h3
    exact (div_eq_zero_iff.1 h3).resolve_right hs

/-! ## Forcing terms -/

/-- **C96 (DMP).** Two sets of weights with which the forcing term of a DMP takes the same values at `2 ** m - 1` different
times (`m` weights per dimension) are equal. -/
theorem C96_dmp {s : DMP d m} (hs : s.Reachable) {V W : Fin d → Fin m → ℝ} {S : Finset ℝ} (hS : 2 ^ m - 1 ≤ S.card)
    (he : ∀ t ∈ S, (s.ft.withWeights V).call t = (s.ft.withWeights W).call t) : V = W :=
  hs.made.weights_unique hS he

/-- **C96 (DMPWithFinalVelocity).** -/
theorem C96_fv {s : FvDMP d m} (hs : FvDMP.Reachable s) {V W : Fin d → Fin m → ℝ} {S : Finset ℝ}
    (hS : 2 ^ m - 1 ≤ S.card) (he : ∀ t ∈ S, (s.ft.withWeights V).call t = (s.ft.withWeights W).call t) : V = W := by
  obtain ⟨ft, h1, h2⟩ := hs.valid
  rw [h2] at he
  exact (ForcingTerm.made_init h1 _).weights_unique hS he

/-- **C96 (CartesianDMP).** -/
theorem C96_cartesian {s : CartesianDMP m} (hs : TimedCartesian s) {V W V' W' : Fin 3 → Fin m → ℝ} {S : Finset ℝ}
    (hS : 2 ^ m - 1 ≤ S.card) (he : ∀ t ∈ S, (s.ftPos.withWeights V).call t = (s.ftPos.withWeights W).call t)
    (he' : ∀ t ∈ S, (s.ftRot.withWeights V').call t = (s.ftRot.withWeights W').call t) : V = W ∧ V' = W' :=
  ⟨hs.made.1.weights_unique hS he, hs.made.2.weights_unique hS he'⟩

/-- **C96 (DualCartesianDMP).** -/
theorem C96_dual {s : DualCartesianDMP m} (hs : TimedDual s) {V W : Fin 12 → Fin m → ℝ} {S : Finset ℝ}
    (hS : 2 ^ m - 1 ≤ S.card) (he : ∀ t ∈ S, (s.ft.withWeights V).call t = (s.ft.withWeights W).call t) : V = W :=
  hs.made.weights_unique hS he

/-- Sets of so many times exist. -/
example : ∃ S : Finset ℝ, 2 ^ 10 - 1 ≤ S.card :=
  ⟨(Finset.range (2 ^ 10)).map ⟨fun n : ℕ => (n : ℝ), Nat.cast_injective⟩, by rw [Finset.card_map, Finset.card_range]; omega⟩

/-! ## Trajectories -/

theorem loopRows_determine {σ β : Type} {f g : ℕ → σ → Except PyErr σ} {out : σ → β} {Q : ℕ → Prop}
    (h : ∀ i s a b, f i s = .ok a → g i s = .ok b → out a = out b → a = b ∧ Q i) :
    ∀ (k : ℕ) (s : σ) (i : ℕ) (rows : List β), loopRows f out k s i = .ok rows → loopRows g out k s i = .ok rows →
      ∀ j < k, Q (i + j) := by
  intro k
  induction k with
  | zero => intro s i rows _ _ j hj; omega
  | succ k ih =>
    intro s i rows hf hg j hj
    rw [loopRows] at hf hg
    cases hs : f i s with
    | error e => rw [hs] at hf; cases hf
    | ok a =>
      cases hs' : g i s with
      | error e => rw [hs'] at hg; cases hg
      | ok b =>
        rw [hs] at hf
        rw [hs'] at hg
        simp only [bind, Except.bind] at hf hg
        cases hr : loopRows f out k a (i + 1) with
        | error e => rw [hr] at hf; cases hf
        | ok ra =>
          cases hr' : loopRows g out k b (i + 1) with
          | error e => rw [hr'] at hg; cases hg
          | ok rb =>
            rw [hr] at hf
            rw [hr'] at hg
            simp only [Pure.pure, Except.pure, Except.ok.injEq] at hf hg
            rw [← hf, List.cons.injEq] at hg
            obtain ⟨h1, h2⟩ := h i s a b hs hs' hg.1.symm
            subst h1
            rw [hg.2] at hr'
            cases j with
            | zero => exact h2
            | succ j =>
              have := ih a (i + 1) ra hr hr' j (by omega)
              rwa [show i + 1 + j = i + (j + 1) by omega] at this

theorem eulerBody_determine {a : StepArgs d m} {ft : ForcingTerm d m} {dt t : ℝ} {s : Vec d × Vec d} (hdt : dt ≠ 0)
    (hτ : a.goalT - a.startT ≠ 0) (hp : ft.phaseAt t = a.ft.phaseAt t)
    (h : (a.eulerBody dt t s).1 = (({ a with ft := ft } : StepArgs d m).eulerBody dt t s).1) :
    a.eulerBody dt t s = ({ a with ft := ft } : StepArgs d m).eulerBody dt t s ∧ a.ft.call t = ft.call t := by
  have hfst : ∀ (a : StepArgs d m) τ (x : Vec d × Vec d), (a.addCd τ x).1 = x.1 := by
    intro a τ x; unfold StepArgs.addCd; cases a.coupling <;> rfl
  have hft : ∀ x τ, ({ a with ft := ft } : StepArgs d m).addCd τ x = a.addCd τ x := fun _ _ => rfl
  have hacc : ∀ Y V c z τ f tdd, ({ a with ft := ft } : StepArgs d m).acc Y V c z τ f tdd = a.acc Y V c z τ f tdd :=
    fun _ _ _ _ _ _ _ => rfl
  have hcdd : ({ a with ft := ft } : StepArgs d m).initialCdd = a.initialCdd := rfl
  unfold StepArgs.eulerBody at h ⊢
  simp only [hfst, hft, hacc, hcdd, hp] at h ⊢
  have h1 := add_left_cancel h
  have h2 := smul_right_injective (Vec d) hdt h1
  have h3 := smul_right_injective (Vec d) hdt (add_left_cancel h2)
  refine ⟨by rw [h2], ?_⟩
  funext k
  have h4 := congrFun h3 k
  simp only [StepArgs.acc] at h4
  have hτ2 : (a.goalT - a.startT) ^ 2 ≠ 0 := pow_ne_zero 2 hτ
  rw [div_left_inj' hτ2] at h4
  simp only [ForcingTerm.call, hp]
  linarith

theorem eulerBodyCy_determine {a : StepArgs d m} {ft : ForcingTerm d m} {dt t : ℝ} {s : Vec d × Vec d} (hdt : dt ≠ 0)
    (hτ : a.goalT - a.startT ≠ 0) (hp : ft.phaseAt t = a.ft.phaseAt t)
    (h : (a.eulerBodyCy dt t s).1 = (({ a with ft := ft } : StepArgs d m).eulerBodyCy dt t s).1) :
    a.eulerBodyCy dt t s = ({ a with ft := ft } : StepArgs d m).eulerBodyCy dt t s ∧ a.ft.call t = ft.call t := by
  have hcy : ({ a with ft := ft } : StepArgs d m).cyCoupling s = a.cyCoupling s := rfl
  have hτ2 : (a.goalT - a.startT) ^ 2 ≠ 0 := pow_ne_zero 2 hτ
  have hf : a.ft.call t = ft.call t := by
    funext k
    have h1 := congrFun h k
    simp only [StepArgs.eulerBodyCy, hcy, hp] at h1
    have h2 := mul_left_cancel₀ hdt (add_left_cancel h1)
    have h3 := mul_left_cancel₀ hdt (add_right_cancel (add_left_cancel h2))
    rw [div_left_inj' hτ2] at h3
    simp only [ForcingTerm.call, hp]
    linarith
  refine ⟨?_, hf⟩
  simp only [ForcingTerm.call, hp] at hf
  simp only [StepArgs.eulerBodyCy, hcy, hp, hf]

/-- **C96 (open_loop).** For every reachable DMP that integrates with Euler's method in one step per time step: two sets of
weights that generate the same trajectory with at least `2 ** m` points are equal. -/
theorem C96_open_loop {s : DMP d m} (hs : s.Reachable) (hdt : 0 < s.dt) (hint : s.dt ≤ s.intDt) {V W : Fin d → Fin m → ℝ}
    {runT : Option ℝ} {coupling : Option (Coupling d)} {name : String} (hname : name = "euler" ∨ name = "euler-cython")
    {T : List ℝ} {Y : List (Vec d)} (hY : 2 ^ m ≤ Y.length)
    (hV : ((DMP.openLoop runT coupling name).exec (s.withWeights V)).1 = .ok (T, Y))
    (hW : ((DMP.openLoop runT coupling name).exec (s.withWeights W)).1 = .ok (T, Y)) : V = W := by
  have hτ : 0 < s.executionTime := by
    obtain ⟨ft, h1, -⟩ := hs.valid
    rw [DMP.initForcingTerm_ok_iff] at h1
    exact (create_ok h1).2.1
  set N := arangeLen 0 (runT.getD s.executionTime + s.dt) s.dt with hN
  obtain ⟨sf, hsf, hlook⟩ : ∃ sf : StepFunction, (sf = .euler ∨ sf = .eulerCython) ∧ StepFunction.lookup name = .ok sf := by
    rcases hname with rfl | rfl
    · exact ⟨.euler, .inl rfl, rfl⟩
    · exact ⟨.eulerCython, .inr rfl, rfl⟩
  have key : ∀ U : Fin d → Fin m → ℝ, ((DMP.openLoop runT coupling name).exec (s.withWeights U)).1 = .ok (T, Y) →
      ∃ rows, Y = s.startY :: rows ∧ rows.length = N - 1 ∧
        loopRows (fun i x => sf.run ((s.withWeights U).openLoopArgs coupling) (arangeAt 0 s.dt i) (arangeAt 0 s.dt (i + 1)) x)
          Prod.fst (N - 1) (s.startY, 0) 0 = .ok rows := by
    intro U hU
    rw [DMP.exec_openLoop, hlook] at hU
    change dmpOpenLoop ((s.withWeights U).openLoopArgs coupling) s.dt runT sf = .ok (T, Y) at hU
    unfold dmpOpenLoop openLoopWith at hU
    simp only [hdt.ne', if_false] at hU
    by_cases h0 : N = 0
    · rw [show arangeLen ((s.withWeights U).openLoopArgs coupling).startT
        (runT.getD ((s.withWeights U).openLoopArgs coupling).goalT + s.dt) s.dt = N from rfl, if_pos h0] at hU
      cases hU
    · rw [show arangeLen ((s.withWeights U).openLoopArgs coupling).startT
        (runT.getD ((s.withWeights U).openLoopArgs coupling).goalT + s.dt) s.dt = N from rfl, if_neg h0] at hU
      cases hr : loopRows (fun i x => sf.run ((s.withWeights U).openLoopArgs coupling) (arangeAt 0 s.dt i) (arangeAt 0 s.dt (i + 1)) x)
          Prod.fst (N - 1) (s.startY, (0 : Vec d)) 0 with
      | error e =>
        have : (Except.error e : Except PyErr (List ℝ × List (Vec d))) = .ok (T, Y) := by
          rw [← hU]
          change _ = Except.bind (loopRows (fun i x => sf.run ((s.withWeights U).openLoopArgs coupling) (arangeAt 0 s.dt i) (arangeAt 0 s.dt (i + 1)) x)
            Prod.fst (N - 1) (s.startY, (0 : Vec d)) 0) _
          rw [hr]; rfl
        cases this
      | ok rows =>
        have : (Except.ok ((List.range N).map (arangeAt 0 s.dt), s.startY :: rows) : Except PyErr (List ℝ × List (Vec d))) = .ok (T, Y) := by
          rw [← hU]
          change _ = Except.bind (loopRows (fun i x => sf.run ((s.withWeights U).openLoopArgs coupling) (arangeAt 0 s.dt i) (arangeAt 0 s.dt (i + 1)) x)
            Prod.fst (N - 1) (s.startY, (0 : Vec d)) 0) _
          rw [hr]; rfl
        simp only [Except.ok.injEq, Prod.mk.injEq] at this
        exact ⟨rows, this.2.symm, loopRows_length hr, rfl⟩
  obtain ⟨rows, h1, h2, h3⟩ := key V hV
  obtain ⟨rows', h4, -, h6⟩ := key W hW
  rw [h1, List.cons.injEq] at h4
  rw [← h4.2] at h6
  have hstep : ∀ i : ℕ, arangeAt 0 s.dt (i + 1) = ((i : ℝ) + 1) * s.dt := by
    intro i; unfold arangeAt; push_cast; ring
  have hstep' : ∀ i : ℕ, arangeAt 0 s.dt i = (i : ℝ) * s.dt := by
    intro i; unfold arangeAt; ring
  have hdet := loopRows_determine (Q := fun i => (s.ft.withWeights V).call (arangeAt 0 s.dt (i + 1)) =
    (s.ft.withWeights W).call (arangeAt 0 s.dt (i + 1))) ?_ _ _ _ _ h3 h6
  · refine C96_dmp hs (S := (Finset.range (N - 1)).map ⟨fun i : ℕ => arangeAt 0 s.dt (i + 1), ?_⟩) ?_ ?_
    · intro i j hij
      simp only [hstep] at hij
      have := mul_right_cancel₀ hdt.ne' hij
      have : (i : ℝ) = j := by linarith
      exact_mod_cast this
    · rw [Finset.card_map, Finset.card_range, ← h2]
      rw [h1, List.length_cons] at hY
      omega
    · intro t ht
      obtain ⟨i, hi, rfl⟩ := Finset.mem_map.1 ht
      have := hdet i (Finset.mem_range.1 hi)
      rw [Nat.zero_add] at this
      exact this
  · intro i x a b ha hb hab
    set A := (s.withWeights V).openLoopArgs coupling with hA
    have hB : (s.withWeights W).openLoopArgs coupling = { A with ft := s.ft.withWeights W } := rfl
    rw [hB] at hb
    have hg : ¬ A.goalT ≤ A.startT := not_le.2 hτ
    have hlt : arangeAt 0 s.dt i < arangeAt 0 s.dt (i + 1) := by rw [hstep, hstep']; nlinarith
    have hle : arangeAt 0 s.dt (i + 1) - arangeAt 0 s.dt i = s.dt := by rw [hstep, hstep']; ring
    have hpos : ¬ arangeAt 0 s.dt (i + 1) ≤ A.startT := by
      rw [hstep]
      exact not_le.2 (mul_pos (by positivity) hdt)
    have hτ' : A.goalT - A.startT ≠ 0 := sub_ne_zero.2 hτ.ne'
    have hle' : arangeAt 0 s.dt (i + 1) - arangeAt 0 s.dt i ≤ A.intDt := by rw [hle]; exact hint
    rcases hsf with rfl | rfl
    · simp only [StepFunction.run, StepArgs.stepEuler] at ha hb
      rw [if_neg hg, if_neg hpos] at ha hb
      rw [intLoop_single _ hlt hle'] at ha
      rw [intLoop_single _ hlt (show _ ≤ ({ A with ft := s.ft.withWeights W } : StepArgs d m).intDt from hle')] at hb
      rw [Except.ok.injEq] at ha hb
      subst ha hb
      rw [hle] at hab ⊢
      exact eulerBody_determine hdt.ne' hτ' rfl hab
    · simp only [StepFunction.run, StepArgs.stepEulerCy] at ha hb
      rw [if_neg hg, if_neg hpos] at ha hb
      rw [intLoop_single _ hlt hle'] at ha
      rw [intLoop_single _ hlt (show _ ≤ ({ A with ft := s.ft.withWeights W } : StepArgs d m).intDt from hle')] at hb
      rw [Except.ok.injEq] at ha hb
      subst ha hb
      rw [hle] at hab ⊢
      exact eulerBodyCy_determine hdt.ne' hτ' rfl hab

/-! ## Imitation -/

theorem regularizedError_midpoint {F : Fin n → Vec d} {f : (Fin d → Fin m → ℝ) → Fin n → Vec d} {reg : ℝ} (hreg : 0 ≤ reg)
    (V W : Fin d → Fin m → ℝ) (hf : ∀ t k, f (fun k i => 1 / 2 * V k i + 1 / 2 * W k i) t k = 1 / 2 * f V t k + 1 / 2 * f W t k) :
    regularizedError F f reg (fun k i => 1 / 2 * V k i + 1 / 2 * W k i) + 1 / 4 * ∑ t, ∑ k, (f V t k - f W t k) ^ 2 ≤
      1 / 2 * regularizedError F f reg V + 1 / 2 * regularizedError F f reg W := by
  unfold regularizedError
  simp only [hf]
  have h1 : ∑ t, ∑ k, (F t k - (1 / 2 * f V t k + 1 / 2 * f W t k)) ^ 2 + 1 / 4 * ∑ t, ∑ k, (f V t k - f W t k) ^ 2 =
      1 / 2 * ∑ t, ∑ k, (F t k - f V t k) ^ 2 + 1 / 2 * ∑ t, ∑ k, (F t k - f W t k) ^ 2 := by
    simp only [Finset.mul_sum, ← Finset.sum_add_distrib]
    refine Finset.sum_congr rfl fun t _ => Finset.sum_congr rfl fun k _ => ?_
    ring
  have h2 : ∑ k, ∑ i, (1 / 2 * V k i + 1 / 2 * W k i) ^ 2 ≤ 1 / 2 * ∑ k, ∑ i, V k i ^ 2 + 1 / 2 * ∑ k, ∑ i, W k i ^ 2 := by
    simp only [Finset.mul_sum, ← Finset.sum_add_distrib]
    refine Finset.sum_le_sum fun k _ => Finset.sum_le_sum fun i _ => ?_
    nlinarith [sq_nonneg (V k i - W k i)]
  nlinarith [mul_le_mul_of_nonneg_left h2 hreg]

/-- **C96 (imitate).** A demonstration over the execution time with at least `2 ** m - 1` different time stamps determines
the learned weights, also without regularisation: all other weights have a larger error. -/
theorem C96_imitate_unique {s s' : DMP d m} (hs : s.Reachable) {T : Fin (n + 2) → ℝ} (hT : Function.Injective T)
    (hn : 2 ^ m - 1 ≤ n + 2) (Y : Fin (n + 2) → Vec d) {reg : ℝ} (h0 : T 0 = 0) (hl : T (Fin.last _) = s.executionTime)
    (afv : Bool) (h : (DMP.imitate T Y reg afv).exec s = (.ok (), s')) (V : Fin d → Fin m → ℝ)
    (hV : V ≠ s'.ft.weights) :
    let error := regularizedError (determineForces T Y s.alphaY s.betaY s.ft.alphaZ afv s.smooth)
      (fun W t => (s'.ft.withWeights W).call (T t)) reg
    error s'.ft.weights < error V := by
  intro error
  have hreg : 0 ≤ reg := by
    by_contra hneg
    rw [C26_negative_raises T Y afv (not_le.1 hneg) s] at h
    cases h
  have hopt := C26_dmp_imitate hs T Y h0 hl afv h
  have hs' : s'.Reachable := by
    have h1 := DMP.Reachable.op (.imitate T Y reg afv) hs h
    exact h1 (by simp)
  by_contra hle
  have hle : error V ≤ error s'.ft.weights := not_lt.1 hle
  apply hV
  set W := s'.ft.weights with hW
  have hmid := regularizedError_midpoint (F := determineForces T Y s.alphaY s.betaY s.ft.alphaZ afv s.smooth)
    (f := fun W t => (s'.ft.withWeights W).call (T t)) hreg V W
    (fun t k => C04_force_linear s'.ft V W (1 / 2) (1 / 2) (T t) k)
  have h1 := (hopt (fun k i => 1 / 2 * V k i + 1 / 2 * W k i)).1
  have h2 : ∑ t, ∑ k, ((s'.ft.withWeights V).call (T t) k - (s'.ft.withWeights W).call (T t) k) ^ 2 ≤ 0 := by
    have h3 : error W ≤ error (fun k i => 1 / 2 * V k i + 1 / 2 * W k i) := h1
    have h4 : error (fun k i => 1 / 2 * V k i + 1 / 2 * W k i) + 1 / 4 *
      ∑ t, ∑ k, ((s'.ft.withWeights V).call (T t) k - (s'.ft.withWeights W).call (T t) k) ^ 2 ≤
        1 / 2 * error V + 1 / 2 * error W := hmid
    linarith
  refine C96_dmp hs' (S := Finset.univ.map ⟨T, hT⟩) (by simpa using hn) ?_
  intro t ht
  obtain ⟨i, -, rfl⟩ := Finset.mem_map.1 ht
  funext k
  have h5 := (Finset.sum_eq_zero_iff_of_nonneg (fun t _ => Finset.sum_nonneg fun k _ => sq_nonneg _)).1
    (le_antisymm h2 (Finset.sum_nonneg fun t _ => Finset.sum_nonneg fun k _ => sq_nonneg _)) i (Finset.mem_univ _)
  have h6 := (Finset.sum_eq_zero_iff_of_nonneg (fun k _ => sq_nonneg _)).1 h5 k (Finset.mem_univ _)
  exact sub_eq_zero.1 (pow_eq_zero_iff (two_ne_zero)|>.1 h6)

/-- **C96 (imitate).** If some weights generate exactly the forces of the demonstration, imitation without regularisation
finds them. -/
theorem C96_imitate_recovers {s s' : DMP d m} (hs : s.Reachable) {T : Fin (n + 2) → ℝ} (hT : Function.Injective T)
    (hn : 2 ^ m - 1 ≤ n + 2) (Y : Fin (n + 2) → Vec d) (h0 : T 0 = 0) (hl : T (Fin.last _) = s.executionTime)
    (afv : Bool) (h : (DMP.imitate T Y 0 afv).exec s = (.ok (), s')) (V : Fin d → Fin m → ℝ)
    (hV : ∀ t, determineForces T Y s.alphaY s.betaY s.ft.alphaZ afv s.smooth t = (s.ft.withWeights V).call (T t)) :
    s'.ft.weights = V := by
  by_contra hne
  have h1 := C96_imitate_unique hs hT hn Y h0 hl afv h V (Ne.symm hne)
  have hft : s'.ft.withWeights V = s.ft.withWeights V := by
    rw [DMP.exec_imitate] at h
    cases hi : dmpImitate m T Y 0 s.alphaY s.betaY s.ft.overlap s.ft.alphaZ afv s.smooth with
    | error e => rw [hi] at h; cases h
    | ok r =>
      rw [hi] at h
      simp only at h
      rw [DMP.exec_configure] at h
      injection h with _ h
      rw [← h]
      rfl
  simp only [regularizedError, hft, hV, sub_self, zero_mul, add_zero] at h1
  have h2 : 0 ≤ ∑ t, ∑ k, ((s.ft.withWeights V).call (T t) k - (s'.ft.withWeights s'.ft.weights).call (T t) k) ^ 2 :=
    Finset.sum_nonneg fun t _ => Finset.sum_nonneg fun k _ => sq_nonneg _
  norm_num at h1
  linarith

/-- The hypotheses can be met: a DMP with two weights per dimension that imitates a movement with three time stamps. -/
example : ∃ s : DMP 1 2, s.Reachable ∧ ∃ (T : Fin 3 → ℝ) (s' : DMP 1 2), Function.Injective T ∧ 2 ^ 2 - 1 ≤ 1 + 2 ∧ T 0 = 0 ∧
    T (Fin.last _) = s.executionTime ∧
    (DMP.imitate (n := 1) T (fun i _ => (i.val : ℝ) ^ 2) 0 false).exec s = (.ok (), s') := by
  obtain ⟨s, hs, h1, _⟩ := DMP.create_ok 1 2 le_rfl one_pos (1 / 100) (1 / 1000) 0 false 25 (25 / 4)
  obtain ⟨w, hw⟩ := C28_imitate_configures (n := 1) (.create hs) (fun i => (i.val : ℝ) / 2) (fun i _ => (i.val : ℝ) ^ 2)
    (reg := 0) (by norm_num) (by norm_num) false
  refine ⟨s, .create hs, fun i => (i.val : ℝ) / 2, _, ?_, by norm_num, by norm_num, by rw [h1]; norm_num, hw⟩
  intro i j hij
  simp only at hij
  exact Fin.ext (by exact_mod_cast (div_left_inj' (two_ne_zero (α := ℝ))).1 hij)

/-- The hypotheses of the recovery can be met with the weights 0: a movement that rests at the goal. -/
example : ∃ s : DMP 1 2, s.Reachable ∧ ∀ t, determineForces (n := 1) (fun i => (i.val : ℝ) / 2) (fun _ _ => 3) s.alphaY s.betaY
    s.ft.alphaZ false s.smooth t = (s.ft.withWeights 0).call ((t.val : ℝ) / 2) := by
  obtain ⟨s, hs, h1, _⟩ := DMP.create_ok 1 2 le_rfl one_pos (1 / 100) (1 / 1000) 0 false 25 (25 / 4)
  refine ⟨s, .create hs, fun t => ?_⟩
  funext k
  rw [show (s.ft.withWeights 0).call ((t.val : ℝ) / 2) k = 0 from C04_force_zero _ k (fun _ => rfl) _]
  simp [determineForces, demoYd, demoYdd, gradient]

/-! ## Probabilistic movement primitives -/

theorem centre_injective (w : ℕ) : Function.Injective (centre w) := by
  intro a b hab
  unfold centre at hab
  split_ifs at hab with h
  · subst h; exact Subsingleton.elim _ _
  · have hw : (w : ℝ) - 1 ≠ 0 := by
      rw [sub_ne_zero]; exact_mod_cast h
    rw [div_left_inj' hw] at hab
    exact Fin.ext (by exact_mod_cast hab)

theorem promp_weights_unique {V W : Vec (d * w)} {S : Finset ℝ} (hS : w ≤ S.card)
    (he : ∀ s ∈ S, ∀ k, prompPosition V s k = prompPosition W s k) : V = W := by
  funext x
  obtain ⟨⟨k, a⟩, rfl⟩ := finProdFinEquiv.surjective x
  have hw : 0 < w := lt_of_le_of_lt (Nat.zero_le _) a.isLt
  have hh : (4 * (w : ℝ) ^ 2 * Real.log (10 / 7)) ≠ 0 := by
    have := log_ten_sevenths
    positivity
  have h := ExpPoly.equal_gaussians_independent (c := centre w) (w := fun a => V (flat k a) - W (flat k a)) (centre_injective w)
    hh (S := S) (by simpa using hS) ?_
  · exact sub_eq_zero.1 (congrFun h a)
  · intro s hs
    have h1 := he s hs k
    unfold prompPosition activation at h1
    have hsum : 0 < ∑ b, rbf w s b := Finset.sum_pos (fun b _ => Real.exp_pos _) ⟨a, Finset.mem_univ _⟩
    simp only [div_mul_eq_mul_div, ← Finset.sum_div] at h1
    rw [div_left_inj' hsum.ne'] at h1
    simp only [sub_mul, Finset.sum_sub_distrib]
    rw [sub_eq_zero]
    simpa [rbf, mul_comm] using h1

/-- Different times relative to the largest. -/
theorem relative_times {T : Vec n} (hT : Function.Injective T) {t : ℝ} (h0 : t ≠ 0) :
    Function.Injective (fun i => T i / t) := fun _ _ hij => hT ((div_left_inj' h0).1 hij)

/-- **C96 (ProMP).** Two ProMPs with the same mean trajectory at as many different times as there are weights per dimension
have the same mean weights. -/
theorem C96_promp {p q : ProMP d w} (hp : Spec.Reachable p) (hq : Spec.Reachable q) {T : Vec n} (hT : Function.Injective T)
    (hn : w ≤ n) {t : ℝ} (ht : IsLargest T t) (h0 : t ≠ 0)
    (he : (p.meanTrajectory.exec (.float T)).1 = (q.meanTrajectory.exec (.float T)).1) : p.weightMean = q.weightMean := by
  obtain ⟨Y, T1, h1, h2⟩ := C44_mean hp T ht h0
  obtain ⟨Z, T2, h3, h4⟩ := C44_mean hq T ht h0
  rw [h1, h3, Except.ok.injEq] at he
  subst he
  refine promp_weights_unique (S := Finset.univ.map ⟨_, relative_times hT h0⟩) (by simpa using hn) ?_
  intro s hs k
  obtain ⟨i, -, rfl⟩ := Finset.mem_map.1 hs
  exact (h2 i k).symm.trans (h4 i k)

/-- **C96 (ProMP, weights).** Without regularisation the weights of a trajectory that a ProMP generated are found again from
as many different times as there are weights per dimension. -/
theorem C96_promp_weights {p : ProMP d w} (hp : Spec.Reachable p) {T : Vec n} (hT : Function.Injective T) (hn : w ≤ n)
    {t : ℝ} (ht : IsLargest T t) (h0 : t ≠ 0) {Y : Matrix (Fin n) (Fin d) ℝ} {V : Vec (d * w)}
    (hY : ∀ i k, Y i k = prompPosition V (T i / t) k) :
    ∃ T', (p.weights Y 0).exec (.float T) = (.ok V, T') := by
  obtain ⟨W, T', h1, h2⟩ := C65_weights_optimal hp T ht h0 Y le_rfl
  refine ⟨T', ?_⟩
  rw [h1]
  have h3 := h2 V
  simp only [hY, sub_self, zero_mul, add_zero] at h3
  norm_num at h3
  have h4 := le_antisymm h3 (Finset.sum_nonneg fun t _ => Finset.sum_nonneg fun k _ => sq_nonneg _)
  have : V = W := by
    refine promp_weights_unique (S := Finset.univ.map ⟨_, relative_times hT h0⟩) (by simpa using hn) ?_
    intro s hs k
    obtain ⟨i, -, rfl⟩ := Finset.mem_map.1 hs
    have h5 := (Finset.sum_eq_zero_iff_of_nonneg (fun t _ => Finset.sum_nonneg fun k _ => sq_nonneg _)).1 h4 i (Finset.mem_univ _)
    have h6 := (Finset.sum_eq_zero_iff_of_nonneg (fun k _ => sq_nonneg _)).1 h5 k (Finset.mem_univ _)
    exact sub_eq_zero.1 (pow_eq_zero_iff two_ne_zero |>.1 h6)
  rw [this]

/-- Weights for any positions at no more different times than there are weights. -/
theorem promp_interpolates {s : Fin n → ℝ} (hs : Function.Injective s) (hn : n ≤ w) (Y : Fin n → Fin d → ℝ) :
    ∃ V : Vec (d * w), ∀ i k, prompPosition V (s i) k = Y i k := by
  let e : Fin n → Fin w := Fin.castLE hn
  have he : Function.Injective e := Fin.castLE_injective hn
  let G : Matrix (Fin n) (Fin n) ℝ := Matrix.of fun i j => rbf w (s i) (e j)
  have hinj : Function.Injective G.mulVecLin := by
    rw [← LinearMap.ker_eq_bot, LinearMap.ker_eq_bot']
    intro v hv
    rcases Nat.eq_zero_or_pos n with rfl | hpos
    · exact Subsingleton.elim _ _
    have hw : 0 < w := by omega
    have hh : (4 * (w : ℝ) ^ 2 * Real.log (10 / 7)) ≠ 0 := by
      have := log_ten_sevenths
      positivity
    refine ExpPoly.equal_gaussians_independent (c := fun j => centre w (e j)) (w := v) ((centre_injective w).comp he) hh
      (S := Finset.univ.map ⟨s, hs⟩) (by simp) ?_
    intro x hx
    obtain ⟨i, -, rfl⟩ := Finset.mem_map.1 hx
    have h1 := congrFun hv i
    simp only [Matrix.mulVecLin_apply, Matrix.mulVec, dotProduct, G, Matrix.of_apply, rbf, Pi.zero_apply] at h1
    rw [← h1]
    exact Finset.sum_congr rfl fun j _ => mul_comm _ _
  have hsurj := LinearMap.injective_iff_surjective.1 hinj
  choose v hv using fun k => hsurj (fun i => Y i k * ∑ b, rbf w (s i) b)
  refine ⟨fun x => ∑ j, if e j = (finProdFinEquiv.symm x).2 then v (finProdFinEquiv.symm x).1 j else 0, fun i k => ?_⟩
  have hw : 0 < w := lt_of_lt_of_le (lt_of_le_of_lt (Nat.zero_le _) i.isLt) hn
  have hsum : 0 < ∑ b, rbf w (s i) b := Finset.sum_pos (fun b _ => Real.exp_pos _) ⟨⟨0, hw⟩, Finset.mem_univ _⟩
  have h1 := congrFun (hv k) i
  simp only [Matrix.mulVecLin_apply, Matrix.mulVec, dotProduct, G, Matrix.of_apply] at h1
  simp only [prompPosition, activation, flat, Equiv.symm_apply_apply, Finset.mul_sum, mul_ite, mul_zero]
  rw [Finset.sum_comm]
  simp only [Finset.sum_ite_eq, Finset.mem_univ, if_true, div_mul_eq_mul_div, ← Finset.sum_div]
  rw [h1, mul_div_cancel_right₀ _ hsum.ne']

/-- **C65.** The optimum is unique if the regularisation coefficient is positive, or if there are at least as many different
time stamps as weights per dimension. -/
theorem C65_unique {p : ProMP d w} (hp : Spec.Reachable p) {T : Vec n} {t : ℝ} (ht : IsLargest T t) (h0 : t ≠ 0)
    (Y : Matrix (Fin n) (Fin d) ℝ) {lmbda : ℝ} (hl : 0 ≤ lmbda) (hu : 0 < lmbda ∨ (Function.Injective T ∧ w ≤ n)) :
    ∃ W T', (p.weights Y lmbda).exec (.float T) = (.ok W, T') ∧ ∀ V : Vec (d * w), V ≠ W →
      (∑ i, ∑ k, (Y i k - prompPosition W (T i / t) k) ^ 2) + lmbda * ∑ x, W x ^ 2 <
        (∑ i, ∑ k, (Y i k - prompPosition V (T i / t) k) ^ 2) + lmbda * ∑ x, V x ^ 2 := by
  obtain ⟨W, T', h1, h2⟩ := C65_weights_optimal hp T ht h0 Y hl
  refine ⟨W, T', h1, fun V hV => ?_⟩
  by_contra hle
  have hle := not_lt.1 hle
  have hmid := h2 (fun x => 1 / 2 * V x + 1 / 2 * W x)
  have hlin : ∀ s k, prompPosition (fun x => 1 / 2 * V x + 1 / 2 * W x) s k =
      1 / 2 * prompPosition V s k + 1 / 2 * prompPosition W s k := by
    intro s k
    simp only [prompPosition, Finset.mul_sum, ← Finset.sum_add_distrib]
    exact Finset.sum_congr rfl fun a _ => by ring
  simp only [hlin] at hmid
  have e1 : ∑ i, ∑ k, (Y i k - (1 / 2 * prompPosition V (T i / t) k + 1 / 2 * prompPosition W (T i / t) k)) ^ 2 +
      1 / 4 * ∑ i, ∑ k, (prompPosition V (T i / t) k - prompPosition W (T i / t) k) ^ 2 =
      1 / 2 * ∑ i, ∑ k, (Y i k - prompPosition V (T i / t) k) ^ 2 + 1 / 2 * ∑ i, ∑ k, (Y i k - prompPosition W (T i / t) k) ^ 2 := by
    simp only [Finset.mul_sum, ← Finset.sum_add_distrib]
    exact Finset.sum_congr rfl fun i _ => Finset.sum_congr rfl fun k _ => by ring
  have e2 : ∑ x, (1 / 2 * V x + 1 / 2 * W x) ^ 2 + 1 / 4 * ∑ x, (V x - W x) ^ 2 =
      1 / 2 * ∑ x, V x ^ 2 + 1 / 2 * ∑ x, W x ^ 2 := by
    simp only [Finset.mul_sum, ← Finset.sum_add_distrib]
    exact Finset.sum_congr rfl fun x _ => by ring
  have p1 : 0 ≤ ∑ i, ∑ k, (prompPosition V (T i / t) k - prompPosition W (T i / t) k) ^ 2 :=
    Finset.sum_nonneg fun _ _ => Finset.sum_nonneg fun _ _ => sq_nonneg _
  have p2 : 0 ≤ ∑ x, (V x - W x) ^ 2 := Finset.sum_nonneg fun _ _ => sq_nonneg _
  have e3 : lmbda * ∑ x, (1 / 2 * V x + 1 / 2 * W x) ^ 2 + 1 / 4 * (lmbda * ∑ x, (V x - W x) ^ 2) =
      1 / 2 * (lmbda * ∑ x, V x ^ 2) + 1 / 2 * (lmbda * ∑ x, W x ^ 2) := by
    linear_combination lmbda * e2
  have p3 := mul_nonneg hl p2
  rcases hu with hpos | ⟨hT, hn⟩
  · have z : lmbda * ∑ x, (V x - W x) ^ 2 = 0 := by linarith
    have z' := (mul_eq_zero.1 z).resolve_left hpos.ne'
    refine hV (funext fun x => ?_)
    have h6 := (Finset.sum_eq_zero_iff_of_nonneg (fun x _ => sq_nonneg _)).1 z' x (Finset.mem_univ _)
    exact sub_eq_zero.1 (pow_eq_zero_iff two_ne_zero |>.1 h6)
  · have z : ∑ i, ∑ k, (prompPosition V (T i / t) k - prompPosition W (T i / t) k) ^ 2 = 0 := by linarith
    refine hV (promp_weights_unique (S := Finset.univ.map ⟨_, relative_times hT h0⟩) (by simpa using hn) ?_)
    intro s hs k
    obtain ⟨i, -, rfl⟩ := Finset.mem_map.1 hs
    have h5 := (Finset.sum_eq_zero_iff_of_nonneg (fun t _ => Finset.sum_nonneg fun k _ => sq_nonneg _)).1 z i (Finset.mem_univ _)
    have h6 := (Finset.sum_eq_zero_iff_of_nonneg (fun k _ => sq_nonneg _)).1 h5 k (Finset.mem_univ _)
    exact sub_eq_zero.1 (pow_eq_zero_iff two_ne_zero |>.1 h6)

/-- **C97.** A ProMP with at least as many weights per dimension as a demonstration has (different) time stamps reproduces the
demonstration exactly if its weights are computed without regularisation. -/
theorem C97_exact {p : ProMP d w} (hp : Spec.Reachable p) {T : Vec n} (hT : Function.Injective T) (hn : n ≤ w)
    {t : ℝ} (ht : IsLargest T t) (h0 : t ≠ 0) (Y : Matrix (Fin n) (Fin d) ℝ) :
    ∃ W T', (p.weights Y 0).exec (.float T) = (.ok W, T') ∧
      ((p.trajectoryFromWeights W).exec (.float T)).1 = .ok Y := by
  obtain ⟨V, hV⟩ := promp_interpolates (relative_times hT h0) hn Y
  obtain ⟨W, T', h1, h2⟩ := C65_weights_optimal hp T ht h0 Y le_rfl
  refine ⟨W, T', h1, ?_⟩
  have h3 := h2 V
  simp only [hV, sub_self, zero_mul, add_zero] at h3
  norm_num at h3
  have h4 := le_antisymm h3 (Finset.sum_nonneg fun t _ => Finset.sum_nonneg fun k _ => sq_nonneg _)
  rw [ProMP.exec_trajectoryFromWeights hp.centers ht]
  simp only [Except.ok.injEq]
  ext i k
  have h5 := (Finset.sum_eq_zero_iff_of_nonneg (fun t _ => Finset.sum_nonneg fun k _ => sq_nonneg _)).1 h4 i (Finset.mem_univ _)
  have h6 := (Finset.sum_eq_zero_iff_of_nonneg (fun k _ => sq_nonneg _)).1 h5 k (Finset.mem_univ _)
  exact (sub_eq_zero.1 (pow_eq_zero_iff two_ne_zero |>.1 h6)).symm

/-- The hypotheses can be met: three time stamps, five weights. -/
example : Spec.Reachable (ProMP.init 2 5) ∧ Function.Injective (![0, 1, 2] : Vec 3) ∧ 3 ≤ 5 ∧
    IsLargest ![(0 : ℝ), 1, 2] 2 ∧ (2 : ℝ) ≠ 0 := by
  refine ⟨.init, ?_, by norm_num, ⟨⟨2, rfl⟩, fun i => by fin_cases i <;> norm_num⟩, by norm_num⟩
  intro i j
  fin_cases i <;> fin_cases j <;> simp

end Verif
