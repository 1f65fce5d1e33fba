import Verif.Model.FloatOpenLoop
import Verif.Props.FloatRk4

/-!
# C106: DMPs reach their goals in double precision with `open_loop`
-/

namespace Verif
open Spec
variable {d m : ℕ}

/-- C106: without rounding, the floating-point model of `DMP.open_loop` is the model about which the other properties are proved. -/
theorem C106_dmp_open_loop_exact (runT : Option ℝ) (coupling : Option (Coupling d)) (name : String) (s : DMP d m) :
    (DMP.openLoopFl (FloatOps.exact s.ft) runT coupling name).exec s = (DMP.openLoop runT coupling name).exec s := by
  unfold DMP.openLoopFl DMP.openLoop dmpOpenLoop openLoopWith
  simp only [Py.exec_bind, Py.exec_get, Py.exec_lift]
  cases StepFunction.lookup name with
  | error e => rfl
  | ok sf =>
    simp only
    have hT : arangeTimesFl (FloatOps.exact s.ft).rnd s.dt (runT.getD s.executionTime) =
        (List.range (arangeLen 0 (runT.getD s.executionTime + s.dt) s.dt)).map (arangeAt 0 s.dt) := by
      unfold arangeTimesFl arangeLen arangeAt FloatOps.exact
      simp
    have hg : (s.openLoopArgs coupling).goalT = s.executionTime := rfl
    have hst : (s.openLoopArgs coupling).startT = 0 := rfl
    have hy : (s.openLoopArgs coupling).startY = s.startY := rfl
    have hyd : (s.openLoopArgs coupling).startYd = 0 := rfl
    rw [hT, hg, hst, hy, hyd]
    by_cases hd : s.dt = 0
    · simp [hd, Py.exec_throw]
      rfl
    set n := arangeLen 0 (runT.getD s.executionTime + s.dt) s.dt with hn
    by_cases h0 : n = 0
    · simp [hd, h0]
      rfl
    have he : (List.range n).map (arangeAt 0 s.dt) ≠ [] := by simp [h0]
    have hrows := loopRows_congr (step := fun i x => sf.runFl (FloatOps.exact s.ft) (s.openLoopArgs coupling)
        (((List.range n).map (arangeAt 0 s.dt)).getD i 0) (((List.range n).map (arangeAt 0 s.dt)).getD (i + 1) 0) x)
      (step' := fun i x => sf.run (s.openLoopArgs coupling) (arangeAt 0 s.dt i) (arangeAt 0 s.dt (i + 1)) x)
      (out := Prod.fst) (n - 1) (s.startY, (0 : Vec d)) 0 (fun j x hj => by
        have e : ∀ i, i < n → ((List.range n).map (arangeAt 0 s.dt)).getD i 0 = arangeAt 0 s.dt i := fun i hi => by
          rw [List.getD_eq_getElem _ _ (by simpa using hi)]
          simp
        rw [e j (by omega), e (j + 1) (by omega), sf.runFl_exact (ft := s.ft) (s.openLoopArgs coupling) rfl])
    simp only [hd, h0, he, if_false, List.length_map, List.length_range, hrows, Py.exec_bind, Py.exec_lift]
    cases loopRows (fun i x => sf.run (s.openLoopArgs coupling) (arangeAt 0 s.dt i) (arangeAt 0 s.dt (i + 1)) x)
      Prod.fst (n - 1) (s.startY, (0 : Vec d)) 0 <;> rfl

/-- The times of `open_loop`. -/
theorem arange_grid {rnd : ℝ → ℝ} (h : IsRounding rnd) {dt runT : ℝ} (hd : IsDouble dt) (hdt : 0 < dt) (hr : IsDouble runT)
    (hr0 : 0 ≤ runT) (hn : runT + dt ≤ (2 : ℝ) ^ 42 * dt) :
    1 ≤ (arangeTimesFl rnd dt runT).length ∧ runT / dt ≤ (arangeTimesFl rnd dt runT).length ∧
    ∀ j, j + 1 < (arangeTimesFl rnd dt runT).length →
      IsDouble ((arangeTimesFl rnd dt runT).getD j 0) ∧ IsDouble ((arangeTimesFl rnd dt runT).getD (j + 1) 0) ∧
      0 ≤ (arangeTimesFl rnd dt runT).getD j 0 ∧
      |(arangeTimesFl rnd dt runT).getD (j + 1) 0 - (arangeTimesFl rnd dt runT).getD j 0 - dt| ≤ dt / 256 ∧
      j * dt ≤ 2 * (arangeTimesFl rnd dt runT).getD j 0 ∧
      (arangeTimesFl rnd dt runT).getD (j + 1) 0 ≤ 2 * (runT + 2 * dt) := by
  set T := arangeTimesFl rnd dt runT with hT
  have hceil : ⌈runT / dt⌉₊ < 2 ^ 42 := by
    have a1 : (⌈runT / dt⌉₊ : ℝ) < runT / dt + 1 := Nat.ceil_lt_add_one (by positivity)
    have a2 : runT / dt + 1 ≤ 2 ^ 42 := by
      rw [← div_self hdt.ne', ← add_div, div_le_iff₀ hdt]
      exact hn
    exact_mod_cast a1.trans_le a2
  obtain ⟨hlen1, hlen2⟩ := C80_arange_count h hd hdt hr hr0 (hceil.trans (by norm_num))
  rw [← hT] at hlen1 hlen2
  have hlen0 : 1 ≤ T.length := by
    rw [hT, arangeTimesFl, List.length_map, List.length_range]
    have a1 : dt ≤ rnd (rnd (runT + dt) - 0) := by
      rw [sub_zero, h.of_isDouble (h.isDouble _)]
      exact h.ge_of_isDouble hd (by linarith)
    have a2 : 1 ≤ rnd (rnd (rnd (runT + dt) - 0) / dt) := h.ge_of_isDouble isDouble_one (by rw [le_div_iff₀ hdt]; linarith)
    exact Nat.one_le_iff_ne_zero.2 (Nat.ceil_pos.2 (by linarith)).ne'
  have htimes : ∀ i, i < T.length → |T.getD i 0 - i * dt| ≤ i * dt * (2 : ℝ) ^ (-53 : ℤ) ∧ IsDouble (T.getD i 0) ∧ 0 ≤ T.getD i 0 := by
    intro i hi'
    rw [List.getD_eq_getElem _ _ hi']
    refine ⟨C80_arange_times h hd hdt runT i hi', ?_, ?_⟩
    · simp only [hT, arangeTimesFl, List.getElem_map]
      exact h.isDouble _
    · simp only [hT, arangeTimesFl, List.getElem_map, List.getElem_range, zero_add, sub_zero, h.of_isDouble hd,
        h.of_isDouble (h.isDouble _)]
      exact h.ge_of_isDouble isDouble_zero (by positivity)
  refine ⟨hlen0, (Nat.le_ceil _).trans (by exact_mod_cast hlen1), fun j hj => ?_⟩
  obtain ⟨b1, b2, b3⟩ := htimes j (by omega)
  obtain ⟨c1, c2, c3⟩ := htimes (j + 1) (by omega)
  have hjR : (j : ℝ) + 1 ≤ 2 ^ 43 := by exact_mod_cast (by omega : j + 1 ≤ 2 ^ 43)
  have hju : ((j : ℝ) + 1) * (2 : ℝ) ^ (-53 : ℤ) ≤ 1 / 1024 := by
    refine (mul_le_mul_of_nonneg_right hjR (by positivity)).trans ?_
    norm_num
  have e1 : ((j : ℝ) + 1) * dt * (2 : ℝ) ^ (-53 : ℤ) ≤ dt / 1024 := by
    have := mul_le_mul_of_nonneg_right hju hdt.le
    linarith
  have e2 : (j : ℝ) * dt * (2 : ℝ) ^ (-53 : ℤ) ≤ dt / 1024 := by
    have : (0 : ℝ) ≤ dt * (2 : ℝ) ^ (-53 : ℤ) := by positivity
    linarith
  have e3 : (j : ℝ) * dt * (2 : ℝ) ^ (-53 : ℤ) ≤ j * dt * (1 / 2) :=
    mul_le_mul_of_nonneg_left (by norm_num) (by positivity)
  push_cast at c1
  have b1' := abs_le.1 (b1.trans e2)
  have b1'' := abs_le.1 (b1.trans e3)
  have c1' := abs_le.1 (c1.trans e1)
  clear b1 c1 e1 e2 e3 hju
  refine ⟨b2, c2, b3, by rw [abs_le]; constructor <;> linarith, by linarith, ?_⟩
  have q1 : (j : ℝ) + 1 ≤ ⌈runT / dt⌉₊ + 1 := by exact_mod_cast (by omega : j + 1 ≤ ⌈runT / dt⌉₊ + 1)
  have q2 : (⌈runT / dt⌉₊ : ℝ) < runT / dt + 1 := Nat.ceil_lt_add_one (by positivity)
  have q3 := mul_le_mul_of_nonneg_right (q1.trans (by linarith : _ ≤ runT / dt + 2)) hdt.le
  have q4 : (runT / dt + 2) * dt = runT + 2 * dt := by field_simp
  linarith

/-- `open_loop` with steps that preserve an invariant. -/
theorem DMP.openLoopFl_inv {o : FloatOps d} (s : DMP d m) {runT : Option ℝ} {coupling : Option (Coupling d)} {name : String}
    {sf : StepFunction} (hsf : StepFunction.lookup name = .ok sf) (hdt : s.dt ≠ 0)
    (hT : 1 ≤ (arangeTimesFl o.rnd s.dt (runT.getD s.executionTime)).length) {P : ℕ → Vec d × Vec d → Prop}
    (hP : ∀ j x, j + 1 < (arangeTimesFl o.rnd s.dt (runT.getD s.executionTime)).length → P j x →
      ∃ x', sf.runFl o (s.openLoopArgs coupling) ((arangeTimesFl o.rnd s.dt (runT.getD s.executionTime)).getD j 0)
        ((arangeTimesFl o.rnd s.dt (runT.getD s.executionTime)).getD (j + 1) 0) x = .ok x' ∧ P (j + 1) x')
    (h0 : P 0 (s.startY, 0)) :
    ∃ Y, (DMP.openLoopFl o runT coupling name).exec s = (.ok (arangeTimesFl o.rnd s.dt (runT.getD s.executionTime), Y), s) ∧
      Y.length = (arangeTimesFl o.rnd s.dt (runT.getD s.executionTime)).length ∧
      ∀ j (hj : j < Y.length), ∃ x, P j x ∧ Y[j] = x.1 := by
  set T := arangeTimesFl o.rnd s.dt (runT.getD s.executionTime) with hTdef
  obtain ⟨rows, hrows, hrl, hro⟩ := loopRows_inv (out := Prod.fst) (P := P) (K := T.length - 1)
    (step := fun i x => sf.runFl o (s.openLoopArgs coupling) (T.getD i 0) (T.getD (i + 1) 0) x)
    (fun j x hj hx => hP j x (by omega) hx) (T.length - 1) 0 (s.startY, 0) (by omega) h0
  refine ⟨s.startY :: rows, ?_, by simp [hrl]; omega, ?_⟩
  · unfold DMP.openLoopFl
    rw [Py.exec_bind, Py.exec_lift, hsf]
    simp only
    rw [Py.exec_bind, Py.exec_get]
    simp only
    rw [if_neg hdt, if_neg (by rw [← hTdef]; intro h0; rw [h0] at hT; simp at hT)]
    simp only [Py.exec_bind, Py.exec_pure, Py.exec_lift, ← hTdef]
    rw [hrows]
  · intro j hj
    cases j with
    | zero => exact ⟨_, h0, rfl⟩
    | succ j =>
      obtain ⟨x', hx', he⟩ := hro j (by simpa using hj)
      rw [zero_add] at hx'
      exact ⟨x', hx', by simpa using he⟩

/-- C106: `DMP.open_loop` with one of the Runge-Kutta step functions, computed in double precision, returns, and if the forces that the
forcing term (as computed) exerts decay exponentially, then the positions approach the goal exponentially, up to rounding errors. -/
theorem C106_rk4_open_loop {o : FloatOps d} (h : IsRounding o.rnd) {name : String} {sf : StepFunction}
    (hname : StepFunction.lookup name = .ok sf) (hsf : sf = .rk4 ∨ sf = .rk4Cython) (s : DMP d m) (runT : Option ℝ) (i : Fin d)
    {slow fast P rate : ℝ} (hd : IsDouble s.dt) (hτe : IsDouble s.executionTime) (hdt : (2 : ℝ) ^ (-1000 : ℤ) ≤ s.dt)
    (hτ : 0 < s.executionTime) (hsq : |o.sq s.executionTime - s.executionTime ^ 2| ≤ (2 : ℝ) ^ (-52 : ℤ) * s.executionTime ^ 2)
    (hα : 0 < s.alphaY i) (hβ : 0 < s.betaY i) (hrates : IsDecayRates slow fast (s.alphaY i) (s.betaY i) s.executionTime)
    (h1 : s.dt * fast ≤ 9 / 10) (h2 : (2 : ℝ) ^ (-36 : ℤ) * fast ≤ s.dt * slow ^ 2)
    (hr : IsDouble (runT.getD s.executionTime)) (hr0 : 0 ≤ runT.getD s.executionTime)
    (hn : runT.getD s.executionTime + s.dt ≤ (2 : ℝ) ^ 42 * s.dt) (hrate0 : 0 < rate) (hrate : 10 * rate ≤ slow)
    (hforce : ∀ t, 0 < t → |o.force t i| + s.alphaY i * |o.smoothing (s.openLoopArgs none) t i| ≤ P * Real.exp (-(2 * rate * t))) :
    ∃ Y, (DMP.openLoopFl o runT none name).exec s = (.ok (arangeTimesFl o.rnd s.dt (runT.getD s.executionTime), Y), s) ∧
      Y.length = (arangeTimesFl o.rnd s.dt (runT.getD s.executionTime)).length ∧ runT.getD s.executionTime / s.dt ≤ Y.length ∧
      ∀ j (hj : j < Y.length), |Y[j] i - s.goalY i| ≤ Real.exp (-(rate * s.dt * j)) * (2 * |s.startY i - s.goalY i| +
          Real.exp (2 * (rate * s.dt)) / rate * (14 * P / (slow * s.executionTime ^ 2))) +
          rk4Floor slow fast (s.alphaY i) (s.betaY i) s.executionTime s.dt (s.goalY i) 0 := by
  have hs := hrates.1
  have hf : 0 < fast := hs.trans_le hrates.2.1
  have hdt0 : 0 < s.dt := lt_of_lt_of_le (by positivity) hdt
  have hP0 : 0 ≤ P := by
    have := le_trans (by positivity) (hforce 1 (by norm_num))
    exact nonneg_of_mul_nonneg_left this (Real.exp_pos _)
  have hE := rk4StepError_nonneg hs hf hα hβ hdt0 le_rfl (s.goalY i) (τ := s.executionTime)
  set B := rk4Floor slow fast (s.alphaY i) (s.betaY i) s.executionTime s.dt (s.goalY i) 0 with hBdef
  have hB : 0 ≤ B := by
    rw [hBdef, rk4Floor_eq hs hdt0]; positivity
  set N0 := 2 * |s.startY i - s.goalY i| with hN0
  have hN00 : 0 ≤ N0 := by rw [hN0]; positivity
  set b1 := s.dt * (14 * P / (slow * s.executionTime ^ 2)) with hb1
  have hb10 : 0 ≤ b1 := by positivity
  have eC : Real.exp (2 * (rate * s.dt)) / rate * (14 * P / (slow * s.executionTime ^ 2)) =
      Real.exp (2 * (rate * s.dt)) / (rate * s.dt) * b1 := by
    rw [hb1]; field_simp
  rw [eC]
  set C := N0 + Real.exp (2 * (rate * s.dt)) / (rate * s.dt) * b1 with hC
  have hfl : Real.exp (-(slow * s.dt / 5)) * B +
      rk4StepError slow fast (s.alphaY i) (s.betaY i) s.executionTime s.dt (s.goalY i) 0 ≤ B := by
    have := decay_floor (a := slow * s.dt / 5) (N := 0) (j := 0) (by positivity)
      (rk4Floor_eq hs hdt0 fast (s.alphaY i) (s.betaY i) s.executionTime (s.goalY i) 0) hE (by rw [mul_zero, zero_add]) le_rfl
    rw [mul_zero, zero_add] at this
    exact this
  obtain ⟨hlen, hcount, hgrid⟩ := arange_grid h hd hdt0 hr hr0 hn
  obtain ⟨Y, he, hl, hY⟩ := s.openLoopFl_inv (o := o) (coupling := none) hname hdt0.ne' hlen
    (P := fun j x => rkNorm (slow / fast) (x.1 i - s.goalY i) (x.2 i / fast) ≤ Real.exp (-(rate * s.dt * j)) * C + B)
    (fun j x hj hx => by
      obtain ⟨g1, g2, g3, g4, g5, -⟩ := hgrid j hj
      obtain ⟨r, hr1, hr2⟩ := rk4Fl_decay h hsf (s.openLoopArgs none) rfl rfl rfl rfl hτ hτe hsq hα hβ hrates hdt h1 h2 g1 g2 g4
        (Φ := P * Real.exp (-(rate * s.dt * j))) (fun t ht => by
          refine (hforce t (lt_of_le_of_lt g3 ht)).trans (mul_le_mul_of_nonneg_left ?_ hP0)
          apply Real.exp_le_exp.2
          clear hdt h2 hsq
          have : rate * (j * s.dt) ≤ rate * (2 * t) := mul_le_mul_of_nonneg_left (by linarith) hrate0.le
          linarith) x
      refine ⟨r, hr1, ?_⟩
      have key := decaying_force (a := rate * s.dt) (ρ := Real.exp (-(slow * s.dt / 5))) (C := C) (B := B)
        (b0 := rk4StepError slow fast (s.alphaY i) (s.betaY i) s.executionTime s.dt (s.goalY i) 0) (b1 := b1)
        (by positivity) (Real.exp_le_exp.2 (by
          have := mul_le_mul_of_nonneg_right hrate hdt0.le
          clear hdt h2 hsq
          linarith)) hfl (by rw [hC]; linarith) hb10 j
      refine le_trans (hr2.trans ?_) key
      have e : rk4StepError slow fast (s.alphaY i) (s.betaY i) s.executionTime s.dt (s.goalY i) (P * Real.exp (-(rate * s.dt * j))) =
          rk4StepError slow fast (s.alphaY i) (s.betaY i) s.executionTime s.dt (s.goalY i) 0 + b1 * Real.exp (-(rate * s.dt * j)) := by
        rw [hb1]
        unfold rk4StepError
        generalize (2 : ℝ) ^ (-1074 : ℤ) = w
        generalize (2 : ℝ) ^ (-53 : ℤ) = u
        field_simp
        ring
      rw [← e]
      exact add_le_add (mul_le_mul_of_nonneg_left hx (Real.exp_pos _).le) le_rfl)
    (by
      have := rkNorm_le_deviation hs hf (s.startY i - s.goalY i) 0
      have e : Real.exp (-(rate * s.dt * (0 : ℕ))) = 1 := by simp
      rw [e, one_mul, hC]
      rw [abs_zero, mul_zero, add_zero] at this
      have : 0 ≤ Real.exp (2 * (rate * s.dt)) / (rate * s.dt) * b1 := by positivity
      simp only [Pi.zero_apply]
      linarith)
  refine ⟨Y, he, hl, by rw [hl]; exact hcount, fun j hj => ?_⟩
  obtain ⟨x, hx, hxe⟩ := hY j hj
  rw [hxe]
  exact (bounds_of_rkNorm hs hf hx).1

/-- C106: the same with one of the Euler step functions. -/
theorem C106_dmp_open_loop {o : FloatOps d} (h : IsRounding o.rnd) {name : String} {sf : StepFunction}
    (hname : StepFunction.lookup name = .ok sf) (hsf : sf = .euler ∨ sf = .eulerCython) (s : DMP d m) (runT : Option ℝ) (i : Fin d)
    {k c P rate : ℝ} (hd : IsDouble s.dt) (hi : IsDouble s.intDt) (hτe : IsDouble s.executionTime) (hdt : 0 < s.dt)
    (hi0 : 0 < s.intDt) (hτ : 0 < s.executionTime)
    (hsq : |o.sq s.executionTime - s.executionTime ^ 2| ≤ (2 : ℝ) ^ (-52 : ℤ) * s.executionTime ^ 2)
    (hα : 0 < s.alphaY i) (hβ : 0 < s.betaY i) (hk : k = s.alphaY i * s.betaY i / s.executionTime ^ 2)
    (hc : c = s.alphaY i / s.executionTime) (hstab : 2 * s.intDt * (2 * k + c ^ 2) * (k + c ^ 2) ≤ k * c)
    (h1 : (2 : ℝ) ^ (-36 : ℤ) ≤ decayRate k c * s.intDt) (h2 : (2 : ℝ) ^ (-36 : ℤ) ≤ decayRate k c * s.dt)
    (h3 : s.dt ≤ (2 : ℝ) ^ 40 * s.intDt)
    (hr : IsDouble (runT.getD s.executionTime)) (hr0 : 0 ≤ runT.getD s.executionTime)
    (hn : runT.getD s.executionTime + s.dt ≤ (2 : ℝ) ^ 42 * s.dt)
    (hn' : runT.getD s.executionTime + 2 * s.dt ≤ (2 : ℝ) ^ 42 * s.intDt)
    (hrate0 : 0 < rate) (hrate : 4 * rate ≤ decayRate k c)
    (hforce : ∀ t, 0 < t → |o.force t i| + s.alphaY i * |o.smoothing (s.openLoopArgs none) t i| ≤ P * Real.exp (-(2 * rate * t))) :
    ∃ Y, (DMP.openLoopFl o runT none name).exec s = (.ok (arangeTimesFl o.rnd s.dt (runT.getD s.executionTime), Y), s) ∧
      Y.length = (arangeTimesFl o.rnd s.dt (runT.getD s.executionTime)).length ∧ runT.getD s.executionTime / s.dt ≤ Y.length ∧
      ∀ j (hj : j < Y.length), |Y[j] i - s.goalY i| ≤ 3 / 2 * (Real.exp (-(rate * s.dt * j)) *
          (stateDeviation k c (s.startY i - s.goalY i) 0 +
            Real.exp (2 * (rate * s.dt)) / (rate * s.dt) * (8 * (s.dt + s.intDt) * P / s.executionTime ^ 2)) +
          dmpFloor (s.alphaY i) (s.betaY i) s.executionTime s.dt s.intDt (s.goalY i) 0) / frequency k c := by
  have hk0 : 0 < k := by rw [hk]; positivity
  have hc0 : 0 < c := by rw [hc]; positivity
  have hη : 0 < decayRate k c := sdRate_pos hk0 hc0
  have hf0 : 0 ≤ frequency (s.alphaY i * s.betaY i / s.executionTime ^ 2) (s.alphaY i / s.executionTime) := Real.sqrt_nonneg _
  have hP0 : 0 ≤ P := by
    have := le_trans (by positivity) (hforce 1 (by norm_num))
    exact nonneg_of_mul_nonneg_left this (Real.exp_pos _)
  have hB : 0 ≤ dmpFloor (s.alphaY i) (s.betaY i) s.executionTime s.dt s.intDt (s.goalY i) 0 := by
    unfold dmpFloor
    rw [← hk, ← hc] at *
    positivity
  set N0 := stateDeviation k c (s.startY i - s.goalY i) 0 with hN0
  have hN00 : 0 ≤ N0 := by
    have : 0 ≤ frequency k c := Real.sqrt_nonneg _
    rw [hN0]; unfold stateDeviation; positivity
  set b1 := 8 * (s.dt + s.intDt) * P / s.executionTime ^ 2 with hb1
  have hb10 : 0 ≤ b1 := by positivity
  set C := N0 + Real.exp (2 * (rate * s.dt)) / (rate * s.dt) * b1 with hC
  set B := dmpFloor (s.alphaY i) (s.betaY i) s.executionTime s.dt s.intDt (s.goalY i) 0 with hBdef
  have hfl := floor_recursion (s := s) (i := i) hdt hi0 hτ hα hβ hk hc (force := 0) le_rfl
  obtain ⟨hlen, hcount, hgrid⟩ := arange_grid h hd hdt hr hr0 hn
  obtain ⟨Y, he, hl, hY⟩ := s.openLoopFl_inv (o := o) (coupling := none) hname hdt.ne' hlen
    (P := fun j x => sdNorm k c (x.1 i - s.goalY i, x.2 i) ≤ Real.exp (-(rate * s.dt * j)) * C + B)
    (fun j x hj hx => by
      obtain ⟨g1, g2, g3, g4, g5, g6⟩ := hgrid j hj
      obtain ⟨r, hr1, hr2⟩ := eulerFl_decay h hsf (s.openLoopArgs none) rfl rfl rfl rfl hτ hτe hsq hα hβ hk hc hstab hi hi0 hdt h1 h2 h3
        g1 g2 g3 g4
        (by
          have a2 : (arangeTimesFl o.rnd s.dt (runT.getD s.executionTime)).getD (j + 1) 0 ≤ 2 ^ 44 * s.intDt := by linarith
          have := mul_le_mul_of_nonneg_left a2 (show (0 : ℝ) ≤ (2 : ℝ) ^ (-44 : ℤ) by positivity)
          have e44 : (2 : ℝ) ^ (-44 : ℤ) * (2 : ℝ) ^ 44 = 1 := by norm_num
          rw [← mul_assoc, e44, one_mul] at this
          exact this)
        (Φ := P * Real.exp (-(rate * s.dt * j))) (fun t ht => by
          refine (hforce t (lt_of_le_of_lt g3 ht)).trans (mul_le_mul_of_nonneg_left ?_ hP0)
          apply Real.exp_le_exp.2
          have : rate * (j * s.dt) ≤ rate * (2 * t) := mul_le_mul_of_nonneg_left (by linarith) hrate0.le
          linarith) x
      refine ⟨r, hr1, ?_⟩
      have key := decaying_force (a := rate * s.dt) (ρ := Real.exp (-(decayRate k c * s.dt / 2))) (C := C) (B := B)
        (b0 := 4 * (s.dt / s.intDt + 1) * dmpStepError (s.alphaY i) (s.betaY i) s.executionTime s.intDt (s.goalY i) 0) (b1 := b1)
        (by positivity) (Real.exp_le_exp.2 (by
          have := mul_le_mul_of_nonneg_right hrate hdt.le
          linarith)) hfl (by rw [hC]; linarith) hb10 j
      refine le_trans (hr2.trans ?_) key
      have e : 4 * (s.dt / s.intDt + 1) * dmpStepError (s.alphaY i) (s.betaY i) s.executionTime s.intDt (s.goalY i)
          (P * Real.exp (-(rate * s.dt * j))) =
          4 * (s.dt / s.intDt + 1) * dmpStepError (s.alphaY i) (s.betaY i) s.executionTime s.intDt (s.goalY i) 0 +
            b1 * Real.exp (-(rate * s.dt * j)) := by
        rw [hb1, dmpStepError_force _ _ _ _ _ (P * _)]
        generalize dmpStepError (s.alphaY i) (s.betaY i) s.executionTime s.intDt (s.goalY i) 0 = e0
        field_simp
        ring
      rw [← e]
      exact add_le_add (mul_le_mul_of_nonneg_left hx (Real.exp_pos _).le) le_rfl)
    (by
      have := sdNorm_le_stateDeviation hk0 hc0 (s.startY i - s.goalY i) 0
      have e : Real.exp (-(rate * s.dt * (0 : ℕ))) = 1 := by simp
      rw [e, one_mul, hC]
      have : 0 ≤ Real.exp (2 * (rate * s.dt)) / (rate * s.dt) * b1 := by positivity
      simp only [Pi.zero_apply]
      linarith)
  refine ⟨Y, he, hl, by rw [hl]; exact hcount, fun j hj => ?_⟩
  obtain ⟨x, hx, hxe⟩ := hY j hj
  rw [hxe]
  exact (bounds_of_sdNorm hk0 hc0 hx).1

/-- C106: the trajectory that `open_loop` of a `DMP(n_dims)` with the default arguments except for its weights, with any start and goal,
returns for any `run_t` up to a million: if the forces of its forcing term, as computed, are at most `P * exp(-5 * t / 2)` at time `t`,
then row `j` deviates from the goal by at most `exp(-j / 81)` times the initial distance and the forces, and `1e-10` of the size of the
goal. -/
theorem C106_open_loop_default {o : FloatOps d} (h : IsRounding o.rnd) {name : String} (hname : name = "rk4" ∨ name = "rk4-cython")
    (s : DMP d m) {runT : ℝ} (i : Fin d) {P : ℝ} (hdt : s.dt = o.rnd (1 / 100)) (hτ : s.executionTime = 1) (hsq : o.sq 1 = 1)
    (hα : s.alphaY = fun _ => 25) (hβ : s.betaY = fun _ => 25 / 4) (hr : IsDouble runT) (hr0 : 0 ≤ runT) (hr1 : runT ≤ 10 ^ 6)
    (hforce : ∀ t, 0 < t → |o.force t i| + 25 * |o.smoothing (s.openLoopArgs none) t i| ≤ P * Real.exp (-(5 * t / 2))) :
    ∃ Y, (DMP.openLoopFl o (some runT) none name).exec s = (.ok (arangeTimesFl o.rnd s.dt runT, Y), s) ∧
      Y.length = (arangeTimesFl o.rnd s.dt runT).length ∧ 99 * runT ≤ Y.length ∧
      ∀ j (hj : j < Y.length), |Y[j] i - s.goalY i| ≤ Real.exp (-(j / 81)) * (2 * |s.startY i - s.goalY i| + P) +
          1 / 10 ^ 10 * |s.goalY i| + (2 : ℝ) ^ (-1054 : ℤ) := by
  obtain ⟨hd1, -⟩ := default_steps h
  have hd' := abs_le.1 hd1
  have h36 : (2 : ℝ) ^ (-36 : ℤ) ≤ 1 / 10 ^ 10 := by norm_num
  have hP0 : 0 ≤ P := by
    have := le_trans (by positivity) (hforce 1 (by norm_num))
    exact nonneg_of_mul_nonneg_left this (Real.exp_pos _)
  obtain ⟨sf, hl, hsf⟩ : ∃ sf, StepFunction.lookup name = .ok sf ∧ (sf = .rk4 ∨ sf = .rk4Cython) := by
    rcases hname with rfl | rfl
    · exact ⟨.rk4, rfl, .inl rfl⟩
    · exact ⟨.rk4Cython, rfl, .inr rfl⟩
  obtain ⟨Y, he, hYl, hcount, hY⟩ := C106_rk4_open_loop h hl hsf s (some runT) i (slow := 25 / 2) (fast := 25 / 2) (P := P)
    (rate := 5 / 4) (by rw [hdt]; exact h.isDouble _) (by rw [hτ]; exact isDouble_one)
    (by
      rw [hdt]
      have : (2 : ℝ) ^ (-1000 : ℤ) ≤ (2 : ℝ) ^ (-10 : ℤ) := zpow_le_zpow_right₀ (by norm_num) (by norm_num)
      refine this.trans ?_
      norm_num
      linarith) (by rw [hτ]; norm_num) (by rw [hτ, hsq]; norm_num)
    (by rw [hα]; norm_num) (by rw [hβ]; norm_num) (by rw [hα, hβ, hτ]; unfold IsDecayRates; norm_num)
    (by rw [hdt]; linarith) (by rw [hdt]; linarith) hr hr0 (by rw [hdt, Option.getD_some]; linarith) (by norm_num) (by norm_num)
    (fun t h0 => by
      refine le_trans (le_of_eq ?_) ((hforce t h0).trans (le_of_eq ?_))
      · rw [hα]
      · congr 2; ring)
  rw [Option.getD_some] at he hYl hcount
  refine ⟨Y, he, hYl, le_trans ?_ hcount, fun j hj => ?_⟩
  · rw [le_div_iff₀ (by rw [hdt]; linarith), hdt]
    have : runT * (99 * o.rnd (1 / 100)) ≤ runT * 1 := mul_le_mul_of_nonneg_left (by linarith) hr0
    linarith
  · refine (hY j hj).trans ?_
    rw [hα, hβ, hτ, hdt]
    have := default_rk4_numbers hd1 hP0 j (s.startY i - s.goalY i) 0 (s.goalY i)
    rw [abs_zero, mul_zero, mul_zero, add_zero] at this
    exact this

/-- The hypotheses of `C106_open_loop_default` (and with them those of `C106_rk4_open_loop`) are met by DMPs with a forcing term that is
not zero: the trajectory for `run_t = 20` ends at the goal up to `1e-9`. -/
example (s : DMP 1 m) (rnd : ℝ → ℝ) (h : IsRounding rnd) :
    ∃ T Y, (DMP.openLoopFl (⟨rnd, fun x => x ^ 2, fun t => Real.exp (-(5 * t)), fun t _ => rnd (7 * Real.exp (-(5 * t)))⟩ : FloatOps 1)
        (some 20) none "rk4").exec
        { s with dt := rnd (1 / 100), executionTime := 1, alphaY := fun _ => 25, betaY := fun _ => 25 / 4, smooth := false
                 startY := 0, goalY := fun _ => 1 } = (.ok (T, Y),
        { s with dt := rnd (1 / 100), executionTime := 1, alphaY := fun _ => 25, betaY := fun _ => 25 / 4, smooth := false
                 startY := 0, goalY := fun _ => 1 }) ∧
      1980 ≤ Y.length ∧ ∀ j (hj : j < Y.length), |Y[j] 0 - 1| ≤ Real.exp (-(j / 81)) * 16 + 2 / 10 ^ 10 := by
  obtain ⟨Y, he, -, hl, hY⟩ := C106_open_loop_default
    (o := ⟨rnd, fun x => x ^ 2, fun t => Real.exp (-(5 * t)), fun t _ => rnd (7 * Real.exp (-(5 * t)))⟩) h (.inl rfl)
    { s with dt := rnd (1 / 100), executionTime := 1, alphaY := fun _ => 25, betaY := fun _ => 25 / 4, smooth := false
             startY := 0, goalY := fun _ => 1 } (runT := 20) 0 (P := 14) rfl rfl (by norm_num) rfl rfl
    ⟨20, 0, by norm_num, by norm_num, by norm_num⟩ (by norm_num) (by norm_num)
    (fun t ht => by
      have h1 : |rnd (7 * Real.exp (-(5 * t)))| ≤ 14 * Real.exp (-(5 * t)) := by
        have h2 := h.nearest (7 * Real.exp (-(5 * t))) 0 isDouble_zero
        rw [zero_sub, abs_neg, abs_of_pos (show 0 < 7 * Real.exp (-(5 * t)) by positivity)] at h2
        have h3 := abs_le.1 h2
        rw [abs_le]
        constructor <;> linarith [Real.exp_pos (-(5 * t))]
      have h4 : Real.exp (-(5 * t)) ≤ Real.exp (-(5 * t / 2)) := Real.exp_le_exp.2 (by linarith)
      show |rnd (7 * Real.exp (-(5 * t)))| + 25 * |(0 : ℝ)| ≤ _
      rw [abs_zero]
      linarith)
  have hl' : ((1980 : ℕ) : ℝ) ≤ Y.length := by
    push_cast
    linarith
  refine ⟨_, Y, he, by exact_mod_cast hl', fun j hj => (hY j hj).trans ?_⟩
  show Real.exp (-(j / 81)) * (2 * |(0 : ℝ) - 1| + 14) + 1 / 10 ^ 10 * |(1 : ℝ)| + (2 : ℝ) ^ (-1054 : ℤ) ≤ _
  have hw : (2 : ℝ) ^ (-1054 : ℤ) ≤ 1 / 10 ^ 10 := by
    have : (2 : ℝ) ^ (-1054 : ℤ) ≤ (2 : ℝ) ^ (-53 : ℤ) := zpow_le_zpow_right₀ (by norm_num) (by norm_num)
    refine this.trans ?_
    norm_num
  rw [show |(0 : ℝ) - 1| = 1 by norm_num, abs_one]
  have := Real.exp_pos (-((j : ℝ) / 81))
  linarith

/-- The hypotheses of `C106_dmp_open_loop` are met by DMPs with a forcing term that is not zero. -/
example (s : DMP 1 m) (rnd : ℝ → ℝ) (h : IsRounding rnd) :
    ∃ T Y, (DMP.openLoopFl (⟨rnd, fun x => x ^ 2, fun t => Real.exp (-t), fun t _ => rnd (7 * Real.exp (-t))⟩ : FloatOps 1)
        none none "euler").exec
        { s with dt := rnd (1 / 100), intDt := rnd (1 / 1000), executionTime := 1, alphaY := fun _ => 25, betaY := fun _ => 25 / 4
                 smooth := false, startY := 0, goalY := fun _ => 1 } = (.ok (T, Y),
        { s with dt := rnd (1 / 100), intDt := rnd (1 / 1000), executionTime := 1, alphaY := fun _ => 25, betaY := fun _ => 25 / 4
                 smooth := false, startY := 0, goalY := fun _ => 1 }) := by
  obtain ⟨hd1, hi1⟩ := default_steps h
  have hd' := abs_le.1 hd1
  have hi' := abs_le.1 hi1
  have h36 : (2 : ℝ) ^ (-36 : ℤ) ≤ 1 / 10 ^ 10 := by norm_num
  have hr : decayRate (625 / 4) 25 = 5 / 8 := by unfold decayRate; norm_num
  obtain ⟨Y, he, -⟩ := C106_dmp_open_loop
    (o := ⟨rnd, fun x => x ^ 2, fun t => Real.exp (-t), fun t _ => rnd (7 * Real.exp (-t))⟩) h (name := "euler") rfl (.inl rfl)
    { s with dt := rnd (1 / 100), intDt := rnd (1 / 1000), executionTime := 1, alphaY := fun _ => 25, betaY := fun _ => 25 / 4
             smooth := false, startY := 0, goalY := fun _ => 1 } none 0 (k := 625 / 4) (c := 25) (P := 14) (rate := 1 / 8)
    (h.isDouble _) (h.isDouble _) isDouble_one (by linarith) (by linarith) (by norm_num) (by norm_num) (by norm_num) (by norm_num)
    (by norm_num) (by norm_num) (by linarith) (by rw [hr]; linarith) (by rw [hr]; linarith) (by linarith) isDouble_one (by norm_num)
    (by simp only [Option.getD_none]; linarith) (by simp only [Option.getD_none]; linarith) (by norm_num) (by rw [hr]; norm_num)
    (fun t ht => by
      have h1 : |rnd (7 * Real.exp (-t))| ≤ 14 * Real.exp (-t) := by
        have h2 := h.nearest (7 * Real.exp (-t)) 0 isDouble_zero
        rw [zero_sub, abs_neg, abs_of_pos (show 0 < 7 * Real.exp (-t) by positivity)] at h2
        have h3 := abs_le.1 h2
        rw [abs_le]
        constructor <;> linarith [Real.exp_pos (-t)]
      have h4 : Real.exp (-t) ≤ Real.exp (-(2 * (1 / 8) * t)) := Real.exp_le_exp.2 (by linarith)
      show |rnd (7 * Real.exp (-t))| + 25 * |(0 : ℝ)| ≤ _
      rw [abs_zero]
      linarith)
  exact ⟨_, Y, he⟩

end Verif
