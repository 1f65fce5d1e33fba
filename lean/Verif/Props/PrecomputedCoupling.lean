import Verif.Props.SpringDamper
import Verif.Props.StateFollowing
import Mathlib.Data.Fin.VecNotation

/-! # Precomputed couplings of spring-damper systems and state-following DMPs, and the times of the via points (C56, C57)
-/

namespace Verif
open Spec
open scoped BigOperators

/-! ## Precomputed couplings -/

/-- **C56.** A precomputed coupling is added to that of the coupling term: `spring_damper_step` with coupling term `c` and
precomputed coupling `q` does the same as with a coupling term that returns the sum. -/
theorem C56_precomputed {d : ℕ} (goalY : Vec d) (k : ℝ) (c : Option ℝ) (coupling : Coupling d) (q : Vec d × Vec d)
    (intDt lastT t : ℝ) (s : Vec d × Vec d) :
    springDamperStep goalY k c (some coupling) (some q) intDt lastT t s =
      springDamperStep goalY k c (some fun y yd => ((coupling y yd).1 + q.1, (coupling y yd).2 + q.2)) none
        intDt lastT t s := rfl

/-- **C56.** Without coupling term, a precomputed coupling acts like a constant coupling term. -/
theorem C56_precomputed_only {d : ℕ} (goalY : Vec d) (k : ℝ) (c : Option ℝ) (q : Vec d × Vec d)
    (intDt lastT t : ℝ) (s : Vec d × Vec d) :
    springDamperStep goalY k c none (some q) intDt lastT t s =
      springDamperStep goalY k c (some fun _ _ => q) none intDt lastT t s := by
  unfold springDamperStep
  congr 1
  funext dt t s
  simp [springDamperBody, sdCoupling]

/-- **C56.** The same for orientations. -/
theorem C56_quaternion_precomputed (ops : QuatOps) (goalY : Vec 4) (k : ℝ) (c : Option ℝ) (coupling : RotCoupling)
    (q : Vec 3 × Vec 3) (intDt lastT t : ℝ) (s : Vec 4 × Vec 3) :
    springDamperQuatStep ops goalY k c (some coupling) (some q) intDt lastT t s =
      springDamperQuatStep ops goalY k c (some fun y yd => ((coupling y yd).1 + q.1, (coupling y yd).2 + q.2)) none
        intDt lastT t s ∧
    springDamperQuatStep ops goalY k c none (some q) intDt lastT t s =
      springDamperQuatStep ops goalY k c (some fun _ _ => q) none intDt lastT t s := by
  refine ⟨rfl, ?_⟩
  unfold springDamperQuatStep
  congr 1
  funext dt t s
  simp [springDamperQuatBody, sdCoupling]

/-- One substep of a one-dimensional system at rest at its goal, with both couplings: the velocity changes by the sum of the
velocity couplings and by the sum of the acceleration couplings times the time step. -/
example (a b u v : ℝ) :
    springDamperStep (d := 1) 0 1 (some 1) (some fun _ _ => (![a], ![b])) (some (![u], ![v])) 1 0 1 (0, 0) =
      .ok (![b + v + (a + u)], ![b + v + (a + u)]) := by
  rw [C56_precomputed]
  unfold springDamperStep
  rw [intLoop_single _ (by norm_num) (by norm_num)]
  simp only [springDamperBody, sdCoupling, defaultDamping, Except.ok.injEq, Prod.mk.injEq]
  constructor <;> funext i <;> fin_cases i <;> simp

/-- **C57.** A precomputed coupling is added to that of the coupling term: `state_following_dmp_step` with coupling term `c`
and precomputed coupling `q` does the same as with a coupling term that returns the sum, and without coupling term a
precomputed coupling acts like a constant coupling term. -/
theorem C57_precomputed {d n : ℕ} (a : StateFollowingArgs d n) (coupling : Coupling d) (q : Vec d × Vec d)
    (lastT t : ℝ) (s : Vec d × Vec d) :
    { a with coupling := some coupling, precomputed := some q }.step lastT t s =
      { a with coupling := some fun y yd => ((coupling y yd).1 + q.1, (coupling y yd).2 + q.2),
               precomputed := none }.step lastT t s ∧
    { a with coupling := none, precomputed := some q }.step lastT t s =
      { a with coupling := some fun _ _ => q, precomputed := none }.step lastT t s := by
  refine ⟨rfl, ?_⟩
  unfold StateFollowingArgs.step
  congr 2
  simp only
  congr 1
  funext dt t s
  simp [StateFollowingArgs.body, StateFollowingArgs.couplings]

/-! ## The times of the via points -/

namespace StateFollowingForcing

theorem initCenter_eq {n : ℕ} {τ : ℝ} (α : ℝ) (i : ℕ) : initCenter n τ 0 α i = phase (i * (τ / n)) α τ 0 := by
  unfold initCenter
  split_ifs with h
  · simp [h]
  · simp

end StateFollowingForcing

/-- **C57.** Via point `i` of `n` belongs to the time `i * execution_time / n`: at this time its weight is larger than the
weight of every other via point. -/
theorem C57_via_point_times {d n : ℕ} {τ dt intDt : ℝ} {α β : ArrayLike} {g : ℕ → ℝ} {s : StateFollowingDMP d n}
    (h : StateFollowingDMP.create d n τ dt intDt α β g = .ok s) (i j : Fin n) (hij : j ≠ i) :
    s.ft.call (i * τ / n) j < s.ft.call (i * τ / n) i := by
  obtain ⟨hn, hτ, α', β', -, -, rfl⟩ := StateFollowingDMP.create_eq h
  have hn' : (0 : ℝ) < n := by exact_mod_cast hn
  have hanti : StrictAnti fun t => phase t (-Real.log (1 / 100)) τ 0 :=
    (C01_phase (goalZ := 1 / 100) (goalT := τ) (startT := 0) (alpha := -Real.log (1 / 100))
      (by unfold canonicalSystemAlpha; rw [if_neg (by norm_num), if_neg (not_le.2 hτ)]) (by norm_num)).2.2.1
  have hne : ∀ a b : ℕ, a ≠ b → phase (a * (τ / n)) (-Real.log (1 / 100)) τ 0 ≠
      phase (b * (τ / n)) (-Real.log (1 / 100)) τ 0 := by
    intro a b hab he
    have := hanti.injective he
    have h2 : (a : ℝ) = b := mul_right_cancel₀ (div_pos hτ hn').ne' this
    exact hab (by exact_mod_cast h2)
  have hn1 : n ≠ 1 := by
    rintro rfl
    exact hij (Subsingleton.elim _ _)
  have hlog : 0 < -Real.log (1 / 10) := by
    rw [Left.neg_pos_iff]; exact Real.log_neg (by norm_num) (by norm_num)
  have hz : phase (i * τ / n) (-Real.log (1 / 100)) τ 0 =
      StateFollowingForcing.initCenter n τ 0 (-Real.log (1 / 100)) i := by
    rw [StateFollowingForcing.initCenter_eq, mul_div_assoc]
  unfold StateFollowingForcing.call
  refine div_lt_div_of_pos_right ?_ (Finset.sum_pos (fun k _ => Real.exp_pos _) ⟨i, Finset.mem_univ _⟩)
  unfold StateFollowingForcing.rbf
  refine Real.exp_lt_exp.2 ?_
  simp only
  rw [hz, sub_self]
  have hw : 0 < StateFollowingForcing.initWidth n τ 0 (-Real.log (1 / 100)) (-Real.log (1 / 10)) g j := by
    unfold StateFollowingForcing.initWidth
    rw [if_neg hn1]
    refine div_pos hlog (by
      have := hne ((if (j : ℕ) + 1 < n then (j : ℕ) else n - 2) + 1) (if (j : ℕ) + 1 < n then (j : ℕ) else n - 2) (by simp)
      rw [StateFollowingForcing.initCenter_eq, StateFollowingForcing.initCenter_eq]
      exact pow_pos (abs_pos.2 (sub_ne_zero.2 this)) 2 |>.trans_eq (sq_abs _))
  have hd : 0 < (StateFollowingForcing.initCenter n τ 0 (-Real.log (1 / 100)) i -
      StateFollowingForcing.initCenter n τ 0 (-Real.log (1 / 100)) j) ^ 2 := by
    rw [StateFollowingForcing.initCenter_eq, StateFollowingForcing.initCenter_eq]
    have := hne i j (fun e => hij (Fin.ext e.symm))
    positivity
  nlinarith [mul_pos hw hd]

/-- The hypotheses are met for every number of via points and every positive execution time. -/
example {n : ℕ} (hn : 0 < n) {τ : ℝ} (hτ : 0 < τ) : ∃ s : StateFollowingDMP 2 n,
    StateFollowingDMP.create 2 n τ (1 / 100) (1 / 1000) (.scalar 25) (.scalar (25 / 4)) (fun _ => 7) = .ok s :=
  let ⟨s, h, _⟩ := StateFollowingDMP.create_ok 2 hn hτ (1 / 100) (1 / 1000) 25 (25 / 4) (fun _ => 7)
  ⟨s, h⟩

end Verif
