import Verif.Lemmas.Py
import Verif.Spec.PotentialFieldPlot
import Verif.Props.PotentialField

/-! # C113: arrows of the plot of a potential field -/

namespace Verif
open Spec
variable {m n : ℕ}

theorem absMax_eq (hn : 0 < n) (acc : Fin n → Fin n → Vec 2) :
    ∃ M, absMax acc = .ok M ∧ 0 ≤ M ∧ (∀ i j k, |acc i j k| ≤ M) ∧ ∃ i j k, |acc i j k| = M := by
  unfold absMax
  rw [dif_pos hn]
  have hne : (Finset.univ : Finset (Fin n × Fin n × Fin 2)).Nonempty := ⟨(⟨0, hn⟩, ⟨0, hn⟩, 0), Finset.mem_univ _⟩
  have hle : ∀ i j k, |acc i j k| ≤ (Finset.univ : Finset (Fin n × Fin n × Fin 2)).sup' hne fun p => |acc p.1 p.2.1 p.2.2| :=
    fun i j k => Finset.le_sup' (fun p : Fin n × Fin n × Fin 2 => |acc p.1 p.2.1 p.2.2|) (Finset.mem_univ (i, j, k))
  obtain ⟨p, -, hp⟩ := Finset.exists_mem_eq_sup' hne fun p : Fin n × Fin n × Fin 2 => |acc p.1 p.2.1 p.2.2|
  exact ⟨_, rfl, (abs_nonneg _).trans (hle ⟨0, hn⟩ ⟨0, hn⟩ 0), hle, p.1, p.2.1, p.2.2, hp.symm⟩

theorem absMax_mul (hn : 0 < n) (acc : Fin n → Fin n → Vec 2) (c : ℝ) {M M' : ℝ} (h : absMax acc = .ok M)
    (h' : absMax (fun i j k => acc i j k * c) = .ok M') : M' = M * |c| := by
  obtain ⟨N, e, -, hle, i, j, k, hat⟩ := absMax_eq hn acc
  obtain ⟨N', e', -, hle', i', j', k', hat'⟩ := absMax_eq hn fun i j k => acc i j k * c
  rw [h] at e; rw [h'] at e'
  obtain rfl := Except.ok.inj e
  obtain rfl := Except.ok.inj e'
  apply le_antisymm
  · rw [← hat', abs_mul]
    exact mul_le_mul_of_nonneg_right (hle _ _ _) (abs_nonneg _)
  · rw [← hat, ← abs_mul]
    exact hle' _ _ _

/-- The four calls. -/
theorem plot_eq (s : DMP 2 m) (xr yr : ℝ × ℝ) (hn : 0 < n) (obstacle : Option (Vec 2))
    (hsq : n = 1 → obstacle = none) (c : ℝ) (Q : List (Quiver n)) :
    ∃ M, absMax (potentialField2d s xr yr n obstacle).acc = .ok M ∧
      (plotPotentialField2d s xr yr n obstacle c).exec Q =
        let F := potentialField2d s xr yr n obstacle
        let layer := fun (a : Fin n → Fin n → Vec 2) (color : String) => ({
          xx := F.xx
          yy := F.yy
          u := fun i j => a i j 0 * c
          v := fun i j => a i j 1 * c
          scale := M * |c| * n
          color := color } : Quiver n)
        (.ok (), Q ++ [layer F.ts "g"] ++ [layer F.ft "r"] ++ [layer F.ct "y"] ++ [layer F.acc "k"]) := by
  obtain ⟨M, hM, -⟩ := absMax_eq hn (potentialField2d s xr yr n obstacle).acc
  obtain ⟨M', hM', -⟩ := absMax_eq hn fun i j k => (potentialField2d s xr yr n obstacle).acc i j k * c
  refine ⟨M, hM, ?_⟩
  have e := absMax_mul hn _ c hM hM'
  have hno : ¬(n = 1 ∧ obstacle.isSome = true) := by
    rintro ⟨h1, h2⟩
    rw [hsq h1] at h2
    exact absurd h2 (by simp)
  unfold plotPotentialField2d quiver
  simp only [Py.exec_bind, Py.exec_lift, Py.exec_modify, hM', e, if_neg hno]

/-- **C113 (arrows).** For at least one tick (at least two with an obstacle) and every factor other than 0: at each grid point there are a green, a red, a yellow and
a black arrow. The arrows that are shown are the accelerations of the transformation system, forcing term, obstacle avoidance and
their sum, all divided by the same number: `n_ticks` times the largest component of the total accelerations (with the sign of the
factor). The black arrow is the sum of the other ones. -/
theorem C113_arrows (s : DMP 2 m) (xr yr : ℝ × ℝ) (hn : 0 < n) (obstacle : Option (Vec 2))
    (hsq : n = 1 → obstacle = none) {c : ℝ} (hc : c ≠ 0) :
    ∃ g r y k largest, (plotPotentialField2d s xr yr n obstacle c).exec [] = (.ok (), [g, r, y, k]) ∧
      (g.color = "g" ∧ r.color = "r" ∧ y.color = "y" ∧ k.color = "k") ∧
      ((∀ i j l, |(potentialField2d s xr yr n obstacle).acc i j l| ≤ largest) ∧
        ∃ i j l, |(potentialField2d s xr yr n obstacle).acc i j l| = largest) ∧
      (∀ q ∈ [g, r, y, k], q.xx = (potentialField2d s xr yr n obstacle).xx ∧ q.yy = (potentialField2d s xr yr n obstacle).yy) ∧
      ∀ i j, let unit := SignType.sign c / (largest * n)
        shownArrow g i j = unit • (potentialField2d s xr yr n obstacle).ts i j ∧
        shownArrow r i j = unit • (potentialField2d s xr yr n obstacle).ft i j ∧
        shownArrow y i j = unit • (potentialField2d s xr yr n obstacle).ct i j ∧
        shownArrow k i j = unit • (potentialField2d s xr yr n obstacle).acc i j ∧
        shownArrow k i j = shownArrow r i j + shownArrow g i j + shownArrow y i j := by
  obtain ⟨M, hM, h⟩ := plot_eq s xr yr hn obstacle hsq c []
  obtain ⟨M', hM', -, hle, hat⟩ := absMax_eq hn (potentialField2d s xr yr n obstacle).acc
  rw [hM] at hM'
  obtain rfl := Except.ok.inj hM'
  have hs : ∀ x : ℝ, x * c / (M * |c| * n) = SignType.sign c / (M * n) * x := by
    intro x
    have hc' : |c| ≠ 0 := abs_ne_zero.2 hc
    have e : c = SignType.sign c * |c| := (sign_mul_abs c).symm
    calc x * c / (M * |c| * n) = x * (SignType.sign c * |c|) / (M * n * |c|) := by rw [← e]; ring_nf
      _ = _ := by
        rw [← mul_assoc, mul_div_mul_right _ _ hc']; ring
  have hshow : ∀ (a : Fin n → Fin n → Vec 2) i j, (![a i j 0 * c / (M * |c| * n), a i j 1 * c / (M * |c| * n)] : Vec 2) =
      (SignType.sign c / (M * n) : ℝ) • a i j := by
    intro a i j
    rw [hs, hs]
    funext l
    fin_cases l <;> rfl
  refine ⟨_, _, _, _, M, h, ⟨rfl, rfl, rfl, rfl⟩, ⟨hle, hat⟩, ?_, ?_⟩
  · intro q hq
    simp only [List.mem_cons, List.not_mem_nil, or_false] at hq
    rcases hq with rfl | rfl | rfl | rfl <;> exact ⟨rfl, rfl⟩
  · intro i j
    simp only [shownArrow, hshow, true_and]
    rw [← smul_add, ← smul_add]
    rfl

/-- **C113 (size of the arrows).** For factors other than 0 no component of a black arrow is longer than the `n_ticks`-th part of the
width of the plot, and the longest one is exactly that long unless all accelerations are zero. -/
theorem C113_size (s : DMP 2 m) (xr yr : ℝ × ℝ) (hn : 0 < n) (obstacle : Option (Vec 2))
    (hsq : n = 1 → obstacle = none) {c : ℝ} (hc : c ≠ 0) :
    ∃ g r y k, (plotPotentialField2d s xr yr n obstacle c).exec [] = (.ok (), [g, r, y, k]) ∧
      (∀ i j l, |shownArrow k i j l| ≤ 1 / n) ∧
      ((∃ i j l, (potentialField2d s xr yr n obstacle).acc i j l ≠ 0) → ∃ i j l, |shownArrow k i j l| = 1 / n) := by
  obtain ⟨g, r, y, k, M, h, -, ⟨hle, i0, j0, l0, hat⟩, -, harrow⟩ := C113_arrows s xr yr hn obstacle hsq hc
  refine ⟨g, r, y, k, h, ?_, ?_⟩
  · intro i j l
    rw [(harrow i j).2.2.2.1]
    have hM : 0 ≤ M := (abs_nonneg _).trans (hle i j l)
    have hn' : (0 : ℝ) < n := Nat.cast_pos.2 hn
    have hsign : |((SignType.sign c : SignType) : ℝ)| = 1 := by
      rcases lt_or_gt_of_ne hc with h | h
      · rw [sign_neg h]; simp
      · rw [sign_pos h]; simp
    rw [Pi.smul_apply, smul_eq_mul, abs_mul, abs_div, hsign, abs_of_nonneg (mul_nonneg hM hn'.le)]
    rcases hM.eq_or_lt with h0 | h0
    · rw [← h0]; simp
    · rw [one_div, mul_inv, mul_comm M⁻¹, mul_assoc, one_div]
      refine mul_le_of_le_one_right (by positivity) ?_
      rw [inv_mul_le_iff₀ h0, mul_one]
      exact hle i j l
  · rintro ⟨i, j, l, hne⟩
    have hM : 0 < M := (abs_pos.2 hne).trans_le (hle i j l)
    have hn' : (0 : ℝ) < n := Nat.cast_pos.2 hn
    have hsign : |((SignType.sign c : SignType) : ℝ)| = 1 := by
      rcases lt_or_gt_of_ne hc with h | h
      · rw [sign_neg h]; simp
      · rw [sign_pos h]; simp
    refine ⟨i0, j0, l0, ?_⟩
    rw [(harrow i0 j0).2.2.2.1, Pi.smul_apply, smul_eq_mul, abs_mul, abs_div, hsign, abs_of_nonneg (by positivity), hat]
    field_simp

/-- **C113 (finding: `exaggerate_arrows` has no effect).** The documentation of `exaggerate_arrows` is "multiply arrow sizes by this
factor". The arrows that are shown are the same for all positive factors, because the scale of the plot is multiplied by the
same factor. -/
theorem C113_finding_exaggerate_ignored (s : DMP 2 m) (xr yr : ℝ × ℝ) (hn : 0 < n) (obstacle : Option (Vec 2))
    (hsq : n = 1 → obstacle = none) {c c' : ℝ} (hc : 0 < c) (hc' : 0 < c') {P P' : List (Quiver n)}
    (h : (plotPotentialField2d s xr yr n obstacle c).exec [] = (.ok (), P))
    (h' : (plotPotentialField2d s xr yr n obstacle c').exec [] = (.ok (), P')) :
    P.map shownArrow = P'.map shownArrow := by
  obtain ⟨M, hM, e⟩ := plot_eq s xr yr hn obstacle hsq c []
  obtain ⟨M', hM', e'⟩ := plot_eq s xr yr hn obstacle hsq c' []
  rw [hM] at hM'
  obtain rfl := Except.ok.inj hM'
  rw [h] at e; rw [h'] at e'
  obtain rfl := (Prod.mk.inj e).2
  obtain rfl := (Prod.mk.inj e').2
  have key : ∀ x : ℝ, x * c / (M * |c| * n) = x * c' / (M * |c'| * n) := by
    intro x
    rw [abs_of_pos hc, abs_of_pos hc', show M * c * n = M * n * c by ring, show M * c' * n = M * n * c' by ring,
      mul_div_mul_right _ _ hc.ne', mul_div_mul_right _ _ hc'.ne']
  simp only [List.nil_append, List.cons_append, List.map_cons, List.map_nil]
  unfold shownArrow
  simp only [key]

/-- **C113 (finding: one tick and an obstacle).** With one tick and an obstacle the plot raises an IndexError after it has drawn the
green and the red arrow. -/
theorem C113_finding_single_tick (s : DMP 2 m) (xr yr : ℝ × ℝ) (o : Vec 2) (c : ℝ) :
    ∃ g r : Quiver 1, (g.color = "g" ∧ r.color = "r") ∧
      (plotPotentialField2d s xr yr 1 (some o) c).exec [] = (.error .indexError, [g, r]) := by
  obtain ⟨M', hM', -⟩ := absMax_eq one_pos fun i j k => (potentialField2d s xr yr 1 (some o)).acc i j k * c
  unfold plotPotentialField2d quiver
  simp only [Py.exec_bind, Py.exec_lift, Py.exec_modify, hM', Option.isSome_some, and_self, if_true]
  exact ⟨_, _, ⟨rfl, rfl⟩, rfl⟩

/-- **C113 (no ticks).** Without ticks and obstacle the plot raises a ValueError and draws nothing. -/
theorem C113_no_ticks (s : DMP 2 m) (xr yr : ℝ × ℝ) (c : ℝ) (Q : List (Quiver 0)) :
    (plotPotentialField2d s xr yr 0 none c).exec Q = (.error .valueError, Q) := by
  unfold plotPotentialField2d absMax
  simp only [Py.exec_bind, Py.exec_lift, lt_irrefl, dif_neg, not_false_eq_true]

/-- A field on two by two points is not zero everywhere, so that the black arrows of its plot have the size of C113. -/
example : ∃ s : DMP 2 10, s.Reachable ∧ ∃ i j l, (potentialField2d s (0, 1) (0, 1) 2 none).acc i j l ≠ 0 := by
  obtain ⟨s, hs, h1, -, -, -, -, -, -, -, -, -, hα, hβ, -⟩ := DMP.create_ok 2 10 (by norm_num) one_pos (1 / 1000) (1 / 1000) 0
    false 25 (25 / 4)
  refine ⟨s, .create hs, ?_⟩
  by_contra hall
  push Not at hall
  have a := hall 0 0 0
  have b := hall 0 1 0
  simp [potentialField2d, dmpTransformationSystem, gridTick, hα, hβ, h1] at a b
  linarith

end Verif
