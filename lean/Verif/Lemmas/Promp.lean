import Verif.Spec.Promp
import Verif.Lemmas.Py
import Verif.Lemmas.Pinv
import Mathlib.Tactic.FieldSimp
import Mathlib.Tactic.Positivity
import Mathlib.Tactic.Ring
import Mathlib.Algebra.BigOperators.Field

/-! # Helper lemmas about ProMPs -/

namespace Verif
open Matrix

section BlockDiagonal
variable {r c d : ℕ}

theorem block_iff {r k m a : ℕ} (ha : a < r) : (r * m ≤ a + r * k ∧ a + r * k < r * m + r) ↔ k = m := by
  constructor
  · rintro ⟨h1, h2⟩
    rcases lt_trichotomy k m with h | h | h
    · exfalso
      have : r * (k + 1) ≤ r * m := Nat.mul_le_mul_left _ h
      rw [Nat.mul_succ] at this
      omega
    · exact h
    · exfalso
      have : r * (m + 1) ≤ r * k := Nat.mul_le_mul_left _ h
      rw [Nat.mul_succ] at this
      omega
  · rintro rfl
    omega

theorem assignBlock_apply {R C : ℕ} (full : Matrix (Fin R) (Fin C) ℝ) (r0 c0 : ℕ) (block : Matrix (Fin r) (Fin c) ℝ)
    (i : Fin R) (j : Fin C) :
    assignBlock full r0 c0 block i j =
      if h : (r0 ≤ i.val ∧ i.val < r0 + r) ∧ (c0 ≤ j.val ∧ j.val < c0 + c) then
        block ⟨i.val - r0, by omega⟩ ⟨j.val - c0, by omega⟩
      else full i j := rfl

theorem ndBlockDiagonal_foldl (P : Matrix (Fin r) (Fin c) ℝ) (k l : Fin d) (a : Fin r) (b : Fin c) (m : ℕ) :
    ((List.range m).foldl (fun full j => assignBlock full (r * j) (c * j) P)
        (0 : Matrix (Fin (d * r)) (Fin (d * c)) ℝ)) (finProdFinEquiv (k, a)) (finProdFinEquiv (l, b)) =
      if k = l ∧ k.val < m then P a b else 0 := by
  induction m with
  | zero => simp
  | succ m ih =>
    rw [List.range_succ, List.foldl_append, List.foldl_cons, List.foldl_nil]
    rw [assignBlock_apply, ih]
    have hr := block_iff (r := r) (k := k.val) (m := m) a.isLt
    have hc := block_iff (r := c) (k := l.val) (m := m) b.isLt
    have e1 : (finProdFinEquiv (k, a)).val = a.val + r * k.val := rfl
    have e2 : (finProdFinEquiv (l, b)).val = b.val + c * l.val := rfl
    simp only [e1, e2]
    by_cases h : k.val = m ∧ l.val = m
    · rw [dif_pos ⟨hr.2 h.1, hc.2 h.2⟩, if_pos ⟨Fin.ext (h.1.trans h.2.symm), by omega⟩]
      congr 1
      · apply Fin.ext
        simp only [h.1]
        omega
      · apply Fin.ext
        simp only [h.2]
        omega
    · rw [dif_neg (fun hh => h ⟨hr.1 hh.1, hc.1 hh.2⟩)]
      congr 1
      apply propext
      constructor
      · rintro ⟨h1, h2⟩
        exact ⟨h1, by omega⟩
      · rintro ⟨h1, h2⟩
        subst h1
        refine ⟨rfl, ?_⟩
        by_contra h3
        exact h ⟨by omega, by omega⟩

/-- Entries of the block-diagonal matrix. -/
theorem ndBlockDiagonal_apply (P : Matrix (Fin r) (Fin c) ℝ) (k l : Fin d) (a : Fin r) (b : Fin c) :
    ndBlockDiagonal P d (finProdFinEquiv (k, a)) (finProdFinEquiv (l, b)) = if k = l then P a b else 0 := by
  unfold ndBlockDiagonal
  rw [ndBlockDiagonal_foldl]
  simp [k.isLt]

theorem sum_flat {d w : ℕ} (f : Fin (d * w) → ℝ) : ∑ x, f x = ∑ k : Fin d, ∑ a : Fin w, f (finProdFinEquiv (k, a)) := by
  rw [← finProdFinEquiv.sum_comp, Fintype.sum_prod_type]

/-- A row of the block-diagonal matrix times a vector. -/
theorem ndBlockDiagonal_transpose_mulVec (P : Matrix (Fin r) (Fin c) ℝ) (x : Vec (d * r)) (k : Fin d) (b : Fin c) :
    ((ndBlockDiagonal P d)ᵀ *ᵥ x) (finProdFinEquiv (k, b)) = ∑ a, P a b * x (finProdFinEquiv (k, a)) := by
  rw [mulVec, dotProduct, sum_flat, Finset.sum_eq_single k]
  · simp only [transpose_apply, ndBlockDiagonal_apply, if_true]
  · intro l _ hl
    simp only [transpose_apply, ndBlockDiagonal_apply, if_neg hl, zero_mul, Finset.sum_const_zero]
  · simp

end BlockDiagonal

theorem npMax_ok {n : ℕ} {T : Vec n} {m : ℝ} : npMax T = .ok m ↔ Spec.IsLargest T m := by
  unfold npMax
  constructor
  · split
    · rename_i h
      intro hm
      have hm : (Finset.univ.sup' ⟨⟨0, h⟩, Finset.mem_univ _⟩ T) = m := by injection hm
      refine ⟨?_, fun i => hm ▸ Finset.le_sup' T (Finset.mem_univ i)⟩
      obtain ⟨i, _, hi⟩ := Finset.exists_mem_eq_sup' (⟨⟨0, h⟩, Finset.mem_univ _⟩ : (Finset.univ : Finset (Fin n)).Nonempty) T
      exact ⟨i, by rw [← hi, hm]⟩
    · intro h; cases h
  · rintro ⟨⟨i, hi⟩, hm⟩
    rw [dif_pos i.pos]
    congr 1
    apply le_antisymm
    · exact Finset.sup'_le _ _ fun j _ => hm j
    · rw [← hi]; exact Finset.le_sup' T (Finset.mem_univ i)

theorem npMax_empty (T : Vec 0) : npMax T = .error .valueError := rfl

theorem exists_largest {n : ℕ} (hn : 0 < n) (T : Vec n) : ∃ m, Spec.IsLargest T m := by
  refine ⟨Finset.univ.sup' ⟨⟨0, hn⟩, Finset.mem_univ _⟩ T, npMax_ok.1 ?_⟩
  unfold npMax
  rw [dif_pos hn]

theorem rbfH_eq (w : ℕ) (x : ℝ) : -x ^ 2 / (2 * rbfH w (7 / 10)) = -(4 * (w : ℝ) ^ 2 * Real.log (10 / 7)) * x ^ 2 := by
  have hl : Real.log (10 / 7) = -Real.log (7 / 10) := by
    rw [← Real.log_inv]; norm_num
  have hl2 : Real.log (7 / 10) ≠ 0 := by
    apply ne_of_lt
    exact Real.log_neg (by norm_num) (by norm_num)
  unfold rbfH
  by_cases hw : (w : ℝ) = 0
  · simp [hw]
  · rw [hl]
    field_simp
    ring

namespace ProMP
variable {d w n : ℕ}

theorem gauss_eq {p : ProMP d w} (hp : p.centers = linspace01 w) (s : ℝ) (a : Fin w) :
    p.gauss (7 / 10) s a = Spec.rbf w s a := by
  unfold gauss Spec.rbf
  rw [rbfH_eq, hp]
  rfl

theorem rbf_pos (s : ℝ) (a : Fin w) : 0 < Spec.rbf w s a := Real.exp_pos _

theorem rbf_sum_pos (hw : 0 < w) (s : ℝ) : 0 < ∑ a, Spec.rbf w s a :=
  Finset.sum_pos (fun a _ => rbf_pos s a) ⟨⟨0, hw⟩, Finset.mem_univ _⟩

theorem exec_normalizeTimes {T : Vec n} {m : ℝ} (hm : Spec.IsLargest T m) :
    (normalizeTimes (n := n)).exec (.float T) = (.ok fun i => T i / m, .float fun i => T i / m) := by
  unfold normalizeTimes
  rw [Py.exec_bind, Py.exec_get]
  dsimp only
  rw [Py.exec_bind, Py.exec_lift, npMax_ok.2 hm]
  rfl

theorem largest_div {T : Vec n} {m : ℝ} (hm : Spec.IsLargest T m) (h0 : 0 < m) :
    Spec.IsLargest (fun i => T i / m) 1 := by
  obtain ⟨⟨i, hi⟩, h⟩ := hm
  refine ⟨⟨i, ?_⟩, fun j => ?_⟩
  · show T i / m = 1
    rw [hi, div_self h0.ne']
  · exact (div_le_one h0).2 (h j)

theorem exec_rbfs1dSequence {p : ProMP d w} (hp : p.centers = linspace01 w) {T : Vec n} {m : ℝ}
    (hm : Spec.IsLargest T m) :
    (p.rbfs1dSequence true).exec (.float T) =
      (.ok (Matrix.of fun a i => Spec.activation w (T i / m) a), .float fun i => T i / m) := by
  unfold rbfs1dSequence
  rw [Py.exec_bind, exec_normalizeTimes hm]
  simp only [gauss_eq hp, if_true]
  rfl

theorem exec_rbfsNdSequence {p : ProMP d w} (hp : p.centers = linspace01 w) {T : Vec n} {m : ℝ}
    (hm : Spec.IsLargest T m) :
    (p.rbfsNdSequence (n := n)).exec (.float T) =
      (.ok (ndBlockDiagonal (Matrix.of fun a i => Spec.activation w (T i / m) a) d), .float fun i => T i / m) := by
  unfold rbfsNdSequence
  rw [Py.exec_bind, exec_rbfs1dSequence hp hm]
  rfl

/-- Closed form of `trajectory_from_weights`. -/
theorem exec_trajectoryFromWeights {p : ProMP d w} (hp : p.centers = linspace01 w) {T : Vec n} {m : ℝ}
    (hm : Spec.IsLargest T m) (W : Vec (d * w)) :
    (p.trajectoryFromWeights W).exec (.float T) =
      (.ok (Matrix.of fun i k => Spec.prompPosition W (T i / m) k), .float fun i => T i / m) := by
  unfold trajectoryFromWeights
  rw [Py.exec_bind, exec_rbfsNdSequence hp hm]
  simp only [Py.exec_pure, Prod.mk.injEq, Except.ok.injEq, and_true]
  ext i k
  simp only [transpose_apply, reshape2, of_apply]
  rw [ndBlockDiagonal_transpose_mulVec]
  rfl

/-- Closed form of `cov_trajectory`. -/
theorem exec_covTrajectory {p : ProMP d w} (hp : p.centers = linspace01 w) {T : Vec n} {m : ℝ}
    (hm : Spec.IsLargest T m) :
    (p.covTrajectory (n := n)).exec (.float T) =
      (.ok ((ndBlockDiagonal (Matrix.of fun a i => Spec.activation w (T i / m) a) d)ᵀ * p.weightCov *
          ndBlockDiagonal (Matrix.of fun a i => Spec.activation w (T i / m) a) d), .float fun i => T i / m) := by
  unfold covTrajectory
  rw [Py.exec_bind, exec_rbfsNdSequence hp hm]
  rfl

theorem block_quadratic {n' : ℕ} (P : Matrix (Fin w) (Fin n) ℝ) (Q : Matrix (Fin w) (Fin n') ℝ)
    (C : Matrix (Fin (d * w)) (Fin (d * w)) ℝ) (k l : Fin d) (i : Fin n) (j : Fin n') :
    ((ndBlockDiagonal P d)ᵀ * C * ndBlockDiagonal Q d) (finProdFinEquiv (k, i)) (finProdFinEquiv (l, j)) =
      ∑ a, ∑ b, P a i * C (finProdFinEquiv (k, a)) (finProdFinEquiv (l, b)) * Q b j := by
  rw [Matrix.mul_apply, sum_flat, Finset.sum_eq_single l]
  · rw [Finset.sum_comm]
    apply Finset.sum_congr rfl
    intro b _
    rw [ndBlockDiagonal_apply, if_pos rfl, ← Finset.sum_mul]
    congr 1
    have := ndBlockDiagonal_transpose_mulVec P (fun x => C x (finProdFinEquiv (l, b))) k i
    rw [← this]
    rfl
  · intro k' _ hk
    apply Finset.sum_eq_zero
    intro b _
    rw [ndBlockDiagonal_apply, if_neg hk, mul_zero]
  · simp

theorem exec_varTrajectory {p : ProMP d w} (hp : p.centers = linspace01 w) {T : Vec n} {m : ℝ}
    (hm : Spec.IsLargest T m) :
    (p.varTrajectory (n := n)).exec (.float T) =
      (.ok (Matrix.of fun i k => max (Spec.covariance p.weightCov (T i / m) k (T i / m) k) 0), .float fun i => T i / m) := by
  unfold varTrajectory
  rw [Py.exec_bind, exec_covTrajectory hp hm]
  simp only [Py.exec_pure, Prod.mk.injEq, Except.ok.injEq, and_true]
  ext i k
  simp only [transpose_apply, reshape2, of_apply]
  rw [diag_apply, block_quadratic]
  rfl

end ProMP

end Verif
