import Verif.Spec.PrompFrames
import Verif.Props.PrompEM
import Mathlib.Tactic.Ring

/-! # Helper lemmas: linear maps of the space of positions, applied to weights and trajectories -/

namespace Verif
open Matrix ProMP

variable {d w n r c D : ℕ}

/-- Kronecker product in flat indices. -/
def blk (A : Matrix (Fin d) (Fin d) ℝ) (B : Matrix (Fin r) (Fin c) ℝ) : Matrix (Fin (d * r)) (Fin (d * c)) ℝ :=
  Matrix.of fun x y => A x.divNat y.divNat * B x.modNat y.modNat

theorem blk_flat (A : Matrix (Fin d) (Fin d) ℝ) (B : Matrix (Fin r) (Fin c) ℝ) (k l : Fin d) (a : Fin r) (b : Fin c) :
    blk A B (finProdFinEquiv (k, a)) (finProdFinEquiv (l, b)) = A k l * B a b := by
  have h : ∀ {m : ℕ} (k : Fin d) (a : Fin m), (finProdFinEquiv.symm (finProdFinEquiv (k, a))) = (k, a) :=
    fun k a => Equiv.symm_apply_apply _ _
  have h1 : ∀ {m : ℕ} (k : Fin d) (a : Fin m), (finProdFinEquiv (k, a)).divNat = k := fun k a => congrArg Prod.fst (h k a)
  have h2 : ∀ {m : ℕ} (k : Fin d) (a : Fin m), (finProdFinEquiv (k, a)).modNat = a := fun k a => congrArg Prod.snd (h k a)
  simp only [blk, of_apply, h1, h2]

theorem flat_ext {X Y : Matrix (Fin (d * r)) (Fin (d * c)) ℝ}
    (h : ∀ k a l b, X (finProdFinEquiv (k, a)) (finProdFinEquiv (l, b)) = Y (finProdFinEquiv (k, a)) (finProdFinEquiv (l, b))) :
    X = Y := by
  ext x y
  obtain ⟨⟨k, a⟩, rfl⟩ := finProdFinEquiv.surjective x
  obtain ⟨⟨l, b⟩, rfl⟩ := finProdFinEquiv.surjective y
  exact h k a l b

theorem blk_mul {e : ℕ} (A A' : Matrix (Fin d) (Fin d) ℝ) (B : Matrix (Fin r) (Fin c) ℝ) (B' : Matrix (Fin c) (Fin e) ℝ) :
    blk A B * blk A' B' = blk (A * A') (B * B') := by
  refine flat_ext fun k a l b => ?_
  rw [blk_flat, Matrix.mul_apply, sum_flat, Matrix.mul_apply, Matrix.mul_apply, Finset.sum_mul_sum]
  refine Finset.sum_congr rfl fun k' _ => Finset.sum_congr rfl fun a' _ => ?_
  rw [blk_flat, blk_flat]
  ring

theorem blk_transpose (A : Matrix (Fin d) (Fin d) ℝ) (B : Matrix (Fin r) (Fin c) ℝ) : (blk A B)ᵀ = blk Aᵀ Bᵀ := rfl

theorem blk_one : blk (1 : Matrix (Fin d) (Fin d) ℝ) (1 : Matrix (Fin r) (Fin r) ℝ) = 1 := by
  refine flat_ext fun k a l b => ?_
  rw [blk_flat, Matrix.one_apply, Matrix.one_apply, Matrix.one_apply]
  by_cases hk : k = l
  · by_cases ha : a = b
    · simp [hk, ha]
    · simp [hk, ha]
  · simp [hk]

theorem blk_add (A : Matrix (Fin d) (Fin d) ℝ) (B B' : Matrix (Fin r) (Fin c) ℝ) : blk A B + blk A B' = blk A (B + B') := by
  ext x y
  simp only [blk, of_apply, Matrix.add_apply]
  ring

theorem blk_smul (A : Matrix (Fin d) (Fin d) ℝ) (t : ℝ) (B : Matrix (Fin r) (Fin c) ℝ) : t • blk A B = blk A (t • B) := by
  ext x y
  simp only [blk, of_apply, Matrix.smul_apply, smul_eq_mul]
  ring

theorem ndBlockDiagonal_blk (P : Matrix (Fin r) (Fin c) ℝ) : ndBlockDiagonal P d = blk 1 P := by
  refine flat_ext fun k a l b => ?_
  rw [ndBlockDiagonal_apply, blk_flat, Matrix.one_apply]
  by_cases hk : k = l
  · simp [hk]
  · simp [hk]

/-- The map of flat vectors. -/
abbrev axesMap (r : ℕ) (A : Matrix (Fin d) (Fin d) ℝ) : Matrix (Fin (d * r)) (Fin (d * r)) ℝ := blk A 1

theorem axesMap_flat (A : Matrix (Fin d) (Fin d) ℝ) (k l : Fin d) (a b : Fin r) :
    axesMap r A (finProdFinEquiv (k, a)) (finProdFinEquiv (l, b)) = A k l * (1 : Matrix (Fin r) (Fin r) ℝ) a b :=
  blk_flat A 1 k l a b

theorem axes_comm (A : Matrix (Fin d) (Fin d) ℝ) (P : Matrix (Fin r) (Fin c) ℝ) :
    axesMap r A * ndBlockDiagonal P d = ndBlockDiagonal P d * axesMap c A := by
  rw [ndBlockDiagonal_blk, axesMap, axesMap, blk_mul, blk_mul, Matrix.mul_one, Matrix.one_mul, Matrix.one_mul, Matrix.mul_one]

theorem axes_comm_transpose (A : Matrix (Fin d) (Fin d) ℝ) (P : Matrix (Fin r) (Fin c) ℝ) :
    (ndBlockDiagonal P d)ᵀ * axesMap r A = axesMap c A * (ndBlockDiagonal P d)ᵀ := by
  rw [ndBlockDiagonal_blk, axesMap, axesMap, blk_transpose, blk_mul, blk_mul, Matrix.mul_one, Matrix.one_mul, transpose_one,
    Matrix.one_mul, Matrix.mul_one]

theorem axes_mulVec (A : Matrix (Fin d) (Fin d) ℝ) (x : Vec (d * r)) (k : Fin d) (a : Fin r) :
    (axesMap r A *ᵥ x) (finProdFinEquiv (k, a)) = ∑ l, A k l * x (finProdFinEquiv (l, a)) := by
  rw [mulVec, dotProduct, sum_flat]
  refine Finset.sum_congr rfl fun l _ => ?_
  rw [Finset.sum_eq_single a]
  · rw [axesMap_flat, Matrix.one_apply_eq, mul_one]
  · intro b _ hb
    rw [axesMap_flat, Matrix.one_apply_ne (Ne.symm hb), mul_zero, zero_mul]
  · simp

theorem weightsMapped_iff {A : Matrix (Fin d) (Fin d) ℝ} {W W' : Vec (d * w)} :
    Spec.WeightsMapped A W W' ↔ W' = axesMap w A *ᵥ W := by
  constructor
  · intro h
    funext x
    obtain ⟨⟨k, a⟩, rfl⟩ := finProdFinEquiv.surjective x
    rw [axes_mulVec]
    exact h k a
  · rintro rfl k a
    exact axes_mulVec A W k a

theorem axes_conj (A : Matrix (Fin d) (Fin d) ℝ) (C : Matrix (Fin (d * n)) (Fin (d * n)) ℝ) (k l : Fin d) (i j : Fin n) :
    (axesMap n A * C * (axesMap n A)ᵀ) (finProdFinEquiv (k, i)) (finProdFinEquiv (l, j)) =
      ∑ k', ∑ l', A k k' * C (finProdFinEquiv (k', i)) (finProdFinEquiv (l', j)) * A l l' := by
  have h1 : ∀ y, (axesMap n A * C) (finProdFinEquiv (k, i)) y = ∑ k', A k k' * C (finProdFinEquiv (k', i)) y :=
    fun y => axes_mulVec A (fun x => C x y) k i
  have h2 : (axesMap n A * C * (axesMap n A)ᵀ) (finProdFinEquiv (k, i)) (finProdFinEquiv (l, j)) =
      (axesMap n A *ᵥ fun y => (axesMap n A * C) (finProdFinEquiv (k, i)) y) (finProdFinEquiv (l, j)) := by
    rw [Matrix.mul_apply, mulVec, dotProduct]
    exact Finset.sum_congr rfl fun x _ => mul_comm _ _
  rw [h2, axes_mulVec]
  simp only [h1]
  rw [Finset.sum_comm']
  rotate_left
  · exact fun _ _ => Iff.rfl
  refine Finset.sum_congr rfl fun l' _ => ?_
  rw [Finset.mul_sum]
  exact Finset.sum_congr rfl fun k' _ => by ring

theorem covMapped_iff {A : Matrix (Fin d) (Fin d) ℝ} {C C' : Matrix (Fin (d * n)) (Fin (d * n)) ℝ} :
    Spec.CovMapped A C C' ↔ C' = axesMap n A * C * (axesMap n A)ᵀ := by
  constructor
  · intro h
    refine flat_ext fun k i l j => ?_
    rw [axes_conj]
    exact h k i l j
  · rintro rfl k i l j
    exact axes_conj A C k l i j

theorem ravel2_flat_frames {X : Matrix (Fin d) (Fin n) ℝ} (k : Fin d) (i : Fin n) : ravel2 X (finProdFinEquiv (k, i)) = X k i := by
  have h : (finProdFinEquiv.symm (finProdFinEquiv (k, i))) = (k, i) := Equiv.symm_apply_apply _ _
  have h1 : (finProdFinEquiv (k, i)).divNat = k := congrArg Prod.fst h
  have h2 : (finProdFinEquiv (k, i)).modNat = i := congrArg Prod.snd h
  rw [ravel2, h1, h2]

theorem ravel_mapped {A : Matrix (Fin d) (Fin d) ℝ} {Y Y' : Matrix (Fin n) (Fin d) ℝ} (h : Spec.RowsMapped A Y Y') :
    ravel2 Y'ᵀ = axesMap n A *ᵥ ravel2 Yᵀ := by
  funext x
  obtain ⟨⟨k, i⟩, rfl⟩ := finProdFinEquiv.surjective x
  rw [axes_mulVec, ravel2_flat_frames]
  simp only [ravel2_flat_frames, transpose_apply]
  exact h i k

/-- Rows of a reshaped vector. -/
theorem reshape_mapped (A : Matrix (Fin d) (Fin d) ℝ) (x : Vec (d * n)) :
    Spec.RowsMapped A (reshape2 x)ᵀ (reshape2 (axesMap n A *ᵥ x))ᵀ :=
  fun i k => axes_mulVec A x k i

theorem psi_lift (A : Matrix (Fin d) (Fin d) ℝ) (s : ℝ) : (psi d w s)ᵀ * axesMap w A = A * (psi d w s)ᵀ := by
  ext k y
  obtain ⟨⟨l, b⟩, rfl⟩ := finProdFinEquiv.surjective y
  have h := congrFun (psi_transpose_mulVec (d := d) s (fun x => axesMap w A x (finProdFinEquiv (l, b)))) k
  have e : ((psi d w s)ᵀ * axesMap w A) k (finProdFinEquiv (l, b)) = Spec.prompPosition (fun x => axesMap w A x (finProdFinEquiv (l, b))) s k := h
  rw [e, Spec.prompPosition, Matrix.mul_apply, Finset.sum_eq_single b, Finset.sum_eq_single l]
  · rw [Spec.flat, axesMap_flat, Matrix.one_apply_eq, transpose_apply, psi_flat, if_pos rfl]
    ring
  · intro k' _ hk
    rw [transpose_apply, psi_flat, if_neg (Ne.symm hk), mul_zero]
  · simp
  · intro a _ ha
    rw [Spec.flat, axesMap_flat, Matrix.one_apply_ne ha, mul_zero, mul_zero]
  · simp

theorem orthonormal_iff {A : Matrix (Fin d) (Fin d) ℝ} : Spec.Orthonormal A ↔ Aᵀ * A = 1 := by
  constructor
  · intro h
    ext k l
    rw [Matrix.mul_apply, Matrix.one_apply]
    exact h k l
  · intro h k l
    rw [← Matrix.one_apply, ← h, Matrix.mul_apply]
    rfl

theorem axes_orthonormal {A : Matrix (Fin d) (Fin d) ℝ} (h : Spec.Orthonormal A) : (axesMap r A)ᵀ * axesMap r A = 1 := by
  rw [axesMap, blk_transpose, blk_mul, orthonormal_iff.1 h, transpose_one, Matrix.one_mul, blk_one]

/-! ## Orthogonal maps of the space of weights -/

section Orthogonal
variable {U : Matrix (Fin D) (Fin D) ℝ}

theorem conj_conj (hU : Uᵀ * U = 1) (A B : Matrix (Fin D) (Fin D) ℝ) :
    (U * A * Uᵀ) * (U * B * Uᵀ) = U * (A * B) * Uᵀ := by
  calc (U * A * Uᵀ) * (U * B * Uᵀ) = U * A * (Uᵀ * U) * B * Uᵀ := by simp only [Matrix.mul_assoc]
    _ = _ := by rw [hU, Matrix.mul_one, Matrix.mul_assoc U A B]

theorem conj_transpose (A : Matrix (Fin D) (Fin D) ℝ) : (U * A * Uᵀ)ᵀ = U * Aᵀ * Uᵀ := by
  rw [transpose_mul, transpose_mul, transpose_transpose, Matrix.mul_assoc]

theorem IsPinv.conj (hU : Uᵀ * U = 1) {A B : Matrix (Fin D) (Fin D) ℝ} (h : IsPinv A B) :
    IsPinv (U * A * Uᵀ) (U * B * Uᵀ) where
  aba := by rw [conj_conj hU, conj_conj hU, h.aba]
  bab := by rw [conj_conj hU, conj_conj hU, h.bab]
  symm_ab := by rw [conj_conj hU, conj_transpose, h.symm_ab]
  symm_ba := by rw [conj_conj hU, conj_transpose, h.symm_ba]

theorem pinv_conj (hU : Uᵀ * U = 1) (A : Matrix (Fin D) (Fin D) ℝ) : pinv (U * A * Uᵀ) = U * pinv A * Uᵀ := by
  have hU' : U * Uᵀ = 1 := mul_eq_one_comm.1 hU
  have hback : ∀ X : Matrix (Fin D) (Fin D) ℝ, Uᵀ * (U * X * Uᵀ) * U = X := fun X => by
    calc Uᵀ * (U * X * Uᵀ) * U = (Uᵀ * U) * X * (Uᵀ * U) := by simp only [Matrix.mul_assoc]
      _ = X := by rw [hU, Matrix.one_mul, Matrix.mul_one]
  by_cases h : ∃ B, IsPinv A B
  · have hB : IsPinv A (pinv A) := by
      unfold pinv
      rw [dif_pos h]
      exact h.choose_spec
    have h2 : ∃ B, IsPinv (U * A * Uᵀ) B := ⟨_, hB.conj hU⟩
    have h3 : IsPinv (U * A * Uᵀ) (pinv (U * A * Uᵀ)) := by
      unfold pinv
      rw [dif_pos h2]
      exact h2.choose_spec
    exact h3.unique (hB.conj hU)
  · have h2 : ¬ ∃ B, IsPinv (U * A * Uᵀ) B := by
      rintro ⟨B, hB⟩
      apply h
      have := hB.conj (U := Uᵀ) (by rw [transpose_transpose, hU'])
      rw [transpose_transpose, hback] at this
      exact ⟨_, this⟩
    unfold pinv
    rw [dif_neg h, dif_neg h2, Matrix.mul_zero, Matrix.zero_mul]

theorem dot_map (hU : Uᵀ * U = 1) (x y : Vec D) : (U *ᵥ x) ⬝ᵥ (U *ᵥ y) = x ⬝ᵥ y := by
  rw [dotProduct_mulVec, vecMul_mulVec, hU, vecMul_one]

theorem conj_mulVec (hU : Uᵀ * U = 1) (A : Matrix (Fin D) (Fin D) ℝ) (x : Vec D) :
    (U * A * Uᵀ) *ᵥ (U *ᵥ x) = U *ᵥ (A *ᵥ x) := by
  rw [mulVec_mulVec, mulVec_mulVec, Matrix.mul_assoc (U * A), hU, Matrix.mul_one]

theorem conj_vecMulVec (x : Vec D) : vecMulVec (U *ᵥ x) (U *ᵥ x) = U * vecMulVec x x * Uᵀ := by
  rw [mul_vecMulVec, vecMulVec_mul, vecMul_transpose]

/-- Terms of a demonstration in the new coordinates. -/
structure TermsMapped (U : Matrix (Fin D) (Fin D) ℝ) (e e' : EMTerms D) : Prop where
  rtr : e'.RTR = e.RTR
  vec : e'.PhiHTR = U *ᵥ e.PhiHTR
  mat : e'.PhiHTHPhiT = U * e.PhiHTHPhiT * Uᵀ

/-- Estimate in the new coordinates. -/
structure StateMapped (U : Matrix (Fin D) (Fin D) ℝ) (s s' : EMState D) : Prop where
  mean : s'.mean = U *ᵥ s.mean
  cov : s'.cov = U * s.cov * Uᵀ
  variance : s'.variance = s.variance

theorem emExpectation_mapped (hU : Uᵀ * U = 1) {s s' : EMState D} (hs : StateMapped U s s') {e e' : EMTerms D}
    (he : TermsMapped U e e') :
    (emExpectation s' e').mean = U *ᵥ (emExpectation s e).mean ∧
      (emExpectation s' e').cov = U * (emExpectation s e).cov * Uᵀ := by
  have hc : pinv ((1 / s'.variance) • e'.PhiHTHPhiT + pinv s'.cov) =
      U * pinv ((1 / s.variance) • e.PhiHTHPhiT + pinv s.cov) * Uᵀ := by
    rw [← pinv_conj hU, hs.variance, he.mat, hs.cov, pinv_conj hU, Matrix.mul_add, Matrix.add_mul, Matrix.mul_smul,
      Matrix.smul_mul]
  refine ⟨?_, hc⟩
  show pinv ((1 / s'.variance) • e'.PhiHTHPhiT + pinv s'.cov) *ᵥ ((1 / s'.variance) • e'.PhiHTR + pinv s'.cov *ᵥ s'.mean) = _
  rw [hc, hs.variance, he.vec, hs.cov, pinv_conj hU, hs.mean, conj_mulVec hU, ← mulVec_smul, ← mulVec_add, conj_mulVec hU]
  rfl

theorem emResidual_mapped (hU : Uᵀ * U = 1) {q q' : EMPosterior D} (hm : q'.mean = U *ᵥ q.mean)
    (hc : q'.cov = U * q.cov * Uᵀ) {e e' : EMTerms D} (he : TermsMapped U e e') : emResidual q' e' = emResidual q e := by
  unfold emResidual
  rw [he.mat, hc, he.rtr, he.vec, hm, conj_conj hU, conj_mulVec hU, dot_map hU, dot_map hU, Matrix.trace_mul_comm,
    ← Matrix.mul_assoc, hU, Matrix.one_mul]

theorem forall₂_sum {α M : Type} [AddCommMonoid M] {R : α → α → Prop} {f g : α → M} {F : M → M} (h0 : F 0 = 0)
    (hadd : ∀ x y, F (x + y) = F x + F y) (h : ∀ a b, R a b → g b = F (f a)) :
    ∀ {l l' : List α}, List.Forall₂ R l l' → (l'.map g).sum = F (l.map f).sum
  | [], [], _ => h0.symm
  | _ :: _, _ :: _, .cons h1 h2 => by
    rw [List.map_cons, List.map_cons, List.sum_cons, List.sum_cons, hadd, h _ _ h1, forall₂_sum h0 hadd h h2]

set_option maxHeartbeats 1000000 in
theorem emStep_mapped (hU : Uᵀ * U = 1) {s s' : EMState D} (hs : StateMapped U s s') {es es' : List (EMTerms D)}
    (he : List.Forall₂ (TermsMapped U) es es') (dd nS : ℕ) :
    StateMapped U (emStep dd nS es s) (emStep dd nS es' s') := by
  have hlen : es'.length = es.length := he.length_eq.symm
  have hmean : (es'.map fun e => (emExpectation s' e).mean).sum = U *ᵥ (es.map fun e => (emExpectation s e).mean).sum :=
    forall₂_sum (M := Vec D) (F := fun x => U *ᵥ x) (R := TermsMapped U) (f := fun e => (emExpectation s e).mean)
      (g := fun e => (emExpectation s' e).mean) (mulVec_zero U) (fun x y => mulVec_add U x y)
      (fun a b h => (emExpectation_mapped hU hs h).1) he
  have hmean' : (1 / (es'.length : ℝ)) • (es'.map fun e => (emExpectation s' e).mean).sum =
      U *ᵥ ((1 / (es.length : ℝ)) • (es.map fun e => (emExpectation s e).mean).sum) := by
    rw [hlen, hmean, mulVec_smul]
  have hFadd : ∀ X Y : Matrix (Fin D) (Fin D) ℝ, U * (X + Y) * Uᵀ = U * X * Uᵀ + U * Y * Uᵀ := fun X Y => by
    rw [Matrix.mul_add, Matrix.add_mul]
  have hF0 : U * (0 : Matrix (Fin D) (Fin D) ℝ) * Uᵀ = 0 := by rw [Matrix.mul_zero, Matrix.zero_mul]
  have hcov : (es'.map fun e => (emExpectation s' e).cov).sum = U * (es.map fun e => (emExpectation s e).cov).sum * Uᵀ :=
    forall₂_sum (M := Matrix (Fin D) (Fin D) ℝ) (F := fun X => U * X * Uᵀ) (R := TermsMapped U)
      (f := fun e => (emExpectation s e).cov) (g := fun e => (emExpectation s' e).cov) hF0 hFadd
      (fun a b h => (emExpectation_mapped hU hs h).2) he
  have houter : ∀ μ : Vec D,
      (es'.map fun e => vecMulVec ((emExpectation s' e).mean - U *ᵥ μ) ((emExpectation s' e).mean - U *ᵥ μ)).sum =
        U * (es.map fun e => vecMulVec ((emExpectation s e).mean - μ) ((emExpectation s e).mean - μ)).sum * Uᵀ := fun μ =>
    forall₂_sum (M := Matrix (Fin D) (Fin D) ℝ) (F := fun X => U * X * Uᵀ) (R := TermsMapped U)
      (f := fun e => vecMulVec ((emExpectation s e).mean - μ) ((emExpectation s e).mean - μ))
      (g := fun e => vecMulVec ((emExpectation s' e).mean - U *ᵥ μ) ((emExpectation s' e).mean - U *ᵥ μ)) hF0 hFadd (fun a b h => by
      rw [(emExpectation_mapped hU hs h).1, ← mulVec_sub, conj_vecMulVec]) he
  have hres : (es'.map fun e => emResidual (emExpectation s' e) e).sum = (es.map fun e => emResidual (emExpectation s e) e).sum :=
    forall₂_sum (M := ℝ) (F := fun x => x) (R := TermsMapped U) (f := fun e => emResidual (emExpectation s e) e)
      (g := fun e => emResidual (emExpectation s' e) e) rfl (fun _ _ => rfl) (fun a b h => by
      obtain ⟨h1, h2⟩ := emExpectation_mapped hU hs h
      exact emResidual_mapped hU h1 h2 h) he
  have hnorm : (es'.map fun e => (emExpectation s' e).mean ⬝ᵥ (emExpectation s' e).mean).sum =
      (es.map fun e => (emExpectation s e).mean ⬝ᵥ (emExpectation s e).mean).sum :=
    forall₂_sum (M := ℝ) (F := fun x => x) (R := TermsMapped U) (f := fun e => (emExpectation s e).mean ⬝ᵥ (emExpectation s e).mean)
      (g := fun e => (emExpectation s' e).mean ⬝ᵥ (emExpectation s' e).mean) rfl (fun _ _ => rfl) (fun a b h => by
      rw [(emExpectation_mapped hU hs h).1, dot_map hU]) he
  unfold emStep emMaximization
  simp only [List.map_map, List.length_map, Function.comp_def]
  constructor
  · exact hmean'
  · dsimp only
    rw [hmean', houter, hcov, hlen, ← hFadd, Matrix.mul_smul, Matrix.smul_mul]
  · dsimp only
    rw [hres, hnorm, hlen]

theorem emLoop_mapped (hU : Uᵀ * U = 1) {es es' : List (EMTerms D)} (he : List.Forall₂ (TermsMapped U) es es') (dd nS : ℕ)
    (minDelta : ℝ) : ∀ (k : ℕ) {s s' : EMState D}, StateMapped U s s' →
      StateMapped U (emLoop dd nS es minDelta k s) (emLoop dd nS es' minDelta k s')
  | 0, _, _, hs => hs
  | k + 1, s, s', hs => by
    have h := emStep_mapped hU hs he dd nS
    have hn : vecNorm ((emStep dd nS es' s').mean - s'.mean) = vecNorm ((emStep dd nS es s).mean - s.mean) := by
      unfold vecNorm
      rw [h.mean, hs.mean, ← mulVec_sub, dot_map hU]
    unfold emLoop
    dsimp only
    rw [hn]
    split
    · exact h
    · exact emLoop_mapped hU he dd nS minDelta k h

end Orthogonal

end Verif
