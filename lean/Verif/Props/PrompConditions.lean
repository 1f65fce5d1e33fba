import Verif.Props.PrompVia
import Verif.Spec.PrompConditions
import Mathlib.LinearAlgebra.Matrix.SchurComplement
import Mathlib.Analysis.Matrix.Order

/-! # C121: the order of conditions does not matter -/

namespace Verif
open Matrix ProMP

section Algebra
variable {N n m : ℕ} {C : Matrix (Fin N) (Fin N) ℝ} {A : Matrix (Fin N) (Fin n) ℝ} {B : Matrix (Fin N) (Fin m) ℝ}
  {R₁ : Matrix (Fin n) (Fin n) ℝ} {R₂ : Matrix (Fin m) (Fin m) ℝ}

/-- Matrix of covariances of both observations. -/
noncomputable def jointCov (C : Matrix (Fin N) (Fin N) ℝ) (A : Matrix (Fin N) (Fin n) ℝ) (B : Matrix (Fin N) (Fin m) ℝ)
    (R₁ : Matrix (Fin n) (Fin n) ℝ) (R₂ : Matrix (Fin m) (Fin m) ℝ) : Matrix (Fin n ⊕ Fin m) (Fin n ⊕ Fin m) ℝ :=
  fromBlocks (R₁ + Aᵀ * C * A) (Aᵀ * C * B) (Bᵀ * C * A) (R₂ + Bᵀ * C * B)

theorem jointCov_form (x : Fin n ⊕ Fin m → ℝ) :
    x ⬝ᵥ (jointCov C A B R₁ R₂ *ᵥ x) = (x ∘ Sum.inl) ⬝ᵥ (R₁ *ᵥ (x ∘ Sum.inl)) + (x ∘ Sum.inr) ⬝ᵥ (R₂ *ᵥ (x ∘ Sum.inr)) +
      (A *ᵥ (x ∘ Sum.inl) + B *ᵥ (x ∘ Sum.inr)) ⬝ᵥ (C *ᵥ (A *ᵥ (x ∘ Sum.inl) + B *ᵥ (x ∘ Sum.inr))) := by
  obtain ⟨u, v, rfl⟩ : ∃ u v, x = Sum.elim u v := ⟨x ∘ Sum.inl, x ∘ Sum.inr, (Sum.elim_comp_inl_inr x).symm⟩
  have h : ∀ {k l : ℕ} (X : Matrix (Fin N) (Fin k) ℝ) (Y : Matrix (Fin N) (Fin l) ℝ) (a : Fin k → ℝ) (b : Fin l → ℝ),
      a ⬝ᵥ ((Xᵀ * C * Y) *ᵥ b) = (X *ᵥ a) ⬝ᵥ (C *ᵥ (Y *ᵥ b)) := by
    intro k l X Y a b
    rw [Matrix.mul_assoc, ← mulVec_mulVec, ← mulVec_mulVec, dotProduct_mulVec, vecMul_transpose]
  rw [jointCov, fromBlocks_mulVec]
  simp only [Sum.elim_comp_inl, Sum.elim_comp_inr, sumElim_dotProduct_sumElim, add_mulVec, dotProduct_add, h, mulVec_add,
    add_dotProduct]
  ring

theorem jointCov_posSemidef (hC : C.PosSemidef) (h₁ : R₁.PosSemidef) (h₂ : R₂.PosSemidef) :
    (jointCov C A B R₁ R₂).PosSemidef := by
  refine .of_dotProduct_mulVec_nonneg ?_ fun x => ?_
  · have t1 := posSemidef_transpose h₁
    have t2 := posSemidef_transpose h₂
    have t3 := posSemidef_transpose hC
    rw [IsHermitian, conjTranspose_eq_transpose_of_trivial, jointCov, fromBlocks_transpose]
    simp only [transpose_add, transpose_mul, transpose_transpose, t1, t2, t3, Matrix.mul_assoc]
  · rw [star_trivial, jointCov_form]
    have g : ∀ {k : ℕ} {M : Matrix (Fin k) (Fin k) ℝ}, M.PosSemidef → ∀ z, 0 ≤ z ⬝ᵥ (M *ᵥ z) := by
      intro k M hM z
      have := hM.dotProduct_mulVec_nonneg z
      rwa [star_trivial] at this
    exact add_nonneg (add_nonneg (g h₁ _) (g h₂ _)) (g hC _)

/-- Both steps succeed, in this order, if and only if both observations can be made at once. -/
theorem seq_succeeds_iff (hC : C.PosSemidef) (h₁ : R₁.PosSemidef) (h₂ : R₂.PosSemidef) :
    ((R₁ + Aᵀ * C * A).det ≠ 0 ∧
      (R₂ + Bᵀ * (C - C * A * (R₁ + Aᵀ * C * A)⁻¹ * Aᵀ * C) * B).det ≠ 0) ↔ (jointCov C A B R₁ R₂).det ≠ 0 := by
  have key : (R₁ + Aᵀ * C * A).det ≠ 0 → (jointCov C A B R₁ R₂).det = (R₁ + Aᵀ * C * A).det *
      (R₂ + Bᵀ * (C - C * A * (R₁ + Aᵀ * C * A)⁻¹ * Aᵀ * C) * B).det := by
    intro h
    letI := invertibleOfIsUnitDet _ (isUnit_iff_ne_zero.2 h)
    rw [jointCov, det_fromBlocks₁₁, invOf_eq_nonsing_inv]
    congr 2
    simp only [Matrix.mul_sub, Matrix.sub_mul, Matrix.mul_assoc]
    abel
  constructor
  · rintro ⟨h, h'⟩
    rw [key h]
    exact mul_ne_zero h h'
  · intro h
    have hpd := ((jointCov_posSemidef hC h₁ h₂).posDef_iff_det_ne_zero).2 h
    have hs : (R₁ + Aᵀ * C * A).PosDef := hpd.submatrix Sum.inl_injective
    have h' := hs.det_pos.ne'
    refine ⟨h', fun h0 => h ?_⟩
    rw [key h', h0, mul_zero]

theorem jointCov_det_swap : (jointCov C B A R₂ R₁).det = (jointCov C A B R₁ R₂).det := by
  have : jointCov C B A R₂ R₁ = (jointCov C A B R₁ R₂).submatrix (Equiv.sumComm _ _) (Equiv.sumComm _ _) := by
    ext i j
    cases i <;> cases j <;> rfl
  rw [this, det_submatrix_equiv_self]

/-- Gains of two steps: both orders give the same total gains. -/
theorem gains_swap {K₁ H₁ : Matrix (Fin N) (Fin n) ℝ} {K₂ H₂ : Matrix (Fin N) (Fin m) ℝ}
    (hd : (R₁ + Aᵀ * C * A).det ≠ 0)
    (hd' : (R₂ + Bᵀ * (C - C * A * (R₁ + Aᵀ * C * A)⁻¹ * Aᵀ * C) * B).det ≠ 0)
    (k1 : K₁ = C * A * (R₁ + Aᵀ * C * A)⁻¹)
    (k2 : K₂ * (R₂ + Bᵀ * (C - K₁ * Aᵀ * C) * B) = (C - K₁ * Aᵀ * C) * B)
    (h2 : H₂ * (R₂ + Bᵀ * C * B) = C * B)
    (h1 : H₁ * (R₁ + Aᵀ * (C - H₂ * Bᵀ * C) * A) = (C - H₂ * Bᵀ * C) * A) :
    K₁ - K₂ * Bᵀ * K₁ = H₁ ∧ K₂ = H₂ - H₁ * Aᵀ * H₂ := by
  have u := isUnit_iff_ne_zero.2 hd
  have u' := isUnit_iff_ne_zero.2 hd'
  have k1' : K₁ * (R₁ + Aᵀ * C * A) = C * A := by rw [k1, nonsing_inv_mul_cancel_right _ _ u]
  set S₁ := R₁ + Aᵀ * C * A with hS₁
  set S₂ := R₂ + Bᵀ * C * B with hS₂
  have s2 : R₂ + Bᵀ * (C - K₁ * Aᵀ * C) * B = S₂ - Bᵀ * K₁ * (Aᵀ * C * B) := by
    rw [hS₂]; simp only [Matrix.mul_sub, Matrix.sub_mul, Matrix.mul_assoc]; abel
  have s1 : R₁ + Aᵀ * (C - H₂ * Bᵀ * C) * A = S₁ - Aᵀ * H₂ * (Bᵀ * C * A) := by
    rw [hS₁]; simp only [Matrix.mul_sub, Matrix.sub_mul, Matrix.mul_assoc]; abel
  rw [s2] at k2
  rw [s1] at h1
  -- the equations of the total gains
  have e1 : (K₁ - K₂ * Bᵀ * K₁) * S₁ + K₂ * (Bᵀ * C * A) = C * A := by
    rw [Matrix.sub_mul, Matrix.mul_assoc (K₂ * Bᵀ), k1']
    simp only [Matrix.mul_assoc]; abel
  have e2 : (K₁ - K₂ * Bᵀ * K₁) * (Aᵀ * C * B) + K₂ * S₂ = C * B := by
    have : K₂ * S₂ = (C - K₁ * Aᵀ * C) * B + K₂ * (Bᵀ * K₁ * (Aᵀ * C * B)) := by
      rw [← k2, Matrix.mul_sub]; abel
    rw [this]
    simp only [Matrix.sub_mul, Matrix.mul_assoc]; abel
  have e2' : (H₂ - H₁ * Aᵀ * H₂) * S₂ + H₁ * (Aᵀ * C * B) = C * B := by
    rw [Matrix.sub_mul, Matrix.mul_assoc (H₁ * Aᵀ), h2]
    simp only [Matrix.mul_assoc]; abel
  have e1' : (H₂ - H₁ * Aᵀ * H₂) * (Bᵀ * C * A) + H₁ * S₁ = C * A := by
    have : H₁ * S₁ = (C - H₂ * Bᵀ * C) * A + H₁ * (Aᵀ * H₂ * (Bᵀ * C * A)) := by
      rw [← h1, Matrix.mul_sub]; abel
    rw [this]
    simp only [Matrix.sub_mul, Matrix.mul_assoc]; abel
  generalize K₁ - K₂ * Bᵀ * K₁ = L₁ at e1 e2 ⊢
  generalize H₂ - H₁ * Aᵀ * H₂ = L₂ at e1' e2' ⊢
  have f1 : (L₁ - H₁) * S₁ = -((K₂ - L₂) * (Bᵀ * C * A)) := by
    have := e1.trans e1'.symm
    rw [Matrix.sub_mul, Matrix.sub_mul, neg_sub, sub_eq_sub_iff_add_eq_add, this]
  have f2 : (L₁ - H₁) * (Aᵀ * C * B) = -((K₂ - L₂) * S₂) := by
    have := e2.trans e2'.symm
    rw [Matrix.sub_mul, Matrix.sub_mul, neg_sub, sub_eq_sub_iff_add_eq_add, this]
  have g1 : L₁ - H₁ = -((K₂ - L₂) * (Bᵀ * K₁)) := by
    calc L₁ - H₁ = (L₁ - H₁) * S₁ * S₁⁻¹ := (mul_nonsing_inv_cancel_right _ _ u).symm
      _ = _ := by rw [f1, k1]; simp only [Matrix.neg_mul, Matrix.mul_assoc]
  have g2 : (K₂ - L₂) * (S₂ - Bᵀ * K₁ * (Aᵀ * C * B)) = 0 := by
    rw [Matrix.mul_sub]
    have : (K₂ - L₂) * (Bᵀ * K₁ * (Aᵀ * C * B)) = (K₂ - L₂) * S₂ := by
      have := f2
      rw [g1, Matrix.neg_mul, neg_inj] at this
      rw [← this]; simp only [Matrix.mul_assoc]
    rw [this, sub_self]
  have g3 : K₂ - L₂ = 0 := by
    rw [← k1, s2] at u'
    calc K₂ - L₂ = (K₂ - L₂) * (S₂ - Bᵀ * K₁ * (Aᵀ * C * B)) * (S₂ - Bᵀ * K₁ * (Aᵀ * C * B))⁻¹ :=
        (mul_nonsing_inv_cancel_right _ _ u').symm
      _ = 0 := by rw [g2, Matrix.zero_mul]
  refine ⟨sub_eq_zero.1 ?_, sub_eq_zero.1 g3⟩
  rw [g1, g3, Matrix.zero_mul, neg_zero]

end Algebra

variable {d w : ℕ}

theorem conditioned_swap {p : ProMP d w} {y₁ y₂ : Vec d} {R₁ R₂ : Matrix (Fin d) (Fin d) ℝ} {s₁ s₂ : ℝ}
    (hd : (R₁ + (psi d w s₁)ᵀ * p.weightCov * psi d w s₁).det ≠ 0)
    (hd' : (R₂ + (psi d w s₂)ᵀ * (p.conditioned y₁ R₁ s₁).weightCov * psi d w s₂).det ≠ 0)
    (he : (R₂ + (psi d w s₂)ᵀ * p.weightCov * psi d w s₂).det ≠ 0)
    (he' : (R₁ + (psi d w s₁)ᵀ * (p.conditioned y₂ R₂ s₂).weightCov * psi d w s₁).det ≠ 0) :
    (p.conditioned y₁ R₁ s₁).conditioned y₂ R₂ s₂ = (p.conditioned y₂ R₂ s₂).conditioned y₁ R₁ s₁ := by
  set q := p.conditioned y₁ R₁ s₁ with hq
  set r := p.conditioned y₂ R₂ s₂ with hr
  have qm : q.weightMean = p.weightMean + p.gain R₁ s₁ *ᵥ (y₁ - (psi d w s₁)ᵀ *ᵥ p.weightMean) := rfl
  have qc : q.weightCov = p.weightCov - p.gain R₁ s₁ * (psi d w s₁)ᵀ * p.weightCov := rfl
  have rm : r.weightMean = p.weightMean + p.gain R₂ s₂ *ᵥ (y₂ - (psi d w s₂)ᵀ *ᵥ p.weightMean) := rfl
  have rc : r.weightCov = p.weightCov - p.gain R₂ s₂ * (psi d w s₂)ᵀ * p.weightCov := rfl
  have gq : q.gain R₂ s₂ * (R₂ + (psi d w s₂)ᵀ * q.weightCov * psi d w s₂) = q.weightCov * psi d w s₂ :=
    nonsing_inv_mul_cancel_right _ _ (isUnit_iff_ne_zero.2 hd')
  have gr : r.gain R₁ s₁ * (R₁ + (psi d w s₁)ᵀ * r.weightCov * psi d w s₁) = r.weightCov * psi d w s₁ :=
    nonsing_inv_mul_cancel_right _ _ (isUnit_iff_ne_zero.2 he')
  have gp : p.gain R₂ s₂ * (R₂ + (psi d w s₂)ᵀ * p.weightCov * psi d w s₂) = p.weightCov * psi d w s₂ :=
    nonsing_inv_mul_cancel_right _ _ (isUnit_iff_ne_zero.2 he)
  rw [qc] at gq
  rw [rc] at gr
  obtain ⟨e1, e2⟩ := gains_swap (A := psi d w s₁) (B := psi d w s₂) (K₁ := p.gain R₁ s₁) (H₁ := r.gain R₁ s₁)
    (K₂ := q.gain R₂ s₂) (H₂ := p.gain R₂ s₂) hd hd' rfl gq gp gr
  have em : q.weightMean + q.gain R₂ s₂ *ᵥ (y₂ - (psi d w s₂)ᵀ *ᵥ q.weightMean) =
      r.weightMean + r.gain R₁ s₁ *ᵥ (y₁ - (psi d w s₁)ᵀ *ᵥ r.weightMean) := by
    have l : ∀ (G₁ G₂ : Matrix (Fin (d * w)) (Fin d) ℝ) (P₂ : Matrix (Fin (d * w)) (Fin d) ℝ) (x : Vec (d * w)) (z₁ y₂ : Vec d),
        x + G₁ *ᵥ z₁ + G₂ *ᵥ (y₂ - P₂ᵀ *ᵥ (x + G₁ *ᵥ z₁)) =
          x + (G₁ - G₂ * P₂ᵀ * G₁) *ᵥ z₁ + G₂ *ᵥ (y₂ - P₂ᵀ *ᵥ x) := by
      intro G₁ G₂ P₂ x z₁ y₂
      simp only [mulVec_add, mulVec_sub, sub_mulVec, ← mulVec_mulVec]
      abel
    rw [qm, rm, l, l, e1, ← e2]
    abel
  have ec : q.weightCov - q.gain R₂ s₂ * (psi d w s₂)ᵀ * q.weightCov =
      r.weightCov - r.gain R₁ s₁ * (psi d w s₁)ᵀ * r.weightCov := by
    have l : ∀ (G₁ G₂ P₁ P₂ : Matrix (Fin (d * w)) (Fin d) ℝ) (X : Matrix (Fin (d * w)) (Fin (d * w)) ℝ),
        X - G₁ * P₁ᵀ * X - G₂ * P₂ᵀ * (X - G₁ * P₁ᵀ * X) =
          X - (G₁ - G₂ * P₂ᵀ * G₁) * P₁ᵀ * X - G₂ * P₂ᵀ * X := by
      intro G₁ G₂ P₁ P₂ X
      simp only [Matrix.mul_sub, Matrix.sub_mul, Matrix.mul_assoc]
      abel
    rw [qc, rc, l, l, e1, ← e2]
    abel
  show ProMP.mk _ _ _ _ = ProMP.mk _ _ _ _
  exact congrArg₂ (fun a b => ProMP.mk a b (linspace01 w) none) em ec

theorem Condition.Valid.cov {c : Spec.Condition d} (h : c.Valid) : c.yCov.broadcast.PosSemidef := by
  rcases h.1 with h | ⟨R, h, hR⟩
  · rw [h]; exact PosSemidef.zero
  · rw [h]; exact hR

theorem conditionAll_cons {p : ProMP d w} (hp : p.centers = linspace01 w) {c : Spec.Condition d} (hc : c.tMax ≠ 0)
    (rest : List (Spec.Condition d)) :
    Spec.conditionAll p (c :: rest) =
      if (c.yCov.broadcast + (psi d w (c.t / c.tMax))ᵀ * p.weightCov * psi d w (c.t / c.tMax)).det = 0 then
        .error .linAlgError
      else Spec.conditionAll (p.conditioned c.yMean c.yCov.broadcast (c.t / c.tMax)) rest := by
  rw [Spec.conditionAll, exec_condition hp _ _ hc]
  by_cases h : (c.yCov.broadcast + (psi d w (c.t / c.tMax))ᵀ * p.weightCov * psi d w (c.t / c.tMax)).det = 0
  · rw [if_pos h, if_pos h]
  · rw [if_neg h, if_neg h]

theorem conditionAll_swap {p : ProMP d w} (hp : p.centers = linspace01 w) (hC : p.weightCov.PosSemidef)
    {c c' : Spec.Condition d} (hc : c.Valid) (hc' : c'.Valid) (rest : List (Spec.Condition d)) :
    Spec.conditionAll p (c :: c' :: rest) = Spec.conditionAll p (c' :: c :: rest) := by
  have h1 := Condition.Valid.cov hc
  have h2 := Condition.Valid.cov hc'
  have i1 := seq_succeeds_iff (A := psi d w (c.t / c.tMax)) (B := psi d w (c'.t / c'.tMax)) hC h1 h2
  have i2 := seq_succeeds_iff (A := psi d w (c'.t / c'.tMax)) (B := psi d w (c.t / c.tMax)) hC h2 h1
  rw [jointCov_det_swap] at i2
  rw [conditionAll_cons hp hc.2, conditionAll_cons rfl hc'.2, conditionAll_cons hp hc'.2, conditionAll_cons rfl hc.2]
  by_cases hj : (jointCov p.weightCov (psi d w (c.t / c.tMax)) (psi d w (c'.t / c'.tMax)) c.yCov.broadcast
      c'.yCov.broadcast).det = 0
  · have f : ∀ {P Q : Prop} [Decidable P] [Decidable Q] (x : Except PyErr (ProMP d w)), ¬(¬P ∧ ¬Q) →
        (if P then .error .linAlgError else if Q then .error .linAlgError else x) = .error .linAlgError := by
      intro P Q _ _ x h
      by_cases hP : P
      · rw [if_pos hP]
      · rw [if_neg hP, if_pos (not_not.1 fun hQ => h ⟨hP, hQ⟩)]
    exact (f _ fun h => i1.1 h hj).trans (f _ fun h => i2.1 h hj).symm
  · obtain ⟨a, a'⟩ := i1.2 hj
    obtain ⟨b, b'⟩ := i2.2 hj
    have a' : (c'.yCov.broadcast + (psi d w (c'.t / c'.tMax))ᵀ *
      (p.conditioned c.yMean c.yCov.broadcast (c.t / c.tMax)).weightCov * psi d w (c'.t / c'.tMax)).det ≠ 0 := a'
    have b' : (c.yCov.broadcast + (psi d w (c.t / c.tMax))ᵀ *
      (p.conditioned c'.yMean c'.yCov.broadcast (c'.t / c'.tMax)).weightCov * psi d w (c.t / c.tMax)).det ≠ 0 := b'
    rw [if_neg a, if_neg a', if_neg b, if_neg b', conditioned_swap a a' b b']

/-- **C121.** A ProMP is conditioned on several positions, one after the other, with or without observation noise. The outcome does
not depend on the order: neither the distribution of the weights nor whether `LinAlgError` is raised. -/
theorem C121_order {p : ProMP d w} (hp : Spec.Reachable p) (hC : p.weightCov.PosSemidef) {conditions conditions' : List (Spec.Condition d)}
    (hperm : conditions.Perm conditions') (hvalid : ∀ c ∈ conditions, c.Valid) :
    Spec.conditionAll p conditions = Spec.conditionAll p conditions' := by
  have hcent := hp.centers
  clear hp
  induction hperm generalizing p with
  | nil => rfl
  | cons c h ih =>
    have hc := hvalid c List.mem_cons_self
    rw [conditionAll_cons hcent hc.2, conditionAll_cons hcent hc.2]
    split_ifs with hd
    · rfl
    · exact ih (conditioned_posSemidef hC (Condition.Valid.cov hc) (isUnit_iff_ne_zero.2 hd) _)
        (fun c' h' => hvalid c' (List.mem_cons_of_mem _ h')) rfl
  | swap c c' l =>
    exact conditionAll_swap hcent hC (hvalid c' List.mem_cons_self) (hvalid c (List.mem_cons_of_mem _ List.mem_cons_self)) l
  | trans h1 h2 ih1 ih2 =>
    rw [ih1 hC hvalid hcent, ih2 hC (fun c hc => hvalid c (h1.mem_iff.2 hc)) hcent]

theorem viaPoints_eq_conditionAll : ∀ (points : List (ℝ × Vec d)) {p : ProMP d w}, p.centers = linspace01 w →
    p.viaPoints points = Spec.conditionAll p (points.map fun x => ⟨x.2, .none, x.1, 1⟩)
  | [], p, hp => rfl
  | (t, y) :: rest, p, hp => by
    rw [viaPoints_cons, List.map_cons, conditionAll_cons hp one_ne_zero, exec_condition hp y (.row 0) one_ne_zero, broadcast_row_zero]
    have e : (YCov.none : YCov d).broadcast = 0 := rfl
    rw [e]
    by_cases h : ((0 : Matrix (Fin d) (Fin d) ℝ) + (psi d w (t / 1))ᵀ * p.weightCov * psi d w (t / 1)).det = 0
    · rw [if_pos h, if_pos h]; rfl
    · rw [if_neg h, if_neg h]
      exact viaPoints_eq_conditionAll rest rfl

/-- **C121 (via_points).** `via_points` is the same as one call of `condition_position` for each point, and its outcome (including
`LinAlgError`) does not depend on the order of the points. -/
theorem C121_via_points {p : ProMP d w} (hp : Spec.Reachable p) (hC : p.weightCov.PosSemidef) {points points' : List (ℝ × Vec d)}
    (hperm : points.Perm points') :
    p.viaPoints points = p.viaPoints points' ∧
      p.viaPoints points = Spec.conditionAll p (points.map fun x => ⟨x.2, .none, x.1, 1⟩) := by
  refine ⟨?_, viaPoints_eq_conditionAll points hp.centers⟩
  rw [viaPoints_eq_conditionAll points hp.centers, viaPoints_eq_conditionAll points' hp.centers]
  refine C121_order hp hC (hperm.map _) fun c hc => ?_
  obtain ⟨x, -, rfl⟩ := List.mem_map.1 hc
  exact ⟨.inl rfl, one_ne_zero⟩

/-- **C121 (one condition).** Conditioning on the same position twice with noise `R` and `R'` is the same as conditioning once with the
noise of the better estimate, `(R⁻¹ + R'⁻¹)⁻¹`: information adds up. -/
theorem C121_same_position {p : ProMP d w} (hp : Spec.Reachable p) (hw : 0 < w) (hC : p.weightCov.PosDef)
    {R R' : Matrix (Fin d) (Fin d) ℝ} (hR : R.PosDef) (hR' : R'.PosDef) (y : Vec d) (t : ℝ) {tMax : ℝ} (h0 : tMax ≠ 0) :
    ∃ q q', Spec.conditionAll p [⟨y, .full R, t, tMax⟩, ⟨y, .full R', t, tMax⟩] = .ok q ∧
      Spec.conditionAll p [⟨y, .full (R⁻¹ + R'⁻¹)⁻¹, t, tMax⟩] = .ok q' ∧ q.weightMean = q'.weightMean ∧ q.weightCov = q'.weightCov := by
  have hS : (R⁻¹ + R'⁻¹)⁻¹.PosDef := (hR.inv.add hR'.inv).inv
  obtain ⟨q₁, e1, pd1, P, hP, c1, m1⟩ := C42_bayes hp hw hC y hR t h0
  have hp1 : Spec.Reachable q₁ := .condition hp e1
  obtain ⟨q, e2, pd2, P', hP', c2, m2⟩ := C42_bayes hp1 hw pd1 y hR' t h0
  obtain ⟨q', e3, pd3, P'', hP'', c3, m3⟩ := C42_bayes hp hw hC y hS t h0
  have eq' : ∀ {Q Q' : Matrix (Fin (d * w)) (Fin d) ℝ}, (∀ W, Qᵀ *ᵥ W = Spec.prompPosition W (t / tMax)) →
      (∀ W, Q'ᵀ *ᵥ W = Spec.prompPosition W (t / tMax)) → Q = Q' := by
    intro Q Q' h h'
    have : Qᵀ = Q'ᵀ := by
      ext i j
      have := congrFun ((h (Pi.single j 1)).trans (h' (Pi.single j 1)).symm) i
      simpa using this
    simpa using congrArg transpose this
  obtain rfl := eq' hP hP'
  obtain rfl := eq' hP hP''
  have hu : IsUnit (R⁻¹ + R'⁻¹).det := isUnit_iff_ne_zero.2 (hR.inv.add hR'.inv).det_pos.ne'
  have hinv : q.weightCov⁻¹ = q'.weightCov⁻¹ := by
    rw [c2, c1, c3, nonsing_inv_nonsing_inv _ hu, Matrix.mul_add, Matrix.add_mul, add_assoc]
  have hcov : q.weightCov = q'.weightCov := by
    have := congrArg (·⁻¹) hinv
    simpa only [nonsing_inv_nonsing_inv _ (isUnit_iff_ne_zero.2 pd2.det_pos.ne'),
      nonsing_inv_nonsing_inv _ (isUnit_iff_ne_zero.2 pd3.det_pos.ne')] using this
  refine ⟨q, q', ?_, ?_, ?_, hcov⟩
  · simp only [Spec.conditionAll, e1, e2]
  · simp only [Spec.conditionAll, e3]
  · have hm : q.weightCov⁻¹ *ᵥ q.weightMean = q'.weightCov⁻¹ *ᵥ q'.weightMean := by
      rw [m2, m1, m3, nonsing_inv_nonsing_inv _ hu, Matrix.mul_add, add_mulVec, add_assoc]
    rw [hinv] at hm
    have := congrArg (q'.weightCov *ᵥ ·) hm
    simpa only [mulVec_mulVec, mul_nonsing_inv _ (isUnit_iff_ne_zero.2 pd3.det_pos.ne'), one_mulVec] using this

/-- Hypotheses of C121 are met and the outcome is not always an exception: a new ProMP, a noisy position and an exact one. -/
example (y y' : Vec 2) : ∃ q, Spec.conditionAll (ProMP.init 2 5) [⟨y, .full 1, 0, 1⟩, ⟨y', .none, 1, 2⟩] = .ok q ∧
    Spec.conditionAll (ProMP.init 2 5) [⟨y', .none, 1, 2⟩, ⟨y, .full 1, 0, 1⟩] = .ok q := by
  have hperm : [(⟨y, .full 1, 0, 1⟩ : Spec.Condition 2), ⟨y', .none, 1, 2⟩].Perm [⟨y', .none, 1, 2⟩, ⟨y, .full 1, 0, 1⟩] :=
    List.Perm.swap _ _ _
  have hv : ∀ c ∈ [(⟨y, .full 1, 0, 1⟩ : Spec.Condition 2), ⟨y', .none, 1, 2⟩], c.Valid := by
    intro c hc
    simp only [List.mem_cons, List.not_mem_nil, or_false] at hc
    rcases hc with rfl | rfl
    · exact ⟨.inr ⟨1, rfl, PosDef.one.posSemidef⟩, one_ne_zero⟩
    · exact ⟨.inl rfl, two_ne_zero⟩
  have h := C121_order (p := ProMP.init 2 5) .init PosDef.one.posSemidef hperm hv
  obtain ⟨q₁, e1, pd1, -⟩ := C42_bayes (p := ProMP.init 2 5) .init (by norm_num) PosDef.one y PosDef.one 0 (one_ne_zero (α := ℝ))
  obtain ⟨q, e2⟩ := C41_succeeds (.condition .init e1) (by norm_num) pd1 y' (.inl rfl) 1 (two_ne_zero (α := ℝ))
  have e : Spec.conditionAll (ProMP.init 2 5) [⟨y, .full 1, 0, 1⟩, ⟨y', .none, 1, 2⟩] = .ok q := by
    simp only [Spec.conditionAll, e1, e2]
  exact ⟨q, e, h ▸ e⟩

end Verif
