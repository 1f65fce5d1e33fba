import Verif.Props.Promp

/-! # Learning ProMPs from demonstrations (C47, C65) -/

namespace Verif
open Matrix ProMP

variable {d w n D : ℕ}

/-! ## Moore-Penrose inverses of positive semidefinite matrices -/

theorem IsPinv.transpose {A B : Matrix (Fin n) (Fin n) ℝ} (h : IsPinv A B) : IsPinv Aᵀ Bᵀ where
  aba := by rw [← transpose_mul, ← transpose_mul, ← Matrix.mul_assoc, h.aba]
  bab := by rw [← transpose_mul, ← transpose_mul, ← Matrix.mul_assoc, h.bab]
  symm_ab := by rw [← transpose_mul, transpose_transpose, h.symm_ba]
  symm_ba := by rw [← transpose_mul, transpose_transpose, h.symm_ab]

theorem pinv_transpose {A : Matrix (Fin n) (Fin n) ℝ} (hA : Aᵀ = A) : (pinv A)ᵀ = pinv A := by
  have h := isPinv_pinv hA
  have h2 := h.transpose
  rw [hA] at h2
  exact h2.unique h

theorem pinv_comm {A : Matrix (Fin n) (Fin n) ℝ} (hA : Aᵀ = A) : A * pinv A = pinv A * A := by
  have h := (isPinv_pinv hA).symm_ab
  rw [transpose_mul, pinv_transpose hA, hA] at h
  exact h.symm

theorem pinv_posSemidef {A : Matrix (Fin n) (Fin n) ℝ} (hA : A.PosSemidef) : (pinv A).PosSemidef := by
  have hs := posSemidef_transpose hA
  have h := posSemidef_conj hA (pinv A)
  rwa [pinv_transpose hs, (isPinv_pinv hs).bab] at h

theorem pinv_posDef {A : Matrix (Fin n) (Fin n) ℝ} (hA : A.PosDef) : (pinv A).PosDef := by
  rw [pinv_eq_inv (posSemidef_transpose hA.posSemidef) ((isUnit_iff_isUnit_det _).1 hA.isUnit)]
  exact hA.inv

/-- Vectors that the Moore-Penrose inverse maps to zero are mapped to zero. -/
theorem mulVec_eq_zero_of_pinv {A : Matrix (Fin n) (Fin n) ℝ} (hA : Aᵀ = A) {x : Vec n} (h : pinv A *ᵥ x = 0) :
    A *ᵥ x = 0 := by
  have e : A *ᵥ x = (A * A) *ᵥ (pinv A *ᵥ x) := by
    conv_lhs => rw [← (isPinv_pinv hA).aba]
    rw [mulVec_mulVec, Matrix.mul_assoc A (pinv A), ← pinv_comm hA, Matrix.mul_assoc]
  rw [e, h, mulVec_zero]

/-! ## One iteration -/

/-- Terms of a demonstration: a linear regression problem `R ≈ Lᵀ x` that is not empty. -/
def GoodTerms (e : EMTerms D) : Prop :=
  ∃ (m : ℕ) (L : Matrix (Fin D) (Fin m) ℝ) (R : Fin m → ℝ), e.PhiHTHPhiT = L * Lᵀ ∧ e.PhiHTR = L *ᵥ R ∧
    e.RTR = R ⬝ᵥ R ∧ L ≠ 0

theorem GoodTerms.posSemidef {e : EMTerms D} (h : GoodTerms e) : e.PhiHTHPhiT.PosSemidef := by
  obtain ⟨m, L, R, h1, -⟩ := h
  rw [h1]
  have := posSemidef_conj (PosSemidef.one : (1 : Matrix (Fin m) (Fin m) ℝ).PosSemidef) L
  rwa [Matrix.mul_one] at this

theorem emExpectation_inner {s : EMState D} (hs : s.cov.PosSemidef) (hv : 0 < s.variance) {e : EMTerms D}
    (he : GoodTerms e) : ((1 / s.variance) • e.PhiHTHPhiT + pinv s.cov).PosSemidef :=
  (he.posSemidef.smul (one_div_pos.2 hv).le).add (pinv_posSemidef hs)

theorem emExpectation_posSemidef {s : EMState D} (hs : s.cov.PosSemidef) (hv : 0 < s.variance) {e : EMTerms D}
    (he : GoodTerms e) : (emExpectation s e).cov.PosSemidef :=
  pinv_posSemidef (emExpectation_inner hs hv he)

theorem emExpectation_posDef {s : EMState D} (hs : s.cov.PosDef) (hv : 0 < s.variance) {e : EMTerms D}
    (he : GoodTerms e) : (emExpectation s e).cov.PosDef :=
  pinv_posDef (PosDef.posSemidef_add (he.posSemidef.smul (one_div_pos.2 hv).le) (pinv_posDef hs))

theorem residual_eq {m : ℕ} (q : EMPosterior D) (e : EMTerms D) {L : Matrix (Fin D) (Fin m) ℝ} {R : Fin m → ℝ}
    (h1 : e.PhiHTHPhiT = L * Lᵀ) (h2 : e.PhiHTR = L *ᵥ R) (h3 : e.RTR = R ⬝ᵥ R) :
    emResidual q e = (Lᵀ * q.cov * L).trace + (R - Lᵀ *ᵥ q.mean) ⬝ᵥ (R - Lᵀ *ᵥ q.mean) := by
  unfold emResidual
  rw [h1, h2, h3]
  have e1 : (L * Lᵀ * q.cov).trace = (Lᵀ * q.cov * L).trace := by
    rw [Matrix.mul_assoc, Matrix.trace_mul_comm]
  have e2 : q.mean ⬝ᵥ ((L * Lᵀ) *ᵥ q.mean) = (Lᵀ *ᵥ q.mean) ⬝ᵥ (Lᵀ *ᵥ q.mean) := by
    rw [← mulVec_mulVec, dotProduct_mulVec, ← mulVec_transpose]
  have e3 : (L *ᵥ R) ⬝ᵥ q.mean = R ⬝ᵥ (Lᵀ *ᵥ q.mean) := by
    rw [dotProduct_mulVec, vecMul_transpose]
  rw [e1, e2, e3, sub_dotProduct, dotProduct_sub, dotProduct_sub, dotProduct_comm (Lᵀ *ᵥ q.mean) R]
  ring

theorem dotProduct_self_nonneg' {m : ℕ} (x : Fin m → ℝ) : 0 ≤ x ⬝ᵥ x :=
  Finset.sum_nonneg fun i _ => mul_self_nonneg (x i)

theorem residual_pos {s : EMState D} (hs : s.cov.PosSemidef) (hv : 0 < s.variance) {e : EMTerms D}
    (he : GoodTerms e) : 0 < emResidual (emExpectation s e) e := by
  have hpsd := emExpectation_posSemidef hs hv he
  have hin := emExpectation_inner hs hv he
  obtain ⟨m, L, R, h1, h2, h3, hL⟩ := he
  rw [residual_eq _ e h1 h2 h3]
  have hq := posSemidef_conj' hpsd L
  have htr : 0 ≤ (Lᵀ * (emExpectation s e).cov * L).trace := hq.trace_nonneg
  have hsq := dotProduct_self_nonneg' (R - Lᵀ *ᵥ (emExpectation s e).mean)
  refine add_pos_of_pos_of_nonneg (lt_of_le_of_ne htr fun hz => hL ?_) hsq
  -- a vanishing trace means that every column of `L` is mapped to zero
  have hcol : ∀ i, (Lᵀ * (emExpectation s e).cov * L) i i = 0 := by
    intro i
    have hz' : ∑ i, (Lᵀ * (emExpectation s e).cov * L) i i = 0 := hz.symm
    exact (Finset.sum_eq_zero_iff_of_nonneg fun i _ => hq.diag_nonneg).1 hz' i (Finset.mem_univ i)
  ext x i
  set l : Vec D := fun x => L x i with hl
  have h4 : l ⬝ᵥ ((emExpectation s e).cov *ᵥ l) = 0 := by
    rw [← hcol i, Matrix.mul_assoc, Matrix.mul_apply]
    rfl
  have h5 := mulVec_eq_zero_of_form hpsd h4
  have h6 := mulVec_eq_zero_of_pinv (posSemidef_transpose hin) h5
  have h7 : l ⬝ᵥ (((1 / s.variance) • e.PhiHTHPhiT + pinv s.cov) *ᵥ l) = 0 := by rw [h6, dotProduct_zero]
  rw [add_mulVec, dotProduct_add, smul_mulVec, dotProduct_smul, smul_eq_mul] at h7
  have h8 : 0 ≤ l ⬝ᵥ (pinv s.cov *ᵥ l) := by
    have := (pinv_posSemidef hs).dotProduct_mulVec_nonneg l
    rwa [star_trivial] at this
  have h9 : l ⬝ᵥ (e.PhiHTHPhiT *ᵥ l) = (Lᵀ *ᵥ l) ⬝ᵥ (Lᵀ *ᵥ l) := by
    rw [h1, ← mulVec_mulVec, dotProduct_mulVec, ← mulVec_transpose]
  rw [h9] at h7
  have h10 := dotProduct_self_nonneg' (Lᵀ *ᵥ l)
  have h11 : (Lᵀ *ᵥ l) ⬝ᵥ (Lᵀ *ᵥ l) = 0 := by
    have hpos := one_div_pos.2 hv
    have := mul_nonneg hpos.le h10
    have h12 : 1 / s.variance * ((Lᵀ *ᵥ l) ⬝ᵥ (Lᵀ *ᵥ l)) = 0 := by linarith
    exact (mul_eq_zero.1 h12).resolve_left hpos.ne'
  have h12 : Lᵀ *ᵥ l = 0 := dotProduct_self_eq_zero.1 h11
  have h13 : l ⬝ᵥ l = 0 := congrFun h12 i
  exact congrFun (dotProduct_self_eq_zero.1 h13) x

theorem posSemidef_list_sum {ι : Type*} (f : ι → Matrix (Fin D) (Fin D) ℝ) :
    ∀ l : List ι, (∀ x ∈ l, (f x).PosSemidef) → (l.map f).sum.PosSemidef
  | [], _ => PosSemidef.zero
  | x :: l, h => by
    rw [List.map_cons, List.sum_cons]
    exact (h x List.mem_cons_self).add (posSemidef_list_sum f l fun y hy => h y (List.mem_cons_of_mem _ hy))

theorem posDef_list_sum {ι : Type*} (f : ι → Matrix (Fin D) (Fin D) ℝ) (l : List ι) (hl : l ≠ [])
    (h : ∀ x ∈ l, (f x).PosDef) : (l.map f).sum.PosDef := by
  cases l with
  | nil => exact absurd rfl hl
  | cons x l =>
    rw [List.map_cons, List.sum_cons]
    exact (h x List.mem_cons_self).add_posSemidef
      (posSemidef_list_sum f l fun y hy => (h y (List.mem_cons_of_mem _ hy)).posSemidef)

theorem vecMulVec_posSemidef (x : Vec D) : (vecMulVec x x).PosSemidef := by
  have := posSemidef_vecMulVec_self_star x
  rwa [star_trivial] at this

theorem list_sum_pos {ι : Type*} (f : ι → ℝ) (l : List ι) (hl : l ≠ []) (h : ∀ x ∈ l, 0 < f x) : 0 < (l.map f).sum := by
  induction l with
  | nil => exact absurd rfl hl
  | cons x l ih =>
    rw [List.map_cons, List.sum_cons]
    by_cases h2 : l = []
    · subst h2
      simpa using h x List.mem_cons_self
    · exact add_pos (h x List.mem_cons_self) (ih h2 fun y hy => h y (List.mem_cons_of_mem _ hy))

theorem length_pos_cast {ι : Type*} {l : List ι} (hl : l ≠ []) : (0 : ℝ) < (l.length : ℝ) := by
  exact_mod_cast List.length_pos_iff.2 hl

theorem emStep_variance {terms : List (EMTerms D)} (ht : terms ≠ []) (hg : ∀ e ∈ terms, GoodTerms e) (dd nS : ℕ)
    {s : EMState D} (hs : s.cov.PosSemidef) (hv : 0 < s.variance) : 0 < (emStep dd nS terms s).variance := by
  unfold emStep emMaximization
  apply div_pos
  · rw [List.map_map]
    exact list_sum_pos _ terms ht fun e he => residual_pos hs hv (hg e he)
  · positivity

theorem emStep_posSemidef {terms : List (EMTerms D)} (hg : ∀ e ∈ terms, GoodTerms e) (dd nS : ℕ)
    {s : EMState D} (hs : s.cov.PosSemidef) (hv : 0 < s.variance) : (emStep dd nS terms s).cov.PosSemidef := by
  unfold emStep emMaximization
  refine PosSemidef.smul (PosSemidef.add ?_ ?_) (by positivity)
  · exact posSemidef_list_sum _ _ fun x _ => vecMulVec_posSemidef _
  · rw [List.map_map]
    exact posSemidef_list_sum _ _ fun e he => emExpectation_posSemidef hs hv (hg e he)

theorem emStep_posDef {terms : List (EMTerms D)} (ht : terms ≠ []) (hg : ∀ e ∈ terms, GoodTerms e) (dd nS : ℕ)
    {s : EMState D} (hs : s.cov.PosDef) (hv : 0 < s.variance) : (emStep dd nS terms s).cov.PosDef := by
  unfold emStep emMaximization
  refine PosDef.smul (PosDef.posSemidef_add ?_ ?_) ?_
  · exact posSemidef_list_sum _ _ fun x _ => vecMulVec_posSemidef _
  · rw [List.map_map]
    exact posDef_list_sum _ _ ht fun e he => emExpectation_posDef hs hv (hg e he)
  · rw [List.length_map]
    exact one_div_pos.2 (length_pos_cast ht)

theorem emLoop_inv {dd nS : ℕ} {terms : List (EMTerms D)} {minDelta : ℝ} (P : EMState D → Prop)
    (hP : ∀ s, P s → P (emStep dd nS terms s)) : ∀ (k : ℕ) (s : EMState D), P s → P (emLoop dd nS terms minDelta k s)
  | 0, s, h => h
  | k + 1, s, h => by
    unfold emLoop
    dsimp only
    split
    · exact hP s h
    · exact emLoop_inv P hP k _ (hP s h)

/-! ## Precomputed terms -/

/-- A demonstration that `imitate` can process: float times, at least one, with a positive largest time. -/
def Spec.ValidDemo (demo : PrompDemo d) : Prop :=
  ∃ (T : Vec demo.n) (m : ℝ), demo.T = .float T ∧ Spec.IsLargest T m ∧ 0 < m

theorem emTerms_good {p : ProMP d w} (hp : p.centers = linspace01 w) (hd : 0 < d) (hw : 0 < w) {demo : PrompDemo d}
    (h : Spec.ValidDemo demo) :
    ∃ e T', (p.emTerms demo.Y).exec demo.T = (.ok e, T') ∧ GoodTerms e := by
  obtain ⟨n, T₀, Y⟩ := demo
  obtain ⟨T, m, hT, hm, h0⟩ := h
  simp only at T m hT hm
  subst hT
  unfold emTerms
  rw [Py.exec_bind, exec_rbfsNdSequence hp hm]
  refine ⟨_, _, rfl, _, _, _, rfl, rfl, rfl, ?_⟩
  obtain ⟨i₀, -⟩ := hm.1
  have hn : 0 < n := i₀.pos
  intro hz
  have h1 := congrFun (congrFun hz (finProdFinEquiv ((⟨0, hd⟩ : Fin d), (⟨0, hw⟩ : Fin w))))
    (finProdFinEquiv ((⟨0, hd⟩ : Fin d), (⟨n - 1, by omega⟩ : Fin n)))
  rw [Matrix.mul_apply, sum_flat, Finset.sum_eq_single (⟨0, hd⟩ : Fin d)] at h1
  · simp only [transpose_apply, ndBlockDiagonal_apply, if_true, of_apply, Matrix.zero_apply] at h1
    rw [Finset.sum_eq_single (⟨n - 1, by omega⟩ : Fin n)] at h1
    · unfold hPartial at h1
      rw [of_apply, if_neg (by simp), if_pos rfl, mul_one] at h1
      exact (activation_pos hw _ _).ne' h1
    · intro j _ hj
      unfold hPartial
      rw [of_apply, if_neg, if_neg (Ne.symm hj), mul_zero]
      simp only
      omega
    · simp
  · intro k _ hk
    apply Finset.sum_eq_zero
    intro a _
    rw [ndBlockDiagonal_apply, if_neg (Ne.symm hk), zero_mul]
  · simp

theorem emTermsAll_good {p : ProMP d w} (hp : p.centers = linspace01 w) (hd : 0 < d) (hw : 0 < w) :
    ∀ demos : List (PrompDemo d), (∀ demo ∈ demos, Spec.ValidDemo demo) →
      ∃ es, p.emTermsAll demos = .ok es ∧ es.length = demos.length ∧ ∀ e ∈ es, GoodTerms e
  | [], _ => ⟨[], rfl, rfl, fun _ h => absurd h List.not_mem_nil⟩
  | demo :: rest, h => by
    obtain ⟨e, T', he, hg⟩ := emTerms_good hp hd hw (h demo List.mem_cons_self)
    obtain ⟨es, hes, hl, hgs⟩ := emTermsAll_good hp hd hw rest fun x hx => h x (List.mem_cons_of_mem _ hx)
    refine ⟨e :: es, ?_, by simp [hl], ?_⟩
    · unfold emTermsAll
      rw [he, hes]
      rfl
    · intro x hx
      rcases List.mem_cons.1 hx with rfl | hx
      · exact hg
      · exact hgs x hx

theorem exec_imitate {p : ProMP d w} {demos : List (PrompDemo d)} {es : List (EMTerms (d * w))}
    (hes : p.emTermsAll demos = .ok es) (nIter : ℕ) (minDelta : ℝ) {s : EMState (d * w)}
    (hs : emLoop d ((demos.map fun x => x.n).sum) es minDelta nIter ⟨p.weightMean, p.weightCov, 1⟩ = s) :
    (ProMP.imitate demos nIter minDelta).exec p =
      (.ok (), ⟨s.mean, s.cov, p.centers, some s.variance⟩) := by
  subst hs
  have h2 : ({ p with variance := some 1 } : ProMP d w).emTermsAll demos = .ok es := by
    rw [← hes]
    clear hes
    induction demos with
    | nil => rfl
    | cons demo rest ih =>
      unfold emTermsAll
      rw [ih]
      rfl
  unfold ProMP.imitate
  rw [Py.exec_bind, Py.exec_modify]
  dsimp only
  rw [Py.exec_bind, Py.exec_get]
  dsimp only
  rw [Py.exec_bind, Py.exec_lift, h2]
  rfl

/-- **C47.** Whatever the number of iterations and the demonstrations: starting from a positive semidefinite
covariance of the weights, `imitate` leaves a positive semidefinite covariance and a strictly positive
estimate of the noise (so that it never divides by zero). -/
theorem C47_valid_distribution {p : ProMP d w} (hp : Spec.Reachable p) (hd : 0 < d) (hw : 0 < w)
    (hC : p.weightCov.PosSemidef) {demos : List (PrompDemo d)} (hne : demos ≠ [])
    (hdemos : ∀ demo ∈ demos, Spec.ValidDemo demo) (nIter : ℕ) (minDelta : ℝ) :
    ∃ q, (ProMP.imitate demos nIter minDelta).exec p = (.ok (), q) ∧ q.weightCov.PosSemidef ∧
      ∃ v, q.variance = some v ∧ 0 < v := by
  obtain ⟨es, hes, hl, hg⟩ := emTermsAll_good hp.centers hd hw demos hdemos
  have hne' : es ≠ [] := by
    rw [← List.length_pos_iff, hl]
    exact List.length_pos_iff.2 hne
  have hstep : ∀ s, (fun s : EMState (d * w) => s.cov.PosSemidef ∧ 0 < s.variance) s →
      (fun s : EMState (d * w) => s.cov.PosSemidef ∧ 0 < s.variance)
        (emStep d ((demos.map fun x => x.n).sum) es s) :=
    fun s hs => ⟨emStep_posSemidef hg d _ hs.1 hs.2, emStep_variance hne' hg d _ hs.1 hs.2⟩
  have h := emLoop_inv (minDelta := minDelta) _ hstep nIter
    ⟨p.weightMean, p.weightCov, 1⟩ ⟨hC, one_pos⟩
  obtain ⟨s, hs⟩ : ∃ s, emLoop d ((demos.map fun x => x.n).sum) es minDelta nIter ⟨p.weightMean, p.weightCov, 1⟩ = s :=
    ⟨_, rfl⟩
  have hex := exec_imitate hes nIter minDelta hs
  rw [hs] at h
  exact ⟨_, hex, h.1, _, rfl, h.2⟩

/-- **C47.** Starting from a positive definite covariance, in particular from a new ProMP, the covariance stays
positive definite: the learned ProMP can be conditioned on any position at any time (see `C41_succeeds`). -/
theorem C47_positive_definite {p : ProMP d w} (hp : Spec.Reachable p) (hd : 0 < d) (hw : 0 < w)
    (hC : p.weightCov.PosDef) {demos : List (PrompDemo d)} (hne : demos ≠ [])
    (hdemos : ∀ demo ∈ demos, Spec.ValidDemo demo) (nIter : ℕ) (minDelta : ℝ) :
    ∃ q, (ProMP.imitate demos nIter minDelta).exec p = (.ok (), q) ∧ q.weightCov.PosDef := by
  obtain ⟨es, hes, hl, hg⟩ := emTermsAll_good hp.centers hd hw demos hdemos
  have hne' : es ≠ [] := by
    rw [← List.length_pos_iff, hl]
    exact List.length_pos_iff.2 hne
  have hstep : ∀ s, (fun s : EMState (d * w) => s.cov.PosDef ∧ 0 < s.variance) s →
      (fun s : EMState (d * w) => s.cov.PosDef ∧ 0 < s.variance)
        (emStep d ((demos.map fun x => x.n).sum) es s) :=
    fun s hs => ⟨emStep_posDef hne' hg d _ hs.1 hs.2, emStep_variance hne' hg d _ hs.1.posSemidef hs.2⟩
  have h := emLoop_inv (minDelta := minDelta) _ hstep nIter
    ⟨p.weightMean, p.weightCov, 1⟩ ⟨hC, one_pos⟩
  obtain ⟨s, hs⟩ : ∃ s, emLoop d ((demos.map fun x => x.n).sum) es minDelta nIter ⟨p.weightMean, p.weightCov, 1⟩ = s :=
    ⟨_, rfl⟩
  have hex := exec_imitate hes nIter minDelta hs
  rw [hs] at h
  exact ⟨_, hex, h.1⟩

/-- A demonstration with three samples meets the hypotheses. -/
example : Spec.ValidDemo (d := 2) ⟨3, .float ![0, 1, 2], !![1, 2; 3, 4; 5, 6]⟩ :=
  ⟨![0, 1, 2], 2, rfl, ⟨⟨2, rfl⟩, fun i => by fin_cases i <;> norm_num⟩, by norm_num⟩

/-- **C47.** The loop ends after at most `n_iter` iterations, and earlier exactly when the mean of the weights
moved by less than `min_delta`: the result is an iterate of the update. -/
theorem C47_iterations {dd nS : ℕ} {terms : List (EMTerms D)} {minDelta : ℝ} : ∀ (k : ℕ) (s : EMState D),
    ∃ j ≤ k, emLoop dd nS terms minDelta k s = (emStep dd nS terms)^[j] s ∧
      (∀ i, i + 1 < j → minDelta ≤
        vecNorm (((emStep dd nS terms)^[i + 1] s).mean - ((emStep dd nS terms)^[i] s).mean)) ∧
      (j < k → ∃ i, j = i + 1 ∧
        vecNorm (((emStep dd nS terms)^[i + 1] s).mean - ((emStep dd nS terms)^[i] s).mean) < minDelta)
  | 0, s => ⟨0, le_rfl, rfl, fun i hi => absurd hi (by omega), fun h => absurd h (by omega)⟩
  | k + 1, s => by
    unfold emLoop
    dsimp only
    split
    · rename_i hlt
      exact ⟨1, by omega, rfl, fun i hi => absurd hi (by omega), fun _ => ⟨0, rfl, hlt⟩⟩
    · rename_i hge
      obtain ⟨j, hj, he, h1, h2⟩ := C47_iterations k (emStep dd nS terms s)
      refine ⟨j + 1, by omega, he, fun i hi => ?_, fun hlt => ?_⟩
      · cases i with
        | zero => exact not_lt.1 hge
        | succ i => exact h1 i (by omega)
      · obtain ⟨i, rfl, hi⟩ := h2 (by omega)
        exact ⟨i + 1, rfl, hi⟩

/-- **C47.** The order of the demonstrations does not matter. -/
theorem C47_order {p : ProMP d w} {demos demos' : List (PrompDemo d)} (hperm : demos.Perm demos') {q q' : ProMP d w}
    {nIter : ℕ} {minDelta : ℝ} (h : (ProMP.imitate demos nIter minDelta).exec p = (.ok (), q))
    (h' : (ProMP.imitate demos' nIter minDelta).exec p = (.ok (), q')) : q = q' := by
  have key : ∀ {l l' : List (PrompDemo d)}, l.Perm l' → ∀ es, p.emTermsAll l = .ok es →
      ∃ es', p.emTermsAll l' = .ok es' ∧ es.Perm es' := by
    have cons_inv : ∀ (x : PrompDemo d) (l : List (PrompDemo d)) (es : List (EMTerms (d * w))),
        p.emTermsAll (x :: l) = .ok es →
        ∃ e r, ((p.emTerms x.Y).exec x.T).1 = .ok e ∧ p.emTermsAll l = .ok r ∧ es = e :: r := by
      intro x l es hes
      unfold emTermsAll at hes
      cases h1 : ((p.emTerms x.Y).exec x.T).1 with
      | error e => rw [h1] at hes; cases hes
      | ok e =>
        cases h2 : p.emTermsAll l with
        | error e' => rw [h1, h2] at hes; cases hes
        | ok r =>
          rw [h1, h2] at hes
          injection hes with hes
          exact ⟨e, r, rfl, rfl, hes.symm⟩
    have cons_mk : ∀ (x : PrompDemo d) (l : List (PrompDemo d)) e r, ((p.emTerms x.Y).exec x.T).1 = .ok e →
        p.emTermsAll l = .ok r → p.emTermsAll (x :: l) = .ok (e :: r) := by
      intro x l e r h1 h2
      unfold emTermsAll
      rw [h1, h2]
      rfl
    intro l l' hp
    induction hp with
    | nil => exact fun es hes => ⟨es, hes, .refl _⟩
    | cons x _ ih =>
      intro es hes
      obtain ⟨e, r, h1, h2, rfl⟩ := cons_inv _ _ _ hes
      obtain ⟨r', h3, h4⟩ := ih r h2
      exact ⟨e :: r', cons_mk _ _ _ _ h1 h3, h4.cons e⟩
    | swap x y l =>
      intro es hes
      obtain ⟨e, r, h1, h2, rfl⟩ := cons_inv _ _ _ hes
      obtain ⟨e', r', h3, h4, rfl⟩ := cons_inv _ _ _ h2
      exact ⟨e' :: e :: r', cons_mk _ _ _ _ h3 (cons_mk _ _ _ _ h1 h4), .swap _ _ _⟩
    | trans _ _ ih1 ih2 =>
      intro es hes
      obtain ⟨es', h1, h2⟩ := ih1 es hes
      obtain ⟨es'', h3, h4⟩ := ih2 es' h1
      exact ⟨es'', h3, h2.trans h4⟩
  have step_perm : ∀ {dd nS : ℕ} {es es' : List (EMTerms (d * w))}, es.Perm es' → ∀ s,
      emStep dd nS es s = emStep dd nS es' s := by
    intro dd nS es es' hp s
    have hp2 := hp.map fun e => (emExpectation s e, e)
    unfold emStep emMaximization
    have hlen := hp2.length_eq
    have hmean := (hp2.map fun q => q.1.mean).sum_eq
    have hcen : ∀ μ : Vec (d * w),
        ((es.map fun e => (emExpectation s e, e)).map fun q => vecMulVec (q.1.mean - μ) (q.1.mean - μ)).sum =
          ((es'.map fun e => (emExpectation s e, e)).map fun q => vecMulVec (q.1.mean - μ) (q.1.mean - μ)).sum :=
      fun μ => (hp2.map fun q => vecMulVec (q.1.mean - μ) (q.1.mean - μ)).sum_eq
    simp only [hlen, hmean]
    congr 1
    · rw [(hp2.map fun q => q.1.cov).sum_eq, hcen]
    · rw [(hp2.map fun q => emResidual q.1 q.2).sum_eq, (hp2.map fun q => q.1.mean ⬝ᵥ q.1.mean).sum_eq]
  have loop_perm : ∀ {dd nS : ℕ} {es es' : List (EMTerms (d * w))}, es.Perm es' → ∀ k s,
      emLoop dd nS es minDelta k s = emLoop dd nS es' minDelta k s := by
    intro dd nS es es' hp k
    induction k with
    | zero => intro s; rfl
    | succ k ih =>
      intro s
      unfold emLoop
      simp only [step_perm hp s, ih]
  cases hes : p.emTermsAll demos with
  | error e =>
    exfalso
    unfold ProMP.imitate at h
    rw [Py.exec_bind, Py.exec_modify] at h
    dsimp only at h
    rw [Py.exec_bind, Py.exec_get] at h
    dsimp only at h
    have h2 : ({ p with variance := some 1 } : ProMP d w).emTermsAll demos = .error e := by
      rw [← hes]
      clear hes h hperm
      induction demos with
      | nil => rfl
      | cons demo rest ih =>
        unfold emTermsAll
        rw [ih]
        rfl
    rw [Py.exec_bind, Py.exec_lift, h2] at h
    cases h
  | ok es =>
    obtain ⟨es', hes', hperm'⟩ := key hperm es hes
    obtain ⟨s, hs⟩ : ∃ s, emLoop d ((demos.map fun x => x.n).sum) es minDelta nIter ⟨p.weightMean, p.weightCov, 1⟩ = s :=
      ⟨_, rfl⟩
    have hs' : emLoop d ((demos'.map fun x => x.n).sum) es' minDelta nIter ⟨p.weightMean, p.weightCov, 1⟩ = s := by
      rw [← hs, loop_perm hperm', (hperm.map fun x : PrompDemo d => x.n).sum_eq]
    have hex := exec_imitate hes nIter minDelta hs
    have hex' := exec_imitate hes' nIter minDelta hs'
    rw [hex] at h
    rw [hex'] at h'
    injection h with _ h
    injection h' with _ h'
    rw [← h, ← h']

/-! ## Linear regression -/

/-- **C65.** `weights(T, Y, lmbda)` minimises, over all vectors of weights, the sum of squared deviations of
the trajectory from the demonstration plus `lmbda` times the squared norm of the weights. -/
theorem C65_weights_optimal {p : ProMP d w} (hp : Spec.Reachable p) (T : Vec n) {m : ℝ} (hm : Spec.IsLargest T m)
    (_h0 : m ≠ 0) (Y : Matrix (Fin n) (Fin d) ℝ) {lmbda : ℝ} (hl : 0 ≤ lmbda) :
    ∃ W T', (p.weights Y lmbda).exec (.float T) = (.ok W, T') ∧ ∀ V : Vec (d * w),
      (∑ i, ∑ k, (Y i k - Spec.prompPosition W (T i / m) k) ^ 2) + lmbda * ∑ x, W x ^ 2 ≤
        (∑ i, ∑ k, (Y i k - Spec.prompPosition V (T i / m) k) ^ 2) + lmbda * ∑ x, V x ^ 2 := by
  set Phi := ndBlockDiagonal (Matrix.of fun a i => Spec.activation w (T i / m) a) d with hPhi
  have hexec : (p.weights Y lmbda).exec (.float T) =
      (.ok ((pinv (Phi * Phiᵀ + lmbda • 1) * Phi) *ᵥ ravel2 Yᵀ), .float fun i => T i / m) := by
    unfold ProMP.weights
    rw [Py.exec_bind, exec_rbfsNdSequence hp.centers hm]
    simp only [Py.exec_pure, transpose_transpose]
    rfl
  refine ⟨_, _, hexec, fun V => ?_⟩
  set W := (pinv (Phi * Phiᵀ + lmbda • 1) * Phi) *ᵥ ravel2 Yᵀ with hW
  have hnorm : (Phi * Phiᵀ + lmbda • (1 : Matrix (Fin (d * w)) (Fin (d * w)) ℝ)) *ᵥ W = Phi *ᵥ ravel2 Yᵀ := by
    rw [hW, mulVec_mulVec, ← Matrix.mul_assoc, ridge_proj Phi hl]
  have hloss : ∀ U : Vec (d * w), (ravel2 Yᵀ - Phiᵀ *ᵥ U) ⬝ᵥ (ravel2 Yᵀ - Phiᵀ *ᵥ U) + lmbda * (U ⬝ᵥ U) =
      (∑ i, ∑ k, (Y i k - Spec.prompPosition U (T i / m) k) ^ 2) + lmbda * ∑ x, U x ^ 2 := by
    intro U
    congr 1
    · rw [dotProduct, sum_flat, Finset.sum_comm]
      apply Finset.sum_congr rfl
      intro i _
      apply Finset.sum_congr rfl
      intro k _
      have h1 : (ravel2 Yᵀ) (finProdFinEquiv (k, i)) = Y i k := by
        have h : (finProdFinEquiv.symm (finProdFinEquiv (k, i))) = (k, i) := Equiv.symm_apply_apply _ _
        have h1 : (finProdFinEquiv (k, i)).divNat = k := congrArg Prod.fst h
        have h2 : (finProdFinEquiv (k, i)).modNat = i := congrArg Prod.snd h
        unfold ravel2
        rw [h1, h2, transpose_apply]
      rw [Pi.sub_apply, h1, hPhi, ndBlockDiagonal_transpose_mulVec, sq]
      rfl
    · rw [dotProduct]
      congr 1
      exact Finset.sum_congr rfl fun x _ => (sq (U x)).symm
  rw [← hloss W, ← hloss V, ridge_expand Phi (ravel2 Yᵀ) lmbda W V hnorm]
  have h1 := dotProduct_self_nonneg' (Phiᵀ *ᵥ (V - W))
  have h2 := mul_nonneg hl (dotProduct_self_nonneg' (V - W))
  linarith

end Verif
