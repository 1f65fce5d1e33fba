import Verif.Props.PrompEM
import Verif.Spec.PrompEM

/-! # The iterations of expectation maximization (C68) -/

namespace Verif
open Matrix ProMP Spec

variable {d w n D : ℕ}

/-! ## Filters -/

theorem hPartial_mulVec (r : Fin n → ℝ) (i : Fin n) : ∑ j, hPartial n i j * r j = filtered r i := by
  unfold filtered hPartial
  by_cases h : i.val + 1 < n
  · rw [dif_pos h]
    have hne : i ≠ ⟨i.val + 1, h⟩ := by
      intro he
      have := congrArg Fin.val he
      simp at this
    rw [← Finset.sum_subset (Finset.subset_univ {i, (⟨i.val + 1, h⟩ : Fin n)})]
    · rw [Finset.sum_pair hne]
      simp
      ring
    · intro j _ hj
      simp only [Finset.mem_insert, Finset.mem_singleton, not_or] at hj
      rw [of_apply, if_neg, if_neg (Ne.symm hj.1), zero_mul]
      intro h2
      exact hj.2 (Fin.ext h2.symm)
  · rw [dif_neg h, Finset.sum_eq_single i]
    · simp
    · intro j _ hj
      rw [of_apply, if_neg (by omega), if_neg (Ne.symm hj), zero_mul]
    · simp

theorem filter_nd (r : Fin (d * n) → ℝ) (k : Fin d) (i : Fin n) :
    (ndBlockDiagonal (hPartial n) d *ᵥ r) (flat k i) = filtered (fun i => r (flat k i)) i := by
  rw [← hPartial_mulVec]
  show ∑ x, ndBlockDiagonal (hPartial n) d (finProdFinEquiv (k, i)) x * r x = _
  rw [sum_flat, Finset.sum_eq_single k]
  · apply Finset.sum_congr rfl
    intro j _
    rw [ndBlockDiagonal_apply, if_pos rfl]
    rfl
  · intro l _ hl
    apply Finset.sum_eq_zero
    intro j _
    rw [ndBlockDiagonal_apply, if_neg (Ne.symm hl), zero_mul]
  · simp

/-- The terms of a demonstration are those of a linear regression of its filtered positions. -/
def TermsOf (e : EMTerms (d * w)) (f : Demo d) : Prop :=
  ∃ (L : Matrix (Fin (d * w)) (Fin (d * f.n)) ℝ) (R : Fin (d * f.n) → ℝ), e.PhiHTHPhiT = L * Lᵀ ∧ e.PhiHTR = L *ᵥ R ∧
    e.RTR = R ⬝ᵥ R ∧ (∀ W k i, (R - Lᵀ *ᵥ W) (flat k i) = filtered (fun i => f.y i k - prompPosition W (f.s i) k) i) ∧
    ∀ W k i, (Lᵀ *ᵥ W) (flat k i) = filtered (fun i => prompPosition W (f.s i) k) i

theorem phi_mulVec {T : Fin n → ℝ} {m : ℝ} (W : Fin (d * w) → ℝ) (k : Fin d) (i : Fin n) :
    ((ndBlockDiagonal (Matrix.of fun a i => Spec.activation w (T i / m) a) d)ᵀ *ᵥ W) (flat k i) =
      prompPosition W (T i / m) k := by
  show ∑ x, (ndBlockDiagonal (Matrix.of fun a i => Spec.activation w (T i / m) a) d) x (finProdFinEquiv (k, i)) * W x = _
  rw [sum_flat, Finset.sum_eq_single k]
  · apply Finset.sum_congr rfl
    intro j _
    rw [ndBlockDiagonal_apply, if_pos rfl]
    rfl
  · intro l _ hl
    apply Finset.sum_eq_zero
    intro j _
    rw [ndBlockDiagonal_apply, if_neg hl, zero_mul]
  · simp

theorem ravel2_flat (X : Matrix (Fin d) (Fin n) ℝ) (k : Fin d) (i : Fin n) : ravel2 X (flat k i) = X k i := by
  show X (finProdFinEquiv.symm (finProdFinEquiv (k, i))).1 (finProdFinEquiv.symm (finProdFinEquiv (k, i))).2 = X k i
  rw [Equiv.symm_apply_apply]

theorem emTerms_of {p : ProMP d w} (hp : p.centers = linspace01 w) {demo : PrompDemo d} {f : Demo d}
    (h : Normalised demo f) : ∃ e T', (p.emTerms demo.Y).exec demo.T = (.ok e, T') ∧ TermsOf e f := by
  obtain ⟨n, s, y⟩ := f
  obtain ⟨T, m, rfl, hm, h0, hs⟩ := h
  simp only at T hm hs ⊢
  unfold emTerms
  rw [Py.exec_bind, exec_rbfsNdSequence hp hm]
  refine ⟨_, _, rfl, _, _, rfl, rfl, rfl, ?_, ?_⟩
  · intro W k i
    rw [transpose_mul, transpose_transpose, ← mulVec_mulVec, ← mulVec_sub, filter_nd]
    congr 1
    funext i
    rw [Pi.sub_apply, phi_mulVec, ← hs]
    rw [ravel2_flat]
    rfl
  · intro W k i
    rw [transpose_mul, transpose_transpose, ← mulVec_mulVec, filter_nd]
    congr 1
    funext i
    rw [phi_mulVec, ← hs]

/-! ## E-step -/

theorem misfit_eq {f : Demo d} {L : Matrix (Fin (d * w)) (Fin (d * f.n)) ℝ}
    {R : Fin (d * f.n) → ℝ}
    (h : ∀ W k i, (R - Lᵀ *ᵥ W) (flat k i) = filtered (fun i => f.y i k - prompPosition W (f.s i) k) i)
    (W : Fin (d * w) → ℝ) : Spec.misfit f W = (R - Lᵀ *ᵥ W) ⬝ᵥ (R - Lᵀ *ᵥ W) := by
  unfold Spec.misfit dotProduct
  rw [sum_flat]
  apply Finset.sum_congr rfl
  intro k _
  apply Finset.sum_congr rfl
  intro i _
  rw [← h W k i, pow_two]
  rfl

theorem emExpectation_isPosterior {s : EMState (d * w)} (hs : s.cov.PosDef) (hv : 0 < s.variance)
    {e : EMTerms (d * w)} {f : Demo d} (h : TermsOf e f) : IsPosterior s f (emExpectation s e) := by
  obtain ⟨L, R, h1, h2, h3, h4, h5⟩ := h
  have hpi : pinv s.cov = s.cov⁻¹ :=
    pinv_eq_inv (posSemidef_transpose hs.posSemidef) ((isUnit_iff_isUnit_det _).1 hs.isUnit)
  have hA : (L * Lᵀ).PosSemidef := by
    have := posSemidef_conj (PosSemidef.one : (1 : Matrix (Fin (d * f.n)) (Fin (d * f.n)) ℝ).PosSemidef) L
    rwa [Matrix.mul_one] at this
  have hP : ((1 / s.variance) • e.PhiHTHPhiT + pinv s.cov).PosDef := by
    rw [h1]
    exact PosDef.posSemidef_add (hA.smul (one_div_pos.2 hv).le) (pinv_posDef hs)
  have hcov : (emExpectation s e).cov = ((1 / s.variance) • e.PhiHTHPhiT + pinv s.cov)⁻¹ :=
    pinv_eq_inv (posSemidef_transpose hP.posSemidef) ((isUnit_iff_isUnit_det _).1 hP.isUnit)
  have hdet := (isUnit_iff_isUnit_det _).1 hP.isUnit
  refine ⟨hcov ▸ hP.inv, fun z => ?_⟩
  set P := (1 / s.variance) • e.PhiHTHPhiT + pinv s.cov with hPd
  have hmean : P *ᵥ (emExpectation s e).mean = (1 / s.variance) • e.PhiHTR + pinv s.cov *ᵥ s.mean := by
    have : (emExpectation s e).mean = (emExpectation s e).cov *ᵥ
        ((1 / s.variance) • e.PhiHTR + pinv s.cov *ᵥ s.mean) := rfl
    rw [this, hcov, mulVec_mulVec, Matrix.mul_nonsing_inv _ hdet, one_mulVec]
  rw [hcov, Matrix.nonsing_inv_nonsing_inv _ hdet]
  set x := (emExpectation s e).mean with hx
  unfold objective
  rw [misfit_eq h4, misfit_eq h4]
  -- expansion of the squares
  have e1 : (R - Lᵀ *ᵥ (x + z)) ⬝ᵥ (R - Lᵀ *ᵥ (x + z)) = (R - Lᵀ *ᵥ x) ⬝ᵥ (R - Lᵀ *ᵥ x)
      - 2 * (z ⬝ᵥ (L *ᵥ (R - Lᵀ *ᵥ x))) + z ⬝ᵥ ((L * Lᵀ) *ᵥ z) := by
    have a1 : z ⬝ᵥ (L *ᵥ (R - Lᵀ *ᵥ x)) = (Lᵀ *ᵥ z) ⬝ᵥ (R - Lᵀ *ᵥ x) := by
      rw [dotProduct_mulVec, ← mulVec_transpose]
    have a2 : z ⬝ᵥ ((L * Lᵀ) *ᵥ z) = (Lᵀ *ᵥ z) ⬝ᵥ (Lᵀ *ᵥ z) := by
      rw [← mulVec_mulVec, dotProduct_mulVec, ← mulVec_transpose]
    rw [a1, a2, mulVec_add, show R - (Lᵀ *ᵥ x + Lᵀ *ᵥ z) = (R - Lᵀ *ᵥ x) - Lᵀ *ᵥ z by abel, sub_dotProduct,
      dotProduct_sub _ (R - Lᵀ *ᵥ x) (Lᵀ *ᵥ z), dotProduct_sub _ (R - Lᵀ *ᵥ x) (Lᵀ *ᵥ z),
      dotProduct_comm (R - Lᵀ *ᵥ x) (Lᵀ *ᵥ z)]
    ring
  have hsym : ∀ u v : Fin (d * w) → ℝ, u ⬝ᵥ (s.cov⁻¹ *ᵥ v) = v ⬝ᵥ (s.cov⁻¹ *ᵥ u) := by
    intro u v
    rw [dotProduct_mulVec, ← mulVec_transpose, transpose_nonsing_inv, posSemidef_transpose hs.posSemidef,
      dotProduct_comm]
  have e2 : (x + z - s.mean) ⬝ᵥ (s.cov⁻¹ *ᵥ (x + z - s.mean)) = (x - s.mean) ⬝ᵥ (s.cov⁻¹ *ᵥ (x - s.mean))
      + 2 * (z ⬝ᵥ (s.cov⁻¹ *ᵥ (x - s.mean))) + z ⬝ᵥ (s.cov⁻¹ *ᵥ z) := by
    rw [show x + z - s.mean = (x - s.mean) + z by abel, mulVec_add, add_dotProduct, dotProduct_add, dotProduct_add,
      hsym (x - s.mean) z]
    ring
  have e3 : z ⬝ᵥ (P *ᵥ z) = 1 / s.variance * (z ⬝ᵥ ((L * Lᵀ) *ᵥ z)) + z ⬝ᵥ (s.cov⁻¹ *ᵥ z) := by
    rw [hPd, add_mulVec, dotProduct_add, smul_mulVec, dotProduct_smul, smul_eq_mul, h1, hpi]
  have e4 : -(1 / s.variance) * (z ⬝ᵥ (L *ᵥ (R - Lᵀ *ᵥ x))) + z ⬝ᵥ (s.cov⁻¹ *ᵥ (x - s.mean)) = 0 := by
    have b := congrArg (fun v => z ⬝ᵥ v) hmean
    simp only [hPd, add_mulVec, dotProduct_add, smul_mulVec, dotProduct_smul, smul_eq_mul, h1, h2, hpi] at b
    rw [mulVec_sub, dotProduct_sub, mulVec_mulVec, mulVec_sub, dotProduct_sub]
    linarith
  rw [e1, e2, e3]
  field_simp at e4 ⊢
  linarith

theorem emResidual_eq {e : EMTerms (d * w)} {f : Demo d} (h : TermsOf e f) (q : EMPosterior (d * w)) :
    emResidual q e = Spec.misfit f q.mean + spread f q.cov := by
  obtain ⟨L, R, h1, h2, h3, h4, h5⟩ := h
  rw [residual_eq q e h1 h2 h3, misfit_eq h4, add_comm]
  congr 1
  have hL : ∀ x k i, L x (flat k i) = filtered (fun i => prompPosition (w := w) (Pi.single x 1) (f.s i) k) i := by
    intro x k i
    rw [← h5, mulVec_single_one]
    rfl
  rw [Matrix.mul_assoc, Matrix.trace_mul_comm]
  unfold spread trace
  apply Finset.sum_congr rfl
  intro x _
  rw [diag_apply, Matrix.mul_assoc, Matrix.mul_apply]
  apply Finset.sum_congr rfl
  intro y _
  congr 1
  rw [Matrix.mul_apply, sum_flat]
  apply Finset.sum_congr rfl
  intro k _
  apply Finset.sum_congr rfl
  intro i _
  rw [← hL, ← hL, transpose_apply, mul_comm]
  rfl

/-! ## Iterations -/

theorem emTermsAll_of {p : ProMP d w} (hp : p.centers = linspace01 w) : ∀ {demos : List (PrompDemo d)} {fs : List (Demo d)},
    List.Forall₂ Normalised demos fs → ∃ es, p.emTermsAll demos = .ok es ∧ List.Forall₂ TermsOf es fs
  | [], [], _ => ⟨[], rfl, .nil⟩
  | demo :: demos, f :: fs, .cons h hs => by
    obtain ⟨e, T', he, ht⟩ := emTerms_of hp h
    obtain ⟨es, hes, hts⟩ := emTermsAll_of hp hs
    refine ⟨e :: es, ?_, .cons ht hts⟩
    unfold emTermsAll
    rw [he, hes]
    rfl

theorem emStep_update {s : EMState (d * w)} (hs : s.cov.PosDef) (hv : 0 < s.variance) {es : List (EMTerms (d * w))}
    {fs : List (Demo d)} (h : List.Forall₂ TermsOf es fs) :
    EMUpdate fs s (emStep d ((fs.map fun f => f.n).sum) es s) := by
  have hlen : es.length = fs.length := h.length_eq
  refine ⟨es.map (emExpectation s), ?_, ?_, ?_, ?_⟩
  · rw [List.forall₂_map_right_iff]
    exact h.flip.imp fun _ _ ht => emExpectation_isPosterior hs hv ht
  · simp only [emStep, emMaximization, List.map_map, List.length_map, hlen]
    rfl
  · simp only [emStep, emMaximization, List.map_map, List.length_map, hlen]
    rfl
  · have hz : (es.map fun e => emResidual (emExpectation s e) e).sum =
        (List.zipWith (fun f q => Spec.misfit f q.mean + spread f q.cov) fs (es.map (emExpectation s))).sum := by
      clear hlen
      induction h with
      | nil => rfl
      | cons ht _ ih =>
        simp only [List.map_cons, List.sum_cons, List.zipWith_cons_cons]
        rw [ih, emResidual_eq ht]
    simp only [emStep, emMaximization, List.map_map, List.length_map, hlen]
    rw [← hz]
    rfl

/-- **C68.** What `imitate` computes, for all demonstrations with float times and a positive last time, all numbers of
iterations and thresholds, starting from a positive definite covariance of the weights: a sequence of at most `n_iter`
updates of expectation maximization, the first of them with noise variance 1, that ends early exactly when an update
moves the mean by less than `min_delta`. In each update every demonstration contributes the exact Gaussian posterior of
its weights. -/
theorem C68_imitate_updates {p : ProMP d w} (hp : Spec.Reachable p) (hd : 0 < d) (hw : 0 < w)
    (hC : p.weightCov.PosDef) {demos : List (PrompDemo d)} {fs : List (Demo d)} (hne : demos ≠ [])
    (hdemos : List.Forall₂ Normalised demos fs) (nIter : ℕ) (minDelta : ℝ) :
    ∃ (q : ProMP d w) (j : ℕ) (s : ℕ → EMState (d * w)),
      (ProMP.imitate demos nIter minDelta).exec p = (.ok (), q) ∧ j ≤ nIter ∧
      s 0 = ⟨p.weightMean, p.weightCov, 1⟩ ∧ (∀ i, EMUpdate fs (s i) (s (i + 1))) ∧
      q = ⟨(s j).mean, (s j).cov, p.centers, some (s j).variance⟩ ∧
      (∀ i, i + 1 < j → minDelta ≤ Real.sqrt (((s (i + 1)).mean - (s i).mean) ⬝ᵥ ((s (i + 1)).mean - (s i).mean))) ∧
      (j < nIter → ∃ i, j = i + 1 ∧
        Real.sqrt (((s (i + 1)).mean - (s i).mean) ⬝ᵥ ((s (i + 1)).mean - (s i).mean)) < minDelta) := by
  obtain ⟨es, hes, ht⟩ := emTermsAll_of hp.centers hdemos
  have hvalid : ∀ demo ∈ demos, Spec.ValidDemo demo := by
    clear ht hes hne
    induction hdemos with
    | nil => simp
    | cons hf _ ih =>
      intro demo hmem
      rcases List.mem_cons.1 hmem with rfl | hmem
      · obtain ⟨T, m, rfl, hm, h0, -⟩ := hf
        exact ⟨T, m, rfl, hm, h0⟩
      · exact ih demo hmem
  obtain ⟨es', hes', hl, hg⟩ := emTermsAll_good hp.centers hd hw demos hvalid
  rw [hes] at hes'
  injection hes' with hes'
  subst hes'
  have hne' : es ≠ [] := by
    rw [← List.length_pos_iff, hl]
    exact List.length_pos_iff.2 hne
  have hn : (fs.map fun f => f.n).sum = (demos.map fun x => x.n).sum := by
    clear ht hes hg hl hvalid hne
    induction hdemos with
    | nil => rfl
    | cons h _ ih =>
      obtain ⟨T, m, rfl, -⟩ := h
      simp only [List.map_cons, List.sum_cons, ih]
  set step := emStep d ((demos.map fun x => x.n).sum) es with hstep
  obtain ⟨j, hj, he, h1, h2⟩ := C47_iterations (dd := d) (nS := (demos.map fun x => x.n).sum) (terms := es)
    (minDelta := minDelta) nIter ⟨p.weightMean, p.weightCov, 1⟩
  have hinv : ∀ i, (step^[i] ⟨p.weightMean, p.weightCov, 1⟩).cov.PosDef ∧
      0 < (step^[i] ⟨p.weightMean, p.weightCov, 1⟩).variance := by
    intro i
    induction i with
    | zero => exact ⟨hC, one_pos⟩
    | succ i ih =>
      rw [Function.iterate_succ_apply']
      exact ⟨emStep_posDef hne' hg d _ ih.1 ih.2, emStep_variance hne' hg d _ ih.1.posSemidef ih.2⟩
  refine ⟨_, j, fun i => step^[i] ⟨p.weightMean, p.weightCov, 1⟩, exec_imitate hes nIter minDelta he, hj, rfl, ?_, rfl,
    h1, h2⟩
  intro i
  have := emStep_update (hinv i).1 (hinv i).2 ht
  rw [hn] at this
  beta_reduce
  rw [Function.iterate_succ_apply']
  exact this

/-- **C68.** The posterior mean is the only minimum of the objective. -/
theorem C68_posterior_minimises {p : EMState (d * w)} {f : Demo d} {q : EMPosterior (d * w)} (h : IsPosterior p f q)
    (W : Fin (d * w) → ℝ) (hW : W ≠ q.mean) : objective p f q.mean < objective p f W := by
  have := h.2 (W - q.mean)
  rw [add_sub_cancel] at this
  rw [this]
  have hp := h.1.inv.dotProduct_mulVec_pos (x := W - q.mean) (sub_ne_zero.2 hW)
  rw [star_trivial] at hp
  linarith

/-- Two demonstrations of one dimension that meet the hypotheses. -/
example : List.Forall₂ Normalised
    [⟨3, .float ![0, 1, 2], Matrix.of fun i _ => (i : ℝ)⟩, ⟨2, .float ![0, 4], Matrix.of fun _ _ => 1⟩]
    [(⟨3, fun i => ![0, 1, 2] i / 2, fun i _ => (i : ℝ)⟩ : Demo 1), ⟨2, fun i => ![0, 4] i / 4, fun _ _ => 1⟩] :=
  .cons ⟨_, 2, rfl, ⟨⟨2, rfl⟩, fun i => by fin_cases i <;> norm_num⟩, by norm_num, fun _ => rfl⟩
    (.cons ⟨_, 4, rfl, ⟨⟨1, rfl⟩, fun i => by fin_cases i <;> norm_num⟩, by norm_num, fun _ => rfl⟩ .nil)

end Verif
