import Verif.Lemmas.Likelihood

/-! # Expectation maximization and the likelihood of demonstrations (C103) -/

namespace Verif
open Matrix ProMP Spec

variable {d w : ℕ}

/-- Posterior distributions of all demonstrations attain the bound. -/
theorem logLikelihood_bound {p : EMState (d * w)} (hC : p.cov.PosDef) (hv : 0 < p.variance) {fs : List (Demo d)}
    {qs : List (EMPosterior (d * w))} (hq : List.Forall₂ (IsPosterior p) fs qs) :
    (fs.map fun e => regLik (featureMatrix d w e) (filteredDemo e) p.mean p.cov p.variance).sum =
      totalBound (fs.zip qs) p.mean p.cov p.variance := by
  rw [totalBound_eq]
  induction hq with
  | nil => rfl
  | cons h _ ih =>
    rename_i e q es qs hs
    simp only [List.zip_cons_cons, List.map_cons, List.sum_cons]
    rw [ih]
    congr 1
    have h2 : ∀ z, regObj (featureMatrix d w e) (filteredDemo e) p.mean p.cov p.variance (q.mean + z) =
        regObj (featureMatrix d w e) (filteredDemo e) p.mean p.cov p.variance q.mean + z ⬝ᵥ (q.cov⁻¹ *ᵥ z) := by
      intro z
      rw [← objective_eq, ← objective_eq]
      exact h.2 z
    obtain ⟨h3, h4⟩ := regression_posterior _ _ h.1 _ hC hv h2
    exact regLik_eq _ _ h.1 _ hC hv h3 h4

/-- For all other parameters the bound is a bound. -/
theorem logLikelihood_le_bound {p : EMState (d * w)} {fs : List (Demo d)} {qs : List (EMPosterior (d * w))}
    (hq : List.Forall₂ (IsPosterior p) fs qs) (μ : Fin (d * w) → ℝ) {C : Matrix (Fin (d * w)) (Fin (d * w)) ℝ}
    (hC : C.PosDef) {v : ℝ} (hv : 0 < v) :
    (fs.map fun e => regLik (featureMatrix d w e) (filteredDemo e) μ C v).sum ≤ totalBound (fs.zip qs) μ C v := by
  rw [totalBound_eq]
  induction hq with
  | nil => exact le_refl _
  | cons h _ ih =>
    simp only [List.zip_cons_cons, List.map_cons, List.sum_cons]
    exact add_le_add (regLik_le _ _ _ h.1 _ hC hv) ih

theorem map_zip_snd {α β γ : Type} (f : β → γ) : ∀ {l : List α} {l' : List β}, l.length = l'.length →
    ((l.zip l').map fun x => f x.2) = l'.map f
  | [], [], _ => rfl
  | _ :: l, _ :: l', h => by
    simp only [List.zip_cons_cons, List.map_cons]
    rw [map_zip_snd f (by simpa using h)]

theorem map_zip_fst {α β γ : Type} (f : α → γ) : ∀ {l : List α} {l' : List β}, l.length = l'.length →
    ((l.zip l').map fun x => f x.1) = l.map f
  | [], [], _ => rfl
  | _ :: l, _ :: l', h => by
    simp only [List.zip_cons_cons, List.map_cons]
    rw [map_zip_fst f (by simpa using h)]

/-- The covariance after an update is positive definite. -/
theorem EMUpdate.posDef {fs : List (Demo d)} (hne : fs ≠ []) {p p' : EMState (d * w)} (h : EMUpdate fs p p') :
    p'.cov.PosDef := by
  obtain ⟨qs, hq, -, hcov, -⟩ := h
  have hqne : qs ≠ [] := by
    rw [← List.length_pos_iff, ← hq.length_eq]
    exact List.length_pos_iff.2 hne
  rw [hcov]
  refine PosDef.smul ?_ (one_div_pos.2 (by exact_mod_cast List.length_pos_iff.2 hne))
  refine PosDef.posSemidef_add (posSemidef_list_sum _ _ fun x _ => vecMulVec_posSemidef _) (posDef_list_sum _ _ hqne ?_)
  intro q hmem
  clear hcov hqne hne
  induction hq with
  | nil => simp at hmem
  | cons h _ ih =>
    rcases List.mem_cons.1 hmem with rfl | hmem
    · exact h.1
    · exact ih hmem

/-- **C103.** One update of expectation maximization never makes the demonstrations less likely as far as the mean and
the covariance of the weights are concerned: with the noise variance that was used for the update, the likelihood of the
demonstrations after the update is not smaller than before, and it is larger unless the update changes neither the mean
nor the covariance. -/
theorem C103_update {fs : List (Demo d)} (hne : fs ≠ []) {p p' : EMState (d * w)} (hC : p.cov.PosDef)
    (hv : 0 < p.variance) (h : EMUpdate fs p p') :
    logLikelihood fs p.mean p.cov p.variance ≤ logLikelihood fs p'.mean p'.cov p.variance ∧
      (logLikelihood fs p.mean p.cov p.variance = logLikelihood fs p'.mean p'.cov p.variance →
        p'.mean = p.mean ∧ p'.cov = p.cov) := by
  have hC' := EMUpdate.posDef hne h
  obtain ⟨qs, hq, hmean, hcov, -⟩ := h
  have hlen := hq.length_eq
  have hzne : fs.zip qs ≠ [] := by
    rw [← List.length_pos_iff, List.length_zip, ← hlen, min_self]
    exact List.length_pos_iff.2 hne
  have hzlen : (fs.zip qs).length = fs.length := by rw [List.length_zip, ← hlen, min_self]
  have hM := average_minimises (fun x : Demo d × EMPosterior (d * w) => x.2.mean) (fun x => x.2.cov) (fs.zip qs) hzne
    (μ := p.mean) (μ' := p'.mean) hC hC' (by rw [hzlen, map_zip_snd _ hlen]; exact hmean)
    (by
      rw [hzlen, map_zip_snd (fun q => vecMulVec (q.mean - p'.mean) (q.mean - p'.mean)) hlen, map_zip_snd _ hlen]
      exact hcov)
  have h1 := logLikelihood_bound hC hv hq
  have h2 := logLikelihood_le_bound hq p'.mean hC' hv
  rw [logLikelihood_eq, logLikelihood_eq, h1]
  have h3 : ∀ μ C, totalBound (fs.zip qs) μ C p.variance =
      ((((fs.zip qs).map fun x => x.1.n).sum * d : ℕ) * Real.log p.variance +
        ((fs.zip qs).map fun x => misfit x.1 x.2.mean + spread x.1 x.2.cov).sum / p.variance)
      + ((fs.zip qs).map fun x => Real.log C.det + (x.2.mean - μ) ⬝ᵥ (C⁻¹ *ᵥ (x.2.mean - μ)) + (C⁻¹ * x.2.cov).trace).sum
      - ((fs.zip qs).map fun x => Real.log x.2.cov.det + Fintype.card (Fin (d * w))).sum := fun _ _ => rfl
  rw [h3] at h2
  rw [h3]
  refine ⟨by linarith [hM.1], fun he => hM.2 (by linarith)⟩

/-- Squared errors of a demonstration that is not empty are positive on average. -/
theorem spread_nonneg (e : Demo d) {C : Matrix (Fin (d * w)) (Fin (d * w)) ℝ} (hC : C.PosDef) : 0 ≤ spread e C := by
  rw [spread_trace, Matrix.mul_assoc, Matrix.trace_mul_comm]
  have := hC.posSemidef.conjTranspose_mul_mul_same (featureMatrix d w e)
  rw [conjTranspose_eq_transpose_of_trivial] at this
  exact this.trace_nonneg

theorem spread_pos (hw : 0 < w) (hd : 0 < d) {e : Demo d} (hn : 0 < e.n) {C : Matrix (Fin (d * w)) (Fin (d * w)) ℝ}
    (hC : C.PosDef) : 0 < spread e C := by
  refine lt_of_le_of_ne (spread_nonneg e hC) fun h0 => ?_
  rw [spread_trace, Matrix.mul_assoc, Matrix.trace_mul_comm] at h0
  have hpsd := hC.posSemidef.conjTranspose_mul_mul_same (featureMatrix d w e)
  rw [conjTranspose_eq_transpose_of_trivial] at hpsd
  set x : Fin d × Fin e.n := (⟨0, hd⟩, ⟨e.n - 1, by omega⟩) with hx
  have h1 : ((featureMatrix d w e)ᵀ * C * featureMatrix d w e) x x = 0 := by
    have h0' : ∑ i, ((featureMatrix d w e)ᵀ * C * featureMatrix d w e) i i = 0 := h0.symm
    exact (Finset.sum_eq_zero_iff_of_nonneg fun i _ => hpsd.diag_nonneg).1 h0' x (Finset.mem_univ x)
  have h2 : (fun a => featureMatrix d w e a x) ⬝ᵥ (C *ᵥ fun a => featureMatrix d w e a x) = 0 := by
    rw [← h1, Matrix.mul_assoc, Matrix.mul_apply]
    rfl
  have h3 : (fun a => featureMatrix d w e a x) = 0 := by
    by_contra hne
    have := hC.dotProduct_mulVec_pos hne
    rw [star_trivial] at this
    linarith
  have h4 : featureMatrix d w e (flat ⟨0, hd⟩ ⟨0, hw⟩) x = activation w (e.s ⟨e.n - 1, by omega⟩) ⟨0, hw⟩ := by
    show filtered (fun i => prompPosition (w := w) (Pi.single _ 1) (e.s i) _) _ = _
    unfold filtered
    rw [dif_neg (by simp only [hx]; omega), mul_zero, sub_zero]
    unfold prompPosition
    beta_reduce
    rw [Finset.sum_eq_single ⟨0, hw⟩]
    · rw [Pi.single_eq_same]
      simp [hx]
    · intro b _ hb
      rw [Pi.single_eq_of_ne]
      · simp
      · intro he
        have := finProdFinEquiv.injective he
        simp only [Prod.mk.injEq] at this
        exact hb this.2
    · simp
  have h5 := activation_pos hw (e.s ⟨e.n - 1, by omega⟩) ⟨0, hw⟩
  rw [← h4, congrFun h3] at h5
  exact lt_irrefl _ h5

theorem errors_pos (hw : 0 < w) (hd : 0 < d) {p : EMState (d * w)} {fs : List (Demo d)} {qs : List (EMPosterior (d * w))}
    (hq : List.Forall₂ (IsPosterior p) fs qs) :
    0 ≤ ((fs.zip qs).map fun x => misfit x.1 x.2.mean + spread x.1 x.2.cov).sum ∧
      (0 < (fs.map fun e => e.n).sum → 0 < ((fs.zip qs).map fun x => misfit x.1 x.2.mean + spread x.1 x.2.cov).sum) := by
  induction hq with
  | nil => simp
  | cons h _ ih =>
    rename_i e q es qs hs
    simp only [List.zip_cons_cons, List.map_cons, List.sum_cons]
    have h1 : 0 ≤ misfit e q.mean := Finset.sum_nonneg fun k _ => Finset.sum_nonneg fun i _ => sq_nonneg _
    have h2 := spread_nonneg e h.1
    refine ⟨by linarith [ih.1], fun hpos => ?_⟩
    rcases Nat.eq_zero_or_pos e.n with hz | hz
    · have := ih.2 (by omega)
      linarith
    · have := spread_pos hw hd hz h.1
      linarith [ih.1]

theorem isPosterior_unique {p : EMState (d * w)} (hC : p.cov.PosDef) (hv : 0 < p.variance) {e : Demo d}
    {q q' : EMPosterior (d * w)} (h : IsPosterior p e q) (h' : IsPosterior p e q') : q = q' := by
  have hpost : ∀ {q : EMPosterior (d * w)}, IsPosterior p e q →
      q.cov⁻¹ = (1 / p.variance) • (featureMatrix d w e * (featureMatrix d w e)ᵀ) + p.cov⁻¹ := by
    intro q h
    exact (regression_posterior (featureMatrix d w e) (filteredDemo e) h.1 p.mean hC hv fun z => by
      rw [← objective_eq, ← objective_eq]
      exact h.2 z).2
  have hm : q.mean = q'.mean := by
    by_contra hne
    exact absurd (C68_posterior_minimises h _ (Ne.symm hne)) (not_lt.2 (C68_posterior_minimises h' _ hne).le)
  have hc : q.cov = q'.cov := by
    rw [← nonsing_inv_nonsing_inv q.cov (posDef_isUnit h.1), ← nonsing_inv_nonsing_inv q'.cov (posDef_isUnit h'.1),
      hpost h, hpost h']
  obtain ⟨m, P⟩ := q
  obtain ⟨m', P'⟩ := q'
  simp only at hm hc
  rw [hm, hc]

theorem posteriors_unique {p : EMState (d * w)} (hC : p.cov.PosDef) (hv : 0 < p.variance) : ∀ {fs : List (Demo d)}
    {qs qs' : List (EMPosterior (d * w))}, List.Forall₂ (IsPosterior p) fs qs → List.Forall₂ (IsPosterior p) fs qs' →
    qs = qs'
  | _, _, _, .nil, .nil => rfl
  | _, _, _, .cons h hs, .cons h' hs' => by rw [isPosterior_unique hC hv h h', posteriors_unique hC hv hs hs']

/-- **C103.** With the variance that maximises the expected likelihood, the expected sum of squared errors divided by the
number of observed values, the complete update of expectation maximization would not make the demonstrations less
likely. -/
theorem C103_correct_variance (hw : 0 < w) (hd : 0 < d) {fs : List (Demo d)} {p p' : EMState (d * w)} (hC : p.cov.PosDef)
    (hv : 0 < p.variance) (h : EMUpdate fs p p') (hn : 0 < (fs.map fun e => e.n).sum)
    {qs : List (EMPosterior (d * w))} (hqs : List.Forall₂ (IsPosterior p) fs qs) :
    logLikelihood fs p.mean p.cov p.variance ≤
      logLikelihood fs p'.mean p'.cov ((List.zipWith (fun e q => misfit e q.mean + spread e q.cov) fs qs).sum /
        (((fs.map fun e => e.n).sum * d : ℕ) : ℝ)) := by
  have hne : fs ≠ [] := by
    rintro rfl
    simp at hn
  have hC' := EMUpdate.posDef hne h
  obtain ⟨qs', hq, hmean, hcov, -⟩ := h
  obtain rfl := posteriors_unique hC hv hqs hq
  have hlen := hq.length_eq
  have hzne : fs.zip qs ≠ [] := by
    rw [← List.length_pos_iff, List.length_zip, ← hlen, min_self]
    exact List.length_pos_iff.2 hne
  have hzlen : (fs.zip qs).length = fs.length := by rw [List.length_zip, ← hlen, min_self]
  have hM := average_minimises (fun x : Demo d × EMPosterior (d * w) => x.2.mean) (fun x => x.2.cov) (fs.zip qs) hzne
    (μ := p.mean) (μ' := p'.mean) hC hC' (by rw [hzlen, map_zip_snd _ hlen]; exact hmean)
    (by
      rw [hzlen, map_zip_snd (fun q => vecMulVec (q.mean - p'.mean) (q.mean - p'.mean)) hlen, map_zip_snd _ hlen]
      exact hcov)
  have hz : (List.zipWith (fun e q => misfit e q.mean + spread e q.cov) fs qs).sum =
      ((fs.zip qs).map fun x => misfit x.1 x.2.mean + spread x.1 x.2.cov).sum := by
    rw [List.zip, List.map_zipWith]
  rw [hz]
  have hE := (errors_pos hw hd hq).2 hn
  set E := ((fs.zip qs).map fun x => misfit x.1 x.2.mean + spread x.1 x.2.cov).sum with hEd
  have hnum : ((fs.zip qs).map fun x => x.1.n).sum = (fs.map fun e => e.n).sum := by rw [map_zip_fst _ hlen]
  have hN : 0 < (fs.map fun e => e.n).sum * d := Nat.mul_pos hn hd
  have hvar := variance_minimises hN hv hE
  have h1 := logLikelihood_bound hC hv hq
  have h2 := logLikelihood_le_bound hq p'.mean hC' (v := E / ((fs.map fun e => e.n).sum * d : ℕ))
    (div_pos hE (by exact_mod_cast hN))
  rw [logLikelihood_eq, logLikelihood_eq, h1]
  have h3 : ∀ μ C v, totalBound (fs.zip qs) μ C v =
      ((((fs.zip qs).map fun x => x.1.n).sum * d : ℕ) * Real.log v + E / v)
      + ((fs.zip qs).map fun x => Real.log C.det + (x.2.mean - μ) ⬝ᵥ (C⁻¹ *ᵥ (x.2.mean - μ)) + (C⁻¹ * x.2.cov).trace).sum
      - ((fs.zip qs).map fun x => Real.log x.2.cov.det + Fintype.card (Fin (d * w))).sum := fun _ _ _ => rfl
  rw [h3, hnum] at h2
  rw [h3, hnum]
  linarith [hM.1]

/-- **C103.** `imitate` with one iteration, which starts with noise variance 1: with this variance the demonstrations are
at least as likely for the learned mean and covariance as for the mean and covariance before, and more likely if the mean
or the covariance changed. -/
theorem C103_imitate_once {p : ProMP d w} (hp : Spec.Reachable p) (hd : 0 < d) (hw : 0 < w)
    (hC : p.weightCov.PosDef) {demos : List (PrompDemo d)} {fs : List (Demo d)} (hne : demos ≠ [])
    (hdemos : List.Forall₂ Normalised demos fs) (minDelta : ℝ) :
    ∃ q : ProMP d w, (ProMP.imitate demos 1 minDelta).exec p = (.ok (), q) ∧
      logLikelihood fs p.weightMean p.weightCov 1 ≤ logLikelihood fs q.weightMean q.weightCov 1 ∧
      (q.weightMean ≠ p.weightMean ∨ q.weightCov ≠ p.weightCov →
        logLikelihood fs p.weightMean p.weightCov 1 < logLikelihood fs q.weightMean q.weightCov 1) := by
  obtain ⟨q, j, s, h1, h2, h3, h4, h5, h6, h7⟩ := C68_imitate_updates hp hd hw hC hne hdemos 1 minDelta
  have hfne : fs ≠ [] := by
    rw [← List.length_pos_iff, ← hdemos.length_eq]
    exact List.length_pos_iff.2 hne
  have hj : j = 1 := by
    rcases Nat.lt_or_ge j 1 with hlt | hge
    · obtain ⟨i, hi, -⟩ := h7 hlt
      omega
    · omega
  subst hj
  have hu := C103_update hfne (p := s 0) (by rw [h3]; exact hC) (by rw [h3]; exact one_pos) (h4 0)
  rw [h3] at hu
  refine ⟨q, h1, ?_, ?_⟩
  · rw [h5]
    exact hu.1
  · rw [h5]
    intro hch
    refine lt_of_le_of_ne hu.1 fun he => ?_
    obtain ⟨e1, e2⟩ := hu.2 he
    rcases hch with hch | hch
    · exact hch e1
    · exact hch e2

/-- A new ProMP with three weights and one demonstration meet the hypotheses. -/
example : ∃ q : ProMP 1 3, (ProMP.imitate [⟨2, .float ![0, 4], Matrix.of fun i _ => (i : ℝ)⟩] 1 (1 / 10)).exec
    (ProMP.init 1 3) = (.ok (), q) ∧
    logLikelihood [(⟨2, fun i => ![0, 4] i / 4, fun i _ => (i : ℝ)⟩ : Demo 1)] (ProMP.init 1 3).weightMean
      (ProMP.init 1 3).weightCov 1 ≤
    logLikelihood [(⟨2, fun i => ![0, 4] i / 4, fun i _ => (i : ℝ)⟩ : Demo 1)] q.weightMean q.weightCov 1 := by
  obtain ⟨q, h1, h2, -⟩ := C103_imitate_once (d := 1) (w := 3) .init (by norm_num) (by norm_num) PosDef.one
    (demos := [⟨2, .float ![0, 4], Matrix.of fun i _ => (i : ℝ)⟩])
    (fs := [⟨2, fun i => ![0, 4] i / 4, fun i _ => (i : ℝ)⟩]) (List.cons_ne_nil _ _)
    (.cons ⟨_, 4, rfl, ⟨⟨1, rfl⟩, fun i => by fin_cases i <;> norm_num⟩, by norm_num, fun _ => rfl⟩ .nil) (1 / 10)
  exact ⟨q, h1, h2⟩

/-- **C103.** `imitate` with any number of iterations is a sequence of updates of which each one, with the noise variance
that it was computed with, makes the demonstrations at least as likely, and more likely unless it changes neither the mean
nor the covariance. -/
theorem C103_imitate {p : ProMP d w} (hp : Spec.Reachable p) (hd : 0 < d) (hw : 0 < w)
    (hC : p.weightCov.PosDef) {demos : List (PrompDemo d)} {fs : List (Demo d)} (hne : demos ≠ [])
    (hdemos : List.Forall₂ Normalised demos fs) (nIter : ℕ) (minDelta : ℝ) :
    ∃ (q : ProMP d w) (j : ℕ) (s : ℕ → EMState (d * w)),
      (ProMP.imitate demos nIter minDelta).exec p = (.ok (), q) ∧ j ≤ nIter ∧
      s 0 = ⟨p.weightMean, p.weightCov, 1⟩ ∧ (∀ i, EMUpdate fs (s i) (s (i + 1))) ∧
      q = ⟨(s j).mean, (s j).cov, p.centers, some (s j).variance⟩ ∧
      ∀ i, logLikelihood fs (s i).mean (s i).cov (s i).variance ≤
          logLikelihood fs (s (i + 1)).mean (s (i + 1)).cov (s i).variance ∧
        ((s (i + 1)).mean ≠ (s i).mean ∨ (s (i + 1)).cov ≠ (s i).cov →
          logLikelihood fs (s i).mean (s i).cov (s i).variance <
            logLikelihood fs (s (i + 1)).mean (s (i + 1)).cov (s i).variance) := by
  obtain ⟨q, j, s, h1, h2, h3, h4, h5, h6, h7⟩ := C68_imitate_updates hp hd hw hC hne hdemos nIter minDelta
  have hfne : fs ≠ [] := by
    rw [← List.length_pos_iff, ← hdemos.length_eq]
    exact List.length_pos_iff.2 hne
  have hpos : 0 < (fs.map fun e => e.n).sum := by
    clear h4
    cases hdemos with
    | nil => exact absurd rfl hne
    | cons h _ =>
      obtain ⟨T, m, -, ⟨⟨i, -⟩, -⟩, -⟩ := h
      have := i.pos
      simp only [List.map_cons, List.sum_cons]
      omega
  have hinv : ∀ i, (s i).cov.PosDef ∧ 0 < (s i).variance := by
    intro i
    induction i with
    | zero => rw [h3]; exact ⟨hC, one_pos⟩
    | succ i ih =>
      refine ⟨EMUpdate.posDef hfne (h4 i), ?_⟩
      obtain ⟨qs, hq, -, -, hvar⟩ := h4 i
      rw [hvar]
      have hz : (List.zipWith (fun e q => misfit e q.mean + spread e q.cov) fs qs).sum =
          ((fs.zip qs).map fun x => misfit x.1 x.2.mean + spread x.1 x.2.cov).sum := by
        rw [List.zip, List.map_zipWith]
      rw [hz]
      exact div_pos ((errors_pos hw hd hq).2 hpos) (by positivity)
  refine ⟨q, j, s, h1, h2, h3, h4, h5, fun i => ?_⟩
  have hu := C103_update hfne (hinv i).1 (hinv i).2 (h4 i)
  refine ⟨hu.1, fun hch => lt_of_le_of_ne hu.1 fun he => ?_⟩
  obtain ⟨e1, e2⟩ := hu.2 he
  rcases hch with hch | hch
  · exact hch e1
  · exact hch e2

/-! ## The variance that the code computes -/

theorem sum_one_one (g : Fin (1 * 1) → ℝ) : ∑ a, g a = g 0 := Fin.sum_univ_one g

theorem fin_one_one (a : Fin (1 * 1)) : a = 0 := Subsingleton.elim (α := Fin 1) a 0

/-- One demonstration of two positions in one dimension. -/
noncomputable def demoEx : Demo 1 := ⟨2, ![0, 1], ![fun _ => 9979 / 100, fun _ => 987 / 10]⟩

/-- First and second position. -/
def exZero : Fin 1 × Fin demoEx.n := (0, (0 : Fin 2))
def exOne : Fin 1 × Fin demoEx.n := (0, (1 : Fin 2))

theorem demoEx_sum (g : Fin 1 × Fin demoEx.n → ℝ) : ∑ x, g x = g exZero + g exOne := by
  rw [Fintype.sum_prod_type, Fin.sum_univ_one]
  exact Fin.sum_univ_two (fun i : Fin 2 => g (0, i))

theorem demoEx_feature (a : Fin (1 * 1)) :
    featureMatrix 1 1 demoEx a exZero = 3 / 10 ∧ featureMatrix 1 1 demoEx a exOne = 1 := by
  have hpos : ∀ (a : Fin (1 * 1)) (s : ℝ) (k : Fin 1), prompPosition (w := 1) (Pi.single a 1) s k = 1 := by
    intro a s k
    unfold prompPosition
    rw [Fin.sum_univ_one, fin_one_one a, fin_one_one (flat k 0), Pi.single_eq_same, mul_one]
    unfold activation
    rw [Fin.sum_univ_one, div_self (rbf_pos s 0).ne']
  constructor
  · show filtered (fun i => prompPosition (w := 1) (Pi.single a 1) (demoEx.s i) 0) (0 : Fin 2) = _
    simp only [hpos]
    unfold filtered
    rw [dif_pos (by show 0 + 1 < 2; omega)]
    norm_num
  · show filtered (fun i => prompPosition (w := 1) (Pi.single a 1) (demoEx.s i) 0) (1 : Fin 2) = _
    simp only [hpos]
    unfold filtered
    rw [dif_neg (by show ¬ 1 + 1 < 2; omega)]
    norm_num

theorem demoEx_filtered : filteredDemo demoEx exZero = 307 / 10 ∧ filteredDemo demoEx exOne = 987 / 10 := by
  constructor
  · show filtered (n := 2) (fun i => demoEx.y i 0) (0 : Fin 2) = _
    unfold filtered
    rw [dif_pos (by show 0 + 1 < 2; omega)]
    show (9979 / 100 : ℝ) - 7 / 10 * (987 / 10) = 307 / 10
    norm_num
  · show filtered (n := 2) (fun i => demoEx.y i 0) (1 : Fin 2) = _
    unfold filtered
    rw [dif_neg (by show ¬ 1 + 1 < 2; omega)]
    show (987 / 10 : ℝ) - 7 / 10 * 0 = 987 / 10
    norm_num

theorem demoEx_gram : featureMatrix 1 1 demoEx * (featureMatrix 1 1 demoEx)ᵀ = (109 / 100 : ℝ) • 1 := by
  ext a b
  rw [fin_one_one a, fin_one_one b, Matrix.mul_apply, demoEx_sum, Matrix.smul_apply, one_apply_eq, transpose_apply,
    transpose_apply, (demoEx_feature 0).1, (demoEx_feature 0).2]
  norm_num

theorem demoEx_error (m : Fin (1 * 1) → ℝ) :
    (filteredDemo demoEx - (featureMatrix 1 1 demoEx)ᵀ *ᵥ m) exZero = 307 / 10 - 3 / 10 * m 0 ∧
      (filteredDemo demoEx - (featureMatrix 1 1 demoEx)ᵀ *ᵥ m) exOne = 987 / 10 - m 0 := by
  constructor
  · show filteredDemo demoEx exZero - ∑ a, featureMatrix 1 1 demoEx a exZero * m a = _
    rw [sum_one_one, demoEx_filtered.1, (demoEx_feature 0).1]
  · show filteredDemo demoEx exOne - ∑ a, featureMatrix 1 1 demoEx a exOne * m a = _
    rw [sum_one_one, demoEx_filtered.2, (demoEx_feature 0).2, one_mul]

theorem demoEx_gradient (m : Fin (1 * 1) → ℝ) :
    featureMatrix 1 1 demoEx *ᵥ (filteredDemo demoEx - (featureMatrix 1 1 demoEx)ᵀ *ᵥ m) =
      fun _ => 109 / 100 * (99 - m 0) := by
  funext a
  show ∑ x, featureMatrix 1 1 demoEx a x * (filteredDemo demoEx - (featureMatrix 1 1 demoEx)ᵀ *ᵥ m) x = _
  rw [demoEx_sum, (demoEx_feature a).1, (demoEx_feature a).2, (demoEx_error m).1, (demoEx_error m).2]
  ring

theorem demoEx_misfit : misfit demoEx (fun _ : Fin (1 * 1) => (99 : ℝ)) = 109 / 100 := by
  rw [misfit_dot]
  show ∑ x, _ = _
  rw [demoEx_sum, (demoEx_error _).1, (demoEx_error _).2]
  norm_num

theorem inv_smul_one {c : ℝ} (hc : c ≠ 0) : (c • (1 : Matrix (Fin (1 * 1)) (Fin (1 * 1)) ℝ))⁻¹ = c⁻¹ • 1 := by
  apply Matrix.inv_eq_right_inv
  rw [smul_mul_smul_comm, mul_inv_cancel₀ hc, one_smul, Matrix.one_mul]

theorem det_smul_one (c : ℝ) : (c • (1 : Matrix (Fin (1 * 1)) (Fin (1 * 1)) ℝ)).det = c := by
  rw [det_smul, det_one, mul_one]
  simp

theorem demoEx_lik {c v : ℝ} (hc : 0 < c) (hv : 0 < v) :
    regLik (featureMatrix 1 1 demoEx) (filteredDemo demoEx) (fun _ => 99) (c • 1) v =
      2 * Real.log v + Real.log c + Real.log (109 / 100 / v + c⁻¹) + 109 / 100 / v := by
  have hC : (c • (1 : Matrix (Fin (1 * 1)) (Fin (1 * 1)) ℝ)).PosDef := PosDef.one.smul hc
  have h1 := regression_form (featureMatrix 1 1 demoEx) (filteredDemo demoEx) (fun _ => 99) hC hv (m := fun _ => 99) (by
    rw [demoEx_gradient, sub_self, sub_self, mulVec_zero, mul_zero]
    funext a
    simp)
  unfold regLik
  rw [h1, regression_det _ hC hv, inv_smul_one hc.ne', demoEx_gram, det_smul_one, smul_smul, ← add_smul, det_smul_one]
  unfold regObj
  rw [sub_self, zero_dotProduct, add_zero, ← misfit_dot, demoEx_misfit, Fintype.card_prod]
  rw [show Fintype.card (Fin demoEx.n) = 2 from rfl, show Fintype.card (Fin 1) = 1 from rfl]
  rw [show 1 / v * (109 / 100) = 109 / 100 / v by ring]
  norm_num

/-- **C103 (finding).** The complete update that the code computes can make the demonstrations much less likely, because
the sum of the squared errors is not divided by the number of observed values but by a number that grows with the mean
weights. A ProMP with one dimension and one weight (mean 99, variance 1) imitates the demonstration 99.79, 98.7 with one
iteration: the mean remains 99, the learned noise variance is smaller than 0.01 although the first position deviates by
0.79 from the mean, and the demonstration is less likely than before. -/
theorem C103_finding_variance : ∃ (p : ProMP 1 1) (demo : PrompDemo 1) (f : Demo 1), Spec.Reachable p ∧
    p.weightCov.PosDef ∧ Normalised demo f ∧ ∀ minDelta, ∃ (q : ProMP 1 1) (v : ℝ),
      (ProMP.imitate [demo] 1 minDelta).exec p = (.ok (), q) ∧ q.variance = some v ∧ 0 < v ∧ v < 1 / 100 ∧
      q.weightMean = p.weightMean ∧
      logLikelihood [f] q.weightMean q.weightCov v < logLikelihood [f] p.weightMean p.weightCov 1 := by
  have hnorm : Normalised ⟨2, .float ![0, 1], Matrix.of ![fun _ => 9979 / 100, fun _ => 987 / 10]⟩ demoEx :=
    ⟨![0, 1], 1, rfl, ⟨⟨(1 : Fin 2), rfl⟩, fun i => by
      revert i
      show ∀ i : Fin 2, _
      intro i
      fin_cases i <;> norm_num⟩, one_pos, fun i => by rw [div_one]; rfl⟩
  have hreach : Spec.Reachable ((ProMP.init 1 1).fromWeightDistribution (fun _ => 99) 1) :=
    .fromWeightDistribution .init _ _
  refine ⟨(ProMP.init 1 1).fromWeightDistribution (fun _ => 99) 1, _, demoEx, hreach, PosDef.one, hnorm, fun minDelta => ?_⟩
  obtain ⟨q, j, s, h1, h2, h3, h4, h5, h6, h7⟩ := C68_imitate_updates hreach one_pos one_pos PosDef.one
    (List.cons_ne_nil _ _) (.cons hnorm .nil) 1 minDelta
  have hj : j = 1 := by
    rcases Nat.lt_or_ge j 1 with hlt | hge
    · obtain ⟨i, hi, -⟩ := h7 hlt
      omega
    · omega
  subst hj
  have h3' : s 0 = ⟨fun _ => 99, 1, 1⟩ := h3
  have hu := h4 0
  rw [h3'] at hu
  obtain ⟨qs, hq, hmean, hcov, hvar⟩ := hu
  cases hq with
  | cons hpost hnil =>
  cases hnil
  rename_i po
  obtain ⟨g1, g2⟩ := regression_posterior (featureMatrix 1 1 demoEx) (filteredDemo demoEx) hpost.1 (fun _ => 99)
    (PosDef.one (n := Fin (1 * 1)) (R := ℝ)) one_pos fun z => by
      have := hpost.2 z
      rwa [objective_eq, objective_eq] at this
  have hm : po.mean = fun _ => 99 := by
    rw [demoEx_gradient, inv_one, one_mulVec] at g1
    have := congrFun g1 0
    simp only [div_one, one_smul, Pi.sub_apply] at this
    funext a
    rw [fin_one_one a]
    linarith
  have hP : po.cov = (100 / 209 : ℝ) • 1 := by
    rw [demoEx_gram, inv_one, div_one, one_smul] at g2
    have e : (109 / 100 : ℝ) • (1 : Matrix (Fin (1 * 1)) (Fin (1 * 1)) ℝ) + 1 = (209 / 100 : ℝ) • 1 := by
      conv_lhs => rw [← one_smul ℝ (1 : Matrix (Fin (1 * 1)) (Fin (1 * 1)) ℝ), smul_smul, ← add_smul]
      norm_num
    rw [e] at g2
    rw [← nonsing_inv_nonsing_inv po.cov (posDef_isUnit hpost.1), g2, inv_smul_one (by norm_num)]
    norm_num
  have hmean' : (s 1).mean = fun _ => 99 := by
    have : (s 1).mean = _ := hmean
    rw [this]
    simp [hm]
  have hcov' : (s 1).cov = (100 / 209 : ℝ) • 1 := by
    have : (s 1).cov = _ := hcov
    rw [this]
    simp [hm, hmean', hP]
  have hspread : spread demoEx po.cov = 109 / 209 := by
    rw [spread_trace, demoEx_gram, hP, smul_mul_smul_comm, Matrix.one_mul, trace_smul, trace_one]
    norm_num
  have hvar' : (s 1).variance = 33681 / 4180000 := by
    have : (s 1).variance = _ := hvar
    rw [this]
    simp only [List.zipWith_cons_cons, List.zipWith_nil_right, List.sum_cons, List.sum_nil, List.map_cons, List.map_nil,
      List.length_singleton, hspread]
    rw [hm, demoEx_misfit]
    have e : (fun _ : Fin (1 * 1) => (99 : ℝ)) ⬝ᵥ (fun _ => 99) = 99 ^ 2 := by
      unfold dotProduct
      rw [sum_one_one]
      norm_num
    rw [e, add_zero, add_zero, Real.sqrt_sq (by norm_num), show demoEx.n = 2 from rfl]
    norm_num
  refine ⟨q, (s 1).variance, h1, by rw [h5], by rw [hvar']; norm_num, by rw [hvar']; norm_num, by rw [h5]; exact hmean', ?_⟩
  rw [h5]
  show logLikelihood [demoEx] (s 1).mean (s 1).cov (s 1).variance < logLikelihood [demoEx] (fun _ => 99) 1 1
  rw [hmean', hcov', hvar', logLikelihood_eq, logLikelihood_eq]
  have l1 := demoEx_lik (c := 100 / 209) (v := 33681 / 4180000) (by norm_num) (by norm_num)
  have l2 := demoEx_lik (c := 1) (v := 1) one_pos one_pos
  rw [one_smul] at l2
  simp only [List.map_cons, List.map_nil, List.sum_cons, List.sum_nil, add_zero, l1, l2]
  have b1 : Real.log (109 / 100 / 1 + (1 : ℝ)⁻¹) ≤ 109 / 100 := by
    have := Real.log_le_sub_one_of_pos (x := 109 / 100 / 1 + (1 : ℝ)⁻¹) (by norm_num)
    norm_num at this ⊢
    linarith
  have b2 : -30 ≤ 2 * Real.log (33681 / 4180000) + Real.log (100 / 209) +
      Real.log (109 / 100 / (33681 / 4180000) + (100 / 209 : ℝ)⁻¹) := by
    have e : 2 * Real.log (33681 / 4180000) = Real.log ((33681 / 4180000) ^ 2) := by
      rw [Real.log_pow]
      norm_num
    rw [e, ← Real.log_mul (by norm_num) (by norm_num), ← Real.log_mul (by norm_num) (by norm_num)]
    have h16 : Real.log ((1 / 16 : ℝ) ^ 2) ≤ Real.log ((33681 / 4180000) ^ 2 * (100 / 209) *
        (109 / 100 / (33681 / 4180000) + (100 / 209 : ℝ)⁻¹)) :=
      Real.log_le_log (by norm_num) (by norm_num)
    have h15 : -15 ≤ Real.log (1 / 16 : ℝ) := by
      have := Real.one_sub_inv_le_log_of_pos (x := (1 / 16 : ℝ)) (by norm_num)
      norm_num at this ⊢
      linarith
    rw [Real.log_pow] at h16
    push_cast at h16
    linarith
  simp only [Real.log_one] 
  have b3 : (135 : ℝ) ≤ 109 / 100 / (33681 / 4180000) := by norm_num
  norm_num at b1 b2 b3 ⊢
  linarith

end Verif
