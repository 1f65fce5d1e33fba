import Verif.Spec.PrompArrays
import Verif.Props.PrompVelocity
import Verif.Props.PrompEM

/-! # C99: arrays shared by ProMPs and their caller -/

namespace Verif
open Matrix Spec
namespace PrompWorld
variable {d w n : ℕ}

/-! ## Times -/

/-- The array of times after `normalizeTimes`. -/
noncomputable def normed (T : TimeArray n) : TimeArray n := (ProMP.normalizeTimes.exec T).2

theorem usable_float {T : Vec n} (h : UsableTimes (.float T)) (hn : 0 < n) : ∃ m, IsLargest T m ∧ 0 < m := by
  obtain ⟨m, hm⟩ := exists_largest hn T
  obtain ⟨i, hi⟩ := h hn
  exact ⟨m, hm, lt_of_lt_of_le hi (hm.2 i)⟩

theorem normalizeTimes_normed {T : TimeArray n} (h : UsableTimes T) :
    ProMP.normalizeTimes.exec (normed T) = ((ProMP.normalizeTimes.exec T).1, normed T) := by
  cases T with
  | int T =>
    by_cases hn : 0 < n
    · obtain ⟨m, hm⟩ := exists_largest hn (fun i => (T i : ℝ))
      have : ProMP.normalizeTimes.exec (.int T) = (.error .typeError, .int T) := by
        unfold ProMP.normalizeTimes
        simp only [Py.exec_bind, Py.exec_get, Py.exec_lift, npMax_ok.2 hm, Py.exec_throw]
      unfold normed
      rw [this]
      exact this
    · obtain rfl : n = 0 := by omega
      have : ProMP.normalizeTimes.exec (.int T) = (.error .valueError, .int T) := by
        unfold ProMP.normalizeTimes
        simp only [Py.exec_bind, Py.exec_get, Py.exec_lift, npMax_empty]
      unfold normed
      rw [this]
      exact this
  | float T =>
    by_cases hn : 0 < n
    · obtain ⟨m, hm, h0⟩ := usable_float h hn
      unfold normed
      rw [ProMP.exec_normalizeTimes hm]
      have := ProMP.exec_normalizeTimes (ProMP.largest_div hm h0)
      simp only [div_one] at this
      exact this
    · obtain rfl : n = 0 := by omega
      have : ProMP.normalizeTimes.exec (.float T) = (.error .valueError, .float T) := by
        unfold ProMP.normalizeTimes
        simp only [Py.exec_bind, Py.exec_get, Py.exec_lift, npMax_empty]
      unfold normed
      rw [this]
      exact this

theorem normed_normed {T : TimeArray n} (h : UsableTimes T) : normed (normed T) = normed T := by
  conv_lhs => unfold normed
  rw [show (ProMP.normalizeTimes.exec T).2 = normed T from rfl, normalizeTimes_normed h]

theorem dividedByLargest_normed (T : TimeArray n) : DividedByLargest T (normed T) := by
  cases T with
  | int T =>
    by_cases hn : 0 < n
    · obtain ⟨m, hm⟩ := exists_largest hn (fun i => (T i : ℝ))
      show normed _ = _
      unfold normed ProMP.normalizeTimes
      simp only [Py.exec_bind, Py.exec_get, Py.exec_lift, npMax_ok.2 hm, Py.exec_throw]
    · obtain rfl : n = 0 := by omega
      show normed _ = _
      unfold normed ProMP.normalizeTimes
      simp only [Py.exec_bind, Py.exec_get, Py.exec_lift, npMax_empty]
  | float T =>
    by_cases hn : 0 < n
    · obtain ⟨m, hm⟩ := exists_largest hn T
      refine .inl ⟨m, hm, ?_⟩
      unfold normed
      rw [ProMP.exec_normalizeTimes hm]
    · obtain rfl : n = 0 := by omega
      refine .inr ⟨rfl, ?_⟩
      unfold normed ProMP.normalizeTimes
      simp only [Py.exec_bind, Py.exec_get, Py.exec_lift, npMax_empty]

theorem exec_rbfsNd (p : ProMP d w) : ∃ f : Vec n → Matrix (Fin (d * w)) (Fin (d * n)) ℝ, ∀ T,
    p.rbfsNdSequence.exec T = ((ProMP.normalizeTimes.exec T).1.map f, normed T) := by
  refine ⟨fun T => ndBlockDiagonal (Matrix.of fun a i => if true then p.gauss (7 / 10) (T i) a /
    ∑ b, p.gauss (7 / 10) (T i) b else p.gauss (7 / 10) (T i) a) d, fun T => ?_⟩
  unfold ProMP.rbfsNdSequence ProMP.rbfs1dSequence normed
  rw [Py.exec_bind, Py.exec_bind]
  rcases ProMP.normalizeTimes.exec T with ⟨r, T'⟩
  cases r with
  | error e => rfl
  | ok t => rfl

theorem exec_emTerms (p : ProMP d w) (Y : Matrix (Fin n) (Fin d) ℝ) : ∃ f : Vec n → EMTerms (d * w), ∀ T,
    (p.emTerms Y).exec T = ((ProMP.normalizeTimes.exec T).1.map f, normed T) := by
  obtain ⟨g, hg⟩ := exec_rbfsNd (n := n) p
  refine ⟨fun T =>
    let H := ndBlockDiagonal (hPartial n) d
    let R := H *ᵥ ravel2 Yᵀ
    let PhiHT := g T * Hᵀ
    { RTR := R ⬝ᵥ R, PhiHTR := PhiHT *ᵥ R, PhiHTHPhiT := PhiHT * PhiHTᵀ }, fun T => ?_⟩
  unfold ProMP.emTerms
  dsimp only
  rw [Py.exec_bind, hg]
  cases (ProMP.normalizeTimes.exec T).1 with
  | error e => rfl
  | ok t => rfl

theorem exec_mean (p : ProMP d w) : ∃ f : Vec n → Matrix (Fin n) (Fin d) ℝ, ∀ T,
    p.meanTrajectory.exec T = ((ProMP.normalizeTimes.exec T).1.map f, normed T) := by
  obtain ⟨g, hg⟩ := exec_rbfsNd (n := n) p
  refine ⟨fun T => (reshape2 ((g T)ᵀ *ᵥ p.weightMean))ᵀ, fun T => ?_⟩
  unfold ProMP.meanTrajectory ProMP.trajectoryFromWeights
  rw [Py.exec_bind, hg]
  cases (ProMP.normalizeTimes.exec T).1 with
  | error e => rfl
  | ok t => rfl

theorem exec_rbfsDerivativeNd (p : ProMP d w) {T : TimeArray n} (hT : UsableTimes T) :
    (p.rbfsDerivativeNdSequence.exec T).2 = normed T := by
  unfold ProMP.rbfsDerivativeNdSequence ProMP.rbfsDerivative1dSequence ProMP.rbfs1dSequence
  rw [Py.exec_bind, Py.exec_bind, Py.exec_bind]
  have h := normalizeTimes_normed hT
  unfold normed at h ⊢
  generalize ProMP.normalizeTimes.exec T = x at h ⊢
  obtain ⟨r, T'⟩ := x
  cases r with
  | error e => rfl
  | ok t =>
    replace h : ProMP.normalizeTimes.exec T' = (.ok t, T') := h
    dsimp only
    rw [Py.exec_pure]
    dsimp only
    rw [Py.exec_bind, h]
    rfl

/-- **C46, finding.** All methods that get times as argument modify them in the same way, also `weights`, the method that
learns from a demonstration. -/
theorem C46_all_methods_modify_times (p : ProMP d w) {T : TimeArray n} (hT : UsableTimes T) (W : Vec (d * w))
    (Y : Matrix (Fin n) (Fin d) ℝ) (lmbda : ℝ) :
    ∃ T', DividedByLargest T T' ∧
      ((p.trajectoryFromWeights W).exec T).2 = T' ∧ ((p.weights Y lmbda).exec T).2 = T' ∧
      (p.meanTrajectory.exec T).2 = T' ∧ (p.covTrajectory.exec T).2 = T' ∧ (p.varTrajectory.exec T).2 = T' ∧
      (p.meanVelocities.exec T).2 = T' ∧ (p.covVelocities.exec T).2 = T' ∧ (p.varVelocities.exec T).2 = T' := by
  obtain ⟨g, hg⟩ := exec_rbfsNd (n := n) p
  have hd := exec_rbfsDerivativeNd p hT
  refine ⟨normed T, dividedByLargest_normed T, ?_, ?_, ?_, ?_, ?_, ?_, ?_, ?_⟩
  · unfold ProMP.trajectoryFromWeights
    rw [Py.exec_bind, hg]
    cases (ProMP.normalizeTimes.exec T).1 <;> rfl
  · unfold ProMP.weights
    rw [Py.exec_bind, hg]
    cases (ProMP.normalizeTimes.exec T).1 <;> rfl
  · unfold ProMP.meanTrajectory ProMP.trajectoryFromWeights
    rw [Py.exec_bind, hg]
    cases (ProMP.normalizeTimes.exec T).1 <;> rfl
  · unfold ProMP.covTrajectory
    rw [Py.exec_bind, hg]
    cases (ProMP.normalizeTimes.exec T).1 <;> rfl
  · unfold ProMP.varTrajectory ProMP.covTrajectory
    rw [Py.exec_bind, Py.exec_bind, hg]
    cases (ProMP.normalizeTimes.exec T).1 <;> rfl
  · unfold ProMP.meanVelocities
    rw [Py.exec_bind]
    generalize p.rbfsDerivativeNdSequence.exec T = x at hd ⊢
    obtain ⟨r, T'⟩ := x
    cases r <;> exact hd
  · unfold ProMP.covVelocities
    rw [Py.exec_bind]
    generalize p.rbfsDerivativeNdSequence.exec T = x at hd ⊢
    obtain ⟨r, T'⟩ := x
    cases r <;> exact hd
  · unfold ProMP.varVelocities ProMP.covVelocities
    rw [Py.exec_bind, Py.exec_bind]
    generalize p.rbfsDerivativeNdSequence.exec T = x at hd ⊢
    obtain ⟨r, T'⟩ := x
    cases r <;> exact hd

/-- Only some arrays of times have been normalised. -/
def TimesLike (W W' : PrompWorld d w) : Prop :=
  ∀ n k, W'.times n k = W.times n k ∨ W'.times n k = normed (W.times n k)

theorem emTerms_like {p : ProMP d w} {Y : Matrix (Fin n) (Fin d) ℝ} {T T' : TimeArray n} (hT : UsableTimes T)
    (h : T' = T ∨ T' = normed T) : (p.emTerms Y).exec T' = (((p.emTerms Y).exec T).1, normed T) := by
  obtain ⟨f, hf⟩ := exec_emTerms p Y
  rcases h with rfl | rfl
  · rw [hf]
  · rw [hf, hf, normalizeTimes_normed hT, normed_normed hT]

theorem exec_onTimes {α : Type} {k : ℕ} (m : Py (TimeArray n) α) (W : PrompWorld d w) :
    (onTimes n k m).exec W = ((m.exec (W.times n k)).1, { W with
      times := Function.update W.times n (Function.update (W.times n) k (m.exec (W.times n k)).2) }) := rfl

theorem update_times {times : (n : ℕ) → ℕ → TimeArray n} {k : ℕ} (T : TimeArray n) (n' k' : ℕ) :
    Function.update times n (Function.update (times n) k T) n' k' =
      if h : n' = n ∧ k' = k then h.1 ▸ T else times n' k' := by
  by_cases hn : n' = n
  · subst hn
    rw [Function.update_self]
    by_cases hk : k' = k
    · subst hk
      simp
    · rw [Function.update_of_ne hk, dif_neg (fun h => hk h.2)]
  · rw [Function.update_of_ne hn, dif_neg (fun h => hn h.1)]

/-- The loop over the demonstrations. -/
theorem exec_emTermsAll (p : ProMP d w) (W0 : PrompWorld d w) (hT : ∀ n k, UsableTimes (W0.times n k)) :
    ∀ (demos : List (StoredDemo d)) (W : PrompWorld d w), TimesLike W0 W →
      ∃ times, (emTermsAll p demos).exec W =
          (p.emTermsAll (demos.map (storedValue W0)), { W with times := times }) ∧
        TimesLike W0 { W with times := times } ∧
        (∀ n k, (∀ demo ∈ demos, ¬ (demo.n = n ∧ demo.k = k)) → times n k = W.times n k) ∧
        (∀ n k, W.times n k = normed (W0.times n k) → times n k = normed (W0.times n k)) ∧
        (∀ es, p.emTermsAll (demos.map (storedValue W0)) = .ok es → ∀ demo ∈ demos,
          times demo.n demo.k = normed (W0.times demo.n demo.k)) := by
  intro demos
  induction demos with
  | nil =>
    intro W h
    exact ⟨W.times, rfl, h, fun _ _ _ => rfl, fun _ _ h => h, fun _ _ _ hm => absurd hm List.not_mem_nil⟩
  | cons demo rest ih =>
    intro W h
    obtain ⟨n, k, Y⟩ := demo
    have he := emTerms_like (p := p) (Y := Y) (hT n k) (h n k)
    set W1 : PrompWorld d w := { W with
      times := Function.update W.times n (Function.update (W.times n) k (normed (W0.times n k))) } with hW1
    have h1 : TimesLike W0 W1 := by
      intro n' k'
      rw [hW1]
      simp only [update_times]
      split_ifs with hh
      · obtain ⟨rfl, rfl⟩ := hh
        exact .inr rfl
      · exact h n' k'
    have hk1 : W1.times n k = normed (W0.times n k) := by
      rw [hW1]; simp
    have hne : ∀ n' k', ¬ (n = n' ∧ k = k') → W1.times n' k' = W.times n' k' := by
      intro n' k' hh
      rw [hW1]
      simp only [update_times]
      rw [dif_neg (fun x => hh ⟨x.1.symm, x.2.symm⟩)]
    have hn1 : ∀ n' k', W.times n' k' = normed (W0.times n' k') → W1.times n' k' = normed (W0.times n' k') := by
      intro n' k' hh
      by_cases hx : n = n' ∧ k = k'
      · obtain ⟨rfl, rfl⟩ := hx
        exact hk1
      · rw [hne _ _ hx, hh]
    unfold emTermsAll
    rw [Py.exec_bind, exec_onTimes, he]
    simp only [List.map_cons]
    unfold ProMP.emTermsAll
    have hv : (storedValue W0 ⟨n, k, Y⟩).T = W0.times n k := rfl
    cases hr : ((p.emTerms Y).exec (W0.times n k)).1 with
    | error e =>
      refine ⟨W1.times, ?_, h1, fun n' k' hh => hne _ _ (hh ⟨n, k, Y⟩ (by simp)), hn1, ?_⟩
      · simp only [storedValue, hr]; rfl
      · intro es hes
        simp only [storedValue, hr] at hes
        cases hes
    | ok e =>
      obtain ⟨times, g1, g2, g3, g4, g5⟩ := ih W1 h1
      have hcase : (Py.exec (do
          let es ← emTermsAll p rest
          return e :: es) W1) = (p.emTermsAll (rest.map (storedValue W0)) >>= fun es => .ok (e :: es),
            { W1 with times := times }) := by
        rw [Py.exec_bind, g1]
        cases p.emTermsAll (rest.map (storedValue W0)) <;> rfl
      refine ⟨times, ?_, g2, fun n' k' hh => ?_, fun n' k' hh => g4 _ _ (hn1 _ _ hh), fun es hes demo hm => ?_⟩
      · simp only [storedValue, hr]
        exact hcase
      · rw [g3 n' k' fun x hx => hh x (List.mem_cons_of_mem _ hx), hne _ _ (hh ⟨n, k, Y⟩ (by simp))]
      · rcases List.mem_cons.1 hm with rfl | hm
        · exact g4 _ _ hk1
        · simp only [storedValue, hr] at hes
          cases hq : p.emTermsAll (rest.map (storedValue W0)) with
          | error e' =>
            rw [hq] at hes
            cases hes
          | ok es' => exact g5 _ hq _ hm

/-! ## Effects of one operation -/

theorem read_assign (W : PrompWorld d w) (o : ℕ) (mean : Vec (d * w)) (cov : Matrix (Fin (d * w)) (Fin (d * w)) ℝ)
    (v : Option ℝ) : (W.assign o mean cov v).read o = ⟨mean, cov, linspace01 w, v⟩ := by
  unfold read assign
  simp

theorem exec_imitate_world (W : PrompWorld d w) (hT : ∀ n k, UsableTimes (W.times n k)) (o : ℕ)
    (demos : List (StoredDemo d)) (nIter : ℕ) (minDelta : ℝ) :
    ∃ times,
      (∀ n k, (∀ demo ∈ demos, ¬ (demo.n = n ∧ demo.k = k)) → times n k = W.times n k) ∧
      (∀ es, ({ W.read o with variance := some 1 } : ProMP d w).emTermsAll (demos.map (storedValue W)) = .ok es →
        ∀ demo ∈ demos, times demo.n demo.k = normed (W.times demo.n demo.k)) ∧
      TimesLike W { W with times := times } ∧
      (imitate o demos nIter minDelta).exec W =
        match ({ W.read o with variance := some 1 } : ProMP d w).emTermsAll (demos.map (storedValue W)) with
        | .error e => (.error e, { W with
            times := times
            objs := Function.update W.objs o { W.objs o with variance := some 1 } })
        | .ok es => (.ok (), finishImitate o (demos.map fun demo => demo.n).sum nIter minDelta es { W with
            times := times
            objs := Function.update W.objs o { W.objs o with variance := some 1 } }) := by
  set W1 : PrompWorld d w := { W with objs := Function.update W.objs o { W.objs o with variance := some 1 } } with hW1
  have hread : W1.read o = { W.read o with variance := some 1 } := by
    rw [hW1]; unfold read; simp
  obtain ⟨times, g1, g2, g3, -, g5⟩ := exec_emTermsAll (W1.read o) W hT demos W1 fun n k => .inl rfl
  rw [hread] at g1 g5
  refine ⟨times, g3, g5, g2, ?_⟩
  unfold imitate
  rw [Py.exec_bind, Py.exec_modify]
  dsimp only
  rw [Py.exec_bind, Py.exec_get]
  dsimp only
  rw [Py.exec_bind, ← hW1, hread, g1]
  cases ({ W.read o with variance := some 1 } : ProMP d w).emTermsAll (demos.map (storedValue W)) <;> rfl

/-- **C99 (imitate).** `imitate` with arrays of the caller has the outcome of `imitate` with the values that these arrays
have in the beginning, even if several demonstrations share an array of times. Afterwards all arrays of times that were used
are divided by their largest entry, other arrays of times are not modified. -/
theorem C99_imitate (W : PrompWorld d w) (hT : ∀ n k, UsableTimes (W.times n k)) (o : ℕ)
    (demos : List (StoredDemo d)) (nIter : ℕ) (minDelta : ℝ) :
    let r := (imitate o demos nIter minDelta).exec W
    let v := (ProMP.imitate (demos.map (storedValue W)) nIter minDelta).exec (W.read o)
    r.1 = v.1 ∧ r.2.read o = v.2 ∧
      (r.1 = .ok () → ∀ demo ∈ demos,
        DividedByLargest (W.times demo.n demo.k) (r.2.times demo.n demo.k)) ∧
      ∀ n k, (∀ demo ∈ demos, ¬ (demo.n = n ∧ demo.k = k)) → r.2.times n k = W.times n k := by
  obtain ⟨times, h1, h2, -, h3⟩ := exec_imitate_world W hT o demos nIter minDelta
  dsimp only
  rw [h3]
  have hv : (ProMP.imitate (demos.map (storedValue W)) nIter minDelta).exec (W.read o) =
      match ({ W.read o with variance := some 1 } : ProMP d w).emTermsAll (demos.map (storedValue W)) with
      | .error e => (.error e, { W.read o with variance := some 1 })
      | .ok es =>
        let s := emLoop d (demos.map fun demo => demo.n).sum es minDelta nIter
          ⟨(W.read o).weightMean, (W.read o).weightCov, 1⟩
        (.ok (), { W.read o with weightMean := s.mean, weightCov := s.cov, variance := some s.variance }) := by
    unfold ProMP.imitate
    rw [Py.exec_bind, Py.exec_modify]
    dsimp only
    rw [Py.exec_bind, Py.exec_get]
    dsimp only
    rw [Py.exec_bind, Py.exec_lift]
    cases ({ W.read o with variance := some 1 } : ProMP d w).emTermsAll (demos.map (storedValue W)) with
    | error e => rfl
    | ok es =>
      simp only [List.map_map]
      rfl
  rw [hv]
  cases hes : ({ W.read o with variance := some 1 } : ProMP d w).emTermsAll (demos.map (storedValue W)) with
  | error e =>
    refine ⟨rfl, ?_, fun h => ?_, h1⟩
    · unfold read; simp
    · cases h
  | ok es =>
    refine ⟨rfl, ?_, fun _ demo hm => ?_, fun n k hh => ?_⟩
    · unfold finishImitate
      by_cases hn : nIter = 0
      · subst hn
        unfold read
        simp [emLoop]
      · simp only [if_neg hn]
        rw [read_assign]
        unfold read
        simp
    · have : times demo.n demo.k = normed (W.times demo.n demo.k) := h2 es hes demo hm
      unfold finishImitate
      by_cases hn : nIter = 0
      · simp only [if_pos hn, this]
        exact dividedByLargest_normed _
      · simp only [if_neg hn, assign, this]
        exact dividedByLargest_normed _
    · unfold finishImitate
      by_cases hn : nIter = 0
      · simp only [if_pos hn]; exact h1 n k hh
      · simp only [if_neg hn, assign]; exact h1 n k hh

/-- **C99 (mean_trajectory).** The query returns what the value of the object returns for the value of the array; objects are
not modified. -/
theorem C99_mean_trajectory (W : PrompWorld d w) (o n k : ℕ) :
    let r := (meanTrajectory o n k).exec W
    r.1 = ((W.read o).meanTrajectory.exec (W.times n k)).1 ∧ (∀ o', r.2.read o' = W.read o') ∧
      DividedByLargest (W.times n k) (r.2.times n k) := by
  obtain ⟨f, hf⟩ := exec_mean (n := n) (W.read o)
  have : (meanTrajectory o n k).exec W = (((W.read o).meanTrajectory.exec (W.times n k)).1, { W with
      times := Function.update W.times n (Function.update (W.times n) k (normed (W.times n k))) }) := by
    unfold meanTrajectory
    rw [Py.exec_bind, Py.exec_get]
    dsimp only
    rw [exec_onTimes, hf]
  dsimp only
  rw [this]
  refine ⟨rfl, fun _ => rfl, ?_⟩
  simp only [Function.update_self]
  exact dividedByLargest_normed _

/-- **C99 (construction).** A new object has the initial distribution. -/
theorem C99_construct (W : PrompWorld d w) (o : ℕ) : (W.construct o).read o = ProMP.init d w :=
  read_assign _ _ _ _ _

/-- **C99 (from_weight_distribution).** The object has the current values of the arrays. -/
theorem C99_from_weight_distribution (W : PrompWorld d w) (o i j : ℕ) :
    (W.fromWeightDistribution o i j).read o = (W.read o).fromWeightDistribution (W.means i) (W.covs j) := by
  unfold fromWeightDistribution read ProMP.fromWeightDistribution
  simp

/-- **C99 (condition_position).** The new object has the conditional distribution; the outcome is that of the value of the
object. If conditioning fails, nothing is changed. -/
theorem C99_condition_position (W : PrompWorld d w) (o o' : ℕ) (y : Vec d) (c : YCov d) (t tMax : ℝ) :
    let r := (conditionPosition o o' y c t tMax).exec W
    let v := ((ProMP.conditionPosition y c t tMax).exec (W.read o)).1
    (∀ q, v = .ok q → r.1 = .ok () ∧ r.2.read o' = q) ∧ ∀ e, v = .error e → r = (.error e, W) := by
  dsimp only
  unfold conditionPosition
  rw [Py.exec_bind, Py.exec_get]
  dsimp only
  rw [Py.exec_bind, Py.exec_lift]
  cases hv : ((ProMP.conditionPosition y c t tMax).exec (W.read o)).1 with
  | error e =>
    refine ⟨fun q h => (by cases h), fun e' h => ?_⟩
    cases h
    rfl
  | ok q =>
    refine ⟨fun q' h => ?_, fun e' h => (by cases h)⟩
    cases h
    refine ⟨rfl, ?_⟩
    show (W.assign o' _ _ _).read o' = q
    rw [read_assign]
    have : q.centers = linspace01 w := by
      unfold ProMP.conditionPosition at hv
      rw [Py.exec_bind, Py.exec_get] at hv
      dsimp only at hv
      rw [Py.exec_bind, Py.exec_lift] at hv
      cases h1 : (W.read o).rbfs1dPoint t tMax with
      | error e => rw [h1] at hv; cases hv
      | ok phi =>
        rw [h1] at hv
        dsimp only at hv
        rw [Py.exec_bind, Py.exec_lift] at hv
        split at hv
        · rw [Py.exec_pure] at hv
          cases hv
          rfl
        · cases hv
    rw [← this]

/-! ## What is not changed -/

theorem emTermsAll_world (p : ProMP d w) : ∀ (demos : List (StoredDemo d)) (W : PrompWorld d w),
    ∃ times, ((emTermsAll p demos).exec W).2 = { W with times := times }
  | [], W => ⟨W.times, rfl⟩
  | demo :: rest, W => by
    unfold emTermsAll
    rw [Py.exec_bind, exec_onTimes]
    cases ((p.emTerms demo.Y).exec (W.times demo.n demo.k)).1 with
    | error e => exact ⟨_, rfl⟩
    | ok e =>
      dsimp only
      rw [Py.exec_bind]
      generalize hW1 : ({ W with times := Function.update W.times demo.n (Function.update (W.times demo.n) demo.k
        ((p.emTerms demo.Y).exec (W.times demo.n demo.k)).2) } : PrompWorld d w) = W1
      obtain ⟨times, h⟩ := emTermsAll_world p rest W1
      refine ⟨times, ?_⟩
      rcases hr : (emTermsAll p rest).exec W1 with ⟨r, W2⟩
      rw [hr] at h
      simp only at h
      subst h
      rw [← hW1]
      cases r <;> rfl

/-- New arrays and an assignment to one object only. -/
structure Step (W W' : PrompWorld d w) (o : ℕ) : Prop where
  next : W.next ≤ W'.next
  means : ∀ i, i < W.next → W'.means i = W.means i
  covs : ∀ j, j < W.next → W'.covs j = W.covs j
  others : ∀ o', o' ≠ o → W'.objs o' = W.objs o'
  own : (W'.objs o).mean < W'.next ∧ (W'.objs o).cov < W'.next

theorem Step.allocated {W W' : PrompWorld d w} {o : ℕ} (h : Step W W' o) (hW : Allocated W) : Allocated W' := by
  intro o'
  by_cases ho : o' = o
  · rw [ho]; exact h.own
  · rw [h.others o' ho]
    exact ⟨lt_of_lt_of_le (hW o').1 h.next, lt_of_lt_of_le (hW o').2 h.next⟩

theorem step_assign (W : PrompWorld d w) (o : ℕ) (mean : Vec (d * w)) (cov : Matrix (Fin (d * w)) (Fin (d * w)) ℝ)
    (v : Option ℝ) : Step W (W.assign o mean cov v) o where
  next := Nat.le_succ _
  means i hi := Function.update_of_ne hi.ne _ _
  covs j hj := Function.update_of_ne hj.ne _ _
  others o' ho := Function.update_of_ne ho _ _
  own := by simp [assign]

theorem step_self {W : PrompWorld d w} (hW : Allocated W) (o : ℕ) : Step W W o :=
  ⟨le_rfl, fun _ _ => rfl, fun _ _ => rfl, fun _ _ => rfl, hW o⟩

theorem step_conditionPosition {W : PrompWorld d w} (hW : Allocated W) (o o' : ℕ) (y : Vec d) (c : YCov d)
    (t tMax : ℝ) : Step W ((conditionPosition o o' y c t tMax).exec W).2 o' := by
  unfold conditionPosition
  rw [Py.exec_bind, Py.exec_get]
  dsimp only
  rw [Py.exec_bind, Py.exec_lift]
  cases ((ProMP.conditionPosition y c t tMax).exec (W.read o)).1 with
  | error e => exact step_self hW o'
  | ok q => exact step_assign W o' _ _ _

theorem step_imitate {W : PrompWorld d w} (hW : Allocated W) (o : ℕ) (demos : List (StoredDemo d)) (nIter : ℕ)
    (minDelta : ℝ) : Step W ((imitate o demos nIter minDelta).exec W).2 o := by
  unfold imitate
  rw [Py.exec_bind, Py.exec_modify]
  dsimp only
  rw [Py.exec_bind, Py.exec_get]
  dsimp only
  rw [Py.exec_bind]
  generalize hW1 : ({ W with
    objs := Function.update W.objs o { W.objs o with variance := some 1 } } : PrompWorld d w) = W1
  have h1 : Step W W1 o := by
    subst hW1
    exact ⟨le_rfl, fun _ _ => rfl, fun _ _ => rfl, fun o' ho => Function.update_of_ne ho _ _, by
      simp only [Function.update_self]; exact hW o⟩
  obtain ⟨times, h⟩ := emTermsAll_world (W1.read o) demos W1
  rcases hr : (emTermsAll (W1.read o) demos).exec W1 with ⟨r, W2⟩
  rw [hr] at h
  simp only at h
  have h2 : Step W W2 o := by
    subst h
    exact ⟨h1.next, h1.means, h1.covs, h1.others, h1.own⟩
  cases r with
  | error e => exact h2
  | ok es =>
    show Step W (finishImitate o _ nIter minDelta es W2) o
    unfold finishImitate
    by_cases hn : nIter = 0
    · rw [if_pos hn]; exact h2
    · rw [if_neg hn]
      have h3 := step_assign W2 o
      refine ⟨h2.next.trans (h3 _ _ _).next, fun i hi => ?_, fun j hj => ?_, fun o' ho => ?_, (h3 _ _ _).own⟩
      · rw [(h3 _ _ _).means i (lt_of_lt_of_le hi h2.next), h2.means i hi]
      · rw [(h3 _ _ _).covs j (lt_of_lt_of_le hj h2.next), h2.covs j hj]
      · rw [(h3 _ _ _).others o' ho, h2.others o' ho]

/-- Effect of an operation on arrays and objects. -/
theorem perform_frame {W : PrompWorld d w} (hW : Allocated W) {op : Op d w} (hop : UsesAllocated W op) :
    Allocated (W.perform op) ∧ W.next ≤ (W.perform op).next ∧
      (∀ i, i < W.next → ¬ WritesMean i op → (W.perform op).means i = W.means i) ∧
      (∀ j, j < W.next → ¬ WritesCov j op → (W.perform op).covs j = W.covs j) ∧
      ∀ o, target op ≠ some o → (W.perform op).objs o = W.objs o := by
  have key : ∀ (W' : PrompWorld d w) (o : ℕ), Step W W' o → target op = some o →
      Allocated W' ∧ W.next ≤ W'.next ∧
      (∀ i, i < W.next → ¬ WritesMean i op → W'.means i = W.means i) ∧
      (∀ j, j < W.next → ¬ WritesCov j op → W'.covs j = W.covs j) ∧
      ∀ o, target op ≠ some o → W'.objs o = W.objs o := by
    intro W' o h ho
    refine ⟨h.allocated hW, h.next, fun i hi _ => h.means i hi, fun j hj _ => h.covs j hj, fun o' ho' => ?_⟩
    refine h.others o' fun e => ho' ?_
    rw [e, ho]
  cases op with
  | construct o => exact key _ o (step_assign W o _ _ _) rfl
  | fromWeightDistribution o i j =>
    refine key _ o ⟨le_rfl, fun _ _ => rfl, fun _ _ => rfl, fun o' ho => Function.update_of_ne ho _ _, ?_⟩ rfl
    simp only [perform, fromWeightDistribution, Function.update_self]
    exact hop
  | conditionPosition o o' y c t tMax => exact key _ o' (step_conditionPosition hW o o' y c t tMax) rfl
  | imitate o demos nIter minDelta => exact key _ o (step_imitate hW o demos nIter minDelta) rfl
  | meanTrajectory o n k =>
    exact ⟨hW, le_rfl, fun _ _ _ => rfl, fun _ _ _ => rfl, fun _ _ => rfl⟩
  | allocate mean cov =>
    exact ⟨fun o => ⟨(hW o).1.trans (Nat.lt_succ_self _), (hW o).2.trans (Nat.lt_succ_self _)⟩, Nat.le_succ _,
      fun i hi _ => Function.update_of_ne hi.ne _ _, fun j hj _ => Function.update_of_ne hj.ne _ _, fun _ _ => rfl⟩
  | writeMean i mean =>
    exact ⟨hW, le_rfl, fun i' _ hw => Function.update_of_ne (fun e => hw e.symm) _ _, fun _ _ _ => rfl, fun _ _ => rfl⟩
  | writeCov j cov =>
    exact ⟨hW, le_rfl, fun _ _ _ => rfl, fun j' _ hw => Function.update_of_ne (fun e => hw e.symm) _ _, fun _ _ => rfl⟩
  | writeTimes n k T => exact ⟨hW, le_rfl, fun _ _ _ => rfl, fun _ _ _ => rfl, fun _ _ => rfl⟩

/-- **C99 (arrays of the caller).** No method of a ProMP modifies an array with a mean or a covariance: after any program
such an array has the same entries unless the program assigned entries itself. -/
theorem C99_arrays_kept {W : PrompWorld d w} (hW : Allocated W) (ops : List (Op d w)) (hops : ValidProgram W ops) :
    (∀ i, i < W.next → (∀ op ∈ ops, ¬ WritesMean i op) → (runProgram W ops).means i = W.means i) ∧
      ∀ j, j < W.next → (∀ op ∈ ops, ¬ WritesCov j op) → (runProgram W ops).covs j = W.covs j := by
  induction ops generalizing W with
  | nil => exact ⟨fun _ _ _ => rfl, fun _ _ _ => rfl⟩
  | cons op ops ih =>
    obtain ⟨h1, h2, h3, h4, -⟩ := perform_frame hW hops.1
    obtain ⟨g1, g2⟩ := ih h1 hops.2
    refine ⟨fun i hi hw => ?_, fun j hj hw => ?_⟩
    · exact (g1 i (lt_of_lt_of_le hi h2) fun x hx => hw x (List.mem_cons_of_mem _ hx)).trans
        (h3 i hi (hw op List.mem_cons_self))
    · exact (g2 j (lt_of_lt_of_le hj h2) fun x hx => hw x (List.mem_cons_of_mem _ hx)).trans
        (h4 j hj (hw op List.mem_cons_self))

/-- **C99 (objects).** An object keeps its distribution in every program that does not call its methods
`from_weight_distribution` and `imitate` (or replaces it by another object) and does not assign entries of its arrays,
whatever happens to other objects, even if they share arrays with it. -/
theorem C99_isolated {W : PrompWorld d w} (hW : Allocated W) (ops : List (Op d w)) (hops : ValidProgram W ops) (o : ℕ)
    (ho : ∀ op ∈ ops, target op ≠ some o ∧ ¬ WritesMean (W.objs o).mean op ∧ ¬ WritesCov (W.objs o).cov op) :
    (runProgram W ops).read o = W.read o := by
  have hobj : (runProgram W ops).objs o = W.objs o := by
    induction ops generalizing W with
    | nil => rfl
    | cons op ops ih =>
      obtain ⟨h1, -, -, -, h5⟩ := perform_frame hW hops.1
      have h := h5 o (ho op List.mem_cons_self).1
      refine (ih h1 hops.2 fun x hx => ?_).trans h
      rw [h]
      exact ho x (List.mem_cons_of_mem _ hx)
  obtain ⟨g1, g2⟩ := C99_arrays_kept hW ops hops
  unfold read
  rw [hobj, g1 _ (hW o).1 fun op hop => (ho op hop).2.1, g2 _ (hW o).2 fun op hop => (ho op hop).2.2]

/-- **C99 (own arrays).** The arrays of a new object, of an object created by `condition_position` and of an object after
`imitate` (with at least one iteration) belong to this object: assignments of the caller to any array that existed before do
not change it. -/
theorem C99_own_arrays (W : PrompWorld d w) (hT : ∀ n k, UsableTimes (W.times n k)) (op : Op d w) (o : ℕ)
    (hop : op = .construct o ∨
      (∃ o₁ y c t tMax, op = .conditionPosition o₁ o y c t tMax ∧
        ((PrompWorld.conditionPosition o₁ o y c t tMax).exec W).1 = .ok ()) ∨
      ∃ demos nIter minDelta, op = .imitate o demos (nIter + 1) minDelta ∧
        ((PrompWorld.imitate o demos (nIter + 1) minDelta).exec W).1 = .ok ()) :
    (∀ i mean, i < W.next → ((W.perform op).perform (.writeMean i mean)).read o = (W.perform op).read o) ∧
      ∀ j cov, j < W.next → ((W.perform op).perform (.writeCov j cov)).read o = (W.perform op).read o := by
  have key : W.next ≤ ((W.perform op).objs o).mean ∧ W.next ≤ ((W.perform op).objs o).cov := by
    rcases hop with rfl | ⟨o₁, y, c, t, tMax, rfl, h⟩ | ⟨demos, nIter, minDelta, rfl, h⟩
    · simp [perform, construct, assign]
    · simp only [perform]
      unfold conditionPosition at h ⊢
      rw [Py.exec_bind, Py.exec_get] at h ⊢
      dsimp only at h ⊢
      rw [Py.exec_bind, Py.exec_lift] at h ⊢
      cases hv : ((ProMP.conditionPosition y c t tMax).exec (W.read o₁)).1 with
      | error e => rw [hv] at h; cases h
      | ok q =>
        show W.next ≤ ((W.assign o _ _ _).objs o).mean ∧ W.next ≤ ((W.assign o _ _ _).objs o).cov
        simp [assign]
    · simp only [perform]
      obtain ⟨times, -, -, -, h3⟩ := exec_imitate_world W hT o demos (nIter + 1) minDelta
      rw [h3] at h ⊢
      cases hes : ({ W.read o with variance := some 1 } : ProMP d w).emTermsAll (demos.map (storedValue W)) with
      | error e => rw [hes] at h; cases h
      | ok es =>
        simp only [finishImitate, Nat.succ_ne_zero, if_false]
        simp [assign]
  generalize W.perform op = V at key ⊢
  refine ⟨fun i mean hi => ?_, fun j cov hj => ?_⟩
  · simp only [perform, read]
    rw [Function.update_of_ne (by omega)]
  · simp only [perform, read]
    rw [Function.update_of_ne (by omega)]

/-- **C99, finding.** `from_weight_distribution` keeps the arrays of the caller: later assignments of the caller to their
entries change the distribution, of all objects that were initialised with these arrays. `imitate` with `n_iter = 0` does not
change that. -/
theorem C99_finding_shared (W : PrompWorld d w) (o₁ o₂ i j : ℕ) (mean : Vec (d * w))
    (cov : Matrix (Fin (d * w)) (Fin (d * w)) ℝ) :
    let W' := runProgram W [.fromWeightDistribution o₁ i j, .fromWeightDistribution o₂ i j, .imitate o₁ [] 0 0,
      .writeMean i mean, .writeCov j cov]
    (W'.read o₁).weightMean = mean ∧ (W'.read o₁).weightCov = cov ∧
      (W'.read o₂).weightMean = mean ∧ (W'.read o₂).weightCov = cov := by
  have h : ∀ V : PrompWorld d w, ((imitate o₁ [] 0 0).exec V).2 = { V with
      objs := Function.update V.objs o₁ { V.objs o₁ with variance := some 1 } } := fun V => rfl
  simp only [runProgram, List.foldl_cons, List.foldl_nil, perform, h, read, fromWeightDistribution]
  by_cases ho : o₁ = o₂
  · subst ho; simp
  · simp [Function.update_of_ne ho, Function.update_of_ne (Ne.symm ho)]

/-- A memory with one array of times, one array each for mean and covariance, to which all objects refer. -/
noncomputable def world0 (d w : ℕ) : PrompWorld d w where
  times _ _ := .float fun _ => 1
  means _ := 0
  covs _ := 1
  next := 1
  objs _ := ⟨0, 0, none⟩

example : Allocated (world0 2 5) ∧ (∀ n k, UsableTimes ((world0 2 5).times n k)) ∧
    ValidProgram (world0 2 5) [.construct 0, .fromWeightDistribution 1 0 0, .meanTrajectory 1 3 0, .writeMean 0 1] ∧
    ∀ op ∈ ([.construct 0, .fromWeightDistribution 1 0 0, .meanTrajectory 1 3 0, .writeCov 1 0] : List (Op 2 5)),
      target op ≠ some 2 ∧ ¬ WritesMean ((world0 2 5).objs 2).mean op ∧ ¬ WritesCov ((world0 2 5).objs 2).cov op := by
  refine ⟨fun o => ⟨Nat.one_pos, Nat.one_pos⟩, fun n k hn => ⟨⟨0, hn⟩, one_pos⟩, ?_, ?_⟩
  · have h : ∀ W : PrompWorld 2 5, ((PrompWorld.meanTrajectory 1 3 0).exec W).2.next = W.next := fun W => rfl
    simp [ValidProgram, UsesAllocated, perform, construct, assign, fromWeightDistribution, world0, h]
  · simp [target, WritesMean, WritesCov, world0]

end PrompWorld
end Verif
