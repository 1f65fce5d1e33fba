import Verif.Props.CartesianClass
import Verif.Spec.CartesianHistory

/-! # C06, C22, C24, C26, C28 for Cartesian DMPs -/

namespace Verif
open Spec Matrix
variable {m n : ℕ}

namespace CartesianDMP

theorem initForcingTerms_eq (m : ℕ) (τ : ℝ) :
    initForcingTerms m τ = (DMP.initForcingTerm 3 m τ).map (fun ft => (ft, ft)) := by
  unfold initForcingTerms DMP.initForcingTerm
  cases canonicalSystemAlpha (1 / 100) τ 0 with
  | error e => rfl
  | ok a =>
    simp only [bind, Except.bind]
    cases ForcingTerm.create 3 m τ 0 (8 / 10) a <;> rfl

theorem exec_setExecutionTime (τ : ℝ) (s : CartesianDMP m) :
    (setExecutionTime τ).exec s =
      match DMP.initForcingTerm 3 m τ with
      | .ok ft => (.ok (), { s with executionTime := τ, ftPos := { ft with weights := s.ftPos.weights }
                                    ftRot := { ft with weights := s.ftRot.weights } })
      | .error e => (.error e, { s with executionTime := τ }) := by
  unfold setExecutionTime
  simp only [Py.exec_bind, Py.exec_modify, Py.exec_get, Py.exec_lift]
  rw [initForcingTerms_eq]
  cases DMP.initForcingTerm 3 m τ <;> rfl

theorem exec_configure (a : ConfigArgs) (s : CartesianDMP m) :
    (configure a).exec s =
      (((Movement.configure a).exec s.toMovement).1,
        { s with toMovement := ((Movement.configure a).exec s.toMovement).2 }) := rfl

theorem exec_imitate (ops : QuatOps) (qgrad : (Fin (n + 2) → Vec 4) → Fin (n + 2) → Vec 3)
    (T : Fin (n + 2) → ℝ) (Y : Fin (n + 2) → Vec (3 + 4)) (reg : ℝ) (afv : Bool) (s : CartesianDMP m) :
    (imitate ops qgrad T Y reg afv).exec s =
      match dmpImitate m T (fun t => sliceTo (Y t)) reg (sliceTo s.alphaY) (sliceTo s.betaY) s.ftPos.overlap
          s.ftPos.alphaZ afv s.smooth with
      | .error e => (.error e, s)
      | .ok wp =>
        match dmpImitateWith m T reg s.ftRot.overlap s.ftRot.alphaZ
            (.ok (determineForcesQuaternion ops qgrad T (fun t => sliceFrom (Y t)) (sliceFrom s.alphaY)
              (sliceFrom s.betaY) s.ftRot.alphaZ afv s.smooth)) with
        | .error e => (.error e, { s with ftPos := { s.ftPos with weights := wp.1 } })
        | .ok wr => (configure { startY := some (List.ofFn (Y 0)), goalY := some (List.ofFn (Y (Fin.last (n + 1)))) }).exec
            { s with ftPos := { s.ftPos with weights := wp.1 }, ftRot := { s.ftRot with weights := wr } } := by
  unfold imitate
  simp only [Py.exec_bind, Py.exec_modify, Py.exec_get, Py.exec_lift]
  cases dmpImitate m T (fun t => sliceTo (Y t)) reg (sliceTo s.alphaY) (sliceTo s.betaY) s.ftPos.overlap
          s.ftPos.alphaZ afv s.smooth with
  | error e => rfl
  | ok wp =>
    simp only
    cases dmpImitateWith m T reg s.ftRot.overlap s.ftRot.alphaZ
            (.ok (determineForcesQuaternion ops qgrad T (fun t => sliceFrom (Y t)) (sliceFrom s.alphaY)
              (sliceFrom s.betaY) s.ftRot.alphaZ afv s.smooth)) <;> rfl

/-- What every reachable Cartesian DMP satisfies. -/
structure Valid (s : CartesianDMP m) : Prop where
  two : 2 ≤ m
  pos : s.ftPos.overlap = 8 / 10
  rot : s.ftRot.overlap = 8 / 10

theorem create_valid {τ dt intDt : ℝ} {smooth : Bool} {α β : ArrayLike} {s : CartesianDMP m}
    (h : create m τ dt intDt smooth α β = .ok s) : s.Valid := by
  unfold create at h
  rw [initForcingTerms_eq] at h
  cases h1 : DMP.initForcingTerm 3 m τ with
  | error e => rw [h1] at h; cases h
  | ok ft =>
    rw [h1] at h
    cases h2 : ensure1dArray α (3 + 3) with
    | error e => rw [h2] at h; cases h
    | ok a =>
      rw [h2] at h
      cases h3 : ensure1dArray β (3 + 3) with
      | error e => rw [h3] at h; cases h
      | ok b =>
        rw [h3] at h
        simp only [bind, Except.bind, Except.map, Pure.pure, Except.pure, Except.ok.injEq] at h
        rw [DMP.initForcingTerm_ok_iff] at h1
        obtain ⟨_, _, e3, _, e5, _⟩ := create_eq h1
        subst h
        exact ⟨e5, e3, e3⟩

theorem exec_setWeights (w : List ℝ) (s : CartesianDMP m) :
    (setWeights w).exec s =
      match assignRows m (w.take (3 * m)) with
      | .error e => (.error e, s)
      | .ok wp =>
        match assignRows m (w.drop (3 * m)) with
        | .error e => (.error e, { s with ftPos := { s.ftPos with weights := wp } })
        | .ok wr => (.ok (), { s with ftPos := { s.ftPos with weights := wp }
                                      ftRot := { s.ftRot with weights := wr } }) := by
  unfold setWeights
  simp only [Py.exec_bind, Py.exec_modify, Py.exec_lift]
  cases assignRows m (w.take (3 * m)) with
  | error e => rfl
  | ok wp =>
    simp only
    cases assignRows m (w.drop (3 * m)) <;> rfl

theorem after_valid (o : CartesianOp m) {s : CartesianDMP m} (hs : s.Valid) : (o.after s).Valid := by
  cases o with
  | step c sf qf y yd =>
    simp only [CartesianOp.after, exec_step]
    split
    · exact ⟨hs.two, hs.pos, hs.rot⟩
    · split <;> exact ⟨hs.two, hs.pos, hs.rot⟩
  | openLoop ops t c nm qn => simp only [CartesianOp.after, exec_openLoop]; exact hs
  | configure a => exact ⟨hs.two, hs.pos, hs.rot⟩
  | reset => exact ⟨hs.two, hs.pos, hs.rot⟩
  | setWeights w =>
    simp only [CartesianOp.after, exec_setWeights]
    split
    · exact hs
    · split <;> exact ⟨hs.two, hs.pos, hs.rot⟩
  | setExecutionTime τ =>
    simp only [CartesianOp.after, exec_setExecutionTime]
    cases h : DMP.initForcingTerm 3 m τ with
    | error e => exact ⟨hs.two, hs.pos, hs.rot⟩
    | ok ft =>
      rw [DMP.initForcingTerm_ok_iff] at h
      obtain ⟨_, _, e3, _⟩ := create_eq h
      exact ⟨hs.two, e3, e3⟩
  | imitate ops qgrad T Y reg afv =>
    simp only [CartesianOp.after, exec_imitate]
    split
    · exact hs
    · split <;> exact ⟨hs.two, hs.pos, hs.rot⟩

theorem Reachable.valid {s : CartesianDMP m} (h : s.Reachable) : s.Valid := by
  induction h with
  | create h => exact create_valid h
  | op o _ ih => exact after_valid o ih

end CartesianDMP

/-! ## C22 -/

theorem assignRows_flat (f : Fin 3 → Fin m → ℝ) :
    CartesianDMP.assignRows m (List.ofFn (fun i : Fin (3 * m) => f i.divNat i.modNat)) = .ok f := by
  unfold CartesianDMP.assignRows
  rw [dif_pos (by simp)]
  congr 1
  funext k i
  simp only [List.getElem_ofFn]
  have h := finProdFinEquiv.symm_apply_apply (k, i)
  have h1 : (finProdFinEquiv (k, i)).divNat = k := congrArg Prod.fst h
  have h2 : (finProdFinEquiv (k, i)).modNat = i := congrArg Prod.snd h
  have hv : (⟨m * k.val + i.val, by
      have := k.isLt
      have := i.isLt
      have h2 : m * k.val ≤ m * 2 := Nat.mul_le_mul_left _ (by omega)
      omega⟩ : Fin (3 * m)) = finProdFinEquiv (k, i) := by
    ext; simp [finProdFinEquiv]; ring
  rw [hv, h1, h2]

theorem assignRows_ok {w : List ℝ} (hw : w.length = 3 * m) :
    ∃ f, CartesianDMP.assignRows m w = .ok f ∧ List.ofFn (fun i : Fin (3 * m) => f i.divNat i.modNat) = w := by
  unfold CartesianDMP.assignRows
  rw [dif_pos hw]
  refine ⟨_, rfl, ?_⟩
  apply List.ext_getElem
  · simp [hw]
  · intro i h1 h2
    simp only [List.getElem_ofFn]
    congr 1
    simp only [Fin.divNat, Fin.modNat]
    exact Nat.div_add_mod i m

theorem assignRows_row {w : List ℝ} (hw : w.length = m) :
    CartesianDMP.assignRows m w = .ok (fun _ i => w[i.val]'(by rw [hw]; exact i.isLt)) := by
  unfold CartesianDMP.assignRows
  by_cases h : w.length = 3 * m
  · have hm : m = 0 := by omega
    subst hm
    rw [dif_pos h]
    congr 1
    funext k i
    exact i.elim0
  · rw [dif_neg h, dif_pos hw]

theorem assignRows_error {w : List ℝ} (h1 : w.length ≠ 3 * m) (h2 : w.length ≠ m) :
    CartesianDMP.assignRows m w = .error .valueError := by
  unfold CartesianDMP.assignRows
  rw [dif_neg h1, dif_neg h2]

/-- **C22 (Cartesian).** Six times `n_weights_per_dim` weights that are written can be read; nothing else changes. -/
theorem C22_cartesian_set_get (s : CartesianDMP m) (w : List ℝ) (hw : w.length = 6 * m) :
    ∃ s', (CartesianDMP.setWeights w).exec s = (.ok (), s') ∧ s'.getWeights = w ∧
      { s' with ftPos := { s'.ftPos with weights := s.ftPos.weights }
                ftRot := { s'.ftRot with weights := s.ftRot.weights } } = s := by
  obtain ⟨fp, h1, h2⟩ := assignRows_ok (m := m) (w := w.take (3 * m)) (by rw [List.length_take]; omega)
  obtain ⟨fr, h3, h4⟩ := assignRows_ok (m := m) (w := w.drop (3 * m)) (by rw [List.length_drop]; omega)
  rw [CartesianDMP.exec_setWeights, h1, h3]
  refine ⟨_, rfl, ?_, rfl⟩
  unfold CartesianDMP.getWeights
  simp only
  rw [h2, h4, List.take_append_drop]

/-- **C22 (Cartesian).** Writing the weights that were read changes nothing. -/
theorem C22_cartesian_get_set (s : CartesianDMP m) :
    (CartesianDMP.setWeights s.getWeights).exec s = (.ok (), s) := by
  have h1 : s.getWeights.take (3 * m) = List.ofFn (fun i : Fin (3 * m) => s.ftPos.weights i.divNat i.modNat) := by
    unfold CartesianDMP.getWeights
    rw [List.take_left' (by simp)]
  have h2 : s.getWeights.drop (3 * m) = List.ofFn (fun i : Fin (3 * m) => s.ftRot.weights i.divNat i.modNat) := by
    unfold CartesianDMP.getWeights
    rw [List.drop_left' (by simp)]
  rw [CartesianDMP.exec_setWeights, h1, h2, assignRows_flat, assignRows_flat]

/-- The weight of basis function `i` for position component `k` is entry `k * m + i`, for rotation component `k` entry
`(3 + k) * m + i`. -/
theorem C22_cartesian_row_major (s : CartesianDMP m) (k : Fin 3) (i : Fin m) :
    s.getWeights[k.val * m + i.val]? = some (s.ftPos.weights k i) ∧
    s.getWeights[(3 + k.val) * m + i.val]? = some (s.ftRot.weights k i) := by
  have h := finProdFinEquiv.symm_apply_apply (k, i)
  have h1 : (finProdFinEquiv (k, i)).divNat = k := congrArg Prod.fst h
  have h2 : (finProdFinEquiv (k, i)).modNat = i := congrArg Prod.snd h
  have hv : (finProdFinEquiv (k, i)).val = k.val * m + i.val := by
    simp [finProdFinEquiv]; ring
  have hlt : k.val * m + i.val < 3 * m := by rw [← hv]; exact (finProdFinEquiv (k, i)).isLt
  have hf : (⟨k.val * m + i.val, hlt⟩ : Fin (3 * m)) = finProdFinEquiv (k, i) := Fin.ext hv.symm
  unfold CartesianDMP.getWeights
  constructor
  · rw [List.getElem?_append_left (by simpa using hlt), List.getElem?_ofFn, dif_pos hlt, hf, h1, h2]
  · have e : (3 + k.val) * m + i.val = 3 * m + (k.val * m + i.val) := by ring
    rw [e, List.getElem?_append_right (by simp)]
    simp only [List.length_ofFn, Nat.add_sub_cancel_left]
    rw [List.getElem?_ofFn, dif_pos hlt, hf, h1, h2]

/-- **C22 (Cartesian), finding.** Exactly which lengths raise: all except `6 m` and `4 m`. -/
theorem C22_cartesian_raises_iff (hm : 0 < m) (s : CartesianDMP m) (w : List ℝ) :
    ((CartesianDMP.setWeights w).exec s).1 = .error .valueError ↔ w.length ≠ 6 * m ∧ w.length ≠ 4 * m := by
  rw [CartesianDMP.exec_setWeights]
  have ht : (w.take (3 * m)).length = min (3 * m) w.length := List.length_take
  have hd : (w.drop (3 * m)).length = w.length - 3 * m := List.length_drop
  by_cases a : (w.take (3 * m)).length = 3 * m
  · obtain ⟨f, h1, -⟩ := assignRows_ok a
    rw [h1]
    by_cases b : (w.drop (3 * m)).length = 3 * m
    · obtain ⟨f', h2, -⟩ := assignRows_ok b
      rw [h2]
      simp only [reduceCtorEq, false_iff]
      omega
    · by_cases c : (w.drop (3 * m)).length = m
      · rw [assignRows_row c]
        simp only [reduceCtorEq, false_iff]
        omega
      · rw [assignRows_error b c]
        simp only [true_iff]
        omega
  · by_cases a' : (w.take (3 * m)).length = m
    · rw [assignRows_row a']
      rw [assignRows_error (by omega) (by omega)]
      simp only [true_iff]
      omega
    · rw [assignRows_error a a']
      simp only [true_iff]
      omega

/-- Finding (C22): a vector of length `4 m` is silently accepted. Its last `m` entries are used for all three rotation
components, so the weights that are read are not those that were written. -/
theorem C22_cartesian_broadcast (hm : 0 < m) (s : CartesianDMP m) (w : List ℝ) (hw : w.length = 4 * m) :
    ∃ s', (CartesianDMP.setWeights w).exec s = (.ok (), s') ∧ s'.getWeights ≠ w ∧
      ∀ (k : Fin 3) (i : Fin m), w[3 * m + i.val]? = some (s'.ftRot.weights k i) := by
  obtain ⟨fp, h1, h2⟩ := assignRows_ok (m := m) (w := w.take (3 * m)) (by rw [List.length_take]; omega)
  have hd : (w.drop (3 * m)).length = m := by rw [List.length_drop]; omega
  rw [CartesianDMP.exec_setWeights, h1, assignRows_row hd]
  refine ⟨_, rfl, ?_, ?_⟩
  · intro h
    have := congrArg List.length h
    simp only [CartesianDMP.getWeights, List.length_append, List.length_ofFn] at this
    omega
  · intro k i
    have hi := i.isLt
    simp only [List.getElem_drop]
    rw [List.getElem?_eq_getElem (by omega)]

/-- Finding (C22): for every other length of at least `3 m` the call raises ValueError after the position weights
have been overwritten. -/
theorem C22_cartesian_not_atomic (s : CartesianDMP m) (w : List ℝ) (h3 : 3 * m ≤ w.length)
    (h6 : w.length ≠ 6 * m) (h4 : w.length ≠ 4 * m) :
    ∃ s', (CartesianDMP.setWeights w).exec s = (.error .valueError, s') ∧
      s'.getWeights.take (3 * m) = w.take (3 * m) ∧ s'.getWeights.drop (3 * m) = s.getWeights.drop (3 * m) := by
  obtain ⟨fp, h1, h2⟩ := assignRows_ok (m := m) (w := w.take (3 * m)) (by rw [List.length_take]; omega)
  have hd : (w.drop (3 * m)).length = w.length - 3 * m := List.length_drop
  rw [CartesianDMP.exec_setWeights, h1, assignRows_error (by omega) (by omega)]
  refine ⟨_, rfl, ?_, ?_⟩
  · unfold CartesianDMP.getWeights
    rw [List.take_left' (by simp), h2]
  · unfold CartesianDMP.getWeights
    rw [List.drop_left' (by simp), List.drop_left' (by simp)]

/-- **C22 (Cartesian).** Shorter vectors raise ValueError; they change nothing unless their length is `m`. -/
theorem C22_cartesian_short (hm : 0 < m) (s : CartesianDMP m) (w : List ℝ) (h3 : w.length < 3 * m) :
    ((CartesianDMP.setWeights w).exec s).1 = .error .valueError ∧
      (w.length ≠ m → ((CartesianDMP.setWeights w).exec s).2 = s) := by
  refine ⟨(C22_cartesian_raises_iff hm s w).2 (by omega), fun hne => ?_⟩
  have ht : (w.take (3 * m)).length = min (3 * m) w.length := List.length_take
  rw [CartesianDMP.exec_setWeights, assignRows_error (by omega) (by omega)]

/-- Finding (C22): a vector of length `m` raises ValueError after all position weights have been overwritten with it. -/
theorem C22_cartesian_row (hm : 0 < m) (s : CartesianDMP m) (w : List ℝ) (hw : w.length = m) :
    ∃ s', (CartesianDMP.setWeights w).exec s = (.error .valueError, s') ∧
      ∀ (k : Fin 3) (i : Fin m), w[i.val]? = some (s'.ftPos.weights k i) := by
  have ht : (w.take (3 * m)).length = m := by rw [List.length_take]; omega
  have hd : (w.drop (3 * m)).length = 0 := by rw [List.length_drop]; omega
  rw [CartesianDMP.exec_setWeights, assignRows_row ht, assignRows_error (by omega) (by omega)]
  refine ⟨_, rfl, fun k i => ?_⟩
  simp only [List.getElem_take]
  rw [List.getElem?_eq_getElem (by rw [hw]; exact i.isLt)]

/-- All lengths above occur. -/
example : (List.replicate 12 (1 : ℝ)).length = 6 * 2 ∧ (List.replicate 8 (1 : ℝ)).length = 4 * 2 ∧
    3 * 2 ≤ (List.replicate 7 (1 : ℝ)).length ∧ (List.replicate 7 (1 : ℝ)).length ≠ 4 * 2 ∧
    (List.replicate 2 (1 : ℝ)).length = 2 := by simp

/-! ## C24 -/

/-- **C24 (Cartesian).** For every reachable Cartesian DMP (whatever failed before), assigning a positive execution time
succeeds, is read back, keeps the weights and everything else, and rebuilds both phases. -/
theorem C24_cartesian {s : CartesianDMP m} (hs : s.Reachable) {τ : ℝ} (hτ : 0 < τ) :
    ∃ s', (CartesianDMP.setExecutionTime τ).exec s = (.ok (), s') ∧ s'.executionTime = τ ∧
      s'.getWeights = s.getWeights ∧ s'.ftPos.phaseAt 0 = 1 ∧ s'.ftPos.phaseAt τ = 1 / 100 ∧
      s'.ftRot.phaseAt 0 = 1 ∧ s'.ftRot.phaseAt τ = 1 / 100 ∧
      { s' with executionTime := s.executionTime, ftPos := s.ftPos, ftRot := s.ftRot } = s := by
  obtain ⟨ft, hft⟩ := (DMP.initForcingTerm_isOk_iff (d := 3) (m := m) τ).2 ⟨hs.valid.two, hτ⟩
  rw [CartesianDMP.exec_setExecutionTime, hft]
  rw [DMP.initForcingTerm_ok_iff] at hft
  obtain ⟨e1, e2, e3, e4, _⟩ := create_eq hft
  have p0 : ft.phaseAt 0 = 1 := by
    simp [ForcingTerm.phaseAt, phase, e2]
  have p1 : ft.phaseAt τ = 1 / 100 := by
    simp only [ForcingTerm.phaseAt, phase, e1, e2, e4, sub_zero, neg_neg]
    rw [mul_div_assoc, div_self hτ.ne', mul_one, Real.exp_log (by norm_num)]
  exact ⟨_, rfl, rfl, rfl, p0, p1, p0, p1, rfl⟩

/-- Finding (C24): a failing assignment stores the invalid value. -/
theorem C24_cartesian_not_atomic (s : CartesianDMP m) {τ : ℝ} (hτ : τ ≤ 0) :
    (CartesianDMP.setExecutionTime τ).exec s = (.error .valueError, { s with executionTime := τ }) := by
  rw [CartesianDMP.exec_setExecutionTime]
  have : DMP.initForcingTerm 3 m τ = .error .valueError := by
    unfold DMP.initForcingTerm canonicalSystemAlpha
    rw [if_neg (by norm_num), if_pos hτ]
    rfl
  rw [this]

/-! ## C06 -/

/-- **C06 (orientation).** Inserting a force into the rotational acceleration equation (with start and goal of the
demonstration) at a sample's orientation, angular velocity and phase returns the sample's angular acceleration if and
only if it is the force computed by imitation. `log (goal * conj q)` is the rotation that is left. -/
theorem C06_orientation_forces (ops : QuatOps) (qgrad : (Fin (n + 2) → Vec 4) → Fin (n + 2) → Vec 3)
    (T : Fin (n + 2) → ℝ) (Y : Fin (n + 2) → Vec 4) (alphaY betaY : Vec 3)
    (alphaZ : ℝ) (afv smooth : Bool) (hT : T 0 < T (Fin.last _)) (t : Fin (n + 2)) (k : Fin 3) (f : ℝ) :
    (alphaY k * (betaY k * ops.log (ops.mul (Y (Fin.last _)) (ops.conj (Y t))) k
        - (T (Fin.last _) - T 0) * demoRotYd qgrad T Y afv t k
        - (if smooth then betaY k * Real.exp (-alphaZ * (T t - T 0) / (T (Fin.last _) - T 0)) *
            ops.log (ops.mul (Y (Fin.last _)) (ops.conj (Y 0))) k else 0)) + f) / (T (Fin.last _) - T 0) ^ 2 =
      demoRotYdd qgrad T Y afv t k ↔
      f = determineForcesQuaternion ops qgrad T Y alphaY betaY alphaZ afv smooth t k := by
  have hτ : T (Fin.last (n + 1)) - T 0 ≠ 0 := by linarith [sub_pos.2 hT]
  unfold determineForcesQuaternion phase QuatStepArgs.diff
  simp only
  rw [div_eq_iff (pow_ne_zero 2 hτ)]
  constructor
  · intro h; linarith
  · intro h; rw [h]; ring

/-- **C06 (orientation).** The angular velocities and accelerations of the demonstration: the library's quaternion
gradient divided by the time differences and its finite differences, apart from the last sample. -/
theorem C06_demonstrated_rotation (qgrad : (Fin (n + 2) → Vec 4) → Fin (n + 2) → Vec 3)
    (T : Fin (n + 2) → ℝ) (Y : Fin (n + 2) → Vec 4) (afv : Bool) (t : Fin (n + 2)) (k : Fin 3) :
    (t ≠ Fin.last _ → demoRotYd qgrad T Y afv t k = qgrad Y t k / gradient T t ∧
      demoRotYdd qgrad T Y afv t k = finiteDifference T (fun i => demoRotYd qgrad T Y afv i k) t) ∧
    (t = Fin.last _ → demoRotYdd qgrad T Y afv t k = 0 ∧
      demoRotYd qgrad T Y afv t k = if afv then qgrad Y t k / gradient T t else 0) := by
  constructor
  · intro h
    constructor
    · unfold demoRotYd
      rw [if_neg (fun h' => h h'.1)]
    · unfold demoRotYdd
      rw [if_neg h, gradient_div]
  · intro h
    constructor
    · unfold demoRotYdd
      rw [if_pos h]
    · unfold demoRotYd
      cases afv <;> simp [h]

/-! ## C28, C26 -/

theorem newValue_ofFn {p : ℕ} (x o : Vec p) : newValue (some (List.ofFn x)) o = x := by
  funext i; simp [newValue]

/-- **C28, C26 (Cartesian).** For every reachable Cartesian DMP, `imitate` with a coefficient that is not negative and
time stamps that span a positive interval succeeds. Only the weights, start and goal change; start and goal become the
first and last demonstrated pose. The position weights are those that a regular DMP learns from the positions. The
rotation weights minimise the regularised squared error to the forces of the orientation equation, and are the only
minimiser for a positive coefficient. -/
theorem C28_cartesian_imitate {s : CartesianDMP m} (hs : s.Reachable) (ops : QuatOps)
    (qgrad : (Fin (n + 2) → Vec 4) → Fin (n + 2) → Vec 3) (T : Fin (n + 2) → ℝ) (Y : Fin (n + 2) → Vec (3 + 4))
    {reg : ℝ} (hreg : 0 ≤ reg) (hT : T 0 < T (Fin.last _)) (afv : Bool) :
    ∃ wp wr, (CartesianDMP.imitate ops qgrad T Y reg afv).exec s =
        (.ok (), { s with startY := Y 0, goalY := Y (Fin.last _)
                          ftPos := { s.ftPos with weights := wp }, ftRot := { s.ftRot with weights := wr } }) ∧
      dmpImitate m T (fun t => position (Y t)) reg (linear s.alphaY) (linear s.betaY) (8 / 10) s.ftPos.alphaZ afv
          s.smooth = .ok (wp, position (Y 0), position (Y (Fin.last _))) ∧
      ∃ ft : ForcingTerm 3 m, ForcingTerm.create 3 m (T (Fin.last _)) (T 0) (8 / 10) s.ftRot.alphaZ = .ok ft ∧
        let error := regularizedError (determineForcesQuaternion ops qgrad T (fun t => orientation (Y t))
            (angular s.alphaY) (angular s.betaY) s.ftRot.alphaZ afv s.smooth)
          (fun W t => ({ ft with weights := W } : ForcingTerm 3 m).call (T t)) reg
        ∀ V, error wr ≤ error V ∧ (0 < reg → error V ≤ error wr → V = wr) := by
  obtain ⟨hm, hp, hr⟩ := hs.valid
  have hok : ∀ az, ∃ ft', ForcingTerm.create 3 m (T (Fin.last (n + 1))) (T 0) (8 / 10) az = .ok ft' := by
    intro az
    unfold ForcingTerm.create
    rw [if_neg (by omega), if_neg (not_le.2 hT), if_neg (by norm_num)]
    exact ⟨_, rfl⟩
  obtain ⟨ftp, hftp⟩ := hok s.ftPos.alphaZ
  obtain ⟨ftr, hftr⟩ := hok s.ftRot.alphaZ
  simp only [position_eq, linear_eq, orientation_eq, angular_eq]
  set F := determineForcesQuaternion ops qgrad T (fun t => sliceFrom (Y t)) (sliceFrom s.alphaY)
    (sliceFrom s.betaY) s.ftRot.alphaZ afv s.smooth with hF
  refine ⟨ridgeRegression (Matrix.of (ftp.designMatrix T)) (Matrix.of (determineForces T (fun t => sliceTo (Y t))
      (sliceTo s.alphaY) (sliceTo s.betaY) s.ftPos.alphaZ afv s.smooth)) reg,
    ridgeRegression (Matrix.of (ftr.designMatrix T)) (Matrix.of F) reg, ?_, ?_, ftr, hftr, ?_⟩
  · rw [CartesianDMP.exec_imitate, dmpImitate_eq (hp ▸ hftp) hreg]
    simp only
    rw [dmpImitateWith_eq (hr ▸ hftr) hreg]
    simp only
    rw [CartesianDMP.exec_configure, C25_configure_sets _ _ (by simp [AllOk, FieldOk])]
    simp only [newValue_ofFn]
    rfl
  · exact dmpImitate_eq hftp hreg
  · intro V
    obtain ⟨hg, hst, _⟩ := create_eq hftr
    have he : (fun (W : Fin 3 → Fin m → ℝ) t => ({ ftr with weights := W } : ForcingTerm 3 m).call (T t)) =
        (fun W t k => ∑ i, W k i * ftr.designMatrix T i t) := by
      funext W t k
      exact (designMatrix_force ftr T hst hg W t k).symm
    rw [he]
    exact ⟨C26_ridge_optimal _ _ hreg rfl V, fun hpos hV => C26_ridge_unique _ _ hpos rfl V hV⟩

/-- **C28 (Cartesian).** Otherwise `imitate` raises ValueError and the object is unchanged. -/
theorem C28_cartesian_raises (s : CartesianDMP m) (ops : QuatOps)
    (qgrad : (Fin (n + 2) → Vec 4) → Fin (n + 2) → Vec 3) (T : Fin (n + 2) → ℝ) (Y : Fin (n + 2) → Vec (3 + 4))
    (reg : ℝ) (afv : Bool) (h : reg < 0 ∨ T (Fin.last _) ≤ T 0) :
    (CartesianDMP.imitate ops qgrad T Y reg afv).exec s = (.error .valueError, s) := by
  rw [CartesianDMP.exec_imitate]
  by_cases hreg : reg < 0
  · rw [dmpImitate_neg hreg]
  · have hT := h.resolve_left hreg
    have hft : ForcingTerm.create 3 m (T (Fin.last (n + 1))) (T 0) s.ftPos.overlap s.ftPos.alphaZ =
        .error .valueError := by
      unfold ForcingTerm.create
      by_cases hm : m ≤ 1
      · rw [if_pos hm]
      · rw [if_neg hm, if_pos hT]
    rw [dmpImitate_error hft hreg]

theorem determineForcesQuaternion_const {ops : QuatOps} {eps : ℝ} (hops : LawfulQuatOps ops eps) (heps : 0 < eps)
    {qgrad : (Fin (n + 2) → Vec 4) → Fin (n + 2) → Vec 3} {q : Vec 4} (hq : UnitQuat q)
    (hgrad : qgrad (fun _ => q) = fun _ => 0) (T : Fin (n + 2) → ℝ) (alphaY betaY : Vec 3) (alphaZ : ℝ)
    (afv smooth : Bool) :
    determineForcesQuaternion ops qgrad T (fun _ => q) alphaY betaY alphaZ afv smooth = 0 := by
  have h1 : demoRotYd qgrad T (fun _ => q) afv = 0 := by
    funext t k
    unfold demoRotYd
    rw [hgrad]
    simp
  have h2 : demoRotYdd qgrad T (fun _ => q) afv = 0 := by
    funext t k
    unfold demoRotYdd
    rw [h1]
    have := gradient_const (n := n) 0 t
    simp only [Pi.zero_apply]
    rw [this]
    simp
  have h3 := LawfulQuatOps.diff_eq_zero hops heps hq hq (Or.inl rfl)
  funext t k
  unfold determineForcesQuaternion
  simp only [h1, h2, h3, Pi.zero_apply]
  simp

/-- **C28 (Cartesian).** A demonstration that stays at one pose teaches zero weights, and start and goal become that
pose. (`hgrad`: the gradient of a constant orientation is zero.) -/
theorem C28_cartesian_constant {s s' : CartesianDMP m} (hs : s.Reachable) {ops : QuatOps} {eps : ℝ}
    (hops : LawfulQuatOps ops eps) (heps : 0 < eps) {qgrad : (Fin (n + 2) → Vec 4) → Fin (n + 2) → Vec 3}
    {y : Vec (3 + 4)} (hq : UnitQuat (orientation y)) (hgrad : qgrad (fun _ => orientation y) = fun _ => 0)
    {T : Fin (n + 2) → ℝ} {reg : ℝ} {afv : Bool}
    (h : (CartesianDMP.imitate ops qgrad T (fun _ => y) reg afv).exec s = (.ok (), s')) :
    (∀ w ∈ s'.getWeights, w = 0) ∧ s'.startY = y ∧ s'.goalY = y := by
  by_cases hc : reg < 0 ∨ T (Fin.last _) ≤ T 0
  · rw [C28_cartesian_raises s ops qgrad T _ reg afv hc] at h
    cases h
  · push Not at hc
    obtain ⟨hm, hp, hr⟩ := hs.valid
    have hok : ∀ az, ∃ ft', ForcingTerm.create 3 m (T (Fin.last (n + 1))) (T 0) (8 / 10) az = .ok ft' := by
      intro az
      unfold ForcingTerm.create
      rw [if_neg (by omega), if_neg (not_le.2 hc.2), if_neg (by norm_num)]
      exact ⟨_, rfl⟩
    obtain ⟨ftp, hftp⟩ := hok s.ftPos.alphaZ
    obtain ⟨ftr, hftr⟩ := hok s.ftRot.alphaZ
    rw [CartesianDMP.exec_imitate, hp, hr, dmpImitate_eq hftp hc.1] at h
    simp only at h
    rw [dmpImitateWith_eq hftr hc.1] at h
    simp only at h
    rw [CartesianDMP.exec_configure, C25_configure_sets _ _ (by simp [AllOk, FieldOk])] at h
    simp only [newValue_ofFn, Prod.mk.injEq, true_and] at h
    rw [orientation_eq] at hq hgrad
    have e1 := determineForces_const T (sliceTo y : Vec 3) (sliceTo s.alphaY) (sliceTo s.betaY) s.ftPos.alphaZ afv
      s.smooth
    have e2 := determineForcesQuaternion_const hops heps hq hgrad T (sliceFrom s.alphaY) (sliceFrom s.betaY)
      s.ftRot.alphaZ afv s.smooth
    rw [e1, e2] at h
    have z1 : ridgeRegression (Matrix.of (ftp.designMatrix T)) (Matrix.of (0 : Fin (n + 2) → Vec 3)) reg = 0 :=
      ridge_zero _ _
    have z2 : ridgeRegression (Matrix.of (ftr.designMatrix T)) (Matrix.of (0 : Fin (n + 2) → Vec 3)) reg = 0 :=
      ridge_zero _ _
    subst h
    refine ⟨?_, rfl, rfl⟩
    intro w hw
    simp only [CartesianDMP.getWeights, z1, z2, List.mem_append, List.mem_ofFn] at hw
    rcases hw with ⟨i, rfl⟩ | ⟨i, rfl⟩ <;> rfl

/-- Reachable Cartesian DMPs exist and time stamps as required by `C28_cartesian_imitate` exist. -/
example : ∃ s : CartesianDMP 10, s.Reachable ∧ (fun i : Fin (3 + 2) => (i.val : ℝ)) 0 < (fun i => (i.val : ℝ)) (Fin.last 4) := by
  obtain ⟨s, hs, _⟩ := CartesianDMP.create_ok (m := 10) (by norm_num) one_pos (1 / 100) (1 / 1000) false 25 (25 / 4)
  exact ⟨s, .create hs, by simp⟩

end Verif
