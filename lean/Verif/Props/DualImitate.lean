import Verif.Spec.DualHistory
import Verif.Props.DualClass
import Verif.Props.CartesianImitate

/-! # Weights and imitation learning of dual-arm DMPs (C22, C26, C28) -/

namespace Verif
open Spec Matrix
variable {m n : ℕ}

namespace DualCartesianDMP

theorem exec_setWeights (w : List ℝ) (s : DualCartesianDMP m) : (setWeights w).exec s =
    match DMP.reshapeWeights 12 m w with
    | .ok w => (.ok (), { s with ft := { s.ft with weights := w } })
    | .error e => (.error e, s) := by
  unfold setWeights
  simp only [Py.exec_bind, Py.exec_lift]
  cases DMP.reshapeWeights 12 m w <;> rfl

theorem exec_setExecutionTime (τ : ℝ) (s : DualCartesianDMP m) : (setExecutionTime τ).exec s =
    match DMP.initForcingTerm 12 m τ with
    | .ok ft => (.ok (), { s with executionTime := τ, ft := { ft with weights := s.ft.weights } })
    | .error e => (.error e, { s with executionTime := τ }) := by
  unfold setExecutionTime
  simp only [Py.exec_bind, Py.exec_modify, Py.exec_get, Py.exec_lift]
  rw [show initForcingTerm m τ = DMP.initForcingTerm 12 m τ from rfl]
  cases DMP.initForcingTerm 12 m τ <;> rfl

theorem exec_configure (a : ConfigArgs) (s : DualCartesianDMP m) :
    (configure a).exec s =
      (((Movement.configure a).exec s.toMovement).1,
        { s with toMovement := ((Movement.configure a).exec s.toMovement).2 }) := rfl

/-- What every reachable dual-arm DMP satisfies. -/
structure Valid (s : DualCartesianDMP m) : Prop where
  two : 2 ≤ m
  overlap : s.ft.overlap = 8 / 10

theorem create_valid {τ dt intDt pGain : ℝ} {smooth : Bool} {α β : ArrayLike} {s : DualCartesianDMP m}
    (h : create m τ dt intDt pGain smooth α β = .ok s) : s.Valid := by
  unfold create at h
  rw [show initForcingTerm m τ = DMP.initForcingTerm 12 m τ from rfl] at h
  cases h1 : DMP.initForcingTerm 12 m τ with
  | error e => rw [h1] at h; cases h
  | ok ft =>
    rw [h1] at h
    cases h2 : ensure1dArray α 12 with
    | error e => rw [h2] at h; cases h
    | ok a =>
      rw [h2] at h
      cases h3 : ensure1dArray β 12 with
      | error e => rw [h3] at h; cases h
      | ok b =>
        rw [h3] at h
        simp only [bind, Except.bind, Pure.pure, Except.pure, Except.ok.injEq] at h
        rw [DMP.initForcingTerm_ok_iff] at h1
        obtain ⟨_, _, e3, _, e5, _⟩ := create_eq h1
        subst h
        exact ⟨e5, e3⟩

/-- `imitate` changes only the weights of the forcing term, start and goal. -/
theorem imitate_overlap (ops : QuatOps) (qgrad : (Fin (n + 2) → Vec 4) → Fin (n + 2) → Vec 3)
    (T : Fin (n + 2) → ℝ) (Y : Fin (n + 2) → Vec 14) (reg : ℝ) (afv : Bool) (s : DualCartesianDMP m) :
    ((imitate ops qgrad T Y reg afv).exec s).2.ft.overlap = s.ft.overlap := by
  unfold imitate
  simp only [Py.exec_bind, Py.exec_modify, Py.exec_get, Py.exec_lift]
  cases dmpImitate m T (fun t => armPos 0 (Y t)) reg (armLin 0 s.alphaY) (armLin 0 s.betaY) s.ft.overlap
    s.ft.alphaZ afv s.smooth with
  | error e => rfl
  | ok w0 =>
    simp only
    cases dmpImitateWith m T reg s.ft.overlap s.ft.alphaZ
      (.ok (determineForcesQuaternion ops qgrad T (fun t => armRot 0 (Y t)) (armAng 0 s.alphaY) (armAng 0 s.betaY)
      s.ft.alphaZ afv s.smooth)) with
    | error e => rfl
    | ok w1 =>
      simp only
      cases dmpImitate m T (fun t => armPos 1 (Y t)) reg (armLin 1 s.alphaY) (armLin 1 s.betaY) s.ft.overlap
        s.ft.alphaZ afv s.smooth with
      | error e => rfl
      | ok w2 =>
        simp only
        cases dmpImitateWith m T reg s.ft.overlap s.ft.alphaZ
          (.ok (determineForcesQuaternion ops qgrad T (fun t => armRot 1 (Y t)) (armAng 1 s.alphaY) (armAng 1 s.betaY)
          s.ft.alphaZ afv s.smooth)) with
        | error e => rfl
        | ok w3 => rfl

theorem after_valid (o : DualOp m) {s : DualCartesianDMP m} (hs : s.Valid) : (o.after s).Valid := by
  refine ⟨hs.two, ?_⟩
  cases o with
  | step ops c sf y yd =>
    simp only [DualOp.after, exec_step]
    split <;> exact hs.overlap
  | openLoop ops t c nm =>
    have h : SameConfiguration s (DualOp.after (.openLoop ops t c nm) s) := DualCall.after_same ops s (.openLoop t c nm)
    rw [h]
    exact hs.overlap
  | configure a => exact hs.overlap
  | reset => exact hs.overlap
  | setWeights w =>
    simp only [DualOp.after, exec_setWeights]
    split <;> exact hs.overlap
  | setExecutionTime τ =>
    simp only [DualOp.after, exec_setExecutionTime]
    cases h : DMP.initForcingTerm 12 m τ with
    | error e => exact hs.overlap
    | ok ft =>
      rw [DMP.initForcingTerm_ok_iff] at h
      obtain ⟨_, _, e3, _⟩ := create_eq h
      exact e3
  | imitate ops qgrad T Y reg afv =>
    simp only [DualOp.after, imitate_overlap]
    exact hs.overlap

theorem Reachable.valid {s : DualCartesianDMP m} (h : s.Reachable) : s.Valid := by
  induction h with
  | create h => exact create_valid h
  | op o _ ih => exact after_valid o ih

end DualCartesianDMP

/-! ## C22 -/

/-- **C22 (dual arm).** Weights that are written can be read; nothing else changes. -/
theorem C22_dual_set_get (s : DualCartesianDMP m) (w : List ℝ) (hw : w.length = 12 * m) :
    ∃ s', (DualCartesianDMP.setWeights w).exec s = (.ok (), s') ∧ s'.getWeights = w ∧
      { s' with ft := { s'.ft with weights := s.ft.weights } } = s := by
  rw [DualCartesianDMP.exec_setWeights]
  unfold DMP.reshapeWeights
  rw [dif_pos hw]
  refine ⟨_, rfl, ?_, rfl⟩
  unfold DualCartesianDMP.getWeights
  apply List.ext_getElem
  · simp [hw]
  · intro i h1 h2
    simp only [List.getElem_ofFn]
    congr 1
    have hi : i < 12 * m := by rw [← hw]; exact h2
    have := congrArg Fin.val (finProdFinEquiv.apply_symm_apply (⟨i, hi⟩ : Fin (12 * m)))
    simpa [finProdFinEquiv] using this

/-- **C22 (dual arm).** Writing the weights that were read changes nothing. -/
theorem C22_dual_get_set (s : DualCartesianDMP m) : (DualCartesianDMP.setWeights s.getWeights).exec s = (.ok (), s) := by
  rw [DualCartesianDMP.exec_setWeights]
  unfold DMP.reshapeWeights
  rw [dif_pos (by simp [DualCartesianDMP.getWeights])]
  simp only [Prod.mk.injEq, true_and]
  have : (fun (k : Fin 12) (i : Fin m) => s.getWeights[(finProdFinEquiv (k, i)).val]'(by
      simp [DualCartesianDMP.getWeights, -finProdFinEquiv_apply_val])) = s.ft.weights := by
    funext k i
    simp only [DualCartesianDMP.getWeights, List.getElem_ofFn]
    have h := finProdFinEquiv.symm_apply_apply (k, i)
    have h1 : (finProdFinEquiv (k, i)).divNat = k := congrArg Prod.fst h
    have h2 : (finProdFinEquiv (k, i)).modNat = i := congrArg Prod.snd h
    simp only [Fin.eta, h1, h2]
  rw [this]

/-- **C22 (dual arm).** A weight vector of wrong length raises ValueError and changes nothing. -/
theorem C22_dual_wrong_length (s : DualCartesianDMP m) (w : List ℝ) (hw : w.length ≠ 12 * m) :
    (DualCartesianDMP.setWeights w).exec s = (.error .valueError, s) := by
  rw [DualCartesianDMP.exec_setWeights]
  unfold DMP.reshapeWeights
  rw [dif_neg hw]

/-! ## C28 -/

/-- The weights of the position of an arm: rows 0, 1, 2 or 6, 7, 8. -/
def positionWeights (arm : Fin 2) (w : Fin 12 → Fin m → ℝ) : Fin 3 → Fin m → ℝ :=
  fun k i => armLinear arm (fun j => w j i) k

/-- The weights of the orientation of an arm: rows 3, 4, 5 or 9, 10, 11. -/
def orientationWeights (arm : Fin 2) (w : Fin 12 → Fin m → ℝ) : Fin 3 → Fin m → ℝ :=
  fun k i => armAngular arm (fun j => w j i) k

/-- **C28, C26 (dual arm).** For every reachable dual-arm DMP, `imitate` with a coefficient that is not negative and
time stamps that span a positive interval succeeds. Only the weights, start and goal change; start and goal become the
first and last demonstrated state. For each arm the position weights are those that a regular DMP with the arm's gains
learns from the positions of the arm. Its orientation weights minimise the regularised squared error to the forces of the
arm's orientation equation, and are the only minimiser for a positive coefficient. -/
theorem C28_dual_imitate {s : DualCartesianDMP m} (hs : s.Reachable) (ops : QuatOps)
    (qgrad : (Fin (n + 2) → Vec 4) → Fin (n + 2) → Vec 3) (T : Fin (n + 2) → ℝ) (Y : Fin (n + 2) → Vec 14)
    {reg : ℝ} (hreg : 0 ≤ reg) (hT : T 0 < T (Fin.last _)) (afv : Bool) :
    ∃ w, (DualCartesianDMP.imitate ops qgrad T Y reg afv).exec s =
        (.ok (), { s with startY := Y 0, goalY := Y (Fin.last _), ft := { s.ft with weights := w } }) ∧
      ∀ arm : Fin 2,
        dmpImitate m T (fun t => armPosition arm (Y t)) reg (armLinear arm s.alphaY) (armLinear arm s.betaY) (8 / 10)
            s.ft.alphaZ afv s.smooth =
          .ok (positionWeights arm w, armPosition arm (Y 0), armPosition arm (Y (Fin.last _))) ∧
        ∃ ft : ForcingTerm 3 m, ForcingTerm.create 3 m (T (Fin.last _)) (T 0) (8 / 10) s.ft.alphaZ = .ok ft ∧
          let error := regularizedError (determineForcesQuaternion ops qgrad T (fun t => armOrientation arm (Y t))
              (armAngular arm s.alphaY) (armAngular arm s.betaY) s.ft.alphaZ afv s.smooth)
            (fun W t => ({ ft with weights := W } : ForcingTerm 3 m).call (T t)) reg
          ∀ V, error (orientationWeights arm w) ≤ error V ∧
            (0 < reg → error V ≤ error (orientationWeights arm w) → V = orientationWeights arm w) := by
  obtain ⟨hm, ho⟩ := hs.valid
  obtain ⟨ft, hft⟩ : ∃ ft', ForcingTerm.create 3 m (T (Fin.last (n + 1))) (T 0) (8 / 10) s.ft.alphaZ = .ok ft' := by
    unfold ForcingTerm.create
    rw [if_neg (by omega), if_neg (not_le.2 hT), if_neg (by norm_num)]
    exact ⟨_, rfl⟩
  simp only [armPosition_eq, armLinear_eq, armOrientation_eq, armAngular_eq]
  let P : Fin 2 → Fin 3 → Fin m → ℝ := fun arm => ridgeRegression (Matrix.of (ft.designMatrix T))
    (Matrix.of (determineForces T (fun t => armPos arm (Y t)) (armLin arm s.alphaY) (armLin arm s.betaY) s.ft.alphaZ afv
      s.smooth)) reg
  let F : Fin 2 → Fin (n + 2) → Vec 3 := fun arm => determineForcesQuaternion ops qgrad T (fun t => armRot arm (Y t))
    (armAng arm s.alphaY) (armAng arm s.betaY) s.ft.alphaZ afv s.smooth
  let R : Fin 2 → Fin 3 → Fin m → ℝ := fun arm => ridgeRegression (Matrix.of (ft.designMatrix T)) (Matrix.of (F arm)) reg
  have hP : ∀ arm, dmpImitate m T (fun t => armPos arm (Y t)) reg (armLin arm s.alphaY) (armLin arm s.betaY) (8 / 10)
      s.ft.alphaZ afv s.smooth = .ok (P arm, armPos arm (Y 0), armPos arm (Y (Fin.last _))) :=
    fun arm => dmpImitate_eq hft hreg
  have hR : ∀ arm, dmpImitateWith m T reg (8 / 10) s.ft.alphaZ (.ok (F arm)) = .ok (R arm) :=
    fun arm => dmpImitateWith_eq hft hreg
  let w : Fin 12 → Fin m → ℝ := fun j i => joinVel (fun arm k => P arm k i) (fun arm k => R arm k i) j
  have hwP : ∀ arm, positionWeights arm w = P arm := by
    intro arm
    funext k i
    simp only [positionWeights, armLinear_eq]
    exact congrFun (armLin_joinVel (fun arm k => P arm k i) (fun arm k => R arm k i) arm) k
  have hwR : ∀ arm, orientationWeights arm w = R arm := by
    intro arm
    funext k i
    simp only [orientationWeights, armAngular_eq]
    exact congrFun (armAng_joinVel (fun arm k => P arm k i) (fun arm k => R arm k i) arm) k
  refine ⟨w, ?_, fun arm => ⟨by rw [hwP]; exact hP arm, ft, hft, ?_⟩⟩
  · unfold DualCartesianDMP.imitate
    simp only [Py.exec_bind, Py.exec_modify, Py.exec_get, Py.exec_lift, ho]
    rw [hP 0]
    simp only
    rw [show dmpImitateWith m T reg (8 / 10) s.ft.alphaZ (.ok (determineForcesQuaternion ops qgrad T
      (fun t => armRot 0 (Y t)) (armAng 0 s.alphaY) (armAng 0 s.betaY) s.ft.alphaZ afv s.smooth)) = .ok (R 0) from hR 0]
    simp only
    rw [hP 1]
    simp only
    rw [show dmpImitateWith m T reg (8 / 10) s.ft.alphaZ (.ok (determineForcesQuaternion ops qgrad T
      (fun t => armRot 1 (Y t)) (armAng 1 s.alphaY) (armAng 1 s.betaY) s.ft.alphaZ afv s.smooth)) = .ok (R 1) from hR 1]
    simp only
    rw [DualCartesianDMP.exec_configure, C25_configure_sets _ _ (by simp [AllOk, FieldOk])]
    simp only [newValue_ofFn]
    have hw : (DualCartesianDMP.assignWeightRows 9 (R 1) (DualCartesianDMP.assignWeightRows 6 (P 1)
        (DualCartesianDMP.assignWeightRows 3 (R 0) (DualCartesianDMP.assignWeightRows 0 (P 0) s)))) =
        { s with ft := { s.ft with weights := w } } := by
      simp only [DualCartesianDMP.assignWeightRows]
      congr 2
      funext j i
      fin_cases j <;> rfl
    rw [hw]
    have hn : ∀ {p : ℕ} (o : Vec p), newValue none o = o := fun o => rfl
    simp only [hn, Option.getD_none, ho]
  · intro V
    obtain ⟨hg, hst, _⟩ := create_eq hft
    have he : (fun (W : Fin 3 → Fin m → ℝ) t => ({ ft with weights := W } : ForcingTerm 3 m).call (T t)) =
        (fun W t k => ∑ i, W k i * ft.designMatrix T i t) := by
      funext W t k
      exact (designMatrix_force ft T hst hg W t k).symm
    simp only [he, hwR]
    exact ⟨C26_ridge_optimal _ _ hreg rfl V, fun hpos hV => C26_ridge_unique _ _ hpos rfl V hV⟩

/-- **C28 (dual arm).** Otherwise `imitate` raises ValueError and the object is unchanged. -/
theorem C28_dual_raises (s : DualCartesianDMP m) (ops : QuatOps)
    (qgrad : (Fin (n + 2) → Vec 4) → Fin (n + 2) → Vec 3) (T : Fin (n + 2) → ℝ) (Y : Fin (n + 2) → Vec 14)
    (reg : ℝ) (afv : Bool) (h : reg < 0 ∨ T (Fin.last _) ≤ T 0) :
    (DualCartesianDMP.imitate ops qgrad T Y reg afv).exec s = (.error .valueError, s) := by
  unfold DualCartesianDMP.imitate
  simp only [Py.exec_bind, Py.exec_get, Py.exec_lift]
  by_cases hreg : reg < 0
  · rw [dmpImitate_neg hreg]
  · have hT := h.resolve_left hreg
    have hft : ForcingTerm.create 3 m (T (Fin.last (n + 1))) (T 0) s.ft.overlap s.ft.alphaZ =
        .error .valueError := by
      unfold ForcingTerm.create
      by_cases hm : m ≤ 1
      · rw [if_pos hm]
      · rw [if_neg hm, if_pos hT]
    rw [dmpImitate_error hft hreg]

/-- Reachable dual-arm DMPs and time stamps as required by `C28_dual_imitate` exist. -/
example : ∃ s : DualCartesianDMP 10, s.Reachable ∧
    (fun i : Fin (3 + 2) => (i.val : ℝ)) 0 < (fun i => (i.val : ℝ)) (Fin.last 4) := by
  obtain ⟨s, hs, _⟩ := DualCartesianDMP.create_ok 10 (by norm_num) one_pos (1 / 100) (1 / 1000) 0 false 25 (25 / 4)
  exact ⟨s, .create hs, by simp⟩

end Verif
