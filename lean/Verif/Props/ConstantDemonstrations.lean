import Verif.Props.Equilibrium
import Verif.Props.DualImitate

/-! # C28: constant demonstrations -/

namespace Verif
open Spec
variable {d m n : ℕ}

theorem fvYd_const (T : Fin (n + 2) → ℝ) (y : Vec d) : fvYd T (fun _ => y) = 0 := by
  funext i k
  simp [fvYd, backwardDifference]

theorem fvYdd_const (T : Fin (n + 2) → ℝ) (y : Vec d) : fvYdd T (fun _ => y) = 0 := by
  funext i k
  simp [fvYdd, fvYd_const, backwardDifference]

/-- **C28 (DMPWithFinalVelocity).** A constant demonstration yields zero weights; the object starts and ends there at
rest. -/
theorem C28_fv_constant {s s' : FvDMP d m} {T : Fin (n + 2) → ℝ} {y : Vec d} {reg : ℝ}
    (h : (FvDMP.imitate T (fun _ => y) reg).exec s = (.ok (), s')) :
    (s'.ft.weights = fun _ _ => 0) ∧ s'.startY = y ∧ s'.goalY = y ∧
      s'.startYd = 0 ∧ s'.startYdd = 0 ∧ s'.goalYd = 0 ∧ s'.goalYdd = 0 := by
  have h1 := fvDetermineForces_map (0 : Vec d →ₗ[ℝ] Vec d) y T (fun _ => y) (a := s.alphaY) (bt := s.betaY)
    (a' := s.alphaY) (bt' := s.betaY) (by simp) (by simp)
  simp only [LinearMap.zero_apply, zero_add] at h1
  have h2 := dmpImitateWith_map_except (m := m) (0 : Vec d →ₗ[ℝ] Vec d) T reg s.ft.overlap s.ft.alphaZ
    (fvDetermineForces T (fun _ => y) s.alphaY s.betaY)
  simp only [LinearMap.zero_apply] at h2
  rw [FvDMP.exec_imitate, h1, h2] at h
  cases hw : dmpImitateWith m T reg s.ft.overlap s.ft.alphaZ (fvDetermineForces T (fun _ => y) s.alphaY s.betaY) with
  | error e => rw [hw] at h; cases h
  | ok w =>
    rw [hw] at h
    simp only [Except.map] at h
    rw [DMP.exec_configure, C25_configure_sets _ _ (by simp [AllOk, FieldOk])] at h
    simp only [newValue_ofFn, fvYd_const, fvYdd_const, Prod.mk.injEq, true_and] at h
    subst h
    exact ⟨rfl, rfl, rfl, rfl, rfl, rfl, rfl⟩

/-- **C28 (DMPWithFinalVelocity).** After imitation of a constant demonstration every open-loop reproduction is constant,
and so are all results of `step` of an object that was not executed before. -/
theorem C28_fv_constant_reproduction {s s' : FvDMP d m} (hs : FvDMP.Reachable s) (hint : 0 < s.intDt) (hdt : 0 < s.dt)
    {T : Fin (n + 2) → ℝ} {y : Vec d} {reg : ℝ} (h : (FvDMP.imitate T (fun _ => y) reg).exec s = (.ok (), s')) :
    (∀ runT : Option ℝ, (∀ r ∈ runT, 0 ≤ r) → ∃ T, T ≠ [] ∧
      ((FvDMP.openLoop runT none).exec s').1 = .ok (T, List.replicate T.length y)) ∧
    (s.initialized = false → ∀ n, ((fedBack (FvDMP.step none) n y 0).exec s').1 = .ok (List.replicate n (y, 0))) := by
  obtain ⟨h1, h2, h3, h4⟩ := C28_fv_constant h
  have hreach : FvDMP.Reachable s' := .op (.imitate T (fun _ => y) reg) hs h (by intro τ h; cases h)
  have hsame : s'.intDt = s.intDt ∧ s'.dt = s.dt ∧ s'.initialized = s.initialized := by
    rw [FvDMP.exec_imitate] at h
    cases hw : dmpImitateWith m T reg s.ft.overlap s.ft.alphaZ (fvDetermineForces T (fun _ => y) s.alphaY s.betaY) with
    | error e => rw [hw] at h; cases h
    | ok w =>
      rw [hw] at h
      simp only at h
      rw [DMP.exec_configure] at h
      injection h with _ h
      rw [← h]
      exact ⟨rfl, rfl, rfl⟩
  obtain ⟨e1, e2, e3⟩ := hsame
  constructor
  · intro runT hr
    have := C15_fv_open_loop hreach (by rw [e1]; exact hint) (by rw [e2]; exact hdt) (h2.trans h3.symm) h4 h1 runT hr
    rwa [h3] at this
  · intro hi n
    have := C15_fv_steps hreach (by rw [e1]; exact hint) (h2.trans h3.symm) h4 h1 (by rw [e3, hi]; simp) n
    rwa [h3] at this

/-! ## Dual arm -/

/-- Result of a successful imitation with a dual-arm DMP. -/
theorem DualCartesianDMP.exec_imitate_ok {s : DualCartesianDMP m} (hs : s.Valid) (ops : QuatOps)
    (qgrad : (Fin (n + 2) → Vec 4) → Fin (n + 2) → Vec 3) (T : Fin (n + 2) → ℝ) (Y : Fin (n + 2) → Vec 14)
    {reg : ℝ} (hreg : 0 ≤ reg) (hT : T 0 < T (Fin.last _)) (afv : Bool) :
    ∃ ft : ForcingTerm 3 m, ForcingTerm.create 3 m (T (Fin.last _)) (T 0) (8 / 10) s.ft.alphaZ = .ok ft ∧
      let P (arm : Fin 2) (i : Fin m) : Vec 3 := fun k => ridgeRegression (Matrix.of (ft.designMatrix T))
        (Matrix.of (determineForces T (fun t => armPos arm (Y t)) (armLin arm s.alphaY) (armLin arm s.betaY) s.ft.alphaZ afv
          s.smooth)) reg k i
      let R (arm : Fin 2) (i : Fin m) : Vec 3 := fun k => ridgeRegression (Matrix.of (ft.designMatrix T))
        (Matrix.of (determineForcesQuaternion ops qgrad T (fun t => armRot arm (Y t)) (armAng arm s.alphaY)
          (armAng arm s.betaY) s.ft.alphaZ afv s.smooth)) reg k i
      (DualCartesianDMP.imitate ops qgrad T Y reg afv).exec s = (.ok (), { s with
        startY := Y 0
        goalY := Y (Fin.last _)
        ft := { s.ft with weights := fun j i => joinVel (fun arm => P arm i) (fun arm => R arm i) j } }) := by
  obtain ⟨hm, ho⟩ := hs
  obtain ⟨ft, hft⟩ : ∃ ft', ForcingTerm.create 3 m (T (Fin.last (n + 1))) (T 0) (8 / 10) s.ft.alphaZ = .ok ft' := by
    unfold ForcingTerm.create
    rw [if_neg (by omega), if_neg (not_le.2 hT), if_neg (by norm_num)]
    exact ⟨_, rfl⟩
  let P : Fin 2 → Fin 3 → Fin m → ℝ := fun arm => ridgeRegression (Matrix.of (ft.designMatrix T))
    (Matrix.of (determineForces T (fun t => armPos arm (Y t)) (armLin arm s.alphaY) (armLin arm s.betaY) s.ft.alphaZ afv
      s.smooth)) reg
  let F : Fin 2 → Fin (n + 2) → Vec 3 := fun arm => determineForcesQuaternion ops qgrad T (fun t => armRot arm (Y t))
    (armAng arm s.alphaY) (armAng arm s.betaY) s.ft.alphaZ afv s.smooth
  let R : Fin 2 → Fin 3 → Fin m → ℝ := fun arm => ridgeRegression (Matrix.of (ft.designMatrix T)) (Matrix.of (F arm)) reg
  have hP : ∀ arm, dmpImitate m T (fun t => armPos arm (Y t)) reg (armLin arm s.alphaY) (armLin arm s.betaY) (8 / 10)
      s.ft.alphaZ afv s.smooth = .ok (P arm, armPos arm (Y 0), armPos arm (Y (Fin.last _))) :=
    fun arm => dmpImitate_eq hft hreg
  have hR : ∀ arm, dmpImitateWith m T reg (8 / 10) s.ft.alphaZ (.ok (F arm)) = .ok (R arm) :=
    fun arm => dmpImitateWith_eq hft hreg
  refine ⟨ft, hft, ?_⟩
  simp only
  unfold DualCartesianDMP.imitate
  simp only [Py.exec_bind, Py.exec_modify, Py.exec_get, Py.exec_lift, ho]
  rw [hP 0]
  simp only
  rw [show dmpImitateWith m T reg (8 / 10) s.ft.alphaZ (.ok (determineForcesQuaternion ops qgrad T
    (fun t => armRot 0 (Y t)) (armAng 0 s.alphaY) (armAng 0 s.betaY) s.ft.alphaZ afv s.smooth)) = .ok (R 0) from hR 0]
  simp only
  rw [hP 1]
  simp only
  rw [show dmpImitateWith m T reg (8 / 10) s.ft.alphaZ (.ok (determineForcesQuaternion ops qgrad T
    (fun t => armRot 1 (Y t)) (armAng 1 s.alphaY) (armAng 1 s.betaY) s.ft.alphaZ afv s.smooth)) = .ok (R 1) from hR 1]
  simp only
  rw [DualCartesianDMP.exec_configure, C25_configure_sets _ _ (by simp [AllOk, FieldOk])]
  simp only [newValue_ofFn]
  have hw : (DualCartesianDMP.assignWeightRows 9 (R 1) (DualCartesianDMP.assignWeightRows 6 (P 1)
      (DualCartesianDMP.assignWeightRows 3 (R 0) (DualCartesianDMP.assignWeightRows 0 (P 0) s)))) =
      { s with ft := { s.ft with weights := fun j i => joinVel (fun arm k => P arm k i) (fun arm k => R arm k i) j } } := by
    simp only [DualCartesianDMP.assignWeightRows]
    congr 2
    funext j i
    fin_cases j <;> rfl
  rw [hw]
  have hn : ∀ {p : ℕ} (o : Vec p), newValue none o = o := fun o => rfl
  simp only [hn, Option.getD_none, ho]
  rfl

/-- **C28 (dual arm).** A demonstration in which both arms stay at one pose teaches zero weights; start and goal become
these poses and nothing else changes. (`hgrad`: the gradient of a constant orientation is zero.) -/
theorem C28_dual_constant {s s' : DualCartesianDMP m} (hs : s.Reachable) {ops : QuatOps} {eps : ℝ}
    (hops : LawfulQuatOps ops eps) (heps : 0 < eps) {qgrad : (Fin (n + 2) → Vec 4) → Fin (n + 2) → Vec 3}
    {y : Vec 14} (hq : ∀ arm, UnitQuat (armOrientation arm y)) (hgrad : ∀ arm, qgrad (fun _ => armOrientation arm y) = fun _ => 0)
    {T : Fin (n + 2) → ℝ} {reg : ℝ} {afv : Bool}
    (h : (DualCartesianDMP.imitate ops qgrad T (fun _ => y) reg afv).exec s = (.ok (), s')) :
    s' = { s with startY := y, goalY := y, ft := { s.ft with weights := fun _ _ => 0 } } := by
  by_cases hc : reg < 0 ∨ T (Fin.last _) ≤ T 0
  · rw [C28_dual_raises s ops qgrad T _ reg afv hc] at h
    cases h
  · push Not at hc
    obtain ⟨ft, -, hft⟩ := DualCartesianDMP.exec_imitate_ok hs.valid ops qgrad T (fun _ => y) hc.1 hc.2 afv
    rw [hft] at h
    simp only [Prod.mk.injEq, true_and] at h
    rw [← h]
    congr 2
    simp only [armOrientation_eq] at hq hgrad
    have e1 := fun arm => determineForces_const T (armPos arm y) (armLin arm s.alphaY) (armLin arm s.betaY) s.ft.alphaZ afv
      s.smooth
    have e2 := fun arm => determineForcesQuaternion_const hops heps (hq arm) (hgrad arm) T (armAng arm s.alphaY)
      (armAng arm s.betaY) s.ft.alphaZ afv s.smooth
    have z1 : ridgeRegression (Matrix.of (ft.designMatrix T)) (Matrix.of (0 : Fin (n + 2) → Vec 3)) reg = 0 :=
      ridge_zero _ _
    simp only [e1, e2, z1]
    funext j i
    fin_cases j <;> rfl

/-- **C28 (dual arm).** After imitation of a constant demonstration all rows of `open_loop` are the demonstrated poses, for
every `p_gain` if the object was not executed before. -/
theorem C28_dual_constant_reproduction {s s' : DualCartesianDMP m} (hs : s.Reachable) {ops : QuatOps} {eps : ℝ}
    (hops : LawfulQuatOps ops eps) (heps : 0 < eps) {qgrad : (Fin (n + 2) → Vec 4) → Fin (n + 2) → Vec 3}
    {y : Vec 14} (hq : ∀ arm, UnitQuat (armOrientation arm y)) (hgrad : ∀ arm, qgrad (fun _ => armOrientation arm y) = fun _ => 0)
    {T : Fin (n + 2) → ℝ} {reg : ℝ} {afv : Bool} (hint : 0 < s.intDt) (hsd : s.startYd = 0)
    (hcur : s.pGain = 0 ∨ s.initialized = false)
    (h : (DualCartesianDMP.imitate ops qgrad T (fun _ => y) reg afv).exec s = (.ok (), s')) (runT : Option ℝ)
    {name : String} {ts : List ℝ} {ys : List (Vec 14)}
    (hr : ((DualCartesianDMP.openLoop ops runT none name).exec s').1 = .ok (ts, ys)) : ∀ x ∈ ys, x = y := by
  have e := C28_dual_constant hs hops heps hq hgrad h
  subst e
  exact C34_dual_open_loop (s := { s with startY := y, goalY := y, ft := { s.ft with weights := fun _ _ => 0 } }) heps hops
    hint rfl hsd hq rfl (hcur.imp id fun hi h => by
    have : s.initialized = true := h
    rw [hi] at this; cases this) runT hr

/-- The hypotheses can be met: the demonstration of a dual-arm DMP that stays at two poses. -/
example : ∃ s : DualCartesianDMP 10, s.Reachable ∧ ∃ s', (DualCartesianDMP.imitate (n := 3) (QuatOps.python (1 / 10 ^ 7))
    (fun _ _ => 0) (fun i => (i.val : ℝ)) (fun _ => ![1, 2, 3, 1, 0, 0, 0, 4, 5, 6, 0, 1, 0, 0]) 0 false).exec s =
      (.ok (), s') ∧ 0 < s.intDt ∧ s.startYd = 0 ∧ s.initialized = false := by
  obtain ⟨s, h, h1, h2, h3, h4, h5, h6, -, -, h7, h8⟩ := DualCartesianDMP.create_ok 10 (by norm_num) (τ := 1) one_pos
    (1 / 100) (1 / 1000) 5 true 25 6
  obtain ⟨w, hw, -⟩ := C28_dual_imitate (n := 3) (.create h) (QuatOps.python (1 / 10 ^ 7)) (fun _ _ => 0)
    (fun i => (i.val : ℝ)) (fun _ => ![1, 2, 3, 1, 0, 0, 0, 4, 5, 6, 0, 1, 0, 0]) le_rfl (by simp) false
  exact ⟨s, .create h, _, hw, by rw [h4]; norm_num, by rw [h1]; rfl, h8⟩

end Verif
