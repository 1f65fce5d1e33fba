import Verif.Props.DualArms
import Verif.Props.ConstantDemonstrations

/-! # C112: imitation with a dual-arm DMP is imitation with two Cartesian DMPs -/

namespace Verif
open Spec Quaternion

variable {m n : ℕ}

/-- Forcing terms made for the same execution time have the same `alpha_z`. -/
theorem ForcingTerm.Made.same_alphaZ {d d' : ℕ} {ft : ForcingTerm d m} {ft' : ForcingTerm d' m} {τ : ℝ} (h : ft.Made τ)
    (h' : ft'.Made τ) : ft'.alphaZ = ft.alphaZ := by
  obtain ⟨ft0, h1, e1, e2, e3, e4, e5⟩ := h
  obtain ⟨ft1, h2, f1, f2, f3, f4, f5⟩ := h'
  rw [DMP.initForcingTerm_ok_iff] at h1 h2
  obtain ⟨-, -, -, rfl⟩ := create_ok h1
  obtain ⟨-, -, -, rfl⟩ := create_ok h2
  simp only at e1 e2 e3 f1 f2 f3
  simp only [e1, e2, e3, f1, f2, f3]

/-- **C112 (`imitate`).** Let `p` be a Cartesian DMP with the parameters of one arm of a dual-arm DMP `s`. `imitate` of `s` with any
demonstration succeeds or raises like `imitate` of `p` with the poses of this arm, and afterwards `p` is again a Cartesian DMP with
the parameters, start, goal and weights of this arm. -/
theorem C112_imitate {s : DualCartesianDMP m} {arm : Fin 2} {p : CartesianDMP m} (hs : TimedDual s) (hp : TimedCartesian p)
    (h : ArmOf s arm p) (ops : QuatOps) (qgrad : (Fin (n + 2) → Vec 4) → Fin (n + 2) → Vec 3) (T : Fin (n + 2) → ℝ)
    (Y : Fin (n + 2) → Vec 14) (reg : ℝ) (afv : Bool) :
    let r := (DualCartesianDMP.imitate ops qgrad T Y reg afv).exec s
    let q := (CartesianDMP.imitate ops qgrad T (fun t => armPose arm (Y t)) reg afv).exec p
    q.1 = r.1 ∧ ArmOf r.2 arm q.2 := by
  intro r q
  by_cases hc : reg < 0 ∨ T (Fin.last _) ≤ T 0
  · have h1 : r = _ := C28_dual_raises s ops qgrad T Y reg afv hc
    have h2 : q = _ := C28_cartesian_raises p ops qgrad T _ reg afv hc
    rw [h1, h2]
    exact ⟨rfl, h⟩
  · push Not at hc
    obtain ⟨ft, hft, h1⟩ := DualCartesianDMP.exec_imitate_ok hs.reachable.valid ops qgrad T Y hc.1 hc.2 afv
    have hmade : s.ft.Made p.executionTime := by rw [h.executionTime]; exact hs.made
    have hz1 := hmade.same_alphaZ hp.made.1
    have hz2 := hmade.same_alphaZ hp.made.2
    obtain ⟨hm, ho1, ho2⟩ := hp.reachable.valid
    have hq : q = _ := CartesianDMP.exec_imitate ops qgrad T (fun t => armPose arm (Y t)) reg afv p
    simp only [armPose_eq, sliceTo_hstack, sliceFrom_hstack, h.alphaY, h.betaY, armVelocity_eq, h.smooth, hz1, hz2, ho1, ho2] at hq
    rw [dmpImitate_eq hft hc.1] at hq
    simp only at hq
    rw [dmpImitateWith_eq hft hc.1] at hq
    simp only at hq
    rw [CartesianDMP.exec_configure, C25_configure_sets _ _ (by simp [AllOk, FieldOk])] at hq
    simp only [newValue_ofFn] at hq
    have hr : r = _ := h1
    rw [hr, hq]
    refine ⟨rfl, h.executionTime, h.dt, h.intDt, rfl, (armVelocity_eq arm s.alphaY).symm, (armVelocity_eq arm s.betaY).symm, ?_, ?_, ?_, ?_⟩
    · exact (armPose_eq arm (Y 0)).symm
    · exact (armPose_eq arm (Y (Fin.last _))).symm
    · intro k i
      rw [armLinear_eq]
      simp only [armLin_joinVel]
    · intro k i
      rw [armAngular_eq]
      simp only [armAng_joinVel]

/-- A matrix that is read row by row. -/
theorem ofFn_rows {a : ℕ} (W : Fin a → Fin m → ℝ) :
    List.ofFn (fun i : Fin (a * m) => W i.divNat i.modNat) = (List.ofFn fun k => List.ofFn (W k)).flatten := by
  rw [List.ofFn_mul]
  congr 2
  funext k
  congr 1
  funext i
  have hm : 0 < m := i.pos
  congr 1
  · apply Fin.ext
    simp only [Fin.divNat]
    rw [mul_comm, Nat.mul_add_div hm, Nat.div_eq_of_lt i.isLt, add_zero]
  · apply Fin.ext
    simp only [Fin.modNat]
    rw [mul_comm, Nat.mul_add_mod, Nat.mod_eq_of_lt i.isLt]

/-- **C112 (`get_weights`).** The weight vector of a dual-arm DMP is the weight vector of its left arm followed by that of its right
arm. -/
theorem C112_get_weights {s : DualCartesianDMP m} {p : Fin 2 → CartesianDMP m} (h : ∀ arm, ArmOf s arm (p arm)) :
    s.getWeights = (p 0).getWeights ++ (p 1).getWeights := by
  have h1 : ∀ arm k, (p arm).ftPos.weights k = fun i => armLinear arm (fun j => s.ft.weights j i) k :=
    fun arm k => funext fun i => (h arm).positionWeights k i
  have h2 : ∀ arm k, (p arm).ftRot.weights k = fun i => armAngular arm (fun j => s.ft.weights j i) k :=
    fun arm k => funext fun i => (h arm).orientationWeights k i
  simp only [DualCartesianDMP.getWeights, CartesianDMP.getWeights, ofFn_rows]
  simp only [h1, h2]
  simp only [List.ofFn_succ, List.ofFn_zero, List.flatten_cons, List.flatten_nil, List.append_nil, List.append_assoc]
  rfl

/-- **C112 (`set_weights`).** Setting the weights of a dual-arm DMP sets the weights of its left arm to the first half and the
weights of its right arm to the second half of the vector. -/
theorem C112_set_weights {s : DualCartesianDMP m} {p : Fin 2 → CartesianDMP m} (h : ∀ arm, ArmOf s arm (p arm))
    {w : Fin 2 → List ℝ} (hw : ∀ arm, (w arm).length = 6 * m) :
    ∃ s', (DualCartesianDMP.setWeights (w 0 ++ w 1)).exec s = (.ok (), s') ∧
      ∀ arm, ∃ p', (CartesianDMP.setWeights (w arm)).exec (p arm) = (.ok (), p') ∧ ArmOf s' arm p' := by
  have hw0 := hw 0
  have hw1 := hw 1
  have hlen : (w 0 ++ w 1).length = 12 * m := by rw [List.length_append, hw0, hw1]; omega
  rw [DualCartesianDMP.exec_setWeights, DMP.reshapeWeights, dif_pos hlen]
  refine ⟨_, rfl, fun arm => ?_⟩
  have h1 : ((w arm).take (3 * m)).length = 3 * m := by rw [List.length_take, hw arm]; omega
  have h2 : ((w arm).drop (3 * m)).length = 3 * m := by rw [List.length_drop, hw arm]; omega
  rw [CartesianDMP.exec_setWeights, CartesianDMP.assignRows, dif_pos h1, CartesianDMP.assignRows, dif_pos h2]
  have ha := h arm
  refine ⟨_, rfl, ha.executionTime, ha.dt, ha.intDt, ha.smooth, ha.alphaY, ha.betaY, ha.startY, ha.goalY, ?_, ?_⟩
  · intro k i
    have hi := i.isLt
    simp only [List.getElem_take]
    fin_cases arm <;> fin_cases k <;> simp [armLinear, finProdFinEquiv, List.getElem_append, hw0] <;>
      first
      | (intro h; omega)
      | (split <;> first | omega | (congr 1; omega))
  · intro k i
    have hi := i.isLt
    simp only [List.getElem_drop]
    fin_cases arm <;> fin_cases k <;> simp [armAngular, finProdFinEquiv, List.getElem_append, hw0] <;>
      first
      | (intro h; omega)
      | (split <;> first | omega | (congr 1; omega))

/-- The hypotheses can be met for both arms of every dual-arm DMP. -/
example {s : DualCartesianDMP m} (hs : TimedDual s) (arm : Fin 2) : ∃ p, TimedCartesian p ∧ ArmOf s arm p := by
  obtain ⟨p, h1, h2, -⟩ := hs.exists_arm arm
  exact ⟨p, h1, h2⟩

end Verif
