import Verif.Lemmas.SimQuat

/-! # Changes of frames and orientation DMPs -/

namespace Verif
open Spec Quaternion

@[simp] theorem quat_coords (x : ℍ[ℝ]) : quat (coords x) = x := by
  ext <;> rfl

@[simp] theorem coords_quat (q : Vec 4) : coords (quat q) = q := by
  funext i; fin_cases i <;> rfl

theorem unit_coords {x : ℍ[ℝ]} (h : x * star x = 1) : UnitQuat (coords x) := by
  rw [unitQuat_iff_mul_star, quat_coords, h]

theorem unit_mul_star {q : Vec 4} (h : UnitQuat q) : quat q * star (quat q) = 1 := (unitQuat_iff_mul_star q).1 h

theorem unit_star_mul {q : Vec 4} (h : UnitQuat q) : star (quat q) * quat q = 1 := by
  have h1 := unit_mul_star h
  rw [Quaternion.self_mul_star] at h1
  rw [Quaternion.star_mul_self, h1]

theorem quat_turned (r q : Vec 4) : quat (turned r q) = quat q * quat r := quat_coords _

theorem unit_turned {r q : Vec 4} (hr : UnitQuat r) (hq : UnitQuat q) : UnitQuat (turned r q) := by
  apply unit_coords
  rw [StarMul.star_mul, mul_assoc, ← mul_assoc (quat r), unit_mul_star hr, one_mul, unit_mul_star hq]

theorem turned_turned_conj {r : Vec 4} (hr : UnitQuat r) (q : Vec 4) :
    turned (coords (star (quat r))) (turned r q) = q := by
  unfold turned
  rw [quat_coords, quat_coords, mul_assoc, unit_mul_star hr, mul_one, coords_quat]

section
variable {ops : QuatOps} {eps : ℝ}

theorem diff_turned (h : LawfulQuatOps ops eps) {r a b : Vec 4} (hr : UnitQuat r) (ha : UnitQuat a) (hb : UnitQuat b) :
    QuatStepArgs.diff ops (turned r a) (turned r b) = QuatStepArgs.diff ops a b := by
  unfold QuatStepArgs.diff
  congr 1
  apply quat_injective
  have hb' := unit_turned hr hb
  rw [h.mul _ _ (unit_turned hr ha) (LawfulQuatOps.unit_conj h hb'), h.conj _ hb', h.mul _ _ ha (LawfulQuatOps.unit_conj h hb), h.conj _ hb,
    quat_turned, quat_turned, StarMul.star_mul, mul_assoc, ← mul_assoc (quat r), unit_mul_star hr, one_mul]

theorem mul_turned (h : LawfulQuatOps ops eps) {r e q : Vec 4} (hr : UnitQuat r) (he : UnitQuat e) (hq : UnitQuat q) :
    ops.mul e (turned r q) = turned r (ops.mul e q) := by
  apply quat_injective
  rw [h.mul _ _ he (unit_turned hr hq), quat_turned, quat_turned, h.mul _ _ he hq, mul_assoc]

end

namespace QuatStepArgs
variable {m : ℕ}

/-- Arguments after another choice of the body frame. The coupling term is evaluated in the old frame. -/
noncomputable def turn (a : QuatStepArgs m) (r : Vec 4) : QuatStepArgs m :=
  { a with
    startY := turned r a.startY
    goalY := turned r a.goalY
    coupling := a.coupling.map (fun c q v => c (turned (coords (star (quat r))) q) v) }

theorem update_turn (a : QuatStepArgs m) {ops : QuatOps} {eps : ℝ} (h : LawfulQuatOps ops eps) {r : Vec 4}
    (hr : UnitQuat r) (hg : UnitQuat a.goalY) (hst : UnitQuat a.startY) (cd cdd : Vec 3) (dt t : ℝ) {s : Vec 4 × Vec 3}
    (hs : UnitQuat s.1) :
    (a.turn r).update ops cd cdd dt t (turned r s.1, s.2) =
      (turned r (a.update ops cd cdd dt t s).1, (a.update ops cd cdd dt t s).2) := by
  have hv : ((a.turn r).update ops cd cdd dt t (turned r s.1, s.2)).2 = (a.update ops cd cdd dt t s).2 := by
    unfold update turn
    simp only [diff_turned h hr hg hs, diff_turned h hr hg hst]
  refine Prod.ext ?_ hv
  have e1 : ((a.turn r).update ops cd cdd dt t (turned r s.1, s.2)).1 =
    ops.mul (ops.exp (fun k => dt * ((a.turn r).update ops cd cdd dt t (turned r s.1, s.2)).2 k)) (turned r s.1) := rfl
  have e2 : (a.update ops cd cdd dt t s).1 = ops.mul (ops.exp (fun k => dt * (a.update ops cd cdd dt t s).2 k)) s.1 := rfl
  rw [e1, hv, mul_turned h hr (LawfulQuatOps.unit_exp h _) hs, ← e2]

theorem sim_turn (a : QuatStepArgs m) {qf : QuatStepFunction} (hq : LawfulStep qf) {r : Vec 4} (hr : UnitQuat r)
    (hg : UnitQuat a.goalY) (hst : UnitQuat a.startY) : Sim qf a (a.turn r) 1 (turned r) id where
  lawful := hq
  pos := one_pos
  intDt := (one_mul _).symm
  goalT := (one_mul _).symm
  startT := (one_mul _).symm
  startY := rfl
  startYd := rfl
  startUnit := hst
  body := by
    intro dt t s hs
    simp only [one_mul, id]
    cases qf with
    | python ops =>
      obtain ⟨eps, _, hl⟩ := hq
      simp only [QuatStepFunction.body, bodyPy]
      cases hc : a.coupling <;> cases hp : a.precomputed <;>
      · simp only [turn, hc, hp, Option.map_none, Option.map_some, turned_turned_conj hr]
        simpa only [turn, hc, hp, Option.map_none, Option.map_some] using a.update_turn hl hr hg hst _ _ dt t hs
    | cython =>
      simp only [QuatStepFunction.body, bodyCy]
      cases hc : a.coupling <;> cases hp : a.precomputed <;>
      · simp only [turn, hc, hp, Option.map_none, Option.map_some, turned_turned_conj hr]
        simpa only [turn, hc, hp, Option.map_none, Option.map_some] using
          a.update_turn lawful_cython hr hg hst _ _ dt t hs

end QuatStepArgs

/-! ## World frame -/

theorem quat_turnedWorld (p q : Vec 4) : quat (turnedWorld p q) = quat p * quat q := quat_coords _

theorem unit_turnedWorld {p q : Vec 4} (hp : UnitQuat p) (hq : UnitQuat q) : UnitQuat (turnedWorld p q) := by
  apply unit_coords
  rw [StarMul.star_mul, mul_assoc, ← mul_assoc (quat q), unit_mul_star hq, one_mul, unit_mul_star hp]

theorem pure_rotated (p : Vec 4) (v : Vec 3) : Spec.pure (rotated p v) = quat p * Spec.pure v * star (quat p) := by
  ext
  · simp; ring
  · rfl
  · rfl
  · rfl

theorem pure_injective {a b : Vec 3} (h : Spec.pure a = Spec.pure b) : a = b := by
  have h1 := congrArg QuaternionAlgebra.imI h
  have h2 := congrArg QuaternionAlgebra.imJ h
  have h3 := congrArg QuaternionAlgebra.imK h
  funext i
  fin_cases i
  · exact h1
  · exact h2
  · exact h3

/-- The rotation matrix of a quaternion. -/
noncomputable def rotEntry (p : Vec 4) (k j : Fin 3) : ℝ := rotated p (Pi.single j 1) k

theorem rotated_apply (p : Vec 4) (v : Vec 3) (k : Fin 3) :
    rotated p v k = rotEntry p k 0 * v 0 + rotEntry p k 1 * v 1 + rotEntry p k 2 * v 2 := by
  unfold rotEntry rotated vecPart
  fin_cases k <;> simp <;> ring

/-- Rotation as a linear map. -/
noncomputable def rotL (p : Vec 4) : Vec 3 →ₗ[ℝ] Vec 3 where
  toFun := rotated p
  map_add' a b := by funext k; simp only [rotated_apply, Pi.add_apply]; ring
  map_smul' c a := by funext k; simp only [rotated_apply, Pi.smul_apply, smul_eq_mul, RingHom.id_apply]; ring

@[simp] theorem rotL_apply (p : Vec 4) (v : Vec 3) : rotL p v = rotated p v := rfl

theorem rotated_conj_rotated {p : Vec 4} (hp : UnitQuat p) (v : Vec 3) :
    rotated (coords (star (quat p))) (rotated p v) = v := by
  apply pure_injective
  rw [pure_rotated, pure_rotated, quat_coords, star_star]
  have h := unit_star_mul hp
  calc star (quat p) * (quat p * Spec.pure v * star (quat p)) * quat p
      = (star (quat p) * quat p) * Spec.pure v * (star (quat p) * quat p) := by simp only [mul_assoc]
    _ = Spec.pure v := by rw [h, one_mul, mul_one]

theorem turnedWorld_conj {p : Vec 4} (hp : UnitQuat p) (q : Vec 4) :
    turnedWorld (coords (star (quat p))) (turnedWorld p q) = q := by
  unfold turnedWorld
  rw [quat_coords, quat_coords, ← mul_assoc, unit_star_mul hp, one_mul, coords_quat]

theorem vecLen_eq (q : Vec 4) : vecLen q = √(normSq (quat q) - q 0 ^ 2) := by
  unfold vecLen
  rw [normSq_quat]; congr 1; ring

theorem conj_re (p q : Vec 4) (hp : UnitQuat p) : (coords (quat p * quat q * star (quat p))) 0 = q 0 := by
  show (quat p * quat q * star (quat p)).re = q 0
  have : (quat p * quat q * star (quat p)).re = (p 0 ^ 2 + p 1 ^ 2 + p 2 ^ 2 + p 3 ^ 2) * q 0 := by
    simp; ring
  rw [this, hp, one_mul]

theorem unit_conjugate {p q : Vec 4} (hp : UnitQuat p) (hq : UnitQuat q) :
    UnitQuat (coords (quat p * quat q * star (quat p))) := by
  have h := unit_turnedWorld hp hq
  apply unit_coords
  rw [StarMul.star_mul, star_star]
  calc quat p * quat q * star (quat p) * (quat p * star (quat p * quat q))
      = quat p * quat q * (star (quat p) * quat p) * star (quat p * quat q) := by simp only [mul_assoc]
    _ = 1 := by
        rw [unit_star_mul hp, mul_one]
        have := unit_mul_star h
        rwa [quat_turnedWorld] at this

theorem vecLen_conjugate {p q : Vec 4} (hp : UnitQuat p) (hq : UnitQuat q) :
    vecLen (coords (quat p * quat q * star (quat p))) = vecLen q := by
  rw [vecLen_eq, vecLen_eq, (isUnit_iff_normSq _).1 (unit_conjugate hp hq), (isUnit_iff_normSq _).1 hq, conj_re p q hp]

theorem vec_conjugate (p q : Vec 4) :
    vecPart (quat p * quat q * star (quat p)) = rotated p ![q 1, q 2, q 3] := by
  unfold rotated vecPart
  funext k
  fin_cases k <;> simp <;> ring

theorem axisOf_conjugate {p q : Vec 4} (hp : UnitQuat p) (hq : UnitQuat q) :
    axisOf (coords (quat p * quat q * star (quat p))) = rotated p (axisOf q) := by
  have h1 : ∀ x : Vec 4, axisOf x = (1 / vecLen x) • ![x 1, x 2, x 3] := by
    intro x
    have e : axisOf x = ![x 1 / vecLen x, x 2 / vecLen x, x 3 / vecLen x] := rfl
    rw [e]
    funext i
    fin_cases i <;> simp <;> ring
  rw [h1, h1, vecLen_conjugate hp hq, ← rotL_apply, map_smul, rotL_apply, ← vec_conjugate]
  rfl

theorem logRotates_cython : LogRotates QuatOps.cython := by
  intro p q hp hq
  show compactAxisAngleFromQuaternionCy _ = rotated p (compactAxisAngleFromQuaternionCy q)
  rw [logCy_eq (unit_conjugate hp hq), logCy_eq hq, vecLen_conjugate hp hq, conj_re p q hp, axisOf_conjugate hp hq]
  split_ifs
  · rw [← rotL_apply, map_zero]
  · rw [← rotL_apply, ← rotL_apply, map_smul]
  · rw [← rotL_apply, ← rotL_apply, map_smul]

theorem logRotates_python (eps : ℝ) : LogRotates (QuatOps.python eps) := by
  intro p q hp hq
  show logPy eps _ = rotated p (logPy eps q)
  rw [logPy_eq (unit_conjugate hp hq), logPy_eq hq, vecLen_conjugate hp hq, conj_re p q hp, axisOf_conjugate hp hq]
  split_ifs
  · rw [← rotL_apply, map_zero]
  · rw [← rotL_apply, ← rotL_apply, map_smul]
  · rw [← rotL_apply, ← rotL_apply, map_smul]

section
variable {ops : QuatOps} {eps : ℝ}

theorem diff_world (h : LawfulQuatOps ops eps) (hlog : LogRotates ops) {p a b : Vec 4} (hp : UnitQuat p)
    (ha : UnitQuat a) (hb : UnitQuat b) :
    QuatStepArgs.diff ops (turnedWorld p a) (turnedWorld p b) = rotated p (QuatStepArgs.diff ops a b) := by
  unfold QuatStepArgs.diff
  have hb' := unit_turnedWorld hp hb
  have hab : UnitQuat (ops.mul a (ops.conj b)) := LawfulQuatOps.unit_mul h ha (LawfulQuatOps.unit_conj h hb)
  rw [← hlog p _ hp hab]
  congr 1
  apply quat_injective
  rw [h.mul _ _ (unit_turnedWorld hp ha) (LawfulQuatOps.unit_conj h hb'), h.conj _ hb', quat_coords,
    h.mul _ _ ha (LawfulQuatOps.unit_conj h hb), h.conj _ hb, quat_turnedWorld, quat_turnedWorld, StarMul.star_mul]
  simp only [mul_assoc]

theorem exp_rotated (h : LawfulQuatOps ops eps) {p : Vec 4} (hp : UnitQuat p) (a : Vec 3) :
    quat (ops.exp (rotated p a)) = quat p * quat (ops.exp a) * star (quat p) := by
  have hne : quat p ≠ 0 := by
    intro h0
    have := unit_mul_star hp
    rw [h0, zero_mul] at this
    exact zero_ne_one this
  have hinv : (quat p)⁻¹ = star (quat p) := inv_eq_of_mul_eq_one_right (unit_mul_star hp)
  let _ : NormedAlgebra ℚ ℍ[ℝ] := NormedAlgebra.restrictScalars ℚ ℝ ℍ[ℝ]
  rw [h.exp, h.exp, pure_rotated, ← hinv, ← NormedSpace.exp_conj _ _ hne]
  congr 1
  rw [mul_smul_comm, smul_mul_assoc]

theorem mul_world (h : LawfulQuatOps ops eps) {p q : Vec 4} (hp : UnitQuat p) (a : Vec 3) (hq : UnitQuat q) :
    ops.mul (ops.exp (rotated p a)) (turnedWorld p q) = turnedWorld p (ops.mul (ops.exp a) q) := by
  apply quat_injective
  rw [h.mul _ _ (LawfulQuatOps.unit_exp h _) (unit_turnedWorld hp hq), exp_rotated h hp, quat_turnedWorld,
    quat_turnedWorld, h.mul _ _ (LawfulQuatOps.unit_exp h _) hq]
  calc quat p * quat (ops.exp a) * star (quat p) * (quat p * quat q)
      = quat p * quat (ops.exp a) * (star (quat p) * quat p) * quat q := by simp only [mul_assoc]
    _ = _ := by rw [unit_star_mul hp, mul_one, mul_assoc]

end

theorem ForcingTerm.mapWeights_force {d d' m : ℕ} (ft : ForcingTerm d m) (P : Vec d →ₗ[ℝ] Vec d') (z : ℝ) :
    (ft.mapWeights P).force z = P (ft.force z) := by
  have h1 : ∀ k, ft.force z k = (z • ∑ i, ft.activations z i • (fun j => ft.weights j i)) k := by
    intro k
    simp only [ForcingTerm.force, Pi.smul_apply, Finset.sum_apply, smul_eq_mul]
    congr 1
    exact Finset.sum_congr rfl (fun i _ => mul_comm _ _)
  rw [show ft.force z = z • ∑ i, ft.activations z i • (fun j => ft.weights j i) from funext h1, map_smul, map_sum]
  funext k
  simp only [ForcingTerm.force, Pi.smul_apply, Finset.sum_apply, smul_eq_mul, map_smul]
  congr 1
  exact Finset.sum_congr rfl (fun i _ => mul_comm _ _)

end Verif
