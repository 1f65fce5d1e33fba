import Verif.Lemmas.CartesianSim
import Verif.Lemmas.HeapClasses
import Verif.Props.CartesianImitate

/-! # Imitation in other coordinates -/

namespace Verif
open Spec Matrix
variable {d d' m n : ℕ}

/-- `np.gradient` at one sample is a difference quotient. -/
theorem gradient_form (t : Fin (n + 2)) : ∃ (a b : Fin (n + 2)) (c : ℝ), ∀ f : Fin (n + 2) → ℝ,
    gradient f t = c * (f a - f b) := by
  unfold gradient
  split_ifs
  · exact ⟨_, _, 1, fun f => (one_mul _).symm⟩
  · exact ⟨_, _, 1 / 2, fun f => by rw [div_eq_inv_mul, one_div]⟩
  · exact ⟨_, _, 1, fun f => (one_mul _).symm⟩

theorem gradient_map (P : Vec d →ₗ[ℝ] Vec d') (b : Vec d') (Y : Fin (n + 2) → Vec d) (t : Fin (n + 2)) :
    (fun k => gradient (fun i => (P (Y i) + b) k) t) = P (fun k => gradient (fun i => Y i k) t) := by
  obtain ⟨i, j, c, h⟩ := gradient_form t
  simp only [h]
  have : (fun k => c * (Y i k - Y j k)) = c • (Y i - Y j) := rfl
  rw [this, map_smul, map_sub]
  funext k
  simp only [Pi.add_apply, Pi.smul_apply, Pi.sub_apply, smul_eq_mul]
  ring

theorem demoYd_map (P : Vec d →ₗ[ℝ] Vec d') (b : Vec d') (T : Fin (n + 2) → ℝ) (Y : Fin (n + 2) → Vec d) (afv : Bool)
    (t : Fin (n + 2)) : demoYd T (fun i => P (Y i) + b) afv t = P (demoYd T Y afv t) := by
  unfold demoYd
  by_cases h : t = Fin.last (n + 1) ∧ afv = false
  · simp only [if_pos h]; exact (P.map_zero).symm
  · simp only [if_neg h]
    have h1 := gradient_map P b Y t
    have : (fun k => gradient (fun i => Y i k) t / gradient T t) =
        (1 / gradient T t) • (fun k => gradient (fun i => Y i k) t) := by
      funext k; simp only [Pi.smul_apply, smul_eq_mul]; ring
    rw [this, map_smul, ← h1]
    funext k; simp only [Pi.smul_apply, smul_eq_mul]; ring

theorem demoYdd_map (P : Vec d →ₗ[ℝ] Vec d') (b : Vec d') (T : Fin (n + 2) → ℝ) (Y : Fin (n + 2) → Vec d) (afv : Bool)
    (t : Fin (n + 2)) : demoYdd T (fun i => P (Y i) + b) afv t = P (demoYdd T Y afv t) := by
  unfold demoYdd
  by_cases h : t = Fin.last (n + 1)
  · simp only [if_pos h]; exact (P.map_zero).symm
  · simp only [if_neg h, demoYd_map]
    have h1 := gradient_map P 0 (demoYd T Y afv) t
    simp only [add_zero] at h1
    have : (fun k => gradient (fun i => demoYd T Y afv i k) t / gradient T t) =
        (1 / gradient T t) • (fun k => gradient (fun i => demoYd T Y afv i k) t) := by
      funext k; simp only [Pi.smul_apply, smul_eq_mul]; ring
    rw [this, map_smul, ← h1]
    funext k; simp only [Pi.smul_apply, smul_eq_mul]; ring

theorem determineForces_map (P : Vec d →ₗ[ℝ] Vec d') (b : Vec d') (T : Fin (n + 2) → ℝ) (Y : Fin (n + 2) → Vec d)
    {a bt : Vec d} {α β : ℝ} (ha : ∀ k, a k = α) (hb : ∀ k, bt k = β) (z : ℝ) (afv smooth : Bool) (t : Fin (n + 2)) :
    determineForces T (fun i => P (Y i) + b) (fun _ => α) (fun _ => β) z afv smooth t =
      P (determineForces T Y a bt z afv smooth t) := by
  unfold determineForces
  simp only [demoYd_map, demoYdd_map, ha, hb]
  generalize demoYd T Y afv t = v
  generalize demoYdd T Y afv t = w
  generalize phase (T t) z (T (Fin.last (n + 1))) (T 0) = p
  generalize T (Fin.last (n + 1)) - T 0 = τ
  have : (fun k => τ ^ 2 * w k - α * (β * (Y (Fin.last (n + 1)) k - Y t k) - v k * τ -
        if smooth = true then β * (Y (Fin.last (n + 1)) k - Y 0 k) * p else 0)) =
      τ ^ 2 • w - α • (β • (Y (Fin.last (n + 1)) - Y t) - τ • v -
        (if smooth then β * p else 0) • (Y (Fin.last (n + 1)) - Y 0)) := by
    funext k
    cases smooth <;> simp only [if_true, if_false, Bool.false_eq_true, Pi.smul_apply, Pi.sub_apply, smul_eq_mul] <;> ring
  rw [this]
  simp only [map_sub, map_smul]
  funext k
  cases smooth <;> simp only [if_true, if_false, Bool.false_eq_true, Pi.smul_apply, Pi.sub_apply, Pi.add_apply,
    smul_eq_mul] <;> ring

theorem ridge_map (P : Vec d →ₗ[ℝ] Vec d') (X : Matrix (Fin m) (Fin n) ℝ) (F : Fin n → Vec d) (reg : ℝ) (k : Fin d')
    (i : Fin m) :
    ridgeRegression X (Matrix.of (fun t => P (F t))) reg k i =
      P (fun j => ridgeRegression X (Matrix.of F) reg j i) k := by
  unfold ridgeRegression
  simp only [Matrix.transpose_apply, Matrix.mul_apply (M := pinv _ * X), Matrix.of_apply]
  generalize pinv (X * Xᵀ + reg • 1) * X = M
  have : (fun j => ∑ t, M i t * F t j) = ∑ t, M i t • F t := by
    funext j; simp only [Finset.sum_apply, Pi.smul_apply, smul_eq_mul]
  rw [this, map_sum, Finset.sum_apply]
  simp only [map_smul, Pi.smul_apply, smul_eq_mul]

/-- The part of a forcing term that does not depend on the number of dimensions. -/
theorem create_dims {gT sT ov z : ℝ} (P : Vec d →ₗ[ℝ] Vec d') :
    ForcingTerm.create d' m gT sT ov z = (ForcingTerm.create d m gT sT ov z).map (fun ft => ft.mapWeights P) := by
  unfold ForcingTerm.create
  split_ifs <;> try rfl
  simp only [Except.map, ForcingTerm.mapWeights]
  congr 1
  have : (fun j : Fin d => (0 : ℝ)) = 0 := rfl
  simp only [this, map_zero]
  rfl

theorem dmpImitateWith_map (P : Vec d →ₗ[ℝ] Vec d') (T : Fin (n + 2) → ℝ) (reg ov z : ℝ) (F : Fin (n + 2) → Vec d) :
    dmpImitateWith m T reg ov z (.ok (fun t => P (F t))) =
      (dmpImitateWith m T reg ov z (.ok F)).map (fun W k i => P (fun j => W j i) k) := by
  unfold dmpImitateWith
  by_cases hr : reg < 0
  · simp only [if_pos hr]; rfl
  · simp only [if_neg hr, create_dims P]
    cases ForcingTerm.create d m (T (Fin.last (n + 1))) (T 0) ov z with
    | error e => rfl
    | ok ft =>
      simp only [bind, Except.bind, Except.map, Pure.pure, Except.pure, Except.ok.injEq]
      funext k i
      exact ridge_map P _ F reg k i

theorem dmpImitate_map (P : Vec d →ₗ[ℝ] Vec d') (b : Vec d') (T : Fin (n + 2) → ℝ) (Y : Fin (n + 2) → Vec d)
    {a bt : Vec d} {α β : ℝ} (ha : ∀ k, a k = α) (hb : ∀ k, bt k = β) (reg ov z : ℝ) (afv smooth : Bool) :
    dmpImitate m T (fun i => P (Y i) + b) reg (fun _ => α) (fun _ => β) ov z afv smooth =
      (dmpImitate m T Y reg a bt ov z afv smooth).map
        (fun r => (fun k i => P (fun j => r.1 j i) k, P r.2.1 + b, P r.2.2 + b)) := by
  unfold dmpImitate
  have h := dmpImitateWith_map (m := m) P T reg ov z (determineForces T Y a bt z afv smooth)
  have hF : determineForces T (fun i => P (Y i) + b) (fun _ => α) (fun _ => β) z afv smooth =
      fun t => P (determineForces T Y a bt z afv smooth t) := funext (determineForces_map P b T Y ha hb z afv smooth)
  rw [hF, h]
  cases dmpImitateWith m T reg ov z (.ok (determineForces T Y a bt z afv smooth)) <;> rfl

/-! ## Orientations -/

theorem determineForcesQuaternion_turn {ops : QuatOps} {eps : ℝ} (h : LawfulQuatOps ops eps)
    {qgrad : (Fin (n + 2) → Vec 4) → Fin (n + 2) → Vec 3} {r : Vec 4} (hr : UnitQuat r) (T : Fin (n + 2) → ℝ)
    {Q : Fin (n + 2) → Vec 4} (hQ : ∀ t, UnitQuat (Q t)) (hq : qgrad (fun t => turned r (Q t)) = qgrad Q)
    (a b : Vec 3) (z : ℝ) (afv smooth : Bool) :
    determineForcesQuaternion ops qgrad T (fun t => turned r (Q t)) a b z afv smooth =
      determineForcesQuaternion ops qgrad T Q a b z afv smooth := by
  unfold determineForcesQuaternion demoRotYdd demoRotYd
  simp only [hq, diff_turned h hr (hQ _) (hQ _)]

theorem demoRotYd_world {qgrad : (Fin (n + 2) → Vec 4) → Fin (n + 2) → Vec 3} {p : Vec 4} (T : Fin (n + 2) → ℝ)
    {Q : Fin (n + 2) → Vec 4} (hq : ∀ t, qgrad (fun t => turnedWorld p (Q t)) t = rotated p (qgrad Q t)) (afv : Bool)
    (t : Fin (n + 2)) :
    demoRotYd qgrad T (fun t => turnedWorld p (Q t)) afv t = rotL p (demoRotYd qgrad T Q afv t) := by
  unfold demoRotYd
  by_cases h : t = Fin.last (n + 1) ∧ afv = false
  · simp only [if_pos h]; exact ((rotL p).map_zero).symm
  · simp only [if_neg h, hq]
    have : (fun k => qgrad Q t k / gradient T t) = (1 / gradient T t) • qgrad Q t := by
      funext k; simp only [Pi.smul_apply, smul_eq_mul]; ring
    rw [this, map_smul]
    funext k; simp only [Pi.smul_apply, smul_eq_mul, rotL_apply]; ring

theorem demoRotYdd_world {qgrad : (Fin (n + 2) → Vec 4) → Fin (n + 2) → Vec 3} {p : Vec 4} (T : Fin (n + 2) → ℝ)
    {Q : Fin (n + 2) → Vec 4} (hq : ∀ t, qgrad (fun t => turnedWorld p (Q t)) t = rotated p (qgrad Q t)) (afv : Bool)
    (t : Fin (n + 2)) :
    demoRotYdd qgrad T (fun t => turnedWorld p (Q t)) afv t = rotL p (demoRotYdd qgrad T Q afv t) := by
  unfold demoRotYdd
  by_cases h : t = Fin.last (n + 1)
  · simp only [if_pos h]; exact ((rotL p).map_zero).symm
  · simp only [if_neg h, demoRotYd_world T hq]
    have h1 := gradient_map (rotL p) 0 (demoRotYd qgrad T Q afv) t
    simp only [add_zero] at h1
    have : (fun k => gradient (fun i => demoRotYd qgrad T Q afv i k) t / gradient T t) =
        (1 / gradient T t) • (fun k => gradient (fun i => demoRotYd qgrad T Q afv i k) t) := by
      funext k; simp only [Pi.smul_apply, smul_eq_mul]; ring
    rw [this, map_smul, ← h1]
    funext k; simp only [Pi.smul_apply, smul_eq_mul]; ring

theorem determineForcesQuaternion_world {ops : QuatOps} {eps : ℝ} (h : LawfulQuatOps ops eps) (hlog : LogRotates ops)
    {qgrad : (Fin (n + 2) → Vec 4) → Fin (n + 2) → Vec 3} {p : Vec 4} (hp : UnitQuat p) (T : Fin (n + 2) → ℝ)
    {Q : Fin (n + 2) → Vec 4} (hQ : ∀ t, UnitQuat (Q t))
    (hq : ∀ t, qgrad (fun t => turnedWorld p (Q t)) t = rotated p (qgrad Q t))
    {a b : Vec 3} {α β : ℝ} (ha : ∀ k, a k = α) (hb : ∀ k, b k = β) (z : ℝ) (afv smooth : Bool) (t : Fin (n + 2)) :
    determineForcesQuaternion ops qgrad T (fun t => turnedWorld p (Q t)) a b z afv smooth t =
      rotL p (determineForcesQuaternion ops qgrad T Q a b z afv smooth t) := by
  unfold determineForcesQuaternion
  simp only [demoRotYdd_world T hq, demoRotYd_world T hq, diff_world h hlog hp (hQ _) (hQ _), ha, hb, ← rotL_apply]
  generalize demoRotYd qgrad T Q afv t = v
  generalize demoRotYdd qgrad T Q afv t = w
  generalize phase (T t) z (T (Fin.last (n + 1))) (T 0) = ph
  generalize T (Fin.last (n + 1)) - T 0 = τ
  generalize QuatStepArgs.diff ops (Q (Fin.last (n + 1))) (Q t) = d1
  generalize QuatStepArgs.diff ops (Q (Fin.last (n + 1))) (Q 0) = d2
  have : (fun k => τ ^ 2 * w k - α * (β * d1 k - τ * v k - if smooth = true then β * ph * d2 k else 0)) =
      τ ^ 2 • w - α • (β • d1 - τ • v - (if smooth then β * ph else 0) • d2) := by
    funext k
    cases smooth <;> simp only [if_true, if_false, Bool.false_eq_true, Pi.smul_apply, Pi.sub_apply, smul_eq_mul] <;> ring
  rw [this]
  simp only [map_sub, map_smul]
  funext k
  cases smooth <;> simp only [if_true, if_false, Bool.false_eq_true, Pi.smul_apply, Pi.sub_apply, smul_eq_mul] <;> ring

end Verif
