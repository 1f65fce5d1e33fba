import Verif.Spec.Coupling
import Verif.Lemmas.Quat
import Mathlib.Algebra.Order.Chebyshev

/-! # C39: obstacle avoidance -/

namespace Verif
open Spec
variable {n : ℕ}

theorem dot2 (a b : Vec 2) : dot a b = a 0 * b 0 + a 1 * b 1 := by simp [dot, Fin.sum_univ_two]
theorem dot3 (a b : Vec 3) : dot a b = a 0 * b 0 + a 1 * b 1 + a 2 * b 2 := by simp [dot, Fin.sum_univ_three]
theorem norm2_eq (a : Vec 2) : norm2 a = len a := by rw [len, dot2, norm2]
theorem norm3_eq_len (a : Vec 3) : norm3 a = len a := by rw [len, dot3, norm3]

theorem dot_self_nonneg (a : Vec n) : 0 ≤ dot a a := Finset.sum_nonneg fun _ _ => mul_self_nonneg _

theorem len_sq (a : Vec n) : len a ^ 2 = dot a a := Real.sq_sqrt (dot_self_nonneg a)

theorem len_nonneg (a : Vec n) : 0 ≤ len a := Real.sqrt_nonneg _

/-- Cauchy-Schwarz. -/
theorem abs_dot_le (a b : Vec n) : |dot a b| ≤ len a * len b := by
  rw [← Real.sqrt_sq_eq_abs, len, len, ← Real.sqrt_mul (dot_self_nonneg a)]
  apply Real.sqrt_le_sqrt
  have := Finset.sum_mul_sq_le_sq_mul_sq Finset.univ a b
  simpa [dot, pow_two] using this

/-- **C39 (well defined).** The argument of the arc cosine is strictly between -1 and 1 for all positions, velocities
and obstacles, including zero vectors; so the steering angle is well defined and strictly between 0 and pi. -/
theorem C39_well_defined (d v : Vec n) :
    |dot d v / (len d * len v + 1 / 10 ^ 10)| < 1 ∧ 0 < steeringAngle d v ∧ steeringAngle d v < Real.pi ∧
      Real.cos (steeringAngle d v) = dot d v / (len d * len v + 1 / 10 ^ 10) := by
  have h := abs_dot_le d v
  have hpos : 0 < len d * len v + 1 / 10 ^ 10 := by
    have := mul_nonneg (len_nonneg d) (len_nonneg v); positivity
  have h1 : |dot d v / (len d * len v + 1 / 10 ^ 10)| < 1 := by
    rw [abs_div, abs_of_pos hpos, div_lt_one hpos]
    refine lt_of_le_of_lt h (lt_add_of_pos_right _ (by norm_num))
  have h2 := abs_lt.1 h1
  refine ⟨h1, Real.arccos_pos.2 h2.2, ?_, Real.cos_arccos h2.1.le h2.2.le⟩
  refine lt_of_le_of_ne (Real.arccos_le_pi _) ?_
  intro hp
  rw [steeringAngle, Real.arccos_eq_pi] at hp
  linarith

/-- Rotation by 90 degrees about a unit axis. -/
theorem quarter_turn {u : Vec 3} (hu : u 0 * u 0 + u 1 * u 1 + u 2 * u 2 = 1) :
    matrixFromCompactAxisAngleCy (fun i => 1 / 2 * Real.pi * u i) =
      ![![u 0 * u 0, u 0 * u 1 - u 2, u 0 * u 2 + u 1], ![u 1 * u 0 + u 2, u 1 * u 1, u 1 * u 2 - u 0],
        ![u 2 * u 0 - u 1, u 2 * u 1 + u 0, u 2 * u 2]] := by
  have hn : norm3 (fun i => 1 / 2 * Real.pi * u i) = Real.pi / 2 := by
    rw [norm3, show 1 / 2 * Real.pi * u 0 * (1 / 2 * Real.pi * u 0) + 1 / 2 * Real.pi * u 1 * (1 / 2 * Real.pi * u 1) +
      1 / 2 * Real.pi * u 2 * (1 / 2 * Real.pi * u 2) =
        (Real.pi / 2) ^ 2 * (u 0 * u 0 + u 1 * u 1 + u 2 * u 2) by ring, hu, mul_one,
      Real.sqrt_sq (by positivity)]
  have hpi : Real.pi / 2 ≠ 0 := by positivity
  unfold matrixFromCompactAxisAngleCy
  simp only [hn, if_neg hpi, Real.cos_pi_div_two, Real.sin_pi_div_two]
  have e : ∀ i, 1 / 2 * Real.pi * u i / (Real.pi / 2) = u i := by
    intro i; field_simp
  simp only [e]
  congr 1 <;> [skip; congr 1] <;> simp

theorem identity_turn : matrixFromCompactAxisAngleCy 0 = ![![1, 0, 0], ![0, 1, 0], ![0, 0, 1]] := by
  unfold matrixFromCompactAxisAngleCy
  simp [norm3]

theorem cross_zero_collinear {d v : Vec 3} : cross3 d v = 0 ↔ Collinear d v := by
  constructor
  · intro h
    have h0 : d 1 * v 2 - d 2 * v 1 = 0 := congrFun h 0
    have h1 : d 2 * v 0 - d 0 * v 2 = 0 := congrFun h 1
    have h2 : d 0 * v 1 - d 1 * v 0 = 0 := congrFun h 2
    by_cases hd : d = 0
    · exact ⟨1, 0, .inl one_ne_zero, fun i => by simp [hd]⟩
    · obtain ⟨i, hi⟩ := Function.ne_iff.1 hd
      refine ⟨v i, d i, .inr hi, fun j => ?_⟩
      fin_cases i <;> fin_cases j <;> simp <;> linarith
  · rintro ⟨a, b, hab, h⟩
    have h0 := h 0
    have h1 := h 1
    have h2 := h 2
    funext i
    rcases hab with ha | hb
    · have e : ∀ i, d i = b / a * v i := by intro i; field_simp; linarith [h i]
      fin_cases i <;> simp only [cross3, e] <;> simp <;> ring
    · have e : ∀ i, v i = a / b * d i := by intro i; field_simp; linarith [h i]
      fin_cases i <;> simp only [cross3, e] <;> simp <;> ring

open scoped Classical in
/-- The acceleration in three dimensions: along `(d · v) v - |v|² d` unless `d` and `v` are parallel. -/
theorem obstacle3d_eq (y yd o : Vec 3) (γ β : ℝ) :
    obstacleAvoidance3d y yd o γ β = fun i =>
      γ * (if Collinear (fun i => o i - y i) yd then yd i
        else (dot (fun i => o i - y i) yd * yd i - dot yd yd * (o i - y i)) / len (cross3 (fun i => o i - y i) yd)) *
      steeringAngle (fun i => o i - y i) yd * Real.exp (-β * steeringAngle (fun i => o i - y i) yd) := by
  funext i
  have hang : Real.arccos (((o 0 - y 0) * yd 0 + (o 1 - y 1) * yd 1 + (o 2 - y 2) * yd 2) /
      (norm3 (fun i => o i - y i) * norm3 yd + couplingEps)) = steeringAngle (fun i => o i - y i) yd := by
    rw [steeringAngle, norm3_eq_len, norm3_eq_len, dot3, couplingEps]
  unfold obstacleAvoidance3d
  simp only [hang]
  congr 3
  by_cases hc : Collinear (fun i => o i - y i) yd
  · rw [if_pos hc]
    have hz := cross_zero_collinear.2 hc
    have hn : normVector3 (cross3 (fun i => o i - y i) yd) = 0 := by
      rw [hz]; simp [normVector3, norm3]
    rw [hn, show (fun i : Fin 3 => 1 / 2 * Real.pi * (0 : Vec 3) i) = 0 by funext i; simp, identity_turn]
    fin_cases i <;> simp
  · rw [if_neg hc]
    have hz : cross3 (fun i => o i - y i) yd ≠ 0 := fun h => hc (cross_zero_collinear.1 h)
    generalize hd : (fun i => o i - y i) = d at *
    have hdi : ∀ i, o i - y i = d i := fun i => congrFun hd i
    rw [hdi]
    generalize hw : cross3 d yd = w at *
    have hlen : len w ≠ 0 := by
      rw [← norm3_eq_len, norm3_eq_length]
      exact fun h => hz (length_eq_zero.1 h)
    have hsq := len_sq w
    rw [dot3] at hsq
    have hu : ∀ i, normVector3 w i = w i / len w := by
      intro i
      rw [normVector3, norm3_eq_len, if_neg hlen]
    have hone : normVector3 w 0 * normVector3 w 0 + normVector3 w 1 * normVector3 w 1 +
        normVector3 w 2 * normVector3 w 2 = 1 := by
      simp only [hu]
      field_simp
      linarith
    rw [quarter_turn hone]
    have w0 : w 0 = d 1 * yd 2 - d 2 * yd 1 := by rw [← hw]; rfl
    have w1 : w 1 = d 2 * yd 0 - d 0 * yd 2 := by rw [← hw]; rfl
    have w2 : w 2 = d 0 * yd 1 - d 1 * yd 0 := by rw [← hw]; rfl
    have hperp : w 0 * yd 0 + w 1 * yd 1 + w 2 * yd 2 = 0 := by rw [w0, w1, w2]; ring
    simp only [hu, dot3]
    have key : ∀ x : ℝ, (w 0 / len w * (x / len w) * yd 0 + w 1 / len w * (x / len w) * yd 1 +
        w 2 / len w * (x / len w) * yd 2) = 0 := by
      intro x
      have : (w 0 / len w * (x / len w) * yd 0 + w 1 / len w * (x / len w) * yd 1 +
        w 2 / len w * (x / len w) * yd 2) = x / (len w) ^ 2 * (w 0 * yd 0 + w 1 * yd 1 + w 2 * yd 2) := by
        field_simp
      rw [this, hperp, mul_zero]
    fin_cases i
    · have k := key (w 0)
      simp only [Fin.zero_eta, Matrix.cons_val_zero, Matrix.cons_val_one, Matrix.cons_val]
      have : ∀ a b c e f : ℝ, a * yd 0 + (b - c) * yd 1 + (e + f) * yd 2 =
          (a * yd 0 + b * yd 1 + e * yd 2) + (f * yd 2 - c * yd 1) := by intros; ring
      rw [this, show w 0 / len w * (w 0 / len w) * yd 0 + w 0 / len w * (w 1 / len w) * yd 1 +
        w 0 / len w * (w 2 / len w) * yd 2 = 0 by rw [← k]; ring, w1, w2]
      field_simp
      ring
    · have k := key (w 1)
      simp only [Fin.mk_one, Matrix.cons_val_zero, Matrix.cons_val_one, Matrix.cons_val]
      have : ∀ a b c e f : ℝ, (a + b) * yd 0 + c * yd 1 + (e - f) * yd 2 =
          (a * yd 0 + c * yd 1 + e * yd 2) + (b * yd 0 - f * yd 2) := by intros; ring
      rw [this, show w 1 / len w * (w 0 / len w) * yd 0 + w 1 / len w * (w 1 / len w) * yd 1 +
        w 1 / len w * (w 2 / len w) * yd 2 = 0 by rw [← k]; ring, w0, w2]
      field_simp
      ring
    · have k := key (w 2)
      simp only [Fin.reduceFinMk, Matrix.cons_val_zero, Matrix.cons_val_one, Matrix.cons_val]
      have : ∀ a b c e f : ℝ, (a - b) * yd 0 + (c + e) * yd 1 + f * yd 2 =
          (a * yd 0 + c * yd 1 + f * yd 2) + (e * yd 1 - b * yd 0) := by intros; ring
      rw [this, show w 2 / len w * (w 0 / len w) * yd 0 + w 2 / len w * (w 1 / len w) * yd 1 +
        w 2 / len w * (w 2 / len w) * yd 2 = 0 by rw [← k]; ring, w0, w1]
      field_simp
      ring

theorem dot_cross (d v : Vec 3) : len (cross3 d v) ^ 2 = dot d d * dot v v - dot d v ^ 2 := by
  rw [len_sq]
  simp only [dot3, cross3, Matrix.cons_val_zero, Matrix.cons_val_one, Matrix.cons_val]
  ring

theorem len_pos {v : Vec n} (h : v ≠ 0) : 0 < len v := by
  obtain ⟨i, hi⟩ := Function.ne_iff.1 h
  refine Real.sqrt_pos.2 (Finset.sum_pos' (fun _ _ => mul_self_nonneg _) ⟨i, Finset.mem_univ _, ?_⟩)
  exact mul_self_pos.2 hi

theorem dot_smul_left (a : ℝ) (x y : Vec n) : dot (fun i => a * x i) y = a * dot x y := by
  simp only [dot, Finset.mul_sum, mul_assoc]

theorem dot_sub_left (x z y : Vec n) : dot (fun i => x i - z i) y = dot x y - dot z y := by
  simp only [dot, ← Finset.sum_sub_distrib, sub_mul]

theorem dot_comm' (x y : Vec n) : dot x y = dot y x := by simp only [dot, mul_comm]

/-- Geometry of a vector along `(d · v) v - |v|² d`. -/
theorem steer_facts {d v c : Vec n} {A N : ℝ} (hN : 0 < N) (hNN : N ^ 2 = dot d d * dot v v - dot d v ^ 2)
    (hc : c = fun i => A / N * (dot d v * v i - dot v v * d i)) :
    dot c v = 0 ∧ dot c d = -(A * N) ∧ len c = |A| * len v := by
  have e : ∀ z, dot c z = A / N * (dot d v * dot v z - dot v v * dot d z) := by
    intro z
    rw [hc, dot_smul_left, dot_sub_left, dot_smul_left, dot_smul_left]
  have hv : dot c v = 0 := by rw [e]; ring
  have hd : dot c d = -(A * N) := by
    rw [e, dot_comm' v d, show dot d v * dot d v - dot v v * dot d d = -N ^ 2 by rw [hNN]; ring]
    field_simp
  refine ⟨hv, hd, ?_⟩
  have hcc : dot c c = A ^ 2 * dot v v := by
    rw [e, dot_comm' v c, dot_comm' d c, hv, hd]
    field_simp
    ring
  rw [len, hcc, Real.sqrt_mul (sq_nonneg A), Real.sqrt_sq_eq_abs, len]

/-- **C39 (3D).** Unless the velocity is parallel to the direction to the obstacle: the acceleration is orthogonal to the
velocity, points away from the obstacle, and its magnitude is `gamma * |v| * theta * exp(-beta * theta)`. -/
theorem C39_3d (y v o : Vec 3) {γ : ℝ} (β : ℝ) (hγ : 0 < γ) (h : ¬Collinear (fun i => o i - y i) v) :
    let c := (couplingObstacle3d o γ β y v).2
    let θ := steeringAngle (fun i => o i - y i) v
    dot c v = 0 ∧ dot c (fun i => o i - y i) < 0 ∧ len c = γ * len v * θ * Real.exp (-β * θ) := by
  intro c θ
  have hN : 0 < len (cross3 (fun i => o i - y i) v) := len_pos fun hz => h (cross_zero_collinear.1 hz)
  have hθ : 0 < θ := (C39_well_defined _ _).2.1
  have hA : 0 < γ * θ * Real.exp (-β * θ) := by have := Real.exp_pos (-β * θ); positivity
  obtain ⟨h1, h2, h3⟩ := steer_facts (c := c) (A := γ * θ * Real.exp (-β * θ)) hN (dot_cross _ _) (by
    show obstacleAvoidance3d y v o γ β = _
    rw [obstacle3d_eq]
    funext i
    simp only [if_neg h]
    ring)
  refine ⟨h1, ?_, ?_⟩
  · rw [h2]; have := mul_pos hA hN; linarith
  · rw [h3, abs_of_pos hA]; ring

/-- **C39 (3D, finding).** When the velocity is parallel to the direction to the obstacle, the rotation degenerates to the
identity: the acceleration is parallel to the velocity, so on a collision course it points towards the obstacle. -/
theorem C39_3d_head_on (y v o : Vec 3) {γ : ℝ} (β : ℝ) (h : Collinear (fun i => o i - y i) v) :
    let c := (couplingObstacle3d o γ β y v).2
    let θ := steeringAngle (fun i => o i - y i) v
    (∀ i, c i = γ * θ * Real.exp (-β * θ) * v i) ∧
      (0 < γ → 0 < dot (fun i => o i - y i) v → 0 < dot c (fun i => o i - y i)) := by
  intro c θ
  have e : c = fun i => γ * θ * Real.exp (-β * θ) * v i := by
    show obstacleAvoidance3d y v o γ β = _
    rw [obstacle3d_eq]
    funext i
    simp only [if_pos h]
    ring
  refine ⟨fun i => congrFun e i, fun hγ hd => ?_⟩
  have hθ : 0 < θ := (C39_well_defined _ _).2.1
  rw [e, dot_smul_left, dot_comm']
  have := Real.exp_pos (-β * θ)
  positivity

theorem cross2_collinear {d v : Vec 2} : d 0 * v 1 - d 1 * v 0 = 0 ↔ Collinear d v := by
  constructor
  · intro h
    by_cases hd : d = 0
    · exact ⟨1, 0, .inl one_ne_zero, fun i => by simp [hd]⟩
    · obtain ⟨i, hi⟩ := Function.ne_iff.1 hd
      refine ⟨v i, d i, .inr hi, fun j => ?_⟩
      fin_cases i <;> fin_cases j <;> simp <;> linarith
  · rintro ⟨a, b, hab, h⟩
    rcases hab with ha | hb
    · have e : ∀ i, d i = b / a * v i := by intro i; field_simp; linarith [h i]
      rw [e, e]; ring
    · have e : ∀ i, v i = a / b * d i := by intro i; field_simp; linarith [h i]
      rw [e, e]; ring

theorem turn2 {c : ℝ} (hc : c ≠ 0) : matrixFromCompactAxisAngleCy ![0, 0, 1 / 2 * Real.pi * (c / |c|)] =
    ![![0, -(c / |c|), 0], ![c / |c|, 0, 0], ![0, 0, c / |c| * (c / |c|)]] := by
  have habs : |c| ≠ 0 := abs_ne_zero.2 hc
  have hone : c / |c| * (c / |c|) = 1 := by
    rw [div_mul_div_comm, abs_mul_abs_self, div_self (mul_self_ne_zero.2 hc)]
  have := quarter_turn (u := ![0, 0, c / |c|]) (by simpa using hone)
  rw [show (fun i => 1 / 2 * Real.pi * (![0, 0, c / |c|] : Vec 3) i) = ![0, 0, 1 / 2 * Real.pi * (c / |c|)] by
    funext i; fin_cases i <;> simp] at this
  rw [this]
  simp

open scoped Classical in
/-- The acceleration in two dimensions. -/
theorem obstacle2d_eq (y yd o : Vec 2) (γ β : ℝ) :
    obstacleAvoidance2d y yd o γ β = fun i =>
      γ * (if Collinear (fun i => o i - y i) yd then yd i
        else (dot (fun i => o i - y i) yd * yd i - dot yd yd * (o i - y i)) /
          |(o 0 - y 0) * yd 1 - (o 1 - y 1) * yd 0|) *
      (steeringAngle (fun i => o i - y i) yd * Real.exp (-β * steeringAngle (fun i => o i - y i) yd)) := by
  funext i
  have hang : Real.arccos (((o 0 - y 0) * yd 0 + (o 1 - y 1) * yd 1) /
      (norm2 (fun i => o i - y i) * norm2 yd + couplingEps)) = steeringAngle (fun i => o i - y i) yd := by
    rw [steeringAngle, norm2_eq, norm2_eq, dot2, couplingEps]
  unfold obstacleAvoidance2d
  simp only [hang]
  congr 2
  have hcr : cross3 ![o 0 - y 0, o 1 - y 1, 0] ![yd 0, yd 1, 0] =
      ![0, 0, (o 0 - y 0) * yd 1 - (o 1 - y 1) * yd 0] := by
    simp [cross3]
  rw [hcr]
  by_cases hc : Collinear (fun i => o i - y i) yd
  · rw [if_pos hc, cross2_collinear.2 hc]
    rw [show (fun i : Fin 3 => 1 / 2 * Real.pi * normVector3 ![0, 0, 0] i) = 0 by
      funext i; fin_cases i <;> simp [normVector3, norm3], identity_turn]
    fin_cases i <;> simp
  · rw [if_neg hc]
    have hz : (o 0 - y 0) * yd 1 - (o 1 - y 1) * yd 0 ≠ 0 := fun h => hc (cross2_collinear.1 h)
    generalize hw : (o 0 - y 0) * yd 1 - (o 1 - y 1) * yd 0 = w at *
    have hn : norm3 ![0, 0, w] = |w| := by simp [norm3, Real.sqrt_mul_self_eq_abs]
    rw [show (fun i : Fin 3 => 1 / 2 * Real.pi * normVector3 ![0, 0, w] i) = ![0, 0, 1 / 2 * Real.pi * (w / |w|)] by
      funext i; fin_cases i <;> simp [normVector3, hn, abs_ne_zero.2 hz], turn2 hz]
    have habs : |w| ≠ 0 := abs_ne_zero.2 hz
    rw [dot2, dot2]
    fin_cases i
    · simp
      field_simp
      rw [← hw]; ring
    · simp
      field_simp
      rw [← hw]; ring

/-- **C39 (Cython).** The Python and the Cython function agree for all inputs. -/
theorem C39_python_eq_cython (y v o : Vec 2) (γ β : ℝ) :
    couplingObstacle2d true o γ β y v = couplingObstacle2d false o γ β y v := by
  unfold couplingObstacle2d obstacleAvoidance2d obstacleAvoidance2dCy
  simp only [if_true, Bool.false_eq_true, if_false]
  have hcr : cross3 ![o 0 - y 0, o 1 - y 1, 0] ![v 0, v 1, 0] = ![0, 0, (o 0 - y 0) * v 1 - (o 1 - y 1) * v 0] := by
    simp [cross3]
  rw [hcr]
  have hr : (fun i : Fin 3 => 1 / 2 * Real.pi * normVector3 ![0, 0, (o 0 - y 0) * v 1 - (o 1 - y 1) * v 0] i) =
      ![0, 0, if (o 0 - y 0) * v 1 - (o 1 - y 1) * v 0 ≠ 0 then
        ((o 0 - y 0) * v 1 - (o 1 - y 1) * v 0) * (Real.pi / 2 / |(o 0 - y 0) * v 1 - (o 1 - y 1) * v 0|) else
          (o 0 - y 0) * v 1 - (o 1 - y 1) * v 0] := by
    generalize (o 0 - y 0) * v 1 - (o 1 - y 1) * v 0 = w
    by_cases hw : w = 0
    · subst hw
      funext i; fin_cases i <;> simp [normVector3, norm3]
    · have hn : norm3 ![0, 0, w] = |w| := by simp [norm3, Real.sqrt_mul_self_eq_abs]
      funext i
      fin_cases i
      · simp [normVector3, hn, hw]
      · simp [normVector3, hn, hw]
      · simp [normVector3, hn, hw]
        ring
  rw [hr]
  rfl

/-- **C39 (2D).** Unless the velocity is parallel to the direction to the obstacle: the acceleration is orthogonal to the
velocity, points away from the obstacle, and its magnitude is `gamma * |v| * theta * exp(-beta * theta)`. Holds for both
implementations. -/
theorem C39_2d (fast : Bool) (y v o : Vec 2) {γ : ℝ} (β : ℝ) (hγ : 0 < γ) (h : ¬Collinear (fun i => o i - y i) v) :
    let c := (couplingObstacle2d fast o γ β y v).2
    let θ := steeringAngle (fun i => o i - y i) v
    dot c v = 0 ∧ dot c (fun i => o i - y i) < 0 ∧ len c = γ * len v * θ * Real.exp (-β * θ) := by
  intro c θ
  have hf : couplingObstacle2d fast o γ β y v = couplingObstacle2d false o γ β y v := by
    cases fast
    · rfl
    · exact C39_python_eq_cython y v o γ β
  have hz : (o 0 - y 0) * v 1 - (o 1 - y 1) * v 0 ≠ 0 := fun hz => h (cross2_collinear.1 hz)
  have hN : 0 < |(o 0 - y 0) * v 1 - (o 1 - y 1) * v 0| := abs_pos.2 hz
  have hθ : 0 < θ := (C39_well_defined _ _).2.1
  have hA : 0 < γ * θ * Real.exp (-β * θ) := by have := Real.exp_pos (-β * θ); positivity
  obtain ⟨h1, h2, h3⟩ := steer_facts (c := c) (d := fun i => o i - y i) (v := v) (A := γ * θ * Real.exp (-β * θ)) hN
    (by rw [sq_abs]; simp only [dot2]; ring) (by
    show (couplingObstacle2d fast o γ β y v).2 = _
    rw [hf]
    show obstacleAvoidance2d y v o γ β = _
    rw [obstacle2d_eq]
    funext i
    simp only [if_neg h]
    ring)
  refine ⟨h1, ?_, ?_⟩
  · rw [h2]; have := mul_pos hA hN; linarith
  · rw [h3, abs_of_pos hA]; ring

/-- **C39 (2D, finding).** When the velocity is parallel to the direction to the obstacle, the acceleration is parallel
to the velocity, so on a collision course it points towards the obstacle. -/
theorem C39_2d_head_on (fast : Bool) (y v o : Vec 2) {γ : ℝ} (β : ℝ) (h : Collinear (fun i => o i - y i) v) :
    let c := (couplingObstacle2d fast o γ β y v).2
    let θ := steeringAngle (fun i => o i - y i) v
    (∀ i, c i = γ * θ * Real.exp (-β * θ) * v i) ∧
      (0 < γ → 0 < dot (fun i => o i - y i) v → 0 < dot c (fun i => o i - y i)) := by
  intro c θ
  have hf : couplingObstacle2d fast o γ β y v = couplingObstacle2d false o γ β y v := by
    cases fast
    · rfl
    · exact C39_python_eq_cython y v o γ β
  have e : c = fun i => γ * θ * Real.exp (-β * θ) * v i := by
    show (couplingObstacle2d fast o γ β y v).2 = _
    rw [hf]
    show obstacleAvoidance2d y v o γ β = _
    rw [obstacle2d_eq]
    funext i
    simp only [if_pos h]
    ring
  refine ⟨fun i => congrFun e i, fun hγ hd => ?_⟩
  have hθ : 0 < θ := (C39_well_defined _ _).2.1
  rw [e, dot_smul_left, dot_comm']
  have := Real.exp_pos (-β * θ)
  positivity

/-- **C39 (at rest).** No acceleration at rest, and never a velocity coupling. -/
theorem C39_rest (fast : Bool) (y o : Vec 2) (y3 o3 : Vec 3) (γ β : ℝ) :
    couplingObstacle2d fast o γ β y 0 = (0, 0) ∧ couplingObstacle3d o3 γ β y3 0 = (0, 0) ∧
      (∀ v, (couplingObstacle2d fast o γ β y v).1 = 0) ∧ ∀ v, (couplingObstacle3d o3 γ β y3 v).1 = 0 := by
  refine ⟨Prod.ext rfl ?_, Prod.ext rfl ?_, fun _ => rfl, fun _ => rfl⟩
  · have := (C39_2d_head_on fast y 0 o (γ := γ) β ⟨0, 1, .inr one_ne_zero, fun i => by simp⟩).1
    funext i
    rw [this i]
    simp
  · have := (C39_3d_head_on y3 0 o3 (γ := γ) β ⟨0, 1, .inr one_ne_zero, fun i => by simp⟩).1
    funext i
    rw [this i]
    simp

/-- Both cases occur: an obstacle to the left of the direction of motion, an obstacle straight ahead. -/
example : ¬Collinear (fun i => (![1, 1] : Vec 2) i - (0 : Vec 2) i) ![1, 0] ∧
    Collinear (fun i => (![1, 0] : Vec 2) i - (0 : Vec 2) i) ![1, 0] ∧
    0 < dot (fun i => (![1, 0] : Vec 2) i - (0 : Vec 2) i) ![1, 0] := by
  refine ⟨?_, ?_, ?_⟩
  · rw [← cross2_collinear]; norm_num
  · rw [← cross2_collinear]; norm_num
  · rw [dot2]; norm_num

example : ¬Collinear (fun i => (![1, 1, 0] : Vec 3) i - (0 : Vec 3) i) ![1, 0, 0] := by
  rw [← cross_zero_collinear]
  intro h
  have := congrFun h 2
  simp [cross3] at this

end Verif
