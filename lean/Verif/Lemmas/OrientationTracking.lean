import Verif.Lemmas.OrientationMovement

/-! # Integrated orientations follow a movement if the accelerations are close to the required ones -/

namespace Verif
open Spec Quaternion Set

variable {A B : ℝ} {q : ℝ → Vec 4} {w acc : ℝ → Vec 3}

/-- Acceleration that has to be added to those of spring (stiffness `K`) and damper (damping `C`) so that the orientation moves
as required; `a` is the rotation vector to the goal. -/
def requiredAcceleration (K C : Vec 3) (a w acc : ℝ → Vec 3) (t : ℝ) : Vec 3 := fun k => acc t k - K k * a t k + C k * w t k

/-- States that are computed one from another with accelerations `F` follow the movement. -/
theorem Spec.OrientationMovement.run_error (h : OrientationMovement A B q w acc) {g : Vec 4} (hg : UnitQuat g) (K C : Vec 3)
    {a : ℝ → Vec 3} {c : ℝ} (hc : 0 < c) (ha : ∀ t ∈ Icc A B, IsRotationTo g (q t) (a t))
    (hca : ∀ t ∈ Icc A B, c ≤ Real.cos (length (a t) / 2)) :
    ∃ M, 0 < M ∧ ∀ η > 0, ∃ H > 0, ∀ (ops : QuatOps) (eps : ℝ), LawfulQuatOps ops eps → 0 < eps →
      ∀ (F : ℝ → Vec 3) (Ψ : ℝ → ℝ) (H' : ℝ), H' ≤ H →
      (∀ s t, A ≤ s → s ≤ t → t ≤ B → Ψ s ≤ Ψ t) →
      (∀ s t, A ≤ s → s < t → t ≤ B → t - s ≤ H' → (t - s) * length (F t - requiredAcceleration K C a w acc t) ≤ Ψ t - Ψ s) →
      ∀ dt intDt : ℝ, 0 < dt → 0 < intDt → min intDt dt ≤ H' → ∀ xs : ℕ → Vec 4 × Vec 3, UnitQuat (xs 0).1 →
      (∀ i : ℕ, xs (i + 1) = (subSteps intDt (A + (i + 1) * dt) (A + i * dt)).foldl
        (fun x p => axisBody ops g K C p.1 (F p.2) x) (xs i)) →
      ∀ i : ℕ, A + i * dt ≤ B → UnitQuat (xs i).1 ∧ stateError (xs i) (q (A + i * dt)) (w (A + i * dt)) ≤
        M * (stateError (xs 0) (q A) (w A) + η + eps + (Ψ B - Ψ A)) := by
  have hπ := Real.pi_pos
  set κ := |K 0| + |K 1| + |K 2| with hκ
  set γ := |C 0| + |C 1| + |C 2| with hγ
  have hκ0 : 0 ≤ κ := by positivity
  have hγ0 : 0 ≤ γ := by positivity
  have hKk : ∀ k, |K k| ≤ κ := by
    intro k
    have h0 := abs_nonneg (K 0); have h1 := abs_nonneg (K 1); have h2 := abs_nonneg (K 2)
    fin_cases k
    · show |K 0| ≤ κ; linarith
    · show |K 1| ≤ κ; linarith
    · show |K 2| ≤ κ; linarith
  have hCk : ∀ k, |C k| ≤ γ := by
    intro k
    have h0 := abs_nonneg (C 0); have h1 := abs_nonneg (C 1); have h2 := abs_nonneg (C 2)
    fin_cases k
    · show |C 0| ≤ γ; linarith
    · show |C 1| ≤ γ; linarith
    · show |C 2| ≤ γ; linarith
  set L := Real.pi + 2 * Real.pi / c with hL
  have hL0 : 0 ≤ L := by rw [hL]; positivity
  set Λ := 1 / 2 + γ + κ * L with hΛ
  have hΛ0 : 0 ≤ Λ := by rw [hΛ]; positivity
  set R := 1 + (1 + κ * Real.pi) * |B - A| with hR
  have hR1 : 1 ≤ R := by rw [hR]; have : 0 ≤ (1 + κ * Real.pi) * |B - A| := by positivity
                         linarith
  refine ⟨Real.exp (Λ * |B - A|) * R, by positivity, fun η hη => ?_⟩
  obtain ⟨H1, hH1, hl⟩ := h.local_error (show 0 < η / 4 by positivity)
  have hcont : ∀ k, ContinuousOn (fun t => requiredAcceleration K C a w acc t k) (Icc A B) := fun k =>
    ((h.continuous k).sub (continuousOn_const.mul (continuous_rotationTo h.continuous_quat hg hc ha hca k))).add
      (continuousOn_const.mul (h.continuous_velocity k))
  obtain ⟨H2, hH2, hreq⟩ := uniform_small_vec hcont (show 0 < η / 4 by positivity)
  refine ⟨min H1 H2, lt_min hH1 hH2, ?_⟩
  intro ops eps hops heps F Ψ H' hH' hΨ hF dt intDt hdt hint hmin xs hx0 hxs
  let G : ℝ → ℝ := fun t => (η + κ * (Real.pi * eps)) * t + Ψ t
  have hG : ∀ s t, A ≤ s → s ≤ t → t ≤ B → G s ≤ G t := by
    intro s t hs hst ht
    have h1 := hΨ s t hs hst ht
    have h2 : (η + κ * (Real.pi * eps)) * s ≤ (η + κ * (Real.pi * eps)) * t :=
      mul_le_mul_of_nonneg_left hst (by positivity)
    show (η + κ * (Real.pi * eps)) * s + Ψ s ≤ (η + κ * (Real.pi * eps)) * t + Ψ t
    linarith
  have hstep : ∀ (h' t : ℝ) (x : Vec 4 × Vec 3), 0 < h' → h' ≤ H' → A ≤ t - h' → t ≤ B → UnitQuat x.1 →
      stateError (axisBody ops g K C h' (F t) x) (q t) (w t) ≤
        Real.exp (Λ * h') * (stateError x (q (t - h')) (w (t - h')) + (G t - G (t - h'))) := by
    intro h' t x hh' hle hs ht hx
    have hsm : t - h' ∈ Icc A B := ⟨hs, by linarith⟩
    have htm : t ∈ Icc A B := ⟨by linarith, ht⟩
    obtain ⟨e1, e2, e3⟩ := hl (t - h') t hs (by linarith) ht (by linarith [hH'.trans (min_le_left H1 H2)])
    have e4 := hreq (t - h') hsm t htm (by rw [abs_of_nonneg (by linarith)]; linarith [hH'.trans (min_le_right H1 H2)])
    have e5 := hF (t - h') t hs (by linarith) ht (by linarith)
    rw [sub_sub_cancel] at e1 e2 e5
    refine axisBody_error hops heps hg hκ0 hγ0 hKk hCk hh' (F t) hx (F' := requiredAcceleration K C a w acc (t - h'))
      (ha _ hsm) hc (hca _ hsm) ?_
    have ea : (fun k => K k * a (t - h') k - C k * w (t - h') k + requiredAcceleration K C a w acc (t - h') k) = acc (t - h') := by
      funext k; unfold requiredAcceleration; ring
    rw [ea]
    have e6 := length_add_le (F t - requiredAcceleration K C a w acc t)
      (requiredAcceleration K C a w acc t - requiredAcceleration K C a w acc (t - h'))
    rw [sub_add_sub_cancel] at e6
    have e7 := mul_le_mul_of_nonneg_left e6 hh'.le
    have e8 := mul_le_mul_of_nonneg_left e4 hh'.le
    have e9 := mul_le_mul_of_nonneg_left e3 hh'.le
    show _ ≤ (η + κ * (Real.pi * eps)) * t + Ψ t - ((η + κ * (Real.pi * eps)) * (t - h') + Ψ (t - h'))
    have e10 : 0 ≤ η * h' := by positivity
    linarith
  intro i hi
  have hgrid := grid_growth (P := fun x : Vec 4 × Vec 3 => UnitQuat x.1) (err := fun t x => stateError x (q t) (w t)) (G := G)
    (B := B) hΛ0 hG hdt.le hx0 (fun i hi hx => by
      have h0 : (0 : ℝ) ≤ i * dt := by positivity
      have h1 := subSteps_growth (P := fun x : Vec 4 × Vec 3 => UnitQuat x.1)
        (Φ := fun h t x => axisBody ops g K C h (F t) x) (err := fun t x => stateError x (q t) (w t)) (G := G) (Λ := Λ)
        (A := A) (B := B) (H := H') hΛ0 hG (fun h t x hx => axisBody_unit hops g K C h (F t) hx) hstep hint hi
        (A + i * dt) (by linarith) (by linarith) (by
          rw [show A + (i + 1) * dt - (A + i * dt) = dt by ring]; exact hmin) (xs i) hx
      rw [← hxs i, show A + (i + 1) * dt - (A + i * dt) = dt by ring] at h1
      exact h1) i hi
  refine ⟨hgrid.1, hgrid.2.trans ?_⟩
  have hi0 : (0 : ℝ) ≤ i * dt := by positivity
  have hAB : A ≤ B := by linarith
  have habs : |B - A| = B - A := abs_of_nonneg (by linarith)
  have hE0 := stateError_nonneg (xs 0) (q A) (w A)
  have h1 : Real.exp (Λ * (i * dt)) ≤ Real.exp (Λ * |B - A|) := by
    apply Real.exp_le_exp.2
    rw [habs]
    exact mul_le_mul_of_nonneg_left (by linarith) hΛ0
  have h2 := hG (A + i * dt) B (by linarith) hi le_rfl
  have h3 := hG A (A + i * dt) le_rfl (by linarith) hi
  have hΨAB := hΨ A B le_rfl hAB le_rfl
  have h4 : G B - G A = (η + κ * (Real.pi * eps)) * (B - A) + (Ψ B - Ψ A) := by
    show (η + κ * (Real.pi * eps)) * B + Ψ B - ((η + κ * (Real.pi * eps)) * A + Ψ A) = _
    ring
  have hBA : 0 ≤ B - A := by linarith
  have h5 : stateError (xs 0) (q A) (w A) + (G (A + i * dt) - G A) ≤
      R * (stateError (xs 0) (q A) (w A) + η + eps + (Ψ B - Ψ A)) := by
    have h6 : stateError (xs 0) (q A) (w A) + (Ψ B - Ψ A) ≤ R * (stateError (xs 0) (q A) (w A) + (Ψ B - Ψ A)) :=
      le_mul_of_one_le_left (by linarith) hR1
    have h7 : (η + κ * (Real.pi * eps)) * (B - A) ≤ R * (η + eps) := by
      rw [hR, habs]
      have p1 : 0 ≤ κ * Real.pi * (B - A) * η := by positivity
      have p2 : 0 ≤ (B - A) * eps := by positivity
      linarith [show (1 + (1 + κ * Real.pi) * (B - A)) * (η + eps) = η + eps + (B - A) * η + (B - A) * eps +
        κ * Real.pi * (B - A) * η + κ * Real.pi * (B - A) * eps by ring, show (η + κ * (Real.pi * eps)) * (B - A) =
        (B - A) * η + κ * Real.pi * (B - A) * eps by ring]
    linarith [show R * (stateError (xs 0) (q A) (w A) + η + eps + (Ψ B - Ψ A)) = R * (stateError (xs 0) (q A) (w A) +
      (Ψ B - Ψ A)) + R * (η + eps) by ring]
  calc Real.exp (Λ * (i * dt)) * (stateError (xs 0) (q A) (w A) + (G (A + i * dt) - G A))
      ≤ Real.exp (Λ * |B - A|) * (stateError (xs 0) (q A) (w A) + (G (A + i * dt) - G A)) :=
        mul_le_mul_of_nonneg_right h1 (by linarith)
    _ ≤ Real.exp (Λ * |B - A|) * (R * (stateError (xs 0) (q A) (w A) + η + eps + (Ψ B - Ψ A))) :=
        mul_le_mul_of_nonneg_left h5 (Real.exp_pos _).le
    _ = _ := by ring

namespace QuatStepArgs
variable {m : ℕ}

theorem update_axis (a : QuatStepArgs m) (ops : QuatOps) (hT : a.startT < a.goalT) (h t : ℝ) (s : Vec 4 × Vec 3) :
    a.update ops 0 0 h t s = axisBody ops a.goalY (fun k => a.alphaY k * a.betaY k / (a.goalT - a.startT) ^ 2)
      (fun k => a.alphaY k / (a.goalT - a.startT)) h (a.forcing ops t) s := by
  have hτ : a.goalT - a.startT ≠ 0 := by linarith
  have e2 : (a.update ops 0 0 h t s).2 = (axisBody ops a.goalY (fun k => a.alphaY k * a.betaY k / (a.goalT - a.startT) ^ 2)
      (fun k => a.alphaY k / (a.goalT - a.startT)) h (a.forcing ops t) s).2 := by
    funext k
    unfold update axisBody forcing
    simp only [Pi.zero_apply, zero_div, add_zero, ForcingTerm.call]
    cases a.smooth with
    | false => simp only [Bool.false_eq_true, if_false, Pi.zero_apply]; field_simp; ring
    | true => simp only [if_true]; field_simp; ring
  have e1 : (a.update ops 0 0 h t s).1 = ops.mul (ops.exp (fun k => h * (a.update ops 0 0 h t s).2 k)) s.1 := rfl
  ext1
  · rw [e1, e2]; rfl
  · exact e2

end QuatStepArgs

end Verif
