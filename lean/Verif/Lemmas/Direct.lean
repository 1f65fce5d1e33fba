import Verif.Lemmas.Deviation

/-!
# A damped spring without overshoot

An invariant cone of critically damped or overdamped springs whose target `z` moves towards zero.
-/

namespace Verif

/-- States from which the spring approaches `z` from above without reaching it in finite time. -/
structure Cone (l z : ℝ) (x : ℝ × ℝ) : Prop where
  above : z ≤ x.1
  down : x.2 ≤ 0
  slow : 0 ≤ x.2 + l * (x.1 - z)

theorem Cone.mono {l z z' : ℝ} {x : ℝ × ℝ} (hl : 0 ≤ l) (h : Cone l z x) (hz : z' ≤ z) : Cone l z' x :=
  ⟨hz.trans h.above, h.down, h.slow.trans (by have := mul_le_mul_of_nonneg_left hz hl; nlinarith)⟩

theorem sdStep_smul (k c h u r : ℝ) (x : ℝ × ℝ) : sdStep k c h (r * u) (r • x) = r • sdStep k c h u x := by
  unfold sdStep
  ext
  · simp only [Prod.smul_fst, Prod.smul_snd, smul_eq_mul]; ring
  · simp only [Prod.smul_fst, Prod.smul_snd, smul_eq_mul]; ring

theorem rkStep_smul (k c h u0 u1 u2 r : ℝ) (x : ℝ × ℝ) :
    rkStep k c h (r * u0) (r * u1) (r * u2) (r • x) = r • rkStep k c h u0 u1 u2 x := by
  unfold rkStep
  ext
  · simp only [Prod.smul_fst, Prod.smul_snd, smul_eq_mul]; ring
  · simp only [Prod.smul_fst, Prod.smul_snd, smul_eq_mul]; ring

section
variable {k c h : ℝ}

theorem sdStep_cone (hk : 0 ≤ k) (hc : 0 < c) (h4 : 4 * k ≤ c ^ 2) (hh : 0 ≤ h) (hhc : h * c ≤ 1) {z : ℝ} {x : ℝ × ℝ}
    (hx : Cone (c / 2) z x) : Cone (c / 2) z (sdStep k c h (k * z) x) ∧ (sdStep k c h (k * z) x).1 ≤ x.1 := by
  obtain ⟨e, v⟩ := x
  obtain ⟨h1, h2, h3⟩ := hx
  simp only at h1 h2 h3
  have hv : v + h * (-k * e - c * v + k * z) = (1 - h * c) * v - h * k * (e - z) := by ring
  have hd : 0 ≤ e - z := by linarith
  have hneg : v + h * (-k * e - c * v + k * z) ≤ 0 := by
    rw [hv]
    have a1 : 0 ≤ (1 - h * c) * (-v) := mul_nonneg (by linarith) (by linarith)
    have a2 : 0 ≤ h * k * (e - z) := mul_nonneg (mul_nonneg hh hk) hd
    linarith
  have hslow : 0 ≤ (v + h * (-k * e - c * v + k * z)) + c / 2 * (e + h * (v + h * (-k * e - c * v + k * z)) - z) := by
    have e1 : (v + h * (-k * e - c * v + k * z)) + c / 2 * (e + h * (v + h * (-k * e - c * v + k * z)) - z) =
        (1 + c / 2 * h) * (1 - h * c) * (v + c / 2 * (e - z)) +
          (e - z) * (h * ((c ^ 2 / 4 - k) + c / 2 * h * (c ^ 2 / 2 - k))) := by ring
    rw [e1]
    have a0 : 0 ≤ c / 2 * h := by positivity
    have a1 : 0 ≤ c ^ 2 / 2 - k := by nlinarith
    have a2 : 0 ≤ c ^ 2 / 4 - k := by linarith
    have a3 : 0 ≤ 1 - h * c := by linarith
    positivity
  have hab : 0 ≤ c / 2 * (e + h * (v + h * (-k * e - c * v + k * z)) - z) := by linarith
  refine ⟨⟨?_, hneg, hslow⟩, ?_⟩
  · have := nonneg_of_mul_nonneg_right hab (by positivity)
    show z ≤ e + h * _
    linarith
  · show e + h * _ ≤ e
    have := mul_nonneg hh (neg_nonneg.2 hneg)
    linarith

theorem eeStep_cone (hk : 0 ≤ k) (hc : 0 < c) (h4 : 4 * k ≤ c ^ 2) (hh : 0 ≤ h) (hhc : h * c ≤ 1) {x : ℝ × ℝ}
    (hx : Cone (c / 2) 0 x) : Cone (c / 2) 0 (eeStep k c h x) ∧ (eeStep k c h x).1 ≤ x.1 := by
  obtain ⟨e, v⟩ := x
  obtain ⟨h1, h2, h3⟩ := hx
  simp only at h1 h2 h3
  have hneg : v + h * (-k * e - c * v) ≤ 0 := by
    have a1 : 0 ≤ (1 - h * c) * (-v) := mul_nonneg (by linarith) (by linarith)
    have a2 : 0 ≤ h * k * e := mul_nonneg (mul_nonneg hh hk) h1
    linarith
  have hslow : 0 ≤ (v + h * (-k * e - c * v)) + c / 2 * (e + h * v - 0) := by
    have e1 : (v + h * (-k * e - c * v)) + c / 2 * (e + h * v - 0) =
        (1 - h * c / 2) * (v + c / 2 * (e - 0)) + e * (h * (c ^ 2 / 4 - k)) := by ring
    rw [e1]
    have a2 : 0 ≤ c ^ 2 / 4 - k := by linarith
    have a3 : 0 ≤ 1 - h * c / 2 := by linarith
    positivity
  have hab : 0 ≤ c / 2 * (e + h * v - 0) := by linarith
  refine ⟨⟨?_, hneg, hslow⟩, ?_⟩
  · have := nonneg_of_mul_nonneg_right hab (by positivity)
    show 0 ≤ e + h * _
    linarith
  · show e + h * _ ≤ e
    have := mul_nonneg hh (neg_nonneg.2 h2)
    linarith

theorem rkStep_cone_zero (hk : 0 ≤ k) (hc : 0 < c) (h4 : 4 * k ≤ c ^ 2) (hh : 0 ≤ h) (hhc : h * c ≤ 1) {x : ℝ × ℝ}
    (hx : Cone (c / 2) 0 x) : Cone (c / 2) 0 (rkStep k c h 0 0 0 x) ∧ (rkStep k c h 0 0 0 x).1 ≤ x.1 := by
  have w1 := eeStep_cone hk hc h4 hh hhc hx
  have w2 := eeStep_cone hk hc h4 hh hhc w1.1
  have w3 := eeStep_cone hk hc h4 hh hhc w2.1
  have w4 := eeStep_cone hk hc h4 hh hhc w3.1
  have hr := rkStep_convex k c h x
  simp only at hr
  rw [hr]
  obtain ⟨⟨a1, a2, a3⟩, a4⟩ := w1
  obtain ⟨⟨b1, b2, b3⟩, b4⟩ := w2
  obtain ⟨⟨c1, c2, c3⟩, c4⟩ := w3
  obtain ⟨⟨d1, d2, d3⟩, d4⟩ := w4
  obtain ⟨h1, h2, h3⟩ := hx
  refine ⟨⟨?_, ?_, ?_⟩, ?_⟩ <;> simp only <;> linarith

/-- The target may move down during the step. -/
theorem rkStep_cone (hk : 0 ≤ k) (hc : 0 < c) (h4 : 4 * k ≤ c ^ 2) (hh : 0 ≤ h) (hhc : h * c ≤ 1) {z0 z1 z2 : ℝ}
    (h01 : z1 ≤ z0) (h12 : z2 ≤ z1) {x : ℝ × ℝ} (hx : Cone (c / 2) z0 x) :
    Cone (c / 2) z2 (rkStep k c h (k * z0) (k * z1) (k * z2) x) ∧
      (rkStep k c h (k * z0) (k * z1) (k * z2) x).1 ≤ x.1 := by
  obtain ⟨h1, h2, h3⟩ := hx
  obtain ⟨⟨a1, a2, a3⟩, a4⟩ := rkStep_cone_zero hk hc h4 hh hhc (x := (x.1 - z0, x.2))
    ⟨by simpa using h1, h2, by simpa using h3⟩
  -- the movement with the target `z0` and what changes as the target moves
  have e1 : (rkStep k c h (k * z0) (k * z1) (k * z2) x).1 =
      (rkStep k c h 0 0 0 (x.1 - z0, x.2)).1 + z0 - k * (z0 - z1) * (h ^ 2 / 6 * (2 - h * c / 2)) := by
    simp only [rkStep]; ring
  have e2 : (rkStep k c h (k * z0) (k * z1) (k * z2) x).2 =
      (rkStep k c h 0 0 0 (x.1 - z0, x.2)).2 - k * (z0 - z1) * (h / 6 * (4 - 2 * (h * c) + (h * c) ^ 2 / 2 - k * h ^ 2 / 2)) -
        k * (z0 - z2) * (h / 6) := by
    simp only [rkStep]; ring
  have hb : 0 ≤ h * c := by positivity
  have hkh : k * h ^ 2 ≤ 1 / 4 := by nlinarith [sq_nonneg h, mul_le_mul_of_nonneg_right h4 (sq_nonneg h)]
  have hkh0 : 0 ≤ k * h ^ 2 := by positivity
  have hB0 : 0 ≤ h ^ 2 / 6 * (2 - h * c / 2) := mul_nonneg (by positivity) (by linarith)
  have hB1 : h ^ 2 / 6 * (2 - h * c / 2) ≤ h ^ 2 / 3 := by nlinarith [sq_nonneg h]
  have hA0 : 0 ≤ h / 6 * (4 - 2 * (h * c) + (h * c) ^ 2 / 2 - k * h ^ 2 / 2) :=
    mul_nonneg (by positivity) (by nlinarith [sq_nonneg (h * c)])
  have hA1 : h / 6 * (4 - 2 * (h * c) + (h * c) ^ 2 / 2 - k * h ^ 2 / 2) ≤ h / 6 * 4 :=
    mul_le_mul_of_nonneg_left (by nlinarith [sq_nonneg (h * c)]) (by positivity)
  set A := h / 6 * (4 - 2 * (h * c) + (h * c) ^ 2 / 2 - k * h ^ 2 / 2) with hA
  set B := h ^ 2 / 6 * (2 - h * c / 2) with hB
  set y := rkStep k c h 0 0 0 (x.1 - z0, x.2) with hy
  have p1 : 0 ≤ k * (z0 - z1) := mul_nonneg hk (by linarith)
  have p2 : 0 ≤ k * (z0 - z2) := mul_nonneg hk (by linarith)
  have p3 : k * (z0 - z1) ≤ k * (z0 - z2) := mul_le_mul_of_nonneg_left (by linarith) hk
  have hdown : (rkStep k c h (k * z0) (k * z1) (k * z2) x).2 ≤ 0 := by
    rw [e2]
    have q1 := mul_nonneg p1 hA0
    have q2 := mul_nonneg p2 (by positivity : 0 ≤ h / 6)
    linarith
  have hslow : 0 ≤ (rkStep k c h (k * z0) (k * z1) (k * z2) x).2 +
      c / 2 * ((rkStep k c h (k * z0) (k * z1) (k * z2) x).1 - z2) := by
    rw [e1, e2]
    have q1 : k * (z0 - z1) * (A + c / 2 * B) ≤ k * (z0 - z2) * (h / 6 * 4 + c / 2 * (h ^ 2 / 3)) := by
      refine mul_le_mul p3 ?_ ?_ p2
      · have := mul_le_mul_of_nonneg_left hB1 (by positivity : 0 ≤ c / 2)
        linarith
      · positivity
    have q2 : k * (h / 6 * 4 + c / 2 * (h ^ 2 / 3) + h / 6) ≤ c / 2 := by
      have r1 : k * (h / 6 * 4 + c / 2 * (h ^ 2 / 3) + h / 6) ≤ c ^ 2 / 4 * (h / 6 * 4 + c / 2 * (h ^ 2 / 3) + h / 6) :=
        mul_le_mul_of_nonneg_right (by linarith) (by positivity)
      have r2 : c ^ 2 / 4 * (h / 6 * 4 + c / 2 * (h ^ 2 / 3) + h / 6) =
          c / 2 * (5 / 12 * (h * c) + 1 / 12 * (h * c) ^ 2) := by ring
      have r3 : 5 / 12 * (h * c) + 1 / 12 * (h * c) ^ 2 ≤ 1 := by nlinarith
      have r4 := mul_le_mul_of_nonneg_left r3 (by positivity : 0 ≤ c / 2)
      linarith
    have q3 := mul_le_mul_of_nonneg_left q2 (by linarith : 0 ≤ z0 - z2)
    have e3 : y.2 - k * (z0 - z1) * A - k * (z0 - z2) * (h / 6) + c / 2 * (y.1 + z0 - k * (z0 - z1) * B - z2) =
        (y.2 + c / 2 * (y.1 - 0)) + c / 2 * (z0 - z2) - k * (z0 - z1) * (A + c / 2 * B) - k * (z0 - z2) * (h / 6) := by ring
    rw [e3]
    linarith
  refine ⟨⟨?_, hdown, hslow⟩, ?_⟩
  · have hab : 0 ≤ c / 2 * ((rkStep k c h (k * z0) (k * z1) (k * z2) x).1 - z2) := by linarith
    have := nonneg_of_mul_nonneg_right hab (by positivity)
    linarith
  · rw [e1]
    have q1 := mul_nonneg p1 hB0
    simp only at a4
    linarith

/-- All sub-steps of one step. -/
theorem subSteps_cone {intDt t : ℝ} {Z : ℝ → ℝ} (hZ : Antitone Z) (hk : 0 ≤ k) (hc : 0 < c) (h4 : 4 * k ≤ c ^ 2)
    (hd : 0 < intDt) (lastT : ℝ) (hlt : lastT ≤ t) (hhc : min intDt (t - lastT) * c ≤ 1) {x : ℝ × ℝ}
    (hx : Cone (c / 2) (Z lastT) x) :
    Cone (c / 2) (Z t) ((subSteps intDt t lastT).foldl (fun s p => sdStep k c p.1 (k * Z p.2) s) x) ∧
      ((subSteps intDt t lastT).foldl (fun s p => sdStep k c p.1 (k * Z p.2) s) x).1 ≤ x.1 := by
  suffices H : ∀ (n : ℕ) (lastT : ℝ), lastT ≤ t → nSub intDt t lastT = n → min intDt (t - lastT) * c ≤ 1 →
      ∀ x, Cone (c / 2) (Z lastT) x →
      Cone (c / 2) (Z t) ((subSteps intDt t lastT).foldl (fun s p => sdStep k c p.1 (k * Z p.2) s) x) ∧
      ((subSteps intDt t lastT).foldl (fun s p => sdStep k c p.1 (k * Z p.2) s) x).1 ≤ x.1 from
    H _ lastT hlt rfl hhc x hx
  clear hx hhc hlt x lastT
  intro n
  induction n with
  | zero =>
    intro lastT hlt hn _ x hx
    have h := (nSub_zero hd).1 hn
    rw [subSteps_of_le hd h, le_antisymm h hlt]
    exact ⟨hx, le_refl _⟩
  | succ n ih =>
    intro lastT hlt hn hhc x hx
    have h : lastT < t := by
      by_contra hc'
      rw [(nSub_zero hd).2 (by linarith)] at hn; omega
    by_cases h2 : t - lastT ≤ intDt
    · rw [subSteps_last hd h h2, List.foldl_cons, List.foldl_nil]
      rw [min_eq_right h2] at hhc
      exact sdStep_cone hk hc h4 (by linarith) hhc (hx.mono (by positivity) (hZ hlt))
    · rw [not_le] at h2
      rw [min_eq_left h2.le] at hhc
      rw [subSteps_cons hd h2, List.foldl_cons]
      have h1 := sdStep_cone hk hc h4 hd.le hhc (hx.mono (by positivity) (hZ (by linarith : lastT ≤ lastT + intDt)))
      have hn' : nSub intDt t (lastT + intDt) = n := by
        have := nSub_succ hd h2.le; omega
      have h3 := ih (lastT + intDt) (by linarith) hn'
        ((mul_le_mul_of_nonneg_right (min_le_left _ _) hc.le).trans hhc) _ h1.1
      exact ⟨h3.1, h3.2.trans h1.2⟩

end

end Verif
