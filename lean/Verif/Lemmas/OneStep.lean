import Mathlib.Analysis.Calculus.MeanValue
import Mathlib.Analysis.Calculus.Deriv.Prod
import Mathlib.Analysis.SpecialFunctions.Exp
import Verif.Lemmas.Converge

/-! # Errors of one-step methods -/

namespace Verif

section General
variable {E : Type*} [NormedAddCommGroup E] {Φ : ℝ → ℝ → E → E} {x : ℝ → E} {t0 R H L K : ℝ}

/-- One step of a consistent and stable method. -/
theorem oneStep_error (hL : 0 < L) (hH : 0 ≤ H) (hK : 0 ≤ K)
    (hstab : ∀ h t y y', 0 < h → h ≤ H → t0 ≤ t - h → t ≤ R → ‖Φ h t y - Φ h t y'‖ ≤ (1 + L * h) * ‖y - y'‖)
    (hcons : ∀ h t, 0 < h → h ≤ H → t0 ≤ t - h → t ≤ R → ‖Φ h t (x (t - h)) - x t‖ ≤ K * h * H)
    {h t : ℝ} (hh : 0 < h) (hhH : h ≤ H) (ht0 : t0 ≤ t - h) (htR : t ≤ R) (y : E) :
    ‖Φ h t y - x t‖ + K * H / L ≤ Real.exp (L * h) * (‖y - x (t - h)‖ + K * H / L) := by
  have h1 := hstab h t y (x (t - h)) hh hhH ht0 htR
  have h2 := hcons h t hh hhH ht0 htR
  have h3 : ‖Φ h t y - x t‖ ≤ ‖Φ h t y - Φ h t (x (t - h))‖ + ‖Φ h t (x (t - h)) - x t‖ := by
    have := norm_add_le (Φ h t y - Φ h t (x (t - h))) (Φ h t (x (t - h)) - x t)
    simpa using this
  have h4 : (1 + L * h) * (K * H / L) = K * H / L + K * h * H := by field_simp
  have h5 : (1 + L * h) * (‖y - x (t - h)‖ + K * H / L) ≤ Real.exp (L * h) * (‖y - x (t - h)‖ + K * H / L) := by
    apply mul_le_mul_of_nonneg_right _ (by positivity)
    have := Real.add_one_le_exp (L * h)
    linarith
  rw [mul_add, h4] at h5
  linarith

/-- Error of a sequence of sub-steps. -/
theorem subSteps_error (hL : 0 < L) (hH : 0 ≤ H) (hK : 0 ≤ K)
    (hstab : ∀ h t y y', 0 < h → h ≤ H → t0 ≤ t - h → t ≤ R → ‖Φ h t y - Φ h t y'‖ ≤ (1 + L * h) * ‖y - y'‖)
    (hcons : ∀ h t, 0 < h → h ≤ H → t0 ≤ t - h → t ≤ R → ‖Φ h t (x (t - h)) - x t‖ ≤ K * h * H)
    {δ b : ℝ} (hδ : 0 < δ) (hb : b ≤ R) :
    ∀ (a : ℝ), t0 ≤ a → a ≤ b → min δ (b - a) ≤ H → ∀ y : E,
      ‖(subSteps δ b a).foldl (fun y p => Φ p.1 p.2 y) y - x b‖ + K * H / L ≤
        Real.exp (L * (b - a)) * (‖y - x a‖ + K * H / L) := by
  suffices hn : ∀ (n : ℕ) (a : ℝ), nSub δ b a = n → t0 ≤ a → a ≤ b → min δ (b - a) ≤ H → ∀ y : E,
      ‖(subSteps δ b a).foldl (fun y p => Φ p.1 p.2 y) y - x b‖ + K * H / L ≤
        Real.exp (L * (b - a)) * (‖y - x a‖ + K * H / L) from fun a => hn _ a rfl
  intro n
  induction n with
  | zero =>
    intro a hn ha hab _ y
    have hba := (nSub_zero hδ).1 hn
    have e : a = b := le_antisymm hab hba
    rw [subSteps_of_le hδ hba, e]
    simp
  | succ n ih =>
    intro a hn ha hab hmin y
    have hlt : a < b := by
      by_contra hc
      rw [(nSub_zero hδ).2 (by linarith)] at hn; omega
    by_cases h2 : b - a ≤ δ
    · rw [subSteps_last hδ hlt h2]
      rw [min_eq_right h2] at hmin
      have := oneStep_error hL hH hK hstab hcons (h := b - a) (t := b) (by linarith) hmin (by linarith) hb y
      simpa using this
    · have h3 : δ < b - a := by linarith
      rw [min_eq_left h3.le] at hmin
      have hs := nSub_succ hδ h3.le
      rw [subSteps_cons hδ h3, List.foldl_cons]
      have h4 := ih (a + δ) (by omega) (by linarith) (by linarith) (le_trans (min_le_left _ _) hmin) (Φ δ (a + δ) y)
      have h5 := oneStep_error hL hH hK hstab hcons (h := δ) (t := a + δ) hδ hmin (by linarith) (by linarith) y
      refine h4.trans ?_
      have e : Real.exp (L * (b - a)) = Real.exp (L * (b - (a + δ))) * Real.exp (L * δ) := by
        rw [← Real.exp_add]; congr 1; ring
      rw [e, mul_assoc]
      apply mul_le_mul_of_nonneg_left _ (Real.exp_pos _).le
      simpa using h5

/-- Accumulated error on a uniform time grid. -/
theorem grid_error {g : ℕ → ℝ} {D : ℝ} (hg : ∀ i : ℕ, t0 + (i + 1) * D ≤ R → g (i + 1) ≤ Real.exp (L * D) * g i)
    (hD : 0 ≤ D) : ∀ i : ℕ, t0 + i * D ≤ R → g i ≤ Real.exp (L * (i * D)) * g 0 := by
  intro i
  induction i with
  | zero => intro _; simp
  | succ i ih =>
    intro hi
    push_cast at hi
    have h1 := hg i hi
    have h2 := ih (by nlinarith)
    refine h1.trans ?_
    have e : Real.exp (L * (((i + 1 : ℕ) : ℝ) * D)) = Real.exp (L * D) * Real.exp (L * (i * D)) := by
      rw [← Real.exp_add]; push_cast; congr 1; ring
    rw [e, mul_assoc]
    exact mul_le_mul_of_nonneg_left h2 (Real.exp_pos _).le

end General

/-! ## Damped springs -/

/-- Right-hand side of the differential equation of a damped spring with input `u`. -/
def sdField (k c : ℝ) (x : ℝ × ℝ) (u : ℝ) : ℝ × ℝ := (x.2, -k * x.1 - c * x.2 + u)

theorem sdField_lip (k c : ℝ) (x x' : ℝ × ℝ) (u u' : ℝ) :
    ‖sdField k c x u - sdField k c x' u'‖ ≤ (1 + |k| + |c|) * ‖x - x'‖ + |u - u'| := by
  have h1 : |x.1 - x'.1| ≤ ‖x - x'‖ := by simpa using norm_fst_le (x - x')
  have h2 : |x.2 - x'.2| ≤ ‖x - x'‖ := by simpa using norm_snd_le (x - x')
  have h0 : 0 ≤ ‖x - x'‖ := norm_nonneg _
  have hk := abs_nonneg k
  have hc := abs_nonneg c
  have hu := abs_nonneg (u - u')
  rw [Prod.norm_def, max_le_iff]
  constructor
  · simp only [sdField, Prod.fst_sub, Real.norm_eq_abs]
    nlinarith [mul_nonneg hk h0, mul_nonneg hc h0]
  · simp only [sdField, Prod.snd_sub, Real.norm_eq_abs]
    have e : -k * x.1 - c * x.2 + u - (-k * x'.1 - c * x'.2 + u') =
        -(k * (x.1 - x'.1)) + -(c * (x.2 - x'.2)) + (u - u') := by ring
    rw [e]
    refine (abs_add_three _ _ _).trans ?_
    rw [abs_neg, abs_neg, abs_mul, abs_mul]
    nlinarith [mul_le_mul_of_nonneg_left h1 hk, mul_le_mul_of_nonneg_left h2 hc]

theorem sdStep_field (k c h u : ℝ) (x : ℝ × ℝ) :
    sdStep k c h u x = x + h • sdField k c x u + (h * h) • ((sdField k c x u).2, (0 : ℝ)) := by
  ext
  · simp [sdStep, sdField]; ring
  · simp [sdStep, sdField]

theorem rkStep_field (k c h u0 u1 u2 : ℝ) (x : ℝ × ℝ) :
    rkStep k c h u0 u1 u2 x =
      let k1 := sdField k c x u0
      let k2 := sdField k c (x + (h / 2) • k1) u1
      let k3 := sdField k c (x + (h / 2) • k2) u1
      let k4 := sdField k c (x + h • k3) u2
      x + (h / 6) • (k1 + (2 : ℝ) • k2 + (2 : ℝ) • k3 + k4) := by
  ext
  · simp [rkStep, sdField]; ring
  · simp [rkStep, sdField]

theorem norm_two_smul {E : Type*} [SeminormedAddCommGroup E] [NormedSpace ℝ E] (x : E) : ‖(2 : ℝ) • x‖ = 2 * ‖x‖ := by
  rw [norm_smul]; norm_num

theorem norm_pair_zero (x : ℝ × ℝ) : ‖((x.2, (0 : ℝ)) : ℝ × ℝ)‖ ≤ ‖x‖ := by
  rw [Prod.norm_def]
  simp only [norm_zero]
  exact max_le (norm_snd_le x) (norm_nonneg _)

theorem sdStep_lip {k c h H : ℝ} (hh : 0 ≤ h) (hH : h ≤ H) (u : ℝ) (x x' : ℝ × ℝ) :
    ‖sdStep k c h u x - sdStep k c h u x'‖ ≤ (1 + (1 + |k| + |c|) * (1 + H) * h) * ‖x - x'‖ := by
  set L := 1 + |k| + |c| with hL
  have hL0 : 0 ≤ L := by positivity
  have hf := sdField_lip k c x x' u u
  rw [sub_self, abs_zero, add_zero, ← hL] at hf
  rw [sdStep_field, sdStep_field]
  set f := sdField k c x u
  set f' := sdField k c x' u
  have e : x + h • f + (h * h) • (f.2, (0 : ℝ)) - (x' + h • f' + (h * h) • (f'.2, (0 : ℝ))) =
      (x - x') + h • (f - f') + (h * h) • ((f - f').2, (0 : ℝ)) := by
    ext <;> simp <;> ring
  rw [e]
  refine (norm_add₃_le).trans ?_
  rw [norm_smul, norm_smul, Real.norm_of_nonneg hh, Real.norm_of_nonneg (mul_nonneg hh hh)]
  have h1 := norm_pair_zero (f - f')
  have h0 : 0 ≤ ‖x - x'‖ := norm_nonneg _
  have h2 : h * ‖f - f'‖ ≤ h * (L * ‖x - x'‖) := mul_le_mul_of_nonneg_left hf hh
  have h3 : h * h * ‖(((f - f').2, (0 : ℝ)) : ℝ × ℝ)‖ ≤ h * H * (L * ‖x - x'‖) := by
    apply mul_le_mul (mul_le_mul_of_nonneg_left hH hh) (h1.trans hf) (norm_nonneg _) (by nlinarith)
  nlinarith

theorem rkStep_lip {k c h H : ℝ} (hh : 0 ≤ h) (hH : h ≤ H) (u0 u1 u2 : ℝ) (x x' : ℝ × ℝ) :
    ‖rkStep k c h u0 u1 u2 x - rkStep k c h u0 u1 u2 x'‖ ≤
      (1 + (1 + |k| + |c|) * (1 + H * (1 + |k| + |c|)) ^ 3 * h) * ‖x - x'‖ := by
  set L := 1 + |k| + |c| with hL
  have hL0 : 0 ≤ L := by positivity
  have hH0 : 0 ≤ H := hh.trans hH
  have hf : ∀ (y y' : ℝ × ℝ) (u : ℝ), ‖sdField k c y u - sdField k c y' u‖ ≤ L * ‖y - y'‖ := by
    intro y y' u
    have := sdField_lip k c y y' u u
    rwa [sub_self, abs_zero, add_zero, ← hL] at this
  rw [rkStep_field, rkStep_field]
  simp only
  set D := ‖x - x'‖ with hD
  have hD0 : 0 ≤ D := norm_nonneg _
  set k1 := sdField k c x u0
  set l1 := sdField k c x' u0
  set k2 := sdField k c (x + (h / 2) • k1) u1
  set l2 := sdField k c (x' + (h / 2) • l1) u1
  set k3 := sdField k c (x + (h / 2) • k2) u1
  set l3 := sdField k c (x' + (h / 2) • l2) u1
  set k4 := sdField k c (x + h • k3) u2
  set l4 := sdField k c (x' + h • l3) u2
  set G := 1 + H * L with hG
  have hG1 : 1 ≤ G := by have := mul_nonneg hH0 hL0; linarith
  have next : ∀ (g : ℝ) (p q : ℝ × ℝ) (u : ℝ) (P : ℝ), 0 ≤ g → g ≤ H → 1 ≤ P → ‖p - q‖ ≤ L * D * P →
      ‖sdField k c (x + g • p) u - sdField k c (x' + g • q) u‖ ≤ L * D * (P * G) := by
    intro g p q u P hg0 hg hP hpq
    refine (hf _ _ _).trans ?_
    have e : x + g • p - (x' + g • q) = (x - x') + g • (p - q) := by rw [smul_sub]; abel
    rw [e]
    have h1 : ‖(x - x') + g • (p - q)‖ ≤ D + g * ‖p - q‖ := by
      refine (norm_add_le _ _).trans ?_
      rw [norm_smul, Real.norm_of_nonneg hg0]
    have h2 : g * ‖p - q‖ ≤ H * (L * D * P) := mul_le_mul hg hpq (norm_nonneg _) hH0
    have h3 : D + g * ‖p - q‖ ≤ D * (P * G) := by
      have : D * (P * G) = D * P + H * (L * D * P) := by rw [hG]; ring
      rw [this]
      nlinarith [mul_le_mul_of_nonneg_left hP hD0]
    calc L * ‖x - x' + g • (p - q)‖ ≤ L * (D * (P * G)) := mul_le_mul_of_nonneg_left (h1.trans h3) hL0
      _ = L * D * (P * G) := by ring
  have b1 : ‖k1 - l1‖ ≤ L * D * 1 := by rw [mul_one]; exact hf _ _ _
  have b2 : ‖k2 - l2‖ ≤ L * D * (1 * G) := next _ _ _ _ _ (by linarith) (by linarith) le_rfl b1
  have b3 : ‖k3 - l3‖ ≤ L * D * (1 * G * G) := next _ _ _ _ _ (by linarith) (by linarith) (by linarith) b2
  have b4 : ‖k4 - l4‖ ≤ L * D * (1 * G * G * G) := next _ _ _ _ _ hh hH (by nlinarith) b3
  have hLD : 0 ≤ L * D := mul_nonneg hL0 hD0
  have g2 : G ≤ G ^ 3 := le_self_pow₀ hG1 (by norm_num)
  have g1 : 1 ≤ G ^ 3 := one_le_pow₀ hG1
  have g3 : G ^ 2 ≤ G ^ 3 := pow_le_pow_right₀ hG1 (by norm_num)
  have c1 : ‖k1 - l1‖ ≤ L * D * G ^ 3 := b1.trans (mul_le_mul_of_nonneg_left g1 hLD)
  have c2 : ‖k2 - l2‖ ≤ L * D * G ^ 3 := b2.trans (mul_le_mul_of_nonneg_left (by linarith) hLD)
  have c3 : ‖k3 - l3‖ ≤ L * D * G ^ 3 := b3.trans (mul_le_mul_of_nonneg_left (by linarith [sq G]) hLD)
  have c4 : ‖k4 - l4‖ ≤ L * D * G ^ 3 := b4.trans (mul_le_mul_of_nonneg_left (by nlinarith) hLD)
  have e : x + (h / 6) • (k1 + (2 : ℝ) • k2 + (2 : ℝ) • k3 + k4) -
      (x' + (h / 6) • (l1 + (2 : ℝ) • l2 + (2 : ℝ) • l3 + l4)) =
      (x - x') + (h / 6) • ((k1 - l1) + (2 : ℝ) • (k2 - l2) + (2 : ℝ) • (k3 - l3) + (k4 - l4)) := by
    simp only [smul_sub, smul_add]; abel
  rw [e]
  refine (norm_add_le _ _).trans ?_
  rw [norm_smul, Real.norm_of_nonneg (by linarith)]
  have hsum : ‖(k1 - l1) + (2 : ℝ) • (k2 - l2) + (2 : ℝ) • (k3 - l3) + (k4 - l4)‖ ≤ 6 * (L * D * G ^ 3) := by
    refine (norm_add_le _ _).trans ?_
    have := norm_add₃_le (a := k1 - l1) (b := (2 : ℝ) • (k2 - l2)) (c := (2 : ℝ) • (k3 - l3))
    rw [norm_two_smul, norm_two_smul] at this
    linarith
  have := mul_le_mul_of_nonneg_left hsum (by linarith : 0 ≤ h / 6)
  have e2 : (1 + L * G ^ 3 * h) * D = D + h / 6 * (6 * (L * D * G ^ 3)) := by ring
  rw [e2]
  linarith

/-- Deviation of a curve from its tangent. -/
theorem tangent_error {E : Type*} [NormedAddCommGroup E] [NormedSpace ℝ E] {x x' : ℝ → E}
    (hx : ∀ t, HasDerivAt x (x' t) t) {p q B : ℝ} (hpq : p ≤ q) (w : E) (hB : ∀ s ∈ Set.Icc p q, ‖x' s - w‖ ≤ B) :
    ‖x q - x p - (q - p) • w‖ ≤ B * (q - p) := by
  have hf : ∀ s ∈ Set.Icc p q, HasDerivWithinAt (fun s => x s - s • w) (x' s - w) (Set.Icc p q) s := by
    intro s _
    have h1 : HasDerivAt (fun s : ℝ => s • w) w s := by simpa using (hasDerivAt_id s).smul_const w
    exact ((hx s).sub h1).hasDerivWithinAt
  have h := Convex.norm_image_sub_le_of_norm_hasDerivWithin_le hf hB (convex_Icc p q)
    (Set.left_mem_Icc.2 hpq) (Set.right_mem_Icc.2 hpq)
  rw [Real.norm_of_nonneg (by linarith : 0 ≤ q - p)] at h
  have e : x q - q • w - (x p - p • w) = x q - x p - (q - p) • w := by rw [sub_smul]; abel
  rwa [e] at h

section Consistency
variable {k c H Lu M t0 R : ℝ} {u : ℝ → ℝ} {x : ℝ → ℝ × ℝ}

theorem solution_tangent (hx : ∀ t, HasDerivAt x (sdField k c (x t) (u t)) t)
    (hM : ∀ t, t0 ≤ t → t ≤ R → ‖sdField k c (x t) (u t)‖ ≤ M) (hM0 : 0 ≤ M) (hLu : 0 ≤ Lu)
    (hu : ∀ s t, t0 ≤ s → s ≤ t → t ≤ R → |u t - u s| ≤ Lu * (t - s)) {p q : ℝ} (hp : t0 ≤ p) (hpq : p ≤ q) (hq : q ≤ R) :
    ‖x q - x p - (q - p) • sdField k c (x p) (u p)‖ ≤ ((1 + |k| + |c|) * M + Lu) * (q - p) * (q - p) := by
  have hlin : ∀ s ∈ Set.Icc p q, ‖x s - x p‖ ≤ M * (q - p) := by
    intro s hs
    have h := Convex.norm_image_sub_le_of_norm_hasDerivWithin_le (f := x)
      (fun r _ => (hx r).hasDerivWithinAt) (s := Set.Icc p q) (C := M)
      (fun r hr => hM r (hp.trans hr.1) (hr.2.trans hq)) (convex_Icc p q) (Set.left_mem_Icc.2 hpq) hs
    rw [Real.norm_of_nonneg (by linarith [hs.1])] at h
    refine h.trans (mul_le_mul_of_nonneg_left (by linarith [hs.2]) hM0)
  refine tangent_error hx hpq _ (fun s hs => ?_)
  refine (sdField_lip _ _ _ _ _ _).trans ?_
  have h1 := hlin s hs
  have h2 := hu p s hp hs.1 (hs.2.trans hq)
  have h3 : Lu * (s - p) ≤ Lu * (q - p) := mul_le_mul_of_nonneg_left (by linarith [hs.2]) hLu
  have h4 : (1 + |k| + |c|) * ‖x s - x p‖ ≤ (1 + |k| + |c|) * (M * (q - p)) :=
    mul_le_mul_of_nonneg_left h1 (by positivity)
  nlinarith

theorem sdStep_consistent (hx : ∀ t, HasDerivAt x (sdField k c (x t) (u t)) t)
    (hM : ∀ t, t0 ≤ t → t ≤ R → ‖sdField k c (x t) (u t)‖ ≤ M) (hM0 : 0 ≤ M) (hLu : 0 ≤ Lu)
    (hu : ∀ s t, t0 ≤ s → s ≤ t → t ≤ R → |u t - u s| ≤ Lu * (t - s)) {h t : ℝ} (hh : 0 < h) (hH : h ≤ H)
    (ht0 : t0 ≤ t - h) (ht : t ≤ R) :
    ‖sdStep k c h (u t) (x (t - h)) - x t‖ ≤ ((1 + |k| + |c|) * M + Lu + Lu + (M + Lu * H)) * h * h := by
  have h1 := solution_tangent hx hM hM0 hLu hu ht0 (by linarith : t - h ≤ t) ht
  rw [sub_sub_cancel] at h1
  have hut := hu (t - h) t ht0 (by linarith) ht
  rw [sub_sub_cancel] at hut
  have hM1 := hM (t - h) ht0 (by linarith)
  rw [sdStep_field]
  set f0 := sdField k c (x (t - h)) (u (t - h)) with hf0
  set f1 := sdField k c (x (t - h)) (u t) with hf1
  have h2 : ‖f1 - f0‖ ≤ Lu * h := by
    have := sdField_lip k c (x (t - h)) (x (t - h)) (u t) (u (t - h))
    rw [sub_self, norm_zero, mul_zero, zero_add] at this
    exact this.trans hut
  have h3 : ‖f1‖ ≤ M + Lu * H := by
    have : f1 = f0 + (f1 - f0) := by abel
    rw [this]
    refine (norm_add_le _ _).trans ?_
    have : Lu * h ≤ Lu * H := mul_le_mul_of_nonneg_left hH hLu
    linarith
  have e : x (t - h) + h • f1 + (h * h) • (f1.2, (0 : ℝ)) - x t =
      -(x t - x (t - h) - h • f0) + h • (f1 - f0) + (h * h) • (f1.2, (0 : ℝ)) := by rw [smul_sub]; abel
  rw [e]
  refine (norm_add₃_le).trans ?_
  rw [norm_neg, norm_smul, norm_smul, Real.norm_of_nonneg hh.le, Real.norm_of_nonneg (by positivity : 0 ≤ h * h)]
  have h4 : h * ‖f1 - f0‖ ≤ h * (Lu * h) := mul_le_mul_of_nonneg_left h2 hh.le
  have h5 : h * h * ‖((f1.2, (0 : ℝ)) : ℝ × ℝ)‖ ≤ h * h * (M + Lu * H) :=
    mul_le_mul_of_nonneg_left ((norm_pair_zero f1).trans h3) (by positivity)
  nlinarith

set_option maxHeartbeats 800000 in
/-- Constant of the local error of the Runge-Kutta step with late input. -/
theorem rkStep_consistent (hx : ∀ t, HasDerivAt x (sdField k c (x t) (u t)) t) (hH0 : 0 ≤ H)
    (hM : ∀ t, t0 ≤ t → t ≤ R + H → ‖sdField k c (x t) (u t)‖ ≤ M) (hM0 : 0 ≤ M) (hLu : 0 ≤ Lu)
    (hu : ∀ s t, t0 ≤ s → s ≤ t → t ≤ R + H → |u t - u s| ≤ Lu * (t - s)) :
    ∃ K, 0 ≤ K ∧ ∀ h t, 0 < h → h ≤ H → t0 ≤ t - h → t ≤ R →
      ‖rkStep k c h (u t) (u (t + h / 2)) (u (t + h)) (x (t - h)) - x t‖ ≤ K * h * h := by
  set L := 1 + |k| + |c| with hL
  have hL0 : 0 ≤ L := by positivity
  set M1 := M + 2 * Lu * H with hM1
  set M2 := M + (L * M1 + 2 * Lu) * H with hM2
  set M3 := M + (L * M2 + 2 * Lu) * H with hM3
  have p1 : 0 ≤ M1 := by positivity
  have p2 : 0 ≤ M2 := by positivity
  have p3 : 0 ≤ M3 := by positivity
  set Q := L * (M1 + M2 + M3) + 2 * Lu with hQ
  have hQ0 : 0 ≤ Q := by positivity
  refine ⟨L * M + Lu + Q, by positivity, ?_⟩
  intro h t hh hhH ht0 ht
  have h1 := solution_tangent hx hM hM0 hLu hu ht0 (by linarith : t - h ≤ t) (by linarith : t ≤ R + H)
  rw [sub_sub_cancel, ← hL] at h1
  have hMt := hM (t - h) ht0 (by linarith)
  rw [rkStep_field]
  simp only
  set y := x (t - h) with hy
  set f0 := sdField k c y (u (t - h)) with hf0
  have key : ∀ (g : ℝ) (p : ℝ × ℝ) (s P : ℝ), 0 ≤ g → g ≤ h → t ≤ s → s ≤ t + h → ‖p‖ ≤ P → 0 ≤ P →
      ‖sdField k c (y + g • p) (u s) - f0‖ ≤ (L * P + 2 * Lu) * h := by
    intro g p s P hg0 hg hs1 hs2 hp hP
    have a1 := sdField_lip k c (y + g • p) y (u s) (u (t - h))
    rw [add_sub_cancel_left, norm_smul, Real.norm_of_nonneg hg0, ← hL] at a1
    have a2 := hu (t - h) s ht0 (by linarith) (by linarith)
    have a3 : Lu * (s - (t - h)) ≤ Lu * (2 * h) := mul_le_mul_of_nonneg_left (by linarith) hLu
    have a4 : L * (g * ‖p‖) ≤ L * (h * P) :=
      mul_le_mul_of_nonneg_left (mul_le_mul hg hp (norm_nonneg _) hh.le) hL0
    nlinarith
  have size : ∀ (f : ℝ × ℝ) (P : ℝ), 0 ≤ P → ‖f - f0‖ ≤ P * h → ‖f‖ ≤ M + P * H := by
    intro f P hP hf
    have : f = f0 + (f - f0) := by abel
    rw [this]
    refine (norm_add_le _ _).trans ?_
    have : P * h ≤ P * H := mul_le_mul_of_nonneg_left hhH hP
    linarith
  set k1 := sdField k c y (u t)
  set k2 := sdField k c (y + (h / 2) • k1) (u (t + h / 2))
  set k3 := sdField k c (y + (h / 2) • k2) (u (t + h / 2))
  set k4 := sdField k c (y + h • k3) (u (t + h))
  have b1 : ‖k1 - f0‖ ≤ (L * 0 + 2 * Lu) * h := by
    have := key 0 0 t 0 le_rfl hh.le le_rfl (by linarith) (by simp) le_rfl
    simpa using this
  have s1 : ‖k1‖ ≤ M1 := by
    have := size k1 (2 * Lu) (by positivity) (by simpa using b1)
    exact this
  have b2 : ‖k2 - f0‖ ≤ (L * M1 + 2 * Lu) * h :=
    key (h / 2) k1 _ M1 (by linarith) (by linarith) (by linarith) (by linarith) s1 p1
  have s2 : ‖k2‖ ≤ M2 := size _ _ (by positivity) b2
  have b3 : ‖k3 - f0‖ ≤ (L * M2 + 2 * Lu) * h :=
    key (h / 2) k2 _ M2 (by linarith) (by linarith) (by linarith) (by linarith) s2 p2
  have s3 : ‖k3‖ ≤ M3 := size _ _ (by positivity) b3
  have b4 : ‖k4 - f0‖ ≤ (L * M3 + 2 * Lu) * h := key h k3 _ M3 hh.le le_rfl (by linarith) (by linarith) s3 p3
  have n1 : 0 ≤ L * M1 := by positivity
  have n2 : 0 ≤ L * M2 := by positivity
  have n3 : 0 ≤ L * M3 := by positivity
  have c1 : ‖k1 - f0‖ ≤ Q * h := b1.trans (mul_le_mul_of_nonneg_right (by rw [hQ]; linarith) hh.le)
  have c2 : ‖k2 - f0‖ ≤ Q * h := b2.trans (mul_le_mul_of_nonneg_right (by rw [hQ]; linarith) hh.le)
  have c3 : ‖k3 - f0‖ ≤ Q * h := b3.trans (mul_le_mul_of_nonneg_right (by rw [hQ]; linarith) hh.le)
  have c4 : ‖k4 - f0‖ ≤ Q * h := b4.trans (mul_le_mul_of_nonneg_right (by rw [hQ]; linarith) hh.le)
  have e : y + (h / 6) • (k1 + (2 : ℝ) • k2 + (2 : ℝ) • k3 + k4) - x t =
      -(x t - y - h • f0) +
        (h / 6) • ((k1 - f0) + (2 : ℝ) • (k2 - f0) + (2 : ℝ) • (k3 - f0) + (k4 - f0)) := by
    have : h • f0 = (h / 6) • (f0 + (2 : ℝ) • f0 + (2 : ℝ) • f0 + f0) := by
      simp only [smul_add, smul_smul, ← add_smul]; congr 1; ring
    rw [this]
    simp only [smul_sub, smul_add]; abel
  rw [e]
  refine (norm_add_le _ _).trans ?_
  rw [norm_neg, norm_smul, Real.norm_of_nonneg (by linarith : 0 ≤ h / 6)]
  have hsum : ‖(k1 - f0) + (2 : ℝ) • (k2 - f0) + (2 : ℝ) • (k3 - f0) + (k4 - f0)‖ ≤ 6 * (Q * h) := by
    refine (norm_add_le _ _).trans ?_
    have := norm_add₃_le (a := k1 - f0) (b := (2 : ℝ) • (k2 - f0)) (c := (2 : ℝ) • (k3 - f0))
    rw [norm_two_smul, norm_two_smul] at this
    linarith
  have h9 := mul_le_mul_of_nonneg_left hsum (by linarith : 0 ≤ h / 6)
  have e9 : h / 6 * (6 * (Q * h)) = Q * h * h := by ring
  rw [e9] at h9
  have e10 : (L * M + Lu + Q) * h * h = (L * M + Lu) * h * h + Q * h * h := by ring
  rw [e10]
  exact add_le_add h1 h9

end Consistency
end Verif
