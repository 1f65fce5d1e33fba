import Verif.Props.Promp
import Mathlib.Tactic.Module

/-! # Via points of ProMPs (C43) -/

namespace Verif
open Matrix ProMP

variable {d w n : ℕ}

theorem broadcast_row_zero : (YCov.row (0 : Vec d)).broadcast = 0 := by
  ext i j
  rfl

theorem viaPointsLoop_cons (t : ℝ) (y v : Vec d) (rest : List (ℝ × Vec d × Vec d)) (p : ProMP d w) :
    viaPointsLoop ((t, y, v) :: rest) p =
      (((conditionPosition y (.row v) t 1).exec p).1).bind fun p' => viaPointsLoop rest p' := rfl

theorem viaPoints_cons (t : ℝ) (y : Vec d) (rest : List (ℝ × Vec d)) (p : ProMP d w) :
    p.viaPoints ((t, y) :: rest) =
      (((conditionPosition y (.row 0) t 1).exec p).1).bind fun p' => p'.viaPoints rest := rfl

theorem viaPoints_cons_ok {t : ℝ} {y : Vec d} {rest : List (ℝ × Vec d)} {p q : ProMP d w}
    (h : p.viaPoints ((t, y) :: rest) = .ok q) :
    ∃ r p', (conditionPosition y (.row 0) t 1).exec p = (.ok r, p') ∧ r.viaPoints rest = .ok q := by
  rw [viaPoints_cons] at h
  generalize hr : (conditionPosition y (.row 0) t 1).exec p = res at h
  obtain ⟨e, p'⟩ := res
  cases e with
  | error e => cases h
  | ok r => exact ⟨r, p', rfl, h⟩

/-- The ProMP is fixed to position `y` at normalised time `s`. -/
def Fixed (q : ProMP d w) (s : ℝ) (y : Vec d) : Prop :=
  (psi d w s)ᵀ *ᵥ q.weightMean = y ∧ (psi d w s)ᵀ * q.weightCov = 0 ∧ q.weightCov * psi d w s = 0

theorem Fixed.conditioned {p : ProMP d w} {s : ℝ} {y : Vec d} (h : Fixed p s y) (y' : Vec d)
    (R : Matrix (Fin d) (Fin d) ℝ) (s' : ℝ) : Fixed (p.conditioned y' R s') s y := by
  obtain ⟨h1, h2, h3⟩ := h
  have hG : (psi d w s)ᵀ * p.gain R s' = 0 := by
    unfold gain
    rw [← Matrix.mul_assoc, ← Matrix.mul_assoc, h2, Matrix.zero_mul, Matrix.zero_mul]
  refine ⟨?_, ?_, ?_⟩
  · show (psi d w s)ᵀ *ᵥ (p.weightMean + p.gain R s' *ᵥ (y' - (psi d w s')ᵀ *ᵥ p.weightMean)) = y
    rw [mulVec_add, mulVec_mulVec, hG, zero_mulVec, add_zero, h1]
  · show (psi d w s)ᵀ * (p.weightCov - p.gain R s' * (psi d w s')ᵀ * p.weightCov) = 0
    rw [Matrix.mul_sub, h2, ← Matrix.mul_assoc, ← Matrix.mul_assoc, hG, Matrix.zero_mul, Matrix.zero_mul, sub_zero]
  · show (p.weightCov - p.gain R s' * (psi d w s')ᵀ * p.weightCov) * psi d w s = 0
    rw [Matrix.sub_mul, h3, Matrix.mul_assoc, h3, Matrix.mul_zero, sub_zero]

theorem viaPoints_fixed : ∀ (points : List (ℝ × Vec d)) {p q : ProMP d w}, Spec.Reachable p →
    p.viaPoints points = .ok q →
    Spec.Reachable q ∧ (∀ t y, (t, y) ∈ points → Fixed q t y) ∧ (∀ s y, Fixed p s y → Fixed q s y)
  | [], p, q, hp, h => by
    injection h with h
    subst h
    exact ⟨hp, fun t y hty => absurd hty List.not_mem_nil, fun s y hs => hs⟩
  | (t, y) :: rest, p, q, hp, h => by
    obtain ⟨r, p', hr, hq⟩ := viaPoints_cons_ok h
    have hrr : Spec.Reachable r := .condition hp hr
    obtain ⟨i1, i2, i3⟩ := viaPoints_fixed rest hrr hq
    have hfix : Fixed r t y := by
      have := conditioned_passes hp broadcast_row_zero hr
      rwa [div_one] at this
    refine ⟨i1, fun t' y' hm => ?_, fun s' y' hs => ?_⟩
    · rcases List.mem_cons.1 hm with hm | hm
      · injection hm with h1 h2
        subst h1 h2
        exact i3 _ _ hfix
      · exact i2 t' y' hm
    · apply i3
      rw [(condition_ok hp.centers hr).2.2.1]
      exact hs.conditioned _ _ _

/-- **C43.** After conditioning on any number of via points without noise, the ProMP passes exactly through all
of them with zero variance. (`via_points` measures time such that the movement ends at 1.) -/
theorem C43_via_points {p q : ProMP d w} (hp : Spec.Reachable p) {points : List (ℝ × Vec d)}
    (h : p.viaPoints points = .ok q) : ∀ t y, (t, y) ∈ points → Spec.PassesThrough q t y := by
  obtain ⟨h1, h2, -⟩ := viaPoints_fixed points hp h
  intro t y hty
  obtain ⟨f1, f2, f3⟩ := h2 t y hty
  exact passesThrough_of h1 f1 f2 f3

/-- All errors of `via_points` are LinAlgErrors. -/
theorem viaPoints_error : ∀ (points : List (ℝ × Vec d)) {p : ProMP d w}, Spec.Reachable p →
    ∀ {e}, p.viaPoints points = .error e → e = .linAlgError
  | [], p, hp, e, h => by cases h
  | (t, y) :: rest, p, hp, e, h => by
    rw [viaPoints_cons] at h
    have hc := exec_condition hp.centers y (.row 0) (t := t) (one_ne_zero (α := ℝ))
    by_cases hdet : ((YCov.row (0 : Vec d)).broadcast + (psi d w (t / 1))ᵀ * p.weightCov * psi d w (t / 1)).det = 0
    · rw [if_pos hdet] at hc
      rw [hc] at h
      injection h with h
      exact h.symm
    · rw [if_neg hdet] at hc
      have hr : Spec.Reachable (p.conditioned y (YCov.row (0 : Vec d)).broadcast (t / 1)) := .condition hp hc
      rw [hc] at h
      exact viaPoints_error rest hr h

theorem viaPoints_fixed_fails (hd : 0 < d) : ∀ (points : List (ℝ × Vec d)) {p : ProMP d w}, Spec.Reachable p →
    ∀ {t y y'}, Fixed p t y' → (t, y) ∈ points → p.viaPoints points = .error .linAlgError
  | [], p, hp, t, y, y', hf, hm => absurd hm List.not_mem_nil
  | (t', z) :: rest, p, hp, t, y, y', hf, hm => by
    have hc := exec_condition hp.centers z (.row 0) (t := t') (one_ne_zero (α := ℝ))
    by_cases hdet : ((YCov.row (0 : Vec d)).broadcast + (psi d w (t' / 1))ᵀ * p.weightCov * psi d w (t' / 1)).det = 0
    · rw [if_pos hdet] at hc
      rw [viaPoints_cons, hc]
      rfl
    · rw [if_neg hdet] at hc
      have hr : Spec.Reachable (p.conditioned z (YCov.row (0 : Vec d)).broadcast (t' / 1)) := .condition hp hc
      rw [viaPoints_cons, hc]
      rcases List.mem_cons.1 hm with hm | hm
      · injection hm with h1 h2
        subst h1 h2
        exfalso
        apply hdet
        rw [div_one, hf.2.1, Matrix.zero_mul, broadcast_row_zero, add_zero]
        have : Nonempty (Fin d) := ⟨⟨0, hd⟩⟩
        exact det_zero
      · exact viaPoints_fixed_fails hd rest hr (hf.conditioned _ _ _) hm

/-- **C43.** Two via points at the same time can never be met: the second raises LinAlgError, even if both ask
for the same position. -/
theorem C43_repeated_time {p : ProMP d w} (hp : Spec.Reachable p) (hd : 0 < d) (before between after : List (ℝ × Vec d))
    (t : ℝ) (y y' : Vec d) :
    p.viaPoints (before ++ (t, y) :: (between ++ (t, y') :: after)) = .error .linAlgError := by
  induction before generalizing p with
  | nil =>
    rw [List.nil_append]
    have hc := exec_condition hp.centers y (.row 0) (t := t) (one_ne_zero (α := ℝ))
    by_cases hdet : ((YCov.row (0 : Vec d)).broadcast + (psi d w (t / 1))ᵀ * p.weightCov * psi d w (t / 1)).det = 0
    · rw [if_pos hdet] at hc
      rw [viaPoints_cons, hc]
      rfl
    · rw [if_neg hdet] at hc
      have hfix := conditioned_passes hp broadcast_row_zero hc
      rw [div_one] at hfix
      rw [viaPoints_cons, hc]
      refine viaPoints_fixed_fails hd _ (.condition hp hc) (t := t) (y := y') (y' := y) ?_ (by simp)
      have e : t / 1 = t := div_one t
      simp only [e]
      exact hfix
  | cons x before ih =>
    obtain ⟨t', z⟩ := x
    rw [List.cons_append]
    have hc := exec_condition hp.centers z (.row 0) (t := t') (one_ne_zero (α := ℝ))
    by_cases hdet : ((YCov.row (0 : Vec d)).broadcast + (psi d w (t' / 1))ᵀ * p.weightCov * psi d w (t' / 1)).det = 0
    · rw [if_pos hdet] at hc
      rw [viaPoints_cons, hc]
      rfl
    · rw [if_neg hdet] at hc
      rw [viaPoints_cons, hc]
      exact ih (.condition hp hc)

/-! ### Order of via points -/

/-- Directions in weight space that the via points of a set of times constrain. -/
noncomputable def constrained (d w : ℕ) (times : Set ℝ) : Submodule ℝ (Vec (d * w)) :=
  Submodule.span ℝ {z | ∃ t ∈ times, ∃ x : Vec d, z = psi d w t *ᵥ x}

/-- `q` differs from `p` only along constrained directions. -/
def Along (p q : ProMP d w) (times : Set ℝ) : Prop :=
  (∃ s ∈ constrained d w times, q.weightMean = p.weightMean + p.weightCov *ᵥ s) ∧
    ∀ v, ∃ s ∈ constrained d w times, q.weightCov *ᵥ v = p.weightCov *ᵥ v + p.weightCov *ᵥ s

theorem Along.refl (p : ProMP d w) (times : Set ℝ) : Along p p times :=
  ⟨⟨0, Submodule.zero_mem _, by simp⟩, fun v => ⟨0, Submodule.zero_mem _, by simp⟩⟩

theorem Along.step {p r : ProMP d w} {times : Set ℝ} (h : Along p r times) {t : ℝ} (ht : t ∈ times) (y : Vec d)
    (R : Matrix (Fin d) (Fin d) ℝ) : Along p (r.conditioned y R t) times := by
  obtain ⟨⟨s, hs, hm⟩, hc⟩ := h
  have key : ∀ x : Vec d, ∃ s' ∈ constrained d w times, r.gain R t *ᵥ x = p.weightCov *ᵥ s' := by
    intro x
    set M := (R + (psi d w t)ᵀ * r.weightCov * psi d w t)⁻¹ with hM
    obtain ⟨s', hs', h'⟩ := hc (psi d w t *ᵥ (M *ᵥ x))
    refine ⟨psi d w t *ᵥ (M *ᵥ x) + s',
      Submodule.add_mem _ (Submodule.subset_span ⟨t, ht, _, rfl⟩) hs', ?_⟩
    unfold gain
    rw [← hM, mulVec_add, ← h', mulVec_mulVec, mulVec_mulVec]
  constructor
  · obtain ⟨s', hs', h'⟩ := key (y - (psi d w t)ᵀ *ᵥ r.weightMean)
    refine ⟨s + s', Submodule.add_mem _ hs hs', ?_⟩
    show r.weightMean + r.gain R t *ᵥ (y - (psi d w t)ᵀ *ᵥ r.weightMean) = _
    rw [h', hm, mulVec_add]
    abel
  · intro v
    obtain ⟨s₁, hs₁, h₁⟩ := hc v
    obtain ⟨s₂, hs₂, h₂⟩ := key ((psi d w t)ᵀ *ᵥ (r.weightCov *ᵥ v))
    refine ⟨s₁ - s₂, Submodule.sub_mem _ hs₁ hs₂, ?_⟩
    show (r.weightCov - r.gain R t * (psi d w t)ᵀ * r.weightCov) *ᵥ v = _
    rw [sub_mulVec, ← mulVec_mulVec, ← mulVec_mulVec, h₂, h₁, mulVec_sub]
    abel

theorem viaPoints_along {times : Set ℝ} {p : ProMP d w} : ∀ (points : List (ℝ × Vec d)) {r q : ProMP d w},
    Spec.Reachable r → Along p r times → (∀ x ∈ points, x.1 ∈ times) → r.viaPoints points = .ok q → Along p q times
  | [], r, q, hr, ha, ht, h => by
    injection h with h
    exact h ▸ ha
  | (t, y) :: rest, r, q, hr, ha, ht, h => by
    obtain ⟨r', p', hr', hq⟩ := viaPoints_cons_ok h
    have e := (condition_ok hr.centers hr').2.2.1
    refine viaPoints_along rest (.condition hr hr') ?_ (fun x hx => ht x (List.mem_cons_of_mem _ hx)) hq
    rw [e, div_one]
    exact ha.step (ht (t, y) List.mem_cons_self) _ _

theorem constrained_orthogonal {times : Set ℝ} {x : Vec (d * w)} (h : ∀ t ∈ times, (psi d w t)ᵀ *ᵥ x = 0)
    {s : Vec (d * w)} (hs : s ∈ constrained d w times) : s ⬝ᵥ x = 0 := by
  unfold constrained at hs
  induction hs using Submodule.span_induction with
  | mem z hz =>
    obtain ⟨t, ht, u, rfl⟩ := hz
    rw [dotProduct_comm, dotProduct_mulVec, ← mulVec_transpose, h t ht, zero_dotProduct]
  | zero => rw [zero_dotProduct]
  | add a b _ _ ha hb => rw [add_dotProduct, ha, hb, add_zero]
  | smul c a _ ha => rw [smul_dotProduct, ha, smul_zero]

theorem along_unique {times : Set ℝ} {C : Matrix (Fin (d * w)) (Fin (d * w)) ℝ} (hC : C.PosSemidef)
    {a b base : Vec (d * w)} (ha : ∃ s ∈ constrained d w times, a = base + C *ᵥ s)
    (hb : ∃ s ∈ constrained d w times, b = base + C *ᵥ s)
    (h : ∀ t ∈ times, (psi d w t)ᵀ *ᵥ a = (psi d w t)ᵀ *ᵥ b) : a = b := by
  obtain ⟨s₁, hs₁, rfl⟩ := ha
  obtain ⟨s₂, hs₂, rfl⟩ := hb
  have e : C *ᵥ (s₁ - s₂) = 0 := by
    apply mulVec_eq_zero_of_form hC
    apply constrained_orthogonal (times := times) _ (Submodule.sub_mem _ hs₁ hs₂)
    intro t ht
    have := h t ht
    rw [mulVec_add, mulVec_add, add_right_inj] at this
    rw [mulVec_sub, mulVec_sub, this, sub_self]
  rw [mulVec_sub, sub_eq_zero] at e
  rw [e]

/-- **C43.** The order of via points does not matter: two sequences with the same via points give the same
ProMP, if the covariance of the weights is positive semidefinite. -/
theorem C43_order {p q q' : ProMP d w} (hp : Spec.Reachable p) (hC : p.weightCov.PosSemidef)
    {points points' : List (ℝ × Vec d)} (hperm : points.Perm points') (h : p.viaPoints points = .ok q)
    (h' : p.viaPoints points' = .ok q') : q.weightMean = q'.weightMean ∧ q.weightCov = q'.weightCov := by
  set times : Set ℝ := {t | ∃ x ∈ points, x.1 = t} with htimes
  have a := viaPoints_along points hp (Along.refl p times) (fun x hx => ⟨x, hx, rfl⟩) h
  have a' := viaPoints_along points' hp (Along.refl p times) (fun x hx => ⟨x, hperm.mem_iff.2 hx, rfl⟩) h'
  have f := (viaPoints_fixed points hp h).2.1
  have f' := (viaPoints_fixed points' hp h').2.1
  constructor
  · refine along_unique hC a.1 a'.1 ?_
    rintro t ⟨⟨t', y⟩, hx, rfl⟩
    rw [(f t' y hx).1, (f' t' y (hperm.mem_iff.1 hx)).1]
  · have : ∀ v, q.weightCov *ᵥ v = q'.weightCov *ᵥ v := by
      intro v
      refine along_unique hC (a.2 v) (a'.2 v) ?_
      rintro t ⟨⟨t', y⟩, hx, rfl⟩
      rw [mulVec_mulVec, mulVec_mulVec, (f t' y hx).2.1, (f' t' y (hperm.mem_iff.1 hx)).2.1]
    exact ext_of_mulVec_single fun i => this _

end Verif
