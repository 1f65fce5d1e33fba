import Verif.Lemmas.Superposition
import Mathlib.Analysis.Normed.Operator.BanachSteinhaus
import Mathlib.Topology.Algebra.Module.FiniteDimension
import Mathlib.Data.List.GetD

/-! # Bounded superpositions are uniformly continuous -/

namespace Verif
open Spec
variable {d m : ℕ}

/-- Linear functions of finitely many parameters that are bounded for every value of the parameters have a common
Lipschitz constant. -/
theorem uniform_bound {V ι : Type} [NormedAddCommGroup V] [NormedSpace ℝ V] [FiniteDimensional ℝ V]
    (L : ι → V →ₗ[ℝ] Vec d) (hb : ∀ v, ∃ C : ℝ, ∀ i k, |L i v k| ≤ C) :
    ∃ K : ℝ, 0 ≤ K ∧ ∀ i v k, |L i v k| ≤ K * ‖v‖ := by
  have : CompleteSpace V := FiniteDimensional.complete ℝ V
  obtain ⟨K, hK⟩ := banach_steinhaus (g := fun i => LinearMap.toContinuousLinearMap (L i)) (fun v => by
    obtain ⟨C, hC⟩ := hb v
    refine ⟨max C 0, fun i => ?_⟩
    rw [LinearMap.coe_toContinuousLinearMap', pi_norm_le_iff_of_nonneg (le_max_right _ _)]
    exact fun k => (Real.norm_eq_abs _).le.trans ((hC i k).trans (le_max_left _ _)))
  refine ⟨max K 0, le_max_right _ _, fun i v k => ?_⟩
  have h1 : ‖L i v‖ ≤ ‖LinearMap.toContinuousLinearMap (L i)‖ * ‖v‖ :=
    (LinearMap.toContinuousLinearMap (L i)).le_opNorm v
  have h2 : |L i v k| ≤ ‖L i v‖ := norm_le_pi_norm (L i v) k
  exact h2.trans (h1.trans (mul_le_mul_of_nonneg_right ((hK i).trans (le_max_left _ _)) (norm_nonneg v)))

/-- Row `i` of a trajectory that was computed for the parameters `v`. -/
noncomputable def rowOf {V R : Type} (runs : V → R → Except PyErr (List ℝ × List (Vec d))) (x : R × ℕ) (v : V) : Vec d :=
  match runs v x.1 with
  | .ok r => r.2.getD x.2 0
  | .error _ => 0

theorem getD_zipWith_mix (p q : ℝ) : ∀ (l₁ l₂ : List (Vec d)), l₁.length = l₂.length → ∀ i,
    (List.zipWith (mix p q) l₁ l₂).getD i 0 = p • l₁.getD i 0 + q • l₂.getD i 0
  | [], [], _, i => by simp
  | x :: l₁, y :: l₂, h, 0 => by
    funext k; simp [mix]
  | x :: l₁, y :: l₂, h, i + 1 => by
    have := getD_zipWith_mix p q l₁ l₂ (by simpa using h) i
    simpa using this

/-- Trajectories that superpose and are bounded for every value of the parameters depend on the parameters in a Lipschitz
continuous way, with one constant for all rows and all run times. -/
theorem lipschitz_of_superposition {V R : Type} [NormedAddCommGroup V] [NormedSpace ℝ V] [FiniteDimensional ℝ V]
    (runs : V → R → Except PyErr (List ℝ × List (Vec d)))
    (hsup : ∀ (p q : ℝ) v w rt, runs (p • v + q • w) rt =
      (runs v rt).bind fun r₁ => (runs w rt).map fun r₂ => mixRows p q r₁ r₂)
    (hsame : ∀ v w rt r₁ r₂, runs v rt = .ok r₁ → runs w rt = .ok r₂ → SameTimes r₁ r₂)
    (hb : ∀ v, ∃ C : ℝ, ∀ rt r, runs v rt = .ok r → ∀ y ∈ r.2, ∀ k, |y k| ≤ C) :
    ∃ K : ℝ, 0 ≤ K ∧ ∀ v w rt r₁ r₂, runs v rt = .ok r₁ → runs w rt = .ok r₂ → SameTimes r₁ r₂ ∧
      ∀ i (h₁ : i < r₁.2.length) (h₂ : i < r₂.2.length) k, |r₁.2[i] k - r₂.2[i] k| ≤ K * ‖v - w‖ := by
  have herr : ∀ v w rt e, runs v rt = .error e → ∃ e', runs w rt = .error e' := by
    intro v w rt e h
    have := hsup 0 1 v w rt
    rw [zero_smul, zero_add, one_smul, h] at this
    exact ⟨e, this⟩
  have hrow : ∀ x (p q : ℝ) v w, rowOf runs x (p • v + q • w) = p • rowOf runs x v + q • rowOf runs x w := by
    intro x p q v w
    unfold rowOf
    rw [hsup]
    cases h₁ : runs v x.1 with
    | error e =>
      obtain ⟨e', h₂⟩ := herr v w x.1 e h₁
      rw [h₂]
      simp [Except.bind]
    | ok r₁ =>
      cases h₂ : runs w x.1 with
      | error e =>
        obtain ⟨e', h₃⟩ := herr w v x.1 e h₂
        rw [h₃] at h₁; cases h₁
      | ok r₂ =>
        simp only [Except.bind, Except.map, mixRows]
        exact getD_zipWith_mix p q _ _ (hsame v w x.1 r₁ r₂ h₁ h₂).2 x.2
  let L : R × ℕ → V →ₗ[ℝ] Vec d := fun x =>
    { toFun := rowOf runs x
      map_add' := fun v w => by simpa using hrow x 1 1 v w
      map_smul' := fun c v => by simpa using hrow x c 0 v 0 }
  obtain ⟨K, hK0, hK⟩ := uniform_bound L (fun v => by
    obtain ⟨C, hC⟩ := hb v
    refine ⟨max C 0, fun x k => ?_⟩
    show |rowOf runs x v k| ≤ _
    unfold rowOf
    cases h : runs v x.1 with
    | error e => simp
    | ok r =>
      simp only
      by_cases hi : x.2 < r.2.length
      · rw [List.getD_eq_getElem _ _ hi]
        exact (hC x.1 r h _ (List.getElem_mem hi) k).trans (le_max_left _ _)
      · rw [List.getD_eq_default _ _ (not_lt.1 hi)]
        simp)
  refine ⟨K, hK0, fun v w rt r₁ r₂ h₁ h₂ => ⟨hsame v w rt r₁ r₂ h₁ h₂, fun i hi₁ hi₂ k => ?_⟩⟩
  have := hK (rt, i) (v - w) k
  rw [map_sub] at this
  have e₁ : L (rt, i) v = r₁.2[i] := by
    show rowOf runs (rt, i) v = _
    unfold rowOf
    simp only [h₁, List.getD_eq_getElem _ _ hi₁]
  have e₂ : L (rt, i) w = r₂.2[i] := by
    show rowOf runs (rt, i) w = _
    unfold rowOf
    simp only [h₂, List.getD_eq_getElem _ _ hi₂]
  rw [e₁, e₂] at this
  exact this

end Verif
