import Verif.Spec.SuperpositionStateFollowing
import Verif.Props.Superposition
import Verif.Props.FramesStateFollowing

/-!
# C101 for state-following DMPs
-/

namespace Verif
open Spec
variable {d n : ℕ}

namespace StateFollowingDMP

theorem mix_one_zero (s₁ s₂ : StateFollowingDMP d n) : s₁.mix 1 0 s₂ = s₁ := by
  unfold StateFollowingDMP.mix Movement.mix
  simp only [Verif.mix_one_zero]

theorem SameSystem.mix_zero_one {s₁ s₂ : StateFollowingDMP d n} (h : s₁.SameSystem s₂) : s₁.mix 0 1 s₂ = s₂ := by
  unfold StateFollowingDMP.mix Movement.mix
  simp only [Verif.mix_zero_one]
  have e : ({ s₁.ft with viapoints := fun i => s₂.ft.viapoints i } : StateFollowingForcing d n) = s₂.ft := h.ft.symm
  rw [e]
  obtain ⟨h1, h2, h3, h4, h5, h6, h7, -⟩ := h
  clear e
  rcases s₂ with ⟨⟨⟩⟩
  simp_all

/-- Two systems side by side. -/
def pair (s₁ s₂ : StateFollowingDMP d n) : StateFollowingDMP (d + d) n :=
  { t := s₁.t, lastT := s₁.lastT
    startY := Fin.append s₁.startY s₂.startY, startYd := Fin.append s₁.startYd s₂.startYd
    startYdd := Fin.append s₁.startYdd s₂.startYdd
    goalY := Fin.append s₁.goalY s₂.goalY, goalYd := Fin.append s₁.goalYd s₂.goalYd
    goalYdd := Fin.append s₁.goalYdd s₂.goalYdd
    currentY := Fin.append s₁.currentY s₂.currentY, currentYd := Fin.append s₁.currentYd s₂.currentYd
    executionTime := s₁.executionTime, dt := s₁.dt, intDt := s₁.intDt
    alphaY := Fin.append s₁.alphaY s₁.alphaY, betaY := Fin.append s₁.betaY s₁.betaY
    ft :=
      { goalT := s₁.ft.goalT, startT := s₁.ft.startT, alphaZ := s₁.ft.alphaZ
        viapoints := fun i => Fin.append (s₁.ft.viapoints i) (s₂.ft.viapoints i)
        centers := s₁.ft.centers, widths := s₁.ft.widths } }

theorem pair_mapped (p q : ℝ) (s₁ s₂ : StateFollowingDMP d n) :
    (s₁.pair s₂).mapped (mixL p q) 0 s₁.alphaY s₁.betaY = s₁.mix p q s₂ := by
  unfold pair StateFollowingDMP.mapped StateFollowingDMP.mix Movement.mix
  simp only [mixL_append, add_zero]

/-- **C101 (state following, open_loop).** Superposition of state-following DMPs: start and via points mixed give the mixed
trajectory; an execution fails for both movements or for none of them. -/
theorem C101_state_following_open_loop {s₁ s₂ : StateFollowingDMP d n} (h : s₁.SameSystem s₂) (p q : ℝ)
    (runT : Option ℝ) :
    (s₁.mix p q s₂).openLoop runT none =
        ((s₁.openLoop runT none).bind fun r₁ => (s₂.openLoop runT none).map fun r₂ => mixRows p q r₁ r₂) ∧
      ∀ r₁ r₂, s₁.openLoop runT none = .ok r₁ → s₂.openLoop runT none = .ok r₂ → SameTimes r₁ r₂ := by
  have key := mixRows_of_pair ((s₁.pair s₂).openLoop runT none)
    (A := fun p q => (s₁.mix p q s₂).openLoop runT none) (by
    intro p q
    have hs := openLoop_mapped (s₁.pair s₂) (mixL p q) 0 (mixL_gain p q s₁.alphaY) (mixL_gain p q s₁.betaY)
      (coupling := none) (coupling' := none) trivial runT
    simp only [add_zero, pair_mapped] at hs
    exact hs) p q
  simp only [s₁.mix_one_zero, h.mix_zero_one] at key
  exact key

/-- **C101 (state following, step).** One call of `step` with mixed feedback returns the mixed states, and the objects
afterwards can be mixed again. -/
theorem C101_state_following_step {s₁ s₂ : StateFollowingDMP d n} (h : s₁.SameSystem s₂) (p q : ℝ)
    (y₁ yd₁ y₂ yd₂ : Vec d) :
    let r₁ := (StateFollowingDMP.step none y₁ yd₁).exec s₁
    let r₂ := (StateFollowingDMP.step none y₂ yd₂).exec s₂
    let r := (StateFollowingDMP.step none (Spec.mix p q y₁ y₂) (Spec.mix p q yd₁ yd₂)).exec (s₁.mix p q s₂)
    r.1 = (r₁.1.bind fun x₁ => r₂.1.map fun x₂ => (Spec.mix p q x₁.1 x₂.1, Spec.mix p q x₁.2 x₂.2)) ∧
      r.2 = r₁.2.mix p q r₂.2 ∧ r₁.2.SameSystem r₂.2 := by
  intro r₁ r₂ r
  set P := (step none (Fin.append y₁ y₂) (Fin.append yd₁ yd₂)).exec (s₁.pair s₂) with hP
  have hA : ∀ p q, (step none (Spec.mix p q y₁ y₂) (Spec.mix p q yd₁ yd₂)).exec (s₁.mix p q s₂) =
      (P.1.map (fun x => (mixL p q x.1, mixL p q x.2)), P.2.mapped (mixL p q) 0 s₁.alphaY s₁.betaY) := by
    intro p q
    have := step_mapped (s₁.pair s₂) (mixL p q) 0 (mixL_gain p q s₁.alphaY) (mixL_gain p q s₁.betaY)
      (coupling := none) (coupling' := none) trivial (Fin.append y₁ y₂) (Fin.append yd₁ yd₂)
    simpa only [mixL_append, add_zero, pair_mapped] using this
  have hobj : ∀ p q, P.2.mapped (mixL p q) 0 s₁.alphaY s₁.betaY =
      (P.2.mapped (mixL 1 0) 0 s₁.alphaY s₁.betaY).mix p q (P.2.mapped (mixL 0 1) 0 s₁.alphaY s₁.betaY) := by
    intro p q
    unfold StateFollowingDMP.mapped StateFollowingDMP.mix Movement.mix
    simp only [add_zero, ← mixL_parts]
  have h10 := hA 1 0
  have h01 := hA 0 1
  simp only [s₁.mix_one_zero, Verif.mix_one_zero] at h10
  simp only [h.mix_zero_one, Verif.mix_zero_one] at h01
  simp only [r, r₁, r₂, hA p q, h10, h01]
  refine ⟨?_, hobj p q, ?_⟩
  · cases P.1 with
    | error e => rfl
    | ok x =>
      simp only [Except.map, Except.bind, Except.ok.injEq, Prod.mk.injEq]
      exact ⟨mixL_parts p q _, mixL_parts p q _⟩
  · exact ⟨rfl, rfl, rfl, rfl, rfl, rfl, rfl, rfl⟩

/-- The hypothesis is met by any object and the object with other start and via points. -/
example (s : StateFollowingDMP d n) (y : Vec d) (v : Fin n → Vec d) :
    s.SameSystem { s with startY := y, ft := { s.ft with viapoints := v } } :=
  ⟨rfl, rfl, rfl, rfl, rfl, rfl, rfl, rfl⟩

end StateFollowingDMP
end Verif
