import Verif.Props.RandomDmp
import Verif.Props.ConstantDemonstrations
import Verif.Props.OutputRate

/-! # C122: noisy demonstrations of DMPs with final velocity, and spring-dampers -/

namespace Verif
open Spec Matrix MeasureTheory ProbabilityTheory
variable {d m : ℕ} {Ω : Type} [MeasurableSpace Ω] {P : Measure Ω}

/-- Superposition makes all positions of a trajectory linear functions of the parameters. -/
theorem linear_of_superposition {κ : Type} [Fintype κ] [DecidableEq κ] {run : (κ → ℝ) → Except PyErr (List ℝ × List (Vec d))}
    (h1 : ∀ p q x y, run (p • x + q • y) = ((run x).bind fun r₁ => (run y).map fun r₂ => mixRows p q r₁ r₂))
    (h2 : ∀ x y r₁ r₂, run x = .ok r₁ → run y = .ok r₂ → SameTimes r₁ r₂) {x₀ : κ → ℝ} {T : List ℝ} {Y₀ : List (Vec d)}
    (h₀ : run x₀ = .ok (T, Y₀)) :
    ∃ Y : (κ → ℝ) → List (Vec d), (∀ x, run x = .ok (T, Y x) ∧ (Y x).length = Y₀.length) ∧
      ∀ x, rowValues Y₀.length (Y x) = (Matrix.of fun z a => rowValues Y₀.length (Y (Pi.single a 1)) z : Matrix _ κ ℝ) *ᵥ x := by
  have ex : ∀ x, ∃ Y, run x = .ok (T, Y) ∧ Y.length = Y₀.length := by
    intro x
    have h := h1 0 1 x x₀
    have e : (0 : ℝ) • x + (1 : ℝ) • x₀ = x₀ := by rw [zero_smul, one_smul, zero_add]
    rw [e, h₀] at h
    cases hx : run x with
    | error e => rw [hx] at h; cases h
    | ok r =>
      obtain ⟨h3, h4⟩ := h2 x x₀ r _ hx h₀
      exact ⟨r.2, by dsimp only at h3; rw [← h3], h4⟩
  choose Y hY using ex
  refine ⟨Y, hY, linear_eq_mulVec (F := fun x => rowValues Y₀.length (Y x)) fun p q x y => ?_⟩
  have h := h1 p q x y
  rw [(hY x).1, (hY y).1, (hY _).1] at h
  simp only [Except.bind, Except.map, Except.ok.injEq, mixRows, Prod.mk.injEq] at h
  rw [h.2]
  exact rowValues_mix p q (hY x).2 (hY y).2

/-- The reproduction does not depend on start, goal and weights before learning. -/
theorem fv_reproduction_mix {n : ℕ} (s : FvDMP d m) (p q : ℝ) {T : Fin (n + 2) → ℝ} {Y : Fin (n + 2) → Vec d} {reg : ℝ}
    (h : ((FvDMP.imitate T Y reg).exec s).1 = .ok ()) (runT : Option ℝ) :
    ((FvDMP.openLoop runT none).exec ((FvDMP.imitate T Y reg).exec s).2).1 =
      ((FvDMP.openLoop runT none).exec ((FvDMP.imitate T Y reg).exec (s.mix p q s)).2).1 := by
  have e : dmpImitateWith m T reg (s.mix p q s).ft.overlap (s.mix p q s).ft.alphaZ
      (fvDetermineForces T Y (s.mix p q s).alphaY (s.mix p q s).betaY) =
      dmpImitateWith m T reg s.ft.overlap s.ft.alphaZ (fvDetermineForces T Y s.alphaY s.betaY) := rfl
  rcases FvDMP.imitate_result s T Y reg with ⟨e, -, he⟩ | ⟨w, hw, hw'⟩
  · rw [he] at h; cases h
  · rcases FvDMP.imitate_result (s.mix p q s) T Y reg with ⟨e', he, -⟩ | ⟨v, hv, hv'⟩
    · rw [e, hw] at he; cases he
    · rw [e, hw] at hv
      injection hv with hv
      rw [hw', hv', ← hv, FvDMP.exec_openLoop, FvDMP.exec_openLoop]
      rfl

/-- **C122 (final velocity, reproduction of noisy demonstrations).** The positions of a demonstration are drawn from a joint normal
distribution. Then the positions of its reproduction by a `DMPWithFinalVelocity` (`imitate`, then `open_loop`) are jointly normally
distributed, and their mean is the reproduction of the mean demonstration. Their covariance is `L C Lᵀ`, where column `a` of `L` is the
reproduction of the demonstration that is zero except for a one at `a`. -/
theorem C122_fv_noisy_reproduction {n : ℕ} (s : FvDMP d m) {T : Fin (n + 2) → ℝ} {reg : ℝ} {D₀ : Fin (n + 2) → Vec d}
    {runT : Option ℝ} {times : List ℝ} {Y₀ : List (Vec d)} (h₀ : ((FvDMP.imitate T D₀ reg).exec s).1 = .ok ())
    (h₁ : ((FvDMP.openLoop runT none).exec ((FvDMP.imitate T D₀ reg).exec s).2).1 = .ok (times, Y₀))
    {mean : Fin (n + 2) × Fin d → ℝ} {C : Matrix (Fin (n + 2) × Fin d) (Fin (n + 2) × Fin d) ℝ} (hC : C.PosSemidef)
    {demo : Ω → Fin (n + 2) × Fin d → ℝ} (hd : NormallyDistributed P demo mean C) :
    let learn := fun x : Fin (n + 2) × Fin d → ℝ => (FvDMP.imitate T (fun t k => x (t, k)) reg).exec s
    (∀ x, (learn x).1 = .ok ()) ∧
    ∃ (Y : (Fin (n + 2) × Fin d → ℝ) → List (Vec d)) (L : Matrix (Fin Y₀.length × Fin d) (Fin (n + 2) × Fin d) ℝ),
      (∀ x, ((FvDMP.openLoop runT none).exec (learn x).2).1 = .ok (times, Y x) ∧ (Y x).length = Y₀.length) ∧
      (∀ z a, L z a = rowValues Y₀.length (Y (Pi.single a 1)) z) ∧
      NormallyDistributed P (fun ω => rowValues Y₀.length (Y (demo ω))) (rowValues Y₀.length (Y mean)) (L * C * Lᵀ) := by
  intro learn
  have hs : s.SameSystem s := ⟨rfl, rfl, rfl, rfl, rfl, rfl, rfl, rfl, rfl, rfl, rfl⟩
  have hok : ∀ x, (learn x).1 = .ok () := fun x =>
    ((C101_fv_imitate hs 1 0 T D₀ (fun t k => x (t, k)) reg).2.1).trans h₀
  refine ⟨hok, ?_⟩
  have hmix : ∀ (p q : ℝ) x y, ((FvDMP.openLoop runT none).exec (learn (p • x + q • y)).2).1 =
      ((FvDMP.openLoop runT none).exec ((learn x).2.mix p q (learn y).2)).1 := by
    intro p q x y
    have h := (C101_fv_imitate hs p q T (fun t k => x (t, k)) (fun t k => y (t, k)) reg).2.2.1
    simp only [learn]
    rw [← h]
    exact fv_reproduction_mix s p q (hok (p • x + q • y)) runT
  have hsame : ∀ x y, (learn x).2.SameSystem (learn y).2 := fun x y =>
    (C101_fv_imitate hs 1 0 T (fun t k => x (t, k)) (fun t k => y (t, k)) reg).2.2.2
  obtain ⟨x₀, hx₀⟩ : ∃ x₀ : Fin (n + 2) × Fin d → ℝ, (fun t k => x₀ (t, k)) = D₀ := ⟨fun z => D₀ z.1 z.2, rfl⟩
  subst hx₀
  obtain ⟨Y, hY, hL⟩ := linear_of_superposition (run := fun x => ((FvDMP.openLoop runT none).exec (learn x).2).1)
    (fun p q x y => by
      rw [hmix]
      exact (C101_fv_open_loop (hsame x y) p q runT).1)
    (fun x y r₁ r₂ => (C101_fv_open_loop (hsame x y) 1 0 runT).2 r₁ r₂) (x₀ := x₀) h₁
  refine ⟨Y, Matrix.of fun z a => rowValues Y₀.length (Y (Pi.single a 1)) z, hY, fun _ _ => rfl, ?_⟩
  have h := normal_mulVec (Matrix.of fun z a => rowValues Y₀.length (Y (Pi.single a 1)) z) hC hd
  simp only [← hL] at h
  exact h

/-- A new object and random demonstrations with four samples: the mean is a movement, the noise is independent. `imitate` and `open_loop`
succeed for one demonstration, a constant one. -/
example : ∃ (s : FvDMP 1 2) (T : Fin 4 → ℝ) (Ω : Type) (_ : MeasurableSpace Ω) (P : Measure Ω) (demo : Ω → Fin 4 × Fin 1 → ℝ),
    ((FvDMP.imitate (n := 2) T (fun _ => 1) (1 / 10)).exec s).1 = .ok () ∧
      (∃ r, ((FvDMP.openLoop (some 1) none).exec ((FvDMP.imitate (n := 2) T (fun _ => 1) (1 / 10)).exec s).2).1 = .ok r) ∧
      NormallyDistributed P demo (fun x => (x.1.val : ℝ) ^ 2) 1 ∧ (1 : Matrix (Fin 4 × Fin 1) (Fin 4 × Fin 1) ℝ).PosSemidef := by
  obtain ⟨P, samples, -, h⟩ := samples_exist Unit (fun x : Fin 4 × Fin 1 => (x.1.val : ℝ) ^ 2) 1
  obtain ⟨s, hs, -, hdt, hint, -⟩ := DMP.create_ok 1 2 le_rfl one_pos (1 / 100) (1 / 1000) 0 false 25 (25 / 4)
  have hr : FvDMP.Reachable s := .create hs
  obtain ⟨w, hw⟩ := C29_imitate_boundary (n := 1) hr (fun i => (i.val : ℝ)) (fun _ => 1) (reg := 1 / 10) (by norm_num) (by norm_num)
  refine ⟨s, fun i => (i.val : ℝ), _, _, P, samples (), by rw [hw], ?_, h.1 (), PosSemidef.one⟩
  obtain ⟨t, -, ht⟩ := (C28_fv_constant_reproduction hr (by rw [hint]; norm_num) (by rw [hdt]; norm_num) hw).1 (some 1)
    (by rintro r ⟨⟩; exact zero_le_one)
  rw [hw]
  exact ⟨_, ht⟩

/-- The spring-damper with the given start and goal. -/
def SpringDamper.withStartGoal (s : SpringDamper d) (x : Fin d ⊕ Fin d → ℝ) : SpringDamper d :=
  { s with startY := fun k => x (.inl k), goalY := fun k => x (.inr k) }

theorem exec_springDamperOpenLoopOf (s : SpringDamper d) (runT : ℝ) (x : Fin d ⊕ Fin d → ℝ) :
    (springDamperOpenLoopOf runT x).exec s = (SpringDamper.openLoop runT none).exec (s.withStartGoal x) := by
  unfold springDamperOpenLoopOf SpringDamper.configure
  rw [Py.exec_bind, Py.exec_zoom, C25_configure_sets _ _ (by simp [AllOk, FieldOk])]
  dsimp only
  congr 1
  unfold SpringDamper.withStartGoal
  simp [newValue]

/-- **C122 (spring-damper).** Start and goal of a `SpringDamper` are drawn from a joint normal distribution. Then the positions that
`open_loop` generates are jointly normally distributed, their mean is the trajectory for the mean start and goal, and their covariance is
`L C Lᵀ`, where column `a` of `L` is the trajectory for the start and goal that are zero except for a one at `a`. -/
theorem C122_spring_damper (s : SpringDamper d) {runT : ℝ} {x₀ : Fin d ⊕ Fin d → ℝ} {T : List ℝ} {Y₀ : List (Vec d)}
    (h₀ : ((springDamperOpenLoopOf runT x₀).exec s).1 = .ok (T, Y₀)) {mean : Fin d ⊕ Fin d → ℝ}
    {C : Matrix (Fin d ⊕ Fin d) (Fin d ⊕ Fin d) ℝ} (hC : C.PosSemidef) {startGoal : Ω → Fin d ⊕ Fin d → ℝ}
    (hp : NormallyDistributed P startGoal mean C) :
    ∃ (Y : (Fin d ⊕ Fin d → ℝ) → List (Vec d)) (L : Matrix (Fin Y₀.length × Fin d) (Fin d ⊕ Fin d) ℝ),
      (∀ x, ((springDamperOpenLoopOf runT x).exec s).1 = .ok (T, Y x) ∧ (Y x).length = Y₀.length) ∧
      (∀ z a, L z a = rowValues Y₀.length (Y (Pi.single a 1)) z) ∧
      NormallyDistributed P (fun ω => rowValues Y₀.length (Y (startGoal ω))) (rowValues Y₀.length (Y mean)) (L * C * Lᵀ) := by
  have hsame : ∀ x y, (s.withStartGoal x).SameSystem (s.withStartGoal y) := fun x y => ⟨rfl, rfl, rfl, rfl, rfl, rfl, rfl⟩
  obtain ⟨Y, hY, hL⟩ := linear_of_superposition (run := fun x => ((springDamperOpenLoopOf runT x).exec s).1)
    (fun p q x y => by
      simp only [exec_springDamperOpenLoopOf]
      exact (C101_spring_damper_open_loop (hsame x y) p q runT).1)
    (fun x y r₁ r₂ => by
      simp only [exec_springDamperOpenLoopOf]
      exact (C101_spring_damper_open_loop (hsame x y) 1 0 runT).2 r₁ r₂) h₀
  refine ⟨Y, Matrix.of fun z a => rowValues Y₀.length (Y (Pi.single a 1)) z, hY, fun _ _ => rfl, ?_⟩
  have h := normal_mulVec (Matrix.of fun z a => rowValues Y₀.length (Y (Pi.single a 1)) z) hC hp
  simp only [← hL] at h
  exact h

/-- Every spring-damper with positive time steps, with standard normal start and goal. -/
example (s : SpringDamper d) (hi : 0 < s.intDt) (hdt : 0 < s.dt) {r : ℝ} (hr : 0 ≤ r) :
    ∃ (Ω : Type) (_ : MeasurableSpace Ω) (P : Measure Ω) (startGoal : Ω → Fin d ⊕ Fin d → ℝ) (y : List ℝ × List (Vec d)),
      ((springDamperOpenLoopOf r 0).exec s).1 = .ok y ∧ NormallyDistributed P startGoal 0 1 ∧
      (1 : Matrix (Fin d ⊕ Fin d) (Fin d ⊕ Fin d) ℝ).PosSemidef := by
  obtain ⟨P, samples, -, h⟩ := samples_exist Unit (0 : Fin d ⊕ Fin d → ℝ) 1
  have hret : ∃ y, ((SpringDamper.openLoop r none).exec (s.withStartGoal 0)).1 = .ok y :=
    openLoop_returns (.of_intLoop hi fun _ _ _ _ _ => rfl) hdt _ _ hr
  obtain ⟨y, hy⟩ := hret
  exact ⟨_, _, P, samples (), y, by rw [exec_springDamperOpenLoopOf]; exact hy, h.1 (), PosSemidef.one⟩

end Verif
