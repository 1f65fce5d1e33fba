import Verif.Spec.RandomDmp
import Verif.Props.Superposition
import Verif.Props.Configure
import Verif.Props.HeapWeights
import Verif.Props.PrompSamples
import Verif.Props.DmpClass
import Verif.Props.Imitate
import Verif.Props.SmallChanges

/-! # C122: DMPs with random parameters -/

namespace Verif
open Spec Matrix MeasureTheory ProbabilityTheory
variable {d m : ℕ} {Ω : Type} [MeasurableSpace Ω] {P : Measure Ω}

/-- The DMP with the given parameters. -/
def DMP.withParameters (s : DMP d m) (x : DmpParameters d m → ℝ) : DMP d m :=
  { s with
    startY := fun k => x (.inr (.inl k))
    goalY := fun k => x (.inr (.inr k))
    ft := { s.ft with weights := unflatten fun i => x (.inl i) } }

theorem exec_openLoopOfParameters (s : DMP d m) (runT : Option ℝ) (name : String) (x : DmpParameters d m → ℝ) :
    (openLoopOfParameters runT name x).exec s = (DMP.openLoop runT none name).exec (s.withParameters x) := by
  unfold openLoopOfParameters
  rw [Py.exec_bind, DMP.exec_configure, C25_configure_sets _ _ (by simp [AllOk, FieldOk])]
  dsimp only
  rw [Py.exec_bind]
  unfold DMP.setWeights
  rw [Py.exec_bind, Py.exec_lift, reshapeWeights_ofFn]
  dsimp only
  rw [Py.exec_modify]
  dsimp only
  congr 1
  unfold DMP.withParameters
  simp [newValue]

theorem withParameters_mix (s : DMP d m) (p q : ℝ) (x y : DmpParameters d m → ℝ) (runT : Option ℝ) (name : String) :
    ((DMP.openLoop runT none name).exec (s.withParameters (p • x + q • y))).1 =
      ((DMP.openLoop runT none name).exec ((s.withParameters x).mix p q (s.withParameters y))).1 := by
  rw [DMP.exec_openLoop, DMP.exec_openLoop]
  rfl

theorem sameSystem_withParameters (s : DMP d m) (x y : DmpParameters d m → ℝ) :
    (s.withParameters x).SameSystem (s.withParameters y) := ⟨rfl, rfl, rfl, rfl, rfl, rfl, rfl, rfl, rfl, rfl, rfl⟩

theorem rowValues_mix {n : ℕ} (p q : ℝ) {Y₁ Y₂ : List (Vec d)} (h₁ : Y₁.length = n) (h₂ : Y₂.length = n) :
    rowValues n (List.zipWith (mix p q) Y₁ Y₂) = p • rowValues n Y₁ + q • rowValues n Y₂ := by
  funext ⟨i, k⟩
  have i1 : i.val < Y₁.length := by omega
  have i2 : i.val < Y₂.length := by omega
  simp only [rowValues, List.getElem?_zipWith, List.getElem?_eq_getElem i1, List.getElem?_eq_getElem i2, Option.getD_some,
    Pi.add_apply, Pi.smul_apply, smul_eq_mul]
  rfl

/-- Trajectories depend linearly on the parameters. -/
theorem linear_openLoop (s : DMP d m) {runT : Option ℝ} {name : String} {x₀ : DmpParameters d m → ℝ} {T : List ℝ} {Y₀ : List (Vec d)}
    (h₀ : ((openLoopOfParameters runT name x₀).exec s).1 = .ok (T, Y₀)) :
    ∃ Y : (DmpParameters d m → ℝ) → List (Vec d),
      (∀ x, ((openLoopOfParameters runT name x).exec s).1 = .ok (T, Y x) ∧ (Y x).length = Y₀.length) ∧
      ∀ x, rowValues Y₀.length (Y x) =
        (Matrix.of fun z a => rowValues Y₀.length (Y (Pi.single a 1)) z : Matrix _ (DmpParameters d m) ℝ) *ᵥ x := by
  rw [exec_openLoopOfParameters] at h₀
  have ex : ∀ x, ∃ Y, ((DMP.openLoop runT none name).exec (s.withParameters x)).1 = .ok (T, Y) ∧ Y.length = Y₀.length := by
    intro x
    obtain ⟨h1, h2⟩ := C101_open_loop (sameSystem_withParameters s x x₀) 0 1 runT name
    have e : (0 : ℝ) • x + (1 : ℝ) • x₀ = x₀ := by rw [zero_smul, one_smul, zero_add]
    dsimp only at h1 h2
    rw [← withParameters_mix, e, h₀] at h1
    cases hx : ((DMP.openLoop runT none name).exec (s.withParameters x)).1 with
    | error e => rw [hx] at h1; cases h1
    | ok r =>
      obtain ⟨h3, h4⟩ := h2 r _ hx h₀
      refine ⟨r.2, ?_, h4⟩
      dsimp only at h3
      rw [← h3]
  choose Y hY using ex
  refine ⟨Y, fun x => by rw [exec_openLoopOfParameters]; exact hY x, ?_⟩
  have hlin : ∀ (p q : ℝ) x y, rowValues Y₀.length (Y (p • x + q • y)) =
      p • rowValues Y₀.length (Y x) + q • rowValues Y₀.length (Y y) := by
    intro p q x y
    have h1 := (C101_open_loop (sameSystem_withParameters s x y) p q runT name).1
    dsimp only at h1
    rw [← withParameters_mix, (hY _).1, (hY x).1, (hY y).1] at h1
    simp only [Except.bind, Except.map, mixRows, Except.ok.injEq, Prod.mk.injEq, true_and] at h1
    rw [h1, rowValues_mix p q (hY x).2 (hY y).2]
  let f : (DmpParameters d m → ℝ) →ₗ[ℝ] (Fin Y₀.length × Fin d → ℝ) :=
    { toFun := fun x => rowValues Y₀.length (Y x)
      map_add' := fun x y => by
        have := hlin 1 1 x y
        rwa [one_smul, one_smul, one_smul, one_smul] at this
      map_smul' := fun p x => by
        have := hlin p 0 x x
        rwa [zero_smul, zero_smul, add_zero, add_zero] at this }
  intro x
  show f x = _
  rw [f.pi_apply_eq_sum_univ x]
  funext z
  simp only [Finset.sum_apply, Pi.smul_apply, smul_eq_mul, mulVec, dotProduct, of_apply]
  refine Finset.sum_congr rfl fun a _ => ?_
  rw [mul_comm]
  congr 1
  show rowValues _ (Y _) z = _
  congr 2
  funext j
  simp [Pi.single_apply, eq_comm]

/-- **C122.** Weights, start and goal of a DMP without coupling term are drawn from a joint normal distribution. Then the positions of
the trajectory that `open_loop` generates are jointly normally distributed. Their mean is the trajectory for the mean of the parameters.
Their covariance is `L C Lᵀ`, where column `a` of `L` is the trajectory for the parameters that are zero except for a one at `a`. Time
stamps and number of rows do not depend on the parameters, and neither does whether `open_loop` succeeds. -/
theorem C122_random_parameters (s : DMP d m) {runT : Option ℝ} {name : String} {x₀ : DmpParameters d m → ℝ} {T : List ℝ}
    {Y₀ : List (Vec d)} (h₀ : ((openLoopOfParameters runT name x₀).exec s).1 = .ok (T, Y₀)) {mean : DmpParameters d m → ℝ}
    {C : Matrix (DmpParameters d m) (DmpParameters d m) ℝ} (hC : C.PosSemidef) {parameters : Ω → DmpParameters d m → ℝ}
    (hp : NormallyDistributed P parameters mean C) :
    ∃ (Y : (DmpParameters d m → ℝ) → List (Vec d)) (L : Matrix (Fin Y₀.length × Fin d) (DmpParameters d m) ℝ),
      (∀ x, ((openLoopOfParameters runT name x).exec s).1 = .ok (T, Y x) ∧ (Y x).length = Y₀.length) ∧
      (∀ z a, L z a = rowValues Y₀.length (Y (Pi.single a 1)) z) ∧
      NormallyDistributed P (fun ω => rowValues Y₀.length (Y (parameters ω))) (rowValues Y₀.length (Y mean)) (L * C * Lᵀ) := by
  obtain ⟨Y, h1, h2⟩ := linear_openLoop s h₀
  refine ⟨Y, Matrix.of fun z a => rowValues Y₀.length (Y (Pi.single a 1)) z, h1, fun _ _ => rfl, ?_⟩
  have h := normal_mulVec (Matrix.of fun z a => rowValues Y₀.length (Y (Pi.single a 1)) z) hC hp
  simp only [← h2] at h
  exact h

/-- Every DMP with a positive `dt` with standard normal parameters. -/
example (s : DMP d m) (hdt : 0 < s.dt) {r : ℝ} (hr : 0 ≤ r) :
    ∃ (Ω : Type) (_ : MeasurableSpace Ω) (P : Measure Ω) (parameters : Ω → DmpParameters d m → ℝ) (T : List ℝ) (Y : List (Vec d)),
      ((openLoopOfParameters (some r) "rk4" 0).exec s).1 = .ok (T, Y) ∧ NormallyDistributed P parameters 0 1 ∧
      (1 : Matrix (DmpParameters d m) (DmpParameters d m) ℝ).PosSemidef := by
  obtain ⟨P, samples, -, h⟩ := samples_exist Unit (0 : DmpParameters d m → ℝ) 1
  obtain ⟨T, Y, hY⟩ := C20_open_loop_returns (s.withParameters 0) hdt hr none
  exact ⟨_, _, P, samples (), T, Y, by rw [exec_openLoopOfParameters]; exact hY, h.1 (), PosSemidef.one⟩

/-- A linear function is given by a matrix whose columns are its values at the unit vectors. -/
theorem linear_eq_mulVec {κ η : Type} [Fintype κ] [DecidableEq κ] {F : (κ → ℝ) → η → ℝ}
    (h : ∀ (p q : ℝ) x y, F (p • x + q • y) = p • F x + q • F y) (x : κ → ℝ) :
    F x = (Matrix.of fun z a => F (Pi.single a 1) z : Matrix η κ ℝ) *ᵥ x := by
  let f : (κ → ℝ) →ₗ[ℝ] (η → ℝ) :=
    { toFun := F
      map_add' := fun x y => by
        have := h 1 1 x y
        rwa [one_smul, one_smul, one_smul, one_smul] at this
      map_smul' := fun p x => by
        have := h p 0 x x
        rwa [zero_smul, zero_smul, add_zero, add_zero] at this }
  show f x = _
  rw [f.pi_apply_eq_sum_univ x]
  funext z
  simp only [Finset.sum_apply, Pi.smul_apply, smul_eq_mul, mulVec, dotProduct, of_apply]
  refine Finset.sum_congr rfl fun a _ => ?_
  rw [mul_comm]
  congr 1
  show F _ z = _
  congr 1
  funext j
  simp [Pi.single_apply, eq_comm]

/-- What is learned does not depend on start, goal and weights before. -/
theorem parameters_imitate {n : ℕ} (s : DMP d m) (p q : ℝ) {T : Fin (n + 2) → ℝ} {Y : Fin (n + 2) → Vec d} {reg : ℝ} {afv : Bool}
    (h : ((DMP.imitate T Y reg afv).exec s).1 = .ok ()) :
    parametersOf ((DMP.imitate T Y reg afv).exec s).2 = parametersOf ((DMP.imitate T Y reg afv).exec (s.mix p q s)).2 := by
  rw [DMP.exec_imitate] at h ⊢
  rw [DMP.exec_imitate]
  have e : dmpImitate m T Y reg (s.mix p q s).alphaY (s.mix p q s).betaY (s.mix p q s).ft.overlap (s.mix p q s).ft.alphaZ afv
      (s.mix p q s).smooth = dmpImitate m T Y reg s.alphaY s.betaY s.ft.overlap s.ft.alphaZ afv s.smooth := rfl
  rw [e]
  cases hr : dmpImitate m T Y reg s.alphaY s.betaY s.ft.overlap s.ft.alphaZ afv s.smooth with
  | error e => rw [hr] at h; cases h
  | ok r =>
    dsimp only
    rw [DMP.exec_configure, DMP.exec_configure, C25_configure_sets _ _ (by simp [AllOk, FieldOk]),
      C25_configure_sets _ _ (by simp [AllOk, FieldOk])]
    funext z
    rcases z with z | z | z <;> simp [parametersOf, newValue]

/-- Learned parameters depend linearly on the demonstration. -/
theorem linear_learn {n : ℕ} (s : DMP d m) {T : Fin (n + 2) → ℝ} {reg : ℝ} {afv : Bool} {D₀ : Fin (n + 2) → Vec d}
    (h₀ : ((DMP.imitate T D₀ reg afv).exec s).1 = .ok ()) (p q : ℝ) (x y : Fin (n + 2) × Fin d → ℝ) :
    let learn := fun x : Fin (n + 2) × Fin d → ℝ => (DMP.imitate T (fun t k => x (t, k)) reg afv).exec s
    parametersOf (learn (p • x + q • y)).2 = p • parametersOf (learn x).2 + q • parametersOf (learn y).2 := by
  intro learn
  have hs : s.SameSystem s := ⟨rfl, rfl, rfl, rfl, rfl, rfl, rfl, rfl, rfl, rfl, rfl⟩
  have hok : ∀ x, (learn x).1 = .ok () := fun x =>
    ((C101_imitate hs 1 0 T D₀ (fun t k => x (t, k)) reg afv).2.1).trans h₀
  have h1 : parametersOf (learn (p • x + q • y)).2 =
      parametersOf ((DMP.imitate T (fun t => mix p q (fun k => x (t, k)) (fun k => y (t, k))) reg afv).exec (s.mix p q s)).2 :=
    parameters_imitate s p q (hok (p • x + q • y))
  rw [h1, (C101_imitate hs p q T (fun t k => x (t, k)) (fun t k => y (t, k)) reg afv).2.2.1]
  funext z
  rcases z with z | z | z <;> rfl

/-- **C122 (noisy demonstrations).** The positions of a demonstration are drawn from a joint normal distribution, e.g. a movement plus
measurement noise. Then weights, start and goal of a DMP that imitates it are jointly normally distributed, and their mean are the
parameters that are learned from the mean demonstration: noise does not bias what is learned. Their covariance is `L C Lᵀ`, where column
`a` of `L` are the parameters learned from the demonstration that is zero except for a one at `a`. Whether `imitate` succeeds does not
depend on the positions. -/
theorem C122_noisy_demonstrations {n : ℕ} (s : DMP d m) {T : Fin (n + 2) → ℝ} {reg : ℝ} {afv : Bool} {D₀ : Fin (n + 2) → Vec d}
    (h₀ : ((DMP.imitate T D₀ reg afv).exec s).1 = .ok ()) {mean : Fin (n + 2) × Fin d → ℝ}
    {C : Matrix (Fin (n + 2) × Fin d) (Fin (n + 2) × Fin d) ℝ} (hC : C.PosSemidef) {demo : Ω → Fin (n + 2) × Fin d → ℝ}
    (hd : NormallyDistributed P demo mean C) :
    let learn := fun x : Fin (n + 2) × Fin d → ℝ => (DMP.imitate T (fun t k => x (t, k)) reg afv).exec s
    (∀ x, (learn x).1 = .ok ()) ∧ ∃ L : Matrix (DmpParameters d m) (Fin (n + 2) × Fin d) ℝ,
      (∀ z a, L z a = parametersOf (learn (Pi.single a 1)).2 z) ∧
      NormallyDistributed P (fun ω => parametersOf (learn (demo ω)).2) (parametersOf (learn mean).2) (L * C * Lᵀ) := by
  intro learn
  have hs : s.SameSystem s := ⟨rfl, rfl, rfl, rfl, rfl, rfl, rfl, rfl, rfl, rfl, rfl⟩
  have hok : ∀ x, (learn x).1 = .ok () := fun x =>
    ((C101_imitate hs 1 0 T D₀ (fun t k => x (t, k)) reg afv).2.1).trans h₀
  have hlin := linear_learn s h₀
  refine ⟨hok, Matrix.of fun z a => parametersOf (learn (Pi.single a 1)).2 z, fun _ _ => rfl, ?_⟩
  have h := normal_mulVec (Matrix.of fun z a => parametersOf (learn (Pi.single a 1)).2 z) hC hd
  have e := linear_eq_mulVec (F := fun x => parametersOf (learn x).2) hlin
  have e1 : (fun ω => parametersOf (learn (demo ω)).2) =
      fun ω => (Matrix.of fun z a => parametersOf (learn (Pi.single a 1)).2 z) *ᵥ demo ω := funext fun ω => e (demo ω)
  have e2 : parametersOf (learn mean).2 = (Matrix.of fun z a => parametersOf (learn (Pi.single a 1)).2 z) *ᵥ mean := e mean
  rw [e1, e2]
  exact h

/-- Reproducing what was learned is the same as setting the learned parameters. -/
theorem openLoop_imitate {n : ℕ} (s : DMP d m) {T : Fin (n + 2) → ℝ} {Y : Fin (n + 2) → Vec d} {reg : ℝ} {afv : Bool}
    (h : ((DMP.imitate T Y reg afv).exec s).1 = .ok ()) (runT : Option ℝ) (name : String) :
    (DMP.openLoop runT none name).exec ((DMP.imitate T Y reg afv).exec s).2 =
      (openLoopOfParameters runT name (parametersOf ((DMP.imitate T Y reg afv).exec s).2)).exec s := by
  rw [exec_openLoopOfParameters]
  rcases s.imitate_result T Y reg afv with ⟨e, -, he⟩ | ⟨w, -, hw⟩
  · rw [he] at h; cases h
  · rw [hw]
    congr 1
    have e : unflatten (fun i : Fin (d * m) => w i.divNat i.modNat) = w := unflatten_flatten w
    unfold DMP.withParameters parametersOf
    simp only [Sum.elim_inl, Sum.elim_inr, e]

/-- **C122 (reproduction of noisy demonstrations).** The positions of a demonstration are drawn from a joint normal distribution. Then the
positions of its reproduction (`imitate`, then `open_loop`) are jointly normally distributed, and their mean is the reproduction of the mean
demonstration. Their covariance is `L C Lᵀ`, where column `a` of `L` is the reproduction of the demonstration that is zero except for a one
at `a`. -/
theorem C122_noisy_reproduction {n : ℕ} (s : DMP d m) {T : Fin (n + 2) → ℝ} {reg : ℝ} {afv : Bool} {D₀ : Fin (n + 2) → Vec d}
    {runT : Option ℝ} {name : String} {times : List ℝ} {Y₀ : List (Vec d)} (h₀ : ((DMP.imitate T D₀ reg afv).exec s).1 = .ok ())
    (h₁ : ((DMP.openLoop runT none name).exec ((DMP.imitate T D₀ reg afv).exec s).2).1 = .ok (times, Y₀))
    {mean : Fin (n + 2) × Fin d → ℝ} {C : Matrix (Fin (n + 2) × Fin d) (Fin (n + 2) × Fin d) ℝ} (hC : C.PosSemidef)
    {demo : Ω → Fin (n + 2) × Fin d → ℝ} (hd : NormallyDistributed P demo mean C) :
    let learn := fun x : Fin (n + 2) × Fin d → ℝ => (DMP.imitate T (fun t k => x (t, k)) reg afv).exec s
    ∃ (Y : (Fin (n + 2) × Fin d → ℝ) → List (Vec d)) (L : Matrix (Fin Y₀.length × Fin d) (Fin (n + 2) × Fin d) ℝ),
      (∀ x, ((DMP.openLoop runT none name).exec (learn x).2).1 = .ok (times, Y x) ∧ (Y x).length = Y₀.length) ∧
      (∀ z a, L z a = rowValues Y₀.length (Y (Pi.single a 1)) z) ∧
      NormallyDistributed P (fun ω => rowValues Y₀.length (Y (demo ω))) (rowValues Y₀.length (Y mean)) (L * C * Lᵀ) := by
  intro learn
  have hok : ∀ x, (learn x).1 = .ok () := (C122_noisy_demonstrations s h₀ hC hd).1
  have hlin := linear_learn s h₀
  rw [openLoop_imitate s h₀] at h₁
  obtain ⟨Y, hY, hL⟩ := linear_openLoop s h₁
  let F : (Fin (n + 2) × Fin d → ℝ) → Fin Y₀.length × Fin d → ℝ := fun x => rowValues Y₀.length (Y (parametersOf (learn x).2))
  have e := linear_eq_mulVec (F := F) (fun p q x y => by
    simp only [F, learn]
    rw [hlin, hL, Matrix.mulVec_add, Matrix.mulVec_smul, Matrix.mulVec_smul, ← hL, ← hL])
  refine ⟨fun x => Y (parametersOf (learn x).2), Matrix.of fun z a => F (Pi.single a 1) z, fun x => ?_, fun _ _ => rfl, ?_⟩
  · rw [openLoop_imitate s (hok x)]
    exact hY _
  · have h := normal_mulVec (Matrix.of fun z a => F (Pi.single a 1) z) hC hd
    have e1 : (fun ω => F (demo ω)) = fun ω => (Matrix.of fun z a => F (Pi.single a 1) z) *ᵥ demo ω := funext fun ω => e (demo ω)
    show NormallyDistributed P (fun ω => F (demo ω)) (F mean) _
    rw [e1, e mean]
    exact h

/-- A new DMP and a demonstration with three samples and independent noise, and its reproduction. -/
example : ∃ (s : DMP 1 2) (T : Fin 3 → ℝ) (Ω : Type) (_ : MeasurableSpace Ω) (P : Measure Ω) (demo : Ω → Fin 3 × Fin 1 → ℝ),
    ((DMP.imitate (n := 1) T (fun i _ => (i.val : ℝ) ^ 2) (1 / 10) false).exec s).1 = .ok () ∧
      (∃ r, ((DMP.openLoop (some 1) none "rk4").exec
        ((DMP.imitate (n := 1) T (fun i _ => (i.val : ℝ) ^ 2) (1 / 10) false).exec s).2).1 = .ok r) ∧
      NormallyDistributed P demo (fun x => (x.1.val : ℝ) ^ 2) 1 ∧ (1 : Matrix (Fin 3 × Fin 1) (Fin 3 × Fin 1) ℝ).PosSemidef := by
  obtain ⟨P, samples, -, h⟩ := samples_exist Unit (fun x : Fin 3 × Fin 1 => (x.1.val : ℝ) ^ 2) 1
  obtain ⟨s, hs, -, hdt, -⟩ := DMP.create_ok 1 2 le_rfl one_pos (1 / 100) (1 / 1000) 0 false 25 (25 / 4)
  obtain ⟨w, hw⟩ := C28_imitate_configures (n := 1) (.create hs) (fun i => (i.val : ℝ) / 2) (fun i _ => (i.val : ℝ) ^ 2)
    (reg := 1 / 10) (by norm_num) (by norm_num) false
  refine ⟨s, fun i => (i.val : ℝ) / 2, _, _, P, samples (), by rw [hw], ?_, h.1 (), PosSemidef.one⟩
  have h0 : 0 < s.dt := by rw [hdt]; norm_num
  obtain ⟨t, y, hy⟩ := C20_open_loop_returns ((DMP.imitate (n := 1) (fun i => (i.val : ℝ) / 2) (fun i _ => (i.val : ℝ) ^ 2)
    (1 / 10) false).exec s).2 (by rw [hw]; exact h0) zero_le_one none
  exact ⟨_, hy⟩

end Verif
