import Verif.Props.Identifiable
import Verif.Props.DualImitate
import Verif.Props.DualArmsImitate

/-! # Demonstrations determine the weights of Cartesian and dual-arm DMPs (C96) -/

namespace Verif
open Spec

variable {d m n : ℕ}

/-- Weights that minimise the regularised error at sufficiently many time stamps are the only minimiser. -/
theorem ForcingTerm.Made.unique_of_optimal {ft : ForcingTerm d m} {τ : ℝ} (hft : ft.Made τ) {T : Fin n → ℝ}
    (hT : Function.Injective T) (hn : 2 ^ m - 1 ≤ n) {F : Fin n → Vec d} {reg : ℝ} (hreg : 0 ≤ reg) {W V : Fin d → Fin m → ℝ}
    (hopt : ∀ U, regularizedError F (fun W t => (ft.withWeights W).call (T t)) reg W ≤
      regularizedError F (fun W t => (ft.withWeights W).call (T t)) reg U) (hV : V ≠ W) :
    regularizedError F (fun W t => (ft.withWeights W).call (T t)) reg W <
      regularizedError F (fun W t => (ft.withWeights W).call (T t)) reg V := by
  by_contra hle
  have hle := not_lt.1 hle
  apply hV
  have hmid := regularizedError_midpoint (F := F) (f := fun W t => (ft.withWeights W).call (T t)) hreg V W
    (fun t k => C04_force_linear ft V W (1 / 2) (1 / 2) (T t) k)
  have h1 := hopt (fun k i => 1 / 2 * V k i + 1 / 2 * W k i)
  have h2 : ∑ t, ∑ k, ((ft.withWeights V).call (T t) k - (ft.withWeights W).call (T t) k) ^ 2 ≤ 0 := by
    linarith
  refine hft.weights_unique (S := Finset.univ.map ⟨T, hT⟩) (by simpa using hn) ?_
  intro t ht
  obtain ⟨i, -, rfl⟩ := Finset.mem_map.1 ht
  funext k
  have h5 := (Finset.sum_eq_zero_iff_of_nonneg (fun t _ => Finset.sum_nonneg fun k _ => sq_nonneg _)).1
    (le_antisymm h2 (Finset.sum_nonneg fun t _ => Finset.sum_nonneg fun k _ => sq_nonneg _)) i (Finset.mem_univ _)
  have h6 := (Finset.sum_eq_zero_iff_of_nonneg (fun k _ => sq_nonneg _)).1 h5 k (Finset.mem_univ _)
  exact sub_eq_zero.1 (pow_eq_zero_iff (two_ne_zero)|>.1 h6)

/-- Forcing terms that are made for the same time agree up to their weights, whatever their dimensions are. -/
theorem ForcingTerm.Made.created_call {d' : ℕ} {ft : ForcingTerm d m} {ft' : ForcingTerm d' m} {τ : ℝ} (h : ft.Made τ)
    (hc : ForcingTerm.create d' m τ 0 (8 / 10) ft.alphaZ = .ok ft') (W : Fin d → Fin m → ℝ) (W' : Fin d' → Fin m → ℝ)
    {k : Fin d} {k' : Fin d'} (hW : ∀ i, W k i = W' k' i) (t : ℝ) :
    (ft.withWeights W).call t k = (ft'.withWeights W').call t k' := by
  have h0 := h
  obtain ⟨ft0, h0, -, -, e3, -, -⟩ := h0
  rw [DMP.initForcingTerm_ok_iff] at h0
  have hm : ft'.Made τ := by
    refine ⟨ft', ?_, rfl, rfl, rfl, rfl, rfl⟩
    rw [DMP.initForcingTerm_ok_iff, ← hc, e3]
    obtain ⟨-, -, -, rfl⟩ := create_ok h0
    rfl
  obtain ⟨h1, h2⟩ := h.same hm
  simp only [ForcingTerm.call, ForcingTerm.force, ForcingTerm.withWeights]
  have h3 : ∀ t, ({ ft with weights := W } : ForcingTerm d m).phaseAt t = ({ ft' with weights := W' } : ForcingTerm d' m).phaseAt t :=
    fun t => (h1 t).symm
  have h4 : ∀ z i, ({ ft with weights := W } : ForcingTerm d m).activations z i =
      ({ ft' with weights := W' } : ForcingTerm d' m).activations z i := fun z i => (h2 z i).symm
  simp only [h3, h4, hW]

/-- **C26 (Cartesian).** For a demonstration over the execution time: among all weights that `set_weights` could set, the ones
learned by a Cartesian DMP minimise the regularised squared errors of the forces of positions and of orientations. -/
theorem C26_cartesian_imitate {s s' : CartesianDMP m} (hs : TimedCartesian s) (ops : QuatOps)
    (qgrad : (Fin (n + 2) → Vec 4) → Fin (n + 2) → Vec 3) {T : Fin (n + 2) → ℝ} (Y : Fin (n + 2) → Vec (3 + 4)) {reg : ℝ}
    (h0 : T 0 = 0) (hl : T (Fin.last _) = s.executionTime) (afv : Bool)
    (h : (CartesianDMP.imitate ops qgrad T Y reg afv).exec s = (.ok (), s')) :
    (∀ V, regularizedError (determineForces T (fun t => position (Y t)) (linear s.alphaY) (linear s.betaY)
        s.ftPos.alphaZ afv s.smooth) (fun W t => (s.ftPos.withWeights W).call (T t)) reg s'.ftPos.weights ≤
      regularizedError (determineForces T (fun t => position (Y t)) (linear s.alphaY) (linear s.betaY)
        s.ftPos.alphaZ afv s.smooth) (fun W t => (s.ftPos.withWeights W).call (T t)) reg V) ∧
    (∀ V, regularizedError (determineForcesQuaternion ops qgrad T (fun t => orientation (Y t))
        (angular s.alphaY) (angular s.betaY) s.ftRot.alphaZ afv s.smooth) (fun W t => (s.ftRot.withWeights W).call (T t)) reg
          s'.ftRot.weights ≤
      regularizedError (determineForcesQuaternion ops qgrad T (fun t => orientation (Y t))
        (angular s.alphaY) (angular s.betaY) s.ftRot.alphaZ afv s.smooth) (fun W t => (s.ftRot.withWeights W).call (T t)) reg V) ∧
    s'.ftPos = s.ftPos.withWeights s'.ftPos.weights ∧ s'.ftRot = s.ftRot.withWeights s'.ftRot.weights := by
  have hc : ¬ (reg < 0 ∨ T (Fin.last _) ≤ T 0) := by
    intro hc
    rw [C28_cartesian_raises s ops qgrad T Y reg afv hc] at h
    cases h
  push Not at hc
  obtain ⟨wp, wr, h1, h2, ft, hft, h3⟩ := C28_cartesian_imitate hs.reachable ops qgrad T Y hc.1 hc.2 afv
  obtain rfl : s' = _ := (Prod.mk.inj (h.symm.trans h1)).2
  obtain ⟨m1, m2⟩ := hs.made
  obtain ⟨ftp, hftp⟩ : ∃ ft', ForcingTerm.create 3 m (T (Fin.last (n + 1))) (T 0) (8 / 10) s.ftPos.alphaZ = .ok ft' := by
    rw [m2.same_alphaZ m1]
    exact ⟨_, hft⟩
  have h4 := C26_imitation_optimal hftp h2
  rw [h0, hl] at hft hftp
  refine ⟨fun U => ?_, fun U => ?_, rfl, rfl⟩
  · have h5 := (h4 U).1
    have h6 : ∀ (W : Fin 3 → Fin m → ℝ) (t : Fin (n + 2)), ({ ftp with weights := W } : ForcingTerm 3 m).call (T t) =
        (s.ftPos.withWeights W).call (T t) := fun W t => funext fun k => (m1.created_call hftp W W (fun _ => rfl) (T t)).symm
    simp only [h6] at h5
    exact h5
  · have h5 := (h3 U).1
    have h6 : ∀ (W : Fin 3 → Fin m → ℝ) (t : Fin (n + 2)), ({ ft with weights := W } : ForcingTerm 3 m).call (T t) =
        (s.ftRot.withWeights W).call (T t) := fun W t => funext fun k => (m2.created_call hft W W (fun _ => rfl) (T t)).symm
    simp only [h6] at h5
    exact h5

/-- **C96 (imitate, Cartesian).** A demonstration over the execution time with at least `2 ** m - 1` different time stamps
determines the learned weights of a Cartesian DMP, also without regularisation: all other weights of the position have a
larger error of the forces of the positions, all other weights of the orientation a larger error of the forces of the
orientations. -/
theorem C96_cartesian_imitate_unique {s s' : CartesianDMP m} (hs : TimedCartesian s) (ops : QuatOps)
    (qgrad : (Fin (n + 2) → Vec 4) → Fin (n + 2) → Vec 3) {T : Fin (n + 2) → ℝ} (hT : Function.Injective T)
    (hn : 2 ^ m - 1 ≤ n + 2) (Y : Fin (n + 2) → Vec (3 + 4)) {reg : ℝ} (h0 : T 0 = 0)
    (hl : T (Fin.last _) = s.executionTime) (afv : Bool)
    (h : (CartesianDMP.imitate ops qgrad T Y reg afv).exec s = (.ok (), s')) :
    let positionError := regularizedError (determineForces T (fun t => position (Y t)) (linear s.alphaY) (linear s.betaY)
      s.ftPos.alphaZ afv s.smooth) (fun W t => (s'.ftPos.withWeights W).call (T t)) reg
    let orientationError := regularizedError (determineForcesQuaternion ops qgrad T (fun t => orientation (Y t))
      (angular s.alphaY) (angular s.betaY) s.ftRot.alphaZ afv s.smooth) (fun W t => (s'.ftRot.withWeights W).call (T t)) reg
    (∀ V, V ≠ s'.ftPos.weights → positionError s'.ftPos.weights < positionError V) ∧
      ∀ V, V ≠ s'.ftRot.weights → orientationError s'.ftRot.weights < orientationError V := by
  have hc : ¬ (reg < 0 ∨ T (Fin.last _) ≤ T 0) := by
    intro hc
    rw [C28_cartesian_raises s ops qgrad T Y reg afv hc] at h
    cases h
  push Not at hc
  obtain ⟨h1, h2, h3, h4⟩ := C26_cartesian_imitate hs ops qgrad Y h0 hl afv h
  generalize s'.ftPos.weights = wp at h1 h3 ⊢
  generalize s'.ftRot.weights = wr at h2 h4 ⊢
  rw [h3, h4]
  exact ⟨fun V hV => ForcingTerm.Made.unique_of_optimal hs.made.1 hT hn hc.1 h1 hV,
    fun V hV => ForcingTerm.Made.unique_of_optimal hs.made.2 hT hn hc.1 h2 hV⟩

/-- **C26 (dual arm).** For a demonstration over the execution time: among all weights that `set_weights` could set, the ones
learned by a dual-arm DMP minimise the regularised squared error of the forces `F` that consist of the forces of the positions
and orientations of both arms. -/
theorem C26_dual_imitate {s s' : DualCartesianDMP m} (hs : TimedDual s) (ops : QuatOps)
    (qgrad : (Fin (n + 2) → Vec 4) → Fin (n + 2) → Vec 3) {T : Fin (n + 2) → ℝ} (Y : Fin (n + 2) → Vec 14) {reg : ℝ}
    (h0 : T 0 = 0) (hl : T (Fin.last _) = s.executionTime) (afv : Bool)
    (h : (DualCartesianDMP.imitate ops qgrad T Y reg afv).exec s = (.ok (), s')) (F : Fin (n + 2) → Vec 12)
    (hF : ∀ arm t, armLinear arm (F t) = determineForces T (fun t => armPosition arm (Y t)) (armLinear arm s.alphaY)
        (armLinear arm s.betaY) s.ft.alphaZ afv s.smooth t ∧
      armAngular arm (F t) = determineForcesQuaternion ops qgrad T (fun t => armOrientation arm (Y t)) (armAngular arm s.alphaY)
        (armAngular arm s.betaY) s.ft.alphaZ afv s.smooth t) :
    (∀ V, regularizedError F (fun W t => (s.ft.withWeights W).call (T t)) reg s'.ft.weights ≤
      regularizedError F (fun W t => (s.ft.withWeights W).call (T t)) reg V) ∧
    s'.ft = s.ft.withWeights s'.ft.weights := by
  have hc : ¬ (reg < 0 ∨ T (Fin.last _) ≤ T 0) := by
    intro hc
    rw [C28_dual_raises s ops qgrad T Y reg afv hc] at h
    cases h
  push Not at hc
  obtain ⟨w, h1, h2⟩ := C28_dual_imitate hs.reachable ops qgrad T Y hc.1 hc.2 afv
  obtain rfl : s' = _ := (Prod.mk.inj (h.symm.trans h1)).2
  have m1 := hs.made
  refine ⟨fun U => ?_, rfl⟩
  -- the error is the sum of the errors of positions and orientations of both arms
  have hsplit : ∀ g : Fin 12 → ℝ, ∑ k, g k = ∑ arm : Fin 2, (∑ k, armLinear arm g k + ∑ k, armAngular arm g k) := by
    intro g
    simp [armLinear, armAngular, Fin.sum_univ_succ]
    ring
  obtain ⟨ft, hft, -⟩ := (h2 0).2
  have hft' := hft
  rw [h0, hl] at hft'
  have key : ∀ U : Fin 12 → Fin m → ℝ, regularizedError F (fun W t => (s.ft.withWeights W).call (T t)) reg U =
      ∑ arm, (regularizedError (determineForces T (fun t => armPosition arm (Y t)) (armLinear arm s.alphaY)
          (armLinear arm s.betaY) s.ft.alphaZ afv s.smooth) (fun W t => (ft.withWeights W).call (T t)) reg (positionWeights arm U) +
        regularizedError (determineForcesQuaternion ops qgrad T (fun t => armOrientation arm (Y t)) (armAngular arm s.alphaY)
          (armAngular arm s.betaY) s.ft.alphaZ afv s.smooth) (fun W t => (ft.withWeights W).call (T t)) reg
            (orientationWeights arm U)) := by
    intro U
    have hlin : ∀ (arm : Fin 2) (t : Fin (n + 2)) (k : Fin 3), (ft.withWeights (positionWeights arm U)).call (T t) k =
        armLinear arm ((s.ft.withWeights U).call (T t)) k := by
      intro arm t k
      rw [armLinear_eq, armLin]
      refine (m1.created_call hft' _ _ (fun i => ?_) _).symm
      rw [positionWeights, armLinear_eq, armLin]
    have hang : ∀ (arm : Fin 2) (t : Fin (n + 2)) (k : Fin 3), (ft.withWeights (orientationWeights arm U)).call (T t) k =
        armAngular arm ((s.ft.withWeights U).call (T t)) k := by
      intro arm t k
      rw [armAngular_eq, armAng]
      refine (m1.created_call hft' _ _ (fun i => ?_) _).symm
      rw [orientationWeights, armAngular_eq, armAng]
    simp only [regularizedError, ← (hF _ _).1, ← (hF _ _).2, hlin, hang]
    simp only [hsplit, positionWeights, orientationWeights]
    simp only [armLinear_eq, armAngular_eq, armLin, armAng, Finset.sum_add_distrib, mul_add]
    rw [Finset.sum_comm (s := (Finset.univ : Finset (Fin (n + 2)))), Finset.sum_comm (s := (Finset.univ : Finset (Fin (n + 2))))]
    simp only [Finset.mul_sum]
    ring
  show regularizedError F (fun W t => (s.ft.withWeights W).call (T t)) reg w ≤
    regularizedError F (fun W t => (s.ft.withWeights W).call (T t)) reg U
  rw [key, key]
  refine Finset.sum_le_sum fun arm _ => add_le_add ?_ ?_
  · exact (C26_imitation_optimal hft (h2 arm).1 _).1
  · obtain ⟨ft2, hft2, h3⟩ := (h2 arm).2
    obtain rfl := Except.ok.inj (hft2.symm.trans hft)
    exact (h3 _).1

/-- **C96 (imitate, dual arm).** A demonstration over the execution time with at least `2 ** m - 1` different time stamps
determines the learned weights of a dual-arm DMP, also without regularisation: all other weights have a larger error of the
forces `F` that consist of the forces of the positions and orientations of both arms. -/
theorem C96_dual_imitate_unique {s s' : DualCartesianDMP m} (hs : TimedDual s) (ops : QuatOps)
    (qgrad : (Fin (n + 2) → Vec 4) → Fin (n + 2) → Vec 3) {T : Fin (n + 2) → ℝ} (hT : Function.Injective T)
    (hn : 2 ^ m - 1 ≤ n + 2) (Y : Fin (n + 2) → Vec 14) {reg : ℝ} (h0 : T 0 = 0)
    (hl : T (Fin.last _) = s.executionTime) (afv : Bool)
    (h : (DualCartesianDMP.imitate ops qgrad T Y reg afv).exec s = (.ok (), s')) (F : Fin (n + 2) → Vec 12)
    (hF : ∀ arm t, armLinear arm (F t) = determineForces T (fun t => armPosition arm (Y t)) (armLinear arm s.alphaY)
        (armLinear arm s.betaY) s.ft.alphaZ afv s.smooth t ∧
      armAngular arm (F t) = determineForcesQuaternion ops qgrad T (fun t => armOrientation arm (Y t)) (armAngular arm s.alphaY)
        (armAngular arm s.betaY) s.ft.alphaZ afv s.smooth t) (V : Fin 12 → Fin m → ℝ) (hV : V ≠ s'.ft.weights) :
    let error := regularizedError F (fun W t => (s'.ft.withWeights W).call (T t)) reg
    error s'.ft.weights < error V := by
  have hc : ¬ (reg < 0 ∨ T (Fin.last _) ≤ T 0) := by
    intro hc
    rw [C28_dual_raises s ops qgrad T Y reg afv hc] at h
    cases h
  push Not at hc
  obtain ⟨h1, h2⟩ := C26_dual_imitate hs ops qgrad Y h0 hl afv h F hF
  generalize s'.ft.weights = w at h1 h2 hV ⊢
  rw [h2]
  exact ForcingTerm.Made.unique_of_optimal hs.made hT hn hc.1 h1 hV

/-- The hypotheses can be met: a new dual-arm DMP with two weights per dimension, a demonstration with three time stamps, and
the forces of this demonstration. -/
example (ops : QuatOps) (Y : Fin (1 + 2) → Vec 14) : ∃ s : DualCartesianDMP 2, TimedDual s ∧ ∃ T : Fin (1 + 2) → ℝ,
    Function.Injective T ∧ 2 ^ 2 - 1 ≤ 1 + 2 ∧ T 0 = 0 ∧ T (Fin.last _) = s.executionTime ∧
    (∃ s', (DualCartesianDMP.imitate ops (quaternionGradient ops) T Y 0 false).exec s = (.ok (), s')) ∧
    ∃ F : Fin (1 + 2) → Vec 12, ∀ arm t, armLinear arm (F t) = determineForces T (fun t => armPosition arm (Y t))
        (armLinear arm s.alphaY) (armLinear arm s.betaY) s.ft.alphaZ false s.smooth t ∧
      armAngular arm (F t) = determineForcesQuaternion ops (quaternionGradient ops) T (fun t => armOrientation arm (Y t))
        (armAngular arm s.alphaY) (armAngular arm s.betaY) s.ft.alphaZ false s.smooth t := by
  obtain ⟨s, hs, h1⟩ := DualCartesianDMP.create_ok 2 (by norm_num) (τ := 1) (by norm_num) (1 / 100) (1 / 1000) 0 true 25 (25 / 4)
  have hτ : s.executionTime = 1 := h1.2.1
  obtain ⟨w, hw, -⟩ := C28_dual_imitate (.create hs) ops (quaternionGradient ops) (fun i : Fin (1 + 2) => (i.val : ℝ) / 2) Y
    (reg := 0) le_rfl (by norm_num) false
  refine ⟨s, .create hs, fun i => (i.val : ℝ) / 2, ?_, by norm_num, by norm_num, by rw [hτ]; norm_num, ⟨_, hw⟩, ?_⟩
  · intro i j hij
    simp only at hij
    exact Fin.ext (by exact_mod_cast (div_left_inj' (two_ne_zero (α := ℝ))).1 hij)
  · let P := fun arm => determineForces (fun i : Fin (1 + 2) => (i.val : ℝ) / 2) (fun t => armPosition arm (Y t))
        (armLinear arm s.alphaY) (armLinear arm s.betaY) s.ft.alphaZ false s.smooth
    let R := fun arm => determineForcesQuaternion ops (quaternionGradient ops) (fun i : Fin (1 + 2) => (i.val : ℝ) / 2)
        (fun t => armOrientation arm (Y t)) (armAngular arm s.alphaY) (armAngular arm s.betaY) s.ft.alphaZ false s.smooth
    refine ⟨fun t => ![P 0 t 0, P 0 t 1, P 0 t 2, R 0 t 0, R 0 t 1, R 0 t 2, P 1 t 0, P 1 t 1, P 1 t 2, R 1 t 0, R 1 t 1,
      R 1 t 2], fun arm t => ⟨?_, ?_⟩⟩
    · funext k
      fin_cases arm <;> fin_cases k <;> rfl
    · funext k
      fin_cases arm <;> fin_cases k <;> rfl

end Verif
