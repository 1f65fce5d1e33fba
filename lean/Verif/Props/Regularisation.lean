import Verif.Spec.Regularisation
import Verif.Props.FvReproduction
import Verif.Props.IdentifiableImitate

/-! # What regularisation coefficients do (C120), C97 with regularisation -/

namespace Verif
open Spec Matrix

variable {d m n w : ℕ}

theorem tradeoff {e e' q q' l l' : ℝ} (hl : 0 ≤ l) (h : l < l') (h1 : e + l * q ≤ e' + l * q') (h2 : e' + l' * q' ≤ e + l' * q) :
    q' ≤ q ∧ e ≤ e' := by
  have h3 : (l' - l) * q' ≤ (l' - l) * q := by linarith
  have h4 : q' ≤ q := le_of_mul_le_mul_left h3 (sub_pos.2 h)
  exact ⟨h4, by nlinarith⟩

/-! ## Larger coefficients -/

/-- **C120 (DMP).** A larger regularisation coefficient never leads to larger weights and never to a better approximation of the
demonstrated forces: `s'` and `s''` are the objects after the same demonstration was imitated with `reg` and with `reg'`. -/
theorem C120_dmp {s s' s'' : DMP d m} (hs : s.Reachable) {T : Fin (n + 2) → ℝ} {Y : Fin (n + 2) → Vec d}
    {reg reg' : ℝ} (hreg : 0 ≤ reg) (hle : reg ≤ reg') (h0 : T 0 = 0) (hT : T (Fin.last _) = s.executionTime) {afv : Bool}
    (h : (DMP.imitate T Y reg afv).exec s = (.ok (), s')) (h' : (DMP.imitate T Y reg' afv).exec s = (.ok (), s'')) :
    squaredWeights s''.ft.weights ≤ squaredWeights s'.ft.weights ∧
      squaredError (determineForces T Y s.alphaY s.betaY s.ft.alphaZ afv s.smooth) (fun t => s'.ft.call (T t)) ≤
        squaredError (determineForces T Y s.alphaY s.betaY s.ft.alphaZ afv s.smooth) (fun t => s''.ft.call (T t)) := by
  rcases hle.eq_or_lt with rfl | hlt
  · rw [h] at h'
    injection h' with _ h'
    subst h'
    exact ⟨le_rfl, le_rfl⟩
  have hpos : T 0 < T (Fin.last _) := by
    obtain ⟨ft, h1, -⟩ := hs.valid
    rw [DMP.initForcingTerm_ok_iff] at h1
    rw [h0, hT]
    exact (create_ok h1).2.1
  obtain ⟨w, hw⟩ := C28_imitate_configures hs T Y hreg hpos afv
  obtain ⟨w', hw'⟩ := C28_imitate_configures hs T Y (hreg.trans hle) hpos afv
  have h1 := C26_dmp_imitate hs T Y h0 hT afv h
  have h2 := C26_dmp_imitate hs T Y h0 hT afv h'
  rw [h] at hw
  rw [h'] at hw'
  injection hw with _ hw
  injection hw' with _ hw'
  have e1 : s'.ft = { s.ft with weights := w } := by rw [hw]
  have e2 : s''.ft = { s.ft with weights := w' } := by rw [hw']
  rw [e1] at h1 ⊢
  rw [e2] at h2 ⊢
  exact tradeoff hreg hlt (h1 w').1 (h2 w).1

/-- **C120 (DMP with final velocity).** -/
theorem C120_fv {s s' s'' : FvDMP d m} (hs : FvDMP.Reachable s) {T : Fin (n + 2) → ℝ} {Y : Fin (n + 2) → Vec d}
    {reg reg' : ℝ} (hreg : 0 ≤ reg) (hle : reg ≤ reg') (h0 : T 0 = 0) (hT : T (Fin.last _) = s.executionTime)
    (h : (FvDMP.imitate T Y reg).exec s = (.ok (), s')) (h' : (FvDMP.imitate T Y reg').exec s = (.ok (), s''))
    {F : Fin (n + 2) → Vec d} (hF : fvDetermineForces T Y s.alphaY s.betaY = .ok F) :
    squaredWeights s''.ft.weights ≤ squaredWeights s'.ft.weights ∧
      squaredError F (fun t => s'.ft.call (T t)) ≤ squaredError F (fun t => s''.ft.call (T t)) := by
  rcases hle.eq_or_lt with rfl | hlt
  · rw [h] at h'
    injection h' with _ h'
    subst h'
    exact ⟨le_rfl, le_rfl⟩
  have hft : ∀ {r : ℝ} {s' : FvDMP d m}, (FvDMP.imitate T Y r).exec s = (.ok (), s') →
      s'.ft = { s.ft with weights := s'.ft.weights } := by
    intro r s' h
    rw [FvDMP.exec_imitate] at h
    cases hi : dmpImitateWith m T r s.ft.overlap s.ft.alphaZ (fvDetermineForces T Y s.alphaY s.betaY) with
    | error e => rw [hi] at h; cases h
    | ok w =>
      rw [hi] at h
      simp only at h
      rw [DMP.exec_configure, C25_configure_sets _ _ (by simp [AllOk, FieldOk])] at h
      injection h with _ h
      rw [← h]
  obtain ⟨F1, s1, hF1, hs1, h1⟩ := C26_fv_imitate hs T Y hreg h0 hT
  obtain ⟨F2, s2, hF2, hs2, h2⟩ := C26_fv_imitate hs T Y (hreg.trans hle) h0 hT
  rw [hF] at hF1 hF2
  rw [h] at hs1
  rw [h'] at hs2
  cases hF1
  cases hF2
  injection hs1 with _ hs1
  injection hs2 with _ hs2
  subst hs1
  subst hs2
  have e1 := hft h
  have e2 := hft h'
  generalize s'.ft.weights = W at e1 h1
  generalize s''.ft.weights = W' at e2 h2
  rw [e1] at h1 ⊢
  rw [e2] at h2 ⊢
  exact tradeoff hreg hlt (h1 W').1 (h2 W).1

/-- The hypotheses of `C120_dmp` and `C120_fv` can be met. -/
example : ∃ s : DMP 1 2, s.Reachable ∧ ∃ T : Fin 3 → ℝ, T 0 = 0 ∧ T (Fin.last _) = s.executionTime ∧
    ∃ s' s'', (DMP.imitate (n := 1) T (fun i _ => (i.val : ℝ) ^ 2) 0 false).exec s = (.ok (), s') ∧
      (DMP.imitate (n := 1) T (fun i _ => (i.val : ℝ) ^ 2) 1 false).exec s = (.ok (), s'') := by
  obtain ⟨s, hs, h1, _⟩ := DMP.create_ok 1 2 le_rfl one_pos (1 / 100) (1 / 1000) 0 false 25 (25 / 4)
  have key := fun (r : ℝ) (hr : 0 ≤ r) => C28_imitate_configures (n := 1) (.create hs) (fun i => (i.val : ℝ) / 2)
    (fun i _ => (i.val : ℝ) ^ 2) hr (by norm_num) false
  obtain ⟨w, hw⟩ := key 0 le_rfl
  obtain ⟨w', hw'⟩ := key 1 one_pos.le
  exact ⟨s, .create hs, fun i => (i.val : ℝ) / 2, by norm_num, by rw [h1]; norm_num, _, _, hw, hw'⟩

example : ∃ s : FvDMP 1 2, FvDMP.Reachable s ∧ ∃ T : Fin 4 → ℝ, T 0 = 0 ∧ T (Fin.last _) = s.executionTime ∧
    ∃ F s' s'', fvDetermineForces (n := 2) T (fun i _ => (i.val : ℝ) ^ 2) s.alphaY s.betaY = .ok F ∧
      (FvDMP.imitate (n := 2) T (fun i _ => (i.val : ℝ) ^ 2) 0).exec s = (.ok (), s') ∧
      (FvDMP.imitate (n := 2) T (fun i _ => (i.val : ℝ) ^ 2) 1).exec s = (.ok (), s'') := by
  obtain ⟨s, hs, h1, _⟩ := DMP.create_ok 1 2 le_rfl one_pos (1 / 100) (1 / 1000) 0 false 25 (25 / 4)
  have key := fun (r : ℝ) (hr : 0 ≤ r) => C26_fv_imitate (s := s) (.create hs) (fun i : Fin (2 + 2) => (i.val : ℝ) / 3)
    (fun i _ => (i.val : ℝ) ^ 2) hr (by norm_num) (by rw [h1]; norm_num)
  obtain ⟨F, s', hF, hs', -⟩ := key 0 le_rfl
  obtain ⟨-, s'', -, hs'', -⟩ := key 1 one_pos.le
  exact ⟨s, .create hs, fun i => (i.val : ℝ) / 3, by norm_num, by rw [h1]; norm_num, F, s', s'', hF, hs', hs''⟩

/-- **C120 (Cartesian).** -/
theorem C120_cartesian {s s' s'' : CartesianDMP m} (hs : TimedCartesian s) {ops : QuatOps}
    {qgrad : (Fin (n + 2) → Vec 4) → Fin (n + 2) → Vec 3} {T : Fin (n + 2) → ℝ} {Y : Fin (n + 2) → Vec (3 + 4)}
    {reg reg' : ℝ} (hreg : 0 ≤ reg) (hle : reg ≤ reg') (h0 : T 0 = 0) (hT : T (Fin.last _) = s.executionTime) {afv : Bool}
    (h : (CartesianDMP.imitate ops qgrad T Y reg afv).exec s = (.ok (), s'))
    (h' : (CartesianDMP.imitate ops qgrad T Y reg' afv).exec s = (.ok (), s'')) :
    (squaredWeights s''.ftPos.weights ≤ squaredWeights s'.ftPos.weights ∧
      squaredError (determineForces T (fun t => position (Y t)) (linear s.alphaY) (linear s.betaY) s.ftPos.alphaZ afv s.smooth)
          (fun t => s'.ftPos.call (T t)) ≤
        squaredError (determineForces T (fun t => position (Y t)) (linear s.alphaY) (linear s.betaY) s.ftPos.alphaZ afv s.smooth)
          (fun t => s''.ftPos.call (T t))) ∧
    squaredWeights s''.ftRot.weights ≤ squaredWeights s'.ftRot.weights ∧
      squaredError (determineForcesQuaternion ops qgrad T (fun t => orientation (Y t)) (angular s.alphaY) (angular s.betaY)
          s.ftRot.alphaZ afv s.smooth) (fun t => s'.ftRot.call (T t)) ≤
        squaredError (determineForcesQuaternion ops qgrad T (fun t => orientation (Y t)) (angular s.alphaY) (angular s.betaY)
          s.ftRot.alphaZ afv s.smooth) (fun t => s''.ftRot.call (T t)) := by
  rcases hle.eq_or_lt with rfl | hlt
  · rw [h] at h'
    injection h' with _ h'
    subst h'
    exact ⟨⟨le_rfl, le_rfl⟩, le_rfl, le_rfl⟩
  obtain ⟨a1, a2, a3, a4⟩ := C26_cartesian_imitate hs ops qgrad Y h0 hT afv h
  obtain ⟨b1, b2, b3, b4⟩ := C26_cartesian_imitate hs ops qgrad Y h0 hT afv h'
  generalize s'.ftPos.weights = W at *
  generalize s'.ftRot.weights = R at *
  generalize s''.ftPos.weights = W' at *
  generalize s''.ftRot.weights = R' at *
  rw [a3, a4, b3, b4]
  exact ⟨tradeoff hreg hlt (a1 W') (b1 W), tradeoff hreg hlt (a2 R') (b2 R)⟩

/-- **C120 (dual arm).** `F` are the forces of positions and orientations of both arms. -/
theorem C120_dual {s s' s'' : DualCartesianDMP m} (hs : TimedDual s) {ops : QuatOps}
    {qgrad : (Fin (n + 2) → Vec 4) → Fin (n + 2) → Vec 3} {T : Fin (n + 2) → ℝ} {Y : Fin (n + 2) → Vec 14}
    {reg reg' : ℝ} (hreg : 0 ≤ reg) (hle : reg ≤ reg') (h0 : T 0 = 0) (hT : T (Fin.last _) = s.executionTime) {afv : Bool}
    (h : (DualCartesianDMP.imitate ops qgrad T Y reg afv).exec s = (.ok (), s'))
    (h' : (DualCartesianDMP.imitate ops qgrad T Y reg' afv).exec s = (.ok (), s'')) {F : Fin (n + 2) → Vec 12}
    (hF : ∀ arm t, armLinear arm (F t) = determineForces T (fun t => armPosition arm (Y t)) (armLinear arm s.alphaY)
        (armLinear arm s.betaY) s.ft.alphaZ afv s.smooth t ∧
      armAngular arm (F t) = determineForcesQuaternion ops qgrad T (fun t => armOrientation arm (Y t)) (armAngular arm s.alphaY)
        (armAngular arm s.betaY) s.ft.alphaZ afv s.smooth t) :
    squaredWeights s''.ft.weights ≤ squaredWeights s'.ft.weights ∧
      squaredError F (fun t => s'.ft.call (T t)) ≤ squaredError F (fun t => s''.ft.call (T t)) := by
  rcases hle.eq_or_lt with rfl | hlt
  · rw [h] at h'
    injection h' with _ h'
    subst h'
    exact ⟨le_rfl, le_rfl⟩
  obtain ⟨a1, a2⟩ := C26_dual_imitate hs ops qgrad Y h0 hT afv h F hF
  obtain ⟨b1, b2⟩ := C26_dual_imitate hs ops qgrad Y h0 hT afv h' F hF
  generalize s'.ft.weights = W at *
  generalize s''.ft.weights = W' at *
  rw [a2, b2]
  exact tradeoff hreg hlt (a1 W') (b1 W)

/-- The hypotheses of `C120_cartesian` can be met (those of `C120_dual`: see `C96_dual_imitate_unique`). -/
example (ops : QuatOps) (qgrad : (Fin (1 + 2) → Vec 4) → Fin (1 + 2) → Vec 3) (Y : Fin (1 + 2) → Vec (3 + 4)) :
    ∃ s : CartesianDMP 4, TimedCartesian s ∧ ∃ T : Fin (1 + 2) → ℝ, T 0 = 0 ∧ T (Fin.last _) = s.executionTime ∧
      ∃ s' s'', (CartesianDMP.imitate ops qgrad T Y 0 false).exec s = (.ok (), s') ∧
        (CartesianDMP.imitate ops qgrad T Y 1 false).exec s = (.ok (), s'') := by
  obtain ⟨s, hs, h1⟩ := CartesianDMP.create_ok 4 (by norm_num) (τ := 1) (by norm_num) (1 / 100) (1 / 1000) true 25 (25 / 4)
  have hτ : s.executionTime = 1 := h1.2.1
  have key := fun (r : ℝ) (hr : 0 ≤ r) => C28_cartesian_imitate (.create hs) ops qgrad (fun i : Fin (1 + 2) => (i.val : ℝ) / 2) Y
    hr (by norm_num) false
  obtain ⟨wp, wr, h2, -⟩ := key 0 le_rfl
  obtain ⟨wp', wr', h3, -⟩ := key 1 one_pos.le
  exact ⟨s, .create hs, fun i => (i.val : ℝ) / 2, by norm_num, by rw [hτ]; norm_num, _, _, h2, h3⟩

/-- **C120 (ProMP).** A larger regularisation coefficient never leads to larger weights and never to a trajectory that is closer to
the demonstration `Y`. -/
theorem C120_promp {p : ProMP d w} (hp : Spec.Reachable p) {T : Vec n} {t : ℝ} (ht : IsLargest T t) (h0 : t ≠ 0)
    (Y : Matrix (Fin n) (Fin d) ℝ) {lmbda lmbda' : ℝ} (hl : 0 ≤ lmbda) (hle : lmbda ≤ lmbda') :
    ∃ W W' X X', ((p.weights Y lmbda).exec (.float T)).1 = .ok W ∧ ((p.weights Y lmbda').exec (.float T)).1 = .ok W' ∧
      ((p.trajectoryFromWeights W).exec (.float T)).1 = .ok X ∧ ((p.trajectoryFromWeights W').exec (.float T)).1 = .ok X' ∧
      ∑ x, W' x ^ 2 ≤ ∑ x, W x ^ 2 ∧ squaredError Y X ≤ squaredError Y X' := by
  obtain ⟨W, T1, h1, h2⟩ := C65_weights_optimal hp T ht h0 Y hl
  obtain ⟨W', T2, h3, h4⟩ := C65_weights_optimal hp T ht h0 Y (hl.trans hle)
  refine ⟨W, W', _, _, by rw [h1], by rw [h3], by rw [ProMP.exec_trajectoryFromWeights hp.centers ht],
    by rw [ProMP.exec_trajectoryFromWeights hp.centers ht], ?_⟩
  rcases hle.eq_or_lt with rfl | hlt
  · rw [h1] at h3
    injection h3 with h3 _
    injection h3 with h3
    subst h3
    exact ⟨le_rfl, le_rfl⟩
  · exact tradeoff hl hlt (h2 W') (h4 W)

/-! ## Without regularisation -/

/-- The pseudo inverse gives the smallest solution of a least squares problem. -/
theorem pinv_smallest {N M : ℕ} (X : Matrix (Fin M) (Fin N) ℝ) (y : Fin N → ℝ) (V : Fin M → ℝ)
    (hV : (y - Xᵀ *ᵥ V) ⬝ᵥ (y - Xᵀ *ᵥ V) ≤
      (y - Xᵀ *ᵥ ((pinv (X * Xᵀ + (0 : ℝ) • 1) * X) *ᵥ y)) ⬝ᵥ (y - Xᵀ *ᵥ ((pinv (X * Xᵀ + (0 : ℝ) • 1) * X) *ᵥ y)))
    (hne : V ≠ (pinv (X * Xᵀ + (0 : ℝ) • 1) * X) *ᵥ y) :
    ((pinv (X * Xᵀ + (0 : ℝ) • 1) * X) *ᵥ y) ⬝ᵥ ((pinv (X * Xᵀ + (0 : ℝ) • 1) * X) *ᵥ y) < V ⬝ᵥ V := by
  set A := X * Xᵀ + (0 : ℝ) • (1 : Matrix (Fin M) (Fin M) ℝ) with hA
  set W := (pinv A * X) *ᵥ y with hW
  have hp : IsPinv A (pinv A) := isPinv_pinv (ridge_symm X 0)
  have hnorm : A *ᵥ W = X *ᵥ y := by
    rw [hW, mulVec_mulVec, ← Matrix.mul_assoc, ridge_proj X le_rfl]
  have h1 := ridge_expand X y 0 W V hnorm
  simp only [zero_mul, add_zero] at h1
  have h2 : (Xᵀ *ᵥ (V - W)) ⬝ᵥ (Xᵀ *ᵥ (V - W)) = 0 :=
    le_antisymm (by linarith) (dotProduct_self_nonneg' _)
  have h3 : Xᵀ *ᵥ (V - W) = 0 := dotProduct_self_eq_zero.1 h2
  have h4 : A *ᵥ (V - W) = 0 := by
    rw [hA, zero_smul, add_zero, ← mulVec_mulVec, h3, mulVec_zero]
  have h5 : (pinv A * A) *ᵥ W = W := by
    rw [hW, mulVec_mulVec, ← Matrix.mul_assoc, hp.bab]
  have h6 : W ⬝ᵥ (V - W) = 0 := by
    calc W ⬝ᵥ (V - W) = ((pinv A * A) *ᵥ W) ⬝ᵥ (V - W) := by rw [h5]
      _ = W ⬝ᵥ ((pinv A * A) *ᵥ (V - W)) := by
        rw [dotProduct_mulVec, ← mulVec_transpose, hp.symm_ba]
      _ = 0 := by rw [← mulVec_mulVec, h4, mulVec_zero, dotProduct_zero]
  have h7 : V ⬝ᵥ V = W ⬝ᵥ W + (V - W) ⬝ᵥ (V - W) := by
    have : V = W + (V - W) := by abel
    conv_lhs => rw [this]
    rw [add_dotProduct, dotProduct_add, dotProduct_add, h6, dotProduct_comm (V - W) W, h6]
    ring
  have h8 : 0 < (V - W) ⬝ᵥ (V - W) := lt_of_le_of_ne (dotProduct_self_nonneg' _) fun h => hne (sub_eq_zero.1
    (dotProduct_self_eq_zero.1 h.symm))
  rw [h7]
  linarith

theorem promp_fit (W : Vec (d * w)) (T : Vec n) (t : ℝ) (Y : Matrix (Fin n) (Fin d) ℝ) :
    (ravel2 Yᵀ - (ndBlockDiagonal (Matrix.of fun a i => Spec.activation w (T i / t) a) d)ᵀ *ᵥ W) ⬝ᵥ
        (ravel2 Yᵀ - (ndBlockDiagonal (Matrix.of fun a i => Spec.activation w (T i / t) a) d)ᵀ *ᵥ W) =
      ∑ i, ∑ k, (Y i k - Spec.prompPosition W (T i / t) k) ^ 2 := by
  rw [dotProduct, sum_flat, Finset.sum_comm]
  refine Finset.sum_congr rfl fun i _ => Finset.sum_congr rfl fun k _ => ?_
  have h1 : (ravel2 Yᵀ) (finProdFinEquiv (k, i)) = Y i k := by
    have h : (finProdFinEquiv.symm (finProdFinEquiv (k, i))) = (k, i) := Equiv.symm_apply_apply _ _
    have h1 : (finProdFinEquiv (k, i)).divNat = k := congrArg Prod.fst h
    have h2 : (finProdFinEquiv (k, i)).modNat = i := congrArg Prod.snd h
    unfold ravel2
    rw [h1, h2, transpose_apply]
  rw [Pi.sub_apply, h1, ndBlockDiagonal_transpose_mulVec, sq]
  rfl

/-- **C120 (ProMP, no regularisation).** Without regularisation the smallest ones of all weights that approximate the demonstration
as well as possible are returned (all others are larger), also if there are more weights than samples. -/
theorem C120_promp_smallest {p : ProMP d w} (hp : Spec.Reachable p) {T : Vec n} {t : ℝ} (ht : IsLargest T t) (h0 : t ≠ 0)
    (Y : Matrix (Fin n) (Fin d) ℝ) :
    ∃ W X, ((p.weights Y 0).exec (.float T)).1 = .ok W ∧ ((p.trajectoryFromWeights W).exec (.float T)).1 = .ok X ∧
      ∀ V X', ((p.trajectoryFromWeights V).exec (.float T)).1 = .ok X' →
        squaredError Y X ≤ squaredError Y X' ∧ (squaredError Y X' ≤ squaredError Y X → V ≠ W → ∑ x, W x ^ 2 < ∑ x, V x ^ 2) := by
  set Phi := ndBlockDiagonal (Matrix.of fun a i => Spec.activation w (T i / t) a) d with hPhi
  have hexec : ((p.weights Y 0).exec (.float T)).1 = .ok ((pinv (Phi * Phiᵀ + (0 : ℝ) • 1) * Phi) *ᵥ ravel2 Yᵀ) := by
    unfold ProMP.weights
    rw [Py.exec_bind, ProMP.exec_rbfsNdSequence hp.centers ht]
    simp only [Py.exec_pure, transpose_transpose]
    rfl
  obtain ⟨W, T', h1, h2⟩ := C65_weights_optimal hp T ht h0 Y le_rfl
  rw [h1] at hexec
  injection hexec with hexec
  refine ⟨W, _, by rw [h1], by rw [ProMP.exec_trajectoryFromWeights hp.centers ht], fun V X' hX' => ?_⟩
  rw [ProMP.exec_trajectoryFromWeights hp.centers ht] at hX'
  injection hX' with hX'
  subst hX'
  have h3 := h2 V
  simp only [zero_mul, add_zero] at h3
  refine ⟨h3, fun hV hne => ?_⟩
  have hsq : ∀ U : Vec (d * w), U ⬝ᵥ U = ∑ x, U x ^ 2 := fun U => Finset.sum_congr rfl fun x _ => (sq (U x)).symm
  rw [← hsq, ← hsq, hexec]
  refine pinv_smallest _ _ _ ?_ (by rw [← hexec]; exact hne)
  rw [← hexec, hPhi, promp_fit, promp_fit]
  exact hV

/-- Ridge regression without regularisation: the smallest weights. -/
theorem ridge_smallest (X : Fin m → Fin n → ℝ) (F : Fin n → Vec d) {W : Fin d → Fin m → ℝ}
    (hW : W = ridgeRegression (Matrix.of X) (Matrix.of F) 0) (V : Fin d → Fin m → ℝ)
    (hV : regularizedError F (fun W t k => ∑ i, W k i * X i t) 0 V ≤
      regularizedError F (fun W t k => ∑ i, W k i * X i t) 0 W) (hne : V ≠ W) : squaredWeights W < squaredWeights V := by
  have hWk : ∀ k, W k = (pinv (Matrix.of X * (Matrix.of X)ᵀ + (0 : ℝ) • 1) * Matrix.of X) *ᵥ (fun t => F t k) := by
    intro k
    rw [hW]
    funext i
    rfl
  rw [Spec.regularizedError_matrix, Spec.regularizedError_matrix] at hV
  simp only [zero_mul, add_zero] at hV
  have hn : ∀ k, (Matrix.of X * (Matrix.of X)ᵀ + (0 : ℝ) • (1 : Matrix (Fin m) (Fin m) ℝ)) *ᵥ (W k) =
      Matrix.of X *ᵥ (fun t => F t k) := by
    intro k
    rw [hWk, mulVec_mulVec, ← Matrix.mul_assoc, ridge_proj _ le_rfl]
  have hle : ∀ k, ((fun t => F t k) - (Matrix.of X)ᵀ *ᵥ W k) ⬝ᵥ ((fun t => F t k) - (Matrix.of X)ᵀ *ᵥ W k) ≤
      ((fun t => F t k) - (Matrix.of X)ᵀ *ᵥ V k) ⬝ᵥ ((fun t => F t k) - (Matrix.of X)ᵀ *ᵥ V k) := by
    intro k
    have h1 := ridge_expand (Matrix.of X) (fun t => F t k) 0 _ (V k) (hn k)
    simp only [zero_mul, add_zero] at h1
    rw [h1]
    linarith [dotProduct_self_nonneg' ((Matrix.of X)ᵀ *ᵥ (V k - W k))]
  have heq := (Finset.sum_eq_sum_iff_of_le fun k _ => hle k).1
    (le_antisymm (Finset.sum_le_sum fun k _ => hle k) hV)
  have hsq : ∀ U : Fin d → Fin m → ℝ, squaredWeights U = ∑ k, U k ⬝ᵥ U k := fun U =>
    Finset.sum_congr rfl fun k _ => Finset.sum_congr rfl fun x _ => sq _
  rw [hsq, hsq]
  have hlt : ∀ k, V k ≠ W k → W k ⬝ᵥ W k < V k ⬝ᵥ V k := by
    intro k hk
    have h2 := (heq k (Finset.mem_univ k)).ge
    rw [hWk] at h2 hk ⊢
    exact pinv_smallest _ _ _ h2 hk
  obtain ⟨k, hk⟩ := Function.ne_iff.1 hne
  refine Finset.sum_lt_sum (fun k _ => ?_) ⟨k, Finset.mem_univ k, hlt k hk⟩
  by_cases hk : V k = W k
  · rw [hk]
  · exact (hlt k hk).le

/-- **C120 (DMP, no regularisation).** Without regularisation (the default) `imitate` finds the smallest ones of all weights with
which the forcing term approximates the demonstrated forces as well as possible, also if there are more weights than samples. -/
theorem C120_dmp_smallest {s s' : DMP d m} (hs : s.Reachable) {T : Fin (n + 2) → ℝ} {Y : Fin (n + 2) → Vec d}
    (h0 : T 0 = 0) (hT : T (Fin.last _) = s.executionTime) {afv : Bool}
    (h : (DMP.imitate T Y 0 afv).exec s = (.ok (), s')) (V : Fin d → Fin m → ℝ) :
    squaredError (determineForces T Y s.alphaY s.betaY s.ft.alphaZ afv s.smooth) (fun t => s'.ft.call (T t)) ≤
      squaredError (determineForces T Y s.alphaY s.betaY s.ft.alphaZ afv s.smooth)
        (fun t => (s'.ft.withWeights V).call (T t)) ∧
    (squaredError (determineForces T Y s.alphaY s.betaY s.ft.alphaZ afv s.smooth) (fun t => (s'.ft.withWeights V).call (T t)) ≤
      squaredError (determineForces T Y s.alphaY s.betaY s.ft.alphaZ afv s.smooth) (fun t => s'.ft.call (T t)) →
      V ≠ s'.ft.weights → squaredWeights s'.ft.weights < squaredWeights V) := by
  have hz : ∀ (F : Fin (n + 2) → Vec d) (f : (Fin d → Fin m → ℝ) → Fin (n + 2) → Vec d) U,
      regularizedError F f 0 U = squaredError F (f U) := by
    intro F f U
    simp only [regularizedError, squaredError, zero_mul, add_zero]
  have hopt := (C26_dmp_imitate hs T Y h0 hT afv h V).1
  rw [hz, hz] at hopt
  refine ⟨hopt, fun hV hne => ?_⟩
  obtain ⟨ft, h1, h2⟩ := hs.valid
  rw [DMP.initForcingTerm_ok_iff] at h1
  obtain ⟨e1, e2, e3, e4, hm, _, hov, _⟩ := create_eq h1
  have hc : ForcingTerm.create d m (T (Fin.last (n + 1))) (T 0) s.ft.overlap s.ft.alphaZ = .ok ft := by
    rw [h2, h0, hT, e3, e4]; exact h1
  rw [DMP.exec_imitate] at h
  unfold dmpImitate at h
  rw [dmpImitateWith_eq hc le_rfl] at h
  simp only [bind, Except.bind, Pure.pure, Except.pure] at h
  rw [DMP.exec_configure] at h
  injection h with _ h
  have hW : s'.ft.weights = ridgeRegression (Matrix.of (ft.designMatrix T))
      (Matrix.of (determineForces T Y s.alphaY s.betaY s.ft.alphaZ afv s.smooth)) 0 := by
    rw [← h]
  have hft : ∀ W : Fin d → Fin m → ℝ, s'.ft.withWeights W = { ft with weights := W } := by
    intro W
    rw [← h]
    show ({ s.ft with weights := W } : ForcingTerm d m) = _
    rw [h2]
  have hcall : ∀ W t, (s'.ft.withWeights W).call (T t) = fun k => ∑ i, W k i * ft.designMatrix T i t := by
    intro W t
    rw [hft]
    funext k
    exact (designMatrix_force ft T (by rw [e2, h0]) (by rw [e1, hT]) W t k).symm
  refine ridge_smallest (ft.designMatrix T) _ hW V ?_ hne
  rw [hz, hz]
  have h3 : s'.ft = s'.ft.withWeights s'.ft.weights := rfl
  have h4 : (fun t => s'.ft.call (T t)) = fun t k => ∑ i, s'.ft.weights k i * ft.designMatrix T i t := by
    funext t
    rw [← hcall]
    rfl
  rw [h4] at hV
  simpa only [hcall] using hV

/-- Without regularisation the learned weights are the smallest ones, for a forcing term made for the demonstration. -/
theorem dmpImitateWith_smallest {T : Fin (n + 2) → ℝ} {overlap alphaZ : ℝ} {ft : ForcingTerm d m} {F : Fin (n + 2) → Vec d}
    (hft : ForcingTerm.create d m (T (Fin.last (n + 1))) (T 0) overlap alphaZ = .ok ft) {W : Fin d → Fin m → ℝ}
    (hW : W = ridgeRegression (Matrix.of (ft.designMatrix T)) (Matrix.of F) 0) (V : Fin d → Fin m → ℝ)
    (hV : squaredError F (fun t => (ft.withWeights V).call (T t)) ≤ squaredError F (fun t => (ft.withWeights W).call (T t)))
    (hne : V ≠ W) : squaredWeights W < squaredWeights V := by
  obtain ⟨hg, hst, _⟩ := create_eq hft
  have hcall : ∀ U : Fin d → Fin m → ℝ, (fun t => (ft.withWeights U).call (T t)) =
      fun t k => ∑ i, U k i * ft.designMatrix T i t := by
    intro U
    funext t k
    exact (designMatrix_force ft T hst hg U t k).symm
  refine ridge_smallest (ft.designMatrix T) F hW V ?_ hne
  rw [hcall, hcall] at hV
  simpa only [regularizedError, squaredError, zero_mul, add_zero] using hV

theorem regularizedError_zero (F : Fin n → Vec d) (f : (Fin d → Fin m → ℝ) → Fin n → Vec d) (U : Fin d → Fin m → ℝ) :
    regularizedError F f 0 U = squaredError F (f U) := by
  simp only [regularizedError, squaredError, zero_mul, add_zero]

/-- **C120 (DMP with final velocity, no regularisation).** -/
theorem C120_fv_smallest {s s' : FvDMP d m} (hs : FvDMP.Reachable s) {T : Fin (n + 2) → ℝ} {Y : Fin (n + 2) → Vec d}
    (h0 : T 0 = 0) (hT : T (Fin.last _) = s.executionTime) (h : (FvDMP.imitate T Y 0).exec s = (.ok (), s'))
    {F : Fin (n + 2) → Vec d} (hF : fvDetermineForces T Y s.alphaY s.betaY = .ok F) (V : Fin d → Fin m → ℝ) :
    squaredError F (fun t => s'.ft.call (T t)) ≤ squaredError F (fun t => (s'.ft.withWeights V).call (T t)) ∧
      (squaredError F (fun t => (s'.ft.withWeights V).call (T t)) ≤ squaredError F (fun t => s'.ft.call (T t)) →
        V ≠ s'.ft.weights → squaredWeights s'.ft.weights < squaredWeights V) := by
  obtain ⟨F1, s1, hF1, hs1, h1⟩ := C26_fv_imitate hs T Y le_rfl h0 hT
  rw [hF] at hF1
  rw [h] at hs1
  cases hF1
  injection hs1 with _ hs1
  subst hs1
  have hopt := (h1 V).1
  rw [regularizedError_zero, regularizedError_zero] at hopt
  refine ⟨hopt, fun hV hne => ?_⟩
  obtain ⟨ft, e, h2⟩ := hs.valid
  rw [DMP.initForcingTerm_ok_iff] at e
  obtain ⟨e1, e2, e3, e4, -⟩ := create_eq e
  have hc : ForcingTerm.create d m (T (Fin.last (n + 1))) (T 0) s.ft.overlap s.ft.alphaZ = .ok ft := by
    rw [h2, h0, hT, e3, e4]; exact e
  rw [FvDMP.exec_imitate, hF, dmpImitateWith_eq hc le_rfl] at h
  simp only at h
  rw [DMP.exec_configure, C25_configure_sets _ _ (by simp [AllOk, FieldOk])] at h
  injection h with _ h
  have hft : ∀ W : Fin d → Fin m → ℝ, s'.ft.withWeights W = ft.withWeights W := by
    intro W
    rw [← h]
    show ({ s.ft with weights := W } : ForcingTerm d m) = _
    rw [h2]
    rfl
  refine dmpImitateWith_smallest hc (F := F) (by rw [← h]) V ?_ hne
  rw [← hft, ← hft]
  exact hV

/-- **C120 (Cartesian, no regularisation).** Weights of positions and of orientations are the smallest ones of all that approximate
the demonstrated forces as well as possible. -/
theorem C120_cartesian_smallest {s s' : CartesianDMP m} (hs : TimedCartesian s) {ops : QuatOps}
    {qgrad : (Fin (n + 2) → Vec 4) → Fin (n + 2) → Vec 3} {T : Fin (n + 2) → ℝ} {Y : Fin (n + 2) → Vec (3 + 4)}
    (h0 : T 0 = 0) (hT : T (Fin.last _) = s.executionTime) {afv : Bool}
    (h : (CartesianDMP.imitate ops qgrad T Y 0 afv).exec s = (.ok (), s')) {F R : Fin (n + 2) → Vec 3}
    (hF : F = determineForces T (fun t => position (Y t)) (linear s.alphaY) (linear s.betaY) s.ftPos.alphaZ afv s.smooth)
    (hR : R = determineForcesQuaternion ops qgrad T (fun t => orientation (Y t)) (angular s.alphaY) (angular s.betaY)
      s.ftRot.alphaZ afv s.smooth) (V : Fin 3 → Fin m → ℝ) :
    (squaredError F (fun t => s'.ftPos.call (T t)) ≤ squaredError F (fun t => (s'.ftPos.withWeights V).call (T t)) ∧
      (squaredError F (fun t => (s'.ftPos.withWeights V).call (T t)) ≤ squaredError F (fun t => s'.ftPos.call (T t)) →
        V ≠ s'.ftPos.weights → squaredWeights s'.ftPos.weights < squaredWeights V)) ∧
    squaredError R (fun t => s'.ftRot.call (T t)) ≤ squaredError R (fun t => (s'.ftRot.withWeights V).call (T t)) ∧
      (squaredError R (fun t => (s'.ftRot.withWeights V).call (T t)) ≤ squaredError R (fun t => s'.ftRot.call (T t)) →
        V ≠ s'.ftRot.weights → squaredWeights s'.ftRot.weights < squaredWeights V) := by
  obtain ⟨a1, a2, a3, a4⟩ := C26_cartesian_imitate hs ops qgrad Y h0 hT afv h
  rw [← hF] at a1
  rw [← hR] at a2
  have b1 := a1 V
  have b2 := a2 V
  rw [regularizedError_zero, regularizedError_zero, ← a3] at b1
  rw [regularizedError_zero, regularizedError_zero, ← a4] at b2
  have w1 : ∀ W : Fin 3 → Fin m → ℝ, s'.ftPos.withWeights W = s.ftPos.withWeights W := fun W => by rw [a3]; rfl
  have w2 : ∀ W : Fin 3 → Fin m → ℝ, s'.ftRot.withWeights W = s.ftRot.withWeights W := fun W => by rw [a4]; rfl
  have hT0 : T 0 < T (Fin.last _) := by
    by_contra hc
    rw [C28_cartesian_raises s ops qgrad T Y 0 afv (.inr (not_lt.1 hc))] at h
    cases h
  obtain ⟨hm, hp, hr⟩ := hs.reachable.valid
  have hok : ∀ az, ∃ ft', ForcingTerm.create 3 m (T (Fin.last (n + 1))) (T 0) (8 / 10) az = .ok ft' := by
    intro az
    unfold ForcingTerm.create
    rw [if_neg (by omega), if_neg (not_le.2 hT0), if_neg (by norm_num)]
    exact ⟨_, rfl⟩
  obtain ⟨ftp, hftp⟩ := hok s.ftPos.alphaZ
  obtain ⟨ftr, hftr⟩ := hok s.ftRot.alphaZ
  obtain ⟨m1, m2⟩ := hs.made
  rw [CartesianDMP.exec_imitate, dmpImitate_eq (hp ▸ hftp) le_rfl] at h
  simp only at h
  rw [dmpImitateWith_eq (hr ▸ hftr) le_rfl] at h
  simp only at h
  rw [CartesianDMP.exec_configure, C25_configure_sets _ _ (by simp [AllOk, FieldOk])] at h
  injection h with _ h
  have hftp' := hftp
  have hftr' := hftr
  rw [h0, hT] at hftp' hftr'
  have c1 : ∀ W : Fin 3 → Fin m → ℝ, (fun t => (s'.ftPos.withWeights W).call (T t)) = fun t => (ftp.withWeights W).call (T t) :=
    fun W => funext fun t => by rw [w1]; exact funext fun k => m1.created_call hftp' W W (fun _ => rfl) (T t)
  have c2 : ∀ W : Fin 3 → Fin m → ℝ, (fun t => (s'.ftRot.withWeights W).call (T t)) = fun t => (ftr.withWeights W).call (T t) :=
    fun W => funext fun t => by rw [w2]; exact funext fun k => m2.created_call hftr' W W (fun _ => rfl) (T t)
  have e1 : (fun t => s'.ftPos.call (T t)) = fun t => (ftp.withWeights s'.ftPos.weights).call (T t) := c1 s'.ftPos.weights
  have e2 : (fun t => s'.ftRot.call (T t)) = fun t => (ftr.withWeights s'.ftRot.weights).call (T t) := c2 s'.ftRot.weights
  rw [← w1] at b1
  rw [← w2] at b2
  refine ⟨⟨b1, fun hV hne => ?_⟩, b2, fun hV hne => ?_⟩
  · rw [c1, e1] at hV
    refine dmpImitateWith_smallest hftp ?_ V hV hne
    rw [hF, ← h]
    simp only [position_eq, linear_eq]
    rfl
  · rw [c2, e2] at hV
    refine dmpImitateWith_smallest hftr ?_ V hV hne
    rw [hR, ← h]
    simp only [orientation_eq, angular_eq]
    rfl

/-- **C120 (dual arm, no regularisation).** -/
theorem C120_dual_smallest {s s' : DualCartesianDMP m} (hs : TimedDual s) {ops : QuatOps}
    {qgrad : (Fin (n + 2) → Vec 4) → Fin (n + 2) → Vec 3} {T : Fin (n + 2) → ℝ} {Y : Fin (n + 2) → Vec 14}
    (h0 : T 0 = 0) (hT : T (Fin.last _) = s.executionTime) {afv : Bool}
    (h : (DualCartesianDMP.imitate ops qgrad T Y 0 afv).exec s = (.ok (), s')) {F : Fin (n + 2) → Vec 12}
    (hF : ∀ arm t, armLinear arm (F t) = determineForces T (fun t => armPosition arm (Y t)) (armLinear arm s.alphaY)
        (armLinear arm s.betaY) s.ft.alphaZ afv s.smooth t ∧
      armAngular arm (F t) = determineForcesQuaternion ops qgrad T (fun t => armOrientation arm (Y t)) (armAngular arm s.alphaY)
        (armAngular arm s.betaY) s.ft.alphaZ afv s.smooth t) (V : Fin 12 → Fin m → ℝ) :
    squaredError F (fun t => s'.ft.call (T t)) ≤ squaredError F (fun t => (s'.ft.withWeights V).call (T t)) ∧
      (squaredError F (fun t => (s'.ft.withWeights V).call (T t)) ≤ squaredError F (fun t => s'.ft.call (T t)) →
        V ≠ s'.ft.weights → squaredWeights s'.ft.weights < squaredWeights V) := by
  obtain ⟨a1, a2⟩ := C26_dual_imitate hs ops qgrad Y h0 hT afv h F hF
  have b1 := a1 V
  have w1 : ∀ W : Fin 12 → Fin m → ℝ, s'.ft.withWeights W = s.ft.withWeights W := fun W => by rw [a2]; rfl
  rw [regularizedError_zero, regularizedError_zero, ← a2, ← w1] at b1
  refine ⟨b1, fun hV hne => ?_⟩
  have hT0 : T 0 < T (Fin.last _) := by
    by_contra hc
    rw [C28_dual_raises s ops qgrad T Y 0 afv (.inr (not_lt.1 hc))] at h
    cases h
  obtain ⟨hm, ho⟩ := hs.reachable.valid
  obtain ⟨ft, hft⟩ : ∃ ft', ForcingTerm.create 3 m (T (Fin.last (n + 1))) (T 0) (8 / 10) s.ft.alphaZ = .ok ft' := by
    unfold ForcingTerm.create
    rw [if_neg (by omega), if_neg (not_le.2 hT0), if_neg (by norm_num)]
    exact ⟨_, rfl⟩
  simp only [armPosition_eq, armLinear_eq, armOrientation_eq, armAngular_eq] at hF
  have hP : ∀ arm, dmpImitate m T (fun t => armPos arm (Y t)) 0 (armLin arm s.alphaY) (armLin arm s.betaY) (8 / 10)
      s.ft.alphaZ afv s.smooth = .ok (ridgeRegression (Matrix.of (ft.designMatrix T)) (Matrix.of fun t => armLin arm (F t)) 0,
        armPos arm (Y 0), armPos arm (Y (Fin.last _))) := by
    intro arm
    rw [dmpImitate_eq hft le_rfl, show (fun t => armLin arm (F t)) = _ from funext fun t => (hF arm t).1]
  have hR : ∀ arm, dmpImitateWith m T 0 (8 / 10) s.ft.alphaZ (.ok (determineForcesQuaternion ops qgrad T
      (fun t => armRot arm (Y t)) (armAng arm s.alphaY) (armAng arm s.betaY) s.ft.alphaZ afv s.smooth)) =
      .ok (ridgeRegression (Matrix.of (ft.designMatrix T)) (Matrix.of fun t => armAng arm (F t)) 0) := by
    intro arm
    rw [dmpImitateWith_eq hft le_rfl, show (fun t => armAng arm (F t)) = _ from funext fun t => (hF arm t).2]
  have hW : s'.ft.weights = ridgeRegression (Matrix.of (ft.designMatrix T)) (Matrix.of F) 0 := by
    unfold DualCartesianDMP.imitate at h
    simp only [Py.exec_bind, Py.exec_modify, Py.exec_get, Py.exec_lift, ho] at h
    rw [hP 0] at h
    simp only at h
    rw [hR 0] at h
    simp only at h
    rw [hP 1] at h
    simp only at h
    rw [hR 1] at h
    simp only at h
    rw [DualCartesianDMP.exec_configure, C25_configure_sets _ _ (by simp [AllOk, FieldOk])] at h
    injection h with _ h
    rw [← h]
    simp only [DualCartesianDMP.assignWeightRows]
    funext j i
    fin_cases j <;> rfl
  obtain ⟨hg, hst, _⟩ := create_eq hft
  have hft' := hft
  rw [h0, hT] at hft'
  have hcall : ∀ U : Fin 12 → Fin m → ℝ, (fun t => (s'.ft.withWeights U).call (T t)) =
      fun t k => ∑ i, U k i * ft.designMatrix T i t := by
    intro U
    funext t k
    rw [w1, hs.made.created_call hft' U (fun _ => U k) (k' := 0) (fun _ => rfl) (T t)]
    exact (designMatrix_force ft T hst hg (fun _ => U k) t 0).symm
  refine ridge_smallest (ft.designMatrix T) F hW V ?_ hne
  rw [regularizedError_zero, regularizedError_zero, ← hcall, ← hcall]
  exact hV

/-! ## C97 -/

/-- **C97 (regularisation).** With regularisation (the default coefficient is `1e-12`) a ProMP with enough weights reproduces a
demonstration up to an error that vanishes with the coefficient: the squared error is at most proportional to it. -/
theorem C97_regularised {p : ProMP d w} (hp : Spec.Reachable p) {T : Vec n} (hT : Function.Injective T) (hn : n ≤ w)
    {t : ℝ} (ht : IsLargest T t) (h0 : t ≠ 0) (Y : Matrix (Fin n) (Fin d) ℝ) :
    ∃ C, ∀ lmbda, 0 ≤ lmbda → ∃ W T' X, (p.weights Y lmbda).exec (.float T) = (.ok W, T') ∧
      ((p.trajectoryFromWeights W).exec (.float T)).1 = .ok X ∧ ∀ i k, (X i k - Y i k) ^ 2 ≤ C * lmbda := by
  obtain ⟨V, hV⟩ := promp_interpolates (relative_times hT h0) hn Y
  refine ⟨∑ x, V x ^ 2, fun lmbda hl => ?_⟩
  obtain ⟨W, T', h1, h2⟩ := C65_weights_optimal hp T ht h0 Y hl
  refine ⟨W, T', _, h1, by rw [ProMP.exec_trajectoryFromWeights hp.centers ht], fun i k => ?_⟩
  have h3 := h2 V
  simp only [hV, sub_self] at h3
  norm_num at h3
  have h4 : 0 ≤ lmbda * ∑ x, W x ^ 2 := mul_nonneg hl (Finset.sum_nonneg fun x _ => sq_nonneg _)
  have h5 : (Y i k - prompPosition W (T i / t) k) ^ 2 ≤ ∑ i, ∑ k, (Y i k - prompPosition W (T i / t) k) ^ 2 :=
    (Finset.single_le_sum (f := fun k => (Y i k - prompPosition W (T i / t) k) ^ 2) (fun _ _ => sq_nonneg _)
      (Finset.mem_univ k)).trans
      (Finset.single_le_sum (f := fun i => ∑ k, (Y i k - prompPosition W (T i / t) k) ^ 2)
        (fun _ _ => Finset.sum_nonneg fun _ _ => sq_nonneg _) (Finset.mem_univ i))
  have h6 : (prompPosition W (T i / t) k - Y i k) ^ 2 = (Y i k - prompPosition W (T i / t) k) ^ 2 := by ring
  show (prompPosition W (T i / t) k - Y i k) ^ 2 ≤ _
  rw [h6]
  linarith

/-- The hypotheses about ProMPs can be met: three time stamps and five weights (more weights than samples). -/
example : Spec.Reachable (ProMP.init 2 5) ∧ Function.Injective (![0, 1, 4] : Vec 3) ∧ 3 ≤ 5 ∧
    IsLargest ![(0 : ℝ), 1, 4] 4 ∧ (4 : ℝ) ≠ 0 := by
  refine ⟨.init, ?_, by norm_num, ⟨⟨2, rfl⟩, fun i => by fin_cases i <;> norm_num⟩, by norm_num⟩
  intro i j
  fin_cases i <;> fin_cases j <;> simp

end Verif
