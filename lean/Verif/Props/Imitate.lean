import Verif.Props.Configure
import Verif.Lemmas.Pinv
import Verif.Spec.Imitate

/-! # C06, C26, C27, C28: imitation learning of the regular DMP -/

namespace Verif
open Spec Matrix
variable {d m n : ℕ}

/-! ## C06 -/

theorem gradient_div (T x : Fin (n + 2) → ℝ) (i : Fin (n + 2)) :
    gradient x i / gradient T i = finiteDifference T x i := by
  unfold gradient finiteDifference
  by_cases h0 : i.val = 0
  · have hi : i = 0 := Fin.ext h0
    subst hi
    have : (⟨0 + 1, by omega⟩ : Fin (n + 2)) = 1 := by ext; simp
    simp [this]
  · by_cases h1 : i.val + 1 < n + 2
    · simp only [h0, h1, dif_pos, if_false]
      rw [div_div_div_cancel_right₀ two_ne_zero]
    · simp only [h0, h1, if_false, dite_false]

/-- **C06.** The velocities and accelerations used by imitation are finite differences of the positions, apart from the
last sample: its acceleration is zero and its velocity is zero unless a final velocity is allowed. -/
theorem C06_demonstrated_motion (T : Fin (n + 2) → ℝ) (Y : Fin (n + 2) → Vec d) (afv : Bool) (t : Fin (n + 2))
    (k : Fin d) :
    (t ≠ Fin.last _ → demoYd T Y afv t k = finiteDifference T (fun i => Y i k) t ∧
      demoYdd T Y afv t k = finiteDifference T (fun i => demoYd T Y afv i k) t) ∧
    (t = Fin.last _ → demoYdd T Y afv t k = 0 ∧
      demoYd T Y afv t k = if afv then finiteDifference T (fun i => Y i k) t else 0) := by
  constructor
  · intro h
    constructor
    · unfold demoYd
      rw [if_neg (fun h' => h h'.1), gradient_div]
    · unfold demoYdd
      rw [if_neg h, gradient_div]
  · intro h
    constructor
    · unfold demoYdd
      rw [if_pos h]
    · unfold demoYd
      rw [gradient_div]
      cases afv <;> simp [h]

/-- **C06.** Inserting a force into the acceleration equation of the DMP (with start and goal of the demonstration) at a
sample's position, velocity and phase returns the sample's acceleration if and only if it is the force computed by
imitation. -/
theorem C06_forces_invert_acceleration (T : Fin (n + 2) → ℝ) (Y : Fin (n + 2) → Vec d) (alphaY betaY : Vec d)
    (alphaZ : ℝ) (afv smooth : Bool) (hT : T 0 < T (Fin.last _)) (t : Fin (n + 2)) (k : Fin d) (f : ℝ) :
    dmpAcceleration (alphaY k) (betaY k) (Y (Fin.last _) k) (Y 0 k) (T (Fin.last _) - T 0) smooth
        (Real.exp (-alphaZ * (T t - T 0) / (T (Fin.last _) - T 0))) f (Y t k) (demoYd T Y afv t k) =
      demoYdd T Y afv t k ↔ f = determineForces T Y alphaY betaY alphaZ afv smooth t k := by
  have hτ : T (Fin.last (n + 1)) - T 0 ≠ 0 := by linarith [sub_pos.2 hT]
  unfold dmpAcceleration determineForces phase
  simp only
  rw [div_eq_iff (pow_ne_zero 2 hτ)]
  constructor
  · intro h; linarith
  · intro h; rw [h]; ring

/-- **C06.** The acceleration computed by the step functions for the learned force is the demonstrated one. -/
theorem C06_step_acceleration (T : Fin (n + 2) → ℝ) (Y : Fin (n + 2) → Vec d) (a : StepArgs d m) (alphaZ : ℝ)
    (afv : Bool) (hT : T 0 < T (Fin.last _)) (hg : a.goalY = Y (Fin.last _)) (hs : a.startY = Y 0)
    (hc : a.coupling = none) (t : Fin (n + 2)) :
    a.acc (Y t) (demoYd T Y afv t) 0 (phase (T t) alphaZ (T (Fin.last _)) (T 0)) (T (Fin.last _) - T 0)
      (determineForces T Y a.alphaY a.betaY alphaZ afv a.smooth t) 0 = demoYdd T Y afv t := by
  funext k
  have h := (C06_forces_invert_acceleration T Y a.alphaY a.betaY alphaZ afv a.smooth hT t k _).2 rfl
  rw [← h]
  unfold StepArgs.acc dmpAcceleration
  rw [hc, hg, hs]
  cases a.smooth <;> simp [phase]

/-! ## C26 -/

theorem Spec.regularizedError_matrix (X : Fin m → Fin n → ℝ) (F : Fin n → Vec d) (reg : ℝ)
    (W : Fin d → Fin m → ℝ) :
    regularizedError F (fun W t k => ∑ i, W k i * X i t) reg W =
      ∑ k, (((fun t => F t k) - (Matrix.of X)ᵀ *ᵥ W k) ⬝ᵥ ((fun t => F t k) - (Matrix.of X)ᵀ *ᵥ W k) +
        reg * (W k ⬝ᵥ W k)) := by
  unfold regularizedError
  rw [Finset.sum_comm, Finset.mul_sum, ← Finset.sum_add_distrib]
  refine Finset.sum_congr rfl fun k _ => ?_
  congr 1
  · unfold dotProduct
    refine Finset.sum_congr rfl fun t _ => ?_
    have : ((Matrix.of X)ᵀ *ᵥ W k) t = ∑ i, W k i * X i t := by
      simp only [mulVec, dotProduct, transpose_apply, of_apply]
      exact Finset.sum_congr rfl fun i _ => mul_comm _ _
    simp only [Pi.sub_apply, this]
    ring
  · congr 1
    unfold dotProduct
    exact Finset.sum_congr rfl fun i _ => by ring

theorem dotProduct_self_nonneg' (v : Fin n → ℝ) : 0 ≤ v ⬝ᵥ v :=
  Finset.sum_nonneg fun i _ => mul_self_nonneg (v i)

/-- **C26 (regression).** Ridge regression minimises the regularised squared error. -/
theorem C26_ridge_optimal (X : Fin m → Fin n → ℝ) (F : Fin n → Vec d) {reg : ℝ} (hreg : 0 ≤ reg)
    {W : Fin d → Fin m → ℝ} (hW : W = ridgeRegression (Matrix.of X) (Matrix.of F) reg) (V : Fin d → Fin m → ℝ) :
    regularizedError F (fun W t k => ∑ i, W k i * X i t) reg W ≤
      regularizedError F (fun W t k => ∑ i, W k i * X i t) reg V := by
  rw [Spec.regularizedError_matrix, Spec.regularizedError_matrix]
  refine Finset.sum_le_sum fun k _ => ?_
  have hn : (Matrix.of X * (Matrix.of X)ᵀ + reg • (1 : Matrix (Fin m) (Fin m) ℝ)) *ᵥ
      (W k) = Matrix.of X *ᵥ (fun t => F t k) := by
    have h := ridge_normal (Matrix.of X) (Matrix.of F) hreg
    rw [← hW] at h
    funext i
    exact congrFun (congrFun h i) k
  rw [ridge_expand (Matrix.of X) (fun t => F t k) reg _ (V k) hn]
  have h1 := dotProduct_self_nonneg' ((Matrix.of X)ᵀ *ᵥ
    (V k - W k))
  have h2 := mul_nonneg hreg (dotProduct_self_nonneg' (V k - W k))
  linarith

/-- **C26 (regression).** For a positive regularisation coefficient it is the only minimiser. -/
theorem C26_ridge_unique (X : Fin m → Fin n → ℝ) (F : Fin n → Vec d) {reg : ℝ} (hreg : 0 < reg)
    {W : Fin d → Fin m → ℝ} (hW : W = ridgeRegression (Matrix.of X) (Matrix.of F) reg) (V : Fin d → Fin m → ℝ)
    (hV : regularizedError F (fun W t k => ∑ i, W k i * X i t) reg V ≤
      regularizedError F (fun W t k => ∑ i, W k i * X i t) reg W) : V = W := by
  rw [Spec.regularizedError_matrix, Spec.regularizedError_matrix] at hV
  have hn : ∀ k, (Matrix.of X * (Matrix.of X)ᵀ + reg • (1 : Matrix (Fin m) (Fin m) ℝ)) *ᵥ (W k) =
      Matrix.of X *ᵥ (fun t => F t k) := by
    intro k
    have h := ridge_normal (Matrix.of X) (Matrix.of F) hreg.le
    rw [← hW] at h
    funext i
    exact congrFun (congrFun h i) k
  simp only [fun k => ridge_expand (Matrix.of X) (fun t => F t k) reg _ (V k) (hn k)] at hV
  rw [Finset.sum_add_distrib] at hV
  have h0 : ∑ k, (((Matrix.of X)ᵀ *ᵥ (V k - W k)) ⬝ᵥ ((Matrix.of X)ᵀ *ᵥ (V k - W k)) +
      reg * ((V k - W k) ⬝ᵥ (V k - W k))) ≤ 0 := by linarith
  have hnn : ∀ k, 0 ≤ ((Matrix.of X)ᵀ *ᵥ (V k - W k)) ⬝ᵥ ((Matrix.of X)ᵀ *ᵥ (V k - W k)) +
      reg * ((V k - W k) ⬝ᵥ (V k - W k)) := fun k =>
    add_nonneg (dotProduct_self_nonneg' _) (mul_nonneg hreg.le (dotProduct_self_nonneg' _))
  have hz := (Finset.sum_eq_zero_iff_of_nonneg (fun k _ => hnn k)).1
    (le_antisymm h0 (Finset.sum_nonneg fun k _ => hnn k))
  funext k
  have hk := hz k (Finset.mem_univ k)
  have h1 := dotProduct_self_nonneg' ((Matrix.of X)ᵀ *ᵥ (V k - W k))
  have h2 := dotProduct_self_nonneg' (V k - W k)
  have h3 : (V k - W k) ⬝ᵥ (V k - W k) = 0 := by nlinarith
  exact sub_eq_zero.1 (dotProduct_self_eq_zero.1 h3)

theorem designMatrix_force (ft : ForcingTerm d m) (T : Fin (n + 1) → ℝ) (hs : ft.startT = T 0)
    (hg : ft.goalT = T (Fin.last n)) (W : Fin d → Fin m → ℝ) (t : Fin (n + 1)) (k : Fin d) :
    ∑ i, W k i * ft.designMatrix T i t = ({ ft with weights := W } : ForcingTerm d m).call (T t) k := by
  unfold ForcingTerm.designMatrix ForcingTerm.call ForcingTerm.force ForcingTerm.phaseAt
  simp only [hs, hg]
  rw [Finset.mul_sum]
  refine Finset.sum_congr rfl fun i _ => ?_
  show W k i * (_ * ft.activations _ i) = _ * (W k i * ft.activations _ i)
  ring

theorem dmpImitateWith_eq {T : Fin (n + 2) → ℝ} {reg overlap alphaZ : ℝ} {ft : ForcingTerm d m}
    {F : Fin (n + 2) → Vec d}
    (hft : ForcingTerm.create d m (T (Fin.last (n + 1))) (T 0) overlap alphaZ = .ok ft) (hreg : 0 ≤ reg) :
    dmpImitateWith m T reg overlap alphaZ (.ok F) =
      .ok (ridgeRegression (Matrix.of (ft.designMatrix T)) (Matrix.of F) reg) := by
  unfold dmpImitateWith
  rw [if_neg (not_lt.2 hreg), hft]
  rfl

theorem dmpImitateWith_neg {T : Fin (n + 2) → ℝ} {reg overlap alphaZ : ℝ}
    {F : Except PyErr (Fin (n + 2) → Vec d)} (hreg : reg < 0) :
    dmpImitateWith m T reg overlap alphaZ F = .error .valueError := by
  unfold dmpImitateWith
  rw [if_pos hreg]
  rfl

theorem dmpImitateWith_error {T : Fin (n + 2) → ℝ} {reg overlap alphaZ : ℝ} {e : PyErr}
    {F : Except PyErr (Fin (n + 2) → Vec d)}
    (hft : ForcingTerm.create d m (T (Fin.last (n + 1))) (T 0) overlap alphaZ = .error e) (hreg : ¬ reg < 0) :
    dmpImitateWith m T reg overlap alphaZ F = .error e := by
  unfold dmpImitateWith
  rw [if_neg hreg, hft]
  rfl

theorem dmpImitate_eq {T : Fin (n + 2) → ℝ} {Y : Fin (n + 2) → Vec d} {reg : ℝ}
    {alphaY betaY : Vec d} {overlap alphaZ : ℝ} {afv smooth : Bool} {ft : ForcingTerm d m}
    (hft : ForcingTerm.create d m (T (Fin.last (n + 1))) (T 0) overlap alphaZ = .ok ft) (hreg : 0 ≤ reg) :
    dmpImitate m T Y reg alphaY betaY overlap alphaZ afv smooth =
      .ok (ridgeRegression (Matrix.of (ft.designMatrix T))
        (Matrix.of (determineForces T Y alphaY betaY alphaZ afv smooth)) reg, Y 0, Y (Fin.last (n + 1))) := by
  unfold dmpImitate
  rw [dmpImitateWith_eq hft hreg]
  rfl

theorem dmpImitate_neg {T : Fin (n + 2) → ℝ} {Y : Fin (n + 2) → Vec d} {reg : ℝ}
    {alphaY betaY : Vec d} {overlap alphaZ : ℝ} {afv smooth : Bool} (hreg : reg < 0) :
    dmpImitate m T Y reg alphaY betaY overlap alphaZ afv smooth = .error .valueError := by
  unfold dmpImitate
  rw [dmpImitateWith_neg hreg]
  rfl

theorem dmpImitate_error {T : Fin (n + 2) → ℝ} {Y : Fin (n + 2) → Vec d} {reg : ℝ}
    {alphaY betaY : Vec d} {overlap alphaZ : ℝ} {afv smooth : Bool} {e : PyErr}
    (hft : ForcingTerm.create d m (T (Fin.last (n + 1))) (T 0) overlap alphaZ = .error e) (hreg : ¬ reg < 0) :
    dmpImitate m T Y reg alphaY betaY overlap alphaZ afv smooth = .error e := by
  unfold dmpImitate
  rw [dmpImitateWith_error hft hreg]
  rfl

theorem create_eq {goalT startT overlap alphaZ : ℝ} {ft : ForcingTerm d m}
    (h : ForcingTerm.create d m goalT startT overlap alphaZ = .ok ft) :
    ft.goalT = goalT ∧ ft.startT = startT ∧ ft.overlap = overlap ∧ ft.alphaZ = alphaZ ∧ 2 ≤ m ∧ startT < goalT ∧
      0 < overlap ∧ ft.weights = (fun _ _ => 0) := by
  unfold ForcingTerm.create at h
  split_ifs at h with h1 h2 h3
  injection h with h
  subst h
  exact ⟨rfl, rfl, rfl, rfl, by omega, not_le.1 h2, not_le.1 h3, rfl⟩

/-- **C26.** The weights learned from a demonstration minimise the regularised squared error between the forces of the
demonstration and the forces that the forcing term generates at the demonstrated times. -/
theorem C26_imitation_optimal {T : Fin (n + 2) → ℝ} {Y : Fin (n + 2) → Vec d} {reg : ℝ}
    {alphaY betaY : Vec d} {overlap alphaZ : ℝ} {afv smooth : Bool} {ft : ForcingTerm d m}
    (hft : ForcingTerm.create d m (T (Fin.last (n + 1))) (T 0) overlap alphaZ = .ok ft)
    {w : Fin d → Fin m → ℝ} {ys yg : Vec d}
    (h : dmpImitate m T Y reg alphaY betaY overlap alphaZ afv smooth = .ok (w, ys, yg)) :
    let error := regularizedError (determineForces T Y alphaY betaY alphaZ afv smooth)
      (fun W t => ({ ft with weights := W } : ForcingTerm d m).call (T t)) reg
    ∀ V, error w ≤ error V ∧ (0 < reg → error V ≤ error w → V = w) := by
  intro error V
  have hreg : 0 ≤ reg := by
    by_contra hneg
    rw [dmpImitate_neg (not_le.1 hneg)] at h
    cases h
  rw [dmpImitate_eq hft hreg] at h
  injection h with h
  injection h with h h'
  obtain ⟨hg, hs, _⟩ := create_eq hft
  have he : error = regularizedError (determineForces T Y alphaY betaY alphaZ afv smooth)
      (fun W t k => ∑ i, W k i * ft.designMatrix T i t) reg := by
    show regularizedError _ _ _ = _
    congr 1
    funext W t k
    exact (designMatrix_force ft T hs hg W t k).symm
  rw [he]
  exact ⟨C26_ridge_optimal _ _ hreg h.symm V, fun hpos hV => C26_ridge_unique _ _ hpos h.symm V hV⟩

/-- **C26.** A negative coefficient raises ValueError. -/
theorem C26_negative_raises (T : Fin (n + 2) → ℝ) (Y : Fin (n + 2) → Vec d) {reg : ℝ} (afv : Bool) (hreg : reg < 0)
    (s : DMP d m) : (DMP.imitate T Y reg afv).exec s = (.error .valueError, s) := by
  rw [DMP.exec_imitate, dmpImitate_neg hreg]

/-! ## C28 -/

/-- **C28.** `imitate` succeeds exactly if the regularisation coefficient is not negative and the time stamps span a
positive interval. Then only the weights, start and goal of the object change: start and goal become the first and last
demonstrated positions. -/
theorem C28_imitate_configures {s : DMP d m} (hs : s.Reachable) (T : Fin (n + 2) → ℝ) (Y : Fin (n + 2) → Vec d)
    {reg : ℝ} (hreg : 0 ≤ reg) (hT : T 0 < T (Fin.last _)) (afv : Bool) :
    ∃ w, (DMP.imitate T Y reg afv).exec s =
      (.ok (), { s with startY := Y 0, goalY := Y (Fin.last _), ft := { s.ft with weights := w } }) := by
  obtain ⟨ft, h1, h2⟩ := hs.valid
  rw [DMP.initForcingTerm_ok_iff] at h1
  obtain ⟨e1, e2, e3, e4, hm, _, hov, _⟩ := create_eq h1
  have hov' : s.ft.overlap = 8 / 10 := by rw [h2]; exact e3
  obtain ⟨ft', hft'⟩ : ∃ ft', ForcingTerm.create d m (T (Fin.last (n + 1))) (T 0) s.ft.overlap s.ft.alphaZ = .ok ft' := by
    unfold ForcingTerm.create
    rw [if_neg (by omega), if_neg (not_le.2 hT), if_neg (by rw [hov']; norm_num)]
    exact ⟨_, rfl⟩
  rw [DMP.exec_imitate, dmpImitate_eq hft' hreg]
  refine ⟨ridgeRegression (Matrix.of (ft'.designMatrix T))
    (Matrix.of (determineForces T Y s.alphaY s.betaY s.ft.alphaZ afv s.smooth)) reg, ?_⟩
  simp only
  rw [DMP.exec_configure, C25_configure_sets _ _ (by simp [AllOk, FieldOk])]
  have hx : ∀ {n : ℕ} (x o : Vec n), newValue (some (List.ofFn x)) o = x := by
    intro n x o; funext i; simp [newValue]
  simp only [hx]
  rfl

/-- **C28.** Otherwise `imitate` raises ValueError and the object is unchanged. -/
theorem C28_imitate_raises (s : DMP d m) (T : Fin (n + 2) → ℝ) (Y : Fin (n + 2) → Vec d)
    (reg : ℝ) (afv : Bool) (h : reg < 0 ∨ T (Fin.last _) ≤ T 0) :
    (DMP.imitate T Y reg afv).exec s = (.error .valueError, s) := by
  by_cases hreg : reg < 0
  · exact C26_negative_raises T Y afv hreg s
  · have hT := h.resolve_left hreg
    have hft : ForcingTerm.create d m (T (Fin.last (n + 1))) (T 0) s.ft.overlap s.ft.alphaZ = .error .valueError := by
      unfold ForcingTerm.create
      by_cases hm : m ≤ 1
      · rw [if_pos hm]
      · rw [if_neg hm, if_pos hT]
    rw [DMP.exec_imitate, dmpImitate_error hft hreg]

theorem gradient_const (c : ℝ) (i : Fin (n + 2)) : gradient (fun _ => c) i = 0 := by
  unfold gradient; split_ifs <;> simp

theorem determineForces_const (T : Fin (n + 2) → ℝ) (y : Vec d) (alphaY betaY : Vec d) (alphaZ : ℝ)
    (afv smooth : Bool) : determineForces T (fun _ => y) alphaY betaY alphaZ afv smooth = 0 := by
  have h1 : demoYd T (fun _ => y) afv = 0 := by
    funext t k
    unfold demoYd
    rw [gradient_const]; simp
  have h2 : demoYdd T (fun _ => y) afv = 0 := by
    funext t k
    unfold demoYdd
    rw [h1]
    simp only [Pi.zero_apply]
    rw [gradient_const]; simp
  funext t k
  simp [determineForces, h1, h2]

/-- **C28.** A constant demonstration yields zero weights. -/
theorem C28_constant_demonstration (s : DMP d m) (T : Fin (n + 2) → ℝ) (y : Vec d)
    (reg : ℝ) (afv : Bool) {s' : DMP d m}
    (h : (DMP.imitate T (fun _ => y) reg afv).exec s = (.ok (), s')) :
    s'.ft.weights = (fun _ _ => 0) ∧ s'.startY = y ∧ s'.goalY = y := by
  have hreg : ¬ reg < 0 := by
    intro hreg
    rw [C26_negative_raises T _ afv hreg s] at h
    cases h
  rw [DMP.exec_imitate] at h
  cases hft : ForcingTerm.create d m (T (Fin.last (n + 1))) (T 0) s.ft.overlap s.ft.alphaZ with
  | error e =>
    rw [dmpImitate_error hft hreg] at h
    cases h
  | ok ft =>
    rw [dmpImitate_eq hft (not_lt.1 hreg)] at h
    simp only at h
    rw [DMP.exec_configure, C25_configure_sets _ _ (by simp [AllOk, FieldOk])] at h
    injection h with _ h
    subst h
    refine ⟨?_, ?_, ?_⟩
    · simp only
      rw [determineForces_const]
      exact ridge_zero _ _
    · funext i; simp [newValue]
    · funext i; simp [newValue]

theorem loopRows_fixed {σ ρ : Type} (f : ℕ → σ → Except PyErr σ) (out : σ → ρ) {x : σ} (h : ∀ i, f i x = .ok x)
    (n i : ℕ) : loopRows f out n x i = .ok (List.replicate n (out x)) := by
  induction n generalizing i with
  | zero => rfl
  | succ n ih =>
    simp only [loopRows, h, bind, Except.bind, ih, pure, Except.pure, List.replicate_succ]

/-- **C28.** After imitation of a constant demonstration every open-loop reproduction is constant. -/
theorem C28_constant_reproduction {s : DMP d m} (hs : s.Reachable) (T : Fin (n + 2) → ℝ) (y : Vec d)
    (reg : ℝ) (afv : Bool) {s' : DMP d m} (hint : 0 < s.intDt)
    (h : (DMP.imitate T (fun _ => y) reg afv).exec s = (.ok (), s')) (runT : Option ℝ) (name : String)
    {ts : List ℝ} {ys : List (Vec d)} (hrun : ((DMP.openLoop runT none name).exec s').1 = .ok (ts, ys)) :
    ∀ x ∈ ys, x = y := by
  obtain ⟨hw, hst, hgo⟩ := C28_constant_demonstration s T y reg afv h
  have hreach : s'.Reachable := .op (.imitate T (fun _ => y) reg afv) hs h (by intro τ h; cases h)
  have hτ := hreach.valid.pos.2
  have hid : s'.intDt = s.intDt := by
    rw [DMP.exec_imitate] at h
    cases hi : dmpImitate m T (fun _ => y) reg s.alphaY s.betaY s.ft.overlap s.ft.alphaZ afv s.smooth with
    | error e => rw [hi] at h; cases h
    | ok r =>
      rw [hi] at h
      simp only at h
      rw [DMP.exec_configure] at h
      injection h with _ h
      rw [← h]
  rw [DMP.exec_openLoop] at hrun
  cases hsf : StepFunction.lookup name with
  | error e => rw [hsf] at hrun; cases hrun
  | ok sf =>
    rw [hsf] at hrun
    simp only [Except.bind] at hrun
    have hfix : ∀ t t', sf.run (s'.openLoopArgs none) t t' (y, 0) = .ok (y, 0) := by
      intro t t'
      have := C15_goal_is_equilibrium (s'.openLoopArgs none) rfl rfl (hst.trans hgo.symm) rfl
        (by intro k i; exact congrFun (congrFun hw k) i) rfl hτ (by show 0 < s'.intDt; rw [hid]; exact hint) sf t t'
      have e : (s'.openLoopArgs none).goalY = y := hgo
      rwa [e] at this
    unfold dmpOpenLoop openLoopWith at hrun
    have e1 : (s'.openLoopArgs none).startY = y := hst
    have e2 : (s'.openLoopArgs none).startYd = 0 := rfl
    simp only [e1, e2] at hrun
    rw [loopRows_fixed _ _ (fun i => hfix _ _)] at hrun
    by_cases h1 : s'.dt = 0
    · rw [if_pos h1] at hrun; cases hrun
    rw [if_neg h1] at hrun
    by_cases h2 : arangeLen (s'.openLoopArgs none).startT (runT.getD (s'.openLoopArgs none).goalT + s'.dt) s'.dt = 0
    · rw [if_pos h2] at hrun; cases hrun
    rw [if_neg h2] at hrun
    simp only [bind, Except.bind, pure, Except.pure, Except.ok.injEq, Prod.mk.injEq] at hrun
    intro x hx
    rw [← hrun.2] at hx
    rcases List.mem_cons.1 hx with hx | hx
    · exact hx
    · exact (List.eq_of_mem_replicate hx)

/-- **C26.** For a demonstration over the execution time of the DMP: among all weights that `set_weights` could set, the
learned ones minimise the regularised squared error between the demonstrated forces and the forces of the object's own
forcing term. -/
theorem C26_dmp_imitate {s s' : DMP d m} (hs : s.Reachable) (T : Fin (n + 2) → ℝ) (Y : Fin (n + 2) → Vec d)
    {reg : ℝ} (h0 : T 0 = 0) (hT : T (Fin.last _) = s.executionTime) (afv : Bool)
    (h : (DMP.imitate T Y reg afv).exec s = (.ok (), s')) :
    let error := regularizedError (determineForces T Y s.alphaY s.betaY s.ft.alphaZ afv s.smooth)
      (fun W t => ({ s'.ft with weights := W } : ForcingTerm d m).call (T t)) reg
    ∀ V, error s'.ft.weights ≤ error V ∧ (0 < reg → error V ≤ error s'.ft.weights → V = s'.ft.weights) := by
  obtain ⟨ft, h1, h2⟩ := hs.valid
  rw [DMP.initForcingTerm_ok_iff] at h1
  obtain ⟨e1, e2, e3, e4, hm, _, hov, _⟩ := create_eq h1
  have hc : ForcingTerm.create d m (T (Fin.last (n + 1))) (T 0) s.ft.overlap s.ft.alphaZ = .ok ft := by
    rw [h2, h0, hT, e3, e4]; exact h1
  rw [DMP.exec_imitate] at h
  cases hi : dmpImitate m T Y reg s.alphaY s.betaY s.ft.overlap s.ft.alphaZ afv s.smooth with
  | error e => rw [hi] at h; cases h
  | ok r =>
    rw [hi] at h
    simp only at h
    rw [DMP.exec_configure] at h
    injection h with _ h
    have hft : s'.ft = { ft with weights := r.1 } := by
      rw [← h]
      show ({ s.ft with weights := r.1 } : ForcingTerm d m) = _
      rw [h2]
    rw [hft]
    exact C26_imitation_optimal hc (w := r.1) (ys := r.2.1) (yg := r.2.2) hi

/-- The hypotheses of C26 and C28 can be met: a reachable DMP and a demonstration over its execution time. -/
example : ∃ s : DMP 1 2, s.Reachable ∧ ∃ (T : Fin 3 → ℝ) (s' : DMP 1 2), T 0 = 0 ∧ T (Fin.last _) = s.executionTime ∧
    (DMP.imitate (n := 1) T (fun i _ => (i.val : ℝ) ^ 2) (1 / 10) false).exec s = (.ok (), s') := by
  obtain ⟨s, hs, h1, _⟩ := DMP.create_ok 1 2 le_rfl one_pos (1 / 100) (1 / 1000) 0 false 25 (25 / 4)
  obtain ⟨w, hw⟩ := C28_imitate_configures (n := 1) (.create hs) (fun i => (i.val : ℝ) / 2) (fun i _ => (i.val : ℝ) ^ 2)
    (reg := 1 / 10) (by norm_num) (by norm_num) false
  exact ⟨s, .create hs, fun i => (i.val : ℝ) / 2, _, by norm_num, by rw [h1]; norm_num, hw⟩

/-! ## C27 -/

theorem gradient_affine (x : Fin (n + 2) → ℝ) (c b : ℝ) (i : Fin (n + 2)) :
    gradient (fun j => c * x j + b) i = c * gradient x i := by
  unfold gradient; split_ifs <;> ring

theorem demoYd_time (T : Fin (n + 2) → ℝ) (Y : Fin (n + 2) → Vec d) (afv : Bool) (c b : ℝ) :
    demoYd (fun i => c * T i + b) Y afv = fun t k => demoYd T Y afv t k / c := by
  funext t k
  unfold demoYd
  rw [gradient_affine]
  split_ifs
  · simp
  · rw [mul_comm, div_div]

theorem demoYdd_time (T : Fin (n + 2) → ℝ) (Y : Fin (n + 2) → Vec d) (afv : Bool) (c b : ℝ) :
    demoYdd (fun i => c * T i + b) Y afv = fun t k => demoYdd T Y afv t k / c ^ 2 := by
  funext t k
  unfold demoYdd
  rw [gradient_affine, demoYd_time]
  split_ifs
  · simp
  · have e : gradient (fun i => demoYd T Y afv i k / c) t = gradient (fun i => demoYd T Y afv i k) t / c := by
      have := gradient_affine (fun i => demoYd T Y afv i k) c⁻¹ 0 t
      rw [div_eq_mul_inv, mul_comm, ← this]
      congr 1
      funext j; rw [div_eq_mul_inv, mul_comm, add_zero]
    rw [e, div_div, div_div, pow_two]
    congr 1; ring

theorem determineForces_time (T : Fin (n + 2) → ℝ) (Y : Fin (n + 2) → Vec d) (alphaY betaY : Vec d) (alphaZ : ℝ)
    (afv smooth : Bool) {c : ℝ} (hc : c ≠ 0) (b : ℝ) :
    determineForces (fun i => c * T i + b) Y alphaY betaY alphaZ afv smooth =
      determineForces T Y alphaY betaY alphaZ afv smooth := by
  funext t k
  unfold determineForces
  rw [demoYd_time, demoYdd_time]
  have hτ : c * T (Fin.last (n + 1)) + b - (c * T 0 + b) = c * (T (Fin.last (n + 1)) - T 0) := by ring
  have hz : phase (c * T t + b) alphaZ (c * T (Fin.last (n + 1)) + b) (c * T 0 + b) =
      phase (T t) alphaZ (T (Fin.last (n + 1))) (T 0) := by
    unfold phase
    congr 1
    rw [hτ]
    have : -alphaZ * (c * T t + b - (c * T 0 + b)) = c * (-alphaZ * (T t - T 0)) := by ring
    rw [this, mul_div_mul_left _ _ hc]
  simp only [hz, hτ]
  field_simp

theorem phase_scale {c : ℝ} (hc : c ≠ 0) (t alphaZ g s : ℝ) : phase (c * t) alphaZ (c * g) (c * s) = phase t alphaZ g s := by
  unfold phase
  congr 1
  rw [← mul_sub, ← mul_sub]
  have : -alphaZ * (c * (t - s)) = c * (-alphaZ * (t - s)) := by ring
  rw [this, mul_div_mul_left _ _ hc]

/-- **C27.** Multiplying all time stamps of a demonstration by a positive factor changes neither the learned weights nor
start and goal. -/
theorem C27_time_scale (m : ℕ) (T : Fin (n + 2) → ℝ) (Y : Fin (n + 2) → Vec d) (reg : ℝ)
    (alphaY betaY : Vec d) (overlap alphaZ : ℝ) (afv smooth : Bool) {c : ℝ} (hc : 0 < c) :
    dmpImitate m (fun i => c * T i) Y reg alphaY betaY overlap alphaZ afv smooth =
      dmpImitate m T Y reg alphaY betaY overlap alphaZ afv smooth := by
  have hF : determineForces (fun i => c * T i) Y alphaY betaY alphaZ afv smooth =
      determineForces T Y alphaY betaY alphaZ afv smooth := by
    have := determineForces_time T Y alphaY betaY alphaZ afv smooth hc.ne' 0
    simpa using this
  by_cases hreg : reg < 0
  · rw [dmpImitate_neg hreg, dmpImitate_neg hreg]
  have hcen : ∀ i, ForcingTerm.initCenter m (c * T (Fin.last (n + 1))) (c * T 0) alphaZ i =
      ForcingTerm.initCenter m (T (Fin.last (n + 1))) (T 0) alphaZ i := by
    intro i
    unfold ForcingTerm.initCenter
    split_ifs
    · exact phase_scale hc.ne' _ _ _ _
    · have : (i : ℝ) * ((c * T (Fin.last (n + 1)) - c * T 0) / ((m : ℝ) - 1)) =
          c * (i * ((T (Fin.last (n + 1)) - T 0) / ((m : ℝ) - 1))) := by ring
      rw [this]
      exact phase_scale hc.ne' _ _ _ _
  have hwid : ∀ L i, ForcingTerm.initWidth m (c * T (Fin.last (n + 1))) (c * T 0) alphaZ L i =
      ForcingTerm.initWidth m (T (Fin.last (n + 1))) (T 0) alphaZ L i := by
    intro L i
    unfold ForcingTerm.initWidth
    simp only [hcen]
  cases hft : ForcingTerm.create d m (T (Fin.last (n + 1))) (T 0) overlap alphaZ with
  | error e =>
    have hft' : ForcingTerm.create d m (c * T (Fin.last (n + 1))) (c * T 0) overlap alphaZ = .error e := by
      unfold ForcingTerm.create at hft ⊢
      simp only [mul_le_mul_iff_right₀ hc]
      split_ifs at hft ⊢ <;> exact hft
    rw [dmpImitate_error hft hreg, dmpImitate_error (T := fun i => c * T i) hft' hreg]
  | ok ft =>
    have hft' : ForcingTerm.create d m (c * T (Fin.last (n + 1))) (c * T 0) overlap alphaZ =
        .ok { ft with
          goalT := c * T (Fin.last (n + 1))
          startT := c * T 0
          executionTime := c * T (Fin.last (n + 1)) - c * T 0 } := by
      unfold ForcingTerm.create at hft ⊢
      simp only [mul_le_mul_iff_right₀ hc]
      split_ifs at hft ⊢
      simp only [hcen, hwid]
      injection hft with hft
      rw [← hft]
    rw [dmpImitate_eq hft (not_lt.1 hreg), dmpImitate_eq (T := fun i => c * T i) hft' (not_lt.1 hreg), hF]
    have hX : ({ ft with
          goalT := c * T (Fin.last (n + 1))
          startT := c * T 0
          executionTime := c * T (Fin.last (n + 1)) - c * T 0 } : ForcingTerm d m).designMatrix (fun i => c * T i) =
        ft.designMatrix T := by
      funext i t
      unfold ForcingTerm.designMatrix
      simp only [phase_scale hc.ne']
      rfl
    rw [hX]

theorem determineForces_affine (T : Fin (n + 2) → ℝ) (Y : Fin (n + 2) → Vec d) (alphaY betaY : Vec d) (alphaZ : ℝ)
    (afv smooth : Bool) (c : ℝ) (b : Vec d) :
    determineForces T (fun i => c • Y i + b) alphaY betaY alphaZ afv smooth =
      fun t => c • determineForces T Y alphaY betaY alphaZ afv smooth t := by
  have h1 : demoYd T (fun i => c • Y i + b) afv = fun t k => c * demoYd T Y afv t k := by
    funext t k
    unfold demoYd
    have := gradient_affine (fun i => Y i k) c (b k) t
    simp only [Pi.add_apply, Pi.smul_apply, smul_eq_mul] at this ⊢
    rw [this]
    split_ifs
    · simp
    · rw [mul_div_assoc]
  have h2 : demoYdd T (fun i => c • Y i + b) afv = fun t k => c * demoYdd T Y afv t k := by
    funext t k
    unfold demoYdd
    rw [h1]
    have := gradient_affine (fun i => demoYd T Y afv i k) c 0 t
    simp only [add_zero] at this
    simp only [this]
    split_ifs
    · simp
    · rw [mul_div_assoc]
  funext t k
  simp only [determineForces, h1, h2, Pi.add_apply, Pi.smul_apply, smul_eq_mul]
  cases smooth <;> simp <;> ring

/-- **C27.** Scaling all positions by a factor and shifting them by a constant multiplies the learned weights by the
factor (the shift has no influence) and transforms start and goal in the same way. -/
theorem C27_affine (m : ℕ) (T : Fin (n + 2) → ℝ) (Y : Fin (n + 2) → Vec d) (reg : ℝ)
    (alphaY betaY : Vec d) (overlap alphaZ : ℝ) (afv smooth : Bool) (c : ℝ) (b : Vec d) :
    dmpImitate m T (fun i => c • Y i + b) reg alphaY betaY overlap alphaZ afv smooth =
      (dmpImitate m T Y reg alphaY betaY overlap alphaZ afv smooth).map
        (fun r => (fun k i => c * r.1 k i, c • r.2.1 + b, c • r.2.2 + b)) := by
  by_cases hreg : reg < 0
  · rw [dmpImitate_neg hreg, dmpImitate_neg hreg]; rfl
  cases hft : ForcingTerm.create d m (T (Fin.last (n + 1))) (T 0) overlap alphaZ with
  | error e => rw [dmpImitate_error hft hreg, dmpImitate_error hft hreg]; rfl
  | ok ft =>
    rw [dmpImitate_eq hft (not_lt.1 hreg), dmpImitate_eq hft (not_lt.1 hreg), determineForces_affine]
    have h := ridge_smul (Matrix.of (ft.designMatrix T))
      (Matrix.of (determineForces T Y alphaY betaY alphaZ afv smooth)) reg c
    have e : (Matrix.of (fun t => c • determineForces T Y alphaY betaY alphaZ afv smooth t)) =
      c • Matrix.of (determineForces T Y alphaY betaY alphaZ afv smooth) := rfl
    rw [e, h]
    rfl

theorem interpolate_two (ft : ForcingTerm 1 2) (t0 t1 F0 : ℝ)
    (hdet : ft.rbf (ft.phaseAt t0) 0 * ft.rbf (ft.phaseAt t1) 1 -
      ft.rbf (ft.phaseAt t0) 1 * ft.rbf (ft.phaseAt t1) 0 ≠ 0) :
    ∃ V : Fin 1 → Fin 2 → ℝ, ({ ft with weights := V } : ForcingTerm 1 2).call t0 0 = F0 ∧
      ({ ft with weights := V } : ForcingTerm 1 2).call t1 0 = 0 := by
  have hz : ∀ t, 0 < ft.phaseAt t := fun t => Real.exp_pos _
  have hr : ∀ z i, 0 < ft.rbf z i := fun z i => Real.exp_pos _
  set A := ft.rbf (ft.phaseAt t0) 0 with hA
  set B := ft.rbf (ft.phaseAt t0) 1 with hB
  set C := ft.rbf (ft.phaseAt t1) 0 with hC
  set D := ft.rbf (ft.phaseAt t1) 1 with hD
  set c := F0 * (A + B) / (ft.phaseAt t0 * (A * D - B * C)) with hc
  have hcall : ∀ (V : Fin 1 → Fin 2 → ℝ) t, ({ ft with weights := V } : ForcingTerm 1 2).call t 0 =
      ft.phaseAt t * ((V 0 0 * ft.rbf (ft.phaseAt t) 0 + V 0 1 * ft.rbf (ft.phaseAt t) 1) /
        (ft.rbf (ft.phaseAt t) 0 + ft.rbf (ft.phaseAt t) 1)) := by
    intro V t
    show ft.phaseAt t * ∑ i, V 0 i * ft.activations (ft.phaseAt t) i = _
    unfold ForcingTerm.activations
    rw [Fin.sum_univ_two, Fin.sum_univ_two]
    ring
  refine ⟨fun _ i => if i = 0 then c * D else -c * C, ?_, ?_⟩
  · rw [hcall]
    simp only [if_true, Fin.one_eq_zero_iff, OfNat.ofNat_ne_one, if_false]
    rw [← hA, ← hB]
    have h1 : A + B ≠ 0 := by
      have := hr (ft.phaseAt t0) 0
      have := hr (ft.phaseAt t0) 1
      positivity
    have h2 := (hz t0).ne'
    have e : c * D * A + -c * C * B = c * (A * D - B * C) := by ring
    rw [e, hc]
    field_simp
  · rw [hcall]
    simp only [if_true, Fin.one_eq_zero_iff, OfNat.ofNat_ne_one, if_false]
    rw [← hC, ← hD]
    have e : c * D * C + -c * C * D = 0 := by ring
    rw [e]; simp

/-- If the forces can be reproduced exactly, unregularised imitation does so. -/
theorem imitation_interpolates {T : Fin (n + 2) → ℝ} {Y : Fin (n + 2) → Vec d}
    {alphaY betaY : Vec d} {overlap alphaZ : ℝ} {afv smooth : Bool} {ft : ForcingTerm d m}
    (hft : ForcingTerm.create d m (T (Fin.last (n + 1))) (T 0) overlap alphaZ = .ok ft)
    {w : Fin d → Fin m → ℝ} {ys yg : Vec d}
    (h : dmpImitate m T Y 0 alphaY betaY overlap alphaZ afv smooth = .ok (w, ys, yg)) {V : Fin d → Fin m → ℝ}
    (hV : ∀ t, ({ ft with weights := V } : ForcingTerm d m).call (T t) =
      determineForces T Y alphaY betaY alphaZ afv smooth t) (t : Fin (n + 2)) :
    ({ ft with weights := w } : ForcingTerm d m).call (T t) =
      determineForces T Y alphaY betaY alphaZ afv smooth t := by
  have hle := (C26_imitation_optimal hft h V).1
  unfold regularizedError at hle
  simp only [hV, sub_self, zero_mul, add_zero, ne_eq, OfNat.ofNat_ne_zero, not_false_eq_true, zero_pow,
    Finset.sum_const_zero] at hle
  have hz := (Finset.sum_eq_zero_iff_of_nonneg (fun t _ => Finset.sum_nonneg fun k _ => sq_nonneg _)).1
    (le_antisymm hle (Finset.sum_nonneg fun t _ => Finset.sum_nonneg fun k _ => sq_nonneg _)) t (Finset.mem_univ t)
  funext k
  have := (Finset.sum_eq_zero_iff_of_nonneg (fun k _ => sq_nonneg _)).1 hz k (Finset.mem_univ k)
  have := pow_eq_zero_iff (two_ne_zero) |>.1 this
  linarith

/-- Finding (C27): the learned weights depend on the origin of the time axis. The same movement, demonstrated at times
`0, 1` and `1/2, 3/2`, results in different weights (although the forces to be learned are the same), because the
centers of the basis functions ignore the start time. -/
theorem C27_time_shift_changes_weights :
    ∃ (T : Fin 2 → ℝ) (Y : Fin 2 → Vec 1) (w w' : Fin 1 → Fin 2 → ℝ),
      dmpImitate (n := 0) 2 T Y 0 1 1 (8 / 10) (-Real.log (1 / 100)) false false = .ok (w, Y 0, Y 1) ∧
      dmpImitate (n := 0) 2 (fun i => T i + 1 / 2) Y 0 1 1 (8 / 10) (-Real.log (1 / 100)) false false =
        .ok (w', Y 0, Y 1) ∧
      determineForces (n := 0) (fun i => T i + 1 / 2) Y 1 1 (-Real.log (1 / 100)) false false =
        determineForces (n := 0) T Y 1 1 (-Real.log (1 / 100)) false false ∧ w ≠ w' := by
  set a : ℝ := -Real.log (1 / 100) with ha
  have ha0 : 0 < a := by
    rw [ha, neg_pos]; exact Real.log_neg (by norm_num) (by norm_num)
  set L : ℝ := -Real.log (8 / 10) with hL
  have hL0 : 0 < L := by
    rw [hL, neg_pos]; exact Real.log_neg (by norm_num) (by norm_num)
  set T : Fin 2 → ℝ := fun i => i.val with hTdef
  set Y : Fin 2 → Vec 1 := fun i _ => i.val with hYdef
  set p := Real.exp (-a / 2) with hp
  have hp0 : 0 < p := Real.exp_pos _
  have hp1 : p < 1 := by rw [hp]; exact (Real.exp_lt_exp.2 (by linarith : -a / 2 < 0)).trans_eq Real.exp_zero
  have hpp : Real.exp (-a) = p ^ 2 := by
    rw [hp, ← Real.exp_nat_mul]; congr 1; push_cast; ring
  -- the two forcing terms
  obtain ⟨ft, hft⟩ : ∃ ft, ForcingTerm.create 1 2 (T (Fin.last 1)) (T 0) (8 / 10) a = .ok ft := by
    unfold ForcingTerm.create
    rw [if_neg (by norm_num), if_neg (by simp [hTdef]), if_neg (by norm_num)]
    exact ⟨_, rfl⟩
  obtain ⟨ft', hft'⟩ : ∃ ft, ForcingTerm.create 1 2 (T (Fin.last 1) + 1 / 2) (T 0 + 1 / 2) (8 / 10) a = .ok ft := by
    unfold ForcingTerm.create
    rw [if_neg (by norm_num), if_neg (by simp [hTdef]), if_neg (by norm_num)]
    exact ⟨_, rfl⟩
  have hz : ∀ t, ft.phaseAt t = Real.exp (-a * t) := by
    intro t
    obtain ⟨h1, h2, _, h4, _⟩ := create_eq hft
    unfold ForcingTerm.phaseAt phase
    rw [h1, h2, h4]; simp [hTdef]
  have hz' : ∀ t, ft'.phaseAt (t + 1 / 2) = Real.exp (-a * t) := by
    intro t
    obtain ⟨h1, h2, _, h4, _⟩ := create_eq hft'
    unfold ForcingTerm.phaseAt phase
    rw [h1, h2, h4]; simp [hTdef]
  have hr : ∀ z, ft.rbf z 0 = Real.exp (-(L / (p ^ 2 - 1) ^ 2) * (z - 1) ^ 2) ∧
      ft.rbf z 1 = Real.exp (-(L / (p ^ 2 - 1) ^ 2) * (z - p ^ 2) ^ 2) := by
    intro z
    unfold ForcingTerm.create at hft
    rw [if_neg (by norm_num), if_neg (by simp [hTdef]), if_neg (by norm_num)] at hft
    injection hft with hft
    subst hft
    simp only [ForcingTerm.rbf, ForcingTerm.initWidth, ForcingTerm.initCenter, phase, ← hL]
    clear_value L
    norm_num [hTdef]
    rw [hpp]
    exact ⟨.inl rfl, rfl⟩
  have hr' : ∀ z, ft'.rbf z 0 = Real.exp (-(L / (p - 1) ^ 2) * (z - 1) ^ 2) ∧
      ft'.rbf z 1 = Real.exp (-(L / (p - 1) ^ 2) * (z - p) ^ 2) := by
    intro z
    unfold ForcingTerm.create at hft'
    rw [if_neg (by norm_num), if_neg (by simp [hTdef]), if_neg (by norm_num)] at hft'
    injection hft' with hft'
    subst hft'
    have e : -(a * (1 / 2)) = -a / 2 := by ring
    simp only [ForcingTerm.rbf, ForcingTerm.initWidth, ForcingTerm.initCenter, phase, ← hL]
    clear_value L
    norm_num [hTdef, e]
    rw [← hp]
    exact ⟨.inl rfl, rfl⟩
  have hne : p - 1 ≠ 0 := by linarith
  have hne2 : p ^ 2 - 1 ≠ 0 := by nlinarith
  have v00 : ft.rbf 1 0 = 1 := by rw [(hr 1).1]; simp
  have v01 : ft.rbf 1 1 = Real.exp (-L) := by
    rw [(hr 1).2]; congr 1
    have : (1 - p ^ 2) ^ 2 = (p ^ 2 - 1) ^ 2 := by ring
    rw [this]; field_simp
  have v10 : ft.rbf (p ^ 2) 0 = Real.exp (-L) := by
    rw [(hr _).1]; congr 1; field_simp
  have v11 : ft.rbf (p ^ 2) 1 = 1 := by rw [(hr _).2]; simp
  have u00 : ft'.rbf 1 0 = 1 := by rw [(hr' 1).1]; simp
  have u01 : ft'.rbf 1 1 = Real.exp (-L) := by
    rw [(hr' 1).2]; congr 1
    have : (1 - p) ^ 2 = (p - 1) ^ 2 := by ring
    rw [this]; field_simp
  have u10 : ft'.rbf (p ^ 2) 0 = Real.exp (-(L * (p + 1) ^ 2)) := by
    rw [(hr' _).1]; congr 1
    have : (p ^ 2 - 1) ^ 2 = (p - 1) ^ 2 * (p + 1) ^ 2 := by ring
    rw [this]; field_simp
  have u11 : ft'.rbf (p ^ 2) 1 = Real.exp (-(L * p ^ 2)) := by
    rw [(hr' _).2]; congr 1
    have : (p ^ 2 - p) ^ 2 = (p - 1) ^ 2 * p ^ 2 := by ring
    rw [this]; field_simp
  have z0 : ft.phaseAt (T 0) = 1 := by rw [hz]; simp [hTdef]
  have z1 : ft.phaseAt (T 1) = p ^ 2 := by rw [hz, ← hpp]; simp [hTdef]
  have z0' : ft'.phaseAt (T 0 + 1 / 2) = 1 := by rw [hz']; simp [hTdef]
  have z1' : ft'.phaseAt (T 1 + 1 / 2) = p ^ 2 := by rw [hz', ← hpp]; simp [hTdef]
  -- forces
  have hF : determineForces (n := 0) (fun i => T i + 1 / 2) Y 1 1 a false false =
      determineForces (n := 0) T Y 1 1 a false false := by
    have := determineForces_time (n := 0) T Y 1 1 a false false one_ne_zero (1 / 2)
    simpa using this
  have hFval : determineForces (n := 0) T Y 1 1 a false false 0 0 = -1 ∧
      determineForces (n := 0) T Y 1 1 a false false 1 0 = 0 := by
    constructor <;> simp [determineForces, demoYdd, demoYd, gradient, hTdef, hYdef]
  -- exact interpolation
  have hd : ft.rbf (ft.phaseAt (T 0)) 0 * ft.rbf (ft.phaseAt (T 1)) 1 -
      ft.rbf (ft.phaseAt (T 0)) 1 * ft.rbf (ft.phaseAt (T 1)) 0 ≠ 0 := by
    rw [z0, z1, v00, v01, v10, v11]
    have h1 : Real.exp (-L) < 1 := (Real.exp_lt_exp.2 (by linarith : -L < 0)).trans_eq Real.exp_zero
    have h2 := Real.exp_pos (-L)
    nlinarith
  have hcmp : Real.exp (-L) * Real.exp (-(L * (p + 1) ^ 2)) < Real.exp (-(L * p ^ 2)) := by
    rw [← Real.exp_add]
    apply Real.exp_lt_exp.2
    nlinarith
  have hcmp2 : Real.exp (-(L * (p + 1) ^ 2)) < Real.exp (-L) * Real.exp (-(L * p ^ 2)) := by
    rw [← Real.exp_add]
    apply Real.exp_lt_exp.2
    nlinarith [mul_pos hL0 hp0]
  have hd' : ft'.rbf (ft'.phaseAt (T 0 + 1 / 2)) 0 * ft'.rbf (ft'.phaseAt (T 1 + 1 / 2)) 1 -
      ft'.rbf (ft'.phaseAt (T 0 + 1 / 2)) 1 * ft'.rbf (ft'.phaseAt (T 1 + 1 / 2)) 0 ≠ 0 := by
    rw [z0', z1', u00, u01, u10, u11]
    linarith
  obtain ⟨V, hV0, hV1⟩ := interpolate_two ft (T 0) (T 1) (-1) hd
  obtain ⟨V', hV0', hV1'⟩ := interpolate_two ft' (T 0 + 1 / 2) (T 1 + 1 / 2) (-1) hd'
  have him := dmpImitate_eq (Y := Y) (alphaY := 1) (betaY := 1) (afv := false) (smooth := false) hft le_rfl
  have him' := dmpImitate_eq (T := fun i => T i + 1 / 2) (Y := Y) (alphaY := 1) (betaY := 1) (afv := false)
    (smooth := false) hft' le_rfl
  refine ⟨T, Y, _, _, him, him', hF, ?_⟩
  intro heq
  have hint := imitation_interpolates hft him (V := V) (by
    intro t
    funext k
    rw [Subsingleton.elim k 0]
    refine Fin.cases ?_ (fun j => ?_) t
    · rw [hV0, hFval.1]
    · rw [Subsingleton.elim j 0]; exact hV1.trans hFval.2.symm)
  have hint' := imitation_interpolates (T := fun i => T i + 1 / 2) hft' him' (V := V') (by
    intro t
    funext k
    rw [Subsingleton.elim k 0, hF]
    refine Fin.cases ?_ (fun j => ?_) t
    · rw [hV0', hFval.1]
    · rw [Subsingleton.elim j 0]; exact hV1'.trans hFval.2.symm)
  rw [← heq] at hint'
  obtain ⟨w, hw⟩ : ∃ w : Fin 1 → Fin 2 → ℝ, w = ridgeRegression (of (ft.designMatrix T))
    (of (determineForces (n := 0) T Y 1 1 a false false)) 0 := ⟨_, rfl⟩
  rw [← hw] at hint hint'
  have e0 := congrFun (hint 0) 0
  have e1 := congrFun (hint 1) 0
  have e1' := congrFun (hint' 1) 0
  rw [hFval.1] at e0
  rw [hFval.2] at e1
  rw [hF, hFval.2] at e1'
  have hcall : ∀ (g : ForcingTerm 1 2) t, ({ g with weights := w } : ForcingTerm 1 2).call t 0 =
      g.phaseAt t * ((w 0 0 * g.rbf (g.phaseAt t) 0 + w 0 1 * g.rbf (g.phaseAt t) 1) /
        (g.rbf (g.phaseAt t) 0 + g.rbf (g.phaseAt t) 1)) := by
    intro g t
    show g.phaseAt t * ∑ i, w 0 i * g.activations (g.phaseAt t) i = _
    unfold ForcingTerm.activations
    rw [Fin.sum_univ_two, Fin.sum_univ_two]
    ring
  rw [hcall, z0, v00, v01] at e0
  rw [hcall, z1, v10, v11] at e1
  rw [hcall] at e1'
  simp only [z1', u10, u11] at e1'
  have hp2 : p ^ 2 ≠ 0 := pow_ne_zero 2 hp0.ne'
  have f1 : w 0 0 * Real.exp (-L) + w 0 1 * 1 = 0 := by
    rcases div_eq_zero_iff.1 ((mul_eq_zero.1 e1).resolve_left hp2) with h | h
    · exact h
    · have := Real.exp_pos (-L); linarith
  have f2 : w 0 0 * Real.exp (-(L * (p + 1) ^ 2)) + w 0 1 * Real.exp (-(L * p ^ 2)) = 0 := by
    rcases div_eq_zero_iff.1 ((mul_eq_zero.1 e1').resolve_left hp2) with h | h
    · exact h
    · have := Real.exp_pos (-(L * (p + 1) ^ 2)); have := Real.exp_pos (-(L * p ^ 2)); linarith
  have f3 : w 0 1 = -(w 0 0 * Real.exp (-L)) := by linarith
  rw [f3] at f2
  have f4 : w 0 0 * (Real.exp (-(L * (p + 1) ^ 2)) - Real.exp (-L) * Real.exp (-(L * p ^ 2))) = 0 := by linarith
  have f5 : w 0 0 = 0 := (mul_eq_zero.1 f4).resolve_right (by linarith)
  rw [f3, f5] at e0
  norm_num at e0

end Verif
