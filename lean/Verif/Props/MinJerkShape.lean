import Verif.Props.MinJerk
import Mathlib.Analysis.Calculus.Deriv.MeanValue
import Mathlib.LinearAlgebra.Pi

/-! # C117: the shape of minimum jerk trajectories, independence of units and coordinates -/

namespace Verif
open Spec
variable {d e : ℕ}

/-! ## Straight lines -/

/-- Part of the distance that has been covered, for the part `s` of the duration. -/
noncomputable def mjProfile (s : ℝ) : ℝ := 10 * s ^ 3 - 15 * s ^ 4 + 6 * s ^ 5

theorem mjProfile_mono : MonotoneOn mjProfile (Set.Icc 0 1) := by
  have hd : ∀ s, HasDerivAt mjProfile (30 * s ^ 2 * (1 - s) ^ 2) s := by
    intro s
    have h := (((hasDerivAt_pow 3 s).const_mul 10).sub ((hasDerivAt_pow 4 s).const_mul 15)).add
      ((hasDerivAt_pow 5 s).const_mul 6)
    refine h.congr_deriv ?_
    norm_num
    ring
  refine monotoneOn_of_deriv_nonneg (convex_Icc 0 1) (fun s _ => (hd s).continuousAt.continuousWithinAt)
    (fun s _ => (hd s).differentiableAt.differentiableWithinAt) fun s _ => ?_
  rw [(hd s).deriv]
  positivity

/-- **C117 (straight).** The trajectory runs on the straight line from start to goal and never backwards: in all
dimensions, for all starts and goals, the same part of the way has been covered after `k` steps, and this part never
decreases. The speed is never larger than 15/8 of the average speed. -/
theorem C117_straight {τ dt : ℝ} (hdt : 0 < dt) (hτ : 2 * dt ≤ τ) :
    ∃ c v : ℕ → ℝ, c 0 = 0 ∧ Monotone c ∧ (∀ k, c k ≤ 1) ∧ (∀ k, 0 ≤ v k ∧ v k ≤ 15 / 8 / (τ - dt)) ∧
      ∀ (d : ℕ) (start goal : Vec d), ∃ rows, generateMinimumJerk start goal τ dt = .ok rows ∧
        ∀ (k : ℕ) (hk : k < rows.length),
          rows[k].1 = start + c k • (goal - start) ∧ rows[k].2.1 = v k • (goal - start) := by
  have hT : 0 < τ - dt := by linarith
  set N := ⌊τ / dt⌋₊ with hN
  have hN2 : 2 ≤ N := Nat.le_floor (by rw [le_div_iff₀ hdt]; exact_mod_cast hτ)
  have hfl : (N : ℝ) * dt ≤ τ := by
    have := Nat.floor_le (a := τ / dt) (div_nonneg (by linarith) hdt.le)
    rwa [le_div_iff₀ hdt] at this
  set σ : ℕ → ℝ := fun k => (min k (N - 1) : ℕ) * dt / (τ - dt) with hσ
  have hs0 : ∀ k, 0 ≤ σ k := fun k => by positivity
  have hs1 : ∀ k, σ k ≤ 1 := fun k => by
    rw [hσ]
    simp only
    rw [div_le_one hT]
    have : ((min k (N - 1) : ℕ) : ℝ) + 1 ≤ N := by
      have : min k (N - 1) + 1 ≤ N := by omega
      exact_mod_cast this
    nlinarith
  have hmono : Monotone σ := fun i j h => by
    simp only [hσ]
    have : ((min i (N - 1) : ℕ) : ℝ) ≤ (min j (N - 1) : ℕ) := by
      have : min i (N - 1) ≤ min j (N - 1) := min_le_min_right _ h
      exact_mod_cast this
    gcongr
  refine ⟨fun k => mjProfile (σ k), fun k => 30 * (σ k * (1 - σ k)) ^ 2 / (τ - dt), ?_, ?_, ?_, ?_, ?_⟩
  · simp [hσ, mjProfile]
  · exact fun i j h => mjProfile_mono ⟨hs0 i, hs1 i⟩ ⟨hs0 j, hs1 j⟩ (hmono h)
  · intro k
    have := mjProfile_mono ⟨hs0 k, hs1 k⟩ ⟨zero_le_one, le_rfl⟩ (hs1 k)
    refine this.trans ?_
    norm_num [mjProfile]
  · intro k
    refine ⟨by positivity, div_le_div_of_nonneg_right ?_ hT.le⟩
    have h1 : 0 ≤ σ k * (1 - σ k) := mul_nonneg (hs0 k) (by linarith [hs1 k])
    have h2 : σ k * (1 - σ k) ≤ 1 / 4 := by nlinarith [sq_nonneg (2 * σ k - 1)]
    nlinarith
  · intro d start goal
    obtain ⟨rows, h1, h2, h3⟩ := C40_closed_form start goal hdt hτ
    refine ⟨rows, h1, fun k hk => ?_⟩
    have h := fun i => h3 k hk i
    simp only [deriv_mj0] at h
    constructor
    · funext i
      rw [(h i).1, minimumJerk]
      simp only [Pi.add_apply, Pi.smul_apply, Pi.sub_apply, smul_eq_mul, mjProfile, hσ]
      ring
    · funext i
      rw [(h i).2.1, mj1]
      simp only [Pi.smul_apply, Pi.sub_apply, smul_eq_mul, hσ]
      ring

/-- **C117 (backwards).** The trajectory from the goal back to the start is the same trajectory backwards: same positions
and accelerations, opposite velocities (if `execution_time` is a multiple of `dt`). -/
theorem C117_backwards (start goal : Vec d) {dt : ℝ} (hdt : 0 < dt) {n : ℕ} (hn : 2 ≤ n) :
    ∃ rows rows', generateMinimumJerk start goal (n * dt) dt = .ok rows ∧
      generateMinimumJerk goal start (n * dt) dt = .ok rows' ∧ rows.length = n + 1 ∧ rows'.length = n + 1 ∧
      ∀ k l : ℕ, k + l = n - 1 → ∀ r, rows[k]? = some r → rows'[l]? = some (r.1, -r.2.1, r.2.2) := by
  have hn' : (2 : ℝ) ≤ n := by exact_mod_cast hn
  obtain ⟨rows, h1, h2, h3⟩ := C40_closed_form start goal hdt (τ := n * dt) (by nlinarith)
  obtain ⟨rows', h1', h2', h3'⟩ := C40_closed_form goal start hdt (τ := n * dt) (by nlinarith)
  have hf : ⌊(n : ℝ) * dt / dt⌋₊ = n := by rw [mul_div_assoc, div_self hdt.ne', mul_one, Nat.floor_natCast]
  rw [hf] at h2 h2'
  simp only [hf, deriv_mj0, deriv_mj1] at h3 h3'
  refine ⟨rows, rows', h1, h1', h2, h2', fun k l hkl r hr => ?_⟩
  have hk : k < rows.length := by omega
  have hl : l < rows'.length := by omega
  rw [List.getElem?_eq_getElem hk] at hr
  rw [List.getElem?_eq_getElem hl]
  obtain rfl : rows[k] = r := by simpa using hr
  have hT : (n : ℝ) * dt - dt ≠ 0 := by nlinarith
  have hk1 : min k (n - 1) = k := by omega
  have hl1 : min l (n - 1) = l := by omega
  have hs : (l : ℝ) * dt / (n * dt - dt) = 1 - k * dt / (n * dt - dt) := by
    have : (k : ℝ) + l = n - 1 := by
      have : k + l + 1 = n := by omega
      have : (k : ℝ) + l + 1 = n := by exact_mod_cast this
      linarith
    rw [eq_sub_iff_add_eq, ← add_div, ← add_mul, add_comm (l : ℝ), this, div_eq_one_iff_eq hT]
    ring
  refine congrArg some (Prod.ext ?_ (Prod.ext ?_ ?_)) <;> funext i
  · show rows'[l].1 i = rows[k].1 i
    rw [(h3 k hk i).1, (h3' l hl i).1, hk1, hl1, minimumJerk, minimumJerk, hs]
    ring
  · show rows'[l].2.1 i = -rows[k].2.1 i
    rw [(h3 k hk i).2.1, (h3' l hl i).2.1, hk1, hl1, mj1, mj1, hs]
    ring
  · show rows'[l].2.2 i = rows[k].2.2 i
    rw [(h3 k hk i).2.2, (h3' l hl i).2.2, hk1, hl1, mj2, mj2, hs]
    ring

/-! ## Coordinates -/

/-- Position, velocity and acceleration in other coordinates. -/
def Spec.jetMapped (A : Vec d →ₗ[ℝ] Vec e) (b : Vec e) (r : Jet d) : Jet e := (A r.1 + b, A r.2.1, A r.2.2)

theorem minJerkBody_linear (τ dt : ℝ) (t : ℕ) : ∃ P : Matrix (Fin 3) (Fin 3) ℝ, ∀ (d : ℕ) (g : Vec d) (s : Jet d),
    minJerkBody g τ dt t s =
      (s.1 + (P 0 0 • (g - s.1) + P 0 1 • s.2.1 + P 0 2 • s.2.2),
        P 1 0 • (g - s.1) + P 1 1 • s.2.1 + P 1 2 • s.2.2, P 2 0 • (g - s.1) + P 2 1 • s.2.1 + P 2 2 • s.2.2) := by
  by_cases h : dt ≤ τ - t * dt
  · set u := τ - t * dt with hu
    refine ⟨!![6 / u ^ 5 * dt ^ 5 - 15 / u ^ 4 * dt ^ 4 + 10 / u ^ 3 * dt ^ 3,
        -3 * u / u ^ 5 * dt ^ 5 + 8 * u / u ^ 4 * dt ^ 4 - 6 * u / u ^ 3 * dt ^ 3 + dt,
        -(u ^ 2 / 2) / u ^ 5 * dt ^ 5 + 3 * u ^ 2 / 2 / u ^ 4 * dt ^ 4 - 3 * u ^ 2 / 2 / u ^ 3 * dt ^ 3 + dt ^ 2 / 2;
        5 * (6 / u ^ 5) * dt ^ 4 - 4 * (15 / u ^ 4) * dt ^ 3 + 3 * (10 / u ^ 3) * dt ^ 2,
        5 * (-3 * u / u ^ 5) * dt ^ 4 + 4 * (8 * u / u ^ 4) * dt ^ 3 - 3 * (6 * u / u ^ 3) * dt ^ 2 + 1,
        5 * (-(u ^ 2 / 2) / u ^ 5) * dt ^ 4 + 4 * (3 * u ^ 2 / 2 / u ^ 4) * dt ^ 3 - 3 * (3 * u ^ 2 / 2 / u ^ 3) * dt ^ 2 + dt;
        20 * (6 / u ^ 5) * dt ^ 3 - 12 * (15 / u ^ 4) * dt ^ 2 + 6 * (10 / u ^ 3) * dt,
        20 * (-3 * u / u ^ 5) * dt ^ 3 + 12 * (8 * u / u ^ 4) * dt ^ 2 - 6 * (6 * u / u ^ 3) * dt,
        20 * (-(u ^ 2 / 2) / u ^ 5) * dt ^ 3 + 12 * (3 * u ^ 2 / 2 / u ^ 4) * dt ^ 2 - 6 * (3 * u ^ 2 / 2 / u ^ 3) * dt + 1],
      fun d g s => ?_⟩
    rw [minJerkBody, ← hu, if_pos h]
    refine Prod.ext ?_ (Prod.ext ?_ ?_) <;> funext i <;>
      simp [Matrix.of_apply, Matrix.cons_val', Pi.add_apply, Pi.smul_apply, Pi.sub_apply] <;> ring
  · refine ⟨!![0, 0, 0; 0, 1, 0; 0, 0, 1], fun d g s => ?_⟩
    rw [minJerkBody, if_neg h]
    simp [Matrix.of_apply, Matrix.cons_val']

theorem minJerkState_mapped (A : Vec d →ₗ[ℝ] Vec e) (b : Vec e) (start goal : Vec d) (τ dt : ℝ) (k : ℕ) :
    minJerkState (A start + b) (A goal + b) τ dt k = jetMapped A b (minJerkState start goal τ dt k) := by
  induction k with
  | zero => simp [minJerkState, jetMapped]
  | succ k ih =>
    obtain ⟨P, hP⟩ := minJerkBody_linear τ dt (k + 1)
    rw [minJerkState, minJerkState, ih, hP, hP]
    have h : A goal + b - (A (minJerkState start goal τ dt k).1 + b) = A (goal - (minJerkState start goal τ dt k).1) := by
      rw [map_sub]; abel
    simp only [jetMapped, h, map_add, map_smul]
    refine Prod.ext ?_ rfl
    simp only
    abel

/-- **C117 (coordinates).** In other coordinates (rotated, mirrored, scaled, shifted, projected: any affine map, also to
another number of dimensions) the trajectory is the same: an exception is raised for both or for none. -/
theorem C117_coordinates (A : Vec d →ₗ[ℝ] Vec e) (b : Vec e) (start goal : Vec d) (τ : ℝ) {dt : ℝ} (hdt : 0 < dt) :
    generateMinimumJerk (A start + b) (A goal + b) τ dt =
      (generateMinimumJerk start goal τ dt).map (List.map (jetMapped A b)) := by
  unfold generateMinimumJerk
  rw [if_neg hdt.ne', if_neg hdt.ne']
  simp only
  split_ifs
  · rfl
  · rfl
  · simp only [Except.map, List.map_map]
    refine congrArg Except.ok (List.map_congr_left fun k _ => ?_)
    exact minJerkState_mapped A b start goal τ dt k

/-- **C117 (superposition).** The trajectory of the sum of two movements is the sum of the trajectories. -/
theorem C117_superposition (p q : ℝ) (start goal start' goal' : Vec d) {τ dt : ℝ} (hdt : 0 < dt) (hτ : 0 ≤ τ) :
    ∃ rows rows' mixed, generateMinimumJerk start goal τ dt = .ok rows ∧
      generateMinimumJerk start' goal' τ dt = .ok rows' ∧
      generateMinimumJerk (p • start + q • start') (p • goal + q • goal') τ dt = .ok mixed ∧
      mixed.length = rows.length ∧ rows'.length = rows.length ∧
      ∀ (k : ℕ) (r r' : Jet d), rows[k]? = some r → rows'[k]? = some r' → mixed[k]? = some (p • r + q • r') := by
  refine ⟨_, _, _, generate_eq _ _ hdt hτ, generate_eq _ _ hdt hτ, generate_eq _ _ hdt hτ, by simp, by simp, ?_⟩
  intro k r r' hr hr'
  simp only [List.getElem?_map, Option.map_eq_some_iff] at hr hr' ⊢
  obtain ⟨i, hi, rfl⟩ := hr
  obtain ⟨j, hj, rfl⟩ := hr'
  rw [hi] at hj
  obtain rfl : i = j := by simpa using hj
  refine ⟨i, hi, ?_⟩
  clear hi hj
  induction i with
  | zero => simp [minJerkState]
  | succ i ih =>
    obtain ⟨P, hP⟩ := minJerkBody_linear τ dt (i + 1)
    rw [minJerkState, minJerkState, minJerkState, ih, hP, hP, hP]
    refine Prod.ext ?_ (Prod.ext ?_ ?_) <;> funext l <;>
      simp only [Prod.fst_add, Prod.snd_add, Prod.smul_fst, Prod.smul_snd, Pi.add_apply, Pi.smul_apply, Pi.sub_apply,
        smul_eq_mul] <;> ring

/-! ## Unit of time -/

/-- Position, velocity and acceleration if times are multiplied by `κ`. -/
noncomputable def Spec.jetSlower (κ : ℝ) (r : Jet d) : Jet d := (r.1, κ⁻¹ • r.2.1, (κ⁻¹) ^ 2 • r.2.2)

theorem minJerkState_slower {κ : ℝ} (hκ : 0 < κ) (start goal : Vec d) (τ : ℝ) {dt : ℝ} (hdt : 0 < dt) (k : ℕ) :
    minJerkState start goal (κ * τ) (κ * dt) k = jetSlower κ (minJerkState start goal τ dt k) := by
  induction k with
  | zero => simp [minJerkState, jetSlower]
  | succ k ih =>
    rw [minJerkState, minJerkState, ih]
    generalize minJerkState start goal τ dt k = s
    unfold minJerkBody
    have e : κ * τ - ((k + 1 : ℕ) : ℝ) * (κ * dt) = κ * (τ - ((k + 1 : ℕ) : ℝ) * dt) := by ring
    rw [e]
    simp only [mul_le_mul_iff_right₀ hκ]
    by_cases h : dt ≤ τ - ((k + 1 : ℕ) : ℝ) * dt
    · rw [if_pos h, if_pos h]
      have hu : τ - ((k + 1 : ℕ) : ℝ) * dt ≠ 0 := by linarith
      generalize τ - ((k + 1 : ℕ) : ℝ) * dt = u at *
      have hκ' := hκ.ne'
      refine Prod.ext ?_ (Prod.ext ?_ ?_) <;> funext i <;>
        simp only [jetSlower, Pi.smul_apply, smul_eq_mul] <;> field_simp
    · rw [if_neg h, if_neg h]

/-- **C117 (unit of time).** With another unit of time (`execution_time` and `dt` multiplied by the same number) the
positions are the same, velocities and accelerations are converted. -/
theorem C117_unit_of_time {κ : ℝ} (hκ : 0 < κ) (start goal : Vec d) (τ : ℝ) {dt : ℝ} (hdt : 0 < dt) :
    generateMinimumJerk start goal (κ * τ) (κ * dt) =
      (generateMinimumJerk start goal τ dt).map (List.map (jetSlower κ)) := by
  unfold generateMinimumJerk
  rw [if_neg hdt.ne', if_neg (mul_pos hκ hdt).ne', mul_div_mul_left _ _ hκ.ne']
  simp only
  split_ifs
  · rfl
  · rfl
  · simp only [Except.map, List.map_map]
    refine congrArg Except.ok (List.map_congr_left fun k _ => ?_)
    exact minJerkState_slower hκ start goal τ hdt k

/-! ## The class -/

/-- **C117 (`MinimumJerkTrajectory`).** After `reset` (and any history before), the steps of an object whose start and goal
are given in other coordinates and whose times are given in another unit return the same movement in these coordinates
and units, and they end after the same number of steps. -/
theorem C117_class (A : Vec d →ₗ[ℝ] Vec e) (b : Vec e) {κ : ℝ} (hκ : 0 < κ) (s : MinimumJerkTrajectory d)
    (s' : MinimumJerkTrajectory e) (hdt : 0 < s.dt) (hτ : 0 ≤ s.executionTime) (h1 : s'.startY = A s.startY + b)
    (h2 : s'.goalY = A s.goalY + b) (h3 : s'.executionTime = κ * s.executionTime) (h4 : s'.dt = κ * s.dt)
    (xs : List (Vec d × Vec d)) (xs' : List (Vec e × Vec e)) (hx : xs'.length = xs.length) :
    ((MinimumJerkTrajectory.run xs').exec s').1 =
      ((MinimumJerkTrajectory.run xs).exec s).1.map (List.map fun r => (A r.1 + b, κ⁻¹ • A r.2)) := by
  have g := generate_eq s.startY s.goalY hdt hτ
  have g' : generateMinimumJerk s'.startY s'.goalY s'.executionTime s'.dt =
      .ok ((((List.range (⌊s.executionTime / s.dt⌋₊ + 1)).map
        (minJerkState s.startY s.goalY s.executionTime s.dt)).map (jetMapped A b)).map (jetSlower κ)) := by
    rw [h1, h2, h3, h4, C117_unit_of_time hκ _ _ _ hdt, C117_coordinates A b _ _ _ hdt, g]
    rfl
  rw [MinimumJerkTrajectory.C40_class s g xs, MinimumJerkTrajectory.C40_class s' g' xs', hx]
  simp only [List.length_map]
  split_ifs
  · simp only [Except.map, List.map_take, List.map_map]
    rfl
  · rfl

/-- A movement of one second and back. -/
example (start goal : Vec 3) : ∃ rows rows', generateMinimumJerk start goal 1 (1 / 100) = .ok rows ∧
    generateMinimumJerk goal start 1 (1 / 100) = .ok rows' ∧
    ∀ r : Jet 3, rows[30]? = some r → rows'[69]? = some ((r.1, -r.2.1, r.2.2) : Jet 3) := by
  obtain ⟨rows, rows', h1, h2, -, -, h3⟩ := C117_backwards start goal (dt := 1 / 100) (by norm_num) (n := 100) (by norm_num)
  norm_num at h1 h2
  exact ⟨rows, rows', by simpa using h1, by simpa using h2, h3 30 69 rfl⟩

/-- Meters to millimeters with a new object. -/
example (start goal : Vec 3) (xs : List (Vec 3 × Vec 3)) :
    ((MinimumJerkTrajectory.run xs).exec { MinimumJerkTrajectory.create 3 1 (1 / 100) with
        startY := (1000 : ℝ) • start, goalY := (1000 : ℝ) • goal }).1 =
      ((MinimumJerkTrajectory.run xs).exec { MinimumJerkTrajectory.create 3 1 (1 / 100) with
        startY := start, goalY := goal }).1.map (List.map fun r => ((1000 : ℝ) • r.1, (1000 : ℝ) • r.2)) := by
  rw [C117_class ((1000 : ℝ) • LinearMap.id) 0 one_pos { MinimumJerkTrajectory.create 3 1 (1 / 100) with
        startY := start, goalY := goal } { MinimumJerkTrajectory.create 3 1 (1 / 100) with
        startY := (1000 : ℝ) • start, goalY := (1000 : ℝ) • goal } (by norm_num [MinimumJerkTrajectory.create])
        (by norm_num [MinimumJerkTrajectory.create]) (by simp) (by simp) (by simp [MinimumJerkTrajectory.create])
        (by simp [MinimumJerkTrajectory.create]) xs xs rfl]
  simp

/-- Two dimensions rotated by a right angle and shifted, seconds to milliseconds. -/
example (start goal : Vec 2) : ∃ rows, generateMinimumJerk start goal 1 (1 / 100) = .ok rows ∧ rows.length = 101 ∧
    generateMinimumJerk ![-start 1 + 3, start 0 - 1] ![-goal 1 + 3, goal 0 - 1] (1000 * 1) (1000 * (1 / 100)) =
      .ok (rows.map fun r => (![-r.1 1 + 3, r.1 0 - 1],
        (1000 : ℝ)⁻¹ • ![-r.2.1 1, r.2.1 0], ((1000 : ℝ)⁻¹) ^ 2 • ![-r.2.2 1, r.2.2 0])) := by
  have hf : ⌊(1 : ℝ) / (1 / 100)⌋₊ = 100 := by norm_num
  set A : Vec 2 →ₗ[ℝ] Vec 2 := Matrix.mulVecLin !![0, -1; 1, 0] with hA
  have hAx : ∀ x : Vec 2, A x = ![-x 1, x 0] := by
    intro x
    funext i
    fin_cases i <;> simp [hA, Matrix.mulVec, dotProduct, Fin.sum_univ_two]
  have hAb : ∀ x : Vec 2, ![-x 1 + 3, x 0 - 1] = A x + ![3, -1] := by
    intro x
    rw [hAx]
    funext i
    fin_cases i <;> simp [sub_eq_add_neg]
  have g := generate_eq start goal (τ := 1) (dt := 1 / 100) (by norm_num) (by norm_num)
  refine ⟨_, g, by simp only [List.length_map, List.length_range, hf], ?_⟩
  rw [C117_unit_of_time (by norm_num) _ _ _ (by norm_num), hAb, hAb, C117_coordinates A _ _ _ _ (by norm_num), g]
  simp only [Except.map, List.map_map]
  refine congrArg Except.ok (List.map_congr_left fun k _ => ?_)
  simp only [Function.comp, jetMapped, jetSlower, hAb, hAx]

end Verif
