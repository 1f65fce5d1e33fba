import Verif.Lemmas.Kinematics

/-! # Lemmas about sequences of joint motions and forward kinematics -/

namespace Verif
open Matrix

variable {n : ℕ}

/-- All joints of the list exist. -/
def Known (joints : String → Option Joint) (l : List (String × ℝ)) : Prop :=
  ∀ x ∈ l, ∃ j, joints x.1 = some j

/-- The transforms after a sequence of `set_joint` calls of known joints. -/
noncomputable def writeJoints (joints : String → Option Joint) (T : String × String → Option Mat4) :
    List (String × ℝ) → String × String → Option Mat4
  | [] => T
  | (name, v) :: rest =>
    match joints name with
    | some j => writeJoints joints (Function.update T (j.fromFrame, j.toFrame) (some (j.transform v))) rest
    | none => T

theorem exec_setJoint {tm : TransformManager} {name : String} {j : Joint} (h : tm.joints name = some j) (v : ℝ) :
    (TransformManager.setJoint name v).exec tm = (.ok (), { tm with
      transforms := Function.update tm.transforms (j.fromFrame, j.toFrame) (some (j.transform v)) }) := by
  unfold TransformManager.setJoint
  rw [Py.exec_bind, Py.exec_get]
  simp only [h]
  rfl

theorem exec_setJoints (l : List (String × ℝ)) (tm : TransformManager) (h : Known tm.joints l) :
    (setJoints l).exec tm = (.ok (), { tm with transforms := writeJoints tm.joints tm.transforms l }) := by
  induction l generalizing tm with
  | nil => rfl
  | cons x rest ih =>
    obtain ⟨name, v⟩ := x
    obtain ⟨j, hj⟩ := h (name, v) (by simp)
    unfold setJoints
    rw [Py.exec_bind, exec_setJoint hj]
    simp only
    have hk : Known tm.joints rest := fun x hx => h x (List.mem_cons_of_mem _ hx)
    rw [ih { tm with
      transforms := Function.update tm.transforms (j.fromFrame, j.toFrame) (some (j.transform v)) } hk]
    simp only [writeJoints, hj]

/-- The key of the transform of a joint. -/
def Joint.key (j : Joint) : String × String := (j.fromFrame, j.toFrame)

theorem writeJoints_of_not_mem {joints : String → Option Joint} {l : List (String × ℝ)} (hl : Known joints l)
    {key : String × String} (h : ∀ x ∈ l, ∀ j, joints x.1 = some j → j.key ≠ key)
    (T : String × String → Option Mat4) : writeJoints joints T l key = T key := by
  induction l generalizing T with
  | nil => rfl
  | cons x rest ih =>
    obtain ⟨name, v⟩ := x
    obtain ⟨j, hj⟩ := hl (name, v) (by simp)
    unfold writeJoints
    simp only [hj]
    rw [ih (fun x hx => hl x (List.mem_cons_of_mem _ hx)) (fun x hx => h x (List.mem_cons_of_mem _ hx))]
    exact Function.update_of_ne (fun e => h (name, v) (by simp) j hj e.symm) _ _

theorem writeJoints_of_mem {joints : String → Option Joint} {l : List (String × ℝ)} (hl : Known joints l)
    {key : String × String} (h : ∃ x ∈ l, ∃ j, joints x.1 = some j ∧ j.key = key)
    (T T' : String × String → Option Mat4) : writeJoints joints T l key = writeJoints joints T' l key := by
  induction l generalizing T T' with
  | nil => obtain ⟨x, hx, -⟩ := h; simp at hx
  | cons x rest ih =>
    obtain ⟨name, v⟩ := x
    obtain ⟨j, hj⟩ := hl (name, v) (by simp)
    have hrest : Known joints rest := fun x hx => hl x (List.mem_cons_of_mem _ hx)
    unfold writeJoints
    simp only [hj]
    by_cases hex : ∃ x ∈ rest, ∃ j, joints x.1 = some j ∧ j.key = key
    · exact ih hrest hex _ _
    · have hno : ∀ x ∈ rest, ∀ j, joints x.1 = some j → j.key ≠ key :=
        fun x hx j hj e => hex ⟨x, hx, j, hj, e⟩
      rw [writeJoints_of_not_mem hrest hno, writeJoints_of_not_mem hrest hno]
      have hkey : j.key = key := by
        obtain ⟨x, hx, j', hj', e⟩ := h
        rcases List.mem_cons.mp hx with rfl | hx
        · rw [hj] at hj'; cases hj'; exact e
        · exact absurd e (hno x hx j' hj')
      rw [← hkey]
      simp [Joint.key]

/-- A write to every joint of the list hides earlier writes to these joints. -/
theorem writeJoints_writeJoints {joints : String → Option Joint} {l m : List (String × ℝ)} (hl : Known joints l)
    (hm : Known joints m) (hsub : ∀ x ∈ m, ∃ y ∈ l, y.1 = x.1) (T : String × String → Option Mat4) :
    writeJoints joints (writeJoints joints T m) l = writeJoints joints T l := by
  funext key
  by_cases hex : ∃ x ∈ l, ∃ j, joints x.1 = some j ∧ j.key = key
  · exact writeJoints_of_mem hl hex _ _
  · have hno : ∀ x ∈ l, ∀ j, joints x.1 = some j → j.key ≠ key := fun x hx j hj e => hex ⟨x, hx, j, hj, e⟩
    rw [writeJoints_of_not_mem hl hno, writeJoints_of_not_mem hl hno, writeJoints_of_not_mem hm]
    intro x hx j hj e
    obtain ⟨y, hy, he⟩ := hsub x hx
    exact hno y hy j (by rw [he]; exact hj) e

/-- The last write to a key that occurs once. -/
theorem writeJoints_eq {joints : String → Option Joint} {l : List (String × ℝ)} (hl : Known joints l)
    (hk : l.Pairwise fun x y => ∀ j j', joints x.1 = some j → joints y.1 = some j' → j.key ≠ j'.key)
    {x : String × ℝ} (hx : x ∈ l) {j : Joint} (hj : joints x.1 = some j) (T : String × String → Option Mat4) :
    writeJoints joints T l j.key = some (j.transform x.2) := by
  induction l generalizing T with
  | nil => simp at hx
  | cons y rest ih =>
    obtain ⟨name, v⟩ := y
    obtain ⟨j', hj'⟩ := hl (name, v) (by simp)
    have hrest : Known joints rest := fun x hx => hl x (List.mem_cons_of_mem _ hx)
    rw [List.pairwise_cons] at hk
    unfold writeJoints
    simp only [hj']
    rcases List.mem_cons.mp hx with rfl | hx
    · simp only at hj
      obtain rfl : j' = j := Option.some.inj (hj'.symm.trans hj)
      rw [writeJoints_of_not_mem hrest (fun x hx j'' hj'' e => hk.1 x hx j' j'' hj' hj'' e.symm)]
      simp [Joint.key]
    · exact ih hrest hk.2 hx _

/-- Transforms of a well-formed transform manager are rigid. -/
structure TransformManager.WellFormed (tm : TransformManager) : Prop where
  rigid : ∀ key M, tm.transforms key = some M → Spec.IsRigid M
  child2parent : ∀ name j, tm.joints name = some j → Spec.IsRigid j.child2parent
  axis : ∀ name j, tm.joints name = some j → j.revolute = true → Spec.IsUnitAxis j.axis

theorem pathTransform_rigid {tm : TransformManager} (h : ∀ key M, tm.transforms key = some M → Spec.IsRigid M)
    (path : List String) : ∀ A M, Spec.IsRigid A → tm.pathTransform A path = .ok M → Spec.IsRigid M := by
  induction path with
  | nil => intro A M hA hM; simp only [TransformManager.pathTransform] at hM; cases hM; exact hA
  | cons a path ih =>
    intro A M hA hM
    cases path with
    | nil => simp only [TransformManager.pathTransform] at hM; cases hM; exact hA
    | cons b rest =>
      simp only [TransformManager.pathTransform, TransformManager.getTransform] at hM
      rcases h1 : tm.transforms (a, b) with _ | N
      · rcases h2 : tm.transforms (b, a) with _ | N
        · simp only [h1, h2] at hM; cases hM
        · simp only [h1, h2] at hM
          exact ih _ _ ((h _ _ h2).invert.1.mul hA) hM
      · simp only [h1] at hM
        exact ih _ _ ((h _ _ h1).mul hA) hM

theorem pathTransform_product {tm : TransformManager} (f : ℕ → String) (T : ℕ → Mat4) (n : ℕ) :
    ∀ (k : ℕ) (A : Mat4), (∀ i < n, tm.transforms (f (k + i), f (k + i + 1)) = some (T (k + i))) →
      tm.pathTransform A ((List.range (n + 1)).map fun i => f (k + i)) =
        .ok (((List.range n).map fun i => T (k + i)).reverse.prod * A) := by
  induction n with
  | zero => intro k A _; simp [TransformManager.pathTransform]
  | succ n ih =>
    intro k A h
    have hk : ∀ i < n, tm.transforms (f (k + 1 + i), f (k + 1 + i + 1)) = some (T (k + 1 + i)) := by
      intro i hi
      have := h (i + 1) (by omega)
      rwa [show k + (i + 1) = k + 1 + i by omega] at this
    have e1 : (List.range (n + 1 + 1)).map (fun i => f (k + i))
        = f k :: (List.range (n + 1)).map (fun i => f (k + 1 + i)) := by
      rw [List.range_succ_eq_map, List.map_cons, List.map_map]
      congr 1
      refine List.map_congr_left fun i _ => ?_
      simp only [Function.comp_apply]; congr 1; omega
    have e2 : (List.range (n + 1)).map (fun i => T (k + i))
        = T k :: (List.range n).map (fun i => T (k + 1 + i)) := by
      rw [List.range_succ_eq_map, List.map_cons, List.map_map]
      congr 1
      refine List.map_congr_left fun i _ => ?_
      simp only [Function.comp_apply]; congr 1; omega
    have e3 : (List.range (n + 1)).map (fun i => f (k + 1 + i))
        = f (k + 1) :: (List.range n).map (fun i => f (k + 1 + (i + 1))) := by
      rw [List.range_succ_eq_map, List.map_cons, List.map_map]
      rfl
    rw [e1]
    have h0 := h 0 (by omega)
    simp only [Nat.add_zero] at h0
    have hstep : tm.pathTransform A (f k :: (List.range (n + 1)).map (fun i => f (k + 1 + i))) =
        tm.pathTransform (T k * A) ((List.range (n + 1)).map (fun i => f (k + 1 + i))) := by
      rw [e3]
      simp only [TransformManager.pathTransform, TransformManager.getTransform, h0]
      rfl
    rw [hstep, ih (k + 1) _ hk, e2]
    simp [Matrix.mul_assoc]

theorem exec_forward (c : Chain n) (q : Vec n) (tm : TransformManager)
    (h : Known tm.joints (List.ofFn fun i => (c.jointNames i, q i))) :
    (c.forward q).exec tm =
      (({ tm with transforms := writeJoints tm.joints tm.transforms (List.ofFn fun i => (c.jointNames i, q i)) } :
          TransformManager).getEe2base c.eeFrame c.baseFrame,
        { tm with transforms := writeJoints tm.joints tm.transforms (List.ofFn fun i => (c.jointNames i, q i)) }) := by
  unfold Chain.forward
  rw [Py.exec_bind, exec_setJoints _ _ h]
  simp only
  rw [Py.exec_bind, Py.exec_get]
  simp only [Py.exec_lift]

theorem create_known {tm : TransformManager} {names : Fin n → String} {base ee : String} {c : Chain n}
    (h : Chain.create tm names base ee = .ok c) :
    c.jointNames = names ∧ (∀ i, ∃ j, tm.joints (names i) = some j) := by
  unfold Chain.create at h
  by_cases h1 : ∃ i, (tm.joints (names i)).isNone
  · rw [if_pos h1] at h; cases h
  · rw [if_neg h1] at h
    by_cases h2 : ee ∉ tm.nodes
    · rw [if_pos h2] at h; cases h
    · rw [if_neg h2] at h
      by_cases h3 : base ∉ tm.nodes
      · rw [if_pos h3] at h; cases h
      · rw [if_neg h3] at h
        cases h
        refine ⟨rfl, fun i => ?_⟩
        push Not at h1
        have := h1 i
        rcases hj : tm.joints (names i) with _ | j
        · rw [hj] at this; simp at this
        · exact ⟨j, rfl⟩

theorem create_fields {tm : TransformManager} {names : Fin n → String} {base ee : String} {c : Chain n}
    (h : Chain.create tm names base ee = .ok c) :
    c.baseFrame = base ∧ c.eeFrame = ee ∧
      ∀ i j, tm.joints (names i) = some j → c.jointLimits i = (j.lower.getD (-Real.pi), j.upper.getD Real.pi) := by
  unfold Chain.create at h
  by_cases h1 : ∃ i, (tm.joints (names i)).isNone
  · rw [if_pos h1] at h; cases h
  · rw [if_neg h1] at h
    by_cases h2 : ee ∉ tm.nodes
    · rw [if_pos h2] at h; cases h
    · rw [if_neg h2] at h
      by_cases h3 : base ∉ tm.nodes
      · rw [if_pos h3] at h; cases h
      · rw [if_neg h3] at h
        cases h
        refine ⟨rfl, rfl, fun i j hj => ?_⟩
        simp only [hj]

theorem known_ofFn {joints : String → Option Joint} {names : Fin n → String}
    (h : ∀ i, ∃ j, joints (names i) = some j) (q : Vec n) : Known joints (List.ofFn fun i => (names i, q i)) := by
  intro x hx
  obtain ⟨i, rfl⟩ := (List.mem_ofFn' _ _).mp hx
  exact h i

end Verif
