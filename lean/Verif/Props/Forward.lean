import Verif.Lemmas.Forward
import Verif.Props.Kinematics
import Mathlib.Tactic.IntervalCases

/-!
# C48: forward kinematics
-/

namespace Verif
open Matrix

variable {n : ℕ}

/-- C48: forward kinematics depends on the clipped joint values only. -/
theorem C48_forward_clipped {tm : TransformManager} {names : Fin n → String} {base ee : String} {c : Chain n}
    (hc : Chain.create tm names base ee = .ok c) (q q' : Vec n)
    (h : ∀ i j, tm.joints (names i) = some j → j.clip (q i) = j.clip (q' i)) :
    (c.forward q).exec tm = (c.forward q').exec tm := by
  obtain ⟨hn, hk⟩ := create_known hc
  rw [exec_forward c q tm (by rw [hn]; exact known_ofFn hk q),
    exec_forward c q' tm (by rw [hn]; exact known_ofFn hk q'), hn]
  have key : ∀ (l l' : List (String × ℝ)) (T : String × String → Option Mat4),
      List.Forall₂ (fun x y => x.1 = y.1 ∧ ∀ j, tm.joints x.1 = some j → j.transform x.2 = j.transform y.2) l l' →
      writeJoints tm.joints T l = writeJoints tm.joints T l' := by
    intro l l' T hl
    induction hl generalizing T with
    | nil => rfl
    | @cons x y l l' hxy _ ih =>
      obtain ⟨x1, x2⟩ := x
      obtain ⟨y1, y2⟩ := y
      obtain ⟨he, ht⟩ := hxy
      simp only at he ht
      subst he
      unfold writeJoints
      rcases hj : tm.joints x1 with _ | j
      · rfl
      · simp only
        rw [ht j hj, ih]
  rw [key _ (List.ofFn fun i => (names i, q' i)) _ ?_]
  rw [List.forall₂_iff_get]
  refine ⟨by simp, fun i h1 h2 => ?_⟩
  simp only [List.get_eq_getElem, List.getElem_ofFn, true_and]
  intro j hj
  unfold Joint.transform
  rw [h _ j hj]

/-- C48: forward kinematics has no memory: moving joints of the chain before, in any order and any number of
times, changes neither the result nor the state after the call. -/
theorem C48_forward_memoryless {tm : TransformManager} {names : Fin n → String} {base ee : String} {c : Chain n}
    (hc : Chain.create tm names base ee = .ok c) (q : Vec n) (moves : List (String × ℝ))
    (hm : ∀ x ∈ moves, ∃ i, names i = x.1) :
    ∃ tm', (setJoints moves).exec tm = (.ok (), tm') ∧ (c.forward q).exec tm' = (c.forward q).exec tm := by
  obtain ⟨hn, hk⟩ := create_known hc
  have hmk : Known tm.joints moves := by
    intro x hx
    obtain ⟨i, hi⟩ := hm x hx
    rw [← hi]; exact hk i
  refine ⟨_, exec_setJoints moves tm hmk, ?_⟩
  have hq := known_ofFn hk q
  rw [exec_forward c q _ (by rw [hn]; exact hq), exec_forward c q _ (by rw [hn]; exact hq), hn]
  simp only
  rw [writeJoints_writeJoints hq hmk]
  intro x hx
  obtain ⟨i, hi⟩ := hm x hx
  exact ⟨(names i, q i), (List.mem_ofFn' _ _).mpr ⟨i, rfl⟩, hi⟩

theorem transform_rigid {tm : TransformManager} (hw : tm.WellFormed) {name : String} {j : Joint}
    (hj : tm.joints name = some j) (v : ℝ) : Spec.IsRigid (j.transform v) := by
  unfold Joint.transform
  refine (hw.child2parent name j hj).mul ?_
  by_cases hr : j.revolute = true
  · rw [if_pos hr, fastMatrix_eq_pose]
    exact ⟨_, _, jointRotation_isRotation _ (hw.axis name j hj hr) _, rfl⟩
  · rw [if_neg hr, prismatic_eq_pose]
    exact ⟨1, _, Spec.IsRotation.one, rfl⟩

/-- C48: if the stored transforms are rigid and the axes of revolute joints are unit vectors, then forward
kinematics returns a rigid transform whatever the joint values are and however long the chain is, and the stored
transforms stay rigid. -/
theorem C48_forward_rigid {tm tm' : TransformManager} {names : Fin n → String} {base ee : String} {c : Chain n}
    (hc : Chain.create tm names base ee = .ok c) (hw : tm.WellFormed) (q : Vec n) {H : Mat4}
    (h : (c.forward q).exec tm = (.ok H, tm')) : Spec.IsRigid H ∧ tm'.WellFormed := by
  obtain ⟨hn, hk⟩ := create_known hc
  have hq := known_ofFn hk q
  rw [exec_forward c q tm (by rw [hn]; exact hq)] at h
  have key : ∀ (l : List (String × ℝ)) (T : String × String → Option Mat4), Known tm.joints l →
      (∀ key M, T key = some M → Spec.IsRigid M) →
      ∀ key M, writeJoints tm.joints T l key = some M → Spec.IsRigid M := by
    intro l
    induction l with
    | nil => intro T _ hT; exact hT
    | cons x rest ih =>
      intro T hl hT
      obtain ⟨name, v⟩ := x
      obtain ⟨j, hj⟩ := hl (name, v) (by simp)
      simp only at hj
      unfold writeJoints
      simp only [hj]
      refine ih _ (fun x hx => hl x (List.mem_cons_of_mem _ hx)) ?_
      intro key M hM
      by_cases hkey : key = (j.fromFrame, j.toFrame)
      · rw [hkey, Function.update_self] at hM
        cases hM
        exact transform_rigid hw hj v
      · rw [Function.update_of_ne hkey] at hM
        exact hT _ _ hM
  have hr := key _ tm.transforms (by rw [hn]; exact hq : Known tm.joints (List.ofFn fun i => (c.jointNames i, q i)))
    hw.rigid
  obtain ⟨h1, h2⟩ := Prod.mk.inj h
  subst h2
  exact ⟨pathTransform_rigid hr _ _ _ isRigid_one h1, ⟨hr, hw.child2parent, hw.axis⟩⟩

/-- C48: for a serial chain, in which joint `i` connects frame `f i` with frame `f (i + 1)` and the path from the
end-effector to the base visits the frames in this order, the result is the product of the joint transforms, that
of the joint next to the base first. -/
theorem C48_forward_product {tm : TransformManager} {names : Fin n → String} {base ee : String} {c : Chain n}
    (hc : Chain.create tm names base ee = .ok c)
    (f : ℕ → String) (hf : ∀ a b, a ≤ n → b ≤ n → f a = f b → a = b)
    (hpath : tm.shortestPath ee base = (List.range (n + 1)).map f)
    (J : Fin n → Joint) (hJ : ∀ i, tm.joints (names i) = some (J i))
    (hfrom : ∀ i, (J i).fromFrame = f i) (hto : ∀ i, (J i).toFrame = f (i + 1)) (q : Vec n) :
    ((c.forward q).exec tm).1 = .ok (List.ofFn fun i => (J i).transform (q i)).reverse.prod := by
  obtain ⟨hn, hk⟩ := create_known hc
  obtain ⟨hbase, hee, -⟩ := create_fields hc
  have hq := known_ofFn hk q
  rw [exec_forward c q tm (by rw [hn]; exact hq)]
  simp only
  unfold TransformManager.getEe2base
  simp only [hee, hbase, hpath, hn]
  have hpair : (List.ofFn fun i => (names i, q i)).Pairwise
      fun x y => ∀ j j', tm.joints x.1 = some j → tm.joints y.1 = some j' → j.key ≠ j'.key := by
    rw [List.pairwise_iff_getElem]
    intro a b ha hb hab j j' hj hj' he
    simp only [List.getElem_ofFn] at hj hj'
    rw [hJ] at hj hj'
    cases hj; cases hj'
    have := congrArg Prod.fst he
    simp only [Joint.key, hfrom] at this
    simp only [List.length_ofFn] at ha hb
    have := hf _ _ (by omega) (by omega) this
    omega
  set T : ℕ → Mat4 := fun i => if h : i < n then (J ⟨i, h⟩).transform (q ⟨i, h⟩) else 0 with hT
  have hprod := pathTransform_product (tm := { tm with
      transforms := writeJoints tm.joints tm.transforms (List.ofFn fun i => (names i, q i)) }) f T n 0 1 (by
    intro i hi
    have hw := writeJoints_eq hq hpair (x := (names ⟨i, hi⟩, q ⟨i, hi⟩))
      ((List.mem_ofFn' _ _).mpr ⟨⟨i, hi⟩, rfl⟩) (hJ ⟨i, hi⟩) tm.transforms
    simp only [Joint.key, hfrom, hto] at hw
    simp only [Nat.zero_add, hT, dif_pos hi]
    exact hw)
  simp only [Nat.zero_add, Matrix.mul_one] at hprod
  have hl : (List.range n).map T = List.ofFn fun i => (J i).transform (q i) := by
    apply List.ext_getElem
    · simp
    · intro i h1 h2
      simp only [List.length_map, List.length_range] at h1
      simp [hT, h1]
  rw [← hl]
  exact hprod

/-! A chain of two joints (a revolute and a prismatic one) that meets all conditions. -/

/-- Second joint of the example, prismatic, without upper limit. -/
def exampleJoint2 : Joint :=
  { fromFrame := "arm", toFrame := "base", child2parent := 1, axis := ![1, 0, 0], lower := some 0
    upper := none, revolute := false }

/-- Transform manager of the example. -/
def exampleTM : TransformManager :=
  { joints := fun s => if s = "j1" then some exampleJoint else if s = "j2" then some exampleJoint2 else none
    transforms := fun _ => some 1
    nodes := ["tool", "arm", "base"]
    shortestPath := fun _ _ => ["tool", "arm", "base"] }

theorem exampleTM_wellFormed : exampleTM.WellFormed := by
  refine ⟨?_, ?_, ?_⟩
  · intro key M h
    cases h
    exact isRigid_one
  · intro name j h
    simp only [exampleTM] at h
    split_ifs at h <;> cases h <;> exact isRigid_one
  · intro name j h hr
    simp only [exampleTM] at h
    split_ifs at h
    · cases h
      simp [Spec.IsUnitAxis, exampleJoint]
    · cases h
      simp [exampleJoint2] at hr

/-- The example chain can be created; forward kinematics returns the product of both joint transforms. -/
theorem example_chain : ∃ c : Chain 2, Chain.create exampleTM ![ "j1", "j2" ] "base" "tool" = .ok c ∧
    ∀ q, ((c.forward q).exec exampleTM).1 = .ok (exampleJoint2.transform (q 1) * exampleJoint.transform (q 0)) := by
  have hc : ∃ c : Chain 2, Chain.create exampleTM ![ "j1", "j2" ] "base" "tool" = .ok c := by
    unfold Chain.create
    rw [if_neg (by
      rintro ⟨i, hi⟩
      fin_cases i <;> simp [exampleTM] at hi)]
    simp only [exampleTM, List.mem_cons]
    simp
    exact ⟨_, rfl⟩
  obtain ⟨c, hc⟩ := hc
  refine ⟨c, hc, fun q => ?_⟩
  have := C48_forward_product hc (fun i => if i = 0 then "tool" else if i = 1 then "arm" else "base") (by
    intro a b ha hb h
    have ha : a ≤ 2 := ha
    have hb : b ≤ 2 := hb
    interval_cases a <;> interval_cases b <;> simp_all)
    rfl ![exampleJoint, exampleJoint2] (by intro i; fin_cases i <;> simp [exampleTM])
    (by intro i; fin_cases i <;> simp [exampleJoint, exampleJoint2])
    (by intro i; fin_cases i <;> simp [exampleJoint, exampleJoint2]) q
  rw [this]
  simp [List.ofFn_succ]

end Verif
