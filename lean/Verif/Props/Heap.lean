import Verif.Lemmas.HeapRun
import Verif.Props.DmpClass
import Verif.Props.DualImitate

/-!
# Properties about references (C21, C23, C58, C63, C70, C71)
-/

namespace Verif
open HClass
variable {S : Type} {p v w : ℕ} {C : HClass S p v w}

/-! ## C70: without sharing, arrays behave as values -/

/-- **C70.** The constructor makes an object whose arrays share no memory; its contents are those of the value model. -/
theorem C70_create (hC : IsClass C) (s : S) (h : Heap) : (C.create s h).Sound ∧ C.read (C.create s h) = s := by
  have hl := hC.lawful
  constructor
  · refine ⟨?_, ?_, ?_, ?_, Fin.val_injective, Fin.val_injective, Fin.val_injective⟩
    · intro b hb
      simp only [create, HObj.handed, Heap.buf_alloc, Heap.next_alloc, List.mem_cons, List.not_mem_nil, or_false] at hb ⊢
      omega
    · intro b hb
      simp only [create, HObj.internal, Heap.buf_alloc, Heap.next_alloc, List.mem_cons, List.not_mem_nil, or_false] at hb ⊢
      omega
    · intro b hb hi
      simp only [create, HObj.internal, HObj.handed, Heap.buf_alloc, Heap.next_alloc, List.mem_cons, List.not_mem_nil,
        or_false] at hb hi
      omega
    · simp only [create, HObj.internal, Heap.buf_alloc, Heap.next_alloc, List.nodup_cons, List.mem_cons,
        List.not_mem_nil, or_false, not_false_eq_true, List.nodup_nil, and_true]
      omega
  · have key : ∀ {k n : ℕ} (h : Heap) (x : View k) (y : Vec n), x.buf < h.next → (h.alloc y).2.read x = h.read x :=
      fun h x y hx => Heap.read_alloc_of_lt hx y
    refine hl.read_eq rfl ?_ ?_ ?_ ?_ ?_ ?_ ?_ ?_ ?_
    all_goals
      simp only [create]
      first
        | exact Heap.read_alloc _ _
        | repeat (rw [key _ _ _ (by simp only [Heap.buf_alloc, Heap.next_alloc]; omega)])
          exact Heap.read_alloc _ _

/-- **C70.** One call of a method, made with arrays that share no memory with the arrays the object overwrites: it returns
(or raises) what the value model says, leaves the object as the value model says, and the arrays that the object
overwrites still share no memory with its other arrays. -/
theorem C70_call (hC : IsClass C) {W : World S p v w} (h : W.Sound) (op : C.Op) (hop : C.Disciplined op W) :
    (C.run op W).1.map (·.value (C.run op W).2.heap) = ((C.valueOp W.heap op).exec (C.read W)).1 ∧
      C.read (C.run op W).2 = ((C.valueOp W.heap op).exec (C.read W)).2 ∧ (C.run op W).2.Sound := by
  obtain ⟨h1, h2⟩ := run_spec hC.lawful h op hop
  exact ⟨congrArg Prod.fst h1, congrArg Prod.snd h1, h2⟩

/-- **C70.** Value semantics: for every history of calls in which the caller shares no arrays that the object overwrites
and does not write into arrays of the object, all results and the final object are those of the value model, although
methods overwrite arrays in place and keep references. -/
theorem C70_history (hC : IsClass C) {W : World S p v w} (h : W.Sound) (ops : List C.Op)
    (hops : C.DisciplinedAll ops W) :
    (C.results ops W, C.read (C.runAll ops W).2) = C.valueRun ops W (C.read W) ∧ (C.runAll ops W).2.Sound := by
  induction ops generalizing W with
  | nil => exact ⟨rfl, h⟩
  | cons op ops ih =>
    obtain ⟨h1, h2, h3⟩ := C70_call hC h op hops.1
    obtain ⟨h4, h5⟩ := ih h3 hops.2
    refine ⟨?_, h5⟩
    rw [h2] at h4
    simp only [results, runAll, valueRun]
    rw [h1, ← h4]

/-- A history that meets the hypotheses of C70_history: a DMP is created, configured with a new array of the caller,
stepped, and its weights are set and read. -/
example (s : DMP 2 3) (h : Heap) (sf : StepFunction) :
    ((dmpClass 2 3).create s h).Sound ∧
    (dmpClass 2 3).DisciplinedAll
      [.callerAlloc 2 ![1, 2], .configure { startY := some ⟨h.next + 9, Fin.val⟩ },
       .step (none, sf) ⟨h.next + 9, Fin.val⟩ ⟨h.next + 9, Fin.val⟩, .getWeights, .callerAlloc 6 0,
       .setWeights ⟨h.next + 20, Fin.val⟩, .reset] ((dmpClass 2 3).create s h) := by
  refine ⟨(C70_create (.dmp 2 3) s h).1, trivial, ?_, trivial, trivial, trivial, trivial, trivial, trivial⟩
  intro b hb
  simp only [ViewConfig.buffers, Option.map_some, Option.map_none, Option.toList_some, Option.toList_none,
    List.append_nil, List.mem_singleton] at hb
  subst hb
  refine ⟨?_, ?_⟩
  · simp only [run, create, Heap.next_alloc]; omega
  · simp only [run, create, HObj.internal, Heap.buf_alloc, Heap.next_alloc, List.mem_cons, List.not_mem_nil, or_false]
    omega

/-! ## C71: two objects -/

/-- **C71.** Objects do not influence each other: whatever is called on one object (even with shared arguments), an other
object in the same memory (of any class) none of whose arrays is overwritten by methods of the first keeps its
contents, as long as the caller does not write into its arrays. In particular this holds for two objects that were
created separately, and it holds when both were configured with the same array. -/
theorem C71_objects_independent {S' : Type} {p' v' w' : ℕ} (C' : HClass S' p' v' w') (o : HObj S' p' v' w')
    (W : World S p v w)
    (ho : ∀ b ∈ o.handed ++ o.internal, b < W.heap.next ∧ b ∉ W.obj.internal) (ops : List C.Op)
    (hops : ∀ op ∈ ops, ∀ n x val, op = .callerWrite n x val → x.buf ∉ o.handed ++ o.internal) :
    C'.read ⟨(C.runAll ops W).2.heap, o⟩ = C'.read ⟨W.heap, o⟩ := by
  have key : ∀ {n : ℕ} (x : View n), x.buf ∈ o.handed ++ o.internal →
      (C.runAll ops W).2.heap.read x = W.heap.read x := by
    intro n x hx
    refine runAll_untouched ops W (ho _ hx).1 (ho _ hx).2 fun op hop => ?_
    cases op with
    | callerWrite k y val =>
      intro e
      exact hops _ hop k y val rfl (e ▸ hx)
    | _ => trivial
  unfold HClass.read
  simp only [key o.startY (by simp [HObj.handed]), key o.startYd (by simp [HObj.handed]),
    key o.startYdd (by simp [HObj.handed]), key o.goalY (by simp [HObj.handed]), key o.goalYd (by simp [HObj.handed]),
    key o.goalYdd (by simp [HObj.handed]), key o.currentY (by simp [HObj.internal]),
    key o.currentYd (by simp [HObj.internal]), key o.weights (by simp [HObj.internal])]

/-- Two DMPs that are created one after the other meet the hypotheses of C71. -/
theorem C71_created_separately {S' : Type} {p' v' w' : ℕ} (C' : HClass S' p' v' w') (s : S) (s' : S') (h : Heap) :
    ∀ b ∈ (C'.create s' h).obj.handed ++ (C'.create s' h).obj.internal,
      b < (C.create s (C'.create s' h).heap).heap.next ∧ b ∉ (C.create s (C'.create s' h).heap).obj.internal := by
  intro b hb
  simp only [create, HObj.internal, HObj.handed, Heap.buf_alloc, Heap.next_alloc, List.mem_cons, List.not_mem_nil,
    or_false, List.cons_append, List.nil_append] at hb ⊢
  omega

/-! ## C21: open_loop does not disturb the object -/

theorem Spec.OpenLoopReadsOnly.isClass (hC : Spec.OpenLoopReadsOnly C) : IsClass C := by
  cases hC <;> constructor

theorem Spec.OpenLoopReadsOnly.state (hC : Spec.OpenLoopReadsOnly C) (a : C.OpenArg) (s : S) :
    ((C.openLoop a).exec s).2 = s := by
  cases hC
  · simp only [dmpClass, DMP.exec_openLoop]
  · simp only [fvClass, FvDMP.openLoop, Py.exec_bind, Py.exec_get, Py.exec_lift]
  · simp only [cartesianClass, CartesianDMP.exec_openLoop]
  · simp only [springDamperClass, SpringDamper.openLoop, Py.exec_bind, Py.exec_get, Py.exec_lift]
  · simp only [springDamperOrientationClass, SpringDamperOrientation.openLoop, Py.exec_bind, Py.exec_get, Py.exec_lift]
  · simp only [stateFollowingClass, Py.exec_bind, Py.exec_get, Py.exec_lift]

theorem HClass.Lawful.strip_strip (hC : C.Lawful) (s : S) : C.strip (C.strip s) = C.strip s := by
  simp only [strip, hC.assemble_assemble, hC.movement_assemble]

/-- The unused entries are 0 in every object that was made by the constructor and any calls. -/
theorem run_canonical (hC : C.Lawful) (op : C.Op) {W : World S p v w} (h : C.strip W.obj.scalars = W.obj.scalars) :
    C.strip (C.run op W).2.obj.scalars = (C.run op W).2.obj.scalars := by
  have hi : ∀ s s' : S, ∀ W : World S p v w, (C.integrate s s' W).obj.scalars = C.strip s' := by
    intro s s' W; unfold integrate; split_ifs <;> rfl
  cases op with
  | configure a => exact hC.strip_strip _
  | reset =>
    simp only [run, hReset]
    exact hC.strip_strip _
  | step a y yd =>
    simp only [run, hStep]
    split
    · rw [hi]; exact hC.strip_strip _
    · have : ∀ q (W : World S p v w), (C.stepReturn q W).2.obj.scalars = W.obj.scalars := by
        intro q W; unfold stepReturn; split_ifs <;> rfl
      rw [this, hi]; exact hC.strip_strip _
  | openLoop a => simp only [run, hOpenLoop]; rw [hi]; exact hC.strip_strip _
  | setExecutionTime τ => exact hC.strip_strip _
  | getWeights =>
    simp only [run, hGetWeights]
    split <;> exact h
  | setWeights x => exact hC.strip_strip _
  | imitate n a T Y =>
    simp only [run, hImitate]
    split
    · exact hC.strip_strip _
    · split_ifs <;> exact hC.strip_strip _
  | callerAlloc n x => exact h
  | callerWrite n x val => exact h

theorem runAll_canonical (hC : C.Lawful) (ops : List C.Op) {W : World S p v w}
    (h : C.strip W.obj.scalars = W.obj.scalars) :
    C.strip (C.runAll ops W).2.obj.scalars = (C.runAll ops W).2.obj.scalars := by
  induction ops generalizing W with
  | nil => exact h
  | cons op ops ih => exact ih (run_canonical hC op h)

theorem runAll_append (ops ops' : List C.Op) (W : World S p v w) :
    C.runAll (ops ++ ops') W =
      ((C.runAll ops W).1 ++ (C.runAll ops' (C.runAll ops W).2).1, (C.runAll ops' (C.runAll ops W).2).2) := by
  induction ops generalizing W with
  | nil => rfl
  | cons op ops ih => simp only [List.cons_append, runAll, ih]

/-- Calling `open_loop` changes nothing in memory and no attribute. -/
theorem openLoop_same (hC : Spec.OpenLoopReadsOnly C) {W : World S p v w} (h : C.strip W.obj.scalars = W.obj.scalars)
    (a : C.OpenArg) : (C.run (.openLoop a) W).2 = W := by
  have hl := hC.isClass.lawful
  simp only [run, hOpenLoop, hC.state]
  have hni : ¬ (C.initialized (C.read W) = false ∧ C.initialized (C.read W) = true) := by
    rintro ⟨h1, h2⟩; rw [h1] at h2; cases h2
  unfold integrate
  rw [if_neg hni]
  unfold storeCurrent
  rw [hl.movement_read]
  simp only
  rw [Heap.write_read, Heap.write_read]
  have hs : C.strip (C.read W) = W.obj.scalars := by
    rw [← h]
    simp only [strip, HClass.read, hl.assemble_assemble, hl.movement_assemble]
  rw [hs]

/-- **C21.** Removing a call of `open_loop` from any place in any history of calls of a newly created object changes no
other outcome of the history (returned arrays and exceptions, before and after the call) and not the memory and object at
the end. (Applied repeatedly: any number of such calls can be removed or inserted.) -/
theorem C21_open_loop_does_not_disturb (hC : Spec.OpenLoopReadsOnly C) (s : S) (h : Heap) (before later : List C.Op)
    (a : C.OpenArg) :
    ∃ r rs rs' W', rs.length = before.length ∧
      C.runAll (before ++ later) (C.create s h) = (rs ++ rs', W') ∧
      C.runAll (before ++ .openLoop a :: later) (C.create s h) = (rs ++ r :: rs', W') := by
  have hl := hC.isClass.lawful
  have hc := runAll_canonical hl before (W := C.create s h) (hl.strip_strip s)
  have hlen : ∀ (ops : List C.Op) (W : World S p v w), (C.runAll ops W).1.length = ops.length := by
    intro ops
    induction ops with
    | nil => intro W; rfl
    | cons op ops ih => intro W; simp only [runAll, List.length_cons, ih]
  refine ⟨(C.run (.openLoop a) (C.runAll before (C.create s h)).2).1, (C.runAll before (C.create s h)).1, _, _,
    hlen _ _, runAll_append _ _ _, ?_⟩
  rw [runAll_append]
  simp only [runAll]
  rw [openLoop_same hC hc]

/-- **C21.** In particular all values that the calls return, each one looked at when it is returned, are the same. -/
theorem C21_same_values (hC : Spec.OpenLoopReadsOnly C) (s : S) (h : Heap) (before later : List C.Op) (a : C.OpenArg) :
    ∃ r rs rs', rs.length = before.length ∧
      C.results (before ++ later) (C.create s h) = rs ++ rs' ∧
      C.results (before ++ .openLoop a :: later) (C.create s h) = rs ++ r :: rs' := by
  have hl := hC.isClass.lawful
  have hc := runAll_canonical hl before (W := C.create s h) (hl.strip_strip s)
  have happ : ∀ (ops ops' : List C.Op) (W : World S p v w),
      C.results (ops ++ ops') W = C.results ops W ++ C.results ops' (C.runAll ops W).2 := by
    intro ops ops'
    induction ops with
    | nil => intro W; rfl
    | cons op ops ih => intro W; simp only [List.cons_append, results, runAll, ih]
  have hlen : ∀ (ops : List C.Op) (W : World S p v w), (C.results ops W).length = ops.length := by
    intro ops
    induction ops with
    | nil => intro W; rfl
    | cons op ops ih => intro W; simp only [results, List.length_cons, ih]
  refine ⟨(C.run (.openLoop a) (C.runAll before (C.create s h)).2).1.map
    (·.value (C.run (.openLoop a) (C.runAll before (C.create s h)).2).2.heap), C.results before (C.create s h),
    C.results later (C.runAll before (C.create s h)).2, hlen _ _, happ _ _ _, ?_⟩
  rw [happ]
  simp only [results]
  rw [openLoop_same hC hc]

/-! ## C58: arrays returned by step -/

theorem Spec.StepReturnsCopies.isClass (hC : Spec.StepReturnsCopies C) : IsClass C := by
  cases hC <;> constructor

theorem Spec.StepReturnsCopies.copies (hC : Spec.StepReturnsCopies C) : C.stepCopies = true := by
  cases hC <;> rfl

/-- The arrays returned by `step` are new. -/
theorem step_returns_new (hC : Spec.StepReturnsCopies C) {W : World S p v w} (hW : W.Sound) (a : C.StepArg)
    (lastY : View p) (lastYd : View v) {y : View p} {yd : View v}
    (hr : (C.run (.step a lastY lastYd) W).1 = .ok (.state y yd)) :
    let W' := (C.run (.step a lastY lastYd) W).2
    (y.buf < W'.heap.next ∧ y.buf ∉ W'.obj.internal ∧ y.buf ∉ W'.obj.handed) ∧
      (yd.buf < W'.heap.next ∧ yd.buf ∉ W'.obj.internal ∧ yd.buf ∉ W'.obj.handed) ∧ y.buf ≠ yd.buf ∧
      W.heap.next ≤ y.buf ∧ W.heap.next ≤ yd.buf := by
  have hl := hC.isClass.lawful
  obtain ⟨hs, -⟩ := integrate_spec hl hW (hl.step_frame a (W.heap.read lastY) (W.heap.read lastYd) (C.read W))
  have hext := ext_integrate (C := C) (C.read W)
    ((C.step a (W.heap.read lastY) (W.heap.read lastYd)).exec (C.read W)).2 W
  simp only [run, hStep] at hr ⊢
  generalize (C.step a (W.heap.read lastY) (W.heap.read lastYd)).exec (C.read W) = r at hr hs hext ⊢
  rcases r with ⟨r, s'⟩
  cases r with
  | error e => cases hr
  | ok q =>
    simp only [stepReturn, hC.copies, if_true, returnCopies] at hr ⊢
    cases hr
    have hn := hext.next_le
    have h1 := hs.internal_lt
    have h2 := hs.handed_lt
    generalize C.integrate (C.read W) s' W = W' at *
    simp only [Heap.buf_alloc, Heap.next_alloc]
    refine ⟨⟨by omega, fun hb => ?_, fun hb => ?_⟩, ⟨by omega, fun hb => ?_, fun hb => ?_⟩, by omega, hn, by omega⟩
    · have := h1 _ hb; omega
    · have := h2 _ hb; omega
    · have := h1 _ hb; omega
    · have := h2 _ hb; omega

/-- **C58.** The arrays that `step` returns keep their contents, whatever is called later (further steps, resets, learning,
even `configure` with these arrays), as long as the caller does not write into them. -/
theorem C58_step_results_stay (hC : Spec.StepReturnsCopies C) {W : World S p v w} (hW : W.Sound) (a : C.StepArg)
    (lastY : View p) (lastYd : View v) {y : View p} {yd : View v}
    (hr : (C.run (.step a lastY lastYd) W).1 = .ok (.state y yd)) (later : List C.Op)
    (hl : ∀ op ∈ later, op.Leaves y ∧ op.Leaves yd) :
    let W' := (C.run (.step a lastY lastYd) W).2
    (C.runAll later W').2.heap.read y = W'.heap.read y ∧ (C.runAll later W').2.heap.read yd = W'.heap.read yd := by
  obtain ⟨⟨h1, h2, -⟩, ⟨h3, h4, -⟩, -⟩ := step_returns_new hC hW a lastY lastYd hr
  exact ⟨runAll_untouched later _ h1 h2 fun op ho => (hl op ho).1,
    runAll_untouched later _ h3 h4 fun op ho => (hl op ho).2⟩

/-- Hypotheses of C58 are met: a step of a new spring-damper system returns arrays. -/
example (s : SpringDamper 2) (hs : 0 < s.intDt) (h : Heap) :
    ((springDamperClass 2).create s h).Sound ∧
      ∃ y yd, ((springDamperClass 2).run (.step none ⟨h.next, Fin.val⟩ ⟨h.next + 1, Fin.val⟩)
        ((springDamperClass 2).create s h)).1 = .ok (.state y yd) := by
  have hc := C70_create (.springDamper 2) s h
  refine ⟨hc.1, ?_⟩
  simp only [run, hStep, hc.2]
  have e : ∀ y yd, ∃ r s', ((springDamperClass 2).step none y yd).exec s = (.ok r, s') := by
    intro y yd
    have he := SpringDamper.exec_step none y yd s
    rw [show springDamperStep s.goalY s.k s.c none none s.intDt s.t (s.t + s.dt) (y, yd) = _ from intLoop_eq _ hs _ _] at he
    exact ⟨_, _, he⟩
  obtain ⟨r, s', hr⟩ := e (((springDamperClass 2).create s h).heap.read ⟨h.next, Fin.val⟩)
    (((springDamperClass 2).create s h).heap.read ⟨h.next + 1, Fin.val⟩)
  rw [hr]
  exact ⟨_, _, rfl⟩

/-- **C58.** The arrays belong to the caller: writing into one of them changes neither the object nor the other one, nor
any array that existed before. -/
theorem C58_step_results_are_callers (hC : Spec.StepReturnsCopies C) {W : World S p v w} (hW : W.Sound) (a : C.StepArg)
    (lastY : View p) (lastYd : View v) {y : View p} {yd : View v}
    (hr : (C.run (.step a lastY lastYd) W).1 = .ok (.state y yd)) (val : Vec p) {n : ℕ} (x : View n)
    (hx : x.buf < W.heap.next) :
    let W' := (C.run (.step a lastY lastYd) W).2
    let W'' := (C.run (.callerWrite p y val) W').2
    C.read W'' = C.read W' ∧ W''.heap.read yd = W'.heap.read yd ∧ W''.heap.read x = W'.heap.read x := by
  obtain ⟨⟨h1, h2, h3⟩, -, h4, h5, -⟩ := step_returns_new hC hW a lastY lastYd hr
  have hs := (C70_call hC.isClass hW (.step a lastY lastYd) trivial).2.2
  refine ⟨(C70_call hC.isClass hs (.callerWrite p y val) ⟨h1, h2, h3⟩).2.1, ?_, ?_⟩
  · exact Heap.read_write_of_ne (Ne.symm h4) val
  · exact Heap.read_write_of_ne (by omega) val

/-- **C58 (finding).** For `StateFollowingDMP` every step overwrites the arrays that the step before has returned: they
contain the result of the later step. A trajectory that is collected by appending the returned arrays to a list consists
of copies of the last state. -/
theorem C58_state_following_overwritten_finding {d n : ℕ} {W : World (StateFollowingDMP d n) d d 0} (hW : W.Sound)
    (a a' : (stateFollowingClass d n).StepArg) (lastY lastY' : View d) (lastYd lastYd' : View d) {y y' yd yd' : View d}
    (hr : ((stateFollowingClass d n).run (.step a lastY lastYd) W).1 = .ok (.state y yd))
    (hr' : ((stateFollowingClass d n).run (.step a' lastY' lastYd')
      ((stateFollowingClass d n).run (.step a lastY lastYd) W).2).1 = .ok (.state y' yd')) :
    let W1 := ((stateFollowingClass d n).run (.step a lastY lastYd) W).2
    let W2 := ((stateFollowingClass d n).run (.step a' lastY' lastYd') W1).2
    y = y' ∧ yd = yd' ∧
    ((StateFollowingDMP.step a' (W1.heap.read lastY') (W1.heap.read lastYd')).exec ((stateFollowingClass d n).read W1)).1 =
      .ok (W2.heap.read y, W2.heap.read yd) := by
  intro W1 W2
  have hs := (C70_call (.stateFollowing d n) hW (.step a lastY lastYd) trivial).2.2
  obtain ⟨h1, -, -⟩ := C70_call (.stateFollowing d n) hs (.step a' lastY' lastYd') trivial
  have key : ∀ (W : World (StateFollowingDMP d n) d d 0) (a : (stateFollowingClass d n).StepArg) (l ld y yd : View d),
      ((stateFollowingClass d n).run (.step a l ld) W).1 = .ok (.state y yd) →
      y = W.obj.currentY ∧ yd = W.obj.currentYd ∧
        ((stateFollowingClass d n).run (.step a l ld) W).2.obj.currentY = W.obj.currentY ∧
        ((stateFollowingClass d n).run (.step a l ld) W).2.obj.currentYd = W.obj.currentYd := by
    intro W a l ld y yd h
    simp only [run, hStep] at h ⊢
    generalize ((stateFollowingClass d n).step a _ _).exec _ = r at h ⊢
    rcases r with ⟨r, s'⟩
    have e : ∀ s s', (stateFollowingClass d n).integrate s s' W = (stateFollowingClass d n).storeCurrent s' W := by
      intro s s'
      unfold integrate
      rw [if_neg (by rintro ⟨h, -⟩; cases h)]
    cases r with
    | error e => cases h
    | ok q =>
      rw [e] at h ⊢
      simp only [stepReturn, show (stateFollowingClass d n).stepCopies = false from rfl, Bool.false_eq_true, if_false]
        at h ⊢
      cases h
      exact ⟨rfl, rfl, rfl, rfl⟩
  obtain ⟨a1, a2, a3, a4⟩ := key W a lastY lastYd y yd hr
  obtain ⟨b1, b2, -, -⟩ := key W1 a' lastY' lastYd' y' yd' hr'
  have ey : y = y' := by rw [a1, b1]; exact a3.symm
  have eyd : yd = yd' := by rw [a2, b2]; exact a4.symm
  refine ⟨ey, eyd, ?_⟩
  rw [hr'] at h1
  simp only [Except.map, HRet.value, valueOp, Py.exec_bind] at h1
  have hq : ∃ r, ((stateFollowingClass d n).step a'
      (((stateFollowingClass d n).run (.step a lastY lastYd) W).2.heap.read lastY')
      (((stateFollowingClass d n).run (.step a lastY lastYd) W).2.heap.read lastYd')).exec
      ((stateFollowingClass d n).read ((stateFollowingClass d n).run (.step a lastY lastYd) W).2) = r := ⟨_, rfl⟩
  obtain ⟨⟨r, s'⟩, hq⟩ := hq
  rw [hq] at h1
  refine (congrArg Prod.fst hq).trans ?_
  rw [ey, eyd]
  cases r with
  | error e => cases h1
  | ok q =>
    simp only [Py.exec_pure, Except.ok.injEq, HVal.state.injEq] at h1
    exact congrArg Except.ok (Prod.ext h1.1.symm h1.2.symm)

/-- Without stiffness and at rest a state-following DMP stays where it is. -/
theorem StateFollowingDMP.step_at_rest {d n : ℕ} {s : StateFollowingDMP d n} (hτ : 0 < s.executionTime) (hi : 0 < s.intDt)
    (hα : s.alphaY = 0) (y : Vec d) :
    ((StateFollowingDMP.step none y 0).exec s).1 = .ok (y, 0) ∧ ((StateFollowingDMP.step none y 0).exec s).2 =
      { s with lastT := some s.t, t := s.t + s.dt, currentY := y, currentYd := 0 } := by
  have h : (s.args none).step s.t (s.t + s.dt) (y, 0) = .ok (y, 0) := by
    unfold StateFollowingArgs.step
    rw [if_neg (by simpa [StateFollowingDMP.args] using hτ)]
    split_ifs
    · rfl
    · obtain ⟨x, hx⟩ : ∃ x, intLoop (s.args none).intDt (s.t + s.dt) (s.args none).body s.t (y, 0) = .ok x :=
        ⟨_, intLoop_eq _ hi _ _⟩
      rw [hx, intLoop_fixed ?_ hx]
      intro dt t
      refine Prod.ext ?_ ?_
      · funext k
        simp [StateFollowingArgs.body, StateFollowingArgs.couplings, StateFollowingDMP.args, hα]
      · funext k
        simp [StateFollowingArgs.body, StateFollowingArgs.couplings, StateFollowingDMP.args, hα]
  rw [StateFollowingDMP.exec_step, h]
  exact ⟨rfl, rfl⟩

/-- **C58 (finding).** It does happen: the array returned by the first step contains `y1`, and after the second step it
contains `y2`. -/
theorem C58_state_following_witness {d n : ℕ} {s : StateFollowingDMP d n} (hτ : 0 < s.executionTime) (hi : 0 < s.intDt)
    (hα : s.alphaY = 0) (h : Heap) (y1 y2 : Vec d) :
    let C := stateFollowingClass d n
    let W := (C.runAll [.callerAlloc d y1, .callerAlloc d y2, .callerAlloc d 0] (C.create s h)).2
    let v1 : View d := ⟨h.next + 9, Fin.val⟩
    let v2 : View d := ⟨h.next + 10, Fin.val⟩
    let z : View d := ⟨h.next + 11, Fin.val⟩
    ∃ y yd, (C.run (.step none v1 z) W).1 = .ok (.state y yd) ∧
      (C.run (.step none v1 z) W).2.heap.read y = y1 ∧
      (C.run (.step none v2 z) (C.run (.step none v1 z) W).2).1 = .ok (.state y yd) ∧
      (C.run (.step none v2 z) (C.run (.step none v1 z) W).2).2.heap.read y = y2 := by
  intro C W v1 v2 z
  have hc := C70_create (.stateFollowing d n) s h
  have hh := C70_history (.stateFollowing d n) hc.1
    [.callerAlloc d y1, .callerAlloc d y2, .callerAlloc d 0] ⟨trivial, trivial, trivial, trivial⟩
  have hs : W.Sound := hh.2
  have hr : C.read W = s := (congrArg Prod.snd hh.1).trans hc.2
  have r1 : W.heap.read v1 = y1 := by
    refine (Heap.read_alloc_of_lt (h := _) (y := v1) ?_ _).trans ((Heap.read_alloc_of_lt (y := v1) ?_ _).trans ?_)
    · simp only [v1, create, C, run, Heap.next_alloc]; omega
    · simp only [v1, create, C, run, Heap.next_alloc]; omega
    · exact Heap.read_alloc _ _
  have r2 : W.heap.read v2 = y2 := by
    refine (Heap.read_alloc_of_lt (h := _) (y := v2) ?_ _).trans ?_
    · simp only [v2, create, C, run, Heap.next_alloc]; omega
    · exact Heap.read_alloc _ _
  have r3 : W.heap.read z = 0 := Heap.read_alloc _ _
  have key : ∀ (W : World (StateFollowingDMP d n) d d 0) (l : View d) (s : StateFollowingDMP d n) (y : Vec d),
      W.Sound → C.read W = s → 0 < s.executionTime → 0 < s.intDt → s.alphaY = 0 → W.heap.read l = y →
      W.heap.read z = 0 →
      (C.run (.step none l z) W).1 = .ok (.state W.obj.currentY W.obj.currentYd) ∧
      (C.run (.step none l z) W).2.obj.currentY = W.obj.currentY ∧
      (C.run (.step none l z) W).2.obj.currentYd = W.obj.currentYd ∧
      (C.run (.step none l z) W).2.heap.read W.obj.currentY = y ∧
      C.read (C.run (.step none l z) W).2 =
        { s with lastT := some s.t, t := s.t + s.dt, currentY := y, currentYd := 0 } := by
    intro W l s y hW hr hτ hi hα hl hz
    have hst := StateFollowingDMP.step_at_rest hτ hi hα y
    have h70 := C70_call (.stateFollowing d n) hW (.step none l z) trivial
    have e : (C.step none y 0).exec s = (.ok (y, 0), { s with lastT := some s.t, t := s.t + s.dt, currentY := y, currentYd := 0 }) :=
      Prod.ext hst.1 hst.2
    have eI : ∀ s s', C.integrate s s' W = C.storeCurrent s' W := by
      intro s s'
      unfold integrate
      rw [if_neg (by rintro ⟨h, -⟩; cases h)]
    have e2 : C.run (.step none l z) W = (.ok (.state W.obj.currentY W.obj.currentYd), C.storeCurrent
        { s with lastT := some s.t, t := s.t + s.dt, currentY := y, currentYd := 0 } W) := by
      simp only [run, hStep, hr, hl, hz]
      rw [e]
      simp only [eI]
      rfl
    rw [e2]
    refine ⟨rfl, rfl, rfl, storeCurrent_y _ hW, ?_⟩
    have := h70.2.1
    rw [e2] at this
    refine this.trans ?_
    simp only [valueOp, Py.exec_bind]
    rw [hl, hz, hr, e]
    rfl
  obtain ⟨a1, a2, a3, a4, a5⟩ := key W v1 s y1 hs hr hτ hi hα r1 r3
  have u : ∀ {k : ℕ} (x : View k), x.buf < W.heap.next → x.buf ∉ W.obj.internal →
      (C.run (.step none v1 z) W).2.heap.read x = W.heap.read x := fun x h1 h2 =>
    (run_untouched (C := C) (.step none v1 z) W h1 h2 trivial).2.2
  have hn : W.heap.next = h.next + 12 := by
    simp [W, runAll, run, C, create]
  have hint : ∀ b, h.next + 9 ≤ b → b ∉ W.obj.internal := by
    intro b hb
    simp only [W, runAll, run, C, create, HObj.internal, Heap.buf_alloc, Heap.next_alloc, List.mem_cons,
      List.not_mem_nil, or_false]
    omega
  obtain ⟨b1, -, -, b4, -⟩ := key (C.run (.step none v1 z) W).2 v2 _ y2
    (C70_call (.stateFollowing d n) hs (.step none v1 z) trivial).2.2 a5 hτ hi hα
    ((u v2 (by rw [hn]; simp [v2]) (hint _ (by simp [v2]))).trans r2)
    ((u z (by rw [hn]; simp [z]) (hint _ (by simp [z]))).trans r3)
  refine ⟨_, _, a1, a4, ?_, ?_⟩
  · rw [b1, a2, a3]
  · rw [a2] at b4; exact b4

end Verif
