import Verif.Model.HeapClasses

/-!
# Specification: what a caller expects who ignores references
-/

namespace Verif

/-- The contents of what a call returned. -/
inductive HVal (p v w : ℕ) where
  | none
  | state (y : Vec p) (yd : Vec v)
  | trajectory (T : List ℝ) (Y : List (Vec p))
  | weights (x : Vec w)

/-- The contents of the returned arrays. -/
def HRet.value {p v w : ℕ} (h : Heap) : HRet p v w → HVal p v w
  | .none => .none
  | .state y yd => .state (h.read y) (h.read yd)
  | .trajectory T Y => .trajectory T Y
  | .weights x => .weights (h.read x)

/-- The contents of the arguments of `configure`. -/
def ViewConfig.values {p v : ℕ} (h : Heap) (a : ViewConfig p v) : ConfigArgs where
  t := a.t
  startY := a.startY.map (fun x => List.ofFn (h.read x))
  startYd := a.startYd.map (fun x => List.ofFn (h.read x))
  startYdd := a.startYdd.map (fun x => List.ofFn (h.read x))
  goalY := a.goalY.map (fun x => List.ofFn (h.read x))
  goalYd := a.goalYd.map (fun x => List.ofFn (h.read x))
  goalYdd := a.goalYdd.map (fun x => List.ofFn (h.read x))

/-- The buffers of the arguments of `configure`. -/
def ViewConfig.buffers {p v : ℕ} (a : ViewConfig p v) : List ℕ :=
  (a.startY.map View.buf).toList ++ (a.startYd.map View.buf).toList ++ (a.startYdd.map View.buf).toList ++
    (a.goalY.map View.buf).toList ++ (a.goalYd.map View.buf).toList ++ (a.goalYdd.map View.buf).toList

/-- Buffers of the arrays that methods overwrite in place. -/
def HObj.internal {S : Type} {p v w : ℕ} (o : HObj S p v w) : List ℕ :=
  [o.currentY.buf, o.currentYd.buf, o.weights.buf]

/-- Buffers of the arrays that were handed over by `configure` or `imitate` (or created by the constructor). -/
def HObj.handed {S : Type} {p v w : ℕ} (o : HObj S p v w) : List ℕ :=
  [o.startY.buf, o.startYd.buf, o.startYdd.buf, o.goalY.buf, o.goalYd.buf, o.goalYdd.buf]

/-- All arrays of the object exist, and the ones that are overwritten in place share memory with no other array of the
object and have no element twice. -/
structure World.Sound {S : Type} {p v w : ℕ} (W : World S p v w) : Prop where
  handed_lt : ∀ b ∈ W.obj.handed, b < W.heap.next
  internal_lt : ∀ b ∈ W.obj.internal, b < W.heap.next
  separate : ∀ b ∈ W.obj.handed, b ∉ W.obj.internal
  nodup : W.obj.internal.Nodup
  injY : Function.Injective W.obj.currentY.idx
  injYd : Function.Injective W.obj.currentYd.idx
  injW : Function.Injective W.obj.weights.idx

namespace HClass
variable {S : Type} {p v w : ℕ} (C : HClass S p v w)

/-- A call as seen by a caller who thinks of arrays as values; the contents of argument arrays are looked up in memory. -/
def valueOp (h : Heap) : C.Op → Py S (HVal p v w)
  | .configure a => do C.configure (a.values h); return .none
  | .reset => do C.reset; return .none
  | .step a y yd => do
    let r ← C.step a (h.read y) (h.read yd)
    return .state r.1 r.2
  | .openLoop a => do
    let r ← C.openLoop a
    return .trajectory r.1 r.2
  | .setExecutionTime τ => do C.setExecutionTime τ; return .none
  | .getWeights =>
    match C.getWeights with
    | .missing => throw .attributeError
    | _ => do return .weights (C.weights (← get))
  | .setWeights x => do C.setWeights (List.ofFn (h.read x)); return .none
  | .imitate n a T Y => do C.imitate n a T (fun i => h.read (Y i)); return .none
  | .callerAlloc _ _ => return .none
  | .callerWrite _ _ _ => return .none

/-- What a caller must not do: hand over an array that shares memory with an array that the object overwrites (the only
such arrays a caller can have are results of `get_weights` and of `StateFollowingDMP.step`), and write into an array of
the object, among them the arrays handed over before. -/
def Disciplined : C.Op → World S p v w → Prop
  | .configure a, W => ∀ b ∈ a.buffers, b < W.heap.next ∧ b ∉ W.obj.internal
  | .imitate _ _ _ Y, W => ∀ i, (Y i).buf < W.heap.next ∧ (Y i).buf ∉ W.obj.internal
  | .callerWrite _ x _, W => x.buf < W.heap.next ∧ x.buf ∉ W.obj.internal ∧ x.buf ∉ W.obj.handed
  | _, _ => True

/-- Every call of a history is disciplined. -/
def DisciplinedAll : List C.Op → World S p v w → Prop
  | [], _ => True
  | op :: ops, W => C.Disciplined op W ∧ DisciplinedAll ops (C.run op W).2

/-- Results of a history of calls, each one looked at when it is returned. -/
noncomputable def results : List C.Op → World S p v w → List (Except PyErr (HVal p v w))
  | [], _ => []
  | op :: ops, W => (C.run op W).1.map (·.value (C.run op W).2.heap) :: results ops (C.run op W).2

/-- Results and final object of a history of calls for a caller who thinks of arrays as values. The state of the memory
is only used for the contents of argument arrays. -/
noncomputable def valueRun : List C.Op → World S p v w → S → List (Except PyErr (HVal p v w)) × S
  | [], _, s => ([], s)
  | op :: ops, W, s =>
    let q := (C.valueOp W.heap op).exec s
    let rest := valueRun ops (C.run op W).2 q.2
    (q.1 :: rest.1, rest.2)

/-- The caller does not write into the memory of the array `x`. -/
def Op.Leaves {C : HClass S p v w} {n : ℕ} (x : View n) : C.Op → Prop
  | .callerWrite _ y _ => y.buf ≠ x.buf
  | _ => True

end HClass

/-- The classes whose `step` must return arrays that stay as they are: all but `StateFollowingDMP`. -/
inductive Spec.StepReturnsCopies : {S : Type} → {p v w : ℕ} → HClass S p v w → Prop
  | dmp (d m : ℕ) : StepReturnsCopies (dmpClass d m)
  | finalVelocity (d m : ℕ) : StepReturnsCopies (fvClass d m)
  | cartesian (m : ℕ) : StepReturnsCopies (cartesianClass m)
  | dual (m : ℕ) : StepReturnsCopies (dualClass m)
  | springDamper (d : ℕ) : StepReturnsCopies (springDamperClass d)
  | springDamperOrientation : StepReturnsCopies springDamperOrientationClass

/-- The classes with `get_weights` inherited from `WeightParametersMixin`. -/
inductive Spec.InheritsGetWeights : {S : Type} → {p v w : ℕ} → HClass S p v w → Prop
  | dmp (d m : ℕ) : InheritsGetWeights (dmpClass d m)
  | finalVelocity (d m : ℕ) : InheritsGetWeights (fvClass d m)
  | dual (m : ℕ) : InheritsGetWeights (dualClass m)

/-- The classes that can be learned from demonstrations. -/
inductive Spec.CanImitate : {S : Type} → {p v w : ℕ} → HClass S p v w → Prop
  | dmp (d m : ℕ) : CanImitate (dmpClass d m)
  | finalVelocity (d m : ℕ) : CanImitate (fvClass d m)
  | cartesian (m : ℕ) : CanImitate (cartesianClass m)
  | dual (m : ℕ) : CanImitate (dualClass m)

/-- The classes whose `open_loop` must not disturb the object: all but `DualCartesianDMP`. -/
inductive Spec.OpenLoopReadsOnly : {S : Type} → {p v w : ℕ} → HClass S p v w → Prop
  | dmp (d m : ℕ) : OpenLoopReadsOnly (dmpClass d m)
  | finalVelocity (d m : ℕ) : OpenLoopReadsOnly (fvClass d m)
  | cartesian (m : ℕ) : OpenLoopReadsOnly (cartesianClass m)
  | springDamper (d : ℕ) : OpenLoopReadsOnly (springDamperClass d)
  | springDamperOrientation : OpenLoopReadsOnly springDamperOrientationClass
  | stateFollowing (d n : ℕ) : OpenLoopReadsOnly (stateFollowingClass d n)

end Verif
