import Verif.Model.HeapMinJerk

/-! # Specification: what a caller of `MinimumJerkTrajectory` expects who ignores references -/

namespace Verif

/-- The caller does not write into the memory of the array `x`. -/
def MinJerkOp.Leaves {d n : ℕ} (x : View n) : MinJerkOp d → Prop
  | .callerWrite _ y _ => y.buf ≠ x.buf
  | _ => True

namespace MinJerkWorld
variable {d : ℕ}

/-- The buffers of the object: start and goal, and the arrays of the trajectory. -/
def buffers (W : MinJerkWorld d) : List ℕ := [W.obj.startY.buf, W.obj.goalY.buf, W.obj.X, W.obj.Xd]

/-- What a caller must not do: write into arrays of the object (among them start and goal handed over before) and hand over arrays
that do not exist. -/
def Disciplined : MinJerkOp d → MinJerkWorld d → Prop
  | .configure s g, W => ∀ x, s = some x ∨ g = some x → x.buf < W.heap.next
  | .callerWrite _ x _, W => x.buf ∉ W.buffers
  | _, _ => True

/-- Every call of a history is disciplined. -/
def DisciplinedAll : List (MinJerkOp d) → MinJerkWorld d → Prop
  | [], _ => True
  | op :: ops, W => Disciplined op W ∧ DisciplinedAll ops (run op W).2

/-- Contents of what a call returned. -/
noncomputable def look (h : Heap) (r : Except PyErr (Option (View d × View d))) : Except PyErr (Option (Vec d × Vec d)) :=
  r.map (Option.map fun x => (h.read x.1, h.read x.2))

/-- Results of a history of calls, each one looked at when it is returned. -/
noncomputable def results : List (MinJerkOp d) → MinJerkWorld d → List (Except PyErr (Option (Vec d × Vec d)))
  | [], _ => []
  | op :: ops, W =>
    look (run op W).2.heap (run op W).1 :: results ops (run op W).2

/-- A call as seen by a caller who thinks of arrays as values. -/
noncomputable def valueOp (h : Heap) (op : MinJerkOp d) (s : MinimumJerkTrajectory d) :
    Except PyErr (Option (Vec d × Vec d)) × MinimumJerkTrajectory d :=
  match op with
  | .configure y g =>
    let r := (Movement.configure { startY := y.map fun x => List.ofFn (h.read x)
                                   goalY := g.map fun x => List.ofFn (h.read x) }).exec s.toMovement
    (r.1.map fun _ => none, { s with toMovement := r.2 })
  | .reset => let r := MinimumJerkTrajectory.reset.exec s; (r.1.map fun _ => none, r.2)
  | .step y yd => let r := (MinimumJerkTrajectory.step (h.read y) (h.read yd)).exec s; (r.1.map some, r.2)
  | .callerAlloc _ _ => (.ok none, s)
  | .callerWrite _ _ _ => (.ok none, s)

/-- Results of a history of calls for a caller who thinks of arrays as values. -/
noncomputable def valueResults : List (MinJerkOp d) → MinJerkWorld d → MinimumJerkTrajectory d →
    List (Except PyErr (Option (Vec d × Vec d)))
  | [], _, _ => []
  | op :: ops, W, s => (valueOp W.heap op s).1 :: valueResults ops (run op W).2 (valueOp W.heap op s).2

end MinJerkWorld
end Verif
