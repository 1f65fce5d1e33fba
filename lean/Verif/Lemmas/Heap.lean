import Verif.Spec.Heap
import Verif.Lemmas.Py
import Mathlib.Data.List.Nodup

/-! Lemmas about memory. -/

namespace Verif

namespace Heap
variable {n k : ℕ}

theorem read_write {h : Heap} {x : View n} (hx : Function.Injective x.idx) (v : Vec n) : (h.write x v).read x = v := by
  funext i
  have hi : ∃ j, x.idx j = x.idx i := ⟨i, rfl⟩
  simp only [read, write, Function.update_self, dif_pos hi]
  rw [hx hi.choose_spec]

theorem read_write_of_ne {h : Heap} {x : View n} {y : View k} (hb : y.buf ≠ x.buf) (v : Vec n) :
    (h.write x v).read y = h.read y := by
  funext i
  simp only [read, write, Function.update_of_ne hb]

theorem mem_write_of_ne {h : Heap} {x : View n} {b : ℕ} (hb : b ≠ x.buf) (v : Vec n) :
    (h.write x v).mem b = h.mem b := by
  simp only [write, Function.update_of_ne hb]

theorem write_read (h : Heap) (x : View n) : h.write x (h.read x) = h := by
  have e : (fun j => if hj : ∃ i, x.idx i = j then h.read x hj.choose else h.mem x.buf j) = h.mem x.buf := by
    funext j
    by_cases hj : ∃ i, x.idx i = j
    · rw [dif_pos hj, read, hj.choose_spec]
    · rw [dif_neg hj]
  unfold write
  simp only
  rw [e, Function.update_eq_self]

@[simp] theorem next_write (h : Heap) (x : View n) (v : Vec n) : (h.write x v).next = h.next := rfl

@[simp] theorem next_alloc (h : Heap) (v : Vec n) : (h.alloc v).2.next = h.next + 1 := rfl

@[simp] theorem buf_alloc (h : Heap) (v : Vec n) : (h.alloc v).1.buf = h.next := rfl

theorem inj_alloc (h : Heap) (v : Vec n) : Function.Injective (h.alloc v).1.idx := Fin.val_injective

theorem read_alloc (h : Heap) (v : Vec n) : (h.alloc v).2.read (h.alloc v).1 = v := by
  funext i
  simp [read, alloc]

theorem mem_alloc_of_lt {h : Heap} {b : ℕ} (hb : b < h.next) (v : Vec n) : (h.alloc v).2.mem b = h.mem b := by
  simp only [alloc, Function.update_of_ne (Nat.ne_of_lt hb)]

theorem read_alloc_of_lt {h : Heap} {y : View k} (hb : y.buf < h.next) (v : Vec n) :
    (h.alloc v).2.read y = h.read y := by
  funext i
  simp only [read, mem_alloc_of_lt hb]

end Heap

namespace HClass
variable {S : Type} {p v w : ℕ}

/-- The start and goal attributes and the weights are the same. -/
structure Frame (C : HClass S p v w) (s s' : S) : Prop where
  startY : (C.movement s').startY = (C.movement s).startY
  startYd : (C.movement s').startYd = (C.movement s).startYd
  startYdd : (C.movement s').startYdd = (C.movement s).startYdd
  goalY : (C.movement s').goalY = (C.movement s).goalY
  goalYd : (C.movement s').goalYd = (C.movement s).goalYd
  goalYdd : (C.movement s').goalYdd = (C.movement s).goalYdd
  weights : C.weights s' = C.weights s

/-- What the methods of every class satisfy as functions on values. -/
structure Lawful (C : HClass S p v w) : Prop where
  movement_assemble : ∀ mv x s, C.movement (C.assemble mv x s) = mv
  weights_assemble : ∀ mv x s, C.weights (C.assemble mv x s) = x
  assemble_self : ∀ s, C.assemble (C.movement s) (C.weights s) s = s
  assemble_assemble : ∀ mv x mv' x' s, C.assemble mv x (C.assemble mv' x' s) = C.assemble mv x s
  step_frame : ∀ a y yd s, C.Frame s ((C.step a y yd).exec s).2
  step_current : ∀ a y yd s r, ((C.step a y yd).exec s).1 = .ok r →
    r = ((C.movement ((C.step a y yd).exec s).2).currentY, (C.movement ((C.step a y yd).exec s).2).currentYd)
  openLoop_frame : ∀ a s, C.Frame s ((C.openLoop a).exec s).2
  configure_ok : ∀ (a : ViewConfig p v) h s, (C.configure (a.values h)).exec s =
    (.ok (), C.assemble
      { C.movement s with
        t := a.t.getD (C.movement s).t
        startY := (a.startY.map h.read).getD (C.movement s).startY
        startYd := (a.startYd.map h.read).getD (C.movement s).startYd
        startYdd := (a.startYdd.map h.read).getD (C.movement s).startYdd
        goalY := (a.goalY.map h.read).getD (C.movement s).goalY
        goalYd := (a.goalYd.map h.read).getD (C.movement s).goalYd
        goalYdd := (a.goalYdd.map h.read).getD (C.movement s).goalYdd } (C.weights s) s)
  reset_ok : ∀ s, C.reset.exec s = (.ok (), C.assemble
    (if C.resetCopies then (C.movement s).reset else { C.movement s with t := 0, lastT := none }) (C.weights s) s)
  setExecutionTime_movement : ∀ τ s, C.movement ((C.setExecutionTime τ).exec s).2 = C.movement s
  setExecutionTime_weights : ∀ τ s, C.weights ((C.setExecutionTime τ).exec s).2 = C.weights s
  setWeights_movement : ∀ x s, C.movement ((C.setWeights x).exec s).2 = C.movement s
  imitate_error : ∀ n a T Y s e, ((C.imitate n a T Y).exec s).1 = .error e →
    C.movement ((C.imitate n a T Y).exec s).2 = C.movement s
  imitate_ok : ∀ n a T Y s, ((C.imitate n a T Y).exec s).1 = .ok () → ∀ mv, mv = C.movement ((C.imitate n a T Y).exec s).2 →
    mv = { C.movement s with
      startY := Y 0
      goalY := Y (Fin.last (n + 1))
      startYd := if C.imitateDerivatives then mv.startYd else (C.movement s).startYd
      startYdd := if C.imitateDerivatives then mv.startYdd else (C.movement s).startYdd
      goalYd := if C.imitateDerivatives then mv.goalYd else (C.movement s).goalYd
      goalYdd := if C.imitateDerivatives then mv.goalYdd else (C.movement s).goalYdd }

variable {C : HClass S p v w}

theorem Lawful.read_eq (hC : C.Lawful) {W : World S p v w} {s : S} (hs : W.obj.scalars = C.strip s)
    (h1 : W.heap.read W.obj.startY = (C.movement s).startY)
    (h2 : W.heap.read W.obj.startYd = (C.movement s).startYd)
    (h3 : W.heap.read W.obj.startYdd = (C.movement s).startYdd)
    (h4 : W.heap.read W.obj.goalY = (C.movement s).goalY)
    (h5 : W.heap.read W.obj.goalYd = (C.movement s).goalYd)
    (h6 : W.heap.read W.obj.goalYdd = (C.movement s).goalYdd)
    (h7 : W.heap.read W.obj.currentY = (C.movement s).currentY)
    (h8 : W.heap.read W.obj.currentYd = (C.movement s).currentYd)
    (h9 : W.heap.read W.obj.weights = C.weights s) : C.read W = s := by
  unfold read
  rw [h1, h2, h3, h4, h5, h6, h7, h8, h9, hs, strip, hC.assemble_assemble, hC.movement_assemble]
  exact hC.assemble_self s

theorem Lawful.movement_read (hC : C.Lawful) (W : World S p v w) : C.movement (C.read W) =
    { t := (C.movement W.obj.scalars).t
      lastT := (C.movement W.obj.scalars).lastT
      startY := W.heap.read W.obj.startY
      startYd := W.heap.read W.obj.startYd
      startYdd := W.heap.read W.obj.startYdd
      goalY := W.heap.read W.obj.goalY
      goalYd := W.heap.read W.obj.goalYd
      goalYdd := W.heap.read W.obj.goalYdd
      currentY := W.heap.read W.obj.currentY
      currentYd := W.heap.read W.obj.currentYd } := hC.movement_assemble _ _ _

theorem Lawful.weights_read (hC : C.Lawful) (W : World S p v w) :
    C.weights (C.read W) = W.heap.read W.obj.weights := hC.weights_assemble _ _ _

end HClass
end Verif
