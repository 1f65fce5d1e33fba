import Verif.Lemmas.HeapFrame
import Verif.Lemmas.HeapClasses

/-! Methods of objects in memory behave as on values. -/

namespace Verif
namespace World.Sound
variable {S : Type} {p v w : ℕ} {W : World S p v w}

theorem ne_cy_cyd (h : W.Sound) : W.obj.currentY.buf ≠ W.obj.currentYd.buf := by
  have := h.nodup; simp only [HObj.internal, List.nodup_cons, List.mem_cons, not_or] at this; exact this.1.1

theorem ne_cy_w (h : W.Sound) : W.obj.currentY.buf ≠ W.obj.weights.buf := by
  have := h.nodup; simp only [HObj.internal, List.nodup_cons, List.mem_cons, not_or] at this; exact this.1.2.1

theorem ne_cyd_w (h : W.Sound) : W.obj.currentYd.buf ≠ W.obj.weights.buf := by
  have := h.nodup; simp only [HObj.internal, List.nodup_cons, List.mem_cons, not_or] at this; exact this.2.1.1

theorem ne_cy (h : W.Sound) {b : ℕ} (hb : b ∈ W.obj.handed) : b ≠ W.obj.currentY.buf := fun e =>
  h.separate b hb (by simp [HObj.internal, e])

theorem ne_cyd (h : W.Sound) {b : ℕ} (hb : b ∈ W.obj.handed) : b ≠ W.obj.currentYd.buf := fun e =>
  h.separate b hb (by simp [HObj.internal, e])

theorem ne_w (h : W.Sound) {b : ℕ} (hb : b ∈ W.obj.handed) : b ≠ W.obj.weights.buf := fun e =>
  h.separate b hb (by simp [HObj.internal, e])

theorem cy_lt (h : W.Sound) : W.obj.currentY.buf < W.heap.next := h.internal_lt _ (by simp [HObj.internal])

theorem cyd_lt (h : W.Sound) : W.obj.currentYd.buf < W.heap.next := h.internal_lt _ (by simp [HObj.internal])

theorem w_lt (h : W.Sound) : W.obj.weights.buf < W.heap.next := h.internal_lt _ (by simp [HObj.internal])

end World.Sound

namespace HClass
variable {S : Type} {p v w : ℕ} {C : HClass S p v w}

theorem startY_mem (o : HObj S p v w) : o.startY.buf ∈ o.handed := by simp [HObj.handed]
theorem startYd_mem (o : HObj S p v w) : o.startYd.buf ∈ o.handed := by simp [HObj.handed]
theorem startYdd_mem (o : HObj S p v w) : o.startYdd.buf ∈ o.handed := by simp [HObj.handed]
theorem goalY_mem (o : HObj S p v w) : o.goalY.buf ∈ o.handed := by simp [HObj.handed]
theorem goalYd_mem (o : HObj S p v w) : o.goalYd.buf ∈ o.handed := by simp [HObj.handed]
theorem goalYdd_mem (o : HObj S p v w) : o.goalYdd.buf ∈ o.handed := by simp [HObj.handed]

theorem sound_copyStart {W : World S p v w} (h : W.Sound) : (copyStart W).Sound where
  handed_lt b hb := by
    have := h.handed_lt b hb
    simp only [copyStart, Heap.next_alloc]; omega
  internal_lt b hb := by
    have hw := h.w_lt
    simp only [copyStart, HObj.internal, Heap.buf_alloc, Heap.next_alloc, List.mem_cons, List.not_mem_nil, or_false]
      at hb ⊢
    omega
  separate b hb hi := by
    have h1 := h.handed_lt b hb
    have h2 := h.ne_w hb
    simp only [copyStart, HObj.internal, Heap.buf_alloc, Heap.next_alloc, List.mem_cons, List.not_mem_nil, or_false]
      at hi
    omega
  nodup := by
    have hw := h.w_lt
    simp only [copyStart, HObj.internal, Heap.buf_alloc, Heap.next_alloc, List.nodup_cons, List.mem_cons,
      List.not_mem_nil, or_false, not_false_eq_true, List.nodup_nil, and_true]
    omega
  injY := Fin.val_injective
  injYd := Fin.val_injective
  injW := h.injW

theorem copyStart_read {W : World S p v w} {k : ℕ} {x : View k} (hx : x.buf < W.heap.next) :
    (copyStart W).heap.read x = W.heap.read x := by
  simp only [copyStart]
  rw [Heap.read_alloc_of_lt (by rw [Heap.next_alloc]; omega), Heap.read_alloc_of_lt hx]

theorem sound_storeCurrent (s : S) {W : World S p v w} (h : W.Sound) : (C.storeCurrent s W).Sound :=
  ⟨h.handed_lt, h.internal_lt, h.separate, h.nodup, h.injY, h.injYd, h.injW⟩

theorem storeCurrent_read (s : S) {W : World S p v w} {k : ℕ} {x : View k} (h1 : x.buf ≠ W.obj.currentY.buf)
    (h2 : x.buf ≠ W.obj.currentYd.buf) : (C.storeCurrent s W).heap.read x = W.heap.read x := by
  simp only [storeCurrent]
  rw [Heap.read_write_of_ne h2, Heap.read_write_of_ne h1]

theorem storeCurrent_y (s : S) {W : World S p v w} (h : W.Sound) :
    (C.storeCurrent s W).heap.read W.obj.currentY = (C.movement s).currentY := by
  simp only [storeCurrent]
  rw [Heap.read_write_of_ne h.ne_cy_cyd, Heap.read_write h.injY]

theorem storeCurrent_yd (s : S) {W : World S p v w} (h : W.Sound) :
    (C.storeCurrent s W).heap.read W.obj.currentYd = (C.movement s).currentYd := by
  simp only [storeCurrent]
  rw [Heap.read_write h.injYd]

/-- Storing the state after integration. -/
theorem read_storeCurrent (hC : C.Lawful) {W : World S p v w} (h : W.Sound) {s' : S}
    (h1 : W.heap.read W.obj.startY = (C.movement s').startY)
    (h2 : W.heap.read W.obj.startYd = (C.movement s').startYd)
    (h3 : W.heap.read W.obj.startYdd = (C.movement s').startYdd)
    (h4 : W.heap.read W.obj.goalY = (C.movement s').goalY)
    (h5 : W.heap.read W.obj.goalYd = (C.movement s').goalYd)
    (h6 : W.heap.read W.obj.goalYdd = (C.movement s').goalYdd)
    (h7 : W.heap.read W.obj.weights = C.weights s') : C.read (C.storeCurrent s' W) = s' := by
  have key : ∀ {k : ℕ} (x : View k), x.buf ∈ W.obj.handed →
      (C.storeCurrent s' W).heap.read x = W.heap.read x := fun x hx =>
    storeCurrent_read s' (h.ne_cy hx) (h.ne_cyd hx)
  refine hC.read_eq rfl ?_ ?_ ?_ ?_ ?_ ?_ (storeCurrent_y s' h) (storeCurrent_yd s' h) ?_
  · exact (key _ (startY_mem _)).trans h1
  · exact (key _ (startYd_mem _)).trans h2
  · exact (key _ (startYdd_mem _)).trans h3
  · exact (key _ (goalY_mem _)).trans h4
  · exact (key _ (goalYd_mem _)).trans h5
  · exact (key _ (goalYdd_mem _)).trans h6
  · exact (storeCurrent_read s' h.ne_cy_w.symm h.ne_cyd_w.symm).trans h7

theorem integrate_spec (hC : C.Lawful) {W : World S p v w} (h : W.Sound) {s' : S} (hf : C.Frame (C.read W) s') :
    (C.integrate (C.read W) s' W).Sound ∧ C.read (C.integrate (C.read W) s' W) = s' := by
  have hm := hC.movement_read W
  have e1 := hf.startY; have e2 := hf.startYd; have e3 := hf.startYdd
  have e4 := hf.goalY; have e5 := hf.goalYd; have e6 := hf.goalYdd; have e7 := hf.weights
  rw [hm] at e1 e2 e3 e4 e5 e6
  rw [hC.weights_read] at e7
  unfold integrate
  split_ifs
  · refine ⟨sound_storeCurrent _ (sound_copyStart h), read_storeCurrent hC (sound_copyStart h) ?_ ?_ ?_ ?_ ?_ ?_ ?_⟩
    · exact (copyStart_read (h.handed_lt _ (startY_mem _))).trans e1.symm
    · exact (copyStart_read (h.handed_lt _ (startYd_mem _))).trans e2.symm
    · exact (copyStart_read (h.handed_lt _ (startYdd_mem _))).trans e3.symm
    · exact (copyStart_read (h.handed_lt _ (goalY_mem _))).trans e4.symm
    · exact (copyStart_read (h.handed_lt _ (goalYd_mem _))).trans e5.symm
    · exact (copyStart_read (h.handed_lt _ (goalYdd_mem _))).trans e6.symm
    · exact (copyStart_read h.w_lt).trans e7.symm
  · exact ⟨sound_storeCurrent _ h, read_storeCurrent hC h e1.symm e2.symm e3.symm e4.symm e5.symm e6.symm e7.symm⟩

/-- Allocation changes nothing that exists. -/
theorem read_heap_congr {W : World S p v w} {h' : Heap} (h : W.Sound)
    (hm : ∀ b, b < W.heap.next → h'.mem b = W.heap.mem b) : C.read { W with heap := h' } = C.read W := by
  have key : ∀ {k : ℕ} (x : View k), x.buf < W.heap.next → h'.read x = W.heap.read x := by
    intro k x hx; funext i; simp only [Heap.read, hm _ hx]
  unfold read
  simp only [key _ (h.handed_lt _ (startY_mem _)), key _ (h.handed_lt _ (startYd_mem _)),
    key _ (h.handed_lt _ (startYdd_mem _)), key _ (h.handed_lt _ (goalY_mem _)), key _ (h.handed_lt _ (goalYd_mem _)),
    key _ (h.handed_lt _ (goalYdd_mem _)), key _ h.cy_lt, key _ h.cyd_lt, key _ h.w_lt]

theorem sound_heap {W : World S p v w} {h' : Heap} (h : W.Sound) (hn : W.heap.next ≤ h'.next) :
    ({ W with heap := h' } : World S p v w).Sound :=
  ⟨fun b hb => (h.handed_lt b hb).trans_le hn, fun b hb => (h.internal_lt b hb).trans_le hn, h.separate, h.nodup,
    h.injY, h.injYd, h.injW⟩

theorem alloc_spec {W : World S p v w} (h : W.Sound) {n : ℕ} (x : Vec n) :
    ({ W with heap := (W.heap.alloc x).2 } : World S p v w).Sound ∧
      C.read { W with heap := (W.heap.alloc x).2 } = C.read W :=
  ⟨sound_heap h (by simp), read_heap_congr h fun _ hb => Heap.mem_alloc_of_lt hb x⟩

theorem stepReturn_spec {W : World S p v w} (h : W.Sound) (r : Vec p × Vec v)
    (hr : r = (W.heap.read W.obj.currentY, W.heap.read W.obj.currentYd)) :
    (C.stepReturn r W).1.value (C.stepReturn r W).2.heap = .state r.1 r.2 ∧ (C.stepReturn r W).2.Sound ∧
      C.read (C.stepReturn r W).2 = C.read W := by
  unfold stepReturn
  split_ifs
  · obtain ⟨h1, h2⟩ := alloc_spec (C := C) h r.1
    obtain ⟨h3, h4⟩ := alloc_spec (C := C) h1 r.2
    refine ⟨?_, h3, h4.trans h2⟩
    simp only [returnCopies, HRet.value]
    rw [Heap.read_alloc, Heap.read_alloc_of_lt (by simp), Heap.read_alloc]
  · refine ⟨?_, h, rfl⟩
    rw [hr]; rfl

/-- Writing the weights. -/
theorem storeWeights_spec (hC : C.Lawful) {W : World S p v w} (h : W.Sound) {s' : S}
    (hf : C.movement s' = C.movement (C.read W)) :
    ({ heap := W.heap.write W.obj.weights (C.weights s'), obj := { W.obj with scalars := C.strip s' } } :
        World S p v w).Sound ∧
      C.read { heap := W.heap.write W.obj.weights (C.weights s'), obj := { W.obj with scalars := C.strip s' } } = s' := by
  refine ⟨⟨h.handed_lt, h.internal_lt, h.separate, h.nodup, h.injY, h.injYd, h.injW⟩, ?_⟩
  have key : ∀ {k : ℕ} (x : View k), x.buf ≠ W.obj.weights.buf →
      (W.heap.write W.obj.weights (C.weights s')).read x = W.heap.read x := fun x hx => Heap.read_write_of_ne hx _
  rw [hC.movement_read] at hf
  refine hC.read_eq rfl ?_ ?_ ?_ ?_ ?_ ?_ ?_ ?_ (Heap.read_write h.injW _) <;> rw [hf]
  · exact key _ (h.ne_w (startY_mem _))
  · exact key _ (h.ne_w (startYd_mem _))
  · exact key _ (h.ne_w (startYdd_mem _))
  · exact key _ (h.ne_w (goalY_mem _))
  · exact key _ (h.ne_w (goalYd_mem _))
  · exact key _ (h.ne_w (goalYdd_mem _))
  · exact key _ h.ne_cy_w
  · exact key _ h.ne_cyd_w

end HClass
end Verif
