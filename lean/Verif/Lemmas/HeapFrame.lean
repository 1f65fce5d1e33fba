import Verif.Lemmas.Heap

/-! Methods write only into the arrays `current_y`, `current_yd` and the weights. -/

namespace Verif.HClass
variable {S : Type} {p v w : ℕ} {C : HClass S p v w}

/-- Memory and object of `W'` come from `W` by writing only into buffers that are internal or new. -/
structure Ext (W W' : World S p v w) : Prop where
  next_le : W.heap.next ≤ W'.heap.next
  mem_eq : ∀ b, b < W.heap.next → b ∉ W.obj.internal → W'.heap.mem b = W.heap.mem b
  internal : ∀ b ∈ W'.obj.internal, b ∈ W.obj.internal ∨ W.heap.next ≤ b

theorem Ext.refl (W : World S p v w) : Ext W W := ⟨le_refl _, fun _ _ _ => rfl, fun _ h => .inl h⟩

theorem Ext.trans {W W' W'' : World S p v w} (h : Ext W W') (h' : Ext W' W'') : Ext W W'' where
  next_le := h.next_le.trans h'.next_le
  mem_eq b hb hi := by
    rw [h'.mem_eq b (hb.trans_le h.next_le), h.mem_eq b hb hi]
    intro hb'
    rcases h.internal b hb' with h1 | h1
    · exact hi h1
    · omega
  internal b hb := by
    rcases h'.internal b hb with h1 | h1
    · exact h.internal b h1
    · exact .inr (h.next_le.trans h1)

theorem Ext.read {W W' : World S p v w} (h : Ext W W') {n : ℕ} {x : View n} (hx : x.buf < W.heap.next)
    (hi : x.buf ∉ W.obj.internal) : W'.heap.read x = W.heap.read x := by
  funext i
  simp only [Heap.read, h.mem_eq x.buf hx hi]

theorem ext_copyStart (W : World S p v w) : Ext W (copyStart W) where
  next_le := by simp only [copyStart, Heap.next_alloc]; omega
  mem_eq b hb hi := by
    simp only [copyStart]
    rw [Heap.mem_alloc_of_lt (by rw [Heap.next_alloc]; omega), Heap.mem_alloc_of_lt hb]
  internal b hb := by
    simp only [copyStart, HObj.internal, Heap.buf_alloc, Heap.next_alloc, List.mem_cons, List.not_mem_nil, or_false]
      at hb ⊢
    rcases hb with h | h | h
    · right; omega
    · right; omega
    · exact .inl (.inr (.inr h))

theorem ext_scalars (W : World S p v w) (s : S) : Ext W { W with obj := { W.obj with scalars := s } } :=
  ⟨le_refl _, fun _ _ _ => rfl, fun _ h => .inl h⟩

theorem ext_alloc (W : World S p v w) {n : ℕ} (x : Vec n) : Ext W { W with heap := (W.heap.alloc x).2 } :=
  ⟨by simp, fun b hb _ => Heap.mem_alloc_of_lt hb x, fun _ h => .inl h⟩

theorem ext_write (W : World S p v w) {n : ℕ} {x : View n} (hx : x.buf ∈ W.obj.internal) (val : Vec n) :
    Ext W { W with heap := W.heap.write x val } :=
  ⟨le_refl _, fun b _ hi => Heap.mem_write_of_ne (fun h : b = x.buf => hi (by rw [h]; exact hx)) val, fun _ h => .inl h⟩

theorem ext_handed (W : World S p v w) (s : S) (a d : View p) (b c e f : View v) :
    Ext W { W with obj := { W.obj with
      scalars := s, startY := a, startYd := b, startYdd := c, goalY := d, goalYd := e, goalYdd := f } } :=
  ⟨le_refl _, fun _ _ _ => rfl, fun _ h => .inl h⟩

theorem ext_storeCurrent (s : S) (W : World S p v w) : Ext W (C.storeCurrent s W) := by
  have h1 := ext_write W (x := W.obj.currentY) (by simp [HObj.internal]) (C.movement s).currentY
  have h2 := ext_write { W with heap := W.heap.write W.obj.currentY (C.movement s).currentY }
    (x := W.obj.currentYd) (by simp [HObj.internal]) (C.movement s).currentYd
  exact (h1.trans h2).trans (ext_scalars _ _)

theorem ext_integrate (s s' : S) (W : World S p v w) : Ext W (C.integrate s s' W) := by
  unfold integrate
  split_ifs
  · exact (ext_copyStart W).trans (ext_storeCurrent _ _)
  · exact ext_storeCurrent _ _

theorem ext_stepReturn (r : Vec p × Vec v) (W : World S p v w) : Ext W (C.stepReturn r W).2 := by
  unfold stepReturn
  split_ifs
  · exact (ext_alloc W r.1).trans (ext_alloc { W with heap := (W.heap.alloc r.1).2 } r.2)
  · exact Ext.refl W

theorem ext_storeWeights (s : S) (W : World S p v w) :
    Ext W { heap := W.heap.write W.obj.weights (C.weights s), obj := { W.obj with scalars := C.strip s } } :=
  (ext_write W (x := W.obj.weights) (by simp [HObj.internal]) _).trans (ext_scalars _ _)

theorem ext_allocDerivatives (mv : Movement p v) (W : World S p v w) : Ext W (allocDerivatives mv W) where
  next_le := by simp only [allocDerivatives, Heap.next_alloc]; omega
  mem_eq b hb hi := by
    simp only [allocDerivatives]
    rw [Heap.mem_alloc_of_lt (by simp only [Heap.next_alloc]; omega),
      Heap.mem_alloc_of_lt (by simp only [Heap.next_alloc]; omega),
      Heap.mem_alloc_of_lt (by simp only [Heap.next_alloc]; omega), Heap.mem_alloc_of_lt hb]
  internal b hb := .inl hb

/-- Every call writes only into internal and new buffers, apart from writes of the caller. -/
theorem ext_run (op : C.Op) (W : World S p v w) (hop : ∀ n x val, op = .callerWrite n x val → x.buf ∈ W.obj.internal) :
    Ext W (C.run op W).2 := by
  cases op with
  | configure a => exact ext_handed W _ _ _ _ _ _ _
  | reset =>
    simp only [run, hReset]
    split_ifs
    · exact (ext_copyStart W).trans (ext_scalars _ _)
    · exact ext_scalars _ _
  | step a y yd =>
    simp only [run, hStep]
    split
    · exact ext_integrate _ _ _
    · exact (ext_integrate _ _ _).trans (ext_stepReturn _ _)
  | openLoop a => exact ext_integrate _ _ _
  | setExecutionTime τ => exact ext_scalars _ _
  | getWeights =>
    simp only [run, hGetWeights]
    split
    · exact Ext.refl W
    · exact Ext.refl W
    · exact ext_alloc W _
  | setWeights x => exact ext_storeWeights _ _
  | imitate n a T Y =>
    simp only [run, hImitate]
    split
    · exact ext_storeWeights _ _
    · split_ifs
      · exact ((ext_storeWeights _ _).trans (ext_handed _ _ _ _ _ _ _ _)).trans (ext_allocDerivatives _ _)
      · exact (ext_storeWeights _ _).trans (ext_handed _ _ _ _ _ _ _ _)
  | callerAlloc n x => exact ext_alloc W x
  | callerWrite n x val => exact ext_write W (hop _ _ _ rfl) val

/-- An array that is not internal keeps its contents, whatever is called, as long as the caller does not write to it. -/
theorem run_untouched (op : C.Op) (W : World S p v w) {n : ℕ} {x : View n} (hx : x.buf < W.heap.next)
    (hi : x.buf ∉ W.obj.internal) (hl : op.Leaves x) :
    x.buf < (C.run op W).2.heap.next ∧ x.buf ∉ (C.run op W).2.obj.internal ∧
      (C.run op W).2.heap.read x = W.heap.read x := by
  by_cases hw : ∃ k y val, op = .callerWrite k y val
  · obtain ⟨k, y, val, rfl⟩ := hw
    refine ⟨hx, hi, ?_⟩
    exact Heap.read_write_of_ne (Ne.symm hl) val
  · have h := ext_run op W (fun k y val h => (hw ⟨k, y, val, h⟩).elim)
    refine ⟨hx.trans_le h.next_le, fun hb => ?_, h.read hx hi⟩
    rcases h.internal _ hb with h1 | h1
    · exact hi h1
    · omega

theorem runAll_untouched (ops : List C.Op) (W : World S p v w) {n : ℕ} {x : View n} (hx : x.buf < W.heap.next)
    (hi : x.buf ∉ W.obj.internal) (hl : ∀ op ∈ ops, op.Leaves x) :
    (C.runAll ops W).2.heap.read x = W.heap.read x := by
  induction ops generalizing W with
  | nil => rfl
  | cons op ops ih =>
    obtain ⟨h1, h2, h3⟩ := run_untouched op W hx hi (hl op (by simp))
    rw [← h3]
    exact ih (C.run op W).2 h1 h2 (fun o ho => hl o (by simp [ho]))

end Verif.HClass
