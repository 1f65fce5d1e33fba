import Verif.Lemmas.HeapSound

/-! One call on an object in memory behaves as on values. -/

namespace Verif.HClass
variable {S : Type} {p v w : ℕ} {C : HClass S p v w}

/-- `imitate` without new arrays for derivatives: the object after learning. -/
theorem rows_spec {W : World S p v w} (h : W.Sound) (s' : S) (y g : View p)
    (hy : y.buf < W.heap.next ∧ y.buf ∉ W.obj.internal) (hg : g.buf < W.heap.next ∧ g.buf ∉ W.obj.internal) :
    ({ heap := W.heap.write W.obj.weights (C.weights s')
       obj := { W.obj with scalars := C.strip s', startY := y, goalY := g } } : World S p v w).Sound := by
  refine ⟨?_, h.internal_lt, ?_, h.nodup, h.injY, h.injYd, h.injW⟩
  · intro b hb
    simp only [HObj.handed, List.mem_cons, List.not_mem_nil, or_false] at hb
    rcases hb with rfl | rfl | rfl | rfl | rfl | rfl
    · exact hy.1
    · exact h.handed_lt _ (startYd_mem _)
    · exact h.handed_lt _ (startYdd_mem _)
    · exact hg.1
    · exact h.handed_lt _ (goalYd_mem _)
    · exact h.handed_lt _ (goalYdd_mem _)
  · intro b hb
    simp only [HObj.handed, List.mem_cons, List.not_mem_nil, or_false] at hb
    rcases hb with rfl | rfl | rfl | rfl | rfl | rfl
    · exact hy.2
    · exact h.separate _ (startYd_mem _)
    · exact h.separate _ (startYdd_mem _)
    · exact hg.2
    · exact h.separate _ (goalYd_mem _)
    · exact h.separate _ (goalYdd_mem _)

theorem sound_allocDerivatives {W : World S p v w} (h : W.Sound) (mv : Movement p v) : (allocDerivatives mv W).Sound := by
  have key : ∀ b ∈ (allocDerivatives mv W).obj.handed, b ∈ W.obj.handed ∨
      (W.heap.next ≤ b ∧ b < (allocDerivatives mv W).heap.next) := by
    intro b hb
    simp only [allocDerivatives, HObj.handed, Heap.buf_alloc, Heap.next_alloc, List.mem_cons, List.not_mem_nil, or_false]
      at hb ⊢
    omega
  have hn : W.heap.next ≤ (allocDerivatives mv W).heap.next := by
    simp only [allocDerivatives, Heap.next_alloc]; omega
  refine ⟨?_, fun b hb => (h.internal_lt b hb).trans_le hn, ?_, h.nodup, h.injY, h.injYd, h.injW⟩
  · intro b hb
    rcases key b hb with h1 | h1
    · exact (h.handed_lt b h1).trans_le hn
    · exact h1.2
  · intro b hb hi
    rcases key b hb with h1 | h1
    · exact h.separate b h1 hi
    · have := h.internal_lt b hi
      omega

theorem allocDerivatives_read {W : World S p v w} (mv : Movement p v) {k : ℕ} {x : View k} (hx : x.buf < W.heap.next) :
    (allocDerivatives mv W).heap.read x = W.heap.read x := by
  simp only [allocDerivatives]
  rw [Heap.read_alloc_of_lt (by simp only [Heap.next_alloc]; omega),
    Heap.read_alloc_of_lt (by simp only [Heap.next_alloc]; omega),
    Heap.read_alloc_of_lt (by simp only [Heap.next_alloc]; omega), Heap.read_alloc_of_lt hx]

theorem allocDerivatives_new (W : World S p v w) (mv : Movement p v) :
    (allocDerivatives mv W).heap.read (allocDerivatives mv W).obj.startYd = mv.startYd ∧
    (allocDerivatives mv W).heap.read (allocDerivatives mv W).obj.startYdd = mv.startYdd ∧
    (allocDerivatives mv W).heap.read (allocDerivatives mv W).obj.goalYd = mv.goalYd ∧
    (allocDerivatives mv W).heap.read (allocDerivatives mv W).obj.goalYdd = mv.goalYdd := by
  simp only [allocDerivatives]
  refine ⟨?_, ?_, ?_, Heap.read_alloc _ _⟩
  · rw [Heap.read_alloc_of_lt (by simp only [Heap.buf_alloc, Heap.next_alloc]; omega), Heap.read_alloc_of_lt (by simp only [Heap.buf_alloc, Heap.next_alloc]; omega), Heap.read_alloc_of_lt (by simp only [Heap.buf_alloc, Heap.next_alloc]; omega),
      Heap.read_alloc]
  · rw [Heap.read_alloc_of_lt (by simp only [Heap.buf_alloc, Heap.next_alloc]; omega), Heap.read_alloc_of_lt (by simp only [Heap.buf_alloc, Heap.next_alloc]; omega), Heap.read_alloc]
  · rw [Heap.read_alloc_of_lt (by simp only [Heap.buf_alloc, Heap.next_alloc]; omega), Heap.read_alloc]

theorem read_allocDerivatives (hC : C.Lawful) {W : World S p v w} (h : W.Sound) {s' : S} (hs : W.obj.scalars = C.strip s')
    (h1 : W.heap.read W.obj.startY = (C.movement s').startY)
    (h4 : W.heap.read W.obj.goalY = (C.movement s').goalY)
    (h7 : W.heap.read W.obj.currentY = (C.movement s').currentY)
    (h8 : W.heap.read W.obj.currentYd = (C.movement s').currentYd)
    (h9 : W.heap.read W.obj.weights = C.weights s') : C.read (allocDerivatives (C.movement s') W) = s' := by
  obtain ⟨n1, n2, n3, n4⟩ := allocDerivatives_new W (C.movement s')
  refine hC.read_eq hs ?_ n1 n2 ?_ n3 n4 ?_ ?_ ?_
  · exact (allocDerivatives_read _ (h.handed_lt _ (startY_mem _))).trans h1
  · exact (allocDerivatives_read _ (h.handed_lt _ (goalY_mem _))).trans h4
  · exact (allocDerivatives_read _ h.cy_lt).trans h7
  · exact (allocDerivatives_read _ h.cyd_lt).trans h8
  · exact (allocDerivatives_read _ h.w_lt).trans h9

theorem imitate_spec (hC : C.Lawful) {W : World S p v w} (h : W.Sound) {n : ℕ} (a : C.ImitateArg n)
    (T : Fin (n + 2) → ℝ) (Y : Fin (n + 2) → View p)
    (hY : ∀ i, (Y i).buf < W.heap.next ∧ (Y i).buf ∉ W.obj.internal) :
    ((C.hImitate n a T Y W).1.map (·.value (C.hImitate n a T Y W).2.heap),
        C.read (C.hImitate n a T Y W).2) =
      (((C.imitate n a T (fun i => W.heap.read (Y i))).exec (C.read W)).1.map (fun _ => HVal.none),
        ((C.imitate n a T (fun i => W.heap.read (Y i))).exec (C.read W)).2) ∧
      (C.hImitate n a T Y W).2.Sound := by
  unfold hImitate
  have he := hC.imitate_error n a T (fun i => W.heap.read (Y i)) (C.read W)
  have ho := hC.imitate_ok n a T (fun i => W.heap.read (Y i)) (C.read W)
  generalize (C.imitate n a T (fun i => W.heap.read (Y i))).exec (C.read W) = r at he ho ⊢
  rcases r with ⟨r, s'⟩
  cases r with
  | error e =>
    obtain ⟨h1, h2⟩ := storeWeights_spec hC h (he e rfl)
    exact ⟨by simp only [Except.map]; rw [h2], h1⟩
  | ok u =>
    have ho := ho rfl (C.movement s') rfl
    rw [hC.movement_read] at ho
    simp only at ho ⊢
    have hs := rows_spec (C := C) h s' (Y 0) (Y (Fin.last (n + 1))) (hY 0) (hY _)
    have key : ∀ {k : ℕ} (x : View k), x.buf ≠ W.obj.weights.buf →
        (W.heap.write W.obj.weights (C.weights s')).read x = W.heap.read x := fun x hx => Heap.read_write_of_ne hx _
    have hYw : ∀ i, (Y i).buf ≠ W.obj.weights.buf := fun i hi => (hY i).2 (by simp [HObj.internal, hi])
    cases hd : C.imitateDerivatives with
    | false =>
      rw [hd] at ho
      simp only [Bool.false_eq_true, if_false] at ho ⊢
      refine ⟨?_, hs⟩
      simp only [Except.map, HRet.value, Prod.mk.injEq, true_and]
      refine hC.read_eq rfl ?_ ?_ ?_ ?_ ?_ ?_ ?_ ?_ (Heap.read_write h.injW _) <;> rw [ho]
      · exact key _ (hYw _)
      · exact key _ (h.ne_w (startYd_mem _))
      · exact key _ (h.ne_w (startYdd_mem _))
      · exact key _ (hYw _)
      · exact key _ (h.ne_w (goalYd_mem _))
      · exact key _ (h.ne_w (goalYdd_mem _))
      · exact key _ h.ne_cy_w
      · exact key _ h.ne_cyd_w
    | true =>
      rw [hd] at ho
      simp only [if_true] at ho ⊢
      refine ⟨?_, sound_allocDerivatives hs _⟩
      simp only [Except.map, HRet.value, Prod.mk.injEq, true_and]
      refine read_allocDerivatives hC hs rfl ?_ ?_ ?_ ?_ (Heap.read_write h.injW _) <;> rw [ho]
      · exact key _ (hYw _)
      · exact key _ (hYw _)
      · exact key _ h.ne_cy_w
      · exact key _ h.ne_cyd_w

theorem buffers_mem {a : ViewConfig p v} :
    (∀ x, a.startY = some x → x.buf ∈ a.buffers) ∧ (∀ x, a.startYd = some x → x.buf ∈ a.buffers) ∧
    (∀ x, a.startYdd = some x → x.buf ∈ a.buffers) ∧ (∀ x, a.goalY = some x → x.buf ∈ a.buffers) ∧
    (∀ x, a.goalYd = some x → x.buf ∈ a.buffers) ∧ (∀ x, a.goalYdd = some x → x.buf ∈ a.buffers) := by
  refine ⟨?_, ?_, ?_, ?_, ?_, ?_⟩ <;> intro x hx <;> simp [ViewConfig.buffers, hx]

theorem mem_getD {P : ℕ → Prop} {n : ℕ} {a : Option (View n)} {o : View n} (h1 : ∀ x, a = some x → P x.buf)
    (h2 : P o.buf) : P (a.getD o).buf := by
  cases a with
  | none => exact h2
  | some x => exact h1 x rfl

theorem read_getD {n : ℕ} (h : Heap) (a : Option (View n)) (o : View n) :
    h.read (a.getD o) = (a.map h.read).getD (h.read o) := by
  cases a <;> rfl

theorem configure_spec (hC : C.Lawful) {W : World S p v w} (h : W.Sound) (a : ViewConfig p v)
    (ha : ∀ b ∈ a.buffers, b < W.heap.next ∧ b ∉ W.obj.internal) :
    (C.hConfigure a W).2.Sound ∧ C.read (C.hConfigure a W).2 = ((C.configure (a.values W.heap)).exec (C.read W)).2 := by
  obtain ⟨b1, b2, b3, b4, b5, b6⟩ := buffers_mem (a := a)
  have hh : ∀ b ∈ (C.hConfigure a W).2.obj.handed, b < W.heap.next ∧ b ∉ W.obj.internal := by
    intro b hb
    simp only [hConfigure, HObj.handed, List.mem_cons, List.not_mem_nil, or_false] at hb
    rcases hb with rfl | rfl | rfl | rfl | rfl | rfl
    · exact mem_getD (P := fun b => b < W.heap.next ∧ b ∉ W.obj.internal) (fun x hx => ha _ (b1 x hx))
        ⟨h.handed_lt _ (startY_mem _), h.separate _ (startY_mem _)⟩
    · exact mem_getD (P := fun b => b < W.heap.next ∧ b ∉ W.obj.internal) (fun x hx => ha _ (b2 x hx))
        ⟨h.handed_lt _ (startYd_mem _), h.separate _ (startYd_mem _)⟩
    · exact mem_getD (P := fun b => b < W.heap.next ∧ b ∉ W.obj.internal) (fun x hx => ha _ (b3 x hx))
        ⟨h.handed_lt _ (startYdd_mem _), h.separate _ (startYdd_mem _)⟩
    · exact mem_getD (P := fun b => b < W.heap.next ∧ b ∉ W.obj.internal) (fun x hx => ha _ (b4 x hx))
        ⟨h.handed_lt _ (goalY_mem _), h.separate _ (goalY_mem _)⟩
    · exact mem_getD (P := fun b => b < W.heap.next ∧ b ∉ W.obj.internal) (fun x hx => ha _ (b5 x hx))
        ⟨h.handed_lt _ (goalYd_mem _), h.separate _ (goalYd_mem _)⟩
    · exact mem_getD (P := fun b => b < W.heap.next ∧ b ∉ W.obj.internal) (fun x hx => ha _ (b6 x hx))
        ⟨h.handed_lt _ (goalYdd_mem _), h.separate _ (goalYdd_mem _)⟩
  refine ⟨⟨fun b hb => (hh b hb).1, h.internal_lt, fun b hb => (hh b hb).2, h.nodup, h.injY, h.injYd, h.injW⟩, ?_⟩
  rw [hC.configure_ok]
  simp only [hC.movement_read, hC.weights_read]
  simp only [read, hConfigure, strip, hC.assemble_assemble, hC.movement_assemble, read_getD]

theorem getWeights_spec (hC : C.Lawful) {W : World S p v w} (h : W.Sound) :
    ((C.hGetWeights W).1.map (·.value (C.hGetWeights W).2.heap), C.read (C.hGetWeights W).2) =
      (C.valueOp W.heap .getWeights).exec (C.read W) ∧ (C.hGetWeights W).2.Sound := by
  unfold hGetWeights valueOp
  cases C.getWeights with
  | missing => exact ⟨rfl, h⟩
  | view =>
    refine ⟨?_, h⟩
    simp only [Except.map, HRet.value, Py.exec_bind, Py.exec_get, Py.exec_pure, hC.weights_read]
  | copy =>
    obtain ⟨h1, h2⟩ := alloc_spec (C := C) h (W.heap.read W.obj.weights)
    refine ⟨?_, h1⟩
    simp only [Except.map, HRet.value, Py.exec_bind, Py.exec_get, Py.exec_pure, hC.weights_read]
    rw [h2, Heap.read_alloc]

/-- One call. -/
theorem run_spec (hC : C.Lawful) {W : World S p v w} (h : W.Sound) (op : C.Op) (hop : C.Disciplined op W) :
    ((C.run op W).1.map (·.value (C.run op W).2.heap), C.read (C.run op W).2) = (C.valueOp W.heap op).exec (C.read W) ∧
      (C.run op W).2.Sound := by
  cases op with
  | configure a =>
    obtain ⟨h1, h2⟩ := configure_spec hC h a hop
    refine ⟨?_, h1⟩
    simp only [run]
    rw [h2]
    simp only [valueOp, Py.exec_bind, hC.configure_ok]
    rfl
  | reset =>
    simp only [run, hReset, valueOp, Py.exec_bind, hC.reset_ok, Py.exec_pure]
    cases hr : C.resetCopies with
    | true =>
      have hs := sound_copyStart h
      simp only [if_true, Except.map, HRet.value, Prod.mk.injEq, true_and]
      refine ⟨?_, ⟨hs.handed_lt, hs.internal_lt, hs.separate, hs.nodup, hs.injY, hs.injYd, hs.injW⟩⟩
      refine hC.read_eq rfl ?_ ?_ ?_ ?_ ?_ ?_ ?_ ?_ ?_
      all_goals simp only [hC.movement_assemble, hC.weights_assemble, hC.movement_read, hC.weights_read, Movement.reset]
      · exact copyStart_read (h.handed_lt _ (startY_mem _))
      · exact copyStart_read (h.handed_lt _ (startYd_mem _))
      · exact copyStart_read (h.handed_lt _ (startYdd_mem _))
      · exact copyStart_read (h.handed_lt _ (goalY_mem _))
      · exact copyStart_read (h.handed_lt _ (goalYd_mem _))
      · exact copyStart_read (h.handed_lt _ (goalYdd_mem _))
      · simp only [copyStart]
        rw [Heap.read_alloc_of_lt (by simp), Heap.read_alloc]
      · exact Heap.read_alloc _ _
      · exact copyStart_read h.w_lt
    | false =>
      simp only [Bool.false_eq_true, if_false, Except.map, HRet.value, Prod.mk.injEq, true_and]
      refine ⟨?_, ⟨h.handed_lt, h.internal_lt, h.separate, h.nodup, h.injY, h.injYd, h.injW⟩⟩
      refine hC.read_eq rfl ?_ ?_ ?_ ?_ ?_ ?_ ?_ ?_ ?_
      all_goals simp only [hC.movement_assemble, hC.weights_assemble, hC.movement_read, hC.weights_read]
  | step a y yd =>
    have hf := hC.step_frame a (W.heap.read y) (W.heap.read yd) (C.read W)
    have hc := hC.step_current a (W.heap.read y) (W.heap.read yd) (C.read W)
    obtain ⟨h1, h2⟩ := integrate_spec hC h hf
    simp only [run, hStep, valueOp, Py.exec_bind]
    generalize (C.step a (W.heap.read y) (W.heap.read yd)).exec (C.read W) = r at hf hc h1 h2 ⊢
    rcases r with ⟨r, s'⟩
    cases r with
    | error e =>
      refine ⟨?_, h1⟩
      simp only [Except.map]
      rw [h2]
    | ok r =>
      have hr := hc r rfl
      have hm := hC.movement_read (C.integrate (C.read W) s' W)
      rw [h2] at hm
      simp only [hm] at hr
      obtain ⟨h3, h4, h5⟩ := stepReturn_spec (C := C) h1 r hr
      refine ⟨?_, h4⟩
      simp only [Except.map, Py.exec_pure]
      rw [h3, h5, h2]
  | openLoop a =>
    obtain ⟨h1, h2⟩ := integrate_spec hC h (hC.openLoop_frame a (C.read W))
    refine ⟨?_, h1⟩
    simp only [run, hOpenLoop, valueOp, Py.exec_bind]
    rw [h2]
    generalize (C.openLoop a).exec (C.read W) = r
    rcases r with ⟨_ | _, s'⟩ <;> rfl
  | setExecutionTime τ =>
    have h1 := hC.setExecutionTime_movement τ (C.read W)
    have h2 := hC.setExecutionTime_weights τ (C.read W)
    simp only [run, hSetExecutionTime, valueOp, Py.exec_bind]
    generalize (C.setExecutionTime τ).exec (C.read W) = r at h1 h2 ⊢
    refine ⟨?_, ⟨h.handed_lt, h.internal_lt, h.separate, h.nodup, h.injY, h.injYd, h.injW⟩⟩
    have e : C.read { W with obj := { W.obj with scalars := C.strip r.2 } } = r.2 := by
      rw [hC.movement_read] at h1
      rw [hC.weights_read] at h2
      refine hC.read_eq rfl ?_ ?_ ?_ ?_ ?_ ?_ ?_ ?_ h2.symm <;> rw [h1]
    rw [e]
    rcases r with ⟨_ | _, s'⟩ <;> rfl
  | getWeights => exact getWeights_spec hC h
  | setWeights x =>
    obtain ⟨h1, h2⟩ := storeWeights_spec hC h (hC.setWeights_movement (List.ofFn (W.heap.read x)) (C.read W))
    refine ⟨?_, h1⟩
    simp only [run, hSetWeights, valueOp, Py.exec_bind]
    rw [h2]
    generalize (C.setWeights (List.ofFn (W.heap.read x))).exec (C.read W) = r
    rcases r with ⟨_ | _, s'⟩ <;> rfl
  | imitate n a T Y =>
    obtain ⟨h1, h2⟩ := imitate_spec hC h a T Y hop
    refine ⟨?_, h2⟩
    simp only [run, valueOp, Py.exec_bind]
    rw [h1]
    generalize (C.imitate n a T (fun i => W.heap.read (Y i))).exec (C.read W) = r
    rcases r with ⟨_ | _, s'⟩ <;> rfl
  | callerAlloc n x =>
    obtain ⟨h1, h2⟩ := alloc_spec (C := C) h x
    refine ⟨?_, h1⟩
    simp only [run, valueOp, Py.exec_pure, Except.map, HRet.value]
    rw [h2]
  | callerWrite n x val =>
    obtain ⟨-, h2, h3⟩ := hop
    refine ⟨?_, sound_heap h (le_refl _)⟩
    simp only [run, valueOp, Py.exec_pure, Except.map, HRet.value, Prod.mk.injEq, true_and]
    have hi : ∀ b ∈ W.obj.internal, b ≠ x.buf := fun b hb e => h2 (e ▸ hb)
    have hh : ∀ b ∈ W.obj.handed, b ≠ x.buf := fun b hb e => h3 (e ▸ hb)
    unfold read
    simp only [Heap.read_write_of_ne (hh _ (startY_mem _)), Heap.read_write_of_ne (hh _ (startYd_mem _)),
      Heap.read_write_of_ne (hh _ (startYdd_mem _)), Heap.read_write_of_ne (hh _ (goalY_mem _)),
      Heap.read_write_of_ne (hh _ (goalYd_mem _)), Heap.read_write_of_ne (hh _ (goalYdd_mem _)),
      Heap.read_write_of_ne (hi W.obj.currentY.buf (by simp [HObj.internal])),
      Heap.read_write_of_ne (hi W.obj.currentYd.buf (by simp [HObj.internal])),
      Heap.read_write_of_ne (hi W.obj.weights.buf (by simp [HObj.internal]))]

end Verif.HClass
