import Verif.Spec.HeapMinJerk
import Verif.Lemmas.Heap
import Verif.Props.MinJerk
import Verif.Props.CartesianImitate

/-! # C17, C58, C70, C71 for `MinimumJerkTrajectory` -/

namespace Verif
open Spec MinJerkWorld
variable {d : ℕ}

/-- **C17 (minimum jerk).** For every state of the object, results and final state of consecutive calls of `step` (exceptions
included) do not depend on the passed states, only on the number of calls. -/
theorem C17_min_jerk_ignores_feedback (s : MinimumJerkTrajectory d) (xs ys : List (Vec d × Vec d)) (h : xs.length = ys.length) :
    (MinimumJerkTrajectory.steps xs).exec s = (MinimumJerkTrajectory.steps ys).exec s := by
  induction xs generalizing s ys with
  | nil =>
    obtain rfl := List.length_eq_zero_iff.1 h.symm
    rfl
  | cons x xs ih =>
    obtain ⟨y, ys, rfl⟩ := List.exists_cons_of_length_eq_add_one h.symm
    have e := fun s => ih s ys (Nat.succ.inj h)
    simp only [MinimumJerkTrajectory.steps] at e ⊢
    rw [List.mapM_cons, List.mapM_cons, Py.exec_bind, Py.exec_bind, MinimumJerkTrajectory.exec_step,
      MinimumJerkTrajectory.exec_step]
    split
    · rw [Py.exec_bind, Py.exec_bind, e]
    · rfl

theorem flatten_row {n : ℕ} (A : Fin n → Fin d → ℝ) (h : Heap) (i : Fin n) :
    (h.alloc (flatten A)).2.read (rowView (h.alloc (flatten A)).1.buf d i.val) = A i := by
  funext j
  have hlt : i.val * d + j.val < n * d := by
    calc i.val * d + j.val < i.val * d + d := by have := j.isLt; omega
      _ = (i.val + 1) * d := by ring
      _ ≤ n * d := Nat.mul_le_mul_right d (by have := i.isLt; omega)
  have hd : 0 < d := j.pos
  simp only [Heap.read, Heap.alloc, rowView, Function.update_self, dif_pos hlt, flatten]
  congr 1
  · congr 1
    apply Fin.ext
    show (i.val * d + j.val) / d = i.val
    rw [mul_comm, Nat.mul_add_div hd, Nat.div_eq_of_lt j.isLt, add_zero]
  · apply Fin.ext
    show (i.val * d + j.val) % d = j.val
    rw [mul_comm, Nat.mul_add_mod, Nat.mod_eq_of_lt j.isLt]

/-- `advance` only creates arrays. -/
theorem MinJerkWorld.advance_frame (W : MinJerkWorld d) :
    W.heap.next ≤ W.advance.2.heap.next ∧ ∀ b < W.heap.next, W.advance.2.heap.mem b = W.heap.mem b := by
  unfold advance
  split
  · refine ⟨by simp only [Heap.next_alloc]; omega, fun b hb => ?_⟩
    rw [Heap.mem_alloc_of_lt (by simp only [Heap.next_alloc]; omega), Heap.mem_alloc_of_lt hb]
  · exact ⟨le_rfl, fun _ _ => rfl⟩

theorem MinJerkWorld.generate_frame (W : MinJerkWorld d) :
    W.heap.next ≤ W.generate.2.heap.next ∧ ∀ b < W.heap.next, W.generate.2.heap.mem b = W.heap.mem b := by
  unfold generate
  split
  · exact ⟨le_rfl, fun _ _ => rfl⟩
  · refine ⟨by simp only [Heap.next_alloc]; omega, fun b hb => ?_⟩
    simp only
    rw [Heap.mem_alloc_of_lt (by simp only [Heap.next_alloc]; omega), Heap.mem_alloc_of_lt hb]

theorem MinJerkWorld.step_eq (W : MinJerkWorld d) : W.step =
    if W.obj.initialized then W.advance
    else match W.generate.1 with
      | .error e => (.error e, W.generate.2)
      | .ok _ => W.generate.2.advance := by
  unfold step
  split
  · rfl
  · rcases W.generate with ⟨_ | _, _⟩ <;> rfl

theorem MinJerkWorld.step_frame (W : MinJerkWorld d) :
    W.heap.next ≤ W.step.2.heap.next ∧ ∀ b < W.heap.next, W.step.2.heap.mem b = W.heap.mem b := by
  rw [step_eq]
  split
  · exact W.advance_frame
  · have h1 := W.generate_frame
    split
    · exact h1
    · have h2 := W.generate.2.advance_frame
      exact ⟨h1.1.trans h2.1, fun b hb => (h2.2 b (hb.trans_le h1.1)).trans (h1.2 b hb)⟩

/-- **C71 (minimum jerk).** No call of the object writes into memory that existed before the call: whatever is called, all arrays
of the caller and of other objects keep their contents, unless the caller writes into them. -/
theorem C71_min_jerk (W : MinJerkWorld d) (ops : List (MinJerkOp d)) {n : ℕ} {x : View n} (hx : x.buf < W.heap.next)
    (hops : ∀ op ∈ ops, op.Leaves x) : (W.runAll ops).heap.read x = W.heap.read x := by
  have key : ∀ (op : MinJerkOp d) (W : MinJerkWorld d), op.Leaves x → x.buf < W.heap.next →
      (run op W).2.heap.mem x.buf = W.heap.mem x.buf ∧ x.buf < (run op W).2.heap.next := by
    intro op W hl hx
    cases op with
    | configure => exact ⟨rfl, hx⟩
    | reset => exact ⟨rfl, hx⟩
    | step => exact ⟨W.step_frame.2 _ hx, hx.trans_le W.step_frame.1⟩
    | callerAlloc n v => exact ⟨Heap.mem_alloc_of_lt hx v, by simp only [run, Heap.next_alloc]; omega⟩
    | callerWrite n y v => exact ⟨Heap.mem_write_of_ne (Ne.symm hl) v, hx⟩
  suffices h : (W.runAll ops).heap.mem x.buf = W.heap.mem x.buf by
    funext i
    simp only [Heap.read, h]
  induction ops generalizing W with
  | nil => rfl
  | cons op ops ih =>
    obtain ⟨h1, h2⟩ := key op W (hops op List.mem_cons_self) hx
    exact (ih (run op W).2 h2 fun o ho => hops o (List.mem_cons_of_mem _ ho)).trans h1

theorem MinJerkWorld.advance_returns {W : MinJerkWorld d} {y yd : View d} (h : W.advance.1 = .ok (some (y, yd))) :
    W.heap.next ≤ y.buf ∧ W.heap.next ≤ yd.buf ∧ y.buf ≠ yd.buf ∧ y.buf < W.advance.2.heap.next ∧
      yd.buf < W.advance.2.heap.next ∧ W.advance.2.buffers = W.buffers ∧ Function.Injective y.idx ∧
        Function.Injective yd.idx := by
  unfold advance at h ⊢
  by_cases hi : W.obj.stepIdx < W.obj.nRows
  · simp only [if_pos hi, Except.ok.injEq, Option.some.injEq, Prod.mk.injEq] at h ⊢
    obtain ⟨rfl, rfl⟩ := h
    simp only [Heap.buf_alloc, Heap.next_alloc]
    exact ⟨le_rfl, by omega, by omega, by omega, by omega, rfl, Heap.inj_alloc _ _, Heap.inj_alloc _ _⟩
  · rw [if_neg hi] at h
    cases h

/-- The arrays of the object exist. -/
structure MinJerkWorld.Sound (W : MinJerkWorld d) : Prop where
  exist : ∀ b ∈ W.buffers, b < W.heap.next

theorem MinJerkWorld.generate_sound {W : MinJerkWorld d} (h : W.Sound) : W.generate.2.Sound := by
  have hf := W.generate_frame
  unfold generate at hf ⊢
  split at hf
  · exact h
  · constructor
    intro b hb
    have h1 := h.exist W.obj.startY.buf (by simp [buffers])
    have h2 := h.exist W.obj.goalY.buf (by simp [buffers])
    simp only [buffers, Heap.buf_alloc, Heap.next_alloc, List.mem_cons, List.not_mem_nil, or_false] at hb ⊢
    omega

theorem MinJerkWorld.advance_sound {W : MinJerkWorld d} (h : W.Sound) : W.advance.2.Sound := by
  have hf := W.advance_frame.1
  constructor
  intro b hb
  refine (h.exist b ?_).trans_le hf
  unfold advance at hb
  split at hb <;> exact hb

theorem MinJerkWorld.step_sound {W : MinJerkWorld d} (h : W.Sound) : W.step.2.Sound := by
  rw [step_eq]
  split
  · exact advance_sound h
  · split
    · exact generate_sound h
    · exact advance_sound (generate_sound h)

theorem MinJerkWorld.run_sound {W : MinJerkWorld d} (h : W.Sound) (op : MinJerkOp d) (hop : Disciplined op W) :
    (run op W).2.Sound := by
  cases op with
  | configure s g =>
    constructor
    intro b hb
    simp only [run, buffers, List.mem_cons, List.not_mem_nil, or_false] at hb ⊢
    rcases hb with rfl | rfl | rfl | rfl
    · cases s with
      | none => exact h.exist _ (by simp [buffers])
      | some x => exact hop x (.inl rfl)
    · cases g with
      | none => exact h.exist _ (by simp [buffers])
      | some x => exact hop x (.inr rfl)
    · exact h.exist _ (by simp [buffers])
    · exact h.exist _ (by simp [buffers])
  | reset => exact ⟨h.exist⟩
  | step => exact step_sound h
  | callerAlloc n v => exact ⟨fun b hb => by have := h.exist b hb; simp only [run, Heap.next_alloc]; omega⟩
  | callerWrite n y v => exact ⟨h.exist⟩

/-- Arrays returned by `step` are new: they belong neither to the object nor to anything that existed before. -/
theorem MinJerkWorld.step_returns {W : MinJerkWorld d} (hW : W.Sound) {y yd : View d} (h : W.step.1 = .ok (some (y, yd))) :
    W.heap.next ≤ y.buf ∧ W.heap.next ≤ yd.buf ∧ y.buf ≠ yd.buf ∧ y.buf < W.step.2.heap.next ∧ yd.buf < W.step.2.heap.next ∧
      y.buf ∉ W.step.2.buffers ∧ yd.buf ∉ W.step.2.buffers ∧ Function.Injective y.idx ∧ Function.Injective yd.idx := by
  rw [step_eq] at h ⊢
  by_cases hi : W.obj.initialized = true
  · rw [if_pos hi] at h ⊢
    obtain ⟨h1, h2, h3, h4, h5, h6, h7, h8⟩ := advance_returns h
    rw [h6]
    exact ⟨h1, h2, h3, h4, h5, fun hb => by have := hW.exist _ hb; omega, fun hb => by have := hW.exist _ hb; omega, h7, h8⟩
  · rw [if_neg hi] at h ⊢
    have hs := generate_sound hW
    have hf := W.generate_frame.1
    generalize W.generate = q at h hs hf ⊢
    obtain ⟨o, W'⟩ := q
    cases o with
    | error e => cases h
    | ok u =>
      simp only at h hs hf ⊢
      obtain ⟨h1, h2, h3, h4, h5, h6, h7, h8⟩ := advance_returns h
      rw [h6]
      exact ⟨hf.trans h1, hf.trans h2, h3, h4, h5, fun hb => by have := hs.exist _ hb; omega,
        fun hb => by have := hs.exist _ hb; omega, h7, h8⟩

/-- **C58 (minimum jerk).** The arrays that `step` returns keep their contents, whatever is called later, as long as the caller does
not write into them. -/
theorem C58_min_jerk_results_stay {W : MinJerkWorld d} (hW : W.Sound) {lastY lastYd y yd : View d}
    (hr : (run (.step lastY lastYd) W).1 = .ok (some (y, yd))) (later : List (MinJerkOp d))
    (hl : ∀ op ∈ later, op.Leaves y ∧ op.Leaves yd) :
    let W' := (run (.step lastY lastYd) W).2
    (W'.runAll later).heap.read y = W'.heap.read y ∧ (W'.runAll later).heap.read yd = W'.heap.read yd := by
  obtain ⟨-, -, -, h4, h5, -⟩ := step_returns hW hr
  exact ⟨C71_min_jerk _ later h4 fun op ho => (hl op ho).1, C71_min_jerk _ later h5 fun op ho => (hl op ho).2⟩

/-- **C58 (minimum jerk).** The arrays belong to the caller: writing into them is allowed by C70 and changes neither the other one
nor any array that existed before. -/
theorem C58_min_jerk_results_are_callers {W : MinJerkWorld d} (hW : W.Sound) {lastY lastYd y yd : View d}
    (hr : (run (.step lastY lastYd) W).1 = .ok (some (y, yd))) (val : Vec d) {n : ℕ} (x : View n) (hx : x.buf < W.heap.next) :
    let W' := (run (.step lastY lastYd) W).2
    let W'' := (run (.callerWrite d y val) W').2
    Disciplined (.callerWrite d y val) W' ∧ Disciplined (.callerWrite d yd val) W' ∧ W''.heap.read y = val ∧
      W''.heap.read yd = W'.heap.read yd ∧ W''.heap.read x = W'.heap.read x := by
  obtain ⟨h1, -, h3, -, -, h6, h7, h8, -⟩ := step_returns hW hr
  exact ⟨h6, h7, Heap.read_write h8 val, Heap.read_write_of_ne (Ne.symm h3) val, Heap.read_write_of_ne (by omega) val⟩

/-! ## Value semantics -/

/-- The object in memory has the contents of `s`. -/
structure MinJerkWorld.Reads (W : MinJerkWorld d) (s : MinimumJerkTrajectory d) : Prop where
  startY : W.heap.read W.obj.startY = s.startY
  goalY : W.heap.read W.obj.goalY = s.goalY
  rows : W.obj.nRows = s.rows.length
  X : ∀ (i : ℕ) (hi : i < s.rows.length), W.heap.read (rowView W.obj.X d i) = s.rows[i].1
  Xd : ∀ (i : ℕ) (hi : i < s.rows.length), W.heap.read (rowView W.obj.Xd d i) = s.rows[i].2.1
  executionTime : W.obj.executionTime = s.executionTime
  dt : W.obj.dt = s.dt
  stepIdx : W.obj.stepIdx = s.stepIdx
  initialized : W.obj.initialized = s.initialized

/-- Memory of the object that is not changed keeps its contents. -/
theorem MinJerkWorld.Reads.frame {W : MinJerkWorld d} {s : MinimumJerkTrajectory d} (h : W.Reads s) {h' : Heap}
    (hm : ∀ b ∈ W.buffers, h'.mem b = W.heap.mem b) : MinJerkWorld.Reads ⟨h', W.obj⟩ s := by
  have key : ∀ {n : ℕ} (x : View n), x.buf ∈ W.buffers → h'.read x = W.heap.read x := by
    intro n x hx
    funext i
    simp only [Heap.read, hm _ hx]
  exact ⟨(key _ (by simp [buffers])).trans h.startY, (key _ (by simp [buffers])).trans h.goalY, h.rows,
    fun i hi => (key _ (by simp [buffers, rowView])).trans (h.X i hi),
    fun i hi => (key _ (by simp [buffers, rowView])).trans (h.Xd i hi), h.executionTime, h.dt, h.stepIdx, h.initialized⟩

theorem MinJerkWorld.generate_reads {W : MinJerkWorld d} (hW : W.Sound) {s : MinimumJerkTrajectory d} (h : W.Reads s) :
    match generateMinimumJerk s.startY s.goalY s.executionTime s.dt with
    | .error e => W.generate = (.error e, W)
    | .ok rows => W.generate.1 = .ok () ∧ W.generate.2.Reads { s with rows := rows, initialized := true } := by
  unfold generate
  rw [h.startY, h.goalY, h.executionTime, h.dt]
  cases hg : generateMinimumJerk s.startY s.goalY s.executionTime s.dt with
  | error e => rfl
  | ok rows =>
    refine ⟨rfl, ?_⟩
    set A : Fin rows.length → Fin d → ℝ := fun i => (rows.get i).1
    set B : Fin rows.length → Fin d → ℝ := fun i => (rows.get i).2.1
    have h1 := hW.exist W.obj.startY.buf (by simp [buffers])
    have h2 := hW.exist W.obj.goalY.buf (by simp [buffers])
    have key : ∀ {n : ℕ} (x : View n), x.buf < W.heap.next →
        ((W.heap.alloc (flatten A)).2.alloc (flatten B)).2.read x = W.heap.read x := by
      intro n x hx
      rw [Heap.read_alloc_of_lt (by simp only [Heap.next_alloc]; omega), Heap.read_alloc_of_lt hx]
    refine ⟨(key _ h1).trans h.startY, (key _ h2).trans h.goalY, rfl, fun i hi => ?_, fun i hi => ?_, h.executionTime, h.dt,
      h.stepIdx, rfl⟩
    · exact (Heap.read_alloc_of_lt (by simp only [rowView, Heap.buf_alloc, Heap.next_alloc]; omega) _).trans
        (flatten_row A W.heap ⟨i, hi⟩)
    · exact flatten_row B (W.heap.alloc (flatten A)).2 ⟨i, hi⟩

theorem MinJerkWorld.advance_reads {W : MinJerkWorld d} (hW : W.Sound) {s : MinimumJerkTrajectory d} (h : W.Reads s) :
    match s.rows[s.stepIdx]? with
    | none => W.advance = (.error .indexError, W)
    | some r => (∃ y yd, W.advance.1 = .ok (some (y, yd)) ∧ W.advance.2.heap.read y = r.1 ∧ W.advance.2.heap.read yd = r.2.1) ∧
        W.advance.2.Reads { s with currentY := r.1, currentYd := r.2.1, stepIdx := s.stepIdx + 1 } := by
  have hf := W.advance_frame.2
  unfold advance at hf ⊢
  rw [h.rows, h.stepIdx] at hf ⊢
  by_cases hi : s.stepIdx < s.rows.length
  · rw [List.getElem?_eq_getElem hi]
    simp only [if_pos hi] at hf ⊢
    refine ⟨⟨_, _, rfl, ?_, ?_⟩, ?_⟩
    · rw [Heap.read_alloc_of_lt (by simp only [Heap.buf_alloc, Heap.next_alloc]; omega), Heap.read_alloc, h.X _ hi]
    · rw [Heap.read_alloc, h.Xd _ hi]
    · have h1 := h.frame (fun b hb => hf b (hW.exist b hb))
      exact ⟨h1.startY, h1.goalY, h1.rows, h1.X, h1.Xd, h1.executionTime, h1.dt, rfl, h1.initialized⟩
  · rw [List.getElem?_eq_none (by omega)]
    simp only [if_neg hi]

theorem MinJerkWorld.step_reads {W : MinJerkWorld d} (hW : W.Sound) {s : MinimumJerkTrajectory d} (h : W.Reads s)
    (y yd : Vec d) :
    look W.step.2.heap W.step.1 = ((MinimumJerkTrajectory.step y yd).exec s).1.map some ∧
      W.step.2.Reads ((MinimumJerkTrajectory.step y yd).exec s).2 := by
  rw [step_eq, MinimumJerkTrajectory.exec_step]
  have main : ∀ {W : MinJerkWorld d} {s : MinimumJerkTrajectory d}, W.Sound → W.Reads s → s.initialized = true →
      ∀ q, q = (match s.rows[s.stepIdx]? with
        | none => (.error .indexError, { s with rows := s.rows, initialized := true })
        | some r => (.ok (r.1, r.2.1), { s with
            rows := s.rows, initialized := true, currentY := r.1, currentYd := r.2.1, stepIdx := s.stepIdx + 1 }) :
            Except PyErr (Vec d × Vec d) × MinimumJerkTrajectory d) →
      look W.advance.2.heap W.advance.1 = q.1.map some ∧ W.advance.2.Reads q.2 := by
    intro W s hW h hi q hq
    have h1 := advance_reads hW h
    cases hr : s.rows[s.stepIdx]? with
    | none =>
      rw [hr] at hq h1
      simp only at hq h1
      rw [h1, hq]
      exact ⟨rfl, by rw [← hi]; exact h⟩
    | some r =>
      rw [hr] at hq h1
      simp only at hq h1
      obtain ⟨⟨y, yd, e1, e2, e3⟩, h2⟩ := h1
      rw [hq, e1]
      refine ⟨?_, ?_⟩
      · simp only [look, Except.map, Option.map, e2, e3]
      · simp only
        rw [← hi]
        exact h2
  by_cases hi : s.initialized = true
  · rw [if_pos (h.initialized.trans hi), if_pos hi]
    exact main hW h hi _ rfl
  · rw [if_neg (by rw [h.initialized]; exact hi), if_neg hi]
    have h1 := generate_reads hW h
    have hs := generate_sound hW
    cases hg : generateMinimumJerk s.startY s.goalY s.executionTime s.dt with
    | error e =>
      rw [hg] at h1
      simp only at h1
      rw [h1]
      exact ⟨rfl, h⟩
    | ok rows =>
      rw [hg] at h1
      obtain ⟨e1, h2⟩ := h1
      rw [e1]
      exact main (s := { s with rows := rows, initialized := true }) hs h2 rfl _ rfl

theorem MinJerkWorld.run_reads {W : MinJerkWorld d} (hW : W.Sound) {s : MinimumJerkTrajectory d} (h : W.Reads s)
    (op : MinJerkOp d) (hop : Disciplined op W) :
    look (run op W).2.heap (run op W).1 = (valueOp W.heap op s).1 ∧ (run op W).2.Reads (valueOp W.heap op s).2 := by
  cases op with
  | configure y g =>
    have hc := C25_configure_sets { startY := y.map fun x => List.ofFn (W.heap.read x)
                                    goalY := g.map fun x => List.ofFn (W.heap.read x) } s.toMovement
      (by cases y <;> cases g <;> simp [AllOk, FieldOk])
    simp only [valueOp, hc]
    refine ⟨rfl, ?_, ?_, h.rows, h.X, h.Xd, h.executionTime, h.dt, h.stepIdx, h.initialized⟩
    · cases y with
      | none => exact h.startY
      | some x => exact (newValue_ofFn (W.heap.read x) s.startY).symm
    · cases g with
      | none => exact h.goalY
      | some x => exact (newValue_ofFn (W.heap.read x) s.goalY).symm
  | reset => exact ⟨rfl, h.startY, h.goalY, h.rows, h.X, h.Xd, h.executionTime, h.dt, rfl, rfl⟩
  | step y yd => exact step_reads hW h _ _
  | callerAlloc n v => exact ⟨rfl, h.frame fun b hb => Heap.mem_alloc_of_lt (hW.exist b hb) v⟩
  | callerWrite n y v => exact ⟨rfl, h.frame fun b hb => Heap.mem_write_of_ne (fun e => hop (e ▸ hb)) v⟩

/-- **C70 (minimum jerk).** The constructor makes an object whose arrays exist and that has the contents of the value model. -/
theorem C70_min_jerk_create (executionTime dt : ℝ) (h : Heap) :
    (MinJerkWorld.create (d := d) executionTime dt h).Sound ∧
      (MinJerkWorld.create executionTime dt h).Reads (MinimumJerkTrajectory.create d executionTime dt) := by
  refine ⟨⟨fun b hb => ?_⟩, ?_, ?_, rfl, fun i hi => absurd hi (Nat.not_lt_zero i), fun i hi => absurd hi (Nat.not_lt_zero i),
    rfl, rfl, rfl, rfl⟩
  · simp only [MinJerkWorld.create, buffers, Heap.buf_alloc, Heap.next_alloc, List.mem_cons, List.not_mem_nil, or_false] at hb ⊢
    omega
  · simp only [MinJerkWorld.create]
    rw [Heap.read_alloc_of_lt (by simp only [Heap.buf_alloc, Heap.next_alloc]; omega),
      Heap.read_alloc_of_lt (by simp only [Heap.buf_alloc, Heap.next_alloc]; omega),
      Heap.read_alloc_of_lt (by simp only [Heap.buf_alloc, Heap.next_alloc]; omega), Heap.read_alloc]
    rfl
  · simp only [MinJerkWorld.create]
    rw [Heap.read_alloc_of_lt (by simp only [Heap.buf_alloc, Heap.next_alloc]; omega),
      Heap.read_alloc_of_lt (by simp only [Heap.buf_alloc, Heap.next_alloc]; omega), Heap.read_alloc]
    rfl

/-- **C70 (minimum jerk).** Value semantics: for every history of calls in which the caller does not write into arrays of the object
(among them the start and goal that were handed over), all results are those of the value model. -/
theorem C70_min_jerk_history {W : MinJerkWorld d} (hW : W.Sound) {s : MinimumJerkTrajectory d} (h : W.Reads s)
    (ops : List (MinJerkOp d)) (hops : DisciplinedAll ops W) : results ops W = valueResults ops W s := by
  induction ops generalizing W s with
  | nil => rfl
  | cons op ops ih =>
    obtain ⟨h1, h2⟩ := run_reads hW h op hops.1
    simp only [results, valueResults]
    rw [ih (run_sound hW op hops.1) h2 hops.2]
    exact congrArg (· :: _) h1

/-- **C70 (minimum jerk, finding).** The discipline is necessary: an object keeps a reference to the start that was handed over. A
caller who writes into this array before the first step (or the first one after `reset`) moves the start of the trajectory. -/
theorem C70_min_jerk_start_shared {W : MinJerkWorld d} (hW : W.Sound) {s : MinimumJerkTrajectory d} (h : W.Reads s)
    (hi : s.initialized = false) (hidx : s.stepIdx = 0) (hdt : 0 < s.dt) (hτ : 0 ≤ s.executionTime)
    (hinj : Function.Injective W.obj.startY.idx) (hg : W.obj.goalY.buf ≠ W.obj.startY.buf) (hX : W.obj.X ≠ W.obj.startY.buf)
    (hXd : W.obj.Xd ≠ W.obj.startY.buf) (val : Vec d) (lastY lastYd : View d) :
    let W' := (run (.callerWrite d W.obj.startY val) W).2
    look (run (.step lastY lastYd) W').2.heap (run (.step lastY lastYd) W').1 = .ok (some (val, 0)) := by
  intro W'
  have hR : W'.Reads { s with startY := val } := by
    refine ⟨Heap.read_write hinj val, (Heap.read_write_of_ne hg val).trans h.goalY, h.rows,
      fun i hi => (Heap.read_write_of_ne (by exact hX) val).trans (h.X i hi),
      fun i hi => (Heap.read_write_of_ne (by exact hXd) val).trans (h.Xd i hi), h.executionTime, h.dt, h.stepIdx, h.initialized⟩
  have hS : W'.Sound := ⟨hW.exist⟩
  refine (step_reads hS hR 0 0).1.trans ?_
  rw [MinimumJerkTrajectory.exec_step]
  simp only [hi, Bool.false_eq_true, if_false, generate_eq val s.goalY hdt hτ, hidx]
  simp [minJerkState, Except.map]

/-- The hypotheses of the theorems above hold for new objects. -/
example (h : Heap) (val : Vec 2) (x : View 2) :
    let W := MinJerkWorld.create (d := 2) 1 0.1 h
    look (run (.step x x) (run (.callerWrite 2 W.obj.startY val) W).2).2.heap
      (run (.step x x) (run (.callerWrite 2 W.obj.startY val) W).2).1 = .ok (some (val, 0)) := by
  obtain ⟨h1, h2⟩ := C70_min_jerk_create (d := 2) 1 0.1 h
  refine C70_min_jerk_start_shared h1 h2 rfl rfl (by norm_num [MinimumJerkTrajectory.create])
    (by norm_num [MinimumJerkTrajectory.create]) (Heap.inj_alloc h (0 : Vec 2)) ?_ ?_ ?_ val x x <;>
  · simp only [MinJerkWorld.create, Heap.buf_alloc, Heap.next_alloc]; omega

/-- C58: the first step of a new object returns arrays. -/
example (h : Heap) (x : View 2) :
    ∃ y yd, (run (.step x x) (MinJerkWorld.create (d := 2) 1 0.1 h)).1 = .ok (some (y, yd)) := by
  obtain ⟨h1, h2⟩ := C70_min_jerk_create (d := 2) 1 0.1 h
  have h3 := (step_reads h1 h2 0 0).1
  rw [MinimumJerkTrajectory.exec_step] at h3
  simp only [MinimumJerkTrajectory.create, Bool.false_eq_true, if_false,
    generate_eq _ _ (show (0 : ℝ) < 0.1 by norm_num) (show (0 : ℝ) ≤ 1 by norm_num)] at h3
  simp only [List.getElem?_map, List.getElem?_range (Nat.succ_pos _), Option.map, Except.map] at h3
  show ∃ y yd, (MinJerkWorld.create (d := 2) 1 0.1 h).step.1 = _
  generalize (MinJerkWorld.create (d := 2) 1 0.1 h).step = q at h3 ⊢
  obtain ⟨(_ | (_ | r)), _⟩ := q
  · simp [look, Except.map] at h3
  · simp [look, Except.map] at h3
  · exact ⟨r.1, r.2, rfl⟩

/-- A disciplined history: the caller makes a goal, hands it over, steps twice and starts again. -/
example (h : Heap) (g : Vec 2) (x : View 2) :
    let W := MinJerkWorld.create (d := 2) 1 0.1 h
    let ops : List (MinJerkOp 2) := [.callerAlloc 2 g, .configure none (some ⟨h.next + 4, Fin.val⟩), .step x x, .step x x, .reset,
      .step x x]
    results ops W = valueResults ops W (MinimumJerkTrajectory.create 2 1 0.1) := by
  obtain ⟨h1, h2⟩ := C70_min_jerk_create (d := 2) 1 0.1 h
  refine C70_min_jerk_history h1 h2 _ ⟨trivial, ?_, trivial, trivial, trivial, trivial, trivial⟩
  rintro y (hy | hy)
  · cases hy
  · cases hy
    simp only [MinJerkWorld.run, MinJerkWorld.create, Heap.next_alloc]
    omega

end Verif
