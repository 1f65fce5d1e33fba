import Verif.Props.Heap

/-!
# Saved weights and demonstrations (C23, C63)
-/

namespace Verif
open HClass
variable {S : Type} {p v w : ℕ} {C : HClass S p v w}

theorem Spec.CanImitate.isClass (hC : Spec.CanImitate C) : IsClass C := by
  cases hC <;> constructor

theorem Spec.InheritsGetWeights.canImitate (hC : Spec.InheritsGetWeights C) : Spec.CanImitate C := by
  cases hC <;> constructor

theorem Spec.InheritsGetWeights.view (hC : Spec.InheritsGetWeights C) : C.getWeights = .view := by
  cases hC <;> rfl

theorem reshapeWeights_ofFn {d m : ℕ} (x : Vec (d * m)) : DMP.reshapeWeights d m (List.ofFn x) = .ok (unflatten x) := by
  unfold DMP.reshapeWeights
  rw [dif_pos (by simp)]
  congr 1
  funext k i
  simp only [List.getElem_ofFn, unflatten]

theorem assignRows_ofFn {m : ℕ} (x : Vec (3 * m)) : CartesianDMP.assignRows m (List.ofFn x) = .ok (unflatten x) := by
  rw [← assignRows_flat]
  congr 2
  exact (flatten_unflatten x).symm

/-- `set_weights` of a vector of the right length. -/
theorem setWeights_ok (hC : Spec.CanImitate C) (x : Vec w) (s : S) :
    (C.setWeights (List.ofFn x)).exec s = (.ok (), C.assemble (C.movement s) x s) := by
  cases hC
  · simp only [dmpClass, DMP.setWeights, Py.exec_bind, Py.exec_lift, reshapeWeights_ofFn, Py.exec_modify]
  · simp only [fvClass, DMP.setWeights, Py.exec_bind, Py.exec_lift, reshapeWeights_ofFn, Py.exec_modify]
  · rename_i m
    simp only [cartesianClass, CartesianDMP.exec_setWeights]
    have hx : List.ofFn x = List.ofFn (fun i => x (Fin.castAdd _ i)) ++ List.ofFn (fun i => x (Fin.natAdd _ i)) := by
      rw [← List.ofFn_fin_append, Fin.append_castAdd_natAdd]
    have h1 : (List.ofFn x).take (3 * m) = List.ofFn (fun i => x (Fin.castAdd _ i)) := by
      rw [hx, List.take_left' (by simp)]
    have h2 : (List.ofFn x).drop (3 * m) = List.ofFn (fun i => x (Fin.natAdd _ i)) := by
      rw [hx, List.drop_left' (by simp)]
    rw [h1, h2, assignRows_ofFn, assignRows_ofFn]
  · simp only [dualClass, DualCartesianDMP.exec_setWeights, reshapeWeights_ofFn]

/-- `set_weights` on memory: the outcome is success, the weights are those of the argument, everything else is kept. -/
theorem run_setWeights (hC : Spec.CanImitate C) {W : World S p v w} (hW : W.Sound) (x : View w) :
    (C.run (.setWeights x) W).1 = .ok .none ∧ (C.run (.setWeights x) W).2.Sound ∧
      (C.run (.setWeights x) W).2.obj.weights = W.obj.weights ∧
      (C.run (.setWeights x) W).2.heap = W.heap.write W.obj.weights (W.heap.read x) ∧
      C.read (C.run (.setWeights x) W).2 = C.assemble (C.movement (C.read W)) (W.heap.read x) (C.read W) := by
  have hl := hC.isClass.lawful
  obtain ⟨h1, h2, h3⟩ := C70_call hC.isClass hW (.setWeights x) trivial
  simp only [valueOp, Py.exec_bind, setWeights_ok hC, Py.exec_pure] at h2
  refine ⟨?_, h3, rfl, ?_, h2⟩
  · simp only [run, hSetWeights, setWeights_ok hC]; rfl
  · simp only [run, hSetWeights, setWeights_ok hC, hl.weights_assemble]

/-! ## C23 -/

/-- The array returned by `CartesianDMP.get_weights` is new. -/
theorem cartesian_weights_new {m : ℕ} {W : World (CartesianDMP m) (3 + 4) (3 + 3) (3 * m + 3 * m)} (hW : W.Sound)
    {x : View (3 * m + 3 * m)} (hr : ((cartesianClass m).run .getWeights W).1 = .ok (.weights x)) :
    x.buf = W.heap.next ∧ ((cartesianClass m).run .getWeights W).2.obj = W.obj ∧
      x.buf < ((cartesianClass m).run .getWeights W).2.heap.next ∧ x.buf ∉ W.obj.internal ∧
      ((cartesianClass m).run .getWeights W).2.heap.read x = (cartesianClass m).weights ((cartesianClass m).read W) := by
  have hl := (IsClass.cartesian m).lawful
  have e : (cartesianClass m).getWeights = .copy := rfl
  simp only [run, hGetWeights, e] at hr ⊢
  cases hr
  refine ⟨rfl, trivial, by simp, fun hb => ?_, ?_⟩
  · have := hW.internal_lt _ hb
    simp at this
  · rw [Heap.read_alloc, hl.weights_read]

/-- **C23 (CartesianDMP).** The array that `get_weights` returned keeps the weights of that moment, whatever is called
later, as long as the caller does not write into it. -/
theorem C23_cartesian_saved_weights_stay {m : ℕ} {W : World (CartesianDMP m) (3 + 4) (3 + 3) (3 * m + 3 * m)}
    (hW : W.Sound) {x : View (3 * m + 3 * m)} (hr : ((cartesianClass m).run .getWeights W).1 = .ok (.weights x))
    (later : List (cartesianClass m).Op) (hl : ∀ op ∈ later, op.Leaves x) :
    List.ofFn (((cartesianClass m).runAll later ((cartesianClass m).run .getWeights W).2).2.heap.read x) =
      ((cartesianClass m).read W).getWeights := by
  obtain ⟨-, h2, h3, h4, h5⟩ := cartesian_weights_new hW hr
  rw [runAll_untouched later _ h3 (by rw [h2]; exact h4) hl, h5]
  simp only [cartesianClass, CartesianDMP.getWeights, List.ofFn_fin_append]
  rfl

/-- **C23 (CartesianDMP).** Saved weights can be restored: after any history of calls that does not share arrays which the
object overwrites, `set_weights` with the saved array succeeds and the weights are those of the moment when they were saved;
start, goal and current state are not changed by it. -/
theorem C23_cartesian_restore {m : ℕ} {W : World (CartesianDMP m) (3 + 4) (3 + 3) (3 * m + 3 * m)}
    (hW : W.Sound) {x : View (3 * m + 3 * m)} (hr : ((cartesianClass m).run .getWeights W).1 = .ok (.weights x))
    (later : List (cartesianClass m).Op) (hl : ∀ op ∈ later, op.Leaves x)
    (hd : (cartesianClass m).DisciplinedAll later ((cartesianClass m).run .getWeights W).2) :
    let W1 := ((cartesianClass m).runAll later ((cartesianClass m).run .getWeights W).2).2
    let W2 := ((cartesianClass m).run (.setWeights x) W1).2
    ((cartesianClass m).run (.setWeights x) W1).1 = .ok .none ∧
      ((cartesianClass m).read W2).getWeights = ((cartesianClass m).read W).getWeights ∧
      ((cartesianClass m).read W2).toMovement = ((cartesianClass m).read W1).toMovement := by
  intro W1 W2
  have hs0 := (C70_call (.cartesian m) hW .getWeights trivial).2.2
  have hs1 : W1.Sound := (C70_history (.cartesian m) hs0 later hd).2
  obtain ⟨h1, -, -, -, h2⟩ := run_setWeights (.cartesian m) hs1 x
  have hx : List.ofFn (W1.heap.read x) = ((cartesianClass m).read W).getWeights :=
    C23_cartesian_saved_weights_stay hW hr later hl
  refine ⟨h1, ?_, ?_⟩
  · rw [show (cartesianClass m).read W2 = _ from h2, ← hx]
    have := (IsClass.cartesian m).lawful.weights_assemble ((cartesianClass m).movement ((cartesianClass m).read W1))
      (W1.heap.read x) ((cartesianClass m).read W1)
    conv_rhs => rw [← this]
    simp only [cartesianClass, CartesianDMP.getWeights, List.ofFn_fin_append]
    rfl
  · rw [show (cartesianClass m).read W2 = _ from h2]
    rfl

/-- The array of the weights is never replaced. -/
theorem runAll_weights (ops : List C.Op) (W : World S p v w) : (C.runAll ops W).2.obj.weights = W.obj.weights := by
  have h0 : ∀ W : World S p v w, (copyStart W).obj.weights = W.obj.weights := fun _ => rfl
  have hi : ∀ s s' : S, ∀ W : World S p v w, (C.integrate s s' W).obj.weights = W.obj.weights := by
    intro s s' W; unfold integrate; split_ifs <;> rfl
  have hq : ∀ q (W : World S p v w), (C.stepReturn q W).2.obj.weights = W.obj.weights := by
    intro q W; unfold stepReturn; split_ifs <;> rfl
  induction ops generalizing W with
  | nil => rfl
  | cons op ops ih =>
    rw [runAll]
    refine (ih _).trans ?_
    cases op with
    | configure a => rfl
    | reset => simp only [run, hReset]; split_ifs <;> rfl
    | step a y yd =>
      simp only [run, hStep]
      split
      · rw [hi]
      · rw [hq, hi]
    | openLoop a => simp only [run, hOpenLoop]; rw [hi]
    | setExecutionTime τ => rfl
    | getWeights => simp only [run, hGetWeights]; split <;> rfl
    | setWeights x => rfl
    | imitate n a T Y =>
      simp only [run, hImitate]
      split
      · rfl
      · split_ifs <;> rfl
    | callerAlloc n x => rfl
    | callerWrite n x val => rfl

/-- **C23 (finding).** For `DMP`, `DMPWithFinalVelocity` and `DualCartesianDMP` the array that `get_weights` returned always
contains the current weights: after any later history, not the weights of the moment when it was returned. -/
theorem C23_get_weights_is_live_finding (hC : Spec.InheritsGetWeights C) {W : World S p v w} {x : View w}
    (hr : (C.run .getWeights W).1 = .ok (.weights x)) (later : List C.Op) :
    let W1 := (C.runAll later (C.run .getWeights W).2).2
    W1.heap.read x = C.weights (C.read W1) := by
  intro W1
  have hx : x = W.obj.weights ∧ (C.run .getWeights W).2 = W := by
    simp only [run, hGetWeights, hC.view] at hr ⊢
    cases hr
    exact ⟨rfl, trivial⟩
  rw [hC.canImitate.isClass.lawful.weights_read, hx.1]
  have : W1.obj.weights = W.obj.weights := by
    simp only [W1, runAll_weights, hx.2]
  rw [this]

/-- **C23 (finding).** Saving and restoring fails for `DMP`, `DMPWithFinalVelocity` and `DualCartesianDMP`: after
`w = get_weights(); set_weights(z); set_weights(w)` the weights are those of `z`, and `w` has become equal to `z`. -/
theorem C23_restore_fails_finding (hC : Spec.InheritsGetWeights C) {W : World S p v w} (hW : W.Sound) {x : View w}
    (hr : (C.run .getWeights W).1 = .ok (.weights x)) (z : View w) :
    let W0 := (C.run .getWeights W).2
    let W1 := (C.run (.setWeights z) W0).2
    let W2 := (C.run (.setWeights x) W1).2
    (C.run (.setWeights z) W0).1 = .ok .none ∧ (C.run (.setWeights x) W1).1 = .ok .none ∧
      W1.heap.read x = W.heap.read z ∧ C.weights (C.read W2) = W.heap.read z := by
  intro W0 W1 W2
  have hl := hC.canImitate.isClass.lawful
  have hx : x = W.obj.weights ∧ W0 = W := by
    simp only [W0, run, hGetWeights, hC.view] at hr ⊢
    cases hr
    exact ⟨rfl, trivial⟩
  obtain ⟨hx, h0⟩ := hx
  have a := run_setWeights hC.canImitate (by rw [h0]; exact hW : W0.Sound) z
  have b := run_setWeights hC.canImitate (W := W1) a.2.1 x
  have e : W1.heap.read x = W.heap.read z := by
    rw [show W1.heap = _ from a.2.2.2.1, h0, hx]
    exact Heap.read_write hW.injW _
  refine ⟨a.1, b.1, e, ?_⟩
  rw [show C.read W2 = _ from b.2.2.2.2, hl.weights_assemble, e]

/-- Weights are lost: a DMP and other weights for which saving and restoring does not give the old weights. -/
example (s : DMP 1 2) (hs : s.ft.weights 0 0 ≠ 7) (h : Heap) :
    let W := ((dmpClass 1 2).run (.callerAlloc 2 ![7, 8]) ((dmpClass 1 2).create s h)).2
    let z : View (1 * 2) := ⟨h.next + 9, Fin.val⟩
    W.Sound ∧ (∃ x, ((dmpClass 1 2).run .getWeights W).1 = .ok (.weights x)) ∧
      W.heap.read z ≠ (dmpClass 1 2).weights ((dmpClass 1 2).read W) := by
  have hc := C70_create (.dmp 1 2) s h
  have hd := C70_call (.dmp 1 2) hc.1 (.callerAlloc 2 ![7, 8]) trivial
  refine ⟨hd.2.2, ⟨_, rfl⟩, fun e => hs ?_⟩
  have e0 := congrFun e 0
  rw [hd.2.1, hc.2] at e0
  have h7 : (((dmpClass 1 2).run (.callerAlloc 2 ![7, 8]) ((dmpClass 1 2).create s h)).2.heap.read
      (⟨h.next + 9, Fin.val⟩ : View 2)) = ![7, 8] := Heap.read_alloc _ _
  exact e0.symm.trans (congrFun h7 0)

/-- **C23 (finding).** A caller who writes into the array that `get_weights` returned changes the weights of the object (and
nothing else of it). -/
theorem C23_write_changes_object_finding (hC : Spec.InheritsGetWeights C) {W : World S p v w} (hW : W.Sound) {x : View w}
    (hr : (C.run .getWeights W).1 = .ok (.weights x)) (val : Vec w) :
    C.read (C.run (.callerWrite w x val) (C.run .getWeights W).2).2 =
      C.assemble (C.movement (C.read W)) val (C.read W) := by
  have hl := hC.canImitate.isClass.lawful
  have hx : x = W.obj.weights ∧ (C.run .getWeights W).2 = W := by
    simp only [run, hGetWeights, hC.view] at hr ⊢
    cases hr
    exact ⟨rfl, trivial⟩
  obtain ⟨rfl, h0⟩ := hx
  rw [h0]
  simp only [run, HClass.read, hl.assemble_assemble, hl.movement_assemble, Heap.read_write hW.injW,
    Heap.read_write_of_ne (hW.ne_w (startY_mem W.obj)), Heap.read_write_of_ne (hW.ne_w (startYd_mem W.obj)),
    Heap.read_write_of_ne (hW.ne_w (startYdd_mem W.obj)), Heap.read_write_of_ne (hW.ne_w (goalY_mem W.obj)),
    Heap.read_write_of_ne (hW.ne_w (goalYd_mem W.obj)), Heap.read_write_of_ne (hW.ne_w (goalYdd_mem W.obj)),
    Heap.read_write_of_ne hW.ne_cy_w, Heap.read_write_of_ne hW.ne_cyd_w]

/-! ## C63 -/

/-- Where `start_y` and `goal_y` are after learning. -/
theorem imitate_views {n : ℕ} (a : C.ImitateArg n) (T : Fin (n + 2) → ℝ) (Y : Fin (n + 2) → View p) {W : World S p v w}
    (hr : (C.run (.imitate n a T Y) W).1 = .ok .none) :
    (C.run (.imitate n a T Y) W).2.obj.startY = Y 0 ∧ (C.run (.imitate n a T Y) W).2.obj.goalY = Y (Fin.last (n + 1)) := by
  simp only [run, hImitate] at hr ⊢
  split at hr
  · cases hr
  · split_ifs <;> exact ⟨rfl, rfl⟩

/-- **C63 (finding).** After a successful `imitate(T, Y)`, for `DMP`, `DMPWithFinalVelocity`, `CartesianDMP` and
`DualCartesianDMP`: if the caller overwrites the first row of `Y`, then this becomes the start of the learned movement; if
they overwrite the last row, it becomes the goal. -/
theorem C63_start_follows_demonstration_finding (hC : Spec.CanImitate C) {W : World S p v w} {n : ℕ}
    (a : C.ImitateArg n) (T : Fin (n + 2) → ℝ) (Y : Fin (n + 2) → View p) (hinj : ∀ i, Function.Injective (Y i).idx)
    (hr : (C.run (.imitate n a T Y) W).1 = .ok .none) (val : Vec p) :
    let W1 := (C.run (.imitate n a T Y) W).2
    (C.movement (C.read (C.run (.callerWrite p (Y 0) val) W1).2)).startY = val ∧
      (C.movement (C.read (C.run (.callerWrite p (Y (Fin.last (n + 1))) val) W1).2)).goalY = val := by
  intro W1
  obtain ⟨h1, h2⟩ := imitate_views a T Y hr
  rw [hC.isClass.lawful.movement_read, hC.isClass.lawful.movement_read]
  simp only [run]
  constructor
  · rw [show W1.obj.startY = _ from h1, Heap.read_write (hinj _)]
  · rw [show W1.obj.goalY = _ from h2, Heap.read_write (hinj _)]

/-- **C63 (finding).** In particular every trajectory that `DMP.open_loop` generates afterwards starts at the overwritten
position instead of the start of the demonstration. -/
theorem C63_open_loop_starts_at_overwritten_row_finding {d m : ℕ} {W : World (DMP d m) d d (d * m)} {n : ℕ} (reg : ℝ)
    (afv : Bool) (T : Fin (n + 2) → ℝ) (Y : Fin (n + 2) → View d) (hinj : ∀ i, Function.Injective (Y i).idx)
    (hr : ((dmpClass d m).run (.imitate n (reg, afv) T Y) W).1 = .ok .none) (val : Vec d)
    (hdt : 0 < ((dmpClass d m).read W).dt) (runT : Option ℝ) (coupling : Option (Coupling d)) (name : String)
    {t : List ℝ} {y : List (Vec d)}
    (ho : ((dmpClass d m).run (.openLoop (runT, coupling, name)) ((dmpClass d m).run (.callerWrite d (Y 0) val)
      ((dmpClass d m).run (.imitate n (reg, afv) T Y) W).2).2).1 = .ok (.trajectory t y)) :
    y.head? = some val := by
  have hstart := (C63_start_follows_demonstration_finding (.dmp d m) (reg, afv) T Y hinj hr val).1
  have hd : ((dmpClass d m).run (.callerWrite d (Y 0) val)
      ((dmpClass d m).run (.imitate n (reg, afv) T Y) W).2).2.obj.scalars.dt = ((dmpClass d m).read W).dt := by
    simp only [run, hImitate]
    have hk : ∀ (Z : Fin (n + 2) → Vec d) (s : DMP d m), (((dmpClass d m).imitate n (reg, afv) T Z).exec s).2.dt = s.dt := by
      intro Z s
      simp only [dmpClass, DMP.exec_imitate]
      cases dmpImitate m T Z reg s.alphaY s.betaY s.ft.overlap s.ft.alphaZ afv s.smooth <;> rfl
    split
    · exact hk _ _
    · exact hk _ _
  generalize ((dmpClass d m).run (.callerWrite d (Y 0) val)
    ((dmpClass d m).run (.imitate n (reg, afv) T Y) W).2).2 = W2 at hd ho hstart
  have hdt2 : 0 < ((dmpClass d m).read W2).dt := lt_of_lt_of_eq hdt hd.symm
  simp only [run, hOpenLoop] at ho
  have hq : ∃ r, ((DMP.openLoop runT coupling name).exec ((dmpClass d m).read W2)).1 = r := ⟨_, rfl⟩
  obtain ⟨r, hq⟩ := hq
  have hm : r.map (fun x => (HRet.trajectory x.1 x.2 : HRet d d (d * m))) = .ok (.trajectory t y) := by
    rw [← hq]; exact ho
  cases r with
  | error e => cases hm
  | ok r =>
    cases hm
    have := (C20_open_loop_grid _ hdt2 runT coupling name (T := r.1) (Y := r.2) hq).2.2.2.2.2
    rw [this]
    exact congrArg some hstart

/-- A write leaves arrays without common elements alone. -/
theorem Heap.read_write_disjoint {h : Heap} {n k : ℕ} {x : View n} {y : View k}
    (hb : y.buf ≠ x.buf ∨ ∀ i j, y.idx i ≠ x.idx j) (val : Vec n) : (h.write x val).read y = h.read y := by
  by_cases e : y.buf = x.buf
  · have hb := hb.resolve_left (fun h => h e)
    funext i
    have hi : ¬ ∃ j, x.idx j = y.idx i := fun ⟨j, hj⟩ => hb i j hj.symm
    simp only [Heap.read, Heap.write, e, Function.update_self, dif_neg hi]
  · exact Heap.read_write_of_ne e val

/-- **C63 (what holds).** The object does not depend on other memory: the caller may overwrite every array that has no
element in common with the arrays of the object. -/
theorem C63_other_elements {W : World S p v w} {n : ℕ} (x : View n)
    (h1 : ∀ i j, (W.obj.startY.buf, W.obj.startY.idx i) ≠ (x.buf, x.idx j))
    (h2 : ∀ i j, (W.obj.goalY.buf, W.obj.goalY.idx i) ≠ (x.buf, x.idx j))
    (h3 : x.buf ∉ [W.obj.startYd.buf, W.obj.startYdd.buf, W.obj.goalYd.buf, W.obj.goalYdd.buf] ++ W.obj.internal)
    (val : Vec n) : C.read (C.run (.callerWrite n x val) W).2 = C.read W := by
  have e1 : (W.heap.write x val).read W.obj.startY = W.heap.read W.obj.startY := by
    apply Heap.read_write_disjoint
    by_cases e : W.obj.startY.buf = x.buf
    · exact .inr fun i j hij => h1 i j (by rw [e, hij])
    · exact .inl e
  have e2 : (W.heap.write x val).read W.obj.goalY = W.heap.read W.obj.goalY := by
    apply Heap.read_write_disjoint
    by_cases e : W.obj.goalY.buf = x.buf
    · exact .inr fun i j hij => h2 i j (by rw [e, hij])
    · exact .inl e
  simp only [HObj.internal, List.cons_append, List.nil_append, List.mem_cons, List.not_mem_nil, or_false, not_or] at h3
  obtain ⟨a1, a2, a3, a4, a5, a6, a7⟩ := h3
  simp only [run, HClass.read, e1, e2, Heap.read_write_of_ne (Ne.symm a1), Heap.read_write_of_ne (Ne.symm a2),
    Heap.read_write_of_ne (Ne.symm a3), Heap.read_write_of_ne (Ne.symm a4), Heap.read_write_of_ne (Ne.symm a5),
    Heap.read_write_of_ne (Ne.symm a6), Heap.read_write_of_ne (Ne.symm a7)]

/-- **C63 (what holds).** After learning, the caller may overwrite all rows of `Y` but the first and the last without
changing the object (rows have no common elements, and `Y` does not share memory with the velocities and accelerations
that were configured before). -/
theorem C63_inner_rows {W : World S p v w} (hW : W.Sound) {n : ℕ}
    (a : C.ImitateArg n) (T : Fin (n + 2) → ℝ) (Y : Fin (n + 2) → View p)
    (hY : ∀ i, (Y i).buf < W.heap.next ∧ (Y i).buf ∉ W.obj.internal)
    (hv : ∀ i, (Y i).buf ∉ [W.obj.startYd.buf, W.obj.startYdd.buf, W.obj.goalYd.buf, W.obj.goalYdd.buf])
    (hrows : ∀ i j, i ≠ j → ∀ k l, ((Y i).buf, (Y i).idx k) ≠ ((Y j).buf, (Y j).idx l))
    (hr : (C.run (.imitate n a T Y) W).1 = .ok .none) (i : Fin (n + 2)) (h0 : i ≠ 0) (hl : i ≠ Fin.last (n + 1))
    (val : Vec p) :
    C.read (C.run (.callerWrite p (Y i) val) (C.run (.imitate n a T Y) W).2).2 =
      C.read (C.run (.imitate n a T Y) W).2 := by
  obtain ⟨h1, h2⟩ := imitate_views a T Y hr
  refine C63_other_elements _ ?_ ?_ ?_ val
  · rw [h1]; exact fun k l => hrows 0 i h0.symm k l
  · rw [h2]; exact fun k l => hrows _ i hl.symm k l
  · have h3 := hY i
    have h4 := hv i
    simp only [run, hImitate] at hr ⊢
    split at hr
    · cases hr
    · simp only [HObj.internal, List.cons_append, List.nil_append, List.mem_cons, List.not_mem_nil, or_false, not_or]
        at h3 h4 ⊢
      cases C.imitateDerivatives with
      | false => exact ⟨h4.1, h4.2.1, h4.2.2.1, h4.2.2.2, h3.2⟩
      | true =>
        simp only [if_true, allocDerivatives, Heap.buf_alloc, Heap.next_alloc, Heap.next_write]
        exact ⟨by omega, by omega, by omega, by omega, h3.2⟩

/-- **C63 (what holds).** The learned weights are private: no write into the demonstration changes them. -/
theorem C63_weights_private (hC : Spec.CanImitate C) {W : World S p v w} (hW : W.Sound) {n : ℕ}
    (a : C.ImitateArg n) (T : Fin (n + 2) → ℝ) (Y : Fin (n + 2) → View p)
    (hY : ∀ i, (Y i).buf < W.heap.next ∧ (Y i).buf ∉ W.obj.internal) (i : Fin (n + 2)) (val : Vec p) :
    C.weights (C.read (C.run (.callerWrite p (Y i) val) (C.run (.imitate n a T Y) W).2).2) =
      C.weights (C.read (C.run (.imitate n a T Y) W).2) := by
  have hl := hC.isClass.lawful
  rw [hl.weights_read, hl.weights_read]
  have hw : (C.run (.imitate n a T Y) W).2.obj.weights = W.obj.weights := runAll_weights [.imitate n a T Y] W
  simp only [run] at hw ⊢
  rw [hw]
  refine Heap.read_write_of_ne (fun e => (hY i).2 ?_) val
  rw [← e]
  simp [HObj.internal]

/-- A demonstration of two steps that meets the hypotheses: a DMP is created, the caller creates an array with three rows,
and the DMP learns from its rows. -/
example {s : DMP 2 3} (hs : s.Reachable) (h : Heap) (Y : Vec 6) :
    let W := ((dmpClass 2 3).run (.callerAlloc 6 Y) ((dmpClass 2 3).create s h)).2
    let rows : Fin 3 → View 2 := fun i => ⟨h.next + 9, fun k => 2 * i.val + k.val⟩
    W.Sound ∧ (∀ i, Function.Injective (rows i).idx) ∧
      (∀ i, (rows i).buf < W.heap.next ∧ (rows i).buf ∉ W.obj.internal) ∧
      (∀ i, (rows i).buf ∉ [W.obj.startYd.buf, W.obj.startYdd.buf, W.obj.goalYd.buf, W.obj.goalYdd.buf]) ∧
      (∀ i j, i ≠ j → ∀ k l, ((rows i).buf, (rows i).idx k) ≠ ((rows j).buf, (rows j).idx l)) ∧
      ((dmpClass 2 3).run (.imitate 1 ((0 : ℝ), false) ![0, 0.5, 1] rows) W).1 = .ok .none := by
  intro W rows
  have hc := C70_create (.dmp 2 3) s h
  have hd := C70_call (.dmp 2 3) hc.1 (.callerAlloc 6 Y) trivial
  refine ⟨hd.2.2, ?_, ?_, ?_, ?_, ?_⟩
  · intro i k l hkl
    have : 2 * i.val + k.val = 2 * i.val + l.val := hkl
    omega
  · intro i
    refine ⟨?_, ?_⟩
    · simp only [W, rows, run, create, Heap.next_alloc]; omega
    · simp only [W, rows, run, create, HObj.internal, Heap.buf_alloc, Heap.next_alloc, List.mem_cons, List.not_mem_nil,
        or_false]
      omega
  · intro i
    simp only [W, rows, run, create, Heap.buf_alloc, Heap.next_alloc, List.mem_cons, List.not_mem_nil, or_false]
    omega
  · intro i j hij k l
    simp only [rows, ne_eq, Prod.mk.injEq, true_and]
    omega
  · have hr : (dmpClass 2 3).read W = s := hd.2.1.trans hc.2
    obtain ⟨w, hw⟩ := C28_imitate_configures hs ![0, 0.5, 1] (fun i => W.heap.read (rows i)) (reg := 0) (le_refl _)
      (by simp [Fin.last]) false
    simp only [run, hImitate, hr]
    have e : ((dmpClass 2 3).imitate 1 ((0 : ℝ), false) ![0, 0.5, 1] (fun i => W.heap.read (rows i))).exec s = _ := hw
    rw [e]

end Verif
