import Verif.Lemmas.Heap
import Verif.Props.Configure
import Verif.Props.FinalVelocity
import Verif.Props.CartesianImitate
import Verif.Props.DualImitate
import Verif.Props.SpringDamper
import Verif.Props.StateFollowing

/-! The methods of all classes satisfy the laws used for objects in memory. -/

namespace Verif
open Spec

theorem unflatten_flatten {d m : ℕ} (W : Fin d → Fin m → ℝ) : unflatten (flatten W) = W := by
  funext k i
  have h : finProdFinEquiv.symm (finProdFinEquiv (k, i)) = (k, i) := finProdFinEquiv.symm_apply_apply _
  have h1 : (finProdFinEquiv (k, i)).divNat = k := congrArg Prod.fst h
  have h2 : (finProdFinEquiv (k, i)).modNat = i := congrArg Prod.snd h
  simp only [unflatten, flatten, h1, h2]

theorem flatten_unflatten {d m : ℕ} (x : Vec (d * m)) : flatten (unflatten x) = x := by
  funext i
  have h : finProdFinEquiv (finProdFinEquiv.symm i) = i := finProdFinEquiv.apply_symm_apply _
  exact congrArg x h

theorem fieldOk_map_ofFn {n k : ℕ} (a : Option (View n)) (h : Heap) :
    FieldOk n (a.map (fun x => List.ofFn (h.read x))) := by
  intro xs hx
  cases a with
  | none => cases hx
  | some x => simp only [Option.map_some, Option.some.injEq] at hx; rw [← hx]; simp

theorem newValue_map_ofFn {n : ℕ} (a : Option (View n)) (h : Heap) (old : Vec n) :
    newValue (a.map (fun x => List.ofFn (h.read x))) old = (a.map h.read).getD old := by
  cases a with
  | none => rfl
  | some x => simp only [Option.map_some, newValue_ofFn, Option.getD_some]

theorem movement_configure_values {p v : ℕ} (a : ViewConfig p v) (h : Heap) (s : Movement p v) :
    (Movement.configure (a.values h)).exec s = (.ok (),
      { s with
        t := a.t.getD s.t
        startY := (a.startY.map h.read).getD s.startY
        startYd := (a.startYd.map h.read).getD s.startYd
        startYdd := (a.startYdd.map h.read).getD s.startYdd
        goalY := (a.goalY.map h.read).getD s.goalY
        goalYd := (a.goalYd.map h.read).getD s.goalYd
        goalYdd := (a.goalYdd.map h.read).getD s.goalYdd }) := by
  rw [C25_configure_sets]
  · simp only [ViewConfig.values, newValue_map_ofFn]
  · exact ⟨fieldOk_map_ofFn (k := 0) _ _, fieldOk_map_ofFn (k := 0) _ _, fieldOk_map_ofFn (k := 0) _ _,
      fieldOk_map_ofFn (k := 0) _ _, fieldOk_map_ofFn (k := 0) _ _, fieldOk_map_ofFn (k := 0) _ _⟩

theorem movement_configure_rows {p v : ℕ} (y g : Vec p) (s : Movement p v) :
    (Movement.configure { startY := some (List.ofFn y), goalY := some (List.ofFn g) }).exec s =
      (.ok (), { s with startY := y, goalY := g }) := by
  rw [C25_configure_sets]
  · simp only [newValue_ofFn]; rfl
  · refine ⟨?_, ?_, ?_, ?_, ?_, ?_⟩ <;> intro xs hx <;> cases hx <;> simp

theorem dmpClass_lawful (d m : ℕ) : (dmpClass d m).Lawful where
  movement_assemble _ _ _ := rfl
  weights_assemble _ x _ := flatten_unflatten x
  assemble_self s := by simp only [dmpClass, unflatten_flatten]
  assemble_assemble _ _ _ _ _ := rfl
  step_frame a y yd s := by
    simp only [dmpClass, DMP.exec_step]
    generalize a.2.run _ _ _ _ = r
    cases r <;> exact ⟨rfl, rfl, rfl, rfl, rfl, rfl, rfl⟩
  step_current a y yd s r := by
    simp only [dmpClass, DMP.exec_step]
    generalize a.2.run _ _ _ _ = q
    intro h
    cases q with
    | error e => cases h
    | ok q => cases h; rfl
  openLoop_frame a s := by
    simp only [dmpClass, DMP.exec_openLoop]
    exact ⟨rfl, rfl, rfl, rfl, rfl, rfl, rfl⟩
  configure_ok a h s := by
    simp only [dmpClass, DMP.exec_configure, movement_configure_values, unflatten_flatten]
  reset_ok s := by
    simp only [dmpClass, DMP.reset, Py.exec_modify, unflatten_flatten, if_true]
  setExecutionTime_movement τ s := by
    simp only [dmpClass, DMP.exec_setExecutionTime]
    cases DMP.initForcingTerm d m τ <;> rfl
  setExecutionTime_weights τ s := by
    simp only [dmpClass, DMP.exec_setExecutionTime]
    cases DMP.initForcingTerm d m τ <;> rfl
  setWeights_movement x s := by
    simp only [dmpClass, DMP.setWeights, Py.exec_bind, Py.exec_lift]
    cases DMP.reshapeWeights d m x <;> rfl
  imitate_error n a T Y s e := by
    simp only [dmpClass, DMP.exec_imitate]
    cases dmpImitate m T Y a.1 s.alphaY s.betaY s.ft.overlap s.ft.alphaZ a.2 s.smooth with
    | error e' => exact fun _ => rfl
    | ok r =>
      simp only [DMP.exec_configure, movement_configure_rows]
      intro h; cases h
  imitate_ok n a T Y s := by
    simp only [dmpClass, DMP.exec_imitate]
    cases hr : dmpImitate m T Y a.1 s.alphaY s.betaY s.ft.overlap s.ft.alphaZ a.2 s.smooth with
    | error e' => intro h; cases h
    | ok r =>
      have h1 : r.2 = (Y 0, Y (Fin.last (n + 1))) := by
        unfold dmpImitate at hr
        cases hw : dmpImitateWith m T a.1 s.ft.overlap s.ft.alphaZ
          (.ok (determineForces T Y s.alphaY s.betaY s.ft.alphaZ a.2 s.smooth)) with
        | error e => rw [hw] at hr; cases hr
        | ok w => rw [hw] at hr; cases hr; rfl
      simp only [DMP.exec_configure, movement_configure_rows, h1]
      rintro - mv rfl
      simp

theorem fvClass_lawful (d m : ℕ) : (fvClass d m).Lawful where
  movement_assemble _ _ _ := rfl
  weights_assemble _ x _ := flatten_unflatten x
  assemble_self s := by simp only [fvClass, unflatten_flatten]
  assemble_assemble _ _ _ _ _ := rfl
  step_frame := by
    intro (a : Option (Coupling d)) y yd s
    simp only [fvClass, FvDMP.exec_step]
    generalize StepArgs.fvStep _ _ _ _ = r
    cases r <;> exact ⟨rfl, rfl, rfl, rfl, rfl, rfl, rfl⟩
  step_current := by
    intro (a : Option (Coupling d)) y yd s r
    simp only [fvClass, FvDMP.exec_step]
    generalize StepArgs.fvStep _ _ _ _ = q
    intro h
    cases q with
    | error e => cases h
    | ok q => cases h; rfl
  openLoop_frame a s := by
    simp only [fvClass, FvDMP.openLoop, Py.exec_bind, Py.exec_get, Py.exec_lift]
    exact ⟨rfl, rfl, rfl, rfl, rfl, rfl, rfl⟩
  configure_ok a h s := by
    simp only [fvClass, DMP.exec_configure, movement_configure_values, unflatten_flatten]
  reset_ok s := by
    simp only [fvClass, DMP.reset, Py.exec_modify, unflatten_flatten, if_true]
  setExecutionTime_movement τ s := by
    simp only [fvClass, DMP.exec_setExecutionTime]
    cases DMP.initForcingTerm d m τ <;> rfl
  setExecutionTime_weights τ s := by
    simp only [fvClass, DMP.exec_setExecutionTime]
    cases DMP.initForcingTerm d m τ <;> rfl
  setWeights_movement x s := by
    simp only [fvClass, DMP.setWeights, Py.exec_bind, Py.exec_lift]
    cases DMP.reshapeWeights d m x <;> rfl
  imitate_error := by
    intro n (a : ℝ) T Y s e
    simp only [fvClass, FvDMP.exec_imitate]
    cases dmpImitateWith m T a s.ft.overlap s.ft.alphaZ (fvDetermineForces T Y s.alphaY s.betaY) with
    | error e' => exact fun _ => rfl
    | ok r =>
      simp only [DMP.exec_configure]
      rw [C25_configure_sets]
      · intro h; cases h
      · refine ⟨?_, ?_, ?_, ?_, ?_, ?_⟩ <;> intro xs hx <;> cases hx <;> simp
  imitate_ok := by
    intro n (a : ℝ) T Y s
    simp only [fvClass, FvDMP.exec_imitate]
    cases dmpImitateWith m T a s.ft.overlap s.ft.alphaZ (fvDetermineForces T Y s.alphaY s.betaY) with
    | error e' => intro h; cases h
    | ok r =>
      simp only [DMP.exec_configure]
      rw [C25_configure_sets]
      · rintro - mv rfl
        simp only [newValue_ofFn, if_true, Option.getD_none]
      · refine ⟨?_, ?_, ?_, ?_, ?_, ?_⟩ <;> intro xs hx <;> cases hx <;> simp

theorem cartesianClass_lawful (m : ℕ) : (cartesianClass m).Lawful where
  movement_assemble _ _ _ := rfl
  weights_assemble _ x _ := by
    simp only [cartesianClass, flatten_unflatten]
    exact Fin.append_castAdd_natAdd
  assemble_self s := by simp only [cartesianClass, Fin.append_left, Fin.append_right, unflatten_flatten]
  assemble_assemble _ _ _ _ _ := rfl
  step_frame a y yd s := by
    simp only [cartesianClass, CartesianDMP.exec_step]
    generalize a.2.1.run _ _ _ _ = r
    cases r with
    | error e => exact ⟨rfl, rfl, rfl, rfl, rfl, rfl, rfl⟩
    | ok r =>
      simp only
      generalize a.2.2.run _ _ _ _ = r'
      cases r' <;> exact ⟨rfl, rfl, rfl, rfl, rfl, rfl, rfl⟩
  step_current a y yd s r := by
    simp only [cartesianClass, CartesianDMP.exec_step]
    generalize a.2.1.run _ _ _ _ = q
    cases q with
    | error e => intro h; cases h
    | ok q =>
      simp only
      generalize a.2.2.run _ _ _ _ = q'
      cases q' with
      | error e => intro h; cases h
      | ok q' => intro h; cases h; rfl
  openLoop_frame a s := by
    simp only [cartesianClass, CartesianDMP.exec_openLoop]
    exact ⟨rfl, rfl, rfl, rfl, rfl, rfl, rfl⟩
  configure_ok a h s := by
    simp only [cartesianClass, CartesianDMP.exec_configure, movement_configure_values, Fin.append_left, Fin.append_right,
      unflatten_flatten]
  reset_ok s := by
    simp only [cartesianClass, CartesianDMP.reset, Py.exec_modify, Fin.append_left, Fin.append_right, unflatten_flatten,
      if_true]
  setExecutionTime_movement τ s := by
    simp only [cartesianClass, CartesianDMP.exec_setExecutionTime]
    cases DMP.initForcingTerm 3 m τ <;> rfl
  setExecutionTime_weights τ s := by
    simp only [cartesianClass, CartesianDMP.exec_setExecutionTime]
    cases DMP.initForcingTerm 3 m τ <;> rfl
  setWeights_movement x s := by
    simp only [cartesianClass, CartesianDMP.exec_setWeights]
    split
    · rfl
    · split <;> rfl
  imitate_error n a T Y s e := by
    simp only [cartesianClass, CartesianDMP.exec_imitate]
    split
    · exact fun _ => rfl
    · split
      · exact fun _ => rfl
      · simp only [CartesianDMP.exec_configure, movement_configure_rows]
        intro h; cases h
  imitate_ok n a T Y s := by
    simp only [cartesianClass, CartesianDMP.exec_imitate]
    split
    · intro h; cases h
    · split
      · intro h; cases h
      · simp only [CartesianDMP.exec_configure, movement_configure_rows]
        rintro - mv rfl
        simp

/-- Execution of a dual-arm DMP leaves the configuration as it is. -/
theorem SameConfiguration.frame {m : ℕ} {s s' : DualCartesianDMP m} (h : SameConfiguration s s') :
    (dualClass m).Frame s s' := by
  unfold SameConfiguration at h
  rw [h]
  exact ⟨rfl, rfl, rfl, rfl, rfl, rfl, rfl⟩

theorem dual_imitate_movement {m n : ℕ} (ops : QuatOps) (qgrad : (Fin (n + 2) → Vec 4) → Fin (n + 2) → Vec 3)
    (T : Fin (n + 2) → ℝ) (Y : Fin (n + 2) → Vec 14) (reg : ℝ) (afv : Bool) (s : DualCartesianDMP m) :
    (∃ e, ((DualCartesianDMP.imitate ops qgrad T Y reg afv).exec s).1 = .error e ∧
      ((DualCartesianDMP.imitate ops qgrad T Y reg afv).exec s).2.toMovement = s.toMovement) ∨
    (((DualCartesianDMP.imitate ops qgrad T Y reg afv).exec s).1 = .ok () ∧
      ((DualCartesianDMP.imitate ops qgrad T Y reg afv).exec s).2.toMovement =
        { s.toMovement with startY := Y 0, goalY := Y (Fin.last (n + 1)) }) := by
  unfold DualCartesianDMP.imitate
  simp only [Py.exec_bind, Py.exec_get, Py.exec_lift, Py.exec_modify]
  generalize dmpImitate m T (fun t => armPos 0 (Y t)) _ _ _ _ _ _ _ = w0
  cases w0 with
  | error e => exact .inl ⟨_, rfl, rfl⟩
  | ok w0 =>
    simp only
    generalize dmpImitateWith m T reg s.ft.overlap s.ft.alphaZ
      (.ok (determineForcesQuaternion ops qgrad T (fun t => armRot 0 (Y t)) _ _ _ _ _)) = w1
    cases w1 with
    | error e => exact .inl ⟨_, rfl, rfl⟩
    | ok w1 =>
      simp only
      generalize dmpImitate m T (fun t => armPos 1 (Y t)) _ _ _ _ _ _ _ = w2
      cases w2 with
      | error e => exact .inl ⟨_, rfl, rfl⟩
      | ok w2 =>
        simp only
        generalize dmpImitateWith m T reg s.ft.overlap s.ft.alphaZ
          (.ok (determineForcesQuaternion ops qgrad T (fun t => armRot 1 (Y t)) _ _ _ _ _)) = w3
        cases w3 with
        | error e => exact .inl ⟨_, rfl, rfl⟩
        | ok w3 =>
          right
          simp only [DualCartesianDMP.exec_configure, movement_configure_rows]
          exact ⟨trivial, rfl⟩

theorem dualClass_lawful (m : ℕ) : (dualClass m).Lawful where
  movement_assemble _ _ _ := rfl
  weights_assemble _ x _ := flatten_unflatten x
  assemble_self s := by simp only [dualClass, unflatten_flatten]
  assemble_assemble _ _ _ _ _ := rfl
  step_frame a y yd s := SameConfiguration.frame (DualCall.after_same a.1 s (.step a.2.1 a.2.2 y yd))
  step_current a y yd s r := by
    simp only [dualClass, DualCartesianDMP.exec_step]
    generalize a.2.2.run _ _ _ _ = q
    intro h
    cases q with
    | error e => cases h
    | ok q => cases h; rfl
  openLoop_frame a s := SameConfiguration.frame (DualCall.after_same a.1 s (.openLoop a.2.1 a.2.2.1 a.2.2.2))
  configure_ok a h s := by
    simp only [dualClass, DualCartesianDMP.exec_configure, movement_configure_values, unflatten_flatten]
  reset_ok s := by
    simp only [dualClass, DualCartesianDMP.reset, Py.exec_modify, unflatten_flatten, if_true]
  setExecutionTime_movement τ s := by
    simp only [dualClass, DualCartesianDMP.exec_setExecutionTime]
    cases DMP.initForcingTerm 12 m τ <;> rfl
  setExecutionTime_weights τ s := by
    simp only [dualClass, DualCartesianDMP.exec_setExecutionTime]
    cases DMP.initForcingTerm 12 m τ <;> rfl
  setWeights_movement x s := by
    simp only [dualClass, DualCartesianDMP.exec_setWeights]
    cases DMP.reshapeWeights 12 m x <;> rfl
  imitate_error n a T Y s e h := by
    rcases dual_imitate_movement a.1 a.2.1 T Y a.2.2.1 a.2.2.2 s with ⟨e', -, h2⟩ | ⟨h1, -⟩
    · exact h2
    · simp only [dualClass] at h
      rw [h1] at h
      cases h
  imitate_ok n a T Y s h mv hmv := by
    rcases dual_imitate_movement a.1 a.2.1 T Y a.2.2.1 a.2.2.2 s with ⟨e', h1, -⟩ | ⟨-, h2⟩
    · simp only [dualClass] at h
      rw [h1] at h
      cases h
    · simp only [dualClass] at hmv
      rw [hmv, h2]
      simp [dualClass]

theorem springDamperClass_lawful (d : ℕ) : (springDamperClass d).Lawful where
  movement_assemble _ _ _ := rfl
  weights_assemble _ x _ := Subsingleton.elim _ _
  assemble_self s := rfl
  assemble_assemble _ _ _ _ _ := rfl
  step_frame := by
    intro (a : Option (Coupling d)) y yd s
    simp only [springDamperClass, SpringDamper.exec_step]
    generalize springDamperStep _ _ _ _ _ _ _ _ _ = r
    cases r <;> exact ⟨rfl, rfl, rfl, rfl, rfl, rfl, rfl⟩
  step_current := by
    intro (a : Option (Coupling d)) y yd s r
    simp only [springDamperClass, SpringDamper.exec_step]
    generalize springDamperStep _ _ _ _ _ _ _ _ _ = q
    intro h
    cases q with
    | error e => cases h
    | ok q => cases h; rfl
  openLoop_frame a s := by
    simp only [springDamperClass, SpringDamper.openLoop, Py.exec_bind, Py.exec_get, Py.exec_lift]
    exact ⟨rfl, rfl, rfl, rfl, rfl, rfl, rfl⟩
  configure_ok a h s := by
    simp only [springDamperClass, SpringDamper.configure, Py.exec_zoom, movement_configure_values]
  reset_ok s := rfl
  setExecutionTime_movement τ s := rfl
  setExecutionTime_weights τ s := rfl
  setWeights_movement x s := rfl
  imitate_error n a T Y s e _ := rfl
  imitate_ok n a T Y s h := by cases h

theorem springDamperOrientationClass_lawful : springDamperOrientationClass.Lawful where
  movement_assemble _ _ _ := rfl
  weights_assemble _ x _ := Subsingleton.elim _ _
  assemble_self s := rfl
  assemble_assemble _ _ _ _ _ := rfl
  step_frame a y yd s := by
    simp only [springDamperOrientationClass, SpringDamperOrientation.exec_step]
    generalize springDamperQuatStep _ _ _ _ _ _ _ _ _ _ = r
    cases r <;> exact ⟨rfl, rfl, rfl, rfl, rfl, rfl, rfl⟩
  step_current a y yd s r := by
    simp only [springDamperOrientationClass, SpringDamperOrientation.exec_step]
    generalize springDamperQuatStep _ _ _ _ _ _ _ _ _ _ = q
    intro h
    cases q with
    | error e => cases h
    | ok q => cases h; rfl
  openLoop_frame a s := by
    simp only [springDamperOrientationClass, SpringDamperOrientation.openLoop, Py.exec_bind, Py.exec_get, Py.exec_lift]
    exact ⟨rfl, rfl, rfl, rfl, rfl, rfl, rfl⟩
  configure_ok a h s := by
    simp only [springDamperOrientationClass, SpringDamperOrientation.configure, Py.exec_zoom, movement_configure_values]
  reset_ok s := rfl
  setExecutionTime_movement τ s := rfl
  setExecutionTime_weights τ s := rfl
  setWeights_movement x s := rfl
  imitate_error n a T Y s e _ := rfl
  imitate_ok n a T Y s h := by cases h

theorem stateFollowingClass_lawful (d n : ℕ) : (stateFollowingClass d n).Lawful where
  movement_assemble _ _ _ := rfl
  weights_assemble _ x _ := Subsingleton.elim _ _
  assemble_self s := rfl
  assemble_assemble _ _ _ _ _ := rfl
  step_frame := by
    intro (a : Option (Coupling d)) y yd s
    simp only [stateFollowingClass, StateFollowingDMP.exec_step]
    generalize StateFollowingArgs.step _ _ _ _ = r
    cases r <;> exact ⟨rfl, rfl, rfl, rfl, rfl, rfl, rfl⟩
  step_current := by
    intro (a : Option (Coupling d)) y yd s r
    simp only [stateFollowingClass, StateFollowingDMP.exec_step]
    generalize StateFollowingArgs.step _ _ _ _ = q
    intro h
    cases q with
    | error e => cases h
    | ok q => cases h; rfl
  openLoop_frame a s := by
    simp only [stateFollowingClass, Py.exec_bind, Py.exec_get, Py.exec_lift]
    exact ⟨rfl, rfl, rfl, rfl, rfl, rfl, rfl⟩
  configure_ok a h s := by
    simp only [stateFollowingClass, Py.exec_zoom, movement_configure_values]
  reset_ok s := rfl
  setExecutionTime_movement τ s := rfl
  setExecutionTime_weights τ s := rfl
  setWeights_movement x s := rfl
  imitate_error n a T Y s e _ := rfl
  imitate_ok n a T Y s h := by cases h

/-- Every modelled class satisfies the laws. -/
theorem IsClass.lawful {S : Type} {p v w : ℕ} {C : HClass S p v w} (h : IsClass C) : C.Lawful := by
  cases h
  · exact dmpClass_lawful _ _
  · exact fvClass_lawful _ _
  · exact cartesianClass_lawful _
  · exact dualClass_lawful _
  · exact springDamperClass_lawful _
  · exact springDamperOrientationClass_lawful
  · exact stateFollowingClass_lawful _ _

end Verif
