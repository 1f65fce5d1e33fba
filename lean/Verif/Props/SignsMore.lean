import Verif.Props.Signs
import Verif.Props.DualArmsImitate
import Verif.Props.OrientationSpring

/-! # The signs of quaternions do not matter to spring-dampers and dual-arm DMPs (C114) -/

namespace Verif
open Spec

variable {m n : ℕ} {ops : QuatOps} {eps : ℝ}

/-- One integration step of the spring-damper. -/
theorem geoBody_signs (hops : LawfulQuatOps ops eps) {g g' : Vec 4} (hg : UnitQuat g) (hgg : SameRotation g g') (k c h : ℝ)
    {x x' : Vec 4 × Vec 3} (hx : UnitQuat x.1) (hxx : SameState x x') (hno : NoHalfTurn g x.1) :
    SameState (geoBody ops g k c h x) (geoBody ops g' k c h x') ∧ UnitQuat (geoBody ops g k c h x).1 := by
  have h1 := diff_signs hops hg hx hgg hxx.1 hno
  unfold QuatStepArgs.diff at h1
  have hv : (geoBody ops g' k c h x').2 = (geoBody ops g k c h x).2 := by
    unfold geoBody QuatStepArgs.diff
    simp only [h1, hxx.2]
  have e : ∀ g x, (geoBody ops g k c h x).1 = ops.mul (ops.exp (fun i => h * (geoBody ops g k c h x).2 i)) x.1 := fun _ _ => rfl
  have hu := LawfulQuatOps.unit_exp hops (fun i => h * (geoBody ops g k c h x).2 i)
  refine ⟨⟨?_, hv⟩, ?_⟩
  · rw [e, e, hv]
    exact mul_signs hops hu hx hxx.1
  · rw [e]
    exact LawfulQuatOps.unit_mul hops hu hx

theorem springDamperQuatStep_single (goalY : Vec 4) (k : ℝ) (c : Option ℝ) {intDt lastT dt : ℝ} (hdt : 0 < dt) (hi : dt ≤ intDt)
    (x : Vec 4 × Vec 3) :
    springDamperQuatStep ops goalY k c none none intDt lastT (lastT + dt) x = .ok (geoBody ops goalY k (damping k c) dt x) := by
  unfold springDamperQuatStep
  rw [intLoop_single _ (by linarith) (by linarith), add_sub_cancel_left, springDamperQuatBody_none, defaultDamping_eq]

/-- **C114 (SpringDamperOrientation, step).** `step` does not depend on the signs of the quaternions of goal and passed state,
up to the sign of the returned quaternion. -/
theorem C114_spring_damper_step (hops : LawfulQuatOps ops eps) {s : SpringDamperOrientation} (hdt : 0 < s.dt) (hi : s.dt ≤ s.intDt)
    (hg : UnitQuat s.goalY) {lastY : Vec 4} (hl : UnitQuat lastY) (hno : NoHalfTurn s.goalY lastY) {y g lastY' : Vec 4}
    (h2 : SameRotation s.goalY g) (h3 : SameRotation lastY lastY') (lastYd : Vec 3) :
    ∃ r r', ((SpringDamperOrientation.step ops none lastY lastYd).exec s).1 = .ok r ∧
      ((SpringDamperOrientation.step ops none lastY' lastYd).exec { s with startY := y, goalY := g }).1 = .ok r' ∧
      SameRotation r.1 r'.1 ∧ r'.2 = r.2 := by
  obtain ⟨h, -⟩ := geoBody_signs hops hg h2 s.k (damping s.k s.c) s.dt (x := (lastY, lastYd)) (x' := (lastY', lastYd)) hl
    ⟨h3, rfl⟩ hno
  refine ⟨_, _, ?_, ?_, h.1, h.2⟩
  · rw [SpringDamperOrientation.exec_step, springDamperQuatStep_single _ _ _ hdt hi]
  · rw [SpringDamperOrientation.exec_step]
    simp only
    rw [springDamperQuatStep_single _ _ _ hdt hi]

/-- **C114 (SpringDamperOrientation, open_loop).** The trajectory does not depend on the signs of the quaternions of start and
goal, up to the signs of the quaternions in the trajectory. -/
theorem C114_spring_damper_open_loop (hops : LawfulQuatOps ops eps) {s : SpringDamperOrientation} (hdt : 0 < s.dt)
    (hi : s.dt ≤ s.intDt) (hs : UnitQuat s.startY) (hg : UnitQuat s.goalY) {y g : Vec 4} (h1 : SameRotation s.startY y)
    (h2 : SameRotation s.goalY g) (hno : ∀ r T Y, ((SpringDamperOrientation.openLoop ops r none).exec s).1 = .ok (T, Y) →
      ∀ q ∈ Y, NoHalfTurn s.goalY q) {r : ℝ} (hr : 0 ≤ r) :
    ∃ T Y Y', ((SpringDamperOrientation.openLoop ops r none).exec s).1 = .ok (T, Y) ∧
      ((SpringDamperOrientation.openLoop ops r none).exec { s with startY := y, goalY := g }).1 = .ok (T, Y') ∧
      List.Forall₂ SameRotation Y Y' := by
  obtain ⟨xs, hx0, hx, hol⟩ := SpringDamperOrientation.openLoop_rows (ops := ops) s hdt (hdt.trans_le hi)
  obtain ⟨xs', hx0', hx', hol'⟩ := SpringDamperOrientation.openLoop_rows (ops := ops) { s with startY := y, goalY := g } hdt
    (hdt.trans_le hi)
  have hn : ∀ r, 0 ≤ r → arangeLen 0 (r + s.dt) s.dt ≠ 0 := by
    intro r hr
    unfold arangeLen
    rw [sub_zero, Ne, Nat.ceil_eq_zero, not_le]
    positivity
  have hno' : ∀ i, NoHalfTurn s.goalY (xs i).1 := by
    intro i
    have hi0 : 0 ≤ (i : ℝ) * s.dt := by positivity
    refine hno (i * s.dt) _ _ (by rw [hol, if_neg (hn _ hi0)]) _ (List.mem_map.2 ⟨i, List.mem_range.2 ?_, rfl⟩)
    unfold arangeLen
    rw [sub_zero, Nat.lt_ceil, lt_div_iff₀ hdt]
    linarith
  have key : ∀ i, SameState (xs i) (xs' i) ∧ UnitQuat (xs i).1 := by
    intro i
    induction i with
    | zero => rw [hx0, hx0']; exact ⟨⟨h1, rfl⟩, hs⟩
    | succ i ih =>
      have e1 := hx i
      have e2 := hx' i
      simp only at e2
      rw [springDamperQuatStep_single _ _ _ hdt hi] at e1 e2
      rw [← Except.ok.inj e1, ← Except.ok.inj e2]
      exact geoBody_signs hops hg h2 _ _ _ ih.2 ih.1 (hno' i)
  refine ⟨_, _, _, by rw [hol, if_neg (hn r hr)], by rw [hol']; exact if_neg (hn r hr), ?_⟩
  rw [List.forall₂_map_left_iff, List.forall₂_map_right_iff]
  exact List.forall₂_same.2 fun i _ => (key i).1.1

/-- **C114 (SpringDamperOrientation, critically damped).** With the default damping (or more) only the start matters. -/
theorem C114_spring_damper_open_loop_damped (hops : LawfulQuatOps ops eps) (heps : 0 < eps) (heps1 : eps ≤ 1)
    {s : SpringDamperOrientation} (hdt : 0 < s.dt) (hi : s.dt ≤ s.intDt) (hs : UnitQuat s.startY) (hg : UnitQuat s.goalY)
    (hk : 0 < s.k) (hc : 0 < damping s.k s.c) (hkc : 4 * s.k ≤ damping s.k s.c ^ 2) (hst : s.intDt * damping s.k s.c ≤ 1)
    {y g : Vec 4} (h1 : SameRotation s.startY y) (h2 : SameRotation s.goalY g) (hno : NoHalfTurn s.goalY s.startY) {r : ℝ}
    (hr : 0 ≤ r) :
    ∃ T Y Y', ((SpringDamperOrientation.openLoop ops r none).exec s).1 = .ok (T, Y) ∧
      ((SpringDamperOrientation.openLoop ops r none).exec { s with startY := y, goalY := g }).1 = .ok (T, Y') ∧
      List.Forall₂ SameRotation Y Y' := by
  obtain ⟨xs, hx0, hd, hrows⟩ := C76_spring_damper_open_loop hops heps heps1 hg hs hk hc hdt (hdt.trans_le hi) hkc hst
  refine C114_spring_damper_open_loop hops hdt hi hs hg h1 h2 ?_ hr
  intro r T Y h q hq
  obtain ⟨i, hi, rfl⟩ := List.getElem_of_mem hq
  have h5 := hd.antitone (Nat.zero_le i)
  simp only [hx0] at h5
  unfold NoHalfTurn at hno ⊢
  rw [hrows _ _ _ h i hi]
  exact lt_of_le_of_lt h5 hno

example : ∃ s : SpringDamperOrientation, s = SpringDamperOrientation.create (1 / 1000) 4 none (1 / 1000) ∧
    damping s.k s.c = 4 ∧ 4 * s.k ≤ damping s.k s.c ^ 2 ∧ s.intDt * damping s.k s.c ≤ 1 ∧ s.dt ≤ s.intDt ∧
    NoHalfTurn ![3 / 5, 4 / 5, 0, 0] ![1, 0, 0, 0] := by
  have h : damping 4 none = 4 := by
    unfold damping
    rw [show (4 : ℝ) = 2 ^ 2 by norm_num, Real.sqrt_sq (by norm_num)]
    norm_num
  refine ⟨_, rfl, h, ?_, ?_, le_rfl, ?_⟩
  · show 4 * (4 : ℝ) ≤ damping 4 none ^ 2
    rw [h]; norm_num
  · show (1 / 1000 : ℝ) * damping 4 none ≤ 1
    rw [h]; norm_num
  · rw [noHalfTurn_iff]; simp [Fin.sum_univ_four]

theorem armPose_orientation (arm : Fin 2) (x : Vec 14) : orientation (armPose arm x) = armOrientation arm x := by
  fin_cases arm <;> (funext k; fin_cases k <;> rfl)

/-- **C114 (DualCartesianDMP, open_loop).** The trajectories of both arms do not depend on the signs of the quaternions of
start and goal, up to the signs of the quaternions in the trajectory. (Without coupling term and tracking error gain.) -/
theorem C114_dual_open_loop {s s' : DualCartesianDMP m} (hs : TimedDual s) (hs' : TimedDual s')
    (hss : s' = { s with startY := s'.startY, goalY := s'.goalY })
    (hβ : s.smooth = true → UniformRightGains s.betaY) (hdt : 0 < s.dt) (hi : s.dt ≤ s.intDt) (hgain : s.pGain = 0)
    (hrest : s.startYd = 0) (heps : 0 < eps) (hops : LawfulQuatOps ops eps)
    (hst : ∀ arm, UnitQuat (armOrientation arm s.startY)) (hg : ∀ arm, UnitQuat (armOrientation arm s.goalY))
    (h1 : ∀ arm, SamePose (armPose arm s.startY) (armPose arm s'.startY))
    (h2 : ∀ arm, SamePose (armPose arm s.goalY) (armPose arm s'.goalY)) {runT : Option ℝ} (hR : ∀ r, runT = some r → 0 ≤ r)
    {qname : String} (hq : qname = "python" ∨ qname = "cython")
    (hno : ∀ T P, ((DualCartesianDMP.openLoop ops runT none qname).exec s).1 = .ok (T, P) →
      ∀ x ∈ P, ∀ arm, NoHalfTurn (armOrientation arm s.goalY) (armOrientation arm x)) :
    ∃ T P P', ((DualCartesianDMP.openLoop ops runT none qname).exec s).1 = .ok (T, P) ∧
      ((DualCartesianDMP.openLoop ops runT none qname).exec s').1 = .ok (T, P') ∧
      List.Forall₂ (fun x x' => ∀ arm, SamePose (armPose arm x) (armPose arm x')) P P' := by
  have horient := armPose_orientation
  have hv0 : ∀ arm, armVelocity arm s.startYd = 0 := by
    intro arm
    rw [hrest]
    fin_cases arm <;> (funext k; fin_cases k <;> rfl)
  have key : ∀ arm, ∃ T P P', ((DualCartesianDMP.openLoop ops runT none qname).exec s).1 = .ok (T, P) ∧
      ((DualCartesianDMP.openLoop ops runT none qname).exec s').1 = .ok (T, P') ∧
      List.Forall₂ SamePose (P.map (armPose arm)) (P'.map (armPose arm)) := by
    intro arm
    obtain ⟨p, hp, ha, -⟩ := hs.exists_arm arm
    obtain ⟨p', hp', ha', -⟩ := hs'.exists_arm arm
    obtain ⟨T, P, e1, e2⟩ := C112_open_loop hs hp ha (fun h _ => hβ h) (hdt.trans_le hi) hdt hgain (hv0 arm) ops hR
      (name := "euler") (.inl rfl) hq
    have hsm' : s'.smooth = s.smooth := by rw [hss]
    have hb' : s'.betaY = s.betaY := by rw [hss]
    have hd' : s'.dt = s.dt := by rw [hss]
    have hi' : s'.intDt = s.intDt := by rw [hss]
    have hg' : s'.pGain = s.pGain := by rw [hss]
    have hv' : s'.startYd = s.startYd := by rw [hss]
    have ha'' : ArmOf s' arm { p with startY := armPose arm s'.startY, goalY := armPose arm s'.goalY } := by
      refine ⟨?_, ?_, ?_, ?_, ?_, ?_, rfl, rfl, ?_, ?_⟩ <;> rw [hss]
      · exact ha.executionTime
      · exact ha.dt
      · exact ha.intDt
      · exact ha.smooth
      · exact ha.alphaY
      · exact ha.betaY
      · exact ha.positionWeights
      · exact ha.orientationWeights
    obtain ⟨T', P', e3, e4⟩ := Spec.ArmOf.openLoop ha'' (by
        have h := hs'.made
        have : s'.executionTime = p.executionTime := by rw [hss]; exact ha.executionTime.symm
        rwa [this] at h) hp.made hp.positive (by rw [hsm', hb']; exact fun h _ => hβ h) (by rw [hi']; exact hdt.trans_le hi)
      (by rw [hd']; exact hdt) (by rw [hg']; exact hgain) (by rw [hv']; exact hv0 arm) ops hR (name := "euler") (.inl rfl) hq
    obtain ⟨Y', h3, h4⟩ := C114_open_loop (s := p) hp.positive (by rw [ha.dt]; exact hdt) (by rw [ha.dt, ha.intDt]; exact hi) heps
      hops (c := none) (by intro d hd; cases hd) (by rw [ha.startY, horient]; exact hst arm)
      (by rw [ha.goalY, horient]; exact hg arm) (by rw [ha.startY]; exact h1 arm) (by rw [ha.goalY]; exact h2 arm) e2 (by
        intro x hx
        obtain ⟨z, hz, rfl⟩ := List.mem_map.1 hx
        rw [ha.goalY, horient, horient]
        exact hno T P e1 z hz arm)
    obtain ⟨rfl, rfl⟩ := Prod.mk.inj (Except.ok.inj (e4.symm.trans h3))
    exact ⟨_, _, _, e1, e3, h4⟩
  obtain ⟨T, P, P', e1, e2, h⟩ := key 0
  obtain ⟨T1, P1, P1', e1', e2', h'⟩ := key 1
  obtain ⟨rfl, rfl⟩ := Prod.mk.inj (Except.ok.inj (e1'.symm.trans e1))
  obtain ⟨-, rfl⟩ := Prod.mk.inj (Except.ok.inj (e2'.symm.trans e2))
  refine ⟨_, _, _, e1', e2', ?_⟩
  rw [List.forall₂_map_left_iff, List.forall₂_map_right_iff] at h h'
  rw [List.forall₂_iff_get] at h h' ⊢
  refine ⟨h.1, fun i hi hi' arm => ?_⟩
  fin_cases arm
  · exact h.2 i hi hi'
  · exact h'.2 i hi hi'

theorem dual_imitate_arm {s : DualCartesianDMP m} {arm : Fin 2} {p : CartesianDMP m} (hs : TimedDual s) (hp : TimedCartesian p)
    (h : ArmOf s arm p) (qgrad : (Fin (n + 2) → Vec 4) → Fin (n + 2) → Vec 3) (T : Fin (n + 2) → ℝ)
    (Y : Fin (n + 2) → Vec 14) (reg : ℝ) (afv : Bool) :
    ((CartesianDMP.imitate ops qgrad T (fun t => armPose arm (Y t)) reg afv).exec p).1 =
      ((DualCartesianDMP.imitate ops qgrad T Y reg afv).exec s).1 ∧
    ArmOf ((DualCartesianDMP.imitate ops qgrad T Y reg afv).exec s).2 arm
      ((CartesianDMP.imitate ops qgrad T (fun t => armPose arm (Y t)) reg afv).exec p).2 :=
  C112_imitate hs hp h ops qgrad T Y reg afv

theorem imitate_weights_signs (p : CartesianDMP m) (hops : LawfulQuatOps ops eps) (T : Fin (n + 2) → ℝ)
    {Y Y' : Fin (n + 2) → Vec (3 + 4)} (hY : ∀ t, UnitQuat (orientation (Y t))) (h : ∀ t, SamePose (Y t) (Y' t))
    (hgoal : ∀ t, NoHalfTurn (orientation (Y (Fin.last _))) (orientation (Y t)))
    (hnext : ∀ i j : Fin (n + 2), j.val + 1 = i.val ∨ j.val + 2 = i.val → NoHalfTurn (orientation (Y i)) (orientation (Y j)))
    (reg : ℝ) (afv : Bool) :
    ((CartesianDMP.imitate ops (quaternionGradient ops) T Y' reg afv).exec p).1 =
      ((CartesianDMP.imitate ops (quaternionGradient ops) T Y reg afv).exec p).1 ∧
    ((CartesianDMP.imitate ops (quaternionGradient ops) T Y' reg afv).exec p).2.getWeights =
      ((CartesianDMP.imitate ops (quaternionGradient ops) T Y reg afv).exec p).2.getWeights := by
  rw [C114_imitate p hops T hY h hgoal hnext reg afv]
  generalize (CartesianDMP.imitate ops (quaternionGradient ops) T Y reg afv).exec p = z
  obtain ⟨e, o⟩ := z
  cases e <;> exact ⟨rfl, rfl⟩
/-- **C114 (DualCartesianDMP, imitate).** The learned weights do not depend on the signs of the quaternions of the
demonstration. -/
theorem C114_dual_imitate {s : DualCartesianDMP m} (hs : TimedDual s) (hops : LawfulQuatOps ops eps) (T : Fin (n + 2) → ℝ)
    {Y Y' : Fin (n + 2) → Vec 14} (hY : ∀ arm t, UnitQuat (armOrientation arm (Y t)))
    (h : ∀ arm t, SamePose (armPose arm (Y t)) (armPose arm (Y' t)))
    (hgoal : ∀ arm t, NoHalfTurn (armOrientation arm (Y (Fin.last _))) (armOrientation arm (Y t)))
    (hnext : ∀ arm, ∀ i j : Fin (n + 2), j.val + 1 = i.val ∨ j.val + 2 = i.val →
      NoHalfTurn (armOrientation arm (Y i)) (armOrientation arm (Y j))) (reg : ℝ) (afv : Bool) :
    ((DualCartesianDMP.imitate ops (quaternionGradient ops) T Y' reg afv).exec s).1 =
      ((DualCartesianDMP.imitate ops (quaternionGradient ops) T Y reg afv).exec s).1 ∧
    ((DualCartesianDMP.imitate ops (quaternionGradient ops) T Y' reg afv).exec s).2.getWeights =
      ((DualCartesianDMP.imitate ops (quaternionGradient ops) T Y reg afv).exec s).2.getWeights := by
  have key : ∀ arm, ∃ p p' : CartesianDMP m,
      ArmOf ((DualCartesianDMP.imitate ops (quaternionGradient ops) T Y reg afv).exec s).2 arm p ∧
      ArmOf ((DualCartesianDMP.imitate ops (quaternionGradient ops) T Y' reg afv).exec s).2 arm p' ∧
      p'.getWeights = p.getWeights ∧ ((DualCartesianDMP.imitate ops (quaternionGradient ops) T Y' reg afv).exec s).1 =
        ((DualCartesianDMP.imitate ops (quaternionGradient ops) T Y reg afv).exec s).1 := by
    intro arm
    obtain ⟨p, hp, ha, -⟩ := hs.exists_arm arm
    obtain ⟨a1, a2⟩ := dual_imitate_arm (ops := ops) hs hp ha (quaternionGradient ops) T Y reg afv
    obtain ⟨b1, b2⟩ := dual_imitate_arm (ops := ops) hs hp ha (quaternionGradient ops) T Y' reg afv
    obtain ⟨h3, h4⟩ := imitate_weights_signs p hops T (Y := fun t => armPose arm (Y t)) (Y' := fun t => armPose arm (Y' t))
      (fun t => by rw [armPose_orientation]; exact hY arm t) (h arm)
      (fun t => by rw [armPose_orientation, armPose_orientation]; exact hgoal arm t)
      (fun i j hij => by rw [armPose_orientation, armPose_orientation]; exact hnext arm i j hij) reg afv
    exact ⟨_, _, a2, b2, h4, b1.symm.trans (h3.trans a1)⟩
  generalize (DualCartesianDMP.imitate ops (quaternionGradient ops) T Y reg afv).exec s = q at key ⊢
  generalize (DualCartesianDMP.imitate ops (quaternionGradient ops) T Y' reg afv).exec s = q' at key ⊢
  choose p p' hp hp' hw hq using key
  exact ⟨hq 0, by rw [C112_get_weights hp, C112_get_weights hp', hw, hw]⟩

/-- Poses of two arms whose quaternions have different signs. -/
example : ∃ y y' : Vec 14, (∀ arm, UnitQuat (armOrientation arm y)) ∧ (∀ arm, SamePose (armPose arm y) (armPose arm y')) ∧ y ≠ y' := by
  refine ⟨![1, 2, 3, 1, 0, 0, 0, 4, 5, 6, 3 / 5, 4 / 5, 0, 0], ![1, 2, 3, -1, 0, 0, 0, 4, 5, 6, 3 / 5, 4 / 5, 0, 0], ?_, ?_, ?_⟩
  · intro arm
    fin_cases arm
    · simp [UnitQuat, armOrientation]
    · simp [UnitQuat, armOrientation]; norm_num
  · intro arm
    fin_cases arm
    · exact ⟨by simp [position, armPose], .inr (by funext k; fin_cases k <;> simp [orientation, armPose])⟩
    · exact ⟨by simp [position, armPose], .inl (by simp [orientation, armPose])⟩
  · intro h
    have := congrFun (congrArg (armPose 0) h) 3
    simp [armPose] at this
    norm_num at this

end Verif
