import Verif.Lemmas.FramesSim
import Verif.Lemmas.Cartesian

/-! # Simulations between Cartesian DMPs -/

namespace Verif
open Spec

/-- The map of poses that belongs to a map of positions and a map of orientations. -/
def poseMap (f : Vec 3 → Vec 3) (g : Vec 4 → Vec 4) (y : Vec (3 + 4)) : Vec (3 + 4) :=
  hstack (f (sliceTo y)) (g (sliceFrom y))

/-- The map of velocities that belongs to maps of linear and angular velocities. -/
def velMap (f g : Vec 3 → Vec 3) (v : Vec (3 + 3)) : Vec (3 + 3) := hstack (f (sliceTo v)) (g (sliceFrom v))

@[simp] theorem poseMap_hstack (f : Vec 3 → Vec 3) (g : Vec 4 → Vec 4) (x : Vec 3) (q : Vec 4) :
    poseMap f g (hstack x q) = hstack (f x) (g q) := by
  unfold poseMap; rw [sliceTo_hstack, sliceFrom_hstack]

@[simp] theorem velMap_hstack (f g : Vec 3 → Vec 3) (x q : Vec 3) :
    velMap f g (hstack x q) = hstack (f x) (g q) := by
  unfold velMap; rw [sliceTo_hstack, sliceFrom_hstack]

@[simp] theorem sliceTo_poseMap (f : Vec 3 → Vec 3) (g : Vec 4 → Vec 4) (y : Vec (3 + 4)) :
    sliceTo (poseMap f g y) = f (sliceTo y) := sliceTo_hstack _ _

@[simp] theorem sliceFrom_poseMap (f : Vec 3 → Vec 3) (g : Vec 4 → Vec 4) (y : Vec (3 + 4)) :
    sliceFrom (poseMap f g y) = g (sliceFrom y) := sliceFrom_hstack _ _

@[simp] theorem sliceTo_velMap (f g : Vec 3 → Vec 3) (y : Vec (3 + 3)) :
    sliceTo (velMap f g y) = f (sliceTo y) := sliceTo_hstack _ _

@[simp] theorem sliceFrom_velMap (f g : Vec 3 → Vec 3) (y : Vec (3 + 3)) :
    sliceFrom (velMap f g y) = g (sliceFrom y) := sliceFrom_hstack _ _

theorem turnedPose_eq (r : Vec 4) : turnedPose r = poseMap id (turned r) := by
  funext y; unfold turnedPose poseMap hstack; rw [position_eq, orientation_eq]; rfl

theorem worldPose_eq (p : Vec 4) (b : Vec 3) : worldPose p b = poseMap (fun x => rotL p x + b) (turnedWorld p) := by
  funext y; unfold worldPose poseMap hstack; rw [position_eq, orientation_eq]; rfl

theorem worldVelocity_eq (p : Vec 4) : worldVelocity p = velMap (rotL p) (rotated p) := by
  funext y; unfold worldVelocity velMap hstack; rw [linear_eq, angular_eq]; rfl

theorem velMap_id (v : Vec (3 + 3)) : velMap id id v = v := Fin.append_castAdd_natAdd

theorem poseMap_id (v : Vec (3 + 4)) : poseMap id id v = v := Fin.append_castAdd_natAdd

namespace CartesianDMP
variable {m m' : ℕ}

theorem exec_step_sim {κ : ℝ} {P : Vec 3 →ₗ[ℝ] Vec 3} {b : Vec 3} {gy : Vec 4 → Vec 4} {gv : Vec 3 → Vec 3}
    {s : CartesianDMP m} {s' : CartesianDMP m'} {c c' : Option PoseCoupling} {sf : StepFunction} {qf : QuatStepFunction}
    {y : Vec (3 + 4)} {yd : Vec (3 + 3)} (hp : (s.posArgs c).Sim (s'.posArgs c') κ P b)
    (h2 : qf.run (s'.rotArgs c') (κ * s.t) (κ * (s.t + s.dt)) (gy (sliceFrom y), gv (sliceFrom yd)) =
      (qf.run (s.rotArgs c) s.t (s.t + s.dt) (sliceFrom y, sliceFrom yd)).map (fun x => (gy x.1, gv x.2)))
    (ht : s'.t = κ * s.t) (hdt : s'.dt = κ * s.dt) (F : CartesianDMP m → CartesianDMP m')
    (hF : ∀ y yd, F (s.beginStep y yd) =
      s'.beginStep (poseMap (fun x => P x + b) gy y) (velMap (fun v => κ⁻¹ • P v) gv yd)) :
    (step c' sf qf (poseMap (fun x => P x + b) gy y) (velMap (fun v => κ⁻¹ • P v) gv yd)).exec s' =
      let r := (step c sf qf y yd).exec s
      (r.1.map (fun x => (poseMap (fun x => P x + b) gy x.1, velMap (fun v => κ⁻¹ • P v) gv x.2)), F r.2) := by
  have h1 := hp.run sf s.t (s.t + s.dt) (sliceTo y, sliceTo yd)
  rw [exec_step, exec_step, ht, hdt, ← mul_add]
  simp only [sliceTo_poseMap, sliceTo_velMap, sliceFrom_poseMap, sliceFrom_velMap]
  simp only [simMap] at h1
  rw [h1, h2]
  cases sf.run (s.posArgs c) s.t (s.t + s.dt) (sliceTo y, sliceTo yd) with
  | error e => simp only [Except.map, hF]
  | ok rp =>
    simp only [Except.map]
    cases qf.run (s.rotArgs c) s.t (s.t + s.dt) (sliceFrom y, sliceFrom yd) with
    | error e =>
      simp only
      have := hF (hstack rp.1 (sliceFrom y)) (hstack rp.2 (sliceFrom yd))
      simp only [poseMap_hstack, velMap_hstack] at this
      exact Prod.ext rfl this.symm
    | ok rr =>
      simp only
      have := hF (hstack rp.1 rr.1) (hstack rp.2 rr.2)
      simp only [poseMap_hstack, velMap_hstack] at this ⊢
      exact Prod.ext rfl this.symm

theorem exec_openLoop_sim {κ : ℝ} {P : Vec 3 →ₗ[ℝ] Vec 3} {b : Vec 3} {gy : Vec 4 → Vec 4}
    {s : CartesianDMP m} {s' : CartesianDMP m'} {c c' : Option PoseCoupling} {ops : QuatOps} {runT : Option ℝ}
    (hp : (s.posOpenLoopArgs c).Sim (s'.posOpenLoopArgs c') κ P b)
    (hr : ∀ qf : QuatStepFunction, qf = .python ops ∨ qf = .cython →
      openLoopWith s'.executionTime 0 (κ * s.dt) (sliceFrom s'.startY, (0 : Vec 3)) (runT.map (κ * ·))
          (qf.run (s'.rotOpenLoopArgs c')) =
        (openLoopWith s.executionTime 0 s.dt (sliceFrom s.startY, (0 : Vec 3)) runT (qf.run (s.rotOpenLoopArgs c))).map
          (fun r => (r.1.map (κ * ·), r.2.map gy)))
    (hdt : s'.dt = κ * s.dt) (name qname : String) :
    ((openLoop ops (runT.map (κ * ·)) c' name qname).exec s').1 =
      ((openLoop ops runT c name qname).exec s).1.map
        (fun x => (x.1.map (κ * ·), x.2.map (poseMap (fun x => P x + b) gy))) := by
  rw [exec_openLoop, exec_openLoop]
  simp only
  cases StepFunction.lookup name with
  | error e => rfl
  | ok sf =>
    simp only [Except.bind]
    have h1 := hp.openLoop sf s.dt runT
    rw [hdt, h1]
    cases dmpOpenLoop (s.posOpenLoopArgs c) s.dt runT sf with
    | error e => rfl
    | ok p =>
      simp only [Except.map]
      cases hq : QuatStepFunction.lookup ops qname with
      | error e => rfl
      | ok qf =>
        have hqf : qf = .python ops ∨ qf = .cython := by
          unfold QuatStepFunction.lookup at hq
          split_ifs at hq
          · exact .inl (Except.ok.inj hq).symm
          · exact .inr (Except.ok.inj hq).symm
        have h2 := hr qf hqf
        simp only
        rw [h2]
        cases openLoopWith s.executionTime 0 s.dt (sliceFrom s.startY, (0 : Vec 3)) runT
          (qf.run (s.rotOpenLoopArgs c)) with
        | error e => rfl
        | ok r =>
          simp only [Except.map, List.length_map]
          by_cases hl : p.2.length = r.2.length
          · rw [if_neg (not_not.2 hl), if_neg (not_not.2 hl)]
            simp only [Except.ok.injEq, Prod.mk.injEq, true_and]
            rw [List.zipWith_map, List.map_zipWith]
            simp only [poseMap_hstack]
          · rw [if_pos hl, if_pos hl]

end CartesianDMP
end Verif
