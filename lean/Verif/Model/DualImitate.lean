import Verif.Model.DualCartesian

/-! Weights and imitation learning of the dual-arm DMP (`movement_primitives/dmp/_dual_cartesian_dmp.py` lines 369-428,
`movement_primitives/dmp/_base.py` lines 38-56). -/

namespace Verif.DualCartesianDMP
variable {m n : ℕ}

/-- `get_weights`, `dmp/_base.py` lines 36-44: row-major. -/
def getWeights (s : DualCartesianDMP m) : List ℝ :=
  List.ofFn (fun i : Fin (12 * m) => s.ft.weights i.divNat i.modNat)

/-- `set_weights`, `dmp/_base.py` lines 46-54. -/
def setWeights (w : List ℝ) : Py (DualCartesianDMP m) Unit := do
  let w ← Py.lift (DMP.reshapeWeights 12 m w)
  modify (fun s => { s with ft := { s.ft with weights := w } })

/-- `self.forcing_term.weights_[lo:lo + 3, :] = w`. -/
def assignWeightRows (lo : ℕ) (w : Fin 3 → Fin m → ℝ) (s : DualCartesianDMP m) : DualCartesianDMP m :=
  { s with ft := { s.ft with weights := fun k i =>
      if h : lo ≤ k.val ∧ k.val < lo + 3 then w ⟨k.val - lo, by omega⟩ i else s.ft.weights k i } }

/-- `DualCartesianDMP.imitate`, `dmp/_dual_cartesian_dmp.py` lines 369-428. `qgrad` is pytransform3d's
`quaternion_gradient`. -/
noncomputable def imitate (ops : QuatOps) (qgrad : (Fin (n + 2) → Vec 4) → Fin (n + 2) → Vec 3)
    (T : Fin (n + 2) → ℝ) (Y : Fin (n + 2) → Vec 14) (reg : ℝ) (allowFinalVelocity : Bool) :
    Py (DualCartesianDMP m) Unit := do
  let s ← get
  let w0 ← Py.lift (dmpImitate m T (fun t => armPos 0 (Y t)) reg (armLin 0 s.alphaY) (armLin 0 s.betaY) s.ft.overlap
    s.ft.alphaZ allowFinalVelocity s.smooth)
  modify (assignWeightRows 0 w0.1)
  let w1 ← Py.lift (dmpImitateWith m T reg s.ft.overlap s.ft.alphaZ
    (.ok (determineForcesQuaternion ops qgrad T (fun t => armRot 0 (Y t)) (armAng 0 s.alphaY) (armAng 0 s.betaY)
      s.ft.alphaZ allowFinalVelocity s.smooth)))
  modify (assignWeightRows 3 w1)
  let w2 ← Py.lift (dmpImitate m T (fun t => armPos 1 (Y t)) reg (armLin 1 s.alphaY) (armLin 1 s.betaY) s.ft.overlap
    s.ft.alphaZ allowFinalVelocity s.smooth)
  modify (assignWeightRows 6 w2.1)
  let w3 ← Py.lift (dmpImitateWith m T reg s.ft.overlap s.ft.alphaZ
    (.ok (determineForcesQuaternion ops qgrad T (fun t => armRot 1 (Y t)) (armAng 1 s.alphaY) (armAng 1 s.betaY)
      s.ft.alphaZ allowFinalVelocity s.smooth)))
  modify (assignWeightRows 9 w3)
  configure { startY := some (List.ofFn (Y 0)), goalY := some (List.ofFn (Y (Fin.last (n + 1)))) }

end Verif.DualCartesianDMP
