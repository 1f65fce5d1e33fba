import Verif.Model.PrompArrays
import Verif.Spec.Promp

/-! Vocabulary for statements about ProMP objects and the arrays of the caller. -/

namespace Verif.Spec
variable {d w : ℕ}

/-- Every address in use is smaller than the next new one. -/
def Allocated (W : PrompWorld d w) : Prop := ∀ o, (W.objs o).mean < W.next ∧ (W.objs o).cov < W.next

/-- Times are usable: a non-empty array of floats has a positive entry. -/
def UsableTimes {n : ℕ} : TimeArray n → Prop
  | .float T => 0 < n → ∃ i, 0 < T i
  | .int _ => True

/-- The array of times after division by its largest entry; integer arrays (and empty arrays) are not changed. -/
def DividedByLargest {n : ℕ} (T T' : TimeArray n) : Prop :=
  match T with
  | .float t => (∃ m, IsLargest t m ∧ T' = .float fun i => t i / m) ∨ (n = 0 ∧ T' = T)
  | .int _ => T' = T

/-- The demonstration with the current content of its array of times. -/
def storedValue (W : PrompWorld d w) (demo : StoredDemo d) : PrompDemo d := ⟨demo.n, W.times demo.n demo.k, demo.Y⟩

/-- The object that an operation modifies or creates. -/
def target : PrompWorld.Op d w → Option ℕ
  | .construct o => some o
  | .fromWeightDistribution o _ _ => some o
  | .conditionPosition _ o' _ _ _ _ => some o'
  | .imitate o _ _ _ => some o
  | _ => none

/-- The operation is an assignment of the caller to the entries of mean `i`. -/
def WritesMean (i : ℕ) : PrompWorld.Op d w → Prop
  | .writeMean i' _ => i' = i
  | _ => False

/-- The operation is an assignment of the caller to the entries of covariance `j`. -/
def WritesCov (j : ℕ) : PrompWorld.Op d w → Prop
  | .writeCov j' _ => j' = j
  | _ => False

/-- Operations use existing arrays only. -/
def UsesAllocated (W : PrompWorld d w) : PrompWorld.Op d w → Prop
  | .fromWeightDistribution _ i j => i < W.next ∧ j < W.next
  | .writeMean i _ => i < W.next
  | .writeCov j _ => j < W.next
  | _ => True

/-- A program: every operation uses arrays that exist at that point. -/
def ValidProgram (W : PrompWorld d w) : List (PrompWorld.Op d w) → Prop
  | [] => True
  | op :: ops => UsesAllocated W op ∧ ValidProgram (W.perform op) ops

/-- The memory after a program. -/
noncomputable def runProgram (W : PrompWorld d w) (ops : List (PrompWorld.Op d w)) : PrompWorld d w :=
  ops.foldl PrompWorld.perform W

end Verif.Spec
