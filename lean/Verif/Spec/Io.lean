import Verif.Model.Io

/-!
# Specification: what it means that an object is restored from a file

`Restored v v'`: `v'` is an equal value; an object is restored by an object of the same class that has all of its
attributes, restored. (It says nothing about further attributes of the new object.)
-/

namespace Verif.Spec

mutual
/-- Equal values; `np.float64` may become `float`. -/
def Restored : PyVal → PyVal → Prop
  | .obj m c a, v' => ∃ a', v' = .obj m c a' ∧ RestoredAttrs a a'
  | .npFloat x, v' => v' = .float x ∨ v' = .npFloat x
  | .none, v' => v' = .none
  | .bool b, v' => v' = .bool b
  | .int z, v' => v' = .int z
  | .float x, v' => v' = .float x
  | .str s, v' => v' = .str s
  | .list l, v' => v' = .list l
  | .tuple l, v' => v' = .tuple l
  | .array s A, v' => v' = .array s A
  | .dict kv, v' => v' = .dict kv
/-- Every attribute of `a` exists in `a'` with a restored value. -/
def RestoredAttrs : Attrs → Attrs → Prop
  | .nil, _ => True
  | .cons k v rest, a' => (∃ v', a'.get k = some v' ∧ Restored v v') ∧ RestoredAttrs rest a'
end

mutual
/-- Values that may occur in lists. -/
def Plain : PyVal → Prop
  | .none => True
  | .bool _ => True
  | .int _ => True
  | .float _ => True
  | .str _ => True
  | .list l => PlainList l
  | _ => False
def PlainList : PyList → Prop
  | .nil => True
  | .cons v l => Plain v ∧ PlainList l
end

mutual
/-- "Any custom object that is a hierarchical composition of basic data types and numpy arrays" (documentation of
`write_json`): arrays have at least one dimension and no empty dimension; the attributes of an object have different
names, none of which is `module` or `class`. -/
def Storable : PyVal → Prop
  | .none => True
  | .bool _ => True
  | .int _ => True
  | .float _ => True
  | .npFloat _ => True
  | .str _ => True
  | .list l => PlainList l
  | .tuple _ => False
  | .array s _ => s ≠ [] ∧ ∀ n ∈ s, 0 < n
  | .dict _ => False
  | .obj _ _ a => StorableAttrs a ∧ a.keys.Nodup ∧ "module" ∉ a.keys ∧ "class" ∉ a.keys
def StorableAttrs : Attrs → Prop
  | .nil => True
  | .cons _ v rest => Storable v ∧ StorableAttrs rest
end

mutual
/-- A new object offers the attribute `old` for the saved value `v`: an array for an array, something that is not an
array for a list, an object of the same class for an object. -/
def Compatible : PyVal → Option PyVal → Prop
  | .list _, old => ∃ w, old = some w ∧ ∀ s A, w ≠ .array s A
  | .array _ _, old => ∃ s A, old = some (.array s A)
  | .obj m c a, old => ∃ b, old = some (.obj m c b) ∧ CompatibleAttrs a b
  | _, _ => True
def CompatibleAttrs : Attrs → Attrs → Prop
  | .nil, _ => True
  | .cons k v rest, b => Compatible v (b.get k) ∧ CompatibleAttrs rest b
end

mutual
/-- No attribute, and no attribute of an attribute, is a `np.float64`. -/
def NoNumpyFloat : PyVal → Prop
  | .npFloat _ => False
  | .obj _ _ a => NoNumpyFloatAttrs a
  | _ => True
def NoNumpyFloatAttrs : Attrs → Prop
  | .nil => True
  | .cons _ v rest => NoNumpyFloat v ∧ NoNumpyFloatAttrs rest
end

/-- The attributes whose names are not in `names`. -/
def without (names : List String) : Attrs → Attrs
  | .nil => .nil
  | .cons k v rest => if k ∈ names then without names rest else .cons k v (without names rest)

/-- What JSON makes of a value: nested lists of arrays, floats of `np.float64`. -/
def jsonForm : PyVal → PyVal
  | .array s A => toList s A
  | .npFloat x => .float x
  | v => v

/-- An object (and not a number, list or array). -/
def IsObj : PyVal → Prop
  | .obj _ _ _ => True
  | _ => False

end Verif.Spec
