import Verif.Model.Dmp
import Verif.Model.Promp

/-!
# Input and output (`movement_primitives/io.py`)

Python values are trees. Numbers are real numbers (`float`) or integers; arrays hold real numbers. Dictionaries and the
`__dict__` of an object are association lists in insertion order (`Attrs`). JSON and YAML texts are represented by the
trees that their parsers produce; that printing and parsing a float gives back the same float is assumed (documented for
Python's `repr`). `yaml.dump` sorts dictionary keys, which the model does not: the order does not matter to the reader.
-/

namespace Verif

/-- numpy arrays of a shape. -/
def NdArr : List ℕ → Type
  | [] => ℝ
  | n :: s => Fin n → NdArr s

mutual
/-- Python values that can be attributes of the objects that are saved. `npFloat` is a `np.float64` (a subclass of
`float`). -/
inductive PyVal where
  | none
  | bool (b : Bool)
  | int (z : ℤ)
  | float (x : ℝ)
  | npFloat (x : ℝ)
  | str (s : String)
  | list (l : PyList)
  | tuple (l : PyList)
  | array (shape : List ℕ) (data : NdArr shape)
  | dict (kv : Attrs)
  | obj (module : String) (cls : String) (attrs : Attrs)
inductive PyList where
  | nil
  | cons (v : PyVal) (l : PyList)
/-- Association lists. -/
inductive Attrs where
  | nil
  | cons (k : String) (v : PyVal) (rest : Attrs)
end

namespace Attrs

/-- `d.get(k)` -/
def get : Attrs → String → Option PyVal
  | .nil, _ => .none
  | .cons k v rest, x => if k = x then some v else rest.get x

/-- `d[k] = v`: replaces the value or appends a new key. -/
def set : Attrs → String → PyVal → Attrs
  | .nil, x, w => .cons x w .nil
  | .cons k v rest, x, w => if k = x then .cons k w rest else .cons k v (rest.set x w)

/-- `d.pop(k)` for a key that exists: the remaining dictionary. -/
def erase : Attrs → String → Attrs
  | .nil, _ => .nil
  | .cons k v rest, x => if k = x then rest else .cons k v (rest.erase x)

/-- Keys in order. -/
def keys : Attrs → List String
  | .nil => []
  | .cons k _ rest => k :: rest.keys

def ofList : List (String × PyVal) → Attrs
  | [] => .nil
  | (k, v) :: rest => .cons k v (ofList rest)

end Attrs

def PyList.ofList : List PyVal → PyList
  | [] => .nil
  | v :: l => .cons v (ofList l)

/-- `array.tolist()` -/
def toList : (shape : List ℕ) → NdArr shape → PyVal
  | [], (x : ℝ) => .float x
  | _ :: s, A => .list (PyList.ofList (List.ofFn fun i => toList s (A i)))

/-- The array made of equally shaped arrays; ValueError (inhomogeneous shape) if the shapes differ. -/
def stack : List (Σ s, NdArr s) → Except PyErr (Σ s, NdArr s)
  | [] => .ok ⟨[0], Fin.elim0⟩
  | a :: l =>
    if h : ∀ b ∈ a :: l, b.1 = a.1 then
      .ok ⟨(a :: l).length :: a.1, fun i => h _ (List.getElem_mem i.isLt) ▸ (a :: l)[i.val].2⟩
    else .error .valueError

mutual
/-- `np.array(v)` for (nested lists of) numbers. Lists of other values are not modelled (NotImplementedError). -/
def npArray : PyVal → Except PyErr (Σ s, NdArr s)
  | .float x => .ok ⟨[], x⟩
  | .npFloat x => .ok ⟨[], x⟩
  | .int z => .ok ⟨[], (z : ℝ)⟩
  | .list l => do stack (← npArrays l)
  | .tuple l => do stack (← npArrays l)
  | .array s A => .ok ⟨s, A⟩
  | _ => .error .notImplementedError
def npArrays : PyList → Except PyErr (List (Σ s, NdArr s))
  | .nil => .ok []
  | .cons v l => do
    let a ← npArray v
    let as ← npArrays l
    return a :: as
end

mutual
/-- `_recursive_to_dict(obj, convert_tuple)`, `io.py` lines 119-130. `obj.__module__` raises AttributeError for values
that are not instances of a class written in Python (only dictionaries reach this line). -/
def recursiveToDict (convertTuple : Bool) : PyVal → Except PyErr PyVal
  | .obj module cls attrs => do
    let result := Attrs.cons "module" (.str module) (.cons "class" (.str cls) .nil)
    return .dict (← recursiveToDictLoop convertTuple attrs result)
  | _ => .error .attributeError

/-- Loop over `obj.__dict__.items()`, `io.py` lines 121-130. Nested calls do not pass on `convert_tuple`. -/
def recursiveToDictLoop (convertTuple : Bool) : Attrs → Attrs → Except PyErr Attrs
  | .nil, result => .ok result
  | .cons k v rest, result => do
    let w ← toDictValue convertTuple v
    recursiveToDictLoop convertTuple rest (result.set k w)

/-- Value of one attribute, `io.py` lines 122-129. -/
def toDictValue (convertTuple : Bool) : PyVal → Except PyErr PyVal
  | .tuple l => if convertTuple then .ok (.list l) else .ok (.tuple l)
  | .none => .ok .none
  | .bool b => .ok (.bool b)
  | .int z => .ok (.int z)
  | .float x => .ok (.float x)
  | .npFloat x => .ok (.npFloat x)
  | .str s => .ok (.str s)
  | .list l => .ok (.list l)
  | .array s A => .ok (toList s A)
  | .dict _ => .error .attributeError
  | .obj module cls attrs => recursiveToDict false (.obj module cls attrs)
end

mutual
/-- `json.load` after `json.dump`: tuples become lists, `np.float64` becomes `float`; TypeError for arrays and objects
inside of lists. -/
def jsonRoundTrip : PyVal → Except PyErr PyVal
  | .none => .ok .none
  | .bool b => .ok (.bool b)
  | .int z => .ok (.int z)
  | .float x => .ok (.float x)
  | .npFloat x => .ok (.float x)
  | .str s => .ok (.str s)
  | .list l => do return .list (← jsonRoundTripList l)
  | .tuple l => do return .list (← jsonRoundTripList l)
  | .array _ _ => .error .typeError
  | .dict kv => do return .dict (← jsonRoundTripAttrs kv)
  | .obj _ _ _ => .error .typeError
def jsonRoundTripList : PyList → Except PyErr PyList
  | .nil => .ok .nil
  | .cons v l => do
    let w ← jsonRoundTrip v
    let r ← jsonRoundTripList l
    return .cons w r
def jsonRoundTripAttrs : Attrs → Except PyErr Attrs
  | .nil => .ok .nil
  | .cons k v rest => do
    let w ← jsonRoundTrip v
    let r ← jsonRoundTripAttrs rest
    return .cons k w r
end

mutual
/-- `yaml.safe_load` after `yaml.dump`: tuples, `np.float64`, arrays and objects are written with `python/...` tags,
which the safe loader refuses (ConstructorError). -/
def yamlRoundTrip : PyVal → Except PyErr PyVal
  | .none => .ok .none
  | .bool b => .ok (.bool b)
  | .int z => .ok (.int z)
  | .float x => .ok (.float x)
  | .npFloat _ => .error .yamlError
  | .str s => .ok (.str s)
  | .list l => do return .list (← yamlRoundTripList l)
  | .tuple _ => .error .yamlError
  | .array _ _ => .error .yamlError
  | .dict kv => do return .dict (← yamlRoundTripAttrs kv)
  | .obj _ _ _ => .error .yamlError
def yamlRoundTripList : PyList → Except PyErr PyList
  | .nil => .ok .nil
  | .cons v l => do
    let w ← yamlRoundTrip v
    let r ← yamlRoundTripList l
    return .cons w r
def yamlRoundTripAttrs : Attrs → Except PyErr Attrs
  | .nil => .ok .nil
  | .cons k v rest => do
    let w ← yamlRoundTrip v
    let r ← yamlRoundTripAttrs rest
    return .cons k w r
end

mutual
/-- `_recursive_from_dict(obj, export)`, `io.py` lines 133-143, on the `__dict__` of `obj`. (`getattr` may also find
attributes of the class; objects saved by `_recursive_to_dict` have the attribute themselves.) -/
def recursiveFromDict : Attrs → Attrs → Except PyErr Attrs
  | .nil, o => .ok o
  | .cons k v rest, o => do
    let w ← fromDictValue v (o.get k)
    recursiveFromDict rest (o.set k w)

/-- New value of one attribute whose present value is `old`, `io.py` lines 134-143. -/
def fromDictValue : PyVal → Option PyVal → Except PyErr PyVal
  | .list l, old =>
    match old with
    | .none => .error .keyError
    | some (.array _ _) => do
      let a ← npArray (.list l)
      return .array a.1 a.2
    | some _ => .ok (.list l)
  | .tuple l, old =>
    match old with
    | .none => .error .keyError
    | some (.array _ _) => do
      let a ← npArray (.tuple l)
      return .array a.1 a.2
    | some _ => .ok (.tuple l)
  | .dict kv, old =>
    match old with
    | some (.obj module cls attrs) => do return .obj module cls (← recursiveFromDict kv attrs)
    | _ => .error .attributeError
  | .none, _ => .ok .none
  | .bool b, _ => .ok (.bool b)
  | .int z, _ => .ok (.int z)
  | .float x, _ => .ok (.float x)
  | .npFloat x, _ => .ok (.npFloat x)
  | .str s, _ => .ok (.str s)
  | .array s A, _ => .ok (.array s A)
  | .obj m c a, _ => .ok (.obj m c a)
end

/-- A class: parameter names of its constructor and the constructor as a function from keyword arguments to the
`__dict__` of the new object. -/
structure PyClass where
  args : List String
  construct : Attrs → Except PyErr Attrs

/-- Modules that can be imported and the classes that they define. -/
abbrev Registry := String → Option (String → Option PyClass)

/-- Loop `for arg in argspec.args: if arg in export: ctor_kwargs[arg] = export.pop(arg)`, `io.py` lines 157-159. -/
def popArgs : List String → Attrs → Attrs → Attrs × Attrs
  | [], export_, kwargs => (export_, kwargs)
  | arg :: args, export_, kwargs =>
    match export_.get arg with
    | some v => popArgs args (export_.erase arg) (kwargs.set arg v)
    | .none => popArgs args export_ kwargs

/-- `_dict_to_object(export)`, `io.py` lines 147-163. -/
def dictToObject (reg : Registry) (export_ : Attrs) : Except PyErr PyVal :=
  match export_.get "module" with
  | some (.str moduleName) =>
    match reg moduleName with
    | .none => .error .importError
    | some classDict =>
      match (export_.erase "module").get "class" with
      | some (.str className) =>
        match classDict className with
        | .none => .error .importError
        | some clazz => do
          let (export', kwargs) := popArgs clazz.args ((export_.erase "module").erase "class") .nil
          let o ← clazz.construct kwargs
          return .obj moduleName className (← recursiveFromDict export' o)
      | some _ => .error .importError
      | .none => .error .keyError
  | some _ => .error .typeError
  | .none => .error .keyError

/-- `write_json` followed by `read_json` of the same file, `io.py` lines 84-116. -/
def jsonSaveAndLoad (reg : Registry) (o : PyVal) : Except PyErr PyVal := do
  let export_ ← recursiveToDict false o
  let text ← jsonRoundTrip export_
  match text with
  | .dict kv => dictToObject reg kv
  | _ => .error .attributeError

/-- `write_yaml` followed by `read_yaml` of the same file, `io.py` lines 49-81. -/
def yamlSaveAndLoad (reg : Registry) (o : PyVal) : Except PyErr PyVal := do
  let export_ ← recursiveToDict true o
  let text ← yamlRoundTrip export_
  match text with
  | .dict kv => dictToObject reg kv
  | _ => .error .attributeError

end Verif
