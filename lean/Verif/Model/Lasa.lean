import Verif.Py
import Mathlib.Data.Set.Basic
import Mathlib.Data.List.Infix

/-! Model of `movement_primitives/data/_lasa.py`: download and extraction of the data set as a program of file system
operations that can be interrupted between any two operations. -/

namespace Verif.Lasa

/-- Components of a path below `get_common_dataset_path()`, `data/_lasa.py` lines 139-149. -/
abbrev Path := List String

/-- Directory or file with its bytes. -/
inductive Node where
  | dir
  | file (content : List UInt8)

/-- File system below `get_common_dataset_path()` (the directory itself is taken to exist, `extractall` creates it). -/
abbrev FS := Path → Option Node

/-- `os.path.isdir`. -/
def isDir (fs : FS) (p : Path) : Prop := fs p = some .dir

/-- Operations of the operating system. A crash can occur between any two of them. (Simplified: each of them is atomic and
durable in program order; access rights and full disks are not modelled.) -/
inductive Op where
  /-- create a directory -/
  | mkdir (p : Path)
  /-- `open(p, "wb")` -/
  | truncate (p : Path)
  /-- write a chunk to the end of the file -/
  | append (p : Path) (chunk : List UInt8)
  /-- `os.rename(a, b)` -/
  | rename (a b : Path)

/-- Content of `fs` after `rename(a, b)`. -/
def renamed (a b : Path) (fs : FS) : FS := fun p =>
  if b <+: p then fs (a ++ p.drop b.length)
  else if a <+: p then none
  else fs p

/-- Effect of an operation. `mkdir` of an existing directory does nothing (`zipfile` and `os.makedirs` test this before),
other operations on existing things of the wrong kind raise an `OSError`. (Simplified: renaming to an existing empty
directory, which POSIX allows, raises an `OSError`, too.) -/
noncomputable def Op.apply (fs : FS) : Op → Except PyErr FS
  | .mkdir p =>
    match fs p with
    | none => .ok (Function.update fs p (some .dir))
    | some .dir => .ok fs
    | some (.file _) => .error .osError
  | .truncate p =>
    match fs p with
    | some .dir => .error .osError
    | _ => .ok (Function.update fs p (some (.file [])))
  | .append p chunk =>
    match fs p with
    | some (.file c) => .ok (Function.update fs p (some (.file (c ++ chunk))))
    | _ => .error .osError
  | .rename a b =>
    open Classical in
    if fs a = none then .error .osError
    else if (∃ p, fs (b ++ p) ≠ none) then .error .osError
    else .ok (renamed a b fs)

/-- State after a sequence of operations. An exception ends the program, the operations before it stay in effect. -/
noncomputable def runOps (fs : FS) : List Op → Except PyErr Unit × FS
  | [] => (.ok (), fs)
  | op :: ops =>
    match op.apply fs with
    | .ok fs' => runOps fs' ops
    | .error e => (.error e, fs)

/-- Member of a zip archive: path, and for a file the chunks in which `shutil.copyfileobj` writes its content (`none` for
a directory). -/
structure Member where
  path : Path
  chunks : Option (List (List UInt8))

/-- Extraction of a member, `ZipFile._extract_member`: create the directories above it, then the directory or the
file. -/
def extractMember (m : Member) : List Op :=
  (m.path.inits.filter fun p => p ≠ [] ∧ p ≠ m.path).map Op.mkdir ++
    match m.chunks with
    | none => [.mkdir m.path]
    | some chunks => .truncate m.path :: chunks.map (Op.append m.path)

/-- `z.extractall(dataset_path)` and `os.rename`, `data/_lasa.py` lines 64-66. `z.namelist()[0]` of an empty archive raises
an `IndexError`, which ends the program without an effect (modelled by no operation). -/
def install (archive : List Member) : List Op :=
  archive.flatMap extractMember ++
    match archive with
    | [] => []
    | m :: _ => [.rename m.path ["lasa_data"]]

/-- The file system operations of `load_lasa`, `data/_lasa.py` lines 60-66, for the downloaded `archive` (a failing
download has no effect). -/
noncomputable def program (archive : List Member) (fs : FS) : List Op :=
  open Classical in if isDir fs ["lasa_data"] then [] else install archive

/-- `sorted(os.listdir(dataset_path))[shape_idx]` and the name without suffix, `data/_lasa.py` lines 96-98, for the names
`names` of the directory's entries. Python counts negative indices from the end. -/
def shapeFile (names : List String) (shapeIdx : ℤ) : Except PyErr (String × String) :=
  let sorted := names.mergeSort (fun a b => a ≤ b)
  let i := if shapeIdx < 0 then shapeIdx + sorted.length else shapeIdx
  if i < 0 then .error .indexError
  else match sorted[i.toNat]? with
    | none => .error .indexError
    | some f => .ok (f, String.ofList (f.toList.take (f.length - 4)))

/-- A demonstration in the Matlab file: position, velocity and acceleration (`n_dims × n_steps`) and the time between
steps. -/
structure MatDemo (dims steps : ℕ) where
  pos : Fin dims → Fin steps → ℝ
  vel : Fin dims → Fin steps → ℝ
  acc : Fin dims → Fin steps → ℝ
  dt : ℝ

/-- Result of `load_lasa` apart from the name. -/
structure Demos (dims steps n : ℕ) where
  T : Fin n → Fin steps → ℝ
  X : Fin n → Fin steps → Fin dims → ℝ
  Xd : Fin n → Fin steps → Fin dims → ℝ
  Xdd : Fin n → Fin steps → Fin dims → ℝ
  dt : ℝ

/-- `_convert_demonstrations` and the times, `data/_lasa.py` lines 69-72, 123-136: the times are
`np.linspace(0, n_steps, n_steps)`. (Simplified: all demonstrations of a file have the same number of steps; numpy raises
an error otherwise.) -/
noncomputable def convert {dims steps n : ℕ} (demos : Fin (n + 1) → MatDemo dims steps) : Demos dims steps (n + 1) where
  T := fun _ k => if steps = 1 then 0 else (k : ℝ) * (steps / (steps - 1))
  X := fun i k d => (demos i).pos d k
  Xd := fun i k d => (demos i).vel d k
  Xdd := fun i k d => (demos i).acc d k
  dt := (demos 0).dt

end Verif.Lasa
