import Verif.Model.Lasa

/-! Specification of the crash safety of the download of the LASA data set. -/

namespace Verif.Lasa.Spec
open Verif.Lasa

/-- `p` is a directory of the archive: a member or a directory above a member. -/
def IsDirOf (archive : List Member) (p : Path) : Prop :=
  ∃ m ∈ archive, p <+: m.path ∧ (p = m.path → m.chunks = none)

/-- `p` is a file of the archive. -/
def IsFileOf (archive : List Member) (p : Path) : Prop := ∃ m ∈ archive, p = m.path ∧ m.chunks ≠ none

/-- An archive as GitHub and Bitbucket generate it: the first entry is a top directory (with another name than
`lasa_data`), everything else lies in it, no path occurs twice and no file is a directory as well. -/
structure WellFormed (archive : List Member) (top : String) : Prop where
  first : ∃ rest, archive = ⟨[top], none⟩ :: rest
  name : top ≠ "lasa_data"
  below : ∀ m ∈ archive, [top] <+: m.path
  nodup : (archive.map Member.path).Nodup
  tree : ∀ p, IsDirOf archive p → ¬IsFileOf archive p

/-- What the member should be in the file system. -/
def expected (m : Member) : Node :=
  match m.chunks with
  | none => .dir
  | some chunks => .file chunks.flatten

/-- The directory `lasa_data` contains everything that the archive contains below its top directory. -/
def Complete (archive : List Member) (top : String) (fs : FS) : Prop :=
  ∀ m ∈ archive, ∀ rest, m.path = top :: rest → fs ("lasa_data" :: rest) = some (expected m)

/-- Nothing exists at or below the path. -/
def Absent (fs : FS) (p : Path) : Prop := ∀ q, fs (p ++ q) = none

/-- File systems after any history of calls of `load_lasa`, each of which may be killed after any number `k` of file system
operations, starting with a file system without `lasa_data` and without the archive's top directory. -/
inductive Reachable (archive : List Member) (top : String) : FS → Prop
  | initial (fs : FS) : Absent fs ["lasa_data"] → Absent fs [top] → Reachable archive top fs
  | call (fs : FS) (k : ℕ) : Reachable archive top fs →
      Reachable archive top (runOps fs ((program archive fs).take k)).2

end Verif.Lasa.Spec
