import Verif.Spec.Disk
/-
What two trees have together.
-/
namespace Stuart.Spec

/-- What is at a place, apart from the contents of a directory: a file with everything about it, or a directory. -/
inductive Thing where
  | file (contents : Bytes) (parsed : Parsed) (metadata : Option Value) (source : Str)
  | dir

/-- What a node is. -/
def thing : Node → Thing
  | .file _ c p m s => .file c p m s
  | .dir .. => .dir

/-- These nodes have this thing, of this name, below the directories with these names. -/
def Shows (cs : List Node) (ds : List Str) (name : Str) (t : Thing) : Prop :=
  ∃ n, Holds cs ds n ∧ n.name = name ∧ thing n = t

/-- No directory has two entries of the same name, as on a disk. -/
def Distinct (cs : List Node) : Prop :=
  (cs.map Node.name).Nodup ∧ ∀ ds d cs' src, Holds cs ds (.dir d cs' src) → (cs'.map Node.name).Nodup

/-- Two nodes at the same place that are not both directories. -/
structure Conflict (cs os : List Node) (ds : List Str) (n o : Node) : Prop where
  left : Holds cs ds n
  right : Holds os ds o
  name : n.name = o.name
  notDirs : ¬ (n.isDir = true ∧ o.isDir = true)

end Stuart.Spec
