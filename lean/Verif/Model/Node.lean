import Verif.Model.Markdown
/-
The virtual file tree: stuart-core/src/fs/mod.rs:23-162 and parse/contents.rs.
-/
namespace Stuart

/-- process/mod.rs:45-50 `ProcessOutput` -/
structure ProcessOutput where
  newContents : Option Bytes := none
  newName : Option Str := none

/-- plugins/mod.rs:48-56 `NodeProcessor`: the parsed contents of a node parsed by a plugin. Simplification:
`process` sees the two templates in force but not the rest of the project. -/
structure Custom where
  process : Option (List LTok) → Option (List LTok) → Res Str ProcessOutput
  toJson : Value

/-- parse/contents.rs:14-27 `ParsedContents` -/
inductive Parsed where
  | html (toks : List LTok)
  | markdown (md : ParsedMd)
  | json (v : Value)
  | custom (c : Custom)
  | none
  | ignored

/-- fs/mod.rs:25-48 `Node`. Paths (`source`) are strings. -/
inductive Node where
  | file (name : Str) (contents : Bytes) (parsed : Parsed) (metadata : Option Value) (source : Str)
  | dir (name : Str) (children : List Node) (source : Str)

namespace Node

/-- fs/mod.rs:88-93 -/
def name : Node → Str
  | .file n _ _ _ _ => n
  | .dir n _ _ => n

/-- fs/mod.rs:96-101 -/
def children : Node → Option (List Node)
  | .file .. => none
  | .dir _ cs _ => some cs

/-- fs/mod.rs:104-109 -/
def contents : Node → Option Bytes
  | .file _ c _ _ _ => some c
  | .dir .. => none

/-- fs/mod.rs:112-119 -/
def parsed : Node → Parsed
  | .file _ _ p _ _ => p
  | .dir .. => .none

/-- fs/mod.rs:135-140 -/
def source : Node → Str
  | .file _ _ _ _ s => s
  | .dir _ _ s => s

/-- fs/mod.rs:78-80 -/
def isDir : Node → Bool
  | .dir .. => true
  | .file .. => false

end Node

/-- `std::path::Component` on Unix. -/
inductive Comp where
  | rootDir
  | curDir
  | parentDir
  | normal (s : Str)
deriving DecidableEq, Repr

/-- The components of the pieces after the first one: empty pieces and `.` vanish. -/
def restComps : List Str → List Comp
  | [] => []
  | p :: ps =>
    if p = [] then restComps ps
    else if p = ['.'] then restComps ps
    else if p = ['.', '.'] then .parentDir :: restComps ps
    else .normal p :: restComps ps

/-- `Path::components` on Unix: split at `/`, a leading `/` is `RootDir`, a leading `.` is `CurDir`,
empty pieces and other `.` are dropped. -/
def components (path : Str) : List Comp :=
  match splitOn '/' path with
  | [] => []
  | [p] => if p = ['.'] then [.curDir] else restComps [p]
  | p :: ps =>
    if p = [] then .rootDir :: restComps ps
    else if p = ['.'] then .curDir :: restComps ps
    else restComps (p :: ps)

/-- fs/mod.rs:146-159, one component after another. -/
def getComps : Node → List Comp → Option Node
  | n, [] => some n
  | n, .normal c :: cs =>
    match n.children.bind fun ch => ch.find? fun m => m.name == c with
    | some m => getComps m cs
    | none => none
  | n, .curDir :: cs => getComps n cs
  | _, _ => none

/-- fs/mod.rs:143-162 `Node::get_at_path` -/
def Node.getAtPath (n : Node) (path : Str) : Option Node := getComps n (components path)

end Stuart
