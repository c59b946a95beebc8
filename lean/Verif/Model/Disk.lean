import Verif.Model.Node
/-
The file system as the code uses it through `std::fs`: a tree of entries and the four kinds of change that
stuart-core/src/fs/mod.rs makes to it, any of which may fail for reasons of its own.
-/
namespace Stuart

/-- An entry of the file system. `special` stands for whatever is neither a file nor a directory that can be read
(devices, dangling links, things without permission). Simplification: it counts as something that is there, which for a
dangling link `Path::exists` denies. -/
inductive Entry where
  | file (b : Bytes)
  | dir (l : List (Str × Entry))
  | special

/-- An absolute path: the names on the way down from the root. There are no symbolic links, so `canonicalize` is the
identity on paths that exist. -/
abbrev Path := List Str

/-- A path as a string. -/
def pathStr (p : Path) : Str := p.flatMap fun n => '/' :: n

/-- `Path::join` followed by the resolution the operating system performs: `.` and empty pieces stay, `..` goes up, an
absolute path starts over. Simplification: the directories passed through on the way to a `..` are not required to
exist. -/
def joinPath (p : Path) (s : Str) : Path :=
  (components s).foldl (fun q c => match c with
    | .rootDir => []
    | .curDir => q
    | .parentDir => q.dropLast
    | .normal n => q ++ [n]) p

/-- What a directory has under a name. -/
def findEntry (n : Str) : List (Str × Entry) → Option Entry
  | [] => none
  | (m, e) :: l => if m = n then some e else findEntry n l

/-- What is at a path. -/
def Entry.at : Entry → Path → Option Entry
  | e, [] => some e
  | .dir l, n :: p =>
    match findEntry n l with
    | some e => e.at p
    | none => none
  | _, _ :: _ => none

/-- Replace, add (at the end) or remove what a directory has under a name. -/
def setEntryAt (n : Str) (v : Option Entry) : List (Str × Entry) → List (Str × Entry)
  | [] => match v with
    | some e => [(n, e)]
    | none => []
  | (m, e) :: l =>
    if m = n then
      match v with
      | some e' => (m, e') :: l
      | none => setEntryAt n none l
    else (m, e) :: setEntryAt n v l

/-- Replace, add or remove what is at a path, if there is a directory to hold it. -/
def Entry.put : Entry → Path → Option Entry → Entry
  | e, [], none => e
  | _, [], some v => v
  | .dir l, [n], v => .dir (setEntryAt n v l)
  | .dir l, n :: p, v =>
    match findEntry n l with
    | some e => .dir (setEntryAt n (some (e.put p v)) l)
    | none => .dir l
  | e, _ :: _, _ => e

/-- `Path::is_dir` -/
def Entry.isDirAt (d : Entry) (p : Path) : Bool :=
  match d.at p with
  | some (.dir _) => true
  | _ => false

/-- `Path::is_file` -/
def Entry.isFileAt (d : Entry) (p : Path) : Bool :=
  match d.at p with
  | some (.file _) => true
  | _ => false

/-- `Path::exists` -/
def Entry.existsAt (d : Entry) (p : Path) : Bool := (d.at p).isSome

/-- The changes made to the file system. -/
inductive Op where
  /-- fs/mod.rs:264-266: `if path.exists() && path.is_dir() { remove_dir_all(path)? }` -/
  | clear (p : Path)
  /-- fs/mod.rs:270 `create_dir(path)?` -/
  | mkdir (p : Path)
  /-- fs/mod.rs:341-345, 367-371: `create_dir`, content with the thing existing already -/
  | mkdirTolerant (p : Path)
  /-- `std::fs::write(path, contents)?` -/
  | write (p : Path) (b : Bytes)
  /-- `remove_file(path)?` -/
  | removeFile (p : Path)

def Op.target : Op → Path
  | .clear p => p
  | .mkdir p => p
  | .mkdirTolerant p => p
  | .write p _ => p
  | .removeFile p => p

/-- The effect of a change, `none` when it fails. -/
def Op.apply (d : Entry) : Op → Option Entry
  | .clear p =>
    match d.at p with
    | some (.dir _) => if p = [] then none else some (d.put p none)
    | _ => some d
  | .mkdir p =>
    match d.at p with
    | some _ => none
    | none => if d.isDirAt p.dropLast then some (d.put p (some (.dir []))) else none
  | .mkdirTolerant p =>
    match d.at p with
    | some _ => some d
    | none => if d.isDirAt p.dropLast then some (d.put p (some (.dir []))) else none
  | .write p b =>
    match d.at p with
    | some (.file _) => some (d.put p (some (.file b)))
    | some _ => none
    | none => if d.isDirAt p.dropLast then some (d.put p (some (.file b))) else none
  | .removeFile p =>
    match d.at p with
    | some (.dir _) => none
    | some _ => some (d.put p none)
    | none => none

/-- The file system together with the mishaps to come: for each further change, either none (`none`), or that it fails
and leaves something arbitrary (`some r`, with `r` absent or any entry) at the path it was to change. When the list
runs out there are no more mishaps. -/
structure World where
  disk : Entry
  faults : List (Option (Option Entry)) := []

/-- One change. -/
def World.step (w : World) (o : Op) : World × Bool :=
  match w.faults with
  | some r :: fs => (⟨w.disk.put o.target r, fs⟩, false)
  | fs =>
    match o.apply w.disk with
    | some d => (⟨d, fs.tail⟩, true)
    | none => (⟨w.disk, fs.tail⟩, false)

end Stuart
