import Verif.Spec.Read
/-
Why a content directory cannot be read.
-/
namespace Stuart.Spec

mutual
/-- What is neither a directory, at or below this path, in the order in which the directories list it: the directory it is
in, its name, and what it is. -/
def leavesAt (d : Path) (n : Str) : Entry → List (Path × Str × Entry)
  | .dir l => leavesIn (d ++ [n]) l
  | .file b => [(d, n, .file b)]
  | .special => [(d, n, .special)]
/-- The same for a list of entries of this directory. -/
def leavesIn (d : Path) : List (Str × Entry) → List (Path × Str × Entry)
  | [] => []
  | (n, e) :: l => leavesAt d n e ++ leavesIn d l
end

/-- The contents of a file of this name at this path cannot be read, with this error. -/
inductive ReadFails (S : Sys) (plugins : List Plugin) (name src : Str) (b : Bytes) : SErr → Prop
  | text : HasExt name str!"html" ∨ HasExt name str!"md" ∨ HasExt name str!"json" → (¬ ∃ s, fromUtf8 b = some s) →
      ReadFails S plugins name src b (.fs .read)
  | html {s : Str} {e : TB ParseErr} : HasExt name str!"html" → fromUtf8 b = some s →
      parseHtml S.U src (plugins.map fun p => p.fns) s = .err e → ReadFails S plugins name src b (.parse e)
  | markdown {s : Str} {e : TB ParseErr} : HasExt name str!"md" → fromUtf8 b = some s →
      parseMarkdown S.U src (plugins.map fun p => p.fns) s = .err e → ReadFails S plugins name src b (.parse e)
  | json {s : Str} : HasExt name str!"json" → fromUtf8 b = some s → S.parseJson s = none →
      ReadFails S plugins name src b (.parse ⟨src, 0, 0, .invalidJson⟩)
  | custom {e : Str} {q : NodeParser} {t : Str} : HasExt name e → e ≠ str!"html" → e ≠ str!"md" → e ≠ str!"json" →
      FirstParser plugins e q → q.parse b src = .err t → ReadFails S plugins name src b (.plugin t)

/-- Reading the contents of such a file panics. -/
inductive ReadPanics (S : Sys) (plugins : List Plugin) (name src : Str) (b : Bytes) : Panic → Prop
  | html {s : Str} {p : Panic} : HasExt name str!"html" → fromUtf8 b = some s →
      parseHtml S.U src (plugins.map fun p => p.fns) s = .panic p → ReadPanics S plugins name src b p
  | markdown {s : Str} {p : Panic} : HasExt name str!"md" → fromUtf8 b = some s →
      parseMarkdown S.U src (plugins.map fun p => p.fns) s = .panic p → ReadPanics S plugins name src b p
  | custom {e : Str} {q : NodeParser} {p : Panic} : HasExt name e → e ≠ str!"html" → e ≠ str!"md" → e ≠ str!"json" →
      FirstParser plugins e q → q.parse b src = .panic p → ReadPanics S plugins name src b p

/-- This can be read. -/
def LeafReads (S : Sys) (plugins : List Plugin) (x : Path × Str × Entry) : Prop :=
  ∃ b c, x.2.2 = .file b ∧ ReadAs S plugins x.2.1 (pathStr (x.1 ++ [x.2.1])) b c

/-- This cannot be read, with this error. -/
def LeafFails (S : Sys) (plugins : List Plugin) (x : Path × Str × Entry) (e : SErr) : Prop :=
  (x.2.2 = .special ∧ e = .fs .read) ∨ ∃ b, x.2.2 = .file b ∧ ReadFails S plugins x.2.1 (pathStr (x.1 ++ [x.2.1])) b e

/-- Reading this panics. -/
def LeafPanics (S : Sys) (plugins : List Plugin) (x : Path × Str × Entry) (p : Panic) : Prop :=
  ∃ b, x.2.2 = .file b ∧ ReadPanics S plugins x.2.1 (pathStr (x.1 ++ [x.2.1])) b p

end Stuart.Spec
