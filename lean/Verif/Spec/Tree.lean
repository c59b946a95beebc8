import Verif.Model.Node
/-
Naming nodes of the content tree.
-/
namespace Stuart.Spec

/-- Going down a tree by names: in a directory, a name stands for its first child of that name. -/
inductive Reaches : Node → List Str → Node → Prop
  | here (n : Node) : Reaches n [] n
  | down (dir src nm : Str) (before after : List Node) (c m : Node) (names : List Str) :
      c.name = nm → (∀ b ∈ before, b.name ≠ nm) → Reaches c names m →
      Reaches (.dir dir (before ++ c :: after) src) (nm :: names) m

/-- A node of the tree. -/
def Within (tree n : Node) : Prop := ∃ names, Reaches tree names n

/-- A path as written: pieces between slashes. -/
def slashed (p : Str) (ps : List Str) : Str := p ++ ps.flatMap fun q => '/' :: q

/-- The pieces contain no slash. -/
def Slashless (p : Str) (ps : List Str) : Prop := '/' ∉ p ∧ ∀ q ∈ ps, '/' ∉ q

/-- A path that leaves its starting point: it begins with a slash or has a parent piece. -/
def Escapes (p : Str) (ps : List Str) : Prop := (p = [] ∧ ps ≠ []) ∨ str!".." ∈ p :: ps

/-- The names in a path: empty pieces and single dots mean nothing. -/
def namesIn (pieces : List Str) : List Str := pieces.filter fun q => q ≠ [] ∧ q ≠ str!"."

/-- The node that names lead to. -/
def reached : Node → List Str → Option Node
  | n, [] => some n
  | .file .., _ :: _ => none
  | .dir _ cs _, nm :: names => (cs.find? fun c => c.name = nm).bind fun c => reached c names

/-- The node of a tree that a path written in a template stands for. -/
def written (tree : Node) (path : Str) : Option Node :=
  let pieces := splitOn '/' path
  if (pieces.head? = some [] ∧ pieces.length ≠ 1) ∨ str!".." ∈ pieces then none else reached tree (namesIn pieces)

end Stuart.Spec
