import Verif.Model.Node
/-
Positions in a site's tree, and which template is nearest to one.
-/
namespace Stuart.Spec

/-- The node at a position: which child to take at each level. -/
def nodeAt : Node → List Nat → Option Node
  | n, [] => some n
  | .file .., _ :: _ => none
  | .dir _ cs _, i :: is =>
    match cs[i]? with
    | some c => nodeAt c is
    | none => none

/-- The contents of the directories around a position, innermost first. -/
def around : Node → List Nat → List (List Node)
  | .dir _ cs _, i :: is =>
    match cs[i]? with
    | some c => around c is ++ [cs]
    | none => []
  | _, _ => []

/-- What the innermost directory that has something of this name has there. (Names are unique on disk; otherwise the
last counts.) -/
def nearest (nm : Str) : List (List Node) → Option Node
  | [] => none
  | d :: ds =>
    match d.reverse.find? fun c => c.name = nm with
    | some c => some c
    | none => nearest nm ds

/-- A template is an HTML file. -/
def asTemplate : Node → Option (List LTok)
  | .file _ _ (.html toks) _ _ => some toks
  | _ => none

/-- The template of this name in force at a position. -/
def template (nm : Str) (tree : Node) (pos : List Nat) : Option (List LTok) :=
  (nearest nm (around tree pos)).bind asTemplate

mutual
/-- The positions of the files, in order. -/
def files : Node → List (List Nat)
  | .file .. => [[]]
  | .dir _ cs _ => filesFrom 0 cs
/-- The positions of the files in a directory, from the child with this number on. -/
def filesFrom : Nat → List Node → List (List Nat)
  | _, [] => []
  | i, c :: cs => (files c).map (i :: ·) ++ filesFrom (i + 1) cs
end

mutual
/-- The data of a site: names, JSON values, markdown. Left out are page and template texts, the bytes and origins of
files, and files handled by plugins. -/
def dataOf : Node → Node
  | .file name _ p _ _ =>
    .file name [] (match p with | .json v => .json v | .markdown md => .markdown md | _ => .none) none []
  | .dir name cs _ => .dir name (datasOf cs) []
/-- `dataOf` on each. -/
def datasOf : List Node → List Node
  | [] => []
  | c :: cs => dataOf c :: datasOf cs
end

end Stuart.Spec
