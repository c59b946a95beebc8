import Verif.Model.Markdown
import Verif.Spec.Template
/-
Lines of a file and frontmatter, from the author's side.
-/
namespace Stuart.Spec

/-- The text has these lines: each but perhaps the last ends in LF or CRLF. -/
inductive HasLines : Str → List Str → Prop
  | nil : HasLines [] []
  | last (l : Str) : l ≠ [] → '\n' ∉ l → HasLines l [l]
  | lf (l r : Str) (ls : List Str) : '\n' ∉ l → ¬ ['\r'] <:+ l → HasLines r ls → HasLines (l ++ '\n' :: r) (l :: ls)
  | crlf (l r : Str) (ls : List Str) : '\n' ∉ l → HasLines r ls → HasLines (l ++ '\r' :: '\n' :: r) (l :: ls)

/-- CRLF line ends made LF. -/
def crlfToLf : Str → Str
  | [] => []
  | '\r' :: '\n' :: cs => '\n' :: crlfToLf cs
  | c :: cs => c :: crlfToLf cs

/-- One final newline dropped. -/
def dropFinalNl (s : Str) : Str := if s.getLast? = some '\n' then s.dropLast else s

/-- A line that starts with three dashes. -/
def Dashes (l : Str) : Prop := str!"---" <+: l

/-- A frontmatter line `key: "value"`, with any blanks around key and quoted value. -/
inductive FmLine : Str → Str → Str → Prop
  | mk (a k b c v d : Str) : Blank a → Blank b → Blank c → Blank d → ':' ∉ a ++ k ++ b →
      (∀ x, k.head? = some x → isWs x = false) → (∀ x, k.getLast? = some x → isWs x = false) →
      FmLine (a ++ k ++ b ++ ':' :: (c ++ '"' :: (v ++ '"' :: d))) k v

/-- The usual way to write a pair. -/
def fmLine (e : Str × Str) : Str := e.1 ++ str!": \"" ++ e.2 ++ str!"\""

/-- A markdown file: dashes, the pairs, dashes, the body. -/
def mdFile (pairs : List (Str × Str)) (body : Str) : Str :=
  str!"---\n" ++ (pairs.flatMap fun e => fmLine e ++ ['\n']) ++ str!"---\n" ++ body

/-- Pairs that can be written: the key holds no colon or newline, has no blanks at its ends and does not start
with three dashes; the value holds no newline. -/
structure PairWF (e : Str × Str) : Prop where
  colon : ':' ∉ e.1
  nl : '\n' ∉ e.1
  head : ∀ x, e.1.head? = some x → isWs x = false
  last : ∀ x, e.1.getLast? = some x → isWs x = false
  dashes : ¬ Dashes e.1
  value : '\n' ∉ e.2

end Stuart.Spec
