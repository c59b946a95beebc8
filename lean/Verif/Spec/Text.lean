import Verif.Model.Base
/-
Texts as readers see them: what is left without tags, and words.
-/
namespace Stuart.Spec

/-- A tag delimiter. -/
def isDelim (c : Char) : Bool := c == '<' || c == '>'

/-- The characters outside tags: those that are no delimiter and whose last delimiter before them, if any, is not an
opening one. `before` is what precedes, last character first. -/
def visibleAfter (before : Str) : Str → Str
  | [] => []
  | c :: cs =>
    if isDelim c ∨ before.find? isDelim = some '<' then visibleAfter (c :: before) cs
    else c :: visibleAfter (c :: before) cs

/-- The text without tags. -/
def visible (s : Str) : Str := visibleAfter [] s

/-- The number of words: places where a non-space follows a space or the start. -/
def words (s : Str) : Nat :=
  ((none :: s.map some).zip s).countP fun p => !isWs p.2 && (match p.1 with | none => true | some c => isWs c)

/-- What is read of a text for an excerpt: just so much that what is visible of it has the wanted length in bytes, or
everything. -/
structure ReadFor (n : Nat) (s a : Str) : Prop where
  part : a <+: s
  least : ∀ a', a' <+: a → a' ≠ a → (bytesOf (visible a')).length < n
  enough : a = s ∨ n ≤ (bytesOf (visible a)).length

/-- The part read, found by trying one length after the other. -/
def partRead (n : Nat) (s : Str) : Str :=
  match (List.range s.length).find? fun k => n ≤ (bytesOf (visible (s.take k))).length with
  | some k => s.take k
  | none => s

end Stuart.Spec
