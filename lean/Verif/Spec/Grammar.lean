import Verif.Spec.Template
import Verif.Spec.Literal
/-
The template language as a grammar: which files are templates, what their tokens are, and where those stand.
Nothing here refers to the parser.
-/
namespace Stuart.Spec

/-! ### Places -/

/-- The line of the last character of `pre` in a file that begins with `pre`; 1 at the very start. -/
def lineAt (pre : Str) : Nat := 1 + (pre.dropLast.filter (· = '\n')).length

/-- The column recorded for the place after `pre`: on the first line, the number (from 1) of the last character
of `pre`; on later lines, its number from 0. Carriage returns do not count. -/
def colAt (pre : Str) : Nat :=
  ((pre.dropLast.reverse.takeWhile (· ≠ '\n')).filter (· ≠ '\r')).length +
    (if '\n' ∈ pre.dropLast then 0 else 1)

/-! ### Text -/

/-- Every tag opener in the text has a backslash in front of it. -/
def AllEscaped (s : Str) : Prop := ∀ a b, s = a ++ str!"{{" ++ b → ['\\'] <:+ a

/-- The opener right after this text is the first one without a backslash. -/
structure OpensAfter (txt : Str) : Prop where
  before : AllEscaped (txt ++ ['{'])
  here : ¬ ['\\'] <:+ txt

/-- The text with its escaped openers resolved. -/
def unescape : Str → Str
  | '\\' :: '{' :: '{' :: r => '{' :: '{' :: unescape r
  | c :: r => c :: unescape r
  | [] => []

/-- What the text in front of an opener means. This is `unescape txt`, except if the first brace of the opener
is also the last brace of an escaped one, as in `\{{{ $x }}`: then the backslash goes and one brace stays. -/
def rawText (txt : Str) : Str := (unescape (txt ++ ['{'])).dropLast

/-! ### Arguments -/

/-- A written argument value. -/
inductive ArgVal (U : Unicode) : Str → RawArg → Prop
  | var (v : Str) : (∀ c ∈ v, U.alnum c = true ∨ c = '_' ∨ c = '.') → ArgVal U ('$' :: v) (.var v)
  | str (s : Str) : '"' ∉ s → ArgVal U ('"' :: (s ++ ['"'])) (.str s)
  | int (s : Str) (i : Int) : Decimal s i → Is32 i → ArgVal U s (.int i)
  | ident (s : Str) : s ∈ builtinNames → ArgVal U s (.ident s)

/-- What may stand between two separators of an argument list: nothing, a value, or a name and a value with no
blanks around the equals sign. -/
inductive Slot (U : Unicode) : Str → List (Option Str × RawArg) → Prop
  | blank (w : Str) : Blank w → Slot U w []
  | pos (w v w' : Str) (a : RawArg) : Blank w → ArgVal U v a → Blank w' → Slot U (w ++ v ++ w') [(none, a)]
  | named (w k v w' : Str) (a : RawArg) : Blank w → k ≠ [] → (∀ c ∈ k, U.alnum c = true ∨ c = '_') →
      ArgVal U v a → Blank w' → Slot U (w ++ (k ++ '=' :: v) ++ w') [(some k, a)]

/-- What may stand between the parentheses of a call. -/
inductive Slots (U : Unicode) : Str → List (Option Str × RawArg) → Prop
  | last {s : Str} {l : List (Option Str × RawArg)} : Slot U s l → Slots U s l
  | cons {s r : Str} {l l' : List (Option Str × RawArg)} : Slot U s l → Slots U r l' →
      Slots U (s ++ ',' :: r) (l ++ l')

/-- Positional arguments, then named ones. -/
def argList (pos : List RawArg) (named : List (Str × RawArg)) : List (Option Str × RawArg) :=
  (pos.map fun a => (none, a)) ++ named.map fun e => (some e.1, e.2)

/-- An argument list that breaks off right after the quote that begins a value: whole slots, then a quote, perhaps after a
name and an equals sign, and blanks up to the end of the file. The quote counts as an argument. -/
inductive BreaksOff (U : Unicode) : Str → List (Option Str × RawArg) → Prop
  | pos {w w' : Str} : Blank w → Blank w' → BreaksOff U (w ++ '"' :: w') [(none, .str [])]
  | named {w k w' : Str} : Blank w → k ≠ [] → (∀ c ∈ k, U.alnum c = true ∨ c = '_') → Blank w' →
      BreaksOff U (w ++ k ++ '=' :: '"' :: w') [(some k, .str [])]
  | more {s r : Str} {l l' : List (Option Str × RawArg)} : Slot U s l → BreaksOff U r l' →
      BreaksOff U (s ++ ',' :: r) (l ++ l')

/-! ### Tags and files -/

/-- `body` is the text of a tag that denotes the token, possibly followed by blanks. -/
inductive TagText (U : Unicode) (plugins : List PluginFns) : Token → Str → Prop
  | var (n w : Str) : n ≠ [] → (∀ c ∈ n, U.alnum c = true ∨ c = '_' ∨ c = '.') → Blank w →
      TagText U plugins (.var n) ('$' :: n ++ w)
  | func (f : Fn) (name gap args w : Str) (pos : List RawArg) (named : List (Str × RawArg)) :
      name ≠ [] → (∀ c ∈ name, U.alnum c = true ∨ c = '_' ∨ c = ':') → Blank gap →
      Slots U args (argList pos named) → Blank w → Denotes plugins ⟨name, pos, named⟩ f →
      TagText U plugins (.func f) (name ++ gap ++ '(' :: args ++ ')' :: w)

/-- Text makes a raw token unless it is empty. -/
def rawAt (path pre s : Str) : List LTok := if s = [] then [] else [⟨.raw s, path, lineAt pre, colAt pre⟩]

/-- `Parses U path plugins pre rest toks`: in a file that begins with `pre` and continues with `rest`, a place
between tags, the tokens of `rest` are `toks`. -/
inductive Parses (U : Unicode) (path : Str) (plugins : List PluginFns) : Str → Str → List LTok → Prop
  | last (pre rest : Str) : AllEscaped rest → Parses U path plugins pre rest (rawAt path pre (unescape rest))
  | tag (pre txt ws body rest : Str) (toks : List LTok) (t : Token) :
      OpensAfter txt → Blank ws → TagText U plugins t body →
      Parses U path plugins (pre ++ txt ++ str!"{{" ++ ws ++ body ++ str!"}}") rest toks →
      Parses U path plugins pre (txt ++ str!"{{" ++ ws ++ body ++ str!"}}" ++ rest)
        (rawAt path pre (rawText txt) ++
          ⟨t, path, lineAt (pre ++ txt ++ str!"{{" ++ ws), colAt (pre ++ txt ++ str!"{{" ++ ws)⟩ :: toks)

/-- This much of a file is whole tags, each after some text. -/
inductive Tags (U : Unicode) (plugins : List PluginFns) : Str → Prop
  | nil : Tags U plugins []
  | tag {pre txt ws body : Str} {t : Token} : Tags U plugins pre → OpensAfter txt → Blank ws → TagText U plugins t body →
      Tags U plugins (pre ++ txt ++ str!"{{" ++ ws ++ body ++ str!"}}")

/-- A file whose last tag is a call, begun after whole tags, that breaks off right after the quote of an argument. -/
def CutOff (U : Unicode) (plugins : List PluginFns) (input : Str) : Prop :=
  ∃ pre txt ws name gap args pos named, Tags U plugins pre ∧ OpensAfter txt ∧ Blank ws ∧
    name ≠ [] ∧ (∀ c ∈ name, U.alnum c = true ∨ c = '_' ∨ c = ':') ∧ Blank gap ∧ BreaksOff U args (argList pos named) ∧
    input = pre ++ txt ++ str!"{{" ++ ws ++ (name ++ gap ++ '(' :: args)

end Stuart.Spec
