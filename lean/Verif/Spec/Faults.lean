import Verif.Spec.Grammar
/-
What can be wrong with a template: the counterpart of the grammar. Nothing here refers to the parser.

The relations below say, of the text from some place on, how much of it is read until the fault is noticed (the error is
reported there) and what the fault is.
-/
namespace Stuart.Spec

/-- The text does not go on with such a character. -/
def Stop (p : Char → Prop) (s : Str) : Prop := ∀ c, s.head? = some c → ¬ p c

/-- The characters of the names of variables, functions and arguments. -/
def VarChar (U : Unicode) (c : Char) : Prop := U.alnum c = true ∨ c = '_' ∨ c = '.'
def FnChar (U : Unicode) (c : Char) : Prop := U.alnum c = true ∨ c = '_' ∨ c = ':'
def KeyChar (U : Unicode) (c : Char) : Prop := U.alnum c = true ∨ c = '_'

/-- `Missing what s part kind`: the text `s` does not go on with `what`: it ends before that, or has another character. -/
inductive Missing (what : Str) : Str → Str → ParseErr → Prop
  | ends {s : Str} : s <+: what → s ≠ what → Missing what s s .unexpectedEOF
  | other {a b r : Str} {c d : Char} : what = a ++ c :: b → c ≠ d → Missing what (a ++ d :: r) (a ++ [d]) (.expected what)

/-! ### Arguments -/

/-- A text that is no argument value. (The single quote is neither a value nor a fault: see `BreaksOff`.) -/
inductive BadValue (U : Unicode) : Str → ParseErr → Prop
  | var {v : Str} {c : Char} : c ∈ v → ¬ VarChar U c → BadValue U ('$' :: v) (.invalidVariableName v)
  | other {s : Str} : s.head? ≠ some '$' → s ≠ ['"'] → (∀ a, ¬ ArgVal U s a) → BadValue U s .genericSyntax

/-- A text without blanks around it that is no argument after named ones (`late`), or at the beginning. -/
inductive BadArg (U : Unicode) (late : Bool) : Str → ParseErr → Prop
  | key {k v : Str} : k.head? ≠ some '"' → '=' ∉ k → (k = [] ∨ ∃ c ∈ k, ¬ KeyChar U c) →
      BadArg U late (k ++ '=' :: v) .genericSyntax
  | named {k v : Str} {e : ParseErr} : k ≠ [] → (∀ c ∈ k, KeyChar U c) → BadValue U v e → BadArg U late (k ++ '=' :: v) e
  | late {s : Str} : s ≠ [] → (s.head? = some '"' ∨ '=' ∉ s) → late = true → BadArg U late s .positionalAfterNamed
  | pos {s : Str} {e : ParseErr} : s ≠ [] → (s.head? = some '"' ∨ '=' ∉ s) → late = false → BadValue U s e → BadArg U late s e

/-- No comma or parenthesis outside quotes. -/
def Unsplit (t : Str) : Prop := ∀ a c b, t = a ++ c :: b → c = ',' ∨ c = ')' → a.count '"' % 2 = 1

/-- The text of an argument goes as far as `t`: up to a comma or parenthesis outside quotes, or the end of the file. -/
def ArgEnds (t rest : Str) : Prop :=
  Unsplit t ∧ (rest = [] ∨ (t.count '"' % 2 = 0 ∧ (rest.head? = some ',' ∨ rest.head? = some ')')))

/-- Faults after the opening parenthesis of a call: an argument that is none, or the file ends after arguments. -/
inductive ArgsFault (U : Unicode) : Bool → Str → Str → ParseErr → Prop
  | bad {late : Bool} {w s w' rest : Str} {e : ParseErr} : Blank w → Blank w' →
      (∀ c, s.head? = some c → isWs c = false) → (∀ c, s.getLast? = some c → isWs c = false) →
      ArgEnds (w ++ s ++ w') rest → BadArg U late s e → ArgsFault U late (w ++ s ++ w' ++ rest) (w ++ s ++ w') e
  | ends {late : Bool} {t : Str} {l : List (Option Str × RawArg)} : Slot U t l → (late = true → ∀ x ∈ l, x.1 ≠ none) →
      ArgsFault U late t t .unexpectedEOF
  | more {late : Bool} {t r part : Str} {l : List (Option Str × RawArg)} {e : ParseErr} : Slot U t l →
      (late = true → ∀ x ∈ l, x.1 ≠ none) → ArgsFault U (late || l.any fun x => x.1.isSome) r part e →
      ArgsFault U late (t ++ ',' :: r) (t ++ ',' :: part) e

/-! ### Calls -/

/-- How many positional arguments the built-in functions take. -/
def arities : List (Str × Nat) :=
  [(str!"begin", 1), (str!"dateformat", 2), (str!"else", 0), (str!"end", 1), (str!"excerpt", 2), (str!"for", 2),
   (str!"ifdefined", 1), (str!"import", 2), (str!"insert", 1), (str!"timetoread", 1), (str!"ifeq", 2), (str!"ifne", 2),
   (str!"ifgt", 2), (str!"ifge", 2), (str!"iflt", 2), (str!"ifle", 2)]

/-- A named argument that a loop does not take after those before it. -/
inductive BadNamed (before : List (Str × RawArg)) : Str → RawArg → ParseErr → Prop
  | number {n : Str} {a : RawArg} : n = str!"skip" ∨ n = str!"limit" → (∀ i, a ≠ .int i) → BadNamed before n a .assertion
  | key {a : RawArg} : (∀ v, a ≠ .var v) → BadNamed before str!"sortby" a .assertion
  | again {n : Str} {a : RawArg} : n = str!"skip" ∨ n = str!"limit" ∨ n = str!"sortby" → n ∈ before.map Prod.fst →
      BadNamed before n a .assertion
  | negative {n : Str} {i : Int} : n = str!"skip" ∨ n = str!"limit" → n ∉ before.map Prod.fst → i < 0 →
      BadNamed before n (.int i) .invalidArgument
  | order {a : RawArg} : a ≠ .str str!"asc" → a ≠ .str str!"desc" → BadNamed before str!"order" a .invalidArgument
  | unknown {n : Str} {a : RawArg} : n ∉ [str!"skip", str!"limit", str!"sortby", str!"order"] →
      BadNamed before n a .invalidArgument

/-- A call of a built-in function that denotes nothing. -/
inductive Refused : RawFn → ParseErr → Prop
  | count {raw : RawFn} {n : Nat} : (raw.name, n) ∈ arities → raw.pos.length ≠ n → Refused raw .assertion
  | named {raw : RawFn} : raw.name ∈ builtinNames → raw.name ≠ str!"for" → raw.named ≠ [] → Refused raw .assertion
  | args {raw : RawFn} : (raw.name, raw.pos.length) ∈ arities → raw.name ≠ str!"for" → raw.named = [] →
      (∀ f, ¬ BuiltinCall f raw) → Refused raw .invalidArgument
  | forArgs {pos : List RawArg} {named : List (Str × RawArg)} : pos.length = 2 →
      (∀ f, ¬ BuiltinCall f ⟨str!"for", pos, []⟩) → Refused ⟨str!"for", pos, named⟩ .invalidArgument
  | forNamed {pos : List RawArg} {before after : List (Str × RawArg)} {n : Str} {a : RawArg} {e : ParseErr} {f : Fn} :
      BuiltinCall f ⟨str!"for", pos, before⟩ → BadNamed before n a e → Refused ⟨str!"for", pos, before ++ (n, a) :: after⟩ e

/-- A call that denotes nothing although there is a function of this name. -/
inductive RefusedCall (plugins : List PluginFns) : RawFn → ParseErr → Prop
  | builtin {raw : RawFn} {e : ParseErr} : Refused raw e → RefusedCall plugins raw e
  | plugin {raw : RawFn} {p : PluginFnParser} {e : ParseErr} : raw.name ∉ builtinNames →
      FirstPlugin plugins raw.name p → p.parse raw = .err e → RefusedCall plugins raw e

/-! ### Tags and files -/

/-- Faults of the tag after the opener and blanks. -/
inductive TagFault (U : Unicode) (plugins : List PluginFns) : Str → Str → ParseErr → Prop
  | nothing : TagFault U plugins [] [] .unexpectedEOF
  | noVar {r : Str} : Stop (VarChar U) r → TagFault U plugins ('$' :: r) ['$'] (.invalidVariableName str!"<empty>")
  | noName {r : Str} : r ≠ [] → r.head? ≠ some '$' → Stop (FnChar U) r →
      TagFault U plugins r [] (.invalidFunctionName str!"<empty>")
  | noParen {name gap r part : Str} {e : ParseErr} : name ≠ [] → (∀ c ∈ name, FnChar U c) → Blank gap →
      Stop (FnChar U) (gap ++ r) → Stop (isWs · = true) r → Missing ['('] r part e →
      TagFault U plugins (name ++ gap ++ r) (name ++ gap ++ part) e
  | args {name gap r part : Str} {e : ParseErr} : name ≠ [] → (∀ c ∈ name, FnChar U c) → Blank gap →
      ArgsFault U false r part e → TagFault U plugins (name ++ gap ++ '(' :: r) (name ++ gap ++ '(' :: part) e
  | unknown {name gap args r : Str} {pos : List RawArg} {named : List (Str × RawArg)} :
      name ≠ [] → (∀ c ∈ name, FnChar U c) → Blank gap → Slots U args (argList pos named) →
      name ∉ builtinNames → (∀ p, ¬ FirstPlugin plugins name p) →
      TagFault U plugins (name ++ gap ++ '(' :: args ++ ')' :: r) [] (.nonexistentFunction name)
  | refused {name gap args w r : Str} {pos : List RawArg} {named : List (Str × RawArg)} {e : ParseErr} :
      name ≠ [] → (∀ c ∈ name, FnChar U c) → Blank gap → Slots U args (argList pos named) →
      RefusedCall plugins ⟨name, pos, named⟩ e → Blank w → Stop (isWs · = true) r →
      TagFault U plugins (name ++ gap ++ '(' :: args ++ ')' :: w ++ r) (name ++ gap ++ '(' :: args ++ ')' :: w) e
  | openVar {n w r part : Str} {e : ParseErr} : n ≠ [] → (∀ c ∈ n, VarChar U c) → Blank w → Stop (VarChar U) (w ++ r) →
      Stop (isWs · = true) r → Missing str!"}}" r part e → TagFault U plugins ('$' :: n ++ w ++ r) ('$' :: n ++ w ++ part) e
  | openCall {name gap args w r part : Str} {pos : List RawArg} {named : List (Str × RawArg)} {f : Fn} {e : ParseErr} :
      name ≠ [] → (∀ c ∈ name, FnChar U c) → Blank gap → Slots U args (argList pos named) →
      Denotes plugins ⟨name, pos, named⟩ f → Blank w → Stop (isWs · = true) r → Missing str!"}}" r part e →
      TagFault U plugins (name ++ gap ++ '(' :: args ++ ')' :: w ++ r) (name ++ gap ++ '(' :: args ++ ')' :: w ++ part) e

/-- `Fault U plugins input part kind`: after whole tags there is one with a fault, noticed when `part` is read. -/
def Fault (U : Unicode) (plugins : List PluginFns) (input part : Str) (e : ParseErr) : Prop :=
  ∃ pre txt ws r x, Tags U plugins pre ∧ OpensAfter txt ∧ Blank ws ∧ Stop (isWs · = true) r ∧ TagFault U plugins r x e ∧
    input = pre ++ txt ++ str!"{{" ++ ws ++ r ∧ part = pre ++ txt ++ str!"{{" ++ ws ++ x

end Stuart.Spec
