import Verif.Model.Function
/-
What template source is, written down from the side of the author: text with escaped openers, tags, and
how they are laid out as characters. Nothing here refers to the parser.
-/
namespace Stuart.Spec

/-- The text contains no tag opener. -/
def NoOpen (t : Str) : Prop := ¬ str!"{{" <:+: t

/-- Text as an author writes it: pieces with an escaped opener `\{{` between neighbours. -/
structure Text where
  first : Str
  more : List Str

/-- The characters in the file. -/
def Text.src (t : Text) : Str := t.first ++ t.more.flatMap fun p => str!"\\{{" ++ p

/-- The characters that are meant. -/
def Text.val (t : Text) : Str := t.first ++ t.more.flatMap fun p => str!"{{" ++ p

/-- Pieces hold no opener themselves, and no piece begins with a third brace. -/
structure Text.WF (t : Text) : Prop where
  first : NoOpen t.first
  more : ∀ p ∈ t.more, NoOpen p ∧ ¬ ['{'] <+: p

/-- Text without escapes. -/
def Text.plain (s : Str) : Text := ⟨s, []⟩

/-- All whitespace. -/
def Blank (w : Str) : Prop := ∀ c ∈ w, isWs c = true

/-- An argument value as written. -/
def argSrc : RawArg → Str
  | .var s => '$' :: s
  | .str s => '"' :: (s ++ ['"'])
  | .ident s => s
  | .int i => intToStr i

/-- Which argument values can be written. -/
def ArgWF (U : Unicode) : RawArg → Prop
  | .var s => ∀ c ∈ s, U.alnum c = true ∨ c = '_' ∨ c = '.'
  | .str s => '"' ∉ s
  | .ident s => s ∈ builtinNames
  | .int i => -2147483648 ≤ i ∧ i ≤ 2147483647

/-- One argument with the whitespace around it; `key` for named arguments. -/
structure ArgL where
  before : Str
  key : Option Str
  val : RawArg
  after : Str

/-- The argument without the whitespace around it. -/
def ArgL.core (a : ArgL) : Str :=
  match a.key with
  | none => argSrc a.val
  | some k => k ++ '=' :: argSrc a.val

def ArgL.src (a : ArgL) : Str := a.before ++ a.core ++ a.after

structure ArgL.WF (U : Unicode) (a : ArgL) : Prop where
  before : Blank a.before
  after : Blank a.after
  val : ArgWF U a.val
  key : ∀ k, a.key = some k → k ≠ [] ∧ ∀ c ∈ k, U.alnum c = true ∨ c = '_'

/-- Arguments separated by commas. -/
def argsSrc : List ArgL → Str
  | [] => []
  | [a] => a.src
  | a :: as => a.src ++ ',' :: argsSrc as

/-- A call as laid out in the file. `blank` is the whitespace between the parentheses of a call without
arguments. -/
structure Call where
  name : Str
  gap : Str
  args : List ArgL
  blank : Str

def Call.src (c : Call) : Str :=
  c.name ++ c.gap ++ '(' :: ((if c.args = [] then c.blank else argsSrc c.args) ++ [')'])

/-- The call with its layout forgotten: the positional and the named arguments, each in order. -/
def Call.raw (c : Call) : RawFn :=
  { name := c.name
    pos := c.args.filterMap fun a => match a.key with | none => some a.val | some _ => none
    named := c.args.filterMap fun a => match a.key with | none => none | some k => some (k, a.val) }

/-- No positional argument after a named one. -/
def PosFirst : List ArgL → Prop
  | [] => True
  | a :: as => (a.key ≠ none → ∀ b ∈ as, b.key ≠ none) ∧ PosFirst as

structure Call.WF (U : Unicode) (c : Call) : Prop where
  name : c.name ≠ [] ∧ ∀ ch ∈ c.name, U.alnum ch = true ∨ ch = '_' ∨ ch = ':'
  gap : Blank c.gap
  blank : Blank c.blank
  args : ∀ a ∈ c.args, a.WF U
  order : PosFirst c.args

/-- An input of a comparison, as an argument. -/
def inp : Input → RawArg
  | .var s => .var s
  | .str s => .str s
  | .int i => .int i

/-- Named arguments of a loop, with what they set: how many elements to skip, how many to keep, the key to sort
by and whether in descending order. The first three may be given once each, in any order; `order` may be
repeated and the last one counts. -/
inductive ForNamed : List (Str × RawArg) → Option Nat → Option Nat → Option Str → Bool → Prop
  | nil : ForNamed [] none none none false
  | skip {l : List (Str × RawArg)} {b : Option Nat} {k : Option Str} {d : Bool} (n : Nat) :
      ForNamed l none b k d → ForNamed (l ++ [(str!"skip", .int n)]) (some n) b k d
  | limit {l : List (Str × RawArg)} {a : Option Nat} {k : Option Str} {d : Bool} (n : Nat) :
      ForNamed l a none k d → ForNamed (l ++ [(str!"limit", .int n)]) a (some n) k d
  | sortby {l : List (Str × RawArg)} {a b : Option Nat} {d : Bool} (v : Str) :
      ForNamed l a b none d → ForNamed (l ++ [(str!"sortby", .var v)]) a b (some v) d
  | asc {l : List (Str × RawArg)} {a b : Option Nat} {k : Option Str} {d : Bool} :
      ForNamed l a b k d → ForNamed (l ++ [(str!"order", .str str!"asc")]) a b k false
  | desc {l : List (Str × RawArg)} {a b : Option Nat} {k : Option Str} {d : Bool} :
      ForNamed l a b k d → ForNamed (l ++ [(str!"order", .str str!"desc")]) a b k true

/-- The call that denotes each built-in function object. Plugin functions are not built in. -/
inductive BuiltinCall : Fn → RawFn → Prop
  | beginS (l : Str) : BuiltinCall (.begin_ l true) ⟨str!"begin", [.str l], []⟩
  | beginI (l : Str) : BuiltinCall (.begin_ l false) ⟨str!"begin", [.ident l], []⟩
  | endS (l : Str) : BuiltinCall (.end_ l true) ⟨str!"end", [.str l], []⟩
  | endI (l : Str) : BuiltinCall (.end_ l false) ⟨str!"end", [.ident l], []⟩
  | else_ : BuiltinCall .else_ ⟨str!"else", [], []⟩
  | excerpt (v : Str) (n : Nat) : BuiltinCall (.excerpt v n) ⟨str!"excerpt", [.var v, .int n], []⟩
  | ifdefined (v : Str) : BuiltinCall (.ifdefined v) ⟨str!"ifdefined", [.var v], []⟩
  | import_ (v f : Str) : BuiltinCall (.import_ v f) ⟨str!"import", [.var v, .str f], []⟩
  | insert (l : Str) : BuiltinCall (.insert l) ⟨str!"insert", [.str l], []⟩
  | timetoread (v : Str) : BuiltinCall (.timetoread v) ⟨str!"timetoread", [.var v], []⟩
  | dateformat (v f : Str) : BuiltinCall (.dateformat v f) ⟨str!"dateformat", [.var v, .str f], []⟩
  | cmp (op : CmpFn) (a b : Input) : BuiltinCall (.cmp op a b) ⟨op.name, [inp a, inp b], []⟩
  | forVar (v s : Str) {named : List (Str × RawArg)} {skip limit : Option Nat} {key : Option Str} {desc : Bool} :
      ForNamed named skip limit key desc →
      BuiltinCall (.for_ ⟨v, s, .jsonObj, skip, limit, key, desc⟩) ⟨str!"for", [.var v, .var s], named⟩
  | forJson (v s : Str) {named : List (Str × RawArg)} {skip limit : Option Nat} {key : Option Str} {desc : Bool} :
      ForNamed named skip limit key desc →
      BuiltinCall (.for_ ⟨v, s ++ str!".json", .jsonFile, skip, limit, key, desc⟩)
        ⟨str!"for", [.var v, .str (s ++ str!".json")], named⟩
  | forDir (v s : Str) {named : List (Str × RawArg)} {skip limit : Option Nat} {key : Option Str} {desc : Bool} :
      ForNamed named skip limit key desc →
      BuiltinCall (.for_ ⟨v, s ++ str!"/", .mdDir, skip, limit, key, desc⟩)
        ⟨str!"for", [.var v, .str (s ++ str!"/")], named⟩

/-- The plugin function a name denotes: the first one, in plugin order and then function order, whose bare or
qualified name it is. -/
def FirstPlugin (plugins : List PluginFns) (name : Str) (f : PluginFnParser) : Prop :=
  ∃ pre pl post fpre fpost, plugins = pre ++ pl :: post ∧ pl.functions = fpre ++ f :: fpost ∧
    (name = f.name ∨ name = pl.name ++ str!"::" ++ f.name) ∧
    (∀ p ∈ pre, ∀ g ∈ p.functions, name ≠ g.name ∧ name ≠ p.name ++ str!"::" ++ g.name) ∧
    (∀ g ∈ fpre, name ≠ g.name ∧ name ≠ pl.name ++ str!"::" ++ g.name)

/-- The function object a call denotes. -/
inductive Denotes (plugins : List PluginFns) : RawFn → Fn → Prop
  | builtin {f : Fn} {raw : RawFn} : BuiltinCall f raw → Denotes plugins raw f
  | plugin {raw : RawFn} {p : PluginFnParser} {g : PluginFn} : raw.name ∉ builtinNames →
      FirstPlugin plugins raw.name p → p.parse raw = .ok g → Denotes plugins raw (.plugin g)

/-- A tag: a variable, or a call together with the function it denotes. -/
inductive TagBody where
  | var (name : Str)
  | call (c : Call) (f : Fn)

def TagBody.src : TagBody → Str
  | .var n => '$' :: n
  | .call c _ => c.src

def TagBody.tok : TagBody → Token
  | .var n => .var n
  | .call _ f => .func f

def TagBody.WF (U : Unicode) (plugins : List PluginFns) : TagBody → Prop
  | .var n => n ≠ [] ∧ ∀ c ∈ n, U.alnum c = true ∨ c = '_' ∨ c = '.'
  | .call c f => c.WF U ∧ Denotes plugins c.raw f

/-- A tag with its whitespace. -/
structure Tag where
  before : Str
  body : TagBody
  after : Str

def Tag.src (t : Tag) : Str := str!"{{" ++ t.before ++ t.body.src ++ t.after ++ str!"}}"

structure Tag.WF (U : Unicode) (plugins : List PluginFns) (t : Tag) : Prop where
  before : Blank t.before
  after : Blank t.after
  body : t.body.WF U plugins

/-- A template: text and tags in alternation, ending with text. -/
structure Template where
  items : List (Text × Tag)
  last : Text

def Template.src (t : Template) : Str :=
  (t.items.flatMap fun i => i.1.src ++ i.2.src) ++ t.last.src

/-- A text contributes a token unless it is empty. -/
def textTok (s : Str) : List Token := if s = [] then [] else [.raw s]

def Template.toks (t : Template) : List Token :=
  (t.items.flatMap fun i => textTok i.1.val ++ [i.2.body.tok]) ++ textTok t.last.val

/-- Text in front of a tag must not end in a brace or a backslash. -/
def Glue (t : Text) : Prop := ¬ ['{'] <:+ t.val ∧ ¬ ['\\'] <:+ t.val

structure Template.WF (U : Unicode) (plugins : List PluginFns) (t : Template) : Prop where
  items : ∀ i ∈ t.items, i.1.WF ∧ Glue i.1 ∧ i.2.WF U plugins
  last : t.last.WF

/-- A file that consists of text and then one call. -/
def callFile (t : Text) (w : Str) (c : Call) (w' : Str) : Str :=
  t.src ++ str!"{{" ++ w ++ (c.src ++ (w' ++ str!"}}"))

end Stuart.Spec
