import Verif.Model.Parser
/-
Raw arguments, the built-in function parsers, and the template parser:
stuart-core/src/parse/{function,mod}.rs, functions/mod.rs, functions/parsers/*.rs (the parsing halves).
-/
namespace Stuart

/-- parse/function.rs:22-31 `RawArgument`. `int` holds an `i32`. -/
inductive RawArg where
  | var (s : Str)
  | str (s : Str)
  | ident (s : Str)
  | int (i : Int)
deriving DecidableEq, Repr

/-- parse/function.rs:11-18 `RawFunction` -/
structure RawFn where
  name : Str
  pos : List RawArg
  named : List (Str × RawArg)
deriving DecidableEq, Repr

/-- process/stack.rs:9-16 `StackFrame` -/
structure Frame where
  name : Str
  vars : List (Str × Value)
  out : Bytes

/-- error.rs:79-118 `ProcessError`. `invalidDataType` keeps only the variable name; `pluginErr` stands for
whatever error a plugin function returns. -/
inductive ProcErr where
  | missingHtmlRoot
  | missingMarkdownRoot
  | stackError
  | endWithoutBegin
  | elseWithoutIf
  | notJsonArray
  | invalidDate
  | unexpectedEndOfFile
  | variableAlreadyExists (s : Str)
  | undefinedVariable (s : Str)
  | undefinedSection (s : Str)
  | nullError (s : Str)
  | notFound (s : Str)
  | invalidDataType (s : Str)
  | pluginErr (s : Str)
deriving DecidableEq, Repr

/-- A function object supplied by a plugin (`Box<dyn Function>`, functions/mod.rs:77-83).
`name = none` models a `name()` method that panics (`JSFunction::name` is `todo!()`,
stuart/src/plugins/js/mod.rs:175-177). `exec` sees the variables of the call stack (innermost scope first) and
yields variables to add to the top frame and bytes to append to its output. Simplification: a native plugin gets
`&mut Scope` and could also read partial output, move the token iterator or edit other frames; the documentation
forbids editing sections, and the JavaScript plugins can only do what is modelled. -/
structure PluginFn where
  name : Option Str
  exec : List (List (Str × Value)) → Res ProcErr (List (Str × Value) × Bytes)

/-- A plugin's function parser (`Box<dyn FunctionParser>`, functions/mod.rs:56-71). -/
structure PluginFnParser where
  name : Str
  parse : RawFn → Res ParseErr PluginFn

/-- functions/parsers/for.rs:27-31 -/
inductive ForSource where
  | mdDir | jsonFile | jsonObj
deriving DecidableEq, Repr

/-- functions/parsers/for.rs:16-24 `ForFunction` (`desc` is `sort_order == Desc`). -/
structure ForFn where
  var : Str
  source : Str
  kind : ForSource
  skip : Option Nat
  limit : Option Nat
  sortVar : Option Str
  desc : Bool
deriving DecidableEq, Repr

/-- functions/mod.rs:87-94 `Input` -/
inductive Input where
  | var (s : Str)
  | str (s : Str)
  | int (i : Int)
deriving DecidableEq, Repr

/-- functions/mod.rs:31-38: the six comparison functions. -/
inductive CmpFn where
  | ifeq | ifne | ifgt | ifge | iflt | ifle
deriving DecidableEq, Repr

/-- `stringify!($name)`, functions/parsers/if.rs:16, 44, 61 -/
def CmpFn.name : CmpFn → Str
  | .ifeq => str!"ifeq"
  | .ifne => str!"ifne"
  | .ifgt => str!"ifgt"
  | .ifge => str!"ifge"
  | .iflt => str!"iflt"
  | .ifle => str!"ifle"

/-- The function objects (`Box<dyn Function>`) of functions/parsers/*.rs, and plugin functions. -/
inductive Fn where
  | begin_ (label : Str) (custom : Bool)
  | end_ (label : Str) (custom : Bool)
  | else_
  | excerpt (v : Str) (len : Nat)
  | for_ (f : ForFn)
  | ifdefined (v : Str)
  | import_ (v file : Str)
  | insert (label : Str)
  | timetoread (v : Str)
  | dateformat (v fmt : Str)
  | cmp (op : CmpFn) (a b : Input)
  | plugin (f : PluginFn)

/-- `Function::name` of each function object; `none` panics. -/
def Fn.name : Fn → Option Str
  | .begin_ _ _ => some str!"begin"
  | .end_ _ _ => some str!"end"
  | .else_ => some str!"else"
  | .excerpt _ _ => some str!"excerpt"
  | .for_ _ => some str!"for"
  | .ifdefined _ => some str!"ifdefined"
  | .import_ _ _ => some str!"import"
  | .insert _ => some str!"insert"
  | .timetoread _ => some str!"timetoread"
  | .dateformat _ _ => some str!"dateformat"
  | .cmp op _ _ => some op.name
  | .plugin f => f.name

/-- lib.rs:33-50: the names of `FUNCTION_PARSERS`, in order. -/
def builtinNames : List Str :=
  [str!"begin", str!"dateformat", str!"else", str!"end", str!"excerpt", str!"for", str!"ifdefined",
   str!"import", str!"insert", str!"timetoread", str!"ifeq", str!"ifne", str!"ifgt", str!"ifge",
   str!"iflt", str!"ifle"]

/-- functions/mod.rs:180-182 `is_ident` -/
def isIdent (s : Str) : Bool := builtinNames.any fun n => n == s

/-- `c.is_alphanumeric() || c == '_' || c == '.'`, parse/mod.rs:155, parse/function.rs:43 -/
def isVarChar (U : Unicode) (c : Char) : Bool := U.alnum c || c == '_' || c == '.'

/-- `c.is_alphanumeric() || c == '_' || c == ':'`, parse/mod.rs:170 -/
def isFnChar (U : Unicode) (c : Char) : Bool := U.alnum c || c == '_' || c == ':'

/-- `c.is_alphanumeric() || c == '_'`, parse/mod.rs:212 -/
def isNameChar (U : Unicode) (c : Char) : Bool := U.alnum c || c == '_'

/-- parse/function.rs:35-72 `RawArgument::parse` -/
def parseRawArg (U : Unicode) (arg : Str) : Res ParseErr RawArg :=
  if startsWith ['$'] arg then
    let v := arg.drop 1
    if v.all (isVarChar U) then .ok (.var v) else .err (.invalidVariableName v)
  else if startsWith ['"'] arg && endsWith ['"'] arg then
    match stripSuffix ['"'] (arg.drop 1) with
    | none => .panic .loneQuote
    | some s => if s.contains '"' then .err .genericSyntax else .ok (.str s)
  else match parseI32 arg with
    | some i => .ok (.int i)
    | none => if isIdent arg then .ok (.ident arg) else .err .genericSyntax

/-- `i32::try_into::<usize>()` mapped to `InvalidArgument`, e.g. excerpt.rs:31-32 -/
def toUsize (i : Int) : Res ParseErr Nat :=
  if 0 ≤ i then .ok i.toNat else .err .invalidArgument

/-- functions/mod.rs:167-176 `quiet_assert!` -/
def quietAssert (b : Bool) : Res ParseErr Unit := if b then .ok () else .err .assertion

/-- `as_variable().ok_or(InvalidArgument)` -/
def RawArg.needVar : RawArg → Res ParseErr Str
  | .var s => .ok s
  | _ => .err .invalidArgument

/-- `as_string().ok_or(InvalidArgument)` -/
def RawArg.needStr : RawArg → Res ParseErr Str
  | .str s => .ok s
  | _ => .err .invalidArgument

/-- `as_integer().ok_or(InvalidArgument)` followed by `try_into::<usize>` -/
def RawArg.needNat : RawArg → Res ParseErr Nat
  | .int i => toUsize i
  | _ => .err .invalidArgument

/-- begin.rs:26-36, end.rs:24-34: a label is a string (`custom`) or an identifier. -/
def RawArg.needLabel : RawArg → Res ParseErr (Str × Bool)
  | .str s => .ok (s, true)
  | .ident s => .ok (s, false)
  | _ => .err .invalidArgument

/-- if.rs:23-35: `Input` from a raw argument. -/
def RawArg.needInput : RawArg → Res ParseErr Input
  | .var s => .ok (.var s)
  | .str s => .ok (.str s)
  | .int i => .ok (.int i)
  | .ident _ => .err .invalidArgument

/-- The two assertions every function but `for` starts with: exactly `n` positional arguments and no named
ones (e.g. begin.rs:23-24). -/
def RawFn.shape (raw : RawFn) (n : Nat) : Res ParseErr Unit :=
  (quietAssert (raw.pos.length == n)).bind fun _ => quietAssert raw.named.isEmpty

/-- Indexing `raw.positional_args[i]` after the length check; the default is never used. -/
def RawFn.arg (raw : RawFn) (i : Nat) : RawArg := raw.pos.getD i (.int 0)

/-- The named-argument state of `for` (for.rs:69-72). -/
structure ForOpts where
  skip : Option Nat := none
  limit : Option Nat := none
  sortVar : Option Str := none
  desc : Bool := false
deriving DecidableEq, Repr

/-- for.rs:74-113: one named argument of `for`. -/
def forNamed (o : ForOpts) (name : Str) (arg : RawArg) : Res ParseErr ForOpts :=
  if name == str!"skip" then
    match arg with
    | .int i => (quietAssert o.skip.isNone).bind fun _ => (toUsize i).bind fun n => .ok { o with skip := some n }
    | _ => .err .assertion
  else if name == str!"limit" then
    match arg with
    | .int i => (quietAssert o.limit.isNone).bind fun _ => (toUsize i).bind fun n => .ok { o with limit := some n }
    | _ => .err .assertion
  else if name == str!"sortby" then
    match arg with
    | .var v => (quietAssert o.sortVar.isNone).bind fun _ => .ok { o with sortVar := some v }
    | _ => .err .assertion
  else if name == str!"order" then
    match arg with
    | .str s =>
      if s == str!"asc" then .ok { o with desc := false }
      else if s == str!"desc" then .ok { o with desc := true }
      else .err .invalidArgument
    | _ => .err .invalidArgument
  else .err .invalidArgument

/-- for.rs:74-113: all named arguments of `for`, left to right. -/
def forNamedAll : ForOpts → List (Str × RawArg) → Res ParseErr ForOpts
  | o, [] => .ok o
  | o, (n, a) :: rest => (forNamed o n a).bind fun o' => forNamedAll o' rest

/-- for.rs:51-67: the loop source and its kind. -/
def forSource : RawArg → Res ParseErr (Str × ForSource)
  | .str s =>
    if endsWith str!".json" s then .ok (s, .jsonFile)
    else if endsWith ['/'] s then .ok (s, .mdDir)
    else .err .invalidArgument
  | .var s => .ok (s, .jsonObj)
  | _ => .err .invalidArgument

/-- for.rs:44-124 `ForParser::parse` -/
def parseFor (raw : RawFn) : Res ParseErr Fn := do
  quietAssert (raw.pos.length == 2)
  let v ← (raw.arg 0).needVar
  let (source, kind) ← forSource (raw.arg 1)
  let o ← forNamedAll {} raw.named
  .ok (.for_ ⟨v, source, kind, o.skip, o.limit, o.sortVar, o.desc⟩)

/-- if.rs:19-38: note that the second input is examined first. -/
def parseCmp (op : CmpFn) (raw : RawFn) : Res ParseErr Fn := do
  raw.shape 2
  let b ← (raw.arg 1).needInput
  let a ← (raw.arg 0).needInput
  .ok (.cmp op a b)

/-- lib.rs:33-50 `FUNCTION_PARSERS`: names with the `parse` methods of
begin.rs:22-37, dateformat.rs:21-39, else.rs:17-22, end.rs:20-35, excerpt.rs:20-38, for.rs:44-124,
ifdefined.rs:22-33, import.rs:23-41, insert.rs:19-30, timetoread.rs:21-32, if.rs:19-38. -/
def builtinParsers : List (Str × (RawFn → Res ParseErr Fn)) :=
  [ (str!"begin", fun raw => do
      raw.shape 1; let l ← (raw.arg 0).needLabel; .ok (.begin_ l.1 l.2)),
    (str!"dateformat", fun raw => do
      raw.shape 2; let v ← (raw.arg 0).needVar; let f ← (raw.arg 1).needStr; .ok (.dateformat v f)),
    (str!"else", fun raw => do
      quietAssert raw.pos.isEmpty; quietAssert raw.named.isEmpty; .ok .else_),
    (str!"end", fun raw => do
      raw.shape 1; let l ← (raw.arg 0).needLabel; .ok (.end_ l.1 l.2)),
    (str!"excerpt", fun raw => do
      raw.shape 2; let v ← (raw.arg 0).needVar; let n ← (raw.arg 1).needNat; .ok (.excerpt v n)),
    (str!"for", parseFor),
    (str!"ifdefined", fun raw => do
      raw.shape 1; let v ← (raw.arg 0).needVar; .ok (.ifdefined v)),
    (str!"import", fun raw => do
      raw.shape 2; let v ← (raw.arg 0).needVar; let f ← (raw.arg 1).needStr; .ok (.import_ v f)),
    (str!"insert", fun raw => do
      raw.shape 1; let l ← (raw.arg 0).needStr; .ok (.insert l)),
    (str!"timetoread", fun raw => do
      raw.shape 1; let v ← (raw.arg 0).needVar; .ok (.timetoread v)),
    (str!"ifeq", parseCmp .ifeq),
    (str!"ifne", parseCmp .ifne),
    (str!"ifgt", parseCmp .ifgt),
    (str!"ifge", parseCmp .ifge),
    (str!"iflt", parseCmp .iflt),
    (str!"ifle", parseCmp .ifle) ]

/-- parse/mod.rs:38-45 `Token` -/
inductive Token where
  | raw (s : Str)
  | func (f : Fn)
  | var (s : Str)

/-- parse/mod.rs:25-34 `LocatableToken` -/
structure LTok where
  inner : Token
  path : Str
  line : Nat
  col : Nat

/-- parse/mod.rs:49-56 `LocatableToken::traceback` -/
def LTok.tb {κ : Type} (t : LTok) (e : κ) : TB κ := ⟨t.path, t.line, t.col, e⟩

/-- The template-function view of a plugin (plugins/mod.rs:25-36): its name and function parsers. -/
structure PluginFns where
  name : Str
  functions : List PluginFnParser

/-- parse/mod.rs:152-162 `parse_variable` -/
def parseVariable (U : Unicode) (path : Str) (p : PSt) : PRes Token :=
  (p.expect path ['$']).bind fun (_, p) =>
    let (name, p) := p.extractWhile (isVarChar U)
    if name.isEmpty then .err (p.tb path (.invalidVariableName str!"<empty>"))
    else .ok (.var name, p)

/-- parse/mod.rs:185-195: the scan predicate of one argument; the state is `open_quote`. -/
def argScan (openQ : Bool) (c : Char) : Bool × Bool :=
  let q := if c == '"' then !openQ else openQ
  (q, q || (c != ')' && c != ','))

/-- parse/mod.rs:197: does not start with a quote, and has an equals sign somewhere. -/
def looksNamed (arg : Str) : Bool :=
  (match arg with | c :: _ => c != '"' | [] => false) && arg.contains '='

/-- parse/mod.rs:197-229: classify one trimmed argument text and add it to the lists. -/
def addArg (U : Unicode) (arg : Str) (pos : List RawArg) (named : List (Str × RawArg)) :
    Res ParseErr (List RawArg × List (Str × RawArg)) :=
  if looksNamed arg then
    match splitFirst '=' arg with
    | (_, none) => .err .genericSyntax
    | (name, some value) =>
      if name.isEmpty || value.isEmpty || !name.all (isNameChar U) then .err .genericSyntax
      else (parseRawArg U value).bind fun a => .ok (pos, named ++ [(name, a)])
  else if !arg.isEmpty then
    if !named.isEmpty then .err .positionalAfterNamed
    else (parseRawArg U arg).bind fun a => .ok (pos ++ [a], named)
  else .ok (pos, named)

/-- parse/mod.rs:182-236: the argument loop. Fuelled by the number of remaining characters. -/
def parseArgs (U : Unicode) (path : Str) :
    Nat → List RawArg → List (Str × RawArg) → PSt → PRes (List RawArg × List (Str × RawArg))
  | 0, _, _, _ => .panic .fuel
  | n + 1, pos, named, p =>
    let p := p.ignoreWhile isWs
    let (txt, p) := p.extractWhileS argScan false
    ((addArg U (trim txt) pos named).mapErr (p.tb path)).bind fun (pos, named) =>
      match p.next with
      | none => .err (p.tb path .unexpectedEOF)
      | some (c, p) =>
        if c = ')' then .ok ((pos, named), p)
        else if c = ',' then parseArgs U path n pos named p
        else .panic .unreachableChar

/-- parse/mod.rs:246-254: the first built-in parser with the function's name. -/
def findBuiltin (name : Str) : Option (RawFn → Res ParseErr Fn) :=
  (builtinParsers.find? fun e => e.1 == name).map fun e => e.2

/-- parse/mod.rs:258-260: does a plugin's function answer to this name? -/
def pluginMatches (name : Str) (pl : PluginFns) (f : PluginFnParser) : Bool :=
  name == f.name || name == pl.name ++ str!"::" ++ f.name

/-- parse/mod.rs:256-270: the first plugin function (in plugin order) that answers to the name. -/
def findPlugin (name : Str) (plugins : List PluginFns) : Option PluginFnParser :=
  plugins.findSome? fun pl => pl.functions.find? (pluginMatches name pl)

/-- parse/mod.rs:240-277: turn a raw function into a function object; `none` when no parser answers. -/
def resolveFn (plugins : List PluginFns) (raw : RawFn) : Option (Res ParseErr Fn) :=
  match findBuiltin raw.name with
  | some f => some (f raw)
  | none => match findPlugin raw.name plugins with
    | some f => some ((f.parse raw).bind fun g => .ok (.plugin g))
    | none => none

/-- parse/mod.rs:165-278 `parse_function`. `plugins = []` also covers `None`. -/
def parseFunction (U : Unicode) (path : Str) (plugins : List PluginFns) (p : PSt) : PRes Token :=
  let start := p
  let (name, p) := p.extractWhile (isFnChar U)
  if name.isEmpty then .err (p.tb path (.invalidFunctionName str!"<empty>"))
  else
    let p := p.ignoreWhile isWs
    (p.expect path ['(']).bind fun (_, p) =>
      (parseArgs U path (p.rest.length + 1) [] [] p).bind fun ((pos, named), p) =>
        let p := p.ignoreWhile isWs
        match resolveFn plugins ⟨name, pos, named⟩ with
        | some r => (r.mapErr (p.tb path)).bind fun f => .ok (.func f, p)
        | none => .err (start.tb path (.nonexistentFunction name))

/-- parse/mod.rs:119-123: the token after `{{`. -/
def parseTag (U : Unicode) (path : Str) (plugins : List PluginFns) (p : PSt) : PRes Token :=
  match p.peek with
  | some '$' => parseVariable U path p
  | some _ => parseFunction U path plugins p
  | none => .err (p.tb path .unexpectedEOF)

/-- parse/mod.rs:106-113, 139-146: a raw token is pushed only if it is not empty. -/
def rawTok (path raw : Str) (line col : Nat) : List LTok :=
  if raw.isEmpty then [] else [⟨.raw raw, path, line, col⟩]

/-- parse/mod.rs:105-148: the loop of `parse_html`, with the tokens collected so far and the location of the
next raw token. Fuelled by the number of remaining characters. -/
def parseHtmlGo (U : Unicode) (path : Str) (plugins : List PluginFns) :
    Nat → List LTok → Nat → Nat → PSt → Res (TB ParseErr) (List LTok)
  | 0, _, _, _, _ => .panic .fuel
  | n + 1, toks, line, col, p =>
    match p.extractUntil str!"{{" true with
    | (none, p) =>
      let (r, _) := p.extractRemaining true
      .ok (toks ++ rawTok path r line col)
    | (some raw, p) =>
      let toks := toks ++ rawTok path raw line col
      let p := p.ignoreWhile isWs
      let tl := p.loc
      (parseTag U path plugins p).bind fun (tok, p) =>
        let toks := toks ++ [⟨tok, path, tl.line, tl.col⟩]
        let p := p.ignoreWhile isWs
        (p.expect path str!"}}").bind fun (_, p) =>
          parseHtmlGo U path plugins n toks p.loc.line p.loc.col p

/-- parse/mod.rs:94-149 `parse_html` -/
def parseHtml (U : Unicode) (path : Str) (plugins : List PluginFns) (input : Str) :
    Res (TB ParseErr) (List LTok) :=
  parseHtmlGo U path plugins (input.length + 1) [] 1 1 (PSt.init input)

end Stuart
