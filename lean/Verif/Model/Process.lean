import Verif.Model.Node
/-
The template interpreter: stuart-core/src/process/{mod,stack,iter}.rs and the `execute` methods of
functions/parsers/*.rs.
-/
namespace Stuart

/-- What the interpreter reads but never changes: the input tree of `Stuart` (lib.rs:57) and the external date
library (dateformat.rs:66-73; `none` stands for a parse failure or a caught panic). The `date` feature is taken
to be enabled, as it is by default. -/
structure Ctx where
  input : Node
  dateFmt : Str → Str → Option Str

/-- The mutable part of process/mod.rs:20-41 `Scope` apart from the tokens. The stack is listed top first
(the Rust vector has the top last). -/
structure St where
  stack : List Frame
  sections : List (Str × Bytes)

/-- A located processing error. -/
abbrev PErr := TB ProcErr

/-- What a token's processing yields: the tokens still to be read, and the new state. The token iterator
(process/iter.rs) is represented by the list of tokens not read yet; a waypoint (iter.rs:24-31) is such a list. -/
abbrev R := Res PErr (List LTok × St)

namespace Frame

/-- process/stack.rs:20-26 `StackFrame::new` -/
def new (name : Str) : Frame := ⟨name, [], []⟩

/-- process/stack.rs:29-31 `add_variable` -/
def addVar (f : Frame) (n : Str) (v : Value) : Frame := { f with vars := f.vars ++ [(n, v)] }

/-- process/stack.rs:40-45 `get_variable` -/
def getVar (f : Frame) (n : Str) : Option Value := (f.vars.find? fun e => e.1 == n).map fun e => e.2

/-- `frame.output.extend_from_slice` -/
def emit (f : Frame) (b : Bytes) : Frame := { f with out := f.out ++ b }

end Frame

/-- process/mod.rs:364-372 `Scope::output`; `none` when the stack is empty. -/
def St.output (st : St) (b : Bytes) : Option St :=
  match st.stack with
  | [] => none
  | f :: fs => some { st with stack := f.emit b :: fs }

/-- `variable.split('.')`: the first piece and the others (process/mod.rs:344-346). -/
def splitVar (v : Str) : Str × List Str :=
  match splitOn '.' v with
  | [] => ([], [])
  | n :: is => (n, is)

/-- process/mod.rs:350-358, also for.rs:191-199: innermost frame defining the name, then the path. -/
def lookupFrames (name : Str) (idx : List Str) : List Frame → Option Value
  | [] => none
  | f :: fs =>
    match f.getVar name with
    | some v => some (getValue idx v)
    | none => lookupFrames name idx fs

/-- process/mod.rs:343-361 `Scope::get_variable` -/
def lookupVar (v : Str) (stack : List Frame) : Option Value :=
  let (n, is) := splitVar v
  lookupFrames n is stack

/-- process/mod.rs:293-320: the search of a `{{ $variable }}` token. Unlike `get_variable`, a frame whose value is
not a string ends the search with an error. -/
def varSearch (v name : Str) (idx : List Str) : List Frame → Res ProcErr (Option Str)
  | [] => .ok none
  | f :: fs =>
    match f.getVar name with
    | some x =>
      match getValue idx x with
      | .str s => .ok (some s)
      | .null => .err (.nullError v)
      | _ => .err (.invalidDataType v)
    | none => varSearch v name idx fs

/-- process/mod.rs:286-334: a variable token. -/
def execVar (v : Str) (st : St) : Res ProcErr St :=
  let (n, is) := splitVar v
  (varSearch v n is st.stack).bind fun
    | some s => Res.unwrap .emptyStack (st.output (bytesOf s))
    | none => .err (.undefinedVariable v)

/-- excerpt.rs:61-80: characters taken and characters consumed. `k` is `excerpt.len()`, in bytes. -/
def excerptGo (len : Nat) : Bool → Nat → Str → Str × Nat
  | _, _, [] => ([], 0)
  | tag, k, c :: cs =>
    if k < len then
      if c = '<' then
        let r := excerptGo len true k cs; (r.1, r.2 + 1)
      else if c = '>' then
        let r := excerptGo len false k cs; (r.1, r.2 + 1)
      else if tag then
        let r := excerptGo len tag k cs; (r.1, r.2 + 1)
      else
        let r := excerptGo len tag (k + (bytesOf [c]).length) cs; (c :: r.1, r.2 + 1)
    else ([], 0)

/-- excerpt.rs:61-84: the text `excerpt` outputs. -/
def excerptOf (len : Nat) (s : Str) : Str :=
  let r := excerptGo len false 0 s
  if r.2 < (bytesOf s).length then r.1 ++ str!"..." else r.1

/-- timetoread.rs:55-56 -/
def minutesOf (s : Str) : Nat := max (wordCount s / 200) 1

/-- excerpt.rs:49-59, timetoread.rs:43-53, dateformat.rs:54-64: a variable that must hold a string. -/
def needString (v : Str) (st : St) : Res ProcErr Str :=
  match lookupVar v st.stack with
  | none => .err (.undefinedVariable v)
  | some x => match x.asStr with
    | none => .err (.invalidDataType v)
    | some s => .ok s

/-- `scope.output(..)` with its error -/
def outputOrErr (b : Bytes) (st : St) : Res ProcErr St := Res.ofOption .stackError (st.output b)

/-- import.rs:49-90 -/
def execImport (cx : Ctx) (v file : Str) (st : St) : Res ProcErr St :=
  match cx.input.getAtPath file with
  | none => .err (.notFound file)
  | some n =>
    if n.isDir then .err (.notFound file)
    else match n.parsed with
      | .json j =>
        match st.stack with
        | [] => .err .stackError
        | f :: fs =>
          if (f.getVar v).isSome then .err (.variableAlreadyExists v)
          else .ok { st with stack := f.addVar v j :: fs }
      | _ => .err (.invalidDataType str!"<file>")

/-- insert.rs:38-57 -/
def execInsert (label : Str) (st : St) : Res ProcErr St :=
  match st.stack with
  | [] => .err .stackError
  | f :: fs =>
    match st.sections.find? fun e => e.1 == label with
    | none => .err (.undefinedSection label)
    | some e => .ok { st with stack := f.emit e.2 :: fs }

/-- A plugin function (stuart/src/plugins/js/mod.rs:179-221; see `PluginFn`). Whatever panic happens inside is
reported as `plugin`. -/
def execPlugin (f : PluginFn) (st : St) : Res ProcErr St :=
  match f.exec (st.stack.map (·.vars)) with
  | .panic _ => .panic .plugin
  | .err e => .err e
  | .ok (vs, b) =>
    match st.stack with
    | [] => .err .stackError
    | g :: gs => .ok { st with stack := { g with vars := g.vars ++ vs, out := g.out ++ b } :: gs }

/-- end.rs:43-80 -/
def execEnd (label : Str) (custom : Bool) (st : St) : Res ProcErr St :=
  match st.stack with
  | [] => .err .endWithoutBegin
  | f :: fs =>
    if custom then
      if f.name == str!"begin:" ++ label then
        (outputOrErr f.out { st with stack := fs }).bind fun st' =>
          .ok { st' with sections := st'.sections ++ [(label, f.out)] }
      else .err .endWithoutBegin
    else
      if startsWith (label ++ [':']) f.name then outputOrErr f.out { st with stack := fs }
      else .err .endWithoutBegin

/-- else.rs:30-44 -/
def execElse (st : St) : Res ProcErr St :=
  match st.stack with
  | [] => .err .elseWithoutIf
  | f :: _ => if startsWith str!"if" f.name then .ok st else .err .elseWithoutIf

/-- begin.rs:45-51 -/
def execBegin (label : Str) (st : St) : St :=
  { st with stack := Frame.new (str!"begin:" ++ label) :: st.stack }

/-- functions/mod.rs:134-142 `Input::to_string` -/
def Input.toStr : Input → Str
  | .var s => s
  | .str s => s
  | .int i => intToStr i

/-- functions/mod.rs:100-109 `Input::evaluate_variable` -/
def Input.eval (st : St) : Input → Option Input
  | .var v => match lookupVar v st.stack with
    | some (.str s) => some (.str s)
    | some (.num n) => some (.int n.toI32)
    | _ => none
  | x => some x

/-- functions/mod.rs:112-121 `PartialEq for Input` -/
def Input.eqv : Input → Input → Bool
  | .var a, .var b => a == b
  | .str a, .str b => a == b
  | .int a, .int b => a == b
  | _, _ => false

/-- functions/mod.rs:123-132 `PartialOrd for Input` -/
def Input.cmp : Input → Input → Option Ordering
  | .int a, .int b => some (compare a b)
  | _, _ => none

/-- functions/mod.rs:31-38 and if.rs:57: `input_1 $cond input_2`. Note `ifle, IfLe, <`. -/
def CmpFn.holds : CmpFn → Input → Input → Bool
  | .ifeq, a, b => a.eqv b
  | .ifne, a, b => !a.eqv b
  | .ifgt, a, b => a.cmp b == some .gt
  | .ifge, a, b => a.cmp b == some .gt || a.cmp b == some .eq
  | .iflt, a, b => a.cmp b == some .lt
  | .ifle, a, b => a.cmp b == some .lt

/-- Byte-wise lexicographic `<=`: the order of Rust strings. -/
def bytesLe : Bytes → Bytes → Bool
  | [], _ => true
  | _ :: _, [] => false
  | a :: as, b :: bs => if a < b then true else if b < a then false else bytesLe as bs

/-- for.rs:208-215: the sort key of an item; only the path after the first dot of `sortby` matters. -/
def sortKey (key : Str) (v : Value) : Str := ((getValue ((splitOn '.' key).drop 1) v).asStr).getD []

/-- Put a value behind those of a sorted list that are not greater. -/
def insertLast (le : Value → Value → Bool) (v : Value) : List Value → List Value
  | [] => [v]
  | w :: ws => if le w v then w :: insertLast le v ws else v :: w :: ws

/-- A stable sort: each value in turn is put behind those that are not greater. -/
def stableSort (le : Value → Value → Bool) (l : List Value) : List Value := l.foldl (fun acc v => insertLast le v acc) []

/-- for.rs:207-216: `sort_by_cached_key`, a stable sort. Simplification: which algorithm the standard library uses does not
show. -/
def sortItems (key : Option Str) (l : List Value) : List Value :=
  match key with
  | none => l
  | some k => stableSort (fun a b => bytesLe (bytesOf (sortKey k a)) (bytesOf (sortKey k b))) l

/-- for.rs:207-229: sort, reverse, skip, limit. -/
def arrange (f : ForFn) (l : List Value) : List Value :=
  let l := sortItems f.sortVar l
  let l := if f.desc then l.reverse else l
  let l := match f.skip with | some s => l.drop s | none => l
  match f.limit with | some n => l.take n | none => l

/-- for.rs:152-160: the markdown children, each converted with `to_value`. -/
def mdValues : List Node → Res ProcErr (List Value)
  | [] => .ok []
  | n :: ns =>
    match n.parsed with
    | .markdown md => md.toValue.bind fun v => (mdValues ns).bind fun vs => .ok (v :: vs)
    | _ => mdValues ns

/-- for.rs:136-205: the items before arranging. -/
def forItems (cx : Ctx) (f : ForFn) (stack : List Frame) : Res ProcErr (List Value) :=
  match f.kind with
  | .mdDir =>
    match cx.input.getAtPath f.source with
    | none => .err (.notFound f.source)
    | some n => match n.children with
      | none => .err (.notFound f.source)
      | some cs => mdValues cs
  | .jsonFile =>
    match cx.input.getAtPath f.source with
    | none => .err (.notFound f.source)
    | some n =>
      if n.isDir then .err (.notFound f.source)
      else match n.parsed with
        | .json v => Res.ofOption .notJsonArray v.asArray
        | _ => .err .notJsonArray
  | .jsonObj =>
    Res.ofOption .notJsonArray ((lookupVar f.source stack).bind Value.asArray)

/-- The functions other than `for`, `if…` and `ifdefined`: they read no further tokens. -/
def execSimple (cx : Ctx) (f : Fn) (st : St) : Res ProcErr St :=
  match f with
  | .begin_ l _ => .ok (execBegin l st)
  | .end_ l c => execEnd l c st
  | .else_ => execElse st
  | .excerpt v n => (needString v st).bind fun s => outputOrErr (bytesOf (excerptOf n s)) st
  | .import_ v file => execImport cx v file st
  | .insert l => execInsert l st
  | .timetoread v => (needString v st).bind fun s => outputOrErr (bytesOf (natToStr (minutesOf s))) st
  | .dateformat v fmt => (needString v st).bind fun s =>
      (Res.ofOption .invalidDate (cx.dateFmt s fmt)).bind fun d => outputOrErr (bytesOf d) st
  | .plugin p => execPlugin p st
  | .for_ _ => .ok st
  | .ifdefined _ => .ok st
  | .cmp _ _ _ => .ok st

/-- for.rs:243-249: read and process tokens until the stack is back at height `h`. The processing of one token is
the argument `ex`; `fuel` bounds the number of tokens read (never exhausted, see `C13`). -/
def bodyLoop (ex : LTok → List LTok → St → R) (eof : PErr) (h : Nat) : Nat → List LTok → St → R
  | fuel, rest, st =>
    if st.stack.length ≤ h then .ok (rest, st)
    else match rest with
      | [] => .err eof
      | t :: ts => match fuel with
        | 0 => .panic .fuel
        | k + 1 => (ex t ts st).bind fun (rest', st') => bodyLoop ex eof h k rest' st'

/-- if.rs:75, ifdefined.rs:60: the name of a function token; evaluating it may panic. -/
def tokName (t : LTok) : Res PErr (Option Str) :=
  match t.inner with
  | .func f => match f.name with
    | some n => .ok (some n)
    | none => .panic .jsName
  | _ => .ok none

/-- if.rs:69-88, ifdefined.rs:54-73 -/
def ifLoop (ex : LTok → List LTok → St → R) (eof : PErr) (h : Nat) : Nat → Bool → List LTok → St → R
  | fuel, cond, rest, st =>
    if st.stack.length ≤ h then .ok (rest, st)
    else match rest with
      | [] => .err eof
      | t :: ts => match fuel with
        | 0 => .panic .fuel
        | k + 1 => (tokName t).bind fun name =>
          let isElse := name == some str!"else"
          if cond || ((name == some str!"end" || isElse) && st.stack.length == h + 1) then
            (ex t ts st).bind fun (rest', st') =>
              ifLoop ex eof h k (if isElse then !cond else cond) rest' st'
          else ifLoop ex eof h k cond ts st

/-- for.rs:231-250: one pass over the body per item, each from the waypoint `wp`. With no items the reading position
is left where it is: just after the `for` token. -/
def forIter (ex : LTok → List LTok → St → R) (eof : PErr) (var : Str) (wp : List LTok) :
    List Value → List LTok → St → R
  | [], rest, st => .ok (rest, st)
  | v :: vs, _, st =>
    (bodyLoop ex eof st.stack.length (wp.length + 1) wp
      { st with stack := ((Frame.new (str!"for:" ++ var)).addVar var v) :: st.stack }).bind fun (rest', st') =>
      forIter ex eof var wp vs rest' st'

/-- Open a conditional: if.rs:59-91, ifdefined.rs:49-75. -/
def enterIf (ex : LTok → List LTok → St → R) (eof : PErr) (name : Str) (cond : Bool) (rest : List LTok) (st : St) : R :=
  ifLoop ex eof st.stack.length (rest.length + 1) cond rest { st with stack := Frame.new name :: st.stack }

/-- if.rs:59-64: the frame name of a comparison. -/
def cmpFrameName (op : CmpFn) (a b : Input) : Str :=
  op.name ++ [':'] ++ a.toStr ++ [':'] ++ b.toStr

/-- process/mod.rs:275-338 `LocatableToken::process`, with `rest` the tokens after `t`. The number bounds the nesting
of calls; `rest.length + 1` is always enough (see `C13`). -/
def execTok (cx : Ctx) : Nat → LTok → List LTok → St → R
  | 0, _, _, _ => .panic .fuel
  | n + 1, t, rest, st =>
    match t.inner with
    | .raw s => (Res.unwrap .emptyStack (st.output (bytesOf s))).bind fun st' => .ok (rest, st')
    | .var v => ((execVar v st).mapErr t.tb).bind fun st' => .ok (rest, st')
    | .func (.for_ f) =>
      ((forItems cx f st.stack).mapErr t.tb).bind fun items =>
        forIter (execTok cx n) (t.tb .unexpectedEndOfFile) f.var rest (arrange f items) rest st
    | .func (.ifdefined v) =>
      let defined := match lookupVar v st.stack with
        | some .null => false
        | some _ => true
        | none => false
      enterIf (execTok cx n) (t.tb .unexpectedEndOfFile) (str!"ifdefined:" ++ v) defined rest st
    | .func (.cmp op a b) =>
      (Res.ofOption (t.tb (.undefinedVariable a.toStr)) (a.eval st)).bind fun x =>
      (Res.ofOption (t.tb (.undefinedVariable b.toStr)) (b.eval st)).bind fun y =>
        enterIf (execTok cx n) (t.tb .unexpectedEndOfFile) (cmpFrameName op a b) (op.holds x y) rest st
    | .func f => ((execSimple cx f st).mapErr t.tb).bind fun st' => .ok (rest, st')

/-- process/mod.rs:111-113 (and 134, 182, 205, 241): process every token. -/
def runGo (cx : Ctx) : Nat → List LTok → St → Res PErr St
  | _, [], st => .ok st
  | 0, _ :: _, _ => .panic .fuel
  | k + 1, t :: ts, st =>
    (execTok cx (ts.length + 1) t ts st).bind fun (rest', st') => runGo cx k rest' st'

/-- Process a whole token sequence from a state. -/
def runToks (cx : Ctx) (toks : List LTok) (st : St) : Res PErr St := runGo cx toks.length toks st

end Stuart
