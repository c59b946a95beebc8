import Verif.Model.Json
/-
The low-level parser: stuart-core/src/parse/parser.rs.
-/
namespace Stuart

/-- error.rs:52-75 `ParseError`. Simplification: `AssertionError` carries no text here. -/
inductive ParseErr where
  | unexpectedEOF
  | expected (s : Str)
  | invalidVariableName (s : Str)
  | invalidFunctionName (s : Str)
  | invalidArgument
  | nonexistentFunction (s : Str)
  | genericSyntax
  | positionalAfterNamed
  | invalidFrontmatter
  | invalidJson
  | assertion
deriving DecidableEq, Repr

/-- parser.rs:16-19: the four location counters. -/
structure Loc where
  line : Nat
  col : Nat
  nline : Nat
  ncol : Nat
deriving DecidableEq, Repr

/-- parser.rs:28-31: initial counters. -/
def Loc.start : Loc := ⟨1, 1, 1, 1⟩

/-- parser.rs:49-57: how consuming one character moves the counters. -/
def Loc.adv (l : Loc) (c : Char) : Loc :=
  { line := l.nline
    col := l.ncol
    nline := if c = '\n' then l.nline + 1 else l.nline
    ncol := if c = '\n' then 0 else if c = '\r' then l.ncol else l.ncol + 1 }

/-- parser.rs:13-20 `Parser` (the path is passed separately). -/
structure PSt where
  rest : Str
  loc : Loc
deriving DecidableEq, Repr

/-- parser.rs:24-33 `Parser::new` -/
def PSt.init (s : Str) : PSt := ⟨s, Loc.start⟩

/-- parser.rs:36-43 `Parser::traceback` -/
def PSt.tb (p : PSt) (path : Str) (e : ParseErr) : TB ParseErr := ⟨path, p.loc.line, p.loc.col, e⟩

/-- parser.rs:47-63 `Parser::next` (`none`: end of input, which the code turns into
`UnexpectedEOF` at the current location). -/
def PSt.next (p : PSt) : Option (Char × PSt) :=
  match p.rest with
  | [] => none
  | c :: cs => some (c, ⟨cs, p.loc.adv c⟩)

/-- parser.rs:66-68 `Parser::peek` -/
def PSt.peek (p : PSt) : Option Char := p.rest.head?

/-- Parser results: a value and the advanced parser, a located error, or a panic. -/
abbrev PRes (α : Type) := Res (TB ParseErr) (α × PSt)

/-- parser.rs:71-81 `Parser::expect`; `whole` is the full expected string, reported on mismatch. -/
def PSt.expectGo (path whole : Str) : Str → PSt → PRes Unit
  | [], p => .ok ((), p)
  | c :: cs, p =>
    match p.next with
    | none => .err (p.tb path .unexpectedEOF)
    | some (c', p') => if c = c' then expectGo path whole cs p' else .err (p'.tb path (.expected whole))

/-- parser.rs:71-81 `Parser::expect` -/
def PSt.expect (path s : Str) (p : PSt) : PRes Unit := p.expectGo path s s

/-- parser.rs:90-112: the loop of `extract_until` over the remaining characters, with the characters
collected so far in `acc`. The byte test of line 97 (`== b'\\'`) is a character test because in UTF-8
the byte 0x5C only encodes the backslash. On end of input the characters are restored but the counters
are not (lines 107-110). -/
def extractUntilGo (s : Str) (esc : Bool) (old : Str) : Str → Loc → Str → Option Str × PSt
  | [], loc, _ => (none, ⟨old, loc⟩)
  | c :: cs, loc, acc =>
    let acc := acc ++ [c]
    let loc := loc.adv c
    if endsWith s acc then
      let pre := acc.take (acc.length - s.length)
      if esc && endsWith ['\\'] pre then
        extractUntilGo s esc old cs loc (pre.dropLast ++ s)
      else (some pre, ⟨cs, loc⟩)
    else extractUntilGo s esc old cs loc acc

/-- parser.rs:86-113 `Parser::extract_until` -/
def PSt.extractUntil (s : Str) (esc : Bool) (p : PSt) : Option Str × PSt :=
  extractUntilGo s esc p.rest p.rest p.loc []

/-- parser.rs:116-131 `Parser::extract_while` with a stateful predicate (`FnMut`). -/
def extractWhileGo {σ : Type} (f : σ → Char → σ × Bool) : σ → Str → Loc → Str × PSt
  | _, [], loc => ([], ⟨[], loc⟩)
  | st, c :: cs, loc =>
    match f st c with
    | (st', true) => let (r, p) := extractWhileGo f st' cs (loc.adv c); (c :: r, p)
    | (_, false) => ([], ⟨c :: cs, loc⟩)

/-- parser.rs:116-131 `Parser::extract_while` with a stateful predicate. -/
def PSt.extractWhileS {σ : Type} (f : σ → Char → σ × Bool) (st : σ) (p : PSt) : Str × PSt :=
  extractWhileGo f st p.rest p.loc

/-- parser.rs:116-131 `Parser::extract_while` with a plain predicate. -/
def PSt.extractWhile (f : Char → Bool) (p : PSt) : Str × PSt :=
  p.extractWhileS (fun (_ : Unit) c => ((), f c)) ()

/-- `str::replace(from, to)` for a nonempty `from`: leftmost, non-overlapping. `k` counts characters of the
current match still to be dropped. -/
def replaceGo (src dst : Str) : Nat → Str → Str
  | _, [] => []
  | k + 1, _ :: cs => replaceGo src dst k cs
  | 0, c :: cs =>
    if startsWith src (c :: cs) then dst ++ replaceGo src dst (src.length - 1) cs
    else c :: replaceGo src dst 0 cs

/-- `str::replace` -/
def replaceAll (src dst s : Str) : Str := replaceGo src dst 0 s

/-- parser.rs:134-146 `Parser::extract_remaining` -/
def PSt.extractRemaining (esc : Bool) (p : PSt) : Str × PSt :=
  let r := p.rest
  (if esc then replaceAll str!"\\{{" str!"{{" r else r, ⟨[], r.foldl Loc.adv p.loc⟩)

/-- parser.rs:149-160 `Parser::ignore_while` -/
def PSt.ignoreWhile (f : Char → Bool) (p : PSt) : PSt := (p.extractWhile f).2

end Stuart
