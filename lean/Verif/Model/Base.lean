/-
Basic vocabulary of the model: strings, bytes, results with panics, and the
fragments of Rust's `str`/`char`/integer API that the code uses.
-/
namespace Stuart

/-- A Rust `str`/`String`: a sequence of Unicode scalar values. -/
abbrev Str := List Char

/-- A Rust `Vec<u8>`. -/
abbrev Bytes := List UInt8

/-- `str!"abc"` is the character list `['a','b','c']` (a literal that reduces in the kernel). -/
macro:max "str!" s:str : term => do
  let cs : Array (Lean.TSyntax `term) :=
    (s.getString.toList.map fun c => (⟨Lean.Syntax.mkCharLit c⟩ : Lean.TSyntax `term)).toArray
  `(([$cs,*] : List Char))

/-- The ways in which modelled Rust code can panic. `fuel` is not a behaviour of the code: it is what
a fuelled model loop yields when its fuel runs out (shown never to happen). -/
inductive Panic where
  /-- `.unwrap()` on `strip_suffix('"')`, parse/function.rs:52 -/
  | loneQuote
  /-- `_ => unreachable!()`, parse/mod.rs:234 -/
  | unreachableChar
  /-- `stack.last_mut().unwrap()` / `stack.pop().unwrap()`, process/mod.rs -/
  | emptyStack
  /-- `self.html.as_ref().unwrap()`, parse/markdown.rs:109 -/
  | htmlNotReady
  /-- `todo!()`, stuart/src/plugins/js/mod.rs:176 -/
  | jsName
  /-- `self.name().strip_suffix(".md").unwrap()`, process/mod.rs:209 -/
  | notMd
  /-- `.contents().unwrap()` on a directory, process/mod.rs:76 -/
  | noContents
  /-- `panic!` in `Node::save`/`Node::merge` on a non-directory, fs/mod.rs:276, 327 -/
  | notADirectory
  /-- `dir.file_name().unwrap()`, fs/mod.rs:188 -/
  | noFileName
  /-- `json.as_object().unwrap()`, fs/mod.rs:413 -/
  | metadataNotObject
  /-- a panic inside plugin code -/
  | plugin
  /-- `get_project_name(&manifest).unwrap()`, stuart/src/plugins/source.rs:61, 66 -/
  | noProjectName
  /-- `e.path.as_ref().unwrap().strip_prefix(&path).unwrap()`, stuart/src/serve/mod.rs:99 -/
  | watchPath
  /-- `self.line as usize - 1` on line 0, with overflow checks, stuart/src/error.rs:100 -/
  | lineZero
  /-- `preprocess_markdown_node(..).unwrap()`, lib.rs:103 -/
  | bodyFailed
  /-- model artefact: loop fuel exhausted -/
  | fuel
deriving DecidableEq, Repr

/-- A Rust computation returning `Result<α, ε>` that may also panic. -/
inductive Res (ε α : Type) where
  | ok (a : α)
  | err (e : ε)
  | panic (p : Panic)
deriving Repr, DecidableEq

namespace Res

/-- Sequencing (`?` operator, with panics propagating). -/
def bind {ε α β : Type} : Res ε α → (α → Res ε β) → Res ε β
  | .ok a, f => f a
  | .err e, _ => .err e
  | .panic p, _ => .panic p

instance {ε : Type} : Monad (Res ε) where
  pure := .ok
  bind := Res.bind

/-- `map_err`. -/
def mapErr {ε ε' α : Type} (f : ε → ε') : Res ε α → Res ε' α
  | .ok a => .ok a
  | .err e => .err (f e)
  | .panic p => .panic p

/-- `ok_or_else`. -/
def ofOption {ε α : Type} (e : ε) : Option α → Res ε α
  | some a => .ok a
  | none => .err e

/-- `.unwrap()` at the panic site `p`. -/
def unwrap {ε α : Type} (p : Panic) : Option α → Res ε α
  | some a => .ok a
  | none => .panic p

@[simp] theorem pure_eq {ε α : Type} (a : α) : (pure a : Res ε α) = .ok a := rfl
@[simp] theorem bind_eq {ε α β : Type} (x : Res ε α) (f : α → Res ε β) : (x >>= f) = x.bind f := rfl
@[simp] theorem bind_ok {ε α β : Type} (a : α) (f : α → Res ε β) : (Res.ok a).bind f = f a := rfl
@[simp] theorem bind_err {ε α β : Type} (e : ε) (f : α → Res ε β) : (Res.err e).bind f = .err e := rfl
@[simp] theorem bind_panic {ε α β : Type} (p : Panic) (f : α → Res ε β) :
    (Res.panic p : Res ε α).bind f = .panic p := rfl
instance {ε α : Type} [DecidableEq α] (r : Res ε α) (a : α) : Decidable (r = .ok a) :=
  match r with
  | .ok b => if h : b = a then .isTrue (by rw [h]) else .isFalse (fun k => h (Res.ok.inj k))
  | .err _ => .isFalse nofun
  | .panic _ => .isFalse nofun

@[simp] theorem mapErr_ok {ε ε' α : Type} (f : ε → ε') (a : α) : (Res.ok a).mapErr f = .ok a := rfl
@[simp] theorem mapErr_err {ε ε' α : Type} (f : ε → ε') (e : ε) :
    (Res.err e : Res ε α).mapErr f = .err (f e) := rfl
@[simp] theorem mapErr_panic {ε ε' α : Type} (f : ε → ε') (p : Panic) :
    (Res.panic p : Res ε α).mapErr f = .panic p := rfl
@[simp] theorem ofOption_some {ε α : Type} (e : ε) (a : α) : Res.ofOption e (some a) = .ok a := rfl
@[simp] theorem ofOption_none {ε α : Type} (e : ε) : (Res.ofOption e (none : Option α)) = .err e := rfl
@[simp] theorem unwrap_some {ε α : Type} (p : Panic) (a : α) :
    (Res.unwrap p (some a) : Res ε α) = .ok a := rfl
@[simp] theorem unwrap_none {ε α : Type} (p : Panic) :
    (Res.unwrap p (none : Option α) : Res ε α) = .panic p := rfl

end Res

/-! ### Characters -/

/-- Rust's `char::is_whitespace`: the Unicode `White_Space` property (complete list). -/
def isWs (c : Char) : Bool :=
  let n := c.toNat
  (0x09 ≤ n && n ≤ 0x0D) || n == 0x20 || n == 0x85 || n == 0xA0 || n == 0x1680 ||
  (0x2000 ≤ n && n ≤ 0x200A) || n == 0x2028 || n == 0x2029 || n == 0x202F || n == 0x205F || n == 0x3000

/-- ASCII letters and digits. -/
def asciiAlnum (c : Char) : Bool :=
  let n := c.toNat
  (0x30 ≤ n && n ≤ 0x39) || (0x41 ≤ n && n ≤ 0x5A) || (0x61 ≤ n && n ≤ 0x7A)

/-- Rust's `char::is_alphanumeric` is a large Unicode table; it is left arbitrary except for two facts:
it is the ASCII letters and digits on ASCII, and no whitespace character is alphanumeric. -/
structure Unicode where
  alnum : Char → Bool
  ascii : ∀ c : Char, c.toNat < 128 → alnum c = asciiAlnum c
  notWs : ∀ c : Char, isWs c = true → alnum c = false

/-- The ASCII-only table meets the two facts, so statements over `Unicode` are not vacuous. -/
def Unicode.asciiOnly : Unicode where
  alnum := asciiAlnum
  ascii := fun _ _ => rfl
  notWs := by
    intro c h
    simp only [isWs, asciiAlnum, Bool.or_eq_true, Bool.and_eq_true, decide_eq_true_eq, beq_iff_eq] at *
    simp only [Bool.or_eq_false_iff, Bool.and_eq_false_iff, decide_eq_false_iff_not]
    omega

/-! ### Strings -/

/-- The UTF-8 encoding of a string: `str::as_bytes`. -/
def bytesOf (s : Str) : Bytes := s.flatMap String.utf8EncodeChar

/-- `str::trim_start` -/
def trimStart : Str → Str
  | [] => []
  | c :: cs => if isWs c then trimStart cs else c :: cs

/-- `str::trim_end` -/
def trimEnd (s : Str) : Str := (trimStart s.reverse).reverse

/-- `str::trim` -/
def trim (s : Str) : Str := trimEnd (trimStart s)

/-- `str::split(c)`: always at least one piece. -/
def splitOn (d : Char) : Str → List Str
  | [] => [[]]
  | c :: cs =>
    if c = d then [] :: splitOn d cs
    else match splitOn d cs with
      | [] => [[c]]
      | w :: ws => (c :: w) :: ws

/-- `str::splitn(2, c)`: the text before the first `c`, and the text after it if there is one. -/
def splitFirst (d : Char) : Str → Str × Option Str
  | [] => ([], none)
  | c :: cs =>
    if c = d then ([], some cs)
    else let (a, b) := splitFirst d cs; (c :: a, b)

/-- `str::strip_prefix` -/
def stripPrefix : Str → Str → Option Str
  | [], s => some s
  | _ :: _, [] => none
  | p :: ps, c :: cs => if p = c then stripPrefix ps cs else none

/-- `str::strip_suffix` -/
def stripSuffix (suf s : Str) : Option Str :=
  (stripPrefix suf.reverse s.reverse).map List.reverse

/-- `str::starts_with` -/
def startsWith (pre s : Str) : Bool := pre.isPrefixOf s

/-- `str::ends_with` -/
def endsWith (suf s : Str) : Bool := suf.isSuffixOf s

/-- `str::split_whitespace().count()`. The flag says whether the scan is inside a word. -/
def wordsGo : Bool → Str → Nat
  | _, [] => 0
  | inWord, c :: cs =>
    if isWs c then wordsGo false cs
    else if inWord then wordsGo true cs
    else wordsGo true cs + 1

/-- `str::split_whitespace().count()` -/
def wordCount (s : Str) : Nat := wordsGo false s

/-! ### Integers -/

/-- The value of an ASCII decimal digit. -/
def digitVal (c : Char) : Option Nat :=
  if 0x30 ≤ c.toNat ∧ c.toNat ≤ 0x39 then some (c.toNat - 0x30) else none

/-- A possibly empty run of decimal digits, accumulated most significant first. -/
def digitsGo : Nat → Str → Option Nat
  | acc, [] => some acc
  | acc, c :: cs => match digitVal c with
    | some d => digitsGo (acc * 10 + d) cs
    | none => none

/-- A nonempty run of decimal digits. -/
def parseDigits : Str → Option Nat
  | [] => none
  | c :: cs => digitsGo 0 (c :: cs)

/-- `str::parse::<i32>()`: optional sign, at least one digit, in range. -/
def parseI32 (s : Str) : Option Int :=
  let r : Option Int := match s with
    | '-' :: ds => (parseDigits ds).map fun (n : Nat) => -(n : Int)
    | '+' :: ds => (parseDigits ds).map fun (n : Nat) => (n : Int)
    | ds => (parseDigits ds).map fun (n : Nat) => (n : Int)
  r.bind fun i => if -2147483648 ≤ i ∧ i ≤ 2147483647 then some i else none

/-- `str::parse::<usize>()` on a 64-bit target: optional `+`, at least one digit, in range. -/
def parseUsize (s : Str) : Option Nat :=
  let r : Option Nat := match s with
    | '+' :: ds => parseDigits ds
    | ds => parseDigits ds
  r.bind fun n => if n < 18446744073709551616 then some n else none

/-- The digit character of `n < 10`. -/
def digitChar (n : Nat) : Char := Char.ofNat (0x30 + n)

/-- Decimal digits of `n`, fuelled by an upper bound on their number. -/
def natDigitsGo : Nat → Nat → Str → Str
  | 0, _, acc => acc
  | f + 1, n, acc =>
    if n < 10 then digitChar n :: acc
    else natDigitsGo f (n / 10) (digitChar (n % 10) :: acc)

/-- `usize::to_string` -/
def natToStr (n : Nat) : Str := natDigitsGo (n + 1) n []

/-- `i32::to_string` -/
def intToStr (i : Int) : Str :=
  if i < 0 then '-' :: natToStr i.natAbs else natToStr i.natAbs

/-! ### Located errors -/

/-- error.rs:26-35 `TracebackError<T>`. -/
structure TB (κ : Type) where
  path : Str
  line : Nat
  col : Nat
  kind : κ
deriving Repr, DecidableEq

end Stuart
