import Verif.Model.Markdown
/-
How errors are printed: stuart/src/error.rs.
-/
namespace Stuart

/-- error.rs:86-96: the path to show, relative to the current directory if inside it. Simplification: both paths are texts
of absolute paths without `.`, `..` or doubled slashes, and the Windows prefix `\\?\` (93-96) is not removed. -/
def shownPath (cwd : Option Str) (path : Str) : Str :=
  match cwd with
  | none => path
  | some d => if path = d then [] else (stripPrefix ((if d = ['/'] then [] else d) ++ ['/']) path).getD path

/-- error.rs:98-100: the line to quote. `content` is what `read_to_string` yields. `checks` tells whether the program was
built with overflow checks: `0 - 1` then panics, and otherwise is the number of a line that no file has. -/
def quotedLine (checks : Bool) (content : Option Str) (line : Nat) : Res Unit (Option Str) :=
  match content with
  | none => .ok none
  | some s =>
    if line = 0 then (if checks then .panic .lineZero else .ok none)
    else .ok ((lines s)[line - 1]?)

/-- error.rs:83-165 `TracebackError::display`, after the `error: ` of 36-51. The messages of the kinds of errors
(`kind.display`, `kind.help`) are parameters, and the colours are left out. Simplification: columns are below 2^31. -/
def printTB {κ : Type} (checks : Bool) (cwd content : Option Str) (msg : κ → Str) (help : κ → Option Str) (e : TB κ) : Res Unit Str :=
  (quotedLine checks content e.line).bind fun line =>
  let place := shownPath cwd e.path ++ ':' :: (Nat.toDigits 10 e.line ++ ':' :: Nat.toDigits 10 e.col)
  let gap := List.replicate ((Nat.toDigits 10 e.line).length + 1) ' '
  .ok (str!"error: " ++ msg e.kind ++ str!"\n" ++
    match line with
    | some l =>
      str!"  --> " ++ place ++ str!"\n" ++
      gap ++ str!"|\n" ++
      Nat.toDigits 10 e.line ++ str!" | " ++ l ++ str!"\n" ++
      gap ++ str!"| " ++ List.replicate (e.col - 2) ' ' ++ str!"^^^ error occurred here\n" ++
      gap ++ str!"|\n" ++
      (match help e.kind with
        | some h => gap ++ str!"= help: " ++ h ++ str!"\n"
        | none => [])
    | none =>
      str!"  at " ++ place ++ str!"\n" ++
      (match help e.kind with
        | some h => str!"  help: " ++ h ++ str!"\n"
        | none => []))

end Stuart
