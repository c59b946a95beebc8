import Verif.Spec.Grammar
/-
What a printed error looks like, and what it quotes.
-/
namespace Stuart.Spec

/-- A text of whole lines. -/
def unlines (ls : List Str) : Str := ls.flatMap fun l => l ++ ['\n']

/-- A report that quotes the line `l` and has three marks below it, from its character `gap` on. -/
def quoting (place num msg l : Str) (gap : Nat) (help : Option Str) : Str :=
  let pad := List.replicate num.length ' '
  unlines ([str!"error: " ++ msg,
    str!"  --> " ++ place,
    pad ++ str!" |",
    num ++ str!" | " ++ l,
    pad ++ str!" | " ++ List.replicate gap ' ' ++ str!"^^^ error occurred here",
    pad ++ str!" |"] ++
    help.toList.map fun h => pad ++ str!" = help: " ++ h)

/-- A report that quotes nothing. -/
def naming (place msg : Str) (help : Option Str) : Str :=
  unlines ([str!"error: " ++ msg, str!"  at " ++ place] ++ help.toList.map fun h => str!"  help: " ++ h)

/-- `l` is the line of the file in which the text `pre` ends, that is, the line of its last character `c`; and there are `n`
characters before `c` in this line, other than carriage returns. -/
def LineOf (file pre l : Str) (n : Nat) : Prop :=
  ∃ a b c d r tail, file = a ++ b ++ c :: d ∧ pre = a ++ b ++ [c] ∧
    (a = [] ∨ ['\n'] <:+ a) ∧ '\n' ∉ b ∧ n = (b.filter (· ≠ '\r')).length ∧
    c :: d = r ++ tail ∧ '\n' ∉ r ∧
    (tail = [] ∧ l = b ++ r ∨ ['\n'] <+: tail ∧ (l ++ ['\r'] = b ++ r ∨ l = b ++ r ∧ ¬ ['\r'] <:+ b ++ r))

/-- A report with this message and help that quotes the line in which a tag of the file begins, and marks the last character
before the contents of the tag. -/
def QuotesTag (U : Unicode) (plugins : List PluginFns) (shown file : Str) (msg : Str) (help : Option Str) (report : Str) : Prop :=
  ∃ pre txt ws body rest t l n gap, Tags U plugins pre ∧ OpensAfter txt ∧ Blank ws ∧ TagText U plugins t body ∧
    (∀ s, t ≠ .raw s) ∧ file = pre ++ txt ++ str!"{{" ++ ws ++ body ++ str!"}}" ++ rest ∧
    LineOf file (pre ++ txt ++ str!"{{" ++ ws) l n ∧ gap ≤ n ∧ n < gap + 3 ∧
    report = quoting (shown ++ str!":" ++ Nat.toDigits 10 (lineAt (pre ++ txt ++ str!"{{" ++ ws)) ++ str!":" ++
        Nat.toDigits 10 (colAt (pre ++ txt ++ str!"{{" ++ ws)))
      (Nat.toDigits 10 (lineAt (pre ++ txt ++ str!"{{" ++ ws))) msg l gap help

end Stuart.Spec
