import Verif.Model.Cli
import Verif.Spec.Literal
import Verif.Spec.Disk
/-
What a benchmark does, and numbers of iterations.
-/
namespace Stuart.Spec

/-- This many builds in a row, all successful, take one state to the other. The context is carried on, as each build
leaves its output in it. -/
inductive BuildsRun (M : Machine) : Nat → Context → Host → Context → Host → Prop
  | none {c : Context} {s : Host} : BuildsRun M 0 c s c s
  | more {n : Nat} {c c1 c2 : Context} {s s1 s2 : Host} : c.build M s = (c1, s1, .ok ()) → BuildsRun M n c1 s1 c2 s2 →
      BuildsRun M (n + 1) c s c2 s2

/-- The text is a number of iterations: decimal digits, perhaps after a plus sign, below 2^64. -/
def Count (text : Str) (n : Nat) : Prop := Decimal text n ∧ n < 2 ^ 64 ∧ text.head? ≠ some '-'

end Stuart.Spec
