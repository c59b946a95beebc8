import Verif.Spec.Select
/-
What a number of a JSON file counts as in a comparison.
-/
namespace Stuart.Spec

/-- The number counts as this integer: fractions are cut off towards zero, what is out of the 32-bit range counts as the end
of the range it is beyond, and what is no number counts as zero. -/
inductive Cut : Num → Int → Prop
  | down (q : Rat) (i : Int) : 0 ≤ q → (i : Rat) ≤ q → q < ((i + 1 : Int) : Rat) → i ≤ 2147483647 → Cut (.fin q) i
  | up (q : Rat) (i : Int) : q ≤ 0 → q ≤ (i : Rat) → ((i - 1 : Int) : Rat) < q → -2147483648 ≤ i → Cut (.fin q) i
  | high (q : Rat) : (2147483647 : Int) ≤ q → Cut (.fin q) 2147483647
  | low (q : Rat) : q ≤ (-2147483648 : Int) → Cut (.fin q) (-2147483648)
  | infinite : Cut (.inf false) 2147483647
  | minusInfinite : Cut (.inf true) (-2147483648)
  | nan : Cut .nan 0

/-- The comparison a function makes between integers. (`ifle` is strict.) -/
def CmpFn.made : CmpFn → Int → Int → Prop
  | .ifeq, i, j => i = j
  | .ifne, i, j => i ≠ j
  | .ifgt, i, j => i > j
  | .ifge, i, j => i ≥ j
  | .iflt, i, j => i < j
  | .ifle, i, j => i < j

/-- The operand counts as this integer in these scopes. -/
inductive Counts (scs : Scopes) : Input → Int → Prop
  | int (i : Int) : Counts scs (.int i) i
  | var (n : Str) (path : List Str) (x : Num) (i : Int) : Dotless n path → denoted n path scs = some (.num x) → Cut x i →
      Counts scs (.var (dotted n path)) i

end Stuart.Spec
