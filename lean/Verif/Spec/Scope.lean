import Verif.Model.Process
import Verif.Spec.Literal
/-
Variables, paths into JSON values, loop items and conditions, from the side of the template author.
-/
namespace Stuart.Spec

/-- The scopes in force, innermost first; the variables of each in the order they were defined. -/
abbrev Scopes := List (List (Str × Value))

/-- The value of a name: its first definition in the innermost scope that defines it. -/
def bound (name : Str) (scs : Scopes) : Option Value := scs.findSome? fun sc => sc.lookup name

/-- A written array position: decimal digits, perhaps after a plus sign, below 2^64. -/
def position (k : Str) : Option Nat :=
  let ds := if k.head? = some '+' then k.tail else k
  if ds ≠ [] ∧ (∀ c ∈ ds, '0'.toNat ≤ c.toNat ∧ c.toNat ≤ '9'.toNat) ∧ decVal ds < 2 ^ 64 then some (decVal ds) else none

/-- One step of a path: an object's entry, or an array's element by position. -/
def child (k : Str) : Value → Option Value
  | .obj l => l.lookup k
  | .arr l => (position k).bind fun n => l[n]?
  | _ => none

/-- The value at the end of a path; `null` when there is none. -/
def follow : List Str → Value → Value
  | [], v => v
  | k :: ks, v => match child k v with
    | some w => follow ks w
    | none => .null

/-- `name.a.b` -/
def dotted (name : Str) (path : List Str) : Str := name ++ path.flatMap fun p => '.' :: p

/-- A dotted name is split in one way. -/
def Dotless (name : Str) (path : List Str) : Prop := '.' ∉ name ∧ ∀ p ∈ path, '.' ∉ p

/-- The value a variable expression denotes, if its name is defined. -/
def denoted (name : Str) (path : List Str) (scs : Scopes) : Option Value := (bound name scs).map (follow path)

/-! ### Loops -/

/-- The string an item is sorted by. -/
def keyOf (path : List Str) (v : Value) : Str :=
  match follow path v with
  | .str s => s
  | _ => []

/-- Strings are ordered by their UTF-8 bytes, lexicographically. -/
def strLe (a b : Str) : Prop := bytesOf a ≤ bytesOf b

instance (a b : Str) : Decidable (strLe a b) := inferInstanceAs (Decidable (bytesOf a ≤ bytesOf b))

/-- Put an item in front of the first one whose key is not smaller. -/
def insertBy (path : List Str) (v : Value) : List Value → List Value
  | [] => [v]
  | w :: ws => if strLe (keyOf path v) (keyOf path w) then v :: w :: ws else w :: insertBy path v ws

/-- Sort by key, keeping the order of items with equal keys. -/
def sortBy (path : List Str) : List Value → List Value
  | [] => []
  | v :: vs => insertBy path v (sortBy path vs)

/-- What a loop visits of its source: sorted, reversed, without the first `skip`, at most `limit`.
`key = none` without `sortby`. -/
def visited (key : Option (List Str)) (desc : Bool) (skip limit : Option Nat) (items : List Value) : List Value :=
  let l := match key with | none => items | some p => sortBy p items
  let l := if desc then l.reverse else l
  let l := l.drop (skip.getD 0)
  match limit with | none => l | some n => l.take n

/-! ### Conditions -/

/-- What can be compared. -/
inductive Operand where
  | text (s : Str)
  | int (i : Int)
deriving DecidableEq, Repr

/-- The comparison a function is named for, on integers. -/
def CmpFn.rel : CmpFn → Int → Int → Prop
  | .ifeq, a, b => a = b
  | .ifne, a, b => a ≠ b
  | .ifgt, a, b => a > b
  | .ifge, a, b => a ≥ b
  | .iflt, a, b => a < b
  | .ifle, a, b => a ≤ b

end Stuart.Spec
