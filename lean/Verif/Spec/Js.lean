import Verif.Model.Json
/-
What JavaScript does to JSON values, said without an engine.
-/
namespace Stuart.Spec

/-- The text is the decimal form of this array index (ECMA-262, 6.1.7). -/
def IsIndex (s : Str) (n : Nat) : Prop := s = Nat.toDigits 10 n ∧ n < 4294967295

/-- The two names can be in this order: indices come first and ascend. -/
def Before (a b : Str) : Prop := ∀ n, IsIndex b n → ∃ m, IsIndex a m ∧ m < n

/-- Names of properties as an object has them: distinct, in order, and none is `__proto__`. -/
def InJsOrder (ks : List Str) : Prop := ks.Pairwise (fun a b => a ≠ b ∧ Before a b) ∧ str!"__proto__" ∉ ks

/-- A value all of whose objects, at any depth, have names as JavaScript has them. -/
inductive JsSafe : Value → Prop
  | null : JsSafe .null
  | bool (b : Bool) : JsSafe (.bool b)
  | num (n : Num) : JsSafe (.num n)
  | str (s : Str) : JsSafe (.str s)
  | arr {l : List Value} (h : ∀ v ∈ l, JsSafe v) : JsSafe (.arr l)
  | obj {l : List (Str × Value)} (hk : InJsOrder (l.map Prod.fst)) (h : ∀ e ∈ l, JsSafe e.2) : JsSafe (.obj l)

/-- One step down into a value. -/
inductive Down where
  | key (k : Str)
  | idx (i : Nat)

/-- Where it leads: for a key that occurs several times, to the last value. -/
def Down.from : Down → Value → Option Value
  | .key k, .obj l => (l.reverse.find? fun e => e.1 == k).map Prod.snd
  | .idx i, .arr l => l[i]?
  | _, _ => none

/-- What a value is, apart from what it contains. -/
inductive Shape where
  | null
  | bool (b : Bool)
  | num (n : Num)
  | str (s : Str)
  | arr (length : Nat)
  | obj

/-- The shape of a value. -/
def shape : Value → Shape
  | .null => .null
  | .bool b => .bool b
  | .num n => .num n
  | .str s => .str s
  | .arr l => .arr l.length
  | .obj _ => .obj

/-- What is found some steps down. -/
def shapeAt : List Down → Value → Option Shape
  | [], v => some (shape v)
  | d :: ds, v => (d.from v).bind (shapeAt ds)

end Stuart.Spec
