import Verif.Model.Function
/-
Decimal integers as they are written.
-/
namespace Stuart.Spec

/-- An ASCII decimal digit. -/
def IsDigit (c : Char) : Prop := '0'.toNat ≤ c.toNat ∧ c.toNat ≤ '9'.toNat

/-- The number a digit string stands for. -/
def decVal (ds : Str) : Nat := ds.foldl (fun a c => 10 * a + (c.toNat - '0'.toNat)) 0

/-- Written decimal integers with their values. -/
inductive Decimal : Str → Int → Prop
  | plain (ds : Str) : ds ≠ [] → (∀ c ∈ ds, IsDigit c) → Decimal ds (decVal ds)
  | plus (ds : Str) : ds ≠ [] → (∀ c ∈ ds, IsDigit c) → Decimal ('+' :: ds) (decVal ds)
  | minus (ds : Str) : ds ≠ [] → (∀ c ∈ ds, IsDigit c) → Decimal ('-' :: ds) (-(decVal ds : Int))

/-- A signed 32-bit value. -/
def Is32 (i : Int) : Prop := -2147483648 ≤ i ∧ i ≤ 2147483647

instance (i : Int) : Decidable (Is32 i) :=
  inferInstanceAs (Decidable (-2147483648 ≤ i ∧ i ≤ 2147483647))

end Stuart.Spec
