import Verif.Spec.Disk
/-
What exported metadata say.
-/
namespace Stuart.Spec

/-- The value of a field of an object. -/
def field (k : Str) : Value → Option Value
  | .obj l => l.lookup k
  | _ => none

/-- The entries listed in a value: its elements, or those of its field `children`. -/
def kids : Value → List Value
  | .arr vs => vs
  | v => match field str!"children" v with
    | some (.arr vs) => vs
    | _ => []

/-- The entry at a position. -/
def entryAt : Value → List Nat → Option Value
  | v, [] => some v
  | v, i :: is => ((kids v)[i]?).bind fun e => entryAt e is

/-- What the entry of a node says. -/
def Describes : Node → Value → Prop
  | .dir d cs _, e => field str!"type" e = some (.str str!"directory") ∧ field str!"name" e = some (.str d) ∧
      (kids e).length = cs.length ∧ ∀ k, k ∉ [str!"type", str!"name", str!"children"] → field k e = none
  | .file name _ _ none _, e => field str!"type" e = some (.str str!"file") ∧ field str!"name" e = some (.str name) ∧
      ∀ k, k ∉ [str!"type", str!"name"] → field k e = none
  | .file name _ _ (some (.obj l)) _, e => ∀ k, field k e =
      match l.reverse.lookup k with
      | some v => some v
      | none => if k = str!"name" then some (.str name) else none
  | .file .., _ => False

end Stuart.Spec
