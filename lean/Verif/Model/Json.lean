import Verif.Model.Base
/-
JSON values (`humphrey_json::Value`, an external crate: the part of its interface the code relies on)
and the dotted-path lookup of process/stack.rs.
-/
namespace Stuart

/-- An `f64`: exact finite value, infinity, or NaN. Simplification: signed zero and rounding are not
represented; the code never does arithmetic on JSON numbers. -/
inductive Num where
  | fin (q : Rat)
  | inf (neg : Bool)
  | nan
deriving DecidableEq

/-- Rust's `f64 as i32`: truncate toward zero, saturate, NaN to 0. -/
def Num.toI32 : Num → Int
  | .fin q =>
    let t := q.num.tdiv q.den
    if t < -2147483648 then -2147483648 else if t > 2147483647 then 2147483647 else t
  | .inf true => -2147483648
  | .inf false => 2147483647
  | .nan => 0

/-- `humphrey_json::Value`. Objects are ordered association lists. -/
inductive Value where
  | null
  | bool (b : Bool)
  | num (n : Num)
  | str (s : Str)
  | arr (l : List Value)
  | obj (l : List (Str × Value))

namespace Value

/-- `Value::get(&str)`: first entry with the key, objects only (humphrey_json). -/
def getKey (k : Str) : Value → Option Value
  | .obj l => (l.find? fun e => e.1 == k).map fun e => e.2
  | _ => none

/-- `Value::get(usize)`: array element (humphrey_json). -/
def getIdx (i : Nat) : Value → Option Value
  | .arr l => l[i]?
  | _ => none

/-- `Value::as_str` -/
def asStr : Value → Option Str
  | .str s => some s
  | _ => none

/-- `Value::as_array` -/
def asArray : Value → Option (List Value)
  | .arr l => some l
  | _ => none

/-- `Value::as_object` -/
def asObject : Value → Option (List (Str × Value))
  | .obj l => some l
  | _ => none

/-- Replace the value of the first entry with key `k`, or append an entry. -/
def setEntry (k : Str) (v : Value) : List (Str × Value) → List (Str × Value)
  | [] => [(k, v)]
  | e :: es => if e.1 == k then (e.1, v) :: es else e :: setEntry k v es

/-- `v[k] = x` on a `humphrey_json` value. Only ever applied to objects in this code
(fs/mod.rs:285, 414, 417; parse/markdown.rs:109-110); other values are left alone here. -/
def setKey (v : Value) (k : Str) (x : Value) : Value :=
  match v with
  | .obj l => .obj (setEntry k x l)
  | v => v

end Value

/-- process/stack.rs:49-67 `get_value`: follow a path of keys, falling back to array positions;
`null` as soon as a step fails. -/
def getValue : List Str → Value → Value
  | [], v => v
  | i :: is, v =>
    match v.getKey i with
    | some v' => getValue is v'
    | none =>
      match (parseUsize i).bind fun n => v.getIdx n with
      | some v' => getValue is v'
      | none => .null

end Stuart
