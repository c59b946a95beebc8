import Verif.Model.Process
/-
JavaScript plugins: stuart/src/plugins/js/json.rs, context.rs and the functions of mod.rs. The engine (V8) is external;
what is modelled of it is how objects keep their properties.
-/
namespace Stuart

/-- A JavaScript value as far as the code looks at it. Objects are the list of their own enumerable properties with
string keys, in the order in which `get_own_property_names` gives them; functions and the like are objects too.
`opaque` stands for symbols and big integers. Simplification: values are finite trees without getters, so reading a
property never fails and never loops. -/
inductive JsVal where
  | undefined
  | null
  | bool (b : Bool)
  | num (n : Num)
  | str (s : Str)
  | arr (l : List JsVal)
  | obj (l : List (Str × JsVal))
  | opaque

/-- The value of a text of decimal digits. -/
def digitsValue (s : Str) : Nat := s.foldl (fun n c => n * 10 + (c.toNat - 48)) 0

/-- Array indices (ECMA-262, 6.1.7): the decimal numbers without leading zeros, below 2³² - 1. Properties with such
names come first, in ascending order. -/
def arrayIndex (s : Str) : Option Nat :=
  if s ≠ [] ∧ s.all (fun c => decide (48 ≤ c.toNat) && decide (c.toNat ≤ 57)) ∧ (s = ['0'] ∨ s.head? ≠ some '0') ∧
      digitsValue s < 4294967295 then some (digitsValue s)
  else none

/-- Insert a new array index. -/
def insertIndex (n : Nat) (k : Str) (v : JsVal) : List (Str × JsVal) → List (Str × JsVal)
  | [] => [(k, v)]
  | e :: l =>
    match arrayIndex e.1 with
    | some m => if m < n then e :: insertIndex n k v l else (k, v) :: e :: l
    | none => (k, v) :: e :: l

/-- Replace the value of a property. -/
def replaceProp (k : Str) (v : JsVal) : List (Str × JsVal) → List (Str × JsVal)
  | [] => []
  | e :: l => if e.1 = k then (e.1, v) :: l else e :: replaceProp k v l

/-- `Object::set` on a plain object. Setting `__proto__` runs the setter that plain objects inherit, which makes no
property of its own. -/
def setProp (k : Str) (v : JsVal) (l : List (Str × JsVal)) : List (Str × JsVal) :=
  if k = str!"__proto__" then l
  else if l.any (fun e => e.1 == k) then replaceProp k v l
  else match arrayIndex k with
    | some n => insertIndex n k v l
    | none => l ++ [(k, v)]

mutual
/-- json.rs:8-38 `json_to_js` of a value. -/
def jsonToJs : Value → JsVal
  | .null => .null
  | .bool b => .bool b
  | .num n => .num n
  | .str s => .str s
  | .arr l => .arr (jsonsToJs l)
  | .obj l => .obj (fillObject [] l)
/-- json.rs:20-25 -/
def jsonsToJs : List Value → List JsVal
  | [] => []
  | v :: l => jsonToJs v :: jsonsToJs l
/-- json.rs:29-33 -/
def fillObject (acc : List (Str × JsVal)) : List (Str × Value) → List (Str × JsVal)
  | [] => acc
  | (k, v) :: l => fillObject (setProp k (jsonToJs v) acc) l
end

/-- json.rs:8-38 `json_to_js` -/
def optToJs : Option Value → JsVal
  | some v => jsonToJs v
  | none => .undefined

mutual
/-- json.rs:43-104 `js_to_json`; `none` for `undefined` and other things that are no JSON. Such a thing within an array
or object panics (`value.unwrap()`). -/
def jsToJson : JsVal → Res ProcErr (Option Value)
  | .undefined => .ok none
  | .null => .ok (some .null)
  | .bool b => .ok (some (.bool b))
  | .num n => .ok (some (.num n))
  | .str s => .ok (some (.str s))
  | .arr l => (jssToJson l).bind fun vs => .ok (some (.arr vs))
  | .obj l => (propsToJson l).bind fun es => .ok (some (.obj es))
  | .opaque => .ok none
/-- json.rs:77-82 -/
def jssToJson : List JsVal → Res ProcErr (List Value)
  | [] => .ok []
  | x :: l => (jsToJson x).bind fun v => (Res.unwrap .plugin v).bind fun v => (jssToJson l).bind fun vs => .ok (v :: vs)
/-- json.rs:93-99 -/
def propsToJson : List (Str × JsVal) → Res ProcErr (List (Str × Value))
  | [] => .ok []
  | (k, x) :: l =>
    (jsToJson x).bind fun v => (Res.unwrap .plugin v).bind fun v => (propsToJson l).bind fun es => .ok ((k, v) :: es)
end

/-- What a call of a JavaScript function does, as far as Stuart notices: it sets and reads variables, and finally
returns something (`none` for `undefined`) or throws. -/
inductive JsRun where
  | ret (out : Option Str)
  | throw
  | set (name : Str) (v : JsVal) (next : JsRun)
  | get (name : Str) (next : JsVal → JsRun)

/-- The frames that a variable is looked up in while a function runs: the scope with the variables added to its
innermost frame. -/
def jsFrames (added : List (Str × Value)) : List (List (Str × Value)) → List Frame
  | [] => []
  | top :: rest => ⟨[], top ++ added, []⟩ :: rest.map fun vs => ⟨[], vs, []⟩

/-- context.rs:50-87 `set_variable` and `get_variable`, and mod.rs:210-216: the result. A function that throws has its
effects until then, and no output. -/
def runJs (scopes : List (List (Str × Value))) : JsRun → List (Str × Value) → Res ProcErr (List (Str × Value) × Bytes)
  | .ret out, added => .ok (added, (out.map bytesOf).getD [])
  | .throw, added => .ok (added, [])
  | .set name v next, added =>
    (jsToJson v).bind fun
      | none => runJs scopes next added
      | some w => match scopes with
        | [] => .panic .plugin
        | _ :: _ => runJs scopes next (added ++ [(name, w)])
  | .get name next, added => runJs scopes (next (optToJs (lookupVar name (jsFrames added scopes)))) added

/-- mod.rs:188-200: one argument. -/
def jsArg (scopes : List (List (Str × Value))) : RawArg → Res ProcErr JsVal
  | .var n =>
    match lookupVar n (jsFrames [] scopes) with
    | some v => .ok (jsonToJs v)
    | none => .err (.undefinedVariable n)
  | .str s => .ok (.str s)
  | .int i => .ok (.num (.fin i))
  | .ident _ => .err .stackError

/-- mod.rs:184-200: the arguments, up to the first error. -/
def jsArgs (scopes : List (List (Str × Value))) : List RawArg → Res ProcErr (List JsVal)
  | [] => .ok []
  | a :: as => (jsArg scopes a).bind fun v => (jsArgs scopes as).bind fun vs => .ok (v :: vs)

/-- mod.rs:174-221 `JSFunction`: its name is `todo!()`; what was given as `fn` is `none` if it is no function, on which
`execute` panics. -/
def jsFunction (fn : Option (List JsVal → JsRun)) (args : List RawArg) : PluginFn where
  name := none
  exec scopes :=
    (jsArgs scopes args).bind fun vs => (Res.unwrap .plugin fn).bind fun f => runJs scopes (f vs) []

/-- mod.rs:159-171 `JSFunctionParser`: only the positional arguments are kept. -/
def jsParser (name : Str) (fn : Option (List JsVal → JsRun)) : PluginFnParser where
  name := name
  parse raw := .ok (jsFunction fn raw.pos)

end Stuart
