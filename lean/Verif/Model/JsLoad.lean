import Verif.Model.Js
import Verif.Model.Plugins
/-
Loading JavaScript plugins: `load_js_plugin` of stuart/src/plugins/js/mod.rs. The engine (V8) is external.
-/
namespace Stuart

/-- A value that the module of a plugin exports, as far as the loader looks at it. `sym` stands for symbols and big
integers. Simplification: objects have no getters, and reading a property never fails. -/
inductive JsExport where
  | undefined
  | null
  | bool (b : Bool)
  | num (n : Num)
  | str (s : Str)
  | sym
  | arr (l : List JsExport)
  | obj (l : List (Str × JsExport))
  | fn (name : Str) (params : Nat) (run : List JsVal → JsRun)

/-- What the loader uses of the engine. -/
structure JsEngine where
  /-- js/mod.rs:69-85: compile, instantiate and evaluate a module and read its default export (`undefined` if it has
  none); `none` when one of these fails -/
  evaluate : Str → Option JsExport
  /-- `to_rust_string_lossy` of values other than strings and `undefined` -/
  text : JsExport → Str
  /-- `uint32_value` of values other than whole numbers below 2^32 and `undefined`; `none` when it throws -/
  uint32 : JsExport → Option Nat

/-- `to_object`: whether it gives an object. -/
def JsExport.isThing : JsExport → Bool
  | .undefined => false
  | .null => false
  | _ => true

/-- How many units of UTF-16 a string has. -/
def utf16Length (s : Str) : Nat := (s.map fun c => if c.toNat < 65536 then 1 else 2).sum

/-- `get` of a property by its name, of what `to_object` makes. Objects have each name once. None of the names that are
asked for is inherited. -/
def JsExport.get (v : JsExport) (name : Str) : JsExport :=
  match v with
  | .obj l => ((l.find? fun e => e.1 == name).map Prod.snd).getD .undefined
  | .arr l => if name = str!"length" then .num (.fin l.length) else .undefined
  | .str s => if name = str!"length" then .num (.fin (utf16Length s)) else .undefined
  | .fn n params _ =>
    if name = str!"length" then .num (.fin params) else if name = str!"name" then .str n else .undefined
  | _ => .undefined

/-- `get_index`. Simplification: of a string, it is some string. -/
def JsExport.index (v : JsExport) (i : Nat) : JsExport :=
  match v with
  | .arr l => l[i]?.getD .undefined
  | .obj l => ((l.find? fun e => e.1 == natToStr i).map Prod.snd).getD .undefined
  | .str s => if i < utf16Length s then .str [] else .undefined
  | _ => .undefined

/-- `to_rust_string_lossy` -/
def JsEngine.textOf (E : JsEngine) : JsExport → Str
  | .str s => s
  | .undefined => str!"undefined"
  | v => E.text v

/-- `uint32_value` -/
def JsEngine.uint32Of (E : JsEngine) : JsExport → Option Nat
  | .undefined => some 0
  | .num (.fin q) => if q.den = 1 ∧ 0 ≤ q.num ∧ q.num < 4294967296 then some q.num.toNat else E.uint32 (.num (.fin q))
  | v => E.uint32 v

/-- Why a plugin is not loaded. -/
inductive JsErr where
  | read | module | noDefault | noFunctions | noFunction (i : Nat)
deriving DecidableEq, Repr

/-- js/mod.rs:116-138: the functions from index `i` on, `n` of them, with their names. -/
def jsFunctionsFrom (E : JsEngine) (fns : JsExport) : Nat → Nat → Res JsErr (List (Str × JsExport))
  | _, 0 => .ok []
  | i, n + 1 =>
    let f := fns.index i
    if f.isThing then
      (jsFunctionsFrom E fns (i + 1) n).bind fun l => .ok ((E.textOf (f.get str!"name"), f.get str!"fn") :: l)
    else .err (.noFunction i)

/-- js/mod.rs:134-135, 203-205: what the global object holds under the name of a function in the end, and the function
that it is, if it is one. -/
def jsGlobal (l : List (Str × JsExport)) (name : Str) : Option (List JsVal → JsRun) :=
  match l.reverse.find? fun e => e.1 == name with
  | some (_, .fn _ _ run) => some run
  | _ => none

/-- js/mod.rs:46-158 `load_js_plugin` -/
def loadJs (E : JsEngine) (b : Bytes) : Res JsErr Plugin :=
  match fromUtf8 b with
  | none => .err .read
  | some source =>
    match E.evaluate source with
    | none => .err .module
    | some exported =>
      if exported.isThing then
        let fns := exported.get str!"functions"
        if fns.isThing then
          (Res.unwrap .plugin (E.uint32Of (fns.get str!"length"))).bind fun n =>
          (jsFunctionsFrom E fns 0 n).bind fun l =>
          .ok { fns := ⟨E.textOf (exported.get str!"name"), l.map fun e => jsParser e.1 (jsGlobal l e.1)⟩, parsers := [] }
        else .err .noFunctions
      else .err .noDefault

/-- `load_js_plugin` of a file, for `Outside.openJs`. Simplification: that the loader panics (when the `length` of the
functions is a symbol or a big integer) is no different from an error there. -/
def JsEngine.open (E : JsEngine) (path : Path) (disk : Entry) : Option Plugin :=
  match disk.at path with
  | some (.file b) =>
    match loadJs E b with
    | .ok p => some p
    | _ => none
  | _ => none

end Stuart
