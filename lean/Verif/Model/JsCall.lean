import Verif.Model.Js
import Verif.Model.JsState
/-
Calls of JavaScript functions that remember things: stuart/src/plugins/js/mod.rs:174-221 and context.rs:50-87, as in
Model/Js.lean, with the state of the plugin's context; and the
builds of a development server.
-/
namespace Stuart

/-- `JsRun` of a function that remembers things: what the context is when the function has returned or thrown. -/
inductive JsRunS (σ : Type) where
  | ret (s : σ) (out : Option Str)
  | throw (s : σ)
  | set (name : Str) (v : JsVal) (next : JsRunS σ)
  | get (name : Str) (next : JsVal → JsRunS σ)

/-- `runJs` with a state (context.rs:50-87, mod.rs:210-216). Simplification: the state after a panic is the one before the
call; the process ends there. -/
def runJsS {σ : Type} (scopes : List (List (Str × Value))) (s : σ) :
    JsRunS σ → List (Str × Value) → σ × Res ProcErr (List (Str × Value) × Bytes)
  | .ret s' out, added => (s', .ok (added, (out.map bytesOf).getD []))
  | .throw s', added => (s', .ok (added, []))
  | .set name v next, added =>
    thenS (s, jsToJson v) fun w _ => match w with
      | none => runJsS scopes s next added
      | some w => match scopes with
        | [] => (s, .panic .plugin)
        | _ :: _ => runJsS scopes s next (added ++ [(name, w)])
  | .get name next, added => runJsS scopes s (next (optToJs (lookupVar name (jsFrames added scopes)))) added

/-- `jsFunction` with a state (mod.rs:179-221). -/
def jsCall {σ : Type} (fn : Option (σ → List JsVal → JsRunS σ)) (args : List RawArg) : Call σ := fun s scopes =>
  thenS (s, jsArgs scopes args) fun vs s => thenS (s, Res.unwrap .plugin fn) fun f s => runJsS scopes s (f s vs) []

/-- The builds of a development server (stuart/src/serve/mod.rs:58-64 and 124-126): the plugins are loaded before the first,
and a build that fails is reported and followed by the next. Of every build, what its content is at the time. Simplification:
only the trees are made; what is written is not. -/
def sessionS {σ : Type} (call : LTok → Call σ) (ext : Ext) (dateFmt : Str → Str → Option Str) (cfg : Config)
    (vars : List (Str × Str)) (mode : Str) : List Node → σ → σ × List (Res SErr Node)
  | [], s => (s, [])
  | n :: ns, s =>
    let r := buildTreeS call ext dateFmt cfg vars mode n s
    let rs := sessionS call ext dateFmt cfg vars mode ns r.1
    (rs.1, r.2 :: rs.2)

end Stuart
