import Verif.Model.Fs
/-
The demonstration plugin: plugins/demo/src/lib.rs and function.rs.
-/
namespace Stuart

/-- demo/src/function.rs:24-36 `DemoFunction`: `scope.output` (process/stack.rs) appends to the topmost frame; that it fails
without a frame, and the `unwrap` then panics, is left to the interpreter, which never runs a function without a frame. -/
def demoFunction : PluginFn where
  name := some str!"demo"
  exec := fun _ => .ok ([], bytesOf str!"<p>This was written by the demo function!</p>")

/-- demo/src/function.rs:11-22 `DemoParser` -/
def demoParser : PluginFnParser where
  name := str!"demo"
  parse := fun raw => if raw.pos.isEmpty && raw.named.isEmpty then .ok demoFunction else .err .assertion

/-- demo/src/lib.rs:5-10: the plugin. -/
def demoPlugin : Plugin where
  fns := ⟨str!"demo", [demoParser]⟩
  parsers := []

end Stuart
