import Verif.Model.Fs
/-
The image optimiser: plugins/imgopt/src/lib.rs.
-/
namespace Stuart

/-- imgopt/src/lib.rs:28-40 `PngProcessor` for these contents. `optimize` is `oxipng::optimize_from_memory` with the
preset 3; an error is its text. The metadata is the default of plugins/mod.rs:53-55. -/
def pngProcessor (optimize : Bytes → Except Str Bytes) (b : Bytes) : Custom where
  process := fun _ _ =>
    match optimize b with
    | .error e => .err (str!"png optimization error: " ++ e)
    | .ok o => .ok { newContents := some o, newName := none }
  toJson := .obj [(str!"type", .str str!"custom")]

/-- imgopt/src/lib.rs:18-26 `PngParser` -/
def pngParser (optimize : Bytes → Except Str Bytes) : NodeParser where
  extensions := [str!"png"]
  parse := fun b _ => .ok (pngProcessor optimize b)

/-- imgopt/src/lib.rs:9-14: the plugin. -/
def imgopt (optimize : Bytes → Except Str Bytes) : Plugin where
  fns := ⟨str!"imgopt", []⟩
  parsers := [pngParser optimize]

end Stuart
