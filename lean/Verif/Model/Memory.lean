import Verif.Model.Fs
/-
Builders of trees in memory: stuart-core/src/lib.rs:92-108 `Stuart::new_from_node`, and the processing of single nodes
with them, as in stuart-core/src/tests/mod.rs:60-85.
-/
namespace Stuart

/-- lib.rs:99: the base frame of such a builder has no variables. -/
def memoryBase : Frame := Frame.new str!"base"

/-- lib.rs:93-108 `new_from_node`: the markdown is rendered at once, against the tree as it is given. An error in that is
unwrapped. The base frame is not a part of `Project`; it is `memoryBase`. -/
def Project.fromNode (S : Sys) (n : Node) : Res SErr Project :=
  match preNode S.ext ⟨n, S.dateFmt⟩ memoryBase n with
  | .ok n' => .ok { dir := joinPath [] n.source, input := some n' }
  | .err _ => .panic .bodyFailed
  | .panic p => .panic p

/-- process/mod.rs:54-85 `Node::process` with a builder whose input is `tree`. A directory has no contents to unwrap
(process/mod.rs:76). -/
def processIn (S : Sys) (base : Frame) (cfg : Config) (tree : Node) (env : Env) : Node → Res SErr Node
  | .file name contents p _ src => processFile ⟨⟨tree, S.dateFmt⟩, base, cfg⟩ env name contents p src
  | .dir .. => .panic .noContents

end Stuart
