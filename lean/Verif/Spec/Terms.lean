import Verif.Model.Cli
import Verif.Spec.Site
import Verif.Spec.Disk
import Verif.Spec.Merge
/-
Terms that the statements of many properties use.
-/
namespace Stuart
open Spec

/-- Reading, then building. -/
def readBuild (S : Sys) (disk : Entry) (mode : Str) (s : Project) : Res SErr Node :=
  (readTree S true s.plugins disk s.dir).bind fun input => buildTree S.ext S.dateFmt s.config S.vars mode input

/-- The result of processing the file at a position. -/
def pageAt (b : Builder) (env : Env) (n : Node) (pos : List Nat) : Res SErr Node :=
  match nodeAt n pos with
  | some (.file name contents p _ src) => processFile b env name contents p src
  | some d => .ok d
  | none => .err .notBuilt

/-- lib.rs:240-247: what happens to one file. -/
def preFile (ext : Ext) (cx : Ctx) (base : Frame) (p : Parsed) (src : Str) : Res SErr Parsed :=
  match p with
  | .markdown md => ((preprocessMd ext cx base src md).mapErr .process).bind fun md' => .ok (.markdown md')
  | p => .ok p

/-- The result of rendering the markdown body at a position. -/
def bodyAt (ext : Ext) (cx : Ctx) (base : Frame) (n : Node) (pos : List Nat) : Res SErr Parsed :=
  match nodeAt n pos with
  | some (.file _ _ p _ src) => preFile ext cx base p src
  | _ => .ok .none

/-- No mishaps ahead. -/
def World.Calm (w : World) : Prop := ∀ f ∈ w.faults, f = none

/-- The context once the content has been built. -/
def Context.built (M : Machine) (c : Context) (disk : Entry) : Context :=
  { c with stuart := (c.stuart.build M.sys disk c.mode).1 }

/-- Where the site is saved. -/
def Context.outPath (c : Context) : Path := joinPath c.dir c.output

/-- Where the metadata goes. -/
def Context.metaPath (c : Context) : Path := c.dir ++ [str!"metadata.json"]

/-- Scripts that leave a place alone. -/
def Leaves (M : Machine) (q : Path) : Prop := ∀ n p env d, look (M.shell n p env d).1 q = look d q

/-- Neither place is within the other. -/
def Apart (p q : Path) : Prop := ¬ p <+: q ∧ ¬ q <+: p

/-- No file of the static or temporary files has the name `...html`, if extensions are stripped. -/
def NoDots (cfg : Config) (disk : Entry) (dir : Path) : Prop :=
  cfg.stripExtensions = true → ∀ n ∈ [str!"static", str!"temp"], ∀ ds, look disk (dir ++ [n] ++ ds ++ [str!"...html"]) = none

/-- There is this thing at this place on disk, read without parsing. -/
def InDir (disk : Entry) (p : Path) (ds : List Str) (nm : Str) : Thing → Prop
  | .dir => look disk (p ++ ds ++ [nm]) = some .dir
  | .file b c m src => look disk (p ++ ds ++ [nm]) = some (.file b) ∧ c = .ignored ∧ m = none ∧
      src = pathStr (p ++ ds ++ [nm])

end Stuart
