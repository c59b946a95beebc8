import Verif.Spec.Terms
/-
Moving a project to another place.
-/
namespace Stuart.Spec

/-- The path of a thing in the directory `old`, after that directory has become `new`. -/
def movedPath (old new : Path) (s : Str) : Str := pathStr new ++ s.drop (pathStr old).length

/-- An error in a file that is now elsewhere. -/
def movedTB {κ : Type} (ρ : Str → Str) (e : TB κ) : TB κ := { e with path := ρ e.path }

/-- An error that is the same but for the paths of files in it. -/
def movedErr (ρ : Str → Str) : SErr → SErr
  | .fs (.notFound s) => .fs (.notFound (ρ s))
  | .fs (.conflict a b) => .fs (.conflict (ρ a) (ρ b))
  | .parse e => .parse (movedTB ρ e)
  | .process e => .process (movedTB ρ e)
  | e => e

/-- The same for the errors of the program, which also name paths of their own. -/
def movedCli (old new : Path) : CliErr → CliErr
  | .core e => .core (movedErr (movedPath old new) e)
  | .manifestAt p line col msg => .manifestAt (new ++ p.drop old.length) line col msg
  | .cleanFailed p => .cleanFailed (new ++ p.drop old.length)
  | e => e

/-- Tokens of a file that is now elsewhere. -/
def movedTok (ρ : Str → Str) (t : LTok) : LTok := { t with path := ρ t.path }

/-- A plugin for a type of files that makes nothing of the place of the files: neither of the path it is told, nor of
the paths in the templates. The names it gives are names of files. -/
structure Placeless (q : NodeParser) : Prop where
  parse : ∀ b s s', q.parse b s = q.parse b s'
  process : ∀ b s c, q.parse b s = .ok c → ∀ ρ root md,
    c.process (root.map (List.map (movedTok ρ))) (md.map (List.map (movedTok ρ))) = c.process root md
  names : ∀ b s c, q.parse b s = .ok c → ∀ root md out n, c.process root md = .ok out → out.newName = some n → PlainName n

/-- All plugins for types of files are. -/
def AllPlaceless (plugins : List Plugin) : Prop := ∀ p ∈ plugins, ∀ q ∈ p.parsers, Placeless q

/-- The same project at two places: the same files in the two directories, the same mishaps to come, and as many scripts
run. Around the two directories the disks may differ, and they may be the same disk. -/
structure Twins (old new : Path) (s s' : Host) : Prop where
  files : s'.world.disk.at new = s.world.disk.at old
  faults : s'.world.faults = s.world.faults
  runs : s'.runs.length = s.runs.length

/-- The variables a script is given (build.rs:92-112). -/
def scriptVars (dir : Path) (output mode : Str) : List (Str × Str) :=
  [(str!"STUART_MANIFEST_PATH", pathStr (dir ++ [str!"stuart.toml"])), (str!"STUART_MANIFEST_DIR", pathStr dir),
    (str!"STUART_TEMP_DIR", pathStr (dir ++ [str!"temp"])), (str!"STUART_OUT_DIR", pathStr dir ++ '/' :: output), (str!"STUART_ENV", mode)]

/-- Scripts that do the same in the two places, given the same files there and the variables for each. -/
structure ScriptsFollow (M : Machine) (old new : Path) (out mode : Str) : Prop where
  files : ∀ n r d d', d'.at new = d.at old →
    (M.shell n (new ++ r) (scriptVars new out mode) d').1.at new = (M.shell n (old ++ r) (scriptVars old out mode) d).1.at old
  output : ∀ n r d d', d'.at new = d.at old →
    (M.shell n (new ++ r) (scriptVars new out mode) d').2 = (M.shell n (old ++ r) (scriptVars old out mode) d).2
  proper : ∀ n r d, ProperDisk d → ProperDisk (M.shell n (old ++ r) (scriptVars old out mode) d).1

/-- A plugin loader that fetches nothing and does not look where the project is; its plugins do not either. -/
structure LoaderFollows (L : Loader) (old new : Path) : Prop where
  still : ∀ deps s, (L.loadPlugins deps old s).1 = s ∧ (L.loadPlugins deps new s).1 = s
  same : ∀ deps s s', (L.loadPlugins deps new s').2 = (L.loadPlugins deps old s).2
  errors : ∀ deps s e, (L.loadPlugins deps old s).2 = .err e → movedCli old new e = e
  placeless : ∀ deps s plugins, (L.loadPlugins deps old s).2 = .ok plugins → AllPlaceless plugins

end Stuart.Spec
