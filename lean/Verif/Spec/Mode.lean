import Verif.Spec.Terms
import Verif.Spec.Read
/-
What depends on the environment and the mode of a build.
-/
namespace Stuart.Spec

/-- The variables that are not called `env`. -/
def others (l : List (Str × Value)) : List (Str × Value) := l.filter fun e => e.1 != str!"env"

/-- A plugin function that does the same whatever variables called `env` there are. -/
def Blind (g : PluginFn) : Prop := ∀ vs vs', vs'.map others = vs.map others → g.exec vs' = g.exec vs

/-- All functions of the plugins do. -/
def AllBlind (plugins : List Plugin) : Prop :=
  ∀ p ∈ plugins, ∀ f ∈ p.fns.functions, ∀ raw g, f.parse raw = .ok g → Blind g

/-- No text of the content has `$env` in it. -/
def NoEnv (d : Entry) (content : Path) : Prop :=
  ∀ ds name b text, look d (content ++ ds ++ [name]) = some (.file b) → HasExt name str!"html" ∨ HasExt name str!"md" →
    fromUtf8 b = some text → ¬ str!"$env" <:+: text

/-- The same machine, with these environment variables. -/
def withVars (M : Machine) (vars : List (Str × Str)) : Machine := { M with sys := { M.sys with vars := vars } }

/-- Scripts that do the same in every mode, and put no `$env` in the content. -/
structure ScriptsDeaf (M : Machine) (content : Path) : Prop where
  same : ∀ n p vars m m' d, M.shell n p (vars ++ [(str!"STUART_ENV", m')]) d = M.shell n p (vars ++ [(str!"STUART_ENV", m)]) d
  keep : ∀ n p vars d, NoEnv d content → NoEnv (M.shell n p vars d).1 content
  proper : ∀ n p vars d, ProperDisk d → ProperDisk (M.shell n p vars d).1

/-- A plugin loader that fetches nothing, of plugins whose functions do not look at `env`. -/
structure LoaderBlind (L : Loader) : Prop where
  still : ∀ deps dir s, (L.loadPlugins deps dir s).1 = s
  blind : ∀ deps dir s plugins, (L.loadPlugins deps dir s).2 = .ok plugins → AllBlind plugins

end Stuart.Spec
