import Verif.Spec.Succeeds
import Verif.Spec.Start
/-
A project that asks for nothing but what is in its directory.
-/
namespace Stuart.Spec

/-- The project at this path: a manifest that can be read, dependencies that can be loaded, which leaves the second state
and gives these plugins, with functions only, and no scripts. -/
structure Simple (L : Loader) (cwd : Path) (manifest : Str) (s s1 : Host) (p : Path) (raw : RawConfig) (plugins : List Plugin) :
    Prop where
  found : Names s.world.disk cwd manifest p
  text : ∃ t, look s.world.disk p = some (.file (bytesOf t)) ∧ L.parseToml t = .ok raw
  loaded : L.loadPlugins raw.dependencies p.dropLast s = (s1, .ok plugins)
  functions : FunctionsOnly plugins
  scripts : look s1.world.disk (p.dropLast ++ [str!"scripts"]) = none

end Stuart.Spec
