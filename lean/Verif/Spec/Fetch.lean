import Verif.Model.Plugins
import Verif.Spec.Disk
/-
What fetching plugins is about: where they are kept, how a repository is built, what other programs leave alone.
-/
namespace Stuart.Spec

/-- The last piece of an address or path, which is the name of a file. -/
def EndsIn (src file : Str) : Prop := ∃ pre, src = pre ++ file ∧ (pre = [] ∨ ['/'] <:+ pre) ∧ PlainName file

/-- The directory in which a plugin is kept. -/
def keptIn (root : Path) (name : Str) : Path := root ++ [str!"_build", str!"plugins", name]

/-- Nothing is in the way of this directory: along the path there are directories, as far as there is anything. -/
def RoomFor (d : Entry) (p : Path) : Prop :=
  look d [] = some .dir ∧ ∀ r, r <+: p → look d r = none ∨ look d r = some .dir

/-- There is nothing on the disk that this source could name: neither a file nor a Cargo project. -/
def NotLocal (root : Path) (src : Str) (d : Entry) : Prop :=
  (∀ b, look d (joinPath root src) ≠ some (.file b)) ∧ look d (joinPath root src ++ [str!"Cargo.toml"]) = none

/-- The directory is a Cargo project of this name. -/
def IsProject (O : Outside) (d : Entry) (p : Path) (name : Str) : Prop :=
  ∃ b, look d (p ++ [str!"Cargo.toml"]) = some (.file b) ∧ (fromUtf8 b).bind O.packageName = some name

/-- The project in this directory is built by Cargo, and the library that comes from it is this plugin. -/
def Builds (O : Outside) (tick : Nat) (d : Entry) (p : Path) (q : Plugin) : Prop :=
  ∃ o d' pkg, O.cargo tick (p ++ [str!"Cargo.toml"]) d = (d', some o) ∧ o.code = some 0 ∧ IsProject O d' p pkg ∧
    O.openLibrary (tick + 1) (joinPath (p ++ [str!"target", str!"release"]) (str!"lib" ++ pkg ++ str!".so")) d' = some (some q)

/-- The other programs leave alone what is at this path. -/
structure Spares (O : Outside) (q : Path) : Prop where
  clone : ∀ n url repo d, look (O.gitClone n url repo d).1 q = look d q
  pull : ∀ n repo d, look (O.gitPull n repo d).1 q = look d q
  cargo : ∀ n manifest d, look (O.cargo n manifest d).1 q = look d q

end Stuart.Spec
