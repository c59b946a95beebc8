import Verif.Spec.Source
/-
Sites that build: in terms of the texts and the names of the files.
-/
namespace Stuart.Spec

section
variable (S : Sys) (plugins : List Plugin) (d : Entry) (p : Path)

/-- The file of this name and these bytes in the directory `ds` of the content can be read. -/
inductive Legible (ds : List Str) (nm : Str) (b : Bytes) : Prop
  | html {t : Tpl} : HasExt nm str!"html" → FileSpells S plugins d p ds nm t → Legible ds nm b
  | markdown {pairs : List (Str × Str)} {text : Str} {t : Tpl} : HasExt nm str!"md" →
      MdFileSpells S plugins d p ds nm pairs text t → Legible ds nm b
  | json {text : Str} {v : Value} : HasExt nm str!"json" → b = bytesOf text → S.parseJson text = some v → Legible ds nm b
  | other : Unhandled plugins nm → Legible ds nm b

/-- There is a page of this stem in the directory `ds` of the content. -/
def IsPage (ds : List Str) (stem : Str) : Prop :=
  stem ≠ [] ∧ ((stem ≠ str!"root" ∧ stem ≠ str!"md" ∧ ∃ b, look d (p ++ ds ++ [stem ++ str!".html"]) = some (.file b)) ∨
    ∃ b, look d (p ++ ds ++ [stem ++ str!".md"]) = some (.file b))

/-- Every text of the content can be read and rendered: files first, then the bodies of markdown pages in the content as
read, then pages in the content with these converted. -/
structure Sound (vars : List (Str × Value)) (name : Str) : Prop where
  directory : look d p = some .dir
  plain : ∀ r, look d (p ++ r) ≠ some .special
  files : ∀ ds nm b, look d (p ++ ds ++ [nm]) = some (.file b) → Legible S plugins d p ds nm b
  bodies : ∀ l cs, d.at p = some (.dir l) → ReadList (ReadAs S plugins) p l cs → ∀ ds nm b, HasExt nm str!"md" →
    look d (p ++ ds ++ [nm]) = some (.file b) → ∃ pairs text t r shown, MdFileSpells S plugins d p ds nm pairs text t ∧
      t.Tame ⟨.dir name cs (pathStr p), S.dateFmt⟩ [vars] [] ∧
      t.eval ⟨.dir name cs (pathStr p), S.dateFmt⟩ [vars] [] = .ok r ∧ r.out = bytesOf shown
  pages : ∀ cs ts, Content S plugins d p ⟨str!"base", vars, []⟩ name cs ts → ∀ ds stem, IsPage d p ds stem →
    ∃ b, PageMeans S plugins d p vars (.dir name cs (pathStr p)) (.dir name ts (pathStr p)) ds stem b

end

/-- There is room for everything, by the names alone: no two things want the same place. `dir` is the project, `p` its
content. -/
structure Roomy (cfg : Config) (d : Entry) (dir p : Path) : Prop where
  pages : ∀ ds stem, look d (p ++ ds ++ [stem ++ str!".md"]) = none ∨ look d (p ++ ds ++ [stem ++ str!".html"]) = none
  index : ∀ from_ ∈ [p, dir ++ [str!"static"], dir ++ [str!"temp"]], ∀ ds, look d (from_ ++ ds ++ [str!"index.html"]) ≠ some .dir
  files : ∀ from_ ∈ [dir ++ [str!"static"], dir ++ [str!"temp"]], ∀ ds nm b, look d (p ++ ds ++ [nm]) = some (.file b) →
    look d (from_ ++ ds ++ [nm]) = none ∧ ∀ stem, nm = stem ++ str!".md" → look d (from_ ++ ds ++ [stem ++ str!".html"]) = none
  dirs : ∀ from_ ∈ [dir ++ [str!"static"], dir ++ [str!"temp"]], ∀ r b, look d (p ++ r) = some .dir →
    look d (from_ ++ r) ≠ some (.file b)
  copied : ∀ r, look d (dir ++ [str!"static"] ++ r) = none ∨ look d (dir ++ [str!"temp"] ++ r) = none ∨
    look d (dir ++ [str!"static"] ++ r) = some .dir ∧ look d (dir ++ [str!"temp"] ++ r) = some .dir
  stripped : cfg.stripExtensions = true → ∀ ds stem, stem ≠ str!"index" →
    (∃ b, look d (p ++ ds ++ [stem ++ str!".html"]) = some (.file b) ∨ look d (p ++ ds ++ [stem ++ str!".md"]) = some (.file b)) →
    stem ≠ str!"index.html" ∧ ∀ from_ ∈ [p, dir ++ [str!"static"], dir ++ [str!"temp"]], ∀ b, look d (from_ ++ ds ++ [stem]) ≠ some (.file b)

/-- The project at `dir` can be built into `out` as far as names go: there is room for everything, and for the output too. -/
structure Placed (plugins : List Plugin) (cfg : Config) (d : Entry) (dir out : Path) : Prop where
  proper : ProperDisk d
  tame : Tame cfg plugins d dir (dir ++ [str!"content"])
  roomy : Roomy cfg d dir (dir ++ [str!"content"])
  copied : ∀ which ∈ [str!"static", str!"temp"], Copyable d (dir ++ [which])
  apart : ¬ dir ++ [str!"temp"] <+: out
  named : out ≠ []
  parent : look d out.dropLast = some .dir
  place : look d out = none ∨ look d out = some .dir
  metadata : cfg.saveMetadata = true → ¬ out <+: dir ++ [str!"metadata.json"] ∧
    (look d (dir ++ [str!"metadata.json"]) = none ∨ ∃ b, look d (dir ++ [str!"metadata.json"]) = some (.file b))

/-- The project at `dir` is ready to be built into `out`: its texts are sound, there is room for everything, and for the
output too. -/
structure Ready (S : Sys) (plugins : List Plugin) (cfg : Config) (d : Entry) (dir out : Path) (mode : Str) : Prop
    extends Placed plugins cfg d dir out where
  sound : Sound S plugins d (dir ++ [str!"content"]) (baseFrame S.vars mode).vars str!"content"

end Stuart.Spec
