import Verif.Spec.Content
/-
When a build succeeds, in terms of the files of a project.
-/
namespace Stuart.Spec

/-- No plugin handles a type of files. -/
def FunctionsOnly (plugins : List Plugin) : Prop := ∀ pl ∈ plugins, pl.parsers = []

section
variable (S : Sys) (plugins : List Plugin) (d : Entry) (dir p : Path) (base : Frame) (input tree : Node)

/-- The file of the first name in the directory `ds` of the content becomes a file of the second name with these
bytes. -/
def MadeInto (ds : List Str) (nm nm' : Str) (b' : Bytes) : Prop :=
  ∃ (b : Bytes) (c c' : Parsed), look d (p ++ ds ++ [nm]) = some (.file b) ∧
    ReadAs S plugins nm (pathStr (p ++ ds ++ [nm])) b c ∧ Converted S.ext ⟨input, S.dateFmt⟩ base c c' ∧
    Made S plugins d p ⟨tree, S.dateFmt⟩ base ds nm b c' nm' b'

/-- What there is to put at a place of the site: from the content (`none`) or from a directory that is copied, in the
directory `ds`, of this name, a directory (`true`) or a file. -/
inductive Supplied : Option Str → List Str → Str → Bool → Prop
  | page {ds : List Str} {nm nm' : Str} {b' : Bytes} : MadeInto S plugins d p base input tree ds nm nm' b' →
      Supplied none ds nm' false
  | dir {ds : List Str} {nm : Str} : look d (p ++ ds ++ [nm]) = some .dir → Supplied none ds nm true
  | copy {which : Str} {ds : List Str} {nm : Str} {b : Bytes} : look d (dir ++ [which] ++ ds ++ [nm]) = some (.file b) →
      Supplied (some which) ds nm false
  | copyDir {which : Str} {ds : List Str} {nm : Str} : look d (dir ++ [which] ++ ds ++ [nm]) = some .dir →
      Supplied (some which) ds nm true

/-- What comes from two sources for the same place are directories. -/
def Compatible (x y : Option Str) : Prop :=
  ∀ ds nm k k', Supplied S plugins d dir p base input tree x ds nm k → Supplied S plugins d dir p base input tree y ds nm k' →
    k = true ∧ k' = true

/-- No two things in one directory of the content get the same name, and no directory is called `index.html`. -/
structure NamesApart : Prop where
  files : ∀ ds nm nm' n b b', MadeInto S plugins d p base input tree ds nm n b →
    MadeInto S plugins d p base input tree ds nm' n b' → nm = nm'
  dirs : ∀ ds nm n b, MadeInto S plugins d p base input tree ds nm n b → look d (p ++ ds ++ [n]) ≠ some .dir
  index : ∀ ds, look d (p ++ ds ++ [str!"index.html"]) ≠ some .dir
  indexCopied : ∀ which ∈ [str!"static", str!"temp"], ∀ ds, look d (dir ++ [which] ++ ds ++ [str!"index.html"]) ≠ some .dir

/-- The directory at this path can be copied: it is not there, or everything in it can be read. -/
def Copyable (q : Path) : Prop := look d q = none ∨ look d q = some .dir ∧ ∀ r, look d (q ++ r) ≠ some .special

/-- What has to hold for the site to be published in the directory `out`. -/
structure Publishable (cfg : Config) (out : Path) : Prop where
  static : Copyable d (dir ++ [str!"static"])
  temp : Copyable d (dir ++ [str!"temp"])
  contentStatic : Compatible S plugins d dir p base input tree none (some str!"static")
  contentTemp : Compatible S plugins d dir p base input tree none (some str!"temp")
  staticTemp : Compatible S plugins d dir p base input tree (some str!"static") (some str!"temp")
  proper : out ≠ []
  parent : look d out.dropLast = some .dir
  place : look d out = none ∨ look d out = some .dir
  apart : ∀ r b, Belongs S plugins cfg d dir p base input tree r b → ¬ BelongsDir S plugins cfg d dir p base input tree r
  project : cfg.saveMetadata = true → look d dir = some .dir
  metaPlace : cfg.saveMetadata = true → look d (dir ++ [str!"metadata.json"]) = none ∨
    ∃ b, look d (dir ++ [str!"metadata.json"]) = some (.file b)
  objects : cfg.saveMetadata = true → ∀ ds nm b k, look d (p ++ ds ++ [nm]) = some (.file b) →
    ReadAs S plugins nm (pathStr (p ++ ds ++ [nm])) b (.custom k) → ∃ l, k.toJson = .obj l
end

end Stuart.Spec
