import Verif.Spec.Finds
/-
What a page refers to.
-/
namespace Stuart.Spec

/-- The path of the content that a token is about: the file of an import, and the file or directory of a loop. -/
def pathIn : Token → Option Str
  | .func (.import_ _ path) => some path
  | .func (.for_ f) => if f.kind = .jsonObj then none else some f.source
  | _ => none

/-- These tokens refer to nothing but these places of the content. -/
def RefersTo (places : List Str → Prop) (toks : List LTok) : Prop :=
  ∀ t ∈ toks, ∀ path, pathIn t.inner = some path → ∀ names, Aims path names → places names

section
variable (S : Sys) (plugins : List Plugin) (d d' : Entry) (p : Path)

/-- The text of the file of this name in the directory `ds` of the content refers to nothing but these places: a page with its
functions, or a markdown file with those of its body. -/
def FileRefersTo (places : List Str → Prop) (ds : List Str) (nm : Str) : Prop :=
  ∀ b, look d (p ++ ds ++ [nm]) = some (.file b) →
    (∀ toks, ReadAs S plugins nm (pathStr (p ++ ds ++ [nm])) b (.html toks) → RefersTo places toks) ∧
    ∀ md, ReadAs S plugins nm (pathStr (p ++ ds ++ [nm])) b (.markdown md) → RefersTo places md.markdown

/-- The templates for the directory `ds` are the same in both projects. -/
def SameTemplates (ds : List Str) : Prop :=
  ∀ nm ∈ [str!"root.html", str!"md.html"], ∀ q b, InForce d p nm ds q ∧ look d (p ++ q ++ [nm]) = some (.file b) ↔
    InForce d' p nm ds q ∧ look d' (p ++ q ++ [nm]) = some (.file b)

/-- All that the file of this name in the directory `ds` of the content depends on is at these places, and is the same in both
projects: the file, its templates, and what these refer to, and what the markdown there refers to. -/
structure SameFor (places : List Str → Prop) (ds : List Str) (nm : Str) : Prop where
  file : look d (p ++ ds ++ [nm]) = look d' (p ++ ds ++ [nm])
  templates : SameTemplates d d' p ds
  same : ∀ names, places names → d.at (p ++ names) = d'.at (p ++ names)
  fileRefers : FileRefersTo S plugins d p places ds nm
  templatesRefer : ∀ t ∈ [str!"root.html", str!"md.html"], ∀ q, InForce d p t ds q → FileRefersTo S plugins d p places q t
  placesRefer : ∀ names, places names → ∀ ds nm, names <+: ds ++ [nm] → HasExt nm str!"md" → FileRefersTo S plugins d p places ds nm

/-- The two projects differ at this place of the content at most: what is there, and so what the directories above have. -/
def DifferAt (x : List Str) : Prop :=
  ∀ names, ¬ names <+: x → ¬ x <+: names → d.at (p ++ names) = d'.at (p ++ names)

/-- Nowhere above, at or below this place. -/
def Elsewhere (x names : List Str) : Prop := ¬ names <+: x ∧ ¬ x <+: names
end

end Stuart.Spec
