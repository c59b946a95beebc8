import Verif.Spec.Source
/-
Templates in which no loop stands within a loop.
-/
namespace Stuart.Spec

/-- No loops at all. -/
def Tpl.NoLoops : Tpl → Prop
  | .nil => True
  | .leaf _ _ next => next.NoLoops
  | .section_ _ _ _ body next => body.NoLoops ∧ next.NoLoops
  | .loop .. => False
  | .if_ _ _ _ thn next => thn.NoLoops ∧ next.NoLoops
  | .ifElse _ _ _ _ thn els next => thn.NoLoops ∧ els.NoLoops ∧ next.NoLoops

/-- No loop within a loop. -/
def Tpl.Single : Tpl → Prop
  | .nil => True
  | .leaf _ _ next => next.Single
  | .section_ _ _ _ body next => body.Single ∧ next.Single
  | .loop _ _ _ body next => body.NoLoops ∧ next.Single
  | .if_ _ _ _ thn next => thn.Single ∧ next.Single
  | .ifElse _ _ _ _ thn els next => thn.Single ∧ els.Single ∧ next.Single

/-- The page of this stem in the directory `ds` of the content, and the templates it is rendered with, are properly nested, with no loop
within a loop. -/
inductive SinglePage (S : Sys) (plugins : List Plugin) (d : Entry) (p : Path) (ds : List Str) (stem : Str) : Prop
  | html {page root : Tpl} : FileSpells S plugins d p ds (stem ++ str!".html") page → TemplateSpells S plugins d p ds str!"root.html" root →
      page.Single → root.Single → SinglePage S plugins d p ds stem
  | markdown {pairs : List (Str × Str)} {text : Str} {body page root : Tpl} : MdFileSpells S plugins d p ds (stem ++ str!".md") pairs text body →
      TemplateSpells S plugins d p ds str!"md.html" page → TemplateSpells S plugins d p ds str!"root.html" root →
      body.Single → page.Single → root.Single → SinglePage S plugins d p ds stem

/-- Every page and template of the content is properly nested, with no loop within a loop. Nothing is said of what its blocks refer to. -/
structure AllSingle (S : Sys) (plugins : List Plugin) (d : Entry) (p : Path) : Prop where
  html : ∀ ds nm b, HasExt nm str!"html" → look d (p ++ ds ++ [nm]) = some (.file b) → ∃ t, FileSpells S plugins d p ds nm t ∧ t.Single
  markdown : ∀ ds nm b, HasExt nm str!"md" → look d (p ++ ds ++ [nm]) = some (.file b) →
    ∃ pairs text t, MdFileSpells S plugins d p ds nm pairs text t ∧ t.Single

end Stuart.Spec
