import Verif.Spec.Grammar
import Verif.Spec.Block
import Verif.Spec.Lines
import Verif.Spec.Succeeds
/-
From the text of a page and of its templates to what is published.
-/
namespace Stuart.Spec

/-- The text, in a file at this path, is that of this properly nested template. -/
structure Spells (S : Sys) (plugins : List Plugin) (src text : Str) (t : Tpl) : Prop where
  parses : Parses S.U src (plugins.map fun p => p.fns) [] text t.toks
  wf : t.WF

section
variable (S : Sys) (plugins : List Plugin) (d : Entry) (p : Path) (ds : List Str)

/-- The file of this name in the directory `ds` of the content has the text of this template. -/
def FileSpells (nm : Str) (t : Tpl) : Prop :=
  ∃ text, look d (p ++ ds ++ [nm]) = some (.file (bytesOf text)) ∧ Spells S plugins (pathStr (p ++ ds ++ [nm])) text t

/-- The template of this name that is in force in the directory `ds` of the content has the text of this template. -/
def TemplateSpells (nm : Str) (t : Tpl) : Prop := ∃ q, InForce d p nm ds q ∧ FileSpells S plugins d p q nm t

/-- The file of this name is a markdown file with these pairs and a body with this text, which is that of this template. The
body counts with LF line ends and without one final newline. -/
def MdFileSpells (nm : Str) (pairs : List (Str × Str)) (text : Str) (t : Tpl) : Prop :=
  ∃ body, look d (p ++ ds ++ [nm]) = some (.file (bytesOf (mdFile pairs body))) ∧ (∀ e ∈ pairs, PairWF e) ∧
    text = dropFinalNl (crlfToLf body) ∧ Spells S plugins (pathStr (p ++ ds ++ [nm])) text t

end

/-- What a markdown page is to its template. -/
def selfValue (pairs : List (Str × Str)) (text html : Str) : Value :=
  .obj (put str!"markdown" (.str text) (put str!"content" (.str html) (pairs.map fun e => (e.1, .str e.2))))

/-- The page of this stem, in the directory `ds` of the content, and what becomes of it, from the texts. A page is rendered
for its sections, and then the root template with these. The body of a markdown page is rendered and converted first, and
the markdown template is rendered in place of the page. `input` is the content as read, and `tree` the content with its
markdown converted. Where a loop is empty, or a branch that is not taken holds a block, nothing is said. -/
inductive PageMeans (S : Sys) (plugins : List Plugin) (d : Entry) (p : Path) (vars : List (Str × Value)) (input tree : Node)
    (ds : List Str) (stem : Str) : Bytes → Prop
  | html {page root : Tpl} {r r' : Out} :
      FileSpells S plugins d p ds (stem ++ str!".html") page → TemplateSpells S plugins d p ds str!"root.html" root →
      page.Tame ⟨tree, S.dateFmt⟩ [vars] [] → page.eval ⟨tree, S.dateFmt⟩ [vars] [] = .ok r →
      root.Tame ⟨tree, S.dateFmt⟩ [vars] r.secs → root.eval ⟨tree, S.dateFmt⟩ [vars] r.secs = .ok r' →
      PageMeans S plugins d p vars input tree ds stem r'.out
  | markdown {pairs : List (Str × Str)} {text shown : Str} {body page root : Tpl} {r0 r r' : Out} :
      MdFileSpells S plugins d p ds (stem ++ str!".md") pairs text body →
      TemplateSpells S plugins d p ds str!"md.html" page → TemplateSpells S plugins d p ds str!"root.html" root →
      body.Tame ⟨input, S.dateFmt⟩ [vars] [] → body.eval ⟨input, S.dateFmt⟩ [vars] [] = .ok r0 → r0.out = bytesOf shown →
      page.Tame ⟨tree, S.dateFmt⟩ [vars ++ [(str!"self", selfValue pairs text (S.ext.mdToHtml shown))]] [] →
      page.eval ⟨tree, S.dateFmt⟩ [vars ++ [(str!"self", selfValue pairs text (S.ext.mdToHtml shown))]] [] = .ok r →
      root.Tame ⟨tree, S.dateFmt⟩ [vars] r.secs → root.eval ⟨tree, S.dateFmt⟩ [vars] r.secs = .ok r' →
      PageMeans S plugins d p vars input tree ds stem r'.out

/-- Where the page of this stem is published. -/
def placeOf (cfg : Config) (ds : List Str) (stem : Str) : Path :=
  if cfg.stripExtensions then ds ++ [stem, str!"index.html"] else ds ++ [stem ++ str!".html"]

/-- Nothing else gets there. `dir` is the project, `p` its content. -/
def PlaceFree (cfg : Config) (d : Entry) (dir p : Path) (ds : List Str) (stem : Str) : Prop :=
  if cfg.stripExtensions then stem ≠ str!"index" ∧ stem ≠ str!"." ∧ look d (p ++ ds ++ [stem]) = none ∧
    ∀ which ∈ [str!"static", str!"temp"], look d (dir ++ [which] ++ ds ++ [stem]) = none
  else ∀ which ∈ [str!"static", str!"temp"], look d (dir ++ [which] ++ ds ++ [stem ++ str!".html"]) = none

end Stuart.Spec
