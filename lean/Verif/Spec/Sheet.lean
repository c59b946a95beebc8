import Verif.Spec.Sound
/-
Simple texts: words, variables, sections and places for sections. What they show is told on strings, without tokens.
-/
namespace Stuart.Spec

/-- A simple text. Each part comes with the words in front of it. -/
inductive Sheet where
  | words (w : Str)
  | var (w v : Str) (next : Sheet)
  | insert (w l : Str) (next : Sheet)
  | section_ (w l : Str) (body next : Sheet)

/-- The characters in the file. -/
def Sheet.text : Sheet → Str
  | .words w => w
  | .var w v next => w ++ str!"{{ $" ++ v ++ str!" }}" ++ next.text
  | .insert w l next => w ++ str!"{{ insert(\"" ++ l ++ str!"\") }}" ++ next.text
  | .section_ w l body next =>
    w ++ str!"{{ begin(\"" ++ l ++ str!"\") }}" ++ body.text ++ str!"{{ end(\"" ++ l ++ str!"\") }}" ++ next.text

/-- Words hold no tag opener, and leave alone what comes after them. -/
structure Words (w : Str) : Prop where
  clear : NoOpen w
  last : ¬ ['{'] <:+ w ∧ ¬ ['\\'] <:+ w

/-- Which simple texts can be written. -/
def Sheet.WF (U : Unicode) : Sheet → Prop
  | .words w => Words w
  | .var w v next => Words w ∧ v ≠ [] ∧ (∀ c ∈ v, U.alnum c = true ∨ c = '_' ∨ c = '.') ∧ next.WF U
  | .insert w l next => Words w ∧ '"' ∉ l ∧ next.WF U
  | .section_ w l body next => Words w ∧ '"' ∉ l ∧ body.WF U ∧ next.WF U

/-- What a simple text shows, and the sections it holds, with these variables and after these sections: nothing if a variable is
not a string, or a section is not there. Of two sections with the same name the first counts. -/
def Sheet.fill (vars : List (Str × Value)) : Sheet → List (Str × Str) → Option (Str × List (Str × Str))
  | .words w, _ => some (w, [])
  | .var w v next, secs => match meant v [vars] with
    | some (.str s) => (next.fill vars secs).map fun r => (w ++ s ++ r.1, r.2)
    | _ => none
  | .insert w l next, secs => (secs.lookup l).bind fun s => (next.fill vars secs).map fun r => (w ++ s ++ r.1, r.2)
  | .section_ w l body next, secs => (body.fill vars secs).bind fun b =>
    (next.fill vars (secs ++ b.2 ++ [(l, b.1)])).map fun r => (w ++ b.1 ++ r.1, b.2 ++ (l, b.1) :: r.2)

/-- A page within its root template. -/
def framed (vars pageVars : List (Str × Value)) (page root : Sheet) : Option Str :=
  (page.fill pageVars []).bind fun r => (root.fill vars r.2).map (·.1)

section
variable (S : Sys) (d : Entry) (p : Path)

/-- The file of this name in the directory `ds` of the content has this simple text. -/
def FileIs (ds : List Str) (nm : Str) (t : Sheet) : Prop :=
  t.WF S.U ∧ look d (p ++ ds ++ [nm]) = some (.file (bytesOf t.text))

/-- The template of this name that is in force in the directory `ds` of the content has this simple text. -/
def TemplateReads (ds : List Str) (nm : Str) (t : Sheet) : Prop := ∃ q, InForce d p nm ds q ∧ FileIs S d p q nm t

/-- The file of this name is a markdown file with these pairs and a body of this simple text. -/
def MdFileIs (ds : List Str) (nm : Str) (pairs : List (Str × Str)) (t : Sheet) : Prop :=
  t.WF S.U ∧ (∀ e ∈ pairs, PairWF e) ∧
    ∃ body, t.text = dropFinalNl (crlfToLf body) ∧ look d (p ++ ds ++ [nm]) = some (.file (bytesOf (mdFile pairs body)))

/-- The page of this stem, in the directory `ds` of the content, is of simple texts, and this is what it shows, if anything. The
template of a markdown page has the page as `self`. -/
inductive Shown (vars : List (Str × Value)) (ds : List Str) (stem : Str) : Option Str → Prop
  | html {page root : Sheet} : FileIs S d p ds (stem ++ str!".html") page → TemplateReads S d p ds str!"root.html" root →
      Shown vars ds stem (framed vars vars page root)
  | markdown {pairs : List (Str × Str)} {body page root : Sheet} : MdFileIs S d p ds (stem ++ str!".md") pairs body →
      TemplateReads S d p ds str!"md.html" page → TemplateReads S d p ds str!"root.html" root →
      Shown vars ds stem ((body.fill vars []).bind fun r =>
        framed vars (vars ++ [(str!"self", selfValue pairs body.text (S.ext.mdToHtml r.1))]) page root)

/-- The file of this name and these bytes is a simple text by its type, or no text at all. -/
inductive SimpleFile (plugins : List Plugin) (vars : List (Str × Value)) (ds : List Str) (nm : Str) (b : Bytes) : Prop
  | html {t : Sheet} : HasExt nm str!"html" → FileIs S d p ds nm t → SimpleFile plugins vars ds nm b
  | markdown {pairs : List (Str × Str)} {t : Sheet} {r : Str × List (Str × Str)} : HasExt nm str!"md" →
      MdFileIs S d p ds nm pairs t → t.fill vars [] = some r → SimpleFile plugins vars ds nm b
  | json {text : Str} {v : Value} : HasExt nm str!"json" → b = bytesOf text → S.parseJson text = some v →
      SimpleFile plugins vars ds nm b
  | other : Unhandled plugins nm → SimpleFile plugins vars ds nm b

/-- All texts of the content are simple, and every page shows something. -/
structure Sheets (plugins : List Plugin) (vars : List (Str × Value)) : Prop where
  directory : look d p = some .dir
  plain : ∀ r, look d (p ++ r) ≠ some .special
  files : ∀ ds nm b, look d (p ++ ds ++ [nm]) = some (.file b) → SimpleFile S d p plugins vars ds nm b
  pages : ∀ ds stem, IsPage d p ds stem → ∃ s, Shown S d p vars ds stem (some s)

end

end Stuart.Spec
