import Verif.Spec.Read
/-
What a whole build makes of the files of a project.
-/
namespace Stuart.Spec

/-- Below the content directory `p`, in the directory `ds`, what counts as the template of this name is in the
directory `q`: the innermost of the directories around that has something of the name. -/
def InForce (d : Entry) (p : Path) (nm : Str) (ds q : List Str) : Prop :=
  q <+: ds ∧ look d (p ++ q ++ [nm]) ≠ none ∧ ∀ q', q' <+: ds → look d (p ++ q' ++ [nm]) ≠ none → q' <+: q

/-- The tokens of the template of this name for the directory `ds`. -/
def TemplateIs (S : Sys) (plugins : List Plugin) (d : Entry) (p : Path) (nm : Str) (ds : List Str) (toks : List LTok) : Prop :=
  ∃ q b, InForce d p nm ds q ∧ look d (p ++ q ++ [nm]) = some (.file b) ∧
    ReadAs S plugins nm (pathStr (p ++ q ++ [nm])) b (.html toks)

/-- There is no template of this name for the directory `ds`. -/
def NoTemplate (S : Sys) (plugins : List Plugin) (d : Entry) (p : Path) (nm : Str) (ds : List Str) : Prop :=
  ∀ toks, ¬ TemplateIs S plugins d p nm ds toks

/-- The template, if there is one. -/
def Templates (S : Sys) (plugins : List Plugin) (d : Entry) (p : Path) (nm : Str) (ds : List Str) :
    Option (List LTok) → Prop
  | some toks => TemplateIs S plugins d p nm ds toks
  | none => NoTemplate S plugins d p nm ds

/-- What is read from a file, with the HTML of a markdown body: the text of the body after its functions have run on
the base scope, converted. Anything else stays as it is. -/
inductive Converted (ext : Ext) (cx : Ctx) (base : Frame) : Parsed → Parsed → Prop
  | markdown {md : ParsedMd} {f : Frame} {secs : List (Str × Bytes)} {text : Str} :
      runToks cx md.markdown ⟨[base], []⟩ = .ok ⟨[f], secs⟩ → fromUtf8 f.out = some text →
      Converted ext cx base (.markdown md) (.markdown { md with html := some (ext.mdToHtml text) })
  | same {c : Parsed} : (∀ md, c ≠ .markdown md) → Converted ext cx base c c

/-- A file in the directory `ds` of the content, with this name, these bytes and this reading, becomes a file with the
second name and bytes. -/
inductive Made (S : Sys) (plugins : List Plugin) (d : Entry) (p : Path) (cx : Ctx) (base : Frame) (ds : List Str)
    (nm : Str) (b : Bytes) : Parsed → Str → Bytes → Prop
  | template {c : Parsed} : nm = str!"root.html" ∨ nm = str!"md.html" → Made S plugins d p cx base ds nm b c nm b
  | page {toks root : List LTok} {f g : Frame} {gs : List Frame} {secs secs' : List (Str × Bytes)} :
      nm ≠ str!"root.html" → nm ≠ str!"md.html" → TemplateIs S plugins d p str!"root.html" ds root →
      runToks cx toks ⟨[base], []⟩ = .ok ⟨[f], secs⟩ → runToks cx root ⟨[base], secs⟩ = .ok ⟨g :: gs, secs'⟩ →
      Made S plugins d p cx base ds nm b (.html toks) nm g.out
  | markdown {md : ParsedMd} {v : Value} {stem : Str} {toks root : List LTok} {f g : Frame} {gs : List Frame}
      {secs secs' : List (Str × Bytes)} :
      nm = stem ++ str!".md" → TemplateIs S plugins d p str!"root.html" ds root →
      TemplateIs S plugins d p str!"md.html" ds toks → (md.toValue : Res PErr Value) = .ok v →
      runToks cx toks ⟨[{ base with vars := base.vars ++ [(str!"self", v)] }], []⟩ = .ok ⟨[f], secs⟩ →
      runToks cx root ⟨[base], secs⟩ = .ok ⟨g :: gs, secs'⟩ →
      Made S plugins d p cx base ds nm b (.markdown md) (stem ++ str!".html") g.out
  | custom {k : Custom} {root md : Option (List LTok)} {out : ProcessOutput} :
      nm ≠ str!"root.html" → nm ≠ str!"md.html" → Templates S plugins d p str!"root.html" ds root →
      Templates S plugins d p str!"md.html" ds md → k.process root md = .ok out →
      Made S plugins d p cx base ds nm b (.custom k) (out.newName.getD nm) (out.newContents.getD b)
  | data {v : Value} : Made S plugins d p cx base ds nm b (.json v) nm b
  | other : Made S plugins d p cx base ds nm b .none nm b

section
variable (S : Sys) (plugins : List Plugin) (cfg : Config) (d : Entry) (dir p : Path) (base : Frame) (input tree : Node)

/-- A file in the directory `ds` of the content becomes a published file of this name with these bytes. -/
def Yields (ds : List Str) (nm' : Str) (b' : Bytes) : Prop :=
  ∃ (nm : Str) (b : Bytes) (c c' : Parsed), look d (p ++ ds ++ [nm]) = some (.file b) ∧ ReadAs S plugins nm (pathStr (p ++ ds ++ [nm])) b c ∧
    Converted S.ext ⟨input, S.dateFmt⟩ base c c' ∧ Made S plugins d p ⟨tree, S.dateFmt⟩ base ds nm b c' nm' b' ∧
    Published cfg nm'

/-- The files that belong in the output directory, in terms of the project's files: `dir` is the project, `p` its
content. -/
inductive Belongs : Path → Bytes → Prop
  | made {ds : List Str} {nm : Str} {b : Bytes} : Yields S plugins cfg d p base input tree ds nm b →
      (cfg.stripExtensions = true → nm = str!"index.html" ∨ ¬ str!".html" <:+ nm) → Belongs (ds ++ [nm]) b
  | stripped {ds : List Str} {stem : Str} {b : Bytes} :
      Yields S plugins cfg d p base input tree ds (stem ++ str!".html") b → cfg.stripExtensions = true →
      stem ≠ str!"index" → Belongs (ds ++ stemDir stem ++ [str!"index.html"]) b
  | copied {which nm : Str} {ds : List Str} {b : Bytes} : which ∈ [str!"static", str!"temp"] →
      look d (dir ++ [which] ++ ds ++ [nm]) = some (.file b) → Published cfg nm → Belongs (ds ++ [nm]) b

/-- The directories that belong in the output directory. -/
inductive BelongsDir : Path → Prop
  | top : BelongsDir []
  | content {r : Path} : r ≠ [] → look d (p ++ r) = some .dir → BelongsDir r
  | copied {which : Str} {r : Path} : which ∈ [str!"static", str!"temp"] → r ≠ [] →
      look d (dir ++ [which] ++ r) = some .dir → BelongsDir r
  | stripped {ds : List Str} {stem : Str} {b : Bytes} :
      Yields S plugins cfg d p base input tree ds (stem ++ str!".html") b → cfg.stripExtensions = true →
      stem ≠ str!"index" → BelongsDir (ds ++ stemDir stem)
end

/-- No trouble with names: with extensions stripped, nothing is called `...html` or `...md`, and plugins rename files
to plain names only. -/
structure Tame (cfg : Config) (plugins : List Plugin) (d : Entry) (dir p : Path) : Prop where
  content : cfg.stripExtensions = true → ∀ ds, look d (p ++ ds ++ [str!"...html"]) = none ∧ look d (p ++ ds ++ [str!"...md"]) = none
  copied : cfg.stripExtensions = true → ∀ which ∈ [str!"static", str!"temp"], ∀ ds,
    look d (dir ++ [which] ++ ds ++ [str!"...html"]) = none
  renamed : ∀ pl ∈ plugins, ∀ q ∈ pl.parsers, ∀ b src c root md out n, q.parse b src = .ok c → c.process root md = .ok out →
    out.newName = some n → PlainName n ∧ (cfg.stripExtensions = true → n ≠ str!"...html")

end Stuart.Spec
