import Verif.Spec.Merge
import Verif.Model.Fs
/-
What a file is read as.
-/
namespace Stuart.Spec

/-- The name has this extension: there is something before the last dot, and this after it. -/
def HasExt (name ext : Str) : Prop := ∃ stem, stem ≠ [] ∧ name = stem ++ '.' :: ext ∧ '.' ∉ ext

/-- No plugin has a parser for the extension of this name. -/
def Unhandled (plugins : List Plugin) (name : Str) : Prop :=
  ∀ e, HasExt name e → e ≠ str!"html" ∧ e ≠ str!"md" ∧ e ≠ str!"json" ∧
    ∀ p ∈ plugins, ∀ q ∈ p.parsers, e ∉ q.extensions

/-- This parser is the first, plugin by plugin, for this extension. -/
def FirstParser (plugins : List Plugin) (e : Str) (q : NodeParser) : Prop :=
  ∃ ps p ps' qs qs', plugins = ps ++ p :: ps' ∧ p.parsers = qs ++ q :: qs' ∧ e ∈ q.extensions ∧
    (∀ q' ∈ qs, e ∉ q'.extensions) ∧ ∀ p' ∈ ps, ∀ q' ∈ p'.parsers, e ∉ q'.extensions

/-- What the contents of a file of this name at this path are read as. -/
inductive ReadAs (S : Sys) (plugins : List Plugin) (name src : Str) (b : Bytes) : Parsed → Prop
  | html {s : Str} {toks : List LTok} : HasExt name str!"html" → fromUtf8 b = some s →
      parseHtml S.U src (plugins.map fun p => p.fns) s = .ok toks → ReadAs S plugins name src b (.html toks)
  | markdown {s : Str} {md : ParsedMd} : HasExt name str!"md" → fromUtf8 b = some s →
      parseMarkdown S.U src (plugins.map fun p => p.fns) s = .ok md → ReadAs S plugins name src b (.markdown md)
  | json {s : Str} {v : Value} : HasExt name str!"json" → fromUtf8 b = some s → S.parseJson s = some v →
      ReadAs S plugins name src b (.json v)
  | custom {e : Str} {q : NodeParser} {c : Custom} : HasExt name e → e ≠ str!"html" → e ≠ str!"md" → e ≠ str!"json" →
      FirstParser plugins e q → q.parse b src = .ok c → ReadAs S plugins name src b (.custom c)
  | other : Unhandled plugins name → ReadAs S plugins name src b .none

end Stuart.Spec
