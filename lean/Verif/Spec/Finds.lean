import Verif.Spec.Sound
/-
What loops and imports find, in terms of the files of the content.
-/
namespace Stuart.Spec

/-- A path written in a template leads along these names, from the content directory. -/
def Aims (path : Str) (names : List Str) : Prop :=
  ∃ q qs, Slashless q qs ∧ path = slashed q qs ∧ ¬ Escapes q qs ∧ names = namesIn (q :: qs)

/-- The file at this place of the content holds this data. -/
def DataIs (S : Sys) (d : Entry) (p : Path) (names : List Str) (v : Value) : Prop :=
  ∃ ds nm text, names = ds ++ [nm] ∧ HasExt nm str!"json" ∧ look d (p ++ names) = some (.file (bytesOf text)) ∧
    S.parseJson text = some v

/-- The markdown file of this name in the directory `ds` of the content, and its value to others: its pairs, with the text of its
body as `markdown` and what that is converted to as `content`. -/
def PostIs (S : Sys) (plugins : List Plugin) (d : Entry) (p : Path) (vars : List (Str × Value)) (input : Node) (ds : List Str)
    (nm : Str) (v : Value) : Prop :=
  ∃ pairs text t r shown, MdFileSpells S plugins d p ds nm pairs text t ∧ t.Tame ⟨input, S.dateFmt⟩ [vars] [] ∧
    t.eval ⟨input, S.dateFmt⟩ [vars] [] = .ok r ∧ r.out = bytesOf shown ∧ v = selfValue pairs text (S.ext.mdToHtml shown)

/-- The values of the markdown files among these entries, in order. -/
inductive Posts (post : Str → Value → Prop) : List (Str × Entry) → List Value → Prop
  | nil : Posts post [] []
  | post {nm : Str} {b : Bytes} {v : Value} {es : List (Str × Entry)} {vs : List Value} : HasExt nm str!"md" → post nm v →
      Posts post es vs → Posts post ((nm, .file b) :: es) (v :: vs)
  | other {nm : Str} {e : Entry} {es : List (Str × Entry)} {vs : List Value} : ¬ (HasExt nm str!"md" ∧ ∃ b, e = .file b) →
      Posts post es vs → Posts post ((nm, e) :: es) vs

end Stuart.Spec
