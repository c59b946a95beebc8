import Verif.Spec.Changed
/-
Data that differs only in fields of some names, and templates that mention none of them.
-/
namespace Stuart.Spec

section
variable (K : List Str)

mutual
/-- The same value, but that in its objects there may be other fields of these names. -/
inductive ValueBut : Value → Value → Prop
  | null : ValueBut .null .null
  | bool (b : Bool) : ValueBut (.bool b) (.bool b)
  | num (n : Num) : ValueBut (.num n) (.num n)
  | str (s : Str) : ValueBut (.str s) (.str s)
  | arr {l l' : List Value} : ValuesBut l l' → ValueBut (.arr l) (.arr l')
  | obj {l l' : List (Str × Value)} : FieldsBut l l' → ValueBut (.obj l) (.obj l')
/-- The elements of a list, one by one. -/
inductive ValuesBut : List Value → List Value → Prop
  | nil : ValuesBut [] []
  | cons {v v' : Value} {l l' : List Value} : ValueBut v v' → ValuesBut l l' → ValuesBut (v :: l) (v' :: l')
/-- The fields of an object, in order; those of the given names may be there or not, with any value. -/
inductive FieldsBut : List (Str × Value) → List (Str × Value) → Prop
  | nil : FieldsBut [] []
  | same (k : Str) {v v' : Value} {l l' : List (Str × Value)} : ValueBut v v' → FieldsBut l l' → FieldsBut ((k, v) :: l) ((k, v') :: l')
  | left {k : Str} (v : Value) {l l' : List (Str × Value)} : k ∈ K → FieldsBut l l' → FieldsBut ((k, v) :: l) l'
  | right {k : Str} (v : Value) {l l' : List (Str × Value)} : k ∈ K → FieldsBut l l' → FieldsBut l ((k, v) :: l')
end

/-- Frontmatter, in the same way. -/
inductive FrontBut : List (Str × Str) → List (Str × Str) → Prop
  | nil : FrontBut [] []
  | same (k v : Str) {l l' : List (Str × Str)} : FrontBut l l' → FrontBut ((k, v) :: l) ((k, v) :: l')
  | left {k : Str} (v : Str) {l l' : List (Str × Str)} : k ∈ K → FrontBut l l' → FrontBut ((k, v) :: l) l'
  | right {k : Str} (v : Str) {l l' : List (Str × Str)} : k ∈ K → FrontBut l l' → FrontBut l ((k, v) :: l')
end

/-- The key is in the path of keys after a variable's name. -/
def KeyIn (v k : Str) : Prop := ∃ a c, v = a ++ '.' :: k ++ c ∧ (c = [] ∨ ∃ r, c = '.' :: r)

/-- The variable of something compared. -/
def inputVars : Input → List Str
  | .var v => [v]
  | .str _ => []
  | .int _ => []

/-- The variables a token looks up, with their paths: not those it defines. -/
def readsOf : Token → List Str
  | .raw _ => []
  | .var v => [v]
  | .func (.excerpt v _) => [v]
  | .func (.ifdefined v) => [v]
  | .func (.timetoread v) => [v]
  | .func (.dateformat v _) => [v]
  | .func (.cmp _ a b) => inputVars a ++ inputVars b
  | .func (.for_ f) => (if f.kind = .jsonObj then [f.source] else []) ++ f.sortVar.toList
  | .func _ => []

/-- A template without functions of plugins that mentions none of these keys. -/
def Silent (K : List Str) (toks : List LTok) : Prop :=
  ∀ t ∈ toks, (∀ f, t.inner ≠ .func (.plugin f)) ∧ ∀ v ∈ readsOf t.inner, ∀ k ∈ K, ¬ KeyIn v k

/-- What two files are read as, with their contents: the same template, silent about the keys; markdown with the same body, silent too, and
other such fields in its frontmatter; data with other such fields; or other contents, the same. -/
inductive FileBut (K : List Str) : Bytes → Bytes → Parsed → Parsed → Prop
  | html {b b' : Bytes} {toks : List LTok} : Silent K toks → FileBut K b b' (.html toks) (.html toks)
  | markdown {b b' : Bytes} {md md' : ParsedMd} : FrontBut K md.frontmatter md'.frontmatter → md.markdownString = md'.markdownString →
      md.html = md'.html → md.markdown = md'.markdown → Silent K md.markdown → FileBut K b b' (.markdown md) (.markdown md')
  | data {b b' : Bytes} {v v' : Value} : ValueBut K v v' → FileBut K b b' (.json v) (.json v')
  | other {b : Bytes} : FileBut K b b .none .none

/-- Two disks that are the same but for the content of a project, where fields of these names may differ, which no template mentions. -/
abbrev RefieldedDisks (S : Sys) (plugins : List Plugin) (K : List Str) : Path → Entry → Entry → Prop := ChangedDisks S plugins (FileBut K)

end Stuart.Spec
