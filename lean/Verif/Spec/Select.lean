import Verif.Spec.Block
/-
Which branch of a conditional is rendered.
-/
namespace Stuart.Spec

/-- In these scopes the conditional selects its first (`b = true`) or second branch: the run of the conditional is
the run of that branch in a scope of its own, its output going to the enclosing scope. The other branch is flat. -/
def Selects (cx : Ctx) (test : Test) (scs : Scopes) (b : Bool) : Prop :=
  ∀ (o m c : At) (yes no : Tpl) (f : Frame) (fs : List Frame) (secs : Sections),
    f.vars :: fs.map (·.vars) = scs → yes.WF → no.WF → no.Flat → yes.Tame cx ([] :: scs) secs →
    runToks cx (Tpl.ifElse o m c test (if b then yes else no) (if b then no else yes) .nil).toks ⟨f :: fs, secs⟩ =
      (yes.eval cx ([] :: scs) secs).bind fun r => .ok ⟨{ f with out := f.out ++ r.out } :: fs, secs ++ r.secs⟩

/-- What an input of a comparison stands for: a literal for itself, a variable for the string or the 32-bit integer
it denotes. -/
inductive Stands (scs : Scopes) : Input → Operand → Prop
  | int (i : Int) : Stands scs (.int i) (.int i)
  | text (s : Str) : Stands scs (.str s) (.text s)
  | varText (n : Str) (path : List Str) (s : Str) : Dotless n path → denoted n path scs = some (.str s) →
      Stands scs (.var (dotted n path)) (.text s)
  | varInt (n : Str) (path : List Str) (i : Int) : Dotless n path → denoted n path scs = some (.num (.fin i)) →
      Is32 i → Stands scs (.var (dotted n path)) (.int i)

end Stuart.Spec
