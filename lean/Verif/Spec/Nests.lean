import Verif.Spec.Single
/-
When tokens are properly nested, by reading them once from left to right.
-/
namespace Stuart.Spec

/-- A block that is open: a section with its label, a loop, or a conditional with the word its `end` repeats, before or
after its `else`. -/
inductive OpenBlock where
  | section_ (label : Str)
  | loop
  | cond (word : Str) (els : Bool)
deriving DecidableEq

/-- Reading on with these blocks open, the innermost first. An opening tag opens a block, a closing one closes the innermost one if
it is for it, an `else` belongs to the innermost conditional, which must not have one yet, and at the end nothing is open. If not
`deep`, no loop may be opened in a loop. -/
def Nests (deep : Bool) : List OpenBlock → List LTok → Prop
  | os, [] => os = []
  | os, t :: ts => match t.inner with
    | .func (.begin_ l true) => Nests deep (.section_ l :: os) ts
    | .func (.for_ _) => (deep = true ∨ .loop ∉ os) ∧ Nests deep (.loop :: os) ts
    | .func (.ifdefined v) => Nests deep (.cond (Test.defined v).word false :: os) ts
    | .func (.cmp op a b) => Nests deep (.cond (Test.cmp op a b).word false :: os) ts
    | .func .else_ => match os with
      | .cond w false :: os => Nests deep (.cond w true :: os) ts
      | _ => False
    | .func (.end_ l custom) => match os with
      | .section_ l' :: os => custom = true ∧ l = l' ∧ Nests deep os ts
      | .loop :: os => custom = false ∧ l = str!"for" ∧ Nests deep os ts
      | .cond w _ :: os => custom = false ∧ l = w ∧ Nests deep os ts
      | [] => False
    | tok => Plain tok ∧ Nests deep os ts

end Stuart.Spec
