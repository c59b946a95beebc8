import Verif.Spec.Disk
import Verif.Spec.Scope
import Verif.Spec.Tree
/-
The order in which the system lists directories, and loops that do not show it.
-/
namespace Stuart.Spec

/-- The disks show the same at this path and below it. (The order of a directory's entries is not shown.) -/
def SameBelow (d d' : Entry) (p : Path) : Prop := ∀ q, look d (p ++ q) = look d' (p ++ q)

/-- The tokens that are run for a file. -/
def programOf : Parsed → List LTok
  | .html toks => toks
  | .markdown md => md.markdown
  | _ => []

/-- The frontmatters of the markdown files among these nodes. -/
def frontmatters : List Node → List (List (Str × Str))
  | [] => []
  | n :: ns =>
    match n.parsed with
    | .markdown md => md.frontmatter :: frontmatters ns
    | _ => frontmatters ns

/-- The loop goes through these markdown files in the same order however they are listed: there is at most one, or it
sorts them by a key of the frontmatter in which no two of them agree. -/
def Sorted (f : ForFn) (cs : List Node) : Prop :=
  (frontmatters cs).length ≤ 1 ∨
  ∃ v key, Dotless v [key] ∧ f.sortVar = some (dotted v [key]) ∧ key ≠ str!"content" ∧ key ≠ str!"markdown" ∧
    ((frontmatters cs).map fun fm => (fm.lookup key).getD []).Nodup

/-- All loops over directories, in the files of a tree with these children, are like this. -/
def Orderly (name : Str) (cs : List Node) (src : Str) : Prop :=
  ∀ ds n t f, Holds cs ds n → t ∈ programOf n.parsed → t.inner = .func (.for_ f) → f.kind = .mdDir →
    ∀ p ps d ms s, Slashless p ps → ¬ Escapes p ps → f.source = slashed p ps →
      Reaches (.dir name cs src) (namesIn (p :: ps)) (.dir d ms s) → Sorted f ms

end Stuart.Spec
