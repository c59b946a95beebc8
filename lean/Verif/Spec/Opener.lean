import Verif.Model.Process
/-
Blocks: what opens a scope and which `end` closes it.
-/
namespace Stuart.Spec

/-- What opens a scope: `begin("x")`, `for($x, …)`, `ifdefined($x)` or a comparison. -/
inductive Opener where
  | section_ (label : Str)
  | loop (var : Str)
  | defined (var : Str)
  | compare (op : CmpFn) (a b : Input)

/-- The word the template author writes for a comparison. -/
def wordOf : CmpFn → Str
  | .ifeq => str!"ifeq"
  | .ifne => str!"ifne"
  | .ifgt => str!"ifgt"
  | .ifge => str!"ifge"
  | .iflt => str!"iflt"
  | .ifle => str!"ifle"

/-- The word that opens the block. -/
def Opener.word : Opener → Str
  | .section_ _ => str!"begin"
  | .loop _ => str!"for"
  | .defined _ => str!"ifdefined"
  | .compare op _ _ => wordOf op

/-- What the interpreter notes about the block. -/
def Opener.detail : Opener → Str
  | .section_ l => l
  | .loop v => v
  | .defined v => v
  | .compare _ a b => a.toStr ++ ':' :: b.toStr

/-- The name given to the scope. -/
def Opener.scopeName (o : Opener) : Str := o.word ++ ':' :: o.detail

/-- Does `end("label")` (`quoted`) or `end(label)` name this block? A quoted label names the section of that label, a
word names any block opened with it. -/
def Opener.closedBy (o : Opener) (label : Str) (quoted : Bool) : Prop :=
  if quoted then o = .section_ label else o.word = label

end Stuart.Spec
