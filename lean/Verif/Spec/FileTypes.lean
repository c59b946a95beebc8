import Verif.Spec.Read
/-
Plugins for types of files, and plugins that get into each other's way.
-/
namespace Stuart.Spec

/-- This extension is that of a type of files Stuart knows itself. -/
def Known (e : Str) : Prop := e = str!"html" ∨ e = str!"md" ∨ e = str!"json"

/-- The plugin handles files of this name. -/
def Handles (p : Plugin) (name : Str) : Prop :=
  ∃ e, HasExt name e ∧ ¬ Known e ∧ ∃ q ∈ p.parsers, e ∈ q.extensions

/-- The last name of a path. -/
def LastName (path name : Str) : Prop := '/' ∉ name ∧ ∃ d, path = d ++ '/' :: name

/-- The plugin has a function that answers to this name. -/
def Answers (p : Plugin) (name : Str) : Prop :=
  ∃ f ∈ p.fns.functions, name = f.name ∨ name = p.fns.name ++ str!"::" ++ f.name

/-- No name of a function and no file is for both plugins. -/
def Independent (p q : Plugin) : Prop :=
  (∀ n, ¬ (Answers p n ∧ Answers q n)) ∧ ∀ n, ¬ (Handles p n ∧ Handles q n)

end Stuart.Spec
