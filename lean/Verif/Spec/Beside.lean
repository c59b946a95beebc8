import Verif.Model.Fs
/-
What is read with one list of plugins beside what is read with another (C116).
-/
namespace Stuart

/-- Two lists of the same length, whose elements are related one by one. -/
inductive Beside {α β : Type} (R : α → β → Prop) : List α → List β → Prop where
  | nil : Beside R [] []
  | cons {a b l m} : R a b → Beside R l m → Beside R (a :: l) (b :: m)

/-- Two outcomes: both successes, related; or the same error or panic. -/
inductive Outcomes {ε α β : Type} (R : α → β → Prop) : Res ε α → Res ε β → Prop where
  | ok {a b} : R a b → Outcomes R (.ok a) (.ok b)
  | err (e) : Outcomes R (.err e) (.err e)
  | panic (p) : Outcomes R (.panic p) (.panic p)

/-- Functions of templates: the same built-in function, or two functions of plugins that are related. -/
inductive FnBeside (R : PluginFn → PluginFn → Prop) : Fn → Fn → Prop where
  | same {f} : (∀ p, f ≠ .plugin p) → FnBeside R f f
  | plugin {p q} : R p q → FnBeside R (.plugin p) (.plugin q)

inductive TokenBeside (R : PluginFn → PluginFn → Prop) : Token → Token → Prop where
  | raw (s) : TokenBeside R (.raw s) (.raw s)
  | var (s) : TokenBeside R (.var s) (.var s)
  | func {f g} : FnBeside R f g → TokenBeside R (.func f) (.func g)

/-- Tokens at the same place. -/
def TokBeside (R : PluginFn → PluginFn → Prop) (t u : LTok) : Prop :=
  TokenBeside R t.inner u.inner ∧ t.path = u.path ∧ t.line = u.line ∧ t.col = u.col

/-- Parsers of functions with the same name, that refuse the same calls for the same reasons, and otherwise make related
functions. -/
def ParserBeside (R : PluginFn → PluginFn → Prop) (p q : PluginFnParser) : Prop :=
  p.name = q.name ∧ ∀ raw, Outcomes R (p.parse raw) (q.parse raw)

/-- Plugins with the same name and functions beside one another. -/
def PluginBeside (R : PluginFn → PluginFn → Prop) (p q : PluginFns) : Prop :=
  p.name = q.name ∧ Beside (ParserBeside R) p.functions q.functions

/-- Plugins with the same name, functions beside one another, and the same parsers of files. -/
def WholeBeside (R : PluginFn → PluginFn → Prop) (p q : Plugin) : Prop := PluginBeside R p.fns q.fns ∧ p.parsers = q.parsers

/-- Markdown files that differ in the functions only. -/
def MdBeside (R : PluginFn → PluginFn → Prop) (m n : ParsedMd) : Prop :=
  Beside (TokBeside R) m.markdown n.markdown ∧ m.frontmatter = n.frontmatter ∧ m.markdownString = n.markdownString ∧ m.html = n.html

inductive ParsedBeside (R : PluginFn → PluginFn → Prop) : Parsed → Parsed → Prop where
  | html {l m} : Beside (TokBeside R) l m → ParsedBeside R (.html l) (.html m)
  | markdown {l m} : MdBeside R l m → ParsedBeside R (.markdown l) (.markdown m)
  | json (v) : ParsedBeside R (.json v) (.json v)
  | custom (c) : ParsedBeside R (.custom c) (.custom c)
  | none : ParsedBeside R .none .none
  | ignored : ParsedBeside R .ignored .ignored

mutual
/-- Trees that differ in the functions only. -/
inductive NodeBeside (R : PluginFn → PluginFn → Prop) : Node → Node → Prop where
  | file {c c'} (n b m s) : ParsedBeside R c c' → NodeBeside R (.file n b c m s) (.file n b c' m s)
  | dir {l l'} (n s) : NodesBeside R l l' → NodeBeside R (.dir n l s) (.dir n l' s)
inductive NodesBeside (R : PluginFn → PluginFn → Prop) : List Node → List Node → Prop where
  | nil : NodesBeside R [] []
  | cons {a b l m} : NodeBeside R a b → NodesBeside R l m → NodesBeside R (a :: l) (b :: m)
end

end Stuart
