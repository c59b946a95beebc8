import Verif.Spec.Whole
import Verif.Model.Cli
/-
Texts that say the same with other names for the variables.
-/
namespace Stuart.Spec

/-- A way to rename variables: which names stand for which, one to one. The names of a page's own data and of the environment stay. -/
structure Renames (R : Str → Str → Prop) : Prop where
  one : ∀ a b a' b', R a b → R a' b' → (a = a' ↔ b = b')
  plain : ∀ a b, R a b → '.' ∉ a ∧ '.' ∉ b
  self : R str!"self" str!"self"
  env : R str!"env" str!"env"

section
variable (R : Str → Str → Prop)

/-- A variable, possibly with a path of keys, and the same with the other name. -/
inductive VarLike : Str → Str → Prop
  | name {a b : Str} : R a b → VarLike a b
  | path {a b keys : Str} : R a b → VarLike (a ++ '.' :: keys) (b ++ '.' :: keys)

/-- A variable that need not be there. -/
inductive OptLike : Option Str → Option Str → Prop
  | none : OptLike none none
  | some {a b : Str} : VarLike R a b → OptLike (some a) (some b)

/-- What is compared. -/
inductive InputLike : Input → Input → Prop
  | var {a b : Str} : VarLike R a b → InputLike (.var a) (.var b)
  | str (s : Str) : InputLike (.str s) (.str s)
  | int (i : Int) : InputLike (.int i) (.int i)

/-- Loops: the files they are about, how many items are left out or taken, and the order stay. -/
structure ForLike (f f' : ForFn) : Prop where
  var : VarLike R f.var f'.var
  kind : f.kind = f'.kind
  file : f.kind ≠ .jsonObj → f.source = f'.source
  list : f.kind = .jsonObj → VarLike R f.source f'.source
  skip : f.skip = f'.skip
  limit : f.limit = f'.limit
  sort : OptLike R f.sortVar f'.sortVar
  desc : f.desc = f'.desc

/-- Functions, other than those of plugins. -/
inductive FnLike : Fn → Fn → Prop
  | begin_ (l : Str) (c : Bool) : FnLike (.begin_ l c) (.begin_ l c)
  | end_ {l : Str} {c : Bool} : (c = false → ':' ∉ l) → FnLike (.end_ l c) (.end_ l c)
  | else_ : FnLike .else_ .else_
  | excerpt {a b : Str} (n : Nat) : VarLike R a b → FnLike (.excerpt a n) (.excerpt b n)
  | for_ {f f' : ForFn} : ForLike R f f' → FnLike (.for_ f) (.for_ f')
  | ifdefined {a b : Str} : VarLike R a b → FnLike (.ifdefined a) (.ifdefined b)
  | import_ {a b : Str} (file : Str) : VarLike R a b → FnLike (.import_ a file) (.import_ b file)
  | insert (l : Str) : FnLike (.insert l) (.insert l)
  | timetoread {a b : Str} : VarLike R a b → FnLike (.timetoread a) (.timetoread b)
  | dateformat {a b : Str} (fmt : Str) : VarLike R a b → FnLike (.dateformat a fmt) (.dateformat b fmt)
  | cmp {a b a' b' : Input} (op : CmpFn) : InputLike R a a' → InputLike R b b' → FnLike (.cmp op a b) (.cmp op a' b')

/-- Tokens. -/
inductive TokLike : Token → Token → Prop
  | raw (s : Str) : TokLike (.raw s) (.raw s)
  | var {a b : Str} : VarLike R a b → TokLike (.var a) (.var b)
  | func {f f' : Fn} : FnLike R f f' → TokLike (.func f) (.func f')

/-- Two templates that say the same: token by token, wherever in the file the tokens are. -/
inductive ToksLike : List LTok → List LTok → Prop
  | nil : ToksLike [] []
  | cons {t t' : LTok} {ts ts' : List LTok} : t.path = t'.path → TokLike R t.inner t'.inner → ToksLike ts ts' →
      ToksLike (t :: ts) (t' :: ts')

end

/-- Two templates that say the same with some other names for the variables. -/
def Reworded (toks toks' : List LTok) : Prop := ∃ R, Renames R ∧ ToksLike R toks toks'

/-- What two files are read as, with their contents: templates that say the same; markdown that does, with the same source text, which
can be shown too; or the same data, or other contents. -/
inductive FileLike : Bytes → Bytes → Parsed → Parsed → Prop
  | html {b b' : Bytes} {toks toks' : List LTok} : Reworded toks toks' → FileLike b b' (.html toks) (.html toks')
  | markdown {b b' : Bytes} {md md' : ParsedMd} : md.frontmatter = md'.frontmatter → md.markdownString = md'.markdownString →
      md.html = md'.html → Reworded md.markdown md'.markdown → FileLike b b' (.markdown md) (.markdown md')
  | data {b : Bytes} (v : Value) : FileLike b b (.json v) (.json v)
  | other {b : Bytes} : FileLike b b .none .none

section
variable (S : Sys) (plugins : List Plugin)

mutual
/-- The entry of this name in the directory `p`, in both projects: files that say the same, or directories of such, in the same order. -/
inductive Retold : Path → Str → Entry → Entry → Prop
  | file {p : Path} {nm : Str} {b b' : Bytes} {c c' : Parsed} : ReadAs S plugins nm (pathStr (p ++ [nm])) b c →
      ReadAs S plugins nm (pathStr (p ++ [nm])) b' c' → FileLike b b' c c' → Retold p nm (.file b) (.file b')
  | dir {p : Path} {nm : Str} {l l' : List (Str × Entry)} : RetoldList (p ++ [nm]) l l' → Retold p nm (.dir l) (.dir l')
/-- The entries of the directory `p`. -/
inductive RetoldList : Path → List (Str × Entry) → List (Str × Entry) → Prop
  | nil {p : Path} : RetoldList p [] []
  | cons {p : Path} {nm : Str} {e e' : Entry} {l l' : List (Str × Entry)} : Retold p nm e e' → RetoldList p l l' →
      RetoldList p ((nm, e) :: l) ((nm, e') :: l')
end

/-- Two projects whose contents say the same. -/
def RetoldAt (d d' : Entry) (p : Path) : Prop := ∃ l l', d.at p = some (.dir l) ∧ d'.at p = some (.dir l') ∧ RetoldList S plugins p l l'
end

section
variable (top : Path)

mutual
/-- What is at the place `q` of two disks: the same, but that the files from `top` down may have other bytes. -/
inductive SameBut : Path → Entry → Entry → Prop
  | file {q : Path} {b b' : Bytes} : b = b' ∨ top <+: q → SameBut q (.file b) (.file b')
  | dir {q : Path} {l l' : List (Str × Entry)} : SameButList q l l' → SameBut q (.dir l) (.dir l')
  | special {q : Path} : SameBut q .special .special
/-- The entries of the directory `q`. -/
inductive SameButList : Path → List (Str × Entry) → List (Str × Entry) → Prop
  | nil {q : Path} : SameButList q [] []
  | cons {q : Path} {nm : Str} {e e' : Entry} {l l' : List (Str × Entry)} : SameBut (q ++ [nm]) e e' → SameButList q l l' →
      SameButList q ((nm, e) :: l) ((nm, e') :: l')
end
end

/-- Two disks that are the same but for the content of a project, which says the same on both. -/
structure RetoldDisks (S : Sys) (plugins : List Plugin) (content : Path) (d d' : Entry) : Prop where
  alike : SameBut content [] d d'
  retold : RetoldAt S plugins d d' content

/-- Errors of rendering about the same. -/
inductive ErrLike (R : Str → Str → Prop) : ProcErr → ProcErr → Prop
  | same (e : ProcErr) : ErrLike R e e
  | exists_ {a b : Str} : VarLike R a b → ErrLike R (.variableAlreadyExists a) (.variableAlreadyExists b)
  | undefined {a b : Str} : VarLike R a b → ErrLike R (.undefinedVariable a) (.undefinedVariable b)
  | null {a b : Str} : VarLike R a b → ErrLike R (.nullError a) (.nullError b)
  | type {a b : Str} : VarLike R a b → ErrLike R (.invalidDataType a) (.invalidDataType b)

/-- Errors of a build about the same: those of rendering may be about a variable by either of its names, anywhere in the same file. -/
inductive FailLike : CliErr → CliErr → Prop
  | same (e : CliErr) : FailLike e e
  | rendering {R : Str → Str → Prop} {e e' : PErr} : Renames R → e.path = e'.path → ErrLike R e.kind e'.kind →
      FailLike (.core (.process e)) (.core (.process e'))

/-- Results of a build about the same. -/
inductive ResultLike : Res CliErr Unit → Res CliErr Unit → Prop
  | ok : ResultLike (.ok ()) (.ok ())
  | err {e e' : CliErr} : FailLike e e' → ResultLike (.err e) (.err e')
  | panic (p : Panic) : ResultLike (.panic p) (.panic p)

end Stuart.Spec
