import Verif.Spec.Scope
import Verif.Spec.Text
import Verif.Spec.Tree
/-
Properly nested templates and what they mean, by recursion on their structure.
-/
namespace Stuart.Spec

/-- Where a tag stands in the source. -/
structure At where
  path : Str
  line : Nat
  col : Nat

/-- A token at a place. -/
def At.tok (a : At) (t : Token) : LTok := ⟨t, a.path, a.line, a.col⟩

/-- An error at a place. -/
def At.err (a : At) (e : ProcErr) : PErr := ⟨a.path, a.line, a.col, e⟩

/-- The test of a conditional. -/
inductive Test where
  | defined (v : Str)
  | cmp (op : CmpFn) (a b : Input)

/-- The function that opens a conditional. -/
def Test.fn : Test → Fn
  | .defined v => .ifdefined v
  | .cmp op a b => .cmp op a b

/-- The word its `end` repeats. -/
def Test.word : Test → Str
  | .defined _ => str!"ifdefined"
  | .cmp .ifeq _ _ => str!"ifeq"
  | .cmp .ifne _ _ => str!"ifne"
  | .cmp .ifgt _ _ => str!"ifgt"
  | .cmp .ifge _ _ => str!"ifge"
  | .cmp .iflt _ _ => str!"iflt"
  | .cmp .ifle _ _ => str!"ifle"

/-- A properly nested template: a sequence of plain tokens, sections, loops and conditionals (with or without an
`else`). The places are those of the opening, middle and closing tags. -/
inductive Tpl where
  | nil
  | leaf (at_ : At) (t : Token) (next : Tpl)
  | section_ (o c : At) (label : Str) (body next : Tpl)
  | loop (o c : At) (f : ForFn) (body next : Tpl)
  | if_ (o c : At) (test : Test) (thn next : Tpl)
  | ifElse (o m c : At) (test : Test) (thn els next : Tpl)

/-- The template as a sequence of tokens. -/
def Tpl.toks : Tpl → List LTok
  | .nil => []
  | .leaf a t next => a.tok t :: next.toks
  | .section_ o c l body next =>
    o.tok (.func (.begin_ l true)) :: body.toks ++ c.tok (.func (.end_ l true)) :: next.toks
  | .loop o c f body next =>
    o.tok (.func (.for_ f)) :: body.toks ++ c.tok (.func (.end_ str!"for" false)) :: next.toks
  | .if_ o c test thn next =>
    o.tok (.func test.fn) :: thn.toks ++ c.tok (.func (.end_ test.word false)) :: next.toks
  | .ifElse o m c test thn els next =>
    o.tok (.func test.fn) :: thn.toks ++ m.tok (.func .else_) :: els.toks ++
      c.tok (.func (.end_ test.word false)) :: next.toks

/-- A token that is no part of a block. A plugin's function must report a name, other than `end` and `else`. -/
def Plain : Token → Prop
  | .raw _ => True
  | .var _ => True
  | .func f => match f with
    | .begin_ _ _ => False
    | .end_ _ _ => False
    | .else_ => False
    | .for_ _ => False
    | .ifdefined _ => False
    | .cmp _ _ _ => False
    | .plugin p => ∃ n, p.name = some n ∧ n ≠ str!"end" ∧ n ≠ str!"else"
    | _ => True

/-- All leaves are plain. -/
def Tpl.WF : Tpl → Prop
  | .nil => True
  | .leaf _ t next => Plain t ∧ next.WF
  | .section_ _ _ _ body next => body.WF ∧ next.WF
  | .loop _ _ _ body next => body.WF ∧ next.WF
  | .if_ _ _ _ thn next => thn.WF ∧ next.WF
  | .ifElse _ _ _ _ thn els next => thn.WF ∧ els.WF ∧ next.WF

/-- No blocks. -/
def Tpl.Flat : Tpl → Prop
  | .nil => True
  | .leaf _ _ next => next.Flat
  | _ => False

/-! ### Meaning -/

abbrev Sections := List (Str × Bytes)

/-- What a piece of template yields: variables for the scope it stands in, output, and sections. -/
structure Out where
  vars : List (Str × Value)
  out : Bytes
  secs : Sections

/-- Variables added to the innermost scope. -/
def extend (vs : List (Str × Value)) : Scopes → Scopes
  | [] => []
  | sc :: scs => (sc ++ vs) :: scs

/-- Just output. -/
def says (s : Str) : Out := ⟨[], bytesOf s, []⟩

/-- The value that a variable, as written, stands for. -/
def meant (v : Str) (scs : Scopes) : Option Value :=
  match splitOn '.' v with
  | [] => none
  | n :: path => denoted n path scs

/-- The text that a variable stands for. -/
def textMeant (v : Str) (scs : Scopes) : Res ProcErr Str :=
  match meant v scs with
  | none => .err (.undefinedVariable v)
  | some (.str s) => .ok s
  | some _ => .err (.invalidDataType v)

/-- What a token does that is no part of a block. As in the code, `excerpt` adds an ellipsis if the part read has fewer
characters than the whole text has bytes. What the others would do does not matter. -/
def yields (cx : Ctx) (scs : Scopes) (secs : Sections) : Token → Res ProcErr Out
  | .raw s => .ok (says s)
  | .var v => match meant v scs with
    | none => .err (.undefinedVariable v)
    | some (.str s) => .ok (says s)
    | some .null => .err (.nullError v)
    | some _ => .err (.invalidDataType v)
  | .func (.excerpt v n) => (textMeant v scs).bind fun s =>
    .ok (says (visible (partRead n s) ++ if (partRead n s).length < (bytesOf s).length then str!"..." else []))
  | .func (.timetoread v) => (textMeant v scs).bind fun s => .ok (says (Nat.toDigits 10 (max 1 (words s / 200))))
  | .func (.dateformat v fmt) => (textMeant v scs).bind fun s =>
    match cx.dateFmt s fmt with
    | none => .err .invalidDate
    | some d => .ok (says d)
  | .func (.insert l) => match secs.lookup l with
    | none => .err (.undefinedSection l)
    | some b => .ok ⟨[], b, []⟩
  | .func (.import_ v file) => match written cx.input file with
    | some (.file _ _ (.json j) _ _) =>
      if ((scs.headD []).lookup v).isSome then .err (.variableAlreadyExists v) else .ok ⟨[(v, j)], [], []⟩
    | some (.file ..) => .err (.invalidDataType str!"<file>")
    | _ => .err (.notFound file)
  | .func (.plugin p) => match p.exec scs with
    | .panic _ => .panic .plugin
    | .err e => .err e
    | .ok (vs, b) => .ok ⟨vs, b, []⟩
  | .func _ => .ok ⟨[], [], []⟩

/-- The value of a markdown file in a loop: its frontmatter with `content` and `markdown` set. -/
def put (k : Str) (v : Value) (l : List (Str × Value)) : List (Str × Value) :=
  match l.dropWhile fun e => e.1 ≠ k with
  | [] => l ++ [(k, v)]
  | _ :: after => l.takeWhile (fun e => e.1 ≠ k) ++ (k, v) :: after

/-- The markdown children of a directory, in order. Rendering must have happened before. -/
def mdItems : List Node → Res ProcErr (List Value)
  | [] => .ok []
  | .file _ _ (.markdown md) _ _ :: ns =>
    match md.html with
    | none => .panic .htmlNotReady
    | some h => (mdItems ns).bind fun vs =>
      .ok (.obj (put str!"markdown" (.str md.markdownString) (put str!"content" (.str h)
        (md.frontmatter.map fun e => (e.1, .str e.2)))) :: vs)
  | _ :: ns => mdItems ns

/-- The items of a loop's source. -/
def source (cx : Ctx) (f : ForFn) (scs : Scopes) : Res ProcErr (List Value) :=
  match f.kind with
  | .mdDir => match written cx.input f.source with
    | some (.dir _ cs _) => mdItems cs
    | _ => .err (.notFound f.source)
  | .jsonFile => match written cx.input f.source with
    | some (.file _ _ (.json (.arr l)) _ _) => .ok l
    | some (.file ..) => .err .notJsonArray
    | _ => .err (.notFound f.source)
  | .jsonObj => match splitOn '.' f.source with
    | [] => .err .notJsonArray
    | n :: path => match denoted n path scs with
      | some (.arr l) => .ok l
      | _ => .err .notJsonArray

/-- What a loop visits: `sortby` names the item first and then a path into it. -/
def items (cx : Ctx) (f : ForFn) (scs : Scopes) : Res ProcErr (List Value) :=
  (source cx f scs).bind fun l =>
    .ok (visited (f.sortVar.map fun k => (splitOn '.' k).tail) f.desc f.skip f.limit l)

/-- The operand an input stands for: itself, or the string or number (as a 32-bit integer) its variable denotes. -/
def operand (scs : Scopes) : Input → Res ProcErr Operand
  | .str s => .ok (.text s)
  | .int i => .ok (.int i)
  | .var v => match splitOn '.' v with
    | [] => .err (.undefinedVariable v)
    | n :: path => match denoted n path scs with
      | some (.str s) => .ok (.text s)
      | some (.num x) => .ok (.int x.toI32)
      | _ => .err (.undefinedVariable v)

/-- The outcome of a comparison. As in the code, `ifle` is strict and ordering holds only between integers. -/
def compared : CmpFn → Operand → Operand → Bool
  | .ifeq, a, b => a == b
  | .ifne, a, b => a != b
  | .ifgt, .int a, .int b => decide (a > b)
  | .ifge, .int a, .int b => decide (a ≥ b)
  | .iflt, .int a, .int b => decide (a < b)
  | .ifle, .int a, .int b => decide (a < b)
  | _, _, _ => false

/-- Which branch a conditional selects. -/
def Test.eval (scs : Scopes) : Test → Res ProcErr Bool
  | .defined v => match splitOn '.' v with
    | [] => .ok false
    | n :: path => .ok (match denoted n path scs with
      | none => false
      | some .null => false
      | some _ => true)
  | .cmp op a b => (operand scs a).bind fun x => (operand scs b).bind fun y => .ok (compared op x y)

/-- Render the body once per item, in order, with the item bound in a scope of its own. -/
def eachItem (body : Scopes → Sections → Res PErr Out) (var : Str) (scs : Scopes) :
    List Value → Sections → Res PErr (Bytes × Sections)
  | [], _ => .ok ([], [])
  | v :: vs, secs =>
    (body ([(var, v)] :: scs) secs).bind fun r =>
    (eachItem body var scs vs (secs ++ r.secs)).bind fun r' =>
      .ok (r.out ++ r'.1, r.secs ++ r'.2)

/-- A piece followed by the rest of the template. -/
def andThen (r : Out) (next : Scopes → Sections → Res PErr Out) (scs : Scopes) (secs : Sections) : Res PErr Out :=
  (next (extend r.vars scs) (secs ++ r.secs)).bind fun r' =>
    .ok ⟨r.vars ++ r'.vars, r.out ++ r'.out, r.secs ++ r'.secs⟩

/-- What a template means. `secs` are the sections recorded before it; the sections of the result come after. -/
def Tpl.eval (cx : Ctx) : Tpl → Scopes → Sections → Res PErr Out
  | .nil, _, _ => .ok ⟨[], [], []⟩
  | .leaf a t next, scs, secs =>
    ((yields cx scs secs t).mapErr a.err).bind fun r => andThen r (next.eval cx) scs secs
  | .section_ _ _ l body next, scs, secs =>
    (body.eval cx ([] :: scs) secs).bind fun r =>
      andThen ⟨[], r.out, r.secs ++ [(l, r.out)]⟩ (next.eval cx) scs secs
  | .loop o _ f body next, scs, secs =>
    ((items cx f scs).mapErr o.err).bind fun its =>
    (eachItem (body.eval cx) f.var scs its secs).bind fun r => andThen ⟨[], r.1, r.2⟩ (next.eval cx) scs secs
  | .if_ o _ test thn next, scs, secs =>
    ((test.eval scs).mapErr o.err).bind fun b =>
    (if b then thn.eval cx ([] :: scs) secs else .ok ⟨[], [], []⟩).bind fun r =>
      andThen ⟨[], r.out, r.secs⟩ (next.eval cx) scs secs
  | .ifElse o _ _ test thn els next, scs, secs =>
    ((test.eval scs).mapErr o.err).bind fun b =>
    (if b then thn.eval cx ([] :: scs) secs else els.eval cx ([] :: scs) secs).bind fun r =>
      andThen ⟨[], r.out, r.secs⟩ (next.eval cx) scs secs

/-! ### Where the code follows the meaning -/

/-- Every iteration is tame. -/
def eachTame (body : Scopes → Sections → Res PErr Out) (tame : Scopes → Sections → Prop) (var : Str) (scs : Scopes) :
    List Value → Sections → Prop
  | [], _ => True
  | v :: vs, secs => tame ([(var, v)] :: scs) secs ∧
      ∀ r, body ([(var, v)] :: scs) secs = .ok r → eachTame body tame var scs vs (secs ++ r.secs)

/-- In the run of this template no loop is empty and no branch that is not taken holds a block. -/
def Tpl.Tame (cx : Ctx) : Tpl → Scopes → Sections → Prop
  | .nil, _, _ => True
  | .leaf _ t next, scs, secs =>
    ∀ r, yields cx scs secs t = .ok r → next.Tame cx (extend r.vars scs) (secs ++ r.secs)
  | .section_ _ _ l body next, scs, secs =>
    body.Tame cx ([] :: scs) secs ∧
    ∀ r, body.eval cx ([] :: scs) secs = .ok r → next.Tame cx scs (secs ++ (r.secs ++ [(l, r.out)]))
  | .loop _ _ f body next, scs, secs =>
    ∀ its, items cx f scs = .ok its →
      its ≠ [] ∧ eachTame (body.eval cx) (body.Tame cx) f.var scs its secs ∧
      ∀ r, eachItem (body.eval cx) f.var scs its secs = .ok r → next.Tame cx scs (secs ++ r.2)
  | .if_ _ _ test thn next, scs, secs =>
    (test.eval scs = .ok true → thn.Tame cx ([] :: scs) secs ∧
      ∀ r, thn.eval cx ([] :: scs) secs = .ok r → next.Tame cx scs (secs ++ r.secs)) ∧
    (test.eval scs = .ok false → thn.Flat ∧ next.Tame cx scs secs)
  | .ifElse _ _ _ test thn els next, scs, secs =>
    (test.eval scs = .ok true → els.Flat ∧ thn.Tame cx ([] :: scs) secs ∧
      ∀ r, thn.eval cx ([] :: scs) secs = .ok r → next.Tame cx scs (secs ++ r.secs)) ∧
    (test.eval scs = .ok false → thn.Flat ∧ els.Tame cx ([] :: scs) secs ∧
      ∀ r, els.eval cx ([] :: scs) secs = .ok r → next.Tame cx scs (secs ++ r.secs))

end Stuart.Spec
