import Verif.Spec.Move
import Verif.Proof.Disk
/-
Parsing and rendering do not look at the paths of files: other paths give the same results, with those paths.
-/
namespace Stuart
open Spec

/-- Change the value and the error. -/
def Res.both {ε ε' α β : Type} (f : ε → ε') (g : α → β) : Res ε α → Res ε' β
  | .ok a => .ok (g a)
  | .err e => .err (f e)
  | .panic p => .panic p

section
variable {ε ε' ε'' α α' β β' : Type}

@[simp] theorem Res.both_ok (f : ε → ε') (g : α → β) (a : α) : (Res.ok a : Res ε α).both f g = .ok (g a) := rfl
@[simp] theorem Res.both_err (f : ε → ε') (g : α → β) (e : ε) : (Res.err e : Res ε α).both f g = .err (f e) := rfl
@[simp] theorem Res.both_panic (f : ε → ε') (g : α → β) (p : Panic) : (Res.panic p : Res ε α).both f g = .panic p := rfl

theorem Res.bind_both {f : ε → ε'} {g : α → α'} {h : β → β'} {r : Res ε α} {r' : Res ε' α'} {k : α → Res ε β} {k' : α' → Res ε' β'}
    (hr : r' = r.both f g) (hk : ∀ a, k' (g a) = (k a).both f h) : r'.bind k' = (r.bind k).both f h := by
  subst hr
  cases r with
  | ok a => exact hk a
  | err e => rfl
  | panic p => rfl

theorem Res.mapErr_both {r : Res ε α} {f : ε' → ε''} {h : ε → ε'} {h' : ε → ε''} (g : α → α) (hg : ∀ a, g a = a) (hh : ∀ e, h' e = f (h e)) :
    r.mapErr h' = (r.mapErr h).both f g := by
  cases r with
  | ok a => simp [hg]
  | err e => simp [hh]
  | panic p => rfl

theorem Res.unwrap_both {f : ε → ε'} {g : α → β} {p : Panic} {o : Option α} : Res.unwrap p (o.map g) = (Res.unwrap p o).both f g := by
  cases o <;> rfl

theorem Res.ofOption_both {f : ε → ε'} {g : α → β} {e : ε} {o : Option α} : Res.ofOption (f e) (o.map g) = (Res.ofOption e o).both f g := by
  cases o <;> rfl

theorem Res.both_id {r : Res ε α} {g : α → α} (hg : ∀ a, g a = a) : r = r.both (fun e => e) g := by
  cases r <;> simp [hg]

end

variable (ρ : Str → Str)

/-! ### Parsing -/

theorem tb_moved (p : PSt) (path : Str) (e : ParseErr) : p.tb (ρ path) e = movedTB ρ (p.tb path e) := rfl

theorem expectGo_moved (path whole : Str) : ∀ (s : Str) (p : PSt),
    p.expectGo (ρ path) whole s = (p.expectGo path whole s).both (movedTB ρ) id
  | [], p => rfl
  | c :: cs, p => by
    rw [PSt.expectGo, PSt.expectGo]
    cases p.next with
    | none => rfl
    | some x =>
      simp only
      split
      · exact expectGo_moved path whole cs x.2
      · rfl

theorem expect_moved (path s : Str) (p : PSt) : p.expect (ρ path) s = (p.expect path s).both (movedTB ρ) id :=
  expectGo_moved ρ path s s p

theorem parseVariable_moved (U : Unicode) (path : Str) (p : PSt) :
    parseVariable U (ρ path) p = (parseVariable U path p).both (movedTB ρ) id := by
  unfold parseVariable
  refine Res.bind_both (expect_moved ρ path ['$'] p) fun a => ?_
  simp only [id]
  split <;> rfl

theorem parseArgs_moved (U : Unicode) (path : Str) : ∀ (n : Nat) (pos : List RawArg) (named : List (Str × RawArg)) (p : PSt),
    parseArgs U (ρ path) n pos named p = (parseArgs U path n pos named p).both (movedTB ρ) id
  | 0, _, _, _ => rfl
  | n + 1, pos, named, p => by
    rw [parseArgs, parseArgs]
    simp only
    refine Res.bind_both (Res.mapErr_both id (fun _ => rfl) fun _ => rfl) fun a => ?_
    simp only [id]
    cases ((p.ignoreWhile isWs).extractWhileS argScan false).2.next with
    | none => rfl
    | some x =>
      simp only
      split
      · rfl
      · split
        · exact parseArgs_moved U path n _ _ _
        · rfl

theorem parseFunction_moved (U : Unicode) (path : Str) (plugins : List PluginFns) (p : PSt) :
    parseFunction U (ρ path) plugins p = (parseFunction U path plugins p).both (movedTB ρ) id := by
  unfold parseFunction
  simp only
  split
  · rfl
  · refine Res.bind_both (expect_moved ρ path ['('] _) fun a => ?_
    refine Res.bind_both (parseArgs_moved ρ U path _ [] [] _) fun b => ?_
    simp only [id]
    split
    · refine Res.bind_both (Res.mapErr_both id (fun _ => rfl) fun _ => rfl) fun _ => rfl
    · rfl

theorem parseTag_moved (U : Unicode) (path : Str) (plugins : List PluginFns) (p : PSt) :
    parseTag U (ρ path) plugins p = (parseTag U path plugins p).both (movedTB ρ) id := by
  unfold parseTag
  split
  · exact parseVariable_moved ρ U path p
  · exact parseFunction_moved ρ U path plugins p
  · rfl

theorem rawTok_moved (path raw : Str) (line col : Nat) : rawTok (ρ path) raw line col = (rawTok path raw line col).map (movedTok ρ) := by
  unfold rawTok
  split <;> rfl

theorem parseHtmlGo_moved (U : Unicode) (path : Str) (plugins : List PluginFns) : ∀ (n : Nat) (toks : List LTok) (line col : Nat) (p : PSt),
    parseHtmlGo U (ρ path) plugins n (toks.map (movedTok ρ)) line col p =
      (parseHtmlGo U path plugins n toks line col p).both (movedTB ρ) (List.map (movedTok ρ))
  | 0, _, _, _, _ => rfl
  | n + 1, toks, line, col, p => by
    rw [parseHtmlGo, parseHtmlGo]
    split
    · simp only [Res.both_ok, List.map_append, rawTok_moved]
    · refine Res.bind_both (parseTag_moved ρ U path plugins _) fun a => ?_
      refine Res.bind_both (expect_moved ρ path str!"}}" _) fun b => ?_
      simp only [id]
      rw [← parseHtmlGo_moved U path plugins n]
      simp only [List.map_append, rawTok_moved]
      rfl

theorem parseHtml_moved (U : Unicode) (path : Str) (plugins : List PluginFns) (input : Str) :
    parseHtml U (ρ path) plugins input = (parseHtml U path plugins input).both (movedTB ρ) (List.map (movedTok ρ)) :=
  parseHtmlGo_moved ρ U path plugins _ [] 1 1 _

theorem fmLoop_moved (path : Str) : ∀ (ls : List Str) (i dashed : Nat) (fm : List (Str × Str)),
    fmLoop (ρ path) i dashed ls fm = (fmLoop path i dashed ls fm).both (movedTB ρ) id
  | [], _, _, _ => rfl
  | l :: ls, i, dashed, fm => by
    rw [fmLoop, fmLoop]
    split
    · split
      · rfl
      · exact fmLoop_moved path ls _ _ _
    · split
      · split
        · rfl
        · exact fmLoop_moved path ls _ _ _
      · exact fmLoop_moved path ls _ _ _

/-- A markdown file that is elsewhere. -/
def movedMd (md : ParsedMd) : ParsedMd := { md with markdown := md.markdown.map (movedTok ρ) }

theorem parseMarkdown_moved (U : Unicode) (path : Str) (plugins : List PluginFns) (input : Str) :
    parseMarkdown U (ρ path) plugins input = (parseMarkdown U path plugins input).both (movedTB ρ) (movedMd ρ) := by
  unfold parseMarkdown
  have hf : parseFrontmatter (ρ path) input = (parseFrontmatter path input).both (movedTB ρ) id := by
    unfold parseFrontmatter
    split
    · refine Res.bind_both (fmLoop_moved ρ path _ _ _ _) fun a => ?_
      obtain ⟨_ | n, fm⟩ := a <;> rfl
    · rfl
  refine Res.bind_both hf fun a => ?_
  exact Res.bind_both (parseHtml_moved ρ U path plugins _) fun _ => rfl

/-! ### Trees -/

/-- The contents of a file that is elsewhere. -/
def movedParsed : Parsed → Parsed
  | .html toks => .html (toks.map (movedTok ρ))
  | .markdown md => .markdown (movedMd ρ md)
  | p => p

mutual
/-- A tree that is elsewhere. -/
def movedNode : Node → Node
  | .file name b p m src => .file name b (movedParsed ρ p) m (ρ src)
  | .dir name cs src => .dir name (movedNodes cs) (ρ src)
/-- The same for several. -/
def movedNodes : List Node → List Node
  | [] => []
  | n :: ns => movedNode n :: movedNodes ns
end

theorem movedNodes_map (ns : List Node) : movedNodes ρ ns = ns.map (movedNode ρ) := by
  induction ns with
  | nil => rfl
  | cons n ns ih => rw [movedNodes, ih, List.map_cons]

@[simp] theorem movedNode_name (n : Node) : (movedNode ρ n).name = n.name := by cases n <;> rfl
@[simp] theorem movedNode_isDir (n : Node) : (movedNode ρ n).isDir = n.isDir := by cases n <;> rfl
@[simp] theorem movedNode_source (n : Node) : (movedNode ρ n).source = ρ n.source := by cases n <;> rfl
@[simp] theorem movedNode_parsed (n : Node) : (movedNode ρ n).parsed = movedParsed ρ n.parsed := by cases n <;> rfl
@[simp] theorem movedNode_children (n : Node) : (movedNode ρ n).children = n.children.map (List.map (movedNode ρ)) := by
  cases n with
  | file => rfl
  | dir d cs s => rw [movedNode, movedNodes_map]; rfl

theorem find_moved (c : Str) (cs : List Node) :
    (cs.map (movedNode ρ)).find? (fun m => m.name == c) = (cs.find? fun m => m.name == c).map (movedNode ρ) := by
  induction cs with
  | nil => rfl
  | cons n cs ih =>
    simp only [List.map_cons, List.find?_cons, movedNode_name]
    split
    · rfl
    · exact ih

theorem getComps_moved : ∀ (cs : List Comp) (n : Node), getComps (movedNode ρ n) cs = (getComps n cs).map (movedNode ρ)
  | [], n => by cases n <;> rfl
  | .normal c :: cs, n => by
    rw [getComps, getComps, movedNode_children]
    cases hn : n.children with
    | none => rfl
    | some ch =>
      simp only [Option.map_some, Option.bind_some, find_moved]
      cases ch.find? fun m => m.name == c with
      | none => rfl
      | some m => exact getComps_moved cs m
  | .curDir :: cs, n => by
    rw [getComps, getComps]
    exact getComps_moved cs n
  | .rootDir :: cs, n => by cases n <;> rfl
  | .parentDir :: cs, n => by cases n <;> rfl

/-! ### Rendering -/

/-- The input tree is elsewhere. -/
def movedCtx (cx : Ctx) : Ctx := { cx with input := movedNode ρ cx.input }

theorem getAtPath_moved (cx : Ctx) (p : Str) : (movedCtx ρ cx).input.getAtPath p = (cx.input.getAtPath p).map (movedNode ρ) :=
  getComps_moved ρ _ _

theorem mdValues_moved : ∀ cs : List Node, mdValues (cs.map (movedNode ρ)) = mdValues cs
  | [] => rfl
  | n :: ns => by
    rw [List.map_cons, mdValues, mdValues, movedNode_parsed, mdValues_moved ns]
    cases n.parsed <;> rfl

theorem forItems_moved (cx : Ctx) (f : ForFn) (stack : List Frame) : forItems (movedCtx ρ cx) f stack = forItems cx f stack := by
  unfold forItems
  rw [getAtPath_moved]
  cases f.kind with
  | mdDir =>
    simp only
    cases cx.input.getAtPath f.source with
    | none => rfl
    | some n =>
      simp only [Option.map_some, movedNode_children]
      cases n.children with
      | none => rfl
      | some cs => exact mdValues_moved ρ cs
  | jsonFile =>
    simp only
    cases cx.input.getAtPath f.source with
    | none => rfl
    | some n =>
      simp only [Option.map_some, movedNode_isDir, movedNode_parsed]
      cases n.parsed <;> rfl
  | jsonObj => rfl

theorem execSimple_moved (cx : Ctx) (f : Fn) (st : St) : execSimple (movedCtx ρ cx) f st = execSimple cx f st := by
  cases f with
  | import_ v file =>
    simp only [execSimple]
    unfold execImport
    rw [getAtPath_moved]
    cases cx.input.getAtPath file with
    | none => rfl
    | some n =>
      simp only [Option.map_some, movedNode_isDir, movedNode_parsed]
      cases n.parsed <;> rfl
  | _ => rfl

/-- The tokens to be read are those of a file that is elsewhere. -/
def movedR : R → R := Res.both (movedTB ρ) fun x => (x.1.map (movedTok ρ), x.2)

variable {ρ}

theorem bodyLoop_moved {ex ex' : LTok → List LTok → St → R} (hex : ∀ t ts st, ex' (movedTok ρ t) (ts.map (movedTok ρ)) st = movedR ρ (ex t ts st))
    (eof : PErr) (h : Nat) : ∀ (fuel : Nat) (rest : List LTok) (st : St),
    bodyLoop ex' (movedTB ρ eof) h fuel (rest.map (movedTok ρ)) st = movedR ρ (bodyLoop ex eof h fuel rest st)
  | fuel, rest, st => by
    rw [bodyLoop.eq_def, bodyLoop.eq_def]
    by_cases hh : st.stack.length ≤ h
    · simp only [if_pos hh]; rfl
    · simp only [if_neg hh]
      cases rest with
      | nil => rfl
      | cons t ts =>
        cases fuel with
        | zero => rfl
        | succ k =>
          simp only [List.map_cons]
          exact Res.bind_both (hex t ts st) fun a => bodyLoop_moved hex eof h k a.1 a.2

theorem tokName_moved (t : LTok) : tokName (movedTok ρ t) = (tokName t).both (movedTB ρ) id := by
  unfold tokName
  simp only [movedTok]
  split
  · split <;> rfl
  · rfl

theorem ifLoop_moved {ex ex' : LTok → List LTok → St → R} (hex : ∀ t ts st, ex' (movedTok ρ t) (ts.map (movedTok ρ)) st = movedR ρ (ex t ts st))
    (eof : PErr) (h : Nat) : ∀ (fuel : Nat) (cond : Bool) (rest : List LTok) (st : St),
    ifLoop ex' (movedTB ρ eof) h fuel cond (rest.map (movedTok ρ)) st = movedR ρ (ifLoop ex eof h fuel cond rest st)
  | fuel, cond, rest, st => by
    rw [ifLoop.eq_def, ifLoop.eq_def]
    by_cases hh : st.stack.length ≤ h
    · simp only [if_pos hh]; rfl
    · simp only [if_neg hh]
      cases rest with
      | nil => rfl
      | cons t ts =>
        cases fuel with
        | zero => rfl
        | succ k =>
          simp only [List.map_cons]
          refine Res.bind_both (tokName_moved t) fun name => ?_
          simp only [id]
          split
          · exact Res.bind_both (hex t ts st) fun a => ifLoop_moved hex eof h k _ a.1 a.2
          · exact ifLoop_moved hex eof h k _ ts st

theorem forIter_moved {ex ex' : LTok → List LTok → St → R} (hex : ∀ t ts st, ex' (movedTok ρ t) (ts.map (movedTok ρ)) st = movedR ρ (ex t ts st))
    (eof : PErr) (var : Str) (wp : List LTok) : ∀ (vs : List Value) (rest : List LTok) (st : St),
    forIter ex' (movedTB ρ eof) var (wp.map (movedTok ρ)) vs (rest.map (movedTok ρ)) st = movedR ρ (forIter ex eof var wp vs rest st)
  | [], rest, st => rfl
  | v :: vs, rest, st => by
    rw [forIter, forIter, List.length_map]
    exact Res.bind_both (bodyLoop_moved hex eof _ _ wp _) fun a => forIter_moved hex eof var wp vs a.1 a.2

theorem enterIf_moved {ex ex' : LTok → List LTok → St → R} (hex : ∀ t ts st, ex' (movedTok ρ t) (ts.map (movedTok ρ)) st = movedR ρ (ex t ts st))
    (eof : PErr) (name : Str) (cond : Bool) (rest : List LTok) (st : St) :
    enterIf ex' (movedTB ρ eof) name cond (rest.map (movedTok ρ)) st = movedR ρ (enterIf ex eof name cond rest st) := by
  unfold enterIf
  rw [List.length_map]
  exact ifLoop_moved hex eof _ _ cond rest _

theorem execTok_moved (cx : Ctx) : ∀ (n : Nat) (t : LTok) (rest : List LTok) (st : St),
    execTok (movedCtx ρ cx) n (movedTok ρ t) (rest.map (movedTok ρ)) st = movedR ρ (execTok cx n t rest st)
  | 0, _, _, _ => rfl
  | n + 1, t, rest, st => by
    have hex := execTok_moved cx n
    obtain ⟨inner, path, line, col⟩ := t
    rw [execTok, execTok]
    have hsimple : ∀ f, ((execSimple (movedCtx ρ cx) f st).mapErr (movedTok ρ ⟨inner, path, line, col⟩).tb).bind
        (fun st' => Res.ok (rest.map (movedTok ρ), st')) =
        movedR ρ (((execSimple cx f st).mapErr (LTok.tb ⟨inner, path, line, col⟩)).bind fun st' => .ok (rest, st')) := by
      intro f
      rw [execSimple_moved]
      exact Res.bind_both (g := id) (Res.mapErr_both id (fun _ => rfl) fun _ => rfl) fun _ => rfl
    cases inner with
    | raw s => 
      simp only [movedTok]
      cases st.output (bytesOf s) <;> rfl
    | var v => exact Res.bind_both (g := id) (Res.mapErr_both id (fun _ => rfl) fun _ => rfl) fun _ => rfl
    | func f =>
      cases f with
      | for_ f =>
        refine Res.bind_both (g := id) ?_ fun items => forIter_moved hex (LTok.tb ⟨.func (.for_ f), path, line, col⟩ .unexpectedEndOfFile) f.var rest (arrange f items) rest st
        rw [forItems_moved]
        exact Res.mapErr_both id (fun _ => rfl) fun _ => rfl
      | ifdefined v => exact enterIf_moved hex (LTok.tb ⟨.func (.ifdefined v), path, line, col⟩ .unexpectedEndOfFile) _ _ rest st
      | cmp op a b =>
        refine Res.bind_both (g := id) ?_ fun x => Res.bind_both (g := id) ?_ fun y =>
          enterIf_moved hex (LTok.tb ⟨.func (.cmp op a b), path, line, col⟩ .unexpectedEndOfFile) _ (op.holds x y) rest st
        · cases a.eval st <;> rfl
        · cases b.eval st <;> rfl
      | _ => exact hsimple _

theorem runGo_moved (cx : Ctx) : ∀ (k : Nat) (toks : List LTok) (st : St),
    runGo (movedCtx ρ cx) k (toks.map (movedTok ρ)) st = (runGo cx k toks st).both (movedTB ρ) id
  | _, [], st => by rw [List.map_nil, runGo.eq_1, runGo.eq_1]; rfl
  | 0, _ :: _, _ => rfl
  | k + 1, t :: ts, st => by
    rw [List.map_cons, runGo, runGo, List.length_map]
    exact Res.bind_both (execTok_moved cx _ t ts st) fun a => runGo_moved cx k a.1 a.2

theorem runToks_moved (cx : Ctx) (toks : List LTok) (st : St) :
    runToks (movedCtx ρ cx) (toks.map (movedTok ρ)) st = (runToks cx toks st).both (movedTB ρ) id := by
  unfold runToks
  rw [List.length_map]
  exact runGo_moved cx _ toks st

end Stuart
