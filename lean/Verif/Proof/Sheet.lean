import Verif.Spec.Sheet
import Verif.Proof.Grammar
import Verif.Proof.Block
/-
Lemmas on simple texts: their tokens, and what these mean.
-/
namespace Stuart
open Spec

/-! ### Words -/

theorem Spec.Words.clear_brace {w : Str} (h : Words w) : NoOpen (w ++ ['{']) := by
  rintro ⟨a, b, e⟩
  rcases List.eq_nil_or_concat b with rfl | ⟨b', c, rfl⟩
  · have : a ++ ['{'] ++ ['{'] = w ++ ['{'] := by simpa using e
    exact h.last.1 ⟨a, List.append_cancel_right this⟩
  · rw [List.concat_eq_append, ← List.append_assoc] at e
    exact h.clear ⟨a, b', (List.append_inj' e rfl).1⟩

theorem noOpen_allEscaped {w : Str} (h : NoOpen w) : AllEscaped w := fun a b e => absurd ⟨a, b, e.symm⟩ h

theorem noOpen_unescape : ∀ {w : Str}, NoOpen w → unescape w = w := by
  intro w
  induction w with
  | nil => intro _; rfl
  | cons c w ih =>
    intro h
    rw [unescape]
    · rw [ih (noOpen_tail h)]
    · rintro r rfl rfl
      exact h ⟨['\\'], r, rfl⟩

theorem Spec.Words.opens {w : Str} (h : Words w) : OpensAfter w := ⟨noOpen_allEscaped h.clear_brace, h.last.2⟩

theorem Spec.Words.raw {w : Str} (h : Words w) : rawText w = w := by
  unfold rawText
  rw [noOpen_unescape h.clear_brace, List.dropLast_concat]

/-! ### Tokens -/

def placeAt (path pre : Str) : At := ⟨path, lineAt pre, colAt pre⟩

def rawThen (path pre w : Str) (t : Tpl) : Tpl := if w = [] then t else .leaf (placeAt path pre) (.raw w) t

/-- The template that a simple text is, in a file that begins with `pre`. -/
def sheetTpl (path : Str) : Sheet → Str → Tpl
  | .words w, pre => rawThen path pre w .nil
  | .var w v next, pre => rawThen path pre w <| .leaf (placeAt path (pre ++ w ++ str!"{{ ")) (.var v) <|
      sheetTpl path next (pre ++ w ++ str!"{{ $" ++ v ++ str!" }}")
  | .insert w l next, pre => rawThen path pre w <| .leaf (placeAt path (pre ++ w ++ str!"{{ ")) (.func (.insert l)) <|
      sheetTpl path next (pre ++ w ++ str!"{{ insert(\"" ++ l ++ str!"\") }}")
  | .section_ w l body next, pre => rawThen path pre w <|
      .section_ (placeAt path (pre ++ w ++ str!"{{ "))
        (placeAt path (pre ++ w ++ str!"{{ begin(\"" ++ l ++ str!"\") }}" ++ body.text ++ str!"{{ ")) l
        (sheetTpl path body (pre ++ w ++ str!"{{ begin(\"" ++ l ++ str!"\") }}"))
        (sheetTpl path next (pre ++ w ++ str!"{{ begin(\"" ++ l ++ str!"\") }}" ++ body.text ++ str!"{{ end(\"" ++ l ++ str!"\") }}"))

theorem rawThen_toks (path pre w : Str) (t : Tpl) : (rawThen path pre w t).toks = rawAt path pre w ++ t.toks := by
  unfold rawThen rawAt
  split <;> rfl

theorem rawThen_wf {path pre w : Str} {t : Tpl} (h : t.WF) : (rawThen path pre w t).WF := by
  unfold rawThen
  split
  · exact h
  · exact ⟨trivial, h⟩

theorem sheetTpl_wf (path : Str) : ∀ (s : Sheet) (pre : Str), (sheetTpl path s pre).WF
  | .words _, _ => rawThen_wf (t := .nil) trivial
  | .var _ _ next, _ => rawThen_wf ⟨trivial, sheetTpl_wf path next _⟩
  | .insert _ _ next, _ => rawThen_wf ⟨trivial, sheetTpl_wf path next _⟩
  | .section_ _ _ body next, _ => rawThen_wf ⟨sheetTpl_wf path body _, sheetTpl_wf path next _⟩

section
variable {U : Unicode} {plugins : List PluginFns}

theorem blank_one : Blank str!" " := by intro c hc; simp at hc; subst hc; rfl

theorem tagText_var {v : Str} (h : v ≠ []) (hc : ∀ c ∈ v, U.alnum c = true ∨ c = '_' ∨ c = '.') :
    TagText U plugins (.var v) ('$' :: v ++ str!" ") := .var v _ h hc blank_one

theorem tagText_call {f : Fn} {name l : Str} (hn : name ≠ []) (hc : ∀ c ∈ name, asciiAlnum c = true ∧ c.toNat < 128) (hl : '"' ∉ l)
    (hb : BuiltinCall f ⟨name, [.str l], []⟩) : TagText U plugins (.func f) (name ++ [] ++ '(' :: ('"' :: (l ++ ['"'])) ++ ')' :: str!" ") := by
  refine .func f name [] _ _ [.str l] [] hn (fun c k => .inl ?_) (by intro c k; cases k) ?_ blank_one (.builtin hb)
  · rw [U.ascii c (hc c k).2]; exact (hc c k).1
  · refine .last ?_
    have := Slot.pos (U := U) [] ('"' :: (l ++ ['"'])) [] (.str l) (by intro c k; cases k) (.str l hl) (by intro c k; cases k)
    simpa [argList] using this

/-- A simple text, followed by something that begins with a tag or is nothing. -/
theorem sheet_parses_then (path : Str) : ∀ (s : Sheet), s.WF U → ∀ (pre rest : Str) (tl : Str → List LTok),
    (∀ pre w, Words w → Parses U path plugins pre (w ++ rest) (rawAt path pre w ++ tl (pre ++ w))) →
    Parses U path plugins pre (s.text ++ rest) ((sheetTpl path s pre).toks ++ tl (pre ++ s.text))
  | .words w, h, pre, rest, tl, hr => by
    simp only [sheetTpl, rawThen_toks, Tpl.toks, List.append_nil, Sheet.text]
    exact hr pre w h
  | .var w v next, ⟨hw, h1, h2, h3⟩, pre, rest, tl, hr => by
    have ih := sheet_parses_then path next h3 (pre ++ w ++ str!"{{ $" ++ v ++ str!" }}") rest tl hr
    have := Parses.tag pre w str!" " ('$' :: v ++ str!" ") (next.text ++ rest) _ (.var v) hw.opens blank_one (tagText_var h1 h2)
      (by simpa using ih)
    rw [hw.raw] at this
    simpa [sheetTpl, rawThen_toks, Tpl.toks, Sheet.text, At.tok, placeAt] using this
  | .insert w l next, ⟨hw, h1, h3⟩, pre, rest, tl, hr => by
    have ih := sheet_parses_then path next h3 (pre ++ w ++ str!"{{ insert(\"" ++ l ++ str!"\") }}") rest tl hr
    have := Parses.tag pre w str!" " _ (next.text ++ rest) _ _ hw.opens blank_one
      (tagText_call (U := U) (plugins := plugins) (name := str!"insert") (by decide) (by decide) h1 (.insert l)) (by simpa using ih)
    rw [hw.raw] at this
    simpa [sheetTpl, rawThen_toks, Tpl.toks, Sheet.text, At.tok, placeAt] using this
  | .section_ w l body next, ⟨hw, h1, h2, h3⟩, pre, rest, tl, hr => by
    have ih2 := sheet_parses_then path body h2 (pre ++ w ++ str!"{{ begin(\"" ++ l ++ str!"\") }}")
      (str!"{{ end(\"" ++ l ++ str!"\") }}" ++ next.text ++ rest)
      (fun q => ⟨.func (.end_ l true), path, lineAt (q ++ str!"{{ "), colAt (q ++ str!"{{ ")⟩ ::
        ((sheetTpl path next (q ++ str!"{{ end(\"" ++ l ++ str!"\") }}")).toks ++ tl (q ++ str!"{{ end(\"" ++ l ++ str!"\") }}" ++ next.text)))
      (by
        intro pre' w' hw'
        have ih := sheet_parses_then path next h3 (pre' ++ w' ++ str!"{{ end(\"" ++ l ++ str!"\") }}") rest tl hr
        have := Parses.tag pre' w' str!" " _ (next.text ++ rest) _ _ hw'.opens blank_one
          (tagText_call (U := U) (plugins := plugins) (name := str!"end") (by decide) (by decide) h1 (.endS l)) (by simpa using ih)
        rw [hw'.raw] at this
        simpa using this)
    have := Parses.tag pre w str!" " _ _ _ _ hw.opens blank_one
      (tagText_call (U := U) (plugins := plugins) (name := str!"begin") (by decide) (by decide) h1 (.beginS l)) (by simpa using ih2)
    rw [hw.raw] at this
    simpa [sheetTpl, rawThen_toks, Tpl.toks, Sheet.text, At.tok, placeAt] using this

theorem sheet_parses (path : Str) (s : Sheet) (h : s.WF U) : Parses U path plugins [] s.text (sheetTpl path s []).toks := by
  have := sheet_parses_then (plugins := plugins) path s h [] [] (fun _ => []) (by
    intro pre w hw
    have := Parses.last (U := U) (path := path) (plugins := plugins) pre w (noOpen_allEscaped hw.clear)
    rw [noOpen_unescape hw.clear] at this
    simpa using this)
  simpa using this

end

/-! ### Meaning -/

/-- Sections as bytes. -/
def secBytes (l : List (Str × Str)) : Sections := l.map fun e => (e.1, bytesOf e.2)

theorem secBytes_append (a b : List (Str × Str)) : secBytes (a ++ b) = secBytes a ++ secBytes b := List.map_append

theorem secBytes_lookup (l : Str) : ∀ (ss : List (Str × Str)), (secBytes ss).lookup l = (ss.lookup l).map bytesOf
  | [] => rfl
  | (k, v) :: ss => by
    simp only [secBytes, List.map_cons, List.lookup_cons]
    split
    · rfl
    · exact secBytes_lookup l ss

theorem meant_nil (v : Str) (scs : Scopes) : meant v ([] :: scs) = meant v scs := by
  unfold meant
  split
  · rfl
  · rename_i n path _
    have : bound n ([] :: scs) = bound n scs := rfl
    simp [denoted, this]

theorem andThen_shows {r : Out} {next : Scopes → Sections → Res PErr Out} {scs : Scopes} {secs : Sections} (hv : r.vars = []) {r' : Out}
    (h : next scs (secs ++ r.secs) = .ok r') : andThen r next scs secs = .ok ⟨r'.vars, r.out ++ r'.out, r.secs ++ r'.secs⟩ := by
  simp [andThen, hv, extend_nil, h, Res.bind_ok]

theorem andThen_fails {r : Out} {next : Scopes → Sections → Res PErr Out} {scs : Scopes} {secs : Sections} (hv : r.vars = []) {e : PErr}
    (h : next scs (secs ++ r.secs) = .err e) : andThen r next scs secs = .err e := by
  simp [andThen, hv, extend_nil, h, Res.bind]

theorem rawThen_eval (cx : Ctx) (path pre w : Str) (t : Tpl) (scs : Scopes) (secs : Sections) :
    (rawThen path pre w t).eval cx scs secs = (t.eval cx scs secs).bind fun r => .ok ⟨r.vars, bytesOf w ++ r.out, r.secs⟩ := by
  unfold rawThen
  split
  · rename_i h; subst h
    cases t.eval cx scs secs <;> simp [Res.bind, bytesOf]
  · simp only [Tpl.eval, yields, Res.mapErr, Res.bind_ok, andThen, says, extend_nil, List.append_nil, List.nil_append]

/-- What a simple text shows is what its template means. -/
theorem sheet_eval (cx : Ctx) (path : Str) (vars : List (Str × Value)) : ∀ (s : Sheet) (pre : Str) (scs : Scopes) (ss : List (Str × Str)),
    (∀ v, meant v scs = meant v [vars]) →
    (∀ r, s.fill vars ss = some r → (sheetTpl path s pre).eval cx scs (secBytes ss) = .ok ⟨[], bytesOf r.1, secBytes r.2⟩) ∧
    (s.fill vars ss = none → ∃ e, (sheetTpl path s pre).eval cx scs (secBytes ss) = .err e)
  | .words w, pre, scs, ss, _ => by
    refine ⟨fun r h => ?_, nofun⟩
    cases h
    simp [sheetTpl, rawThen_eval, Tpl.eval, Res.bind, secBytes]
  | .var w v next, pre, scs, ss, hv => by
    have ih := sheet_eval cx path vars next (pre ++ w ++ str!"{{ $" ++ v ++ str!" }}") scs ss hv
    simp only [sheetTpl, rawThen_eval, Tpl.eval, yields, hv, Sheet.fill]
    cases hm : meant v [vars] with
    | none => exact ⟨nofun, fun _ => ⟨_, rfl⟩⟩
    | some x =>
      cases x with
      | str t =>
        simp only [Res.mapErr, Res.bind_ok]
        constructor
        · intro r h
          obtain ⟨r', h1, h2⟩ := Option.map_eq_some_iff.1 h
          cases h2
          rw [andThen_shows rfl (by simp only [says, List.append_nil]; exact ih.1 r' h1), Res.bind_ok]
          simp [says, bytesOf]
        · intro h
          obtain ⟨e, k⟩ := ih.2 (Option.map_eq_none_iff.1 h)
          exact ⟨e, by rw [andThen_fails rfl (by simp only [says, List.append_nil]; exact k)]; rfl⟩
      | null => exact ⟨nofun, fun _ => ⟨_, rfl⟩⟩
      | bool _ => exact ⟨nofun, fun _ => ⟨_, rfl⟩⟩
      | num _ => exact ⟨nofun, fun _ => ⟨_, rfl⟩⟩
      | arr _ => exact ⟨nofun, fun _ => ⟨_, rfl⟩⟩
      | obj _ => exact ⟨nofun, fun _ => ⟨_, rfl⟩⟩
  | .insert w l next, pre, scs, ss, hv => by
    have ih := sheet_eval cx path vars next (pre ++ w ++ str!"{{ insert(\"" ++ l ++ str!"\") }}") scs ss hv
    simp only [sheetTpl, rawThen_eval, Tpl.eval, yields, Sheet.fill, secBytes_lookup]
    cases hm : ss.lookup l with
    | none => exact ⟨nofun, fun _ => ⟨_, rfl⟩⟩
    | some t =>
      simp only [Option.map_some, Res.mapErr, Res.bind_ok, Option.bind_some]
      constructor
      · intro r h
        obtain ⟨r', h1, h2⟩ := Option.map_eq_some_iff.1 h
        cases h2
        rw [andThen_shows rfl (by simp only [List.append_nil]; exact ih.1 r' h1), Res.bind_ok]
        simp [bytesOf]
      · intro h
        obtain ⟨e, k⟩ := ih.2 (Option.map_eq_none_iff.1 h)
        exact ⟨e, by rw [andThen_fails rfl (by simp only [List.append_nil]; exact k)]; rfl⟩
  | .section_ w l body next, pre, scs, ss, hv => by
    have ihb := sheet_eval cx path vars body (pre ++ w ++ str!"{{ begin(\"" ++ l ++ str!"\") }}") ([] :: scs) ss
      (fun v => by rw [meant_nil, hv])
    simp only [sheetTpl, rawThen_eval, Tpl.eval, Sheet.fill]
    cases hb : body.fill vars ss with
    | none =>
      obtain ⟨e, k⟩ := ihb.2 hb
      exact ⟨nofun, fun _ => ⟨e, by rw [k]; rfl⟩⟩
    | some b =>
      rw [ihb.1 b hb]
      have ih := sheet_eval cx path vars next
        (pre ++ w ++ str!"{{ begin(\"" ++ l ++ str!"\") }}" ++ body.text ++ str!"{{ end(\"" ++ l ++ str!"\") }}") scs (ss ++ b.2 ++ [(l, b.1)]) hv
      simp only [Res.bind_ok, Option.bind_some]
      have e : secBytes ss ++ (secBytes b.2 ++ [(l, bytesOf b.1)]) = secBytes (ss ++ b.2 ++ [(l, b.1)]) := by
        simp [secBytes]
      constructor
      · intro r h
        obtain ⟨r', h1, h2⟩ := Option.map_eq_some_iff.1 h
        cases h2
        rw [andThen_shows rfl (by simp only [e]; exact ih.1 r' h1), Res.bind_ok]
        simp [bytesOf, secBytes]
      · intro h
        obtain ⟨e', k⟩ := ih.2 (Option.map_eq_none_iff.1 h)
        exact ⟨e', by rw [andThen_fails rfl (by simp only [e]; exact k)]; rfl⟩

theorem rawThen_tame {cx : Ctx} {path pre w : Str} {t : Tpl} (h : ∀ scs secs, t.Tame cx scs secs) (scs : Scopes) (secs : Sections) :
    (rawThen path pre w t).Tame cx scs secs := by
  unfold rawThen
  split
  · exact h scs secs
  · exact fun _ _ => h _ _

theorem sheet_tame (cx : Ctx) (path : Str) : ∀ (s : Sheet) (pre : Str) (scs : Scopes) (secs : Sections), (sheetTpl path s pre).Tame cx scs secs
  | .words _, _, _, _ => rawThen_tame (t := .nil) (fun _ _ => trivial) _ _
  | .var _ _ next, _, _, _ => by
    rw [sheetTpl]
    refine rawThen_tame (fun _ _ => ?_) _ _
    exact fun _ _ => sheet_tame cx path next _ _ _
  | .insert _ _ next, _, _, _ => by
    rw [sheetTpl]
    refine rawThen_tame (fun _ _ => ?_) _ _
    exact fun _ _ => sheet_tame cx path next _ _ _
  | .section_ _ _ body next, _, _, _ => by
    rw [sheetTpl]
    refine rawThen_tame (fun _ _ => ?_) _ _
    exact ⟨sheet_tame cx path body _ _ _, fun _ _ => sheet_tame cx path next _ _ _⟩

end Stuart
