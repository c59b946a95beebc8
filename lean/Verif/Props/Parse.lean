import Verif.Proof.CallFile
import Verif.Proof.Grammar
/-
Properties C01–C08 and C68: the template parser.
-/
namespace Stuart
open Spec

/-! ### C01 -/

/-- C01. A file without `{{` parses to its own text, as one raw token at the start of the file. -/
theorem C01_plain_text (U : Unicode) (path : Str) (plugins : List PluginFns) (s : Str) (h : NoOpen s) :
    parseHtml U path plugins s = .ok (if s = [] then [] else [⟨.raw s, path, 1, 1⟩]) := by
  have hw : (Text.plain s).WF := ⟨h, by simp [Text.plain]⟩
  have hs : (Text.plain s).src = s := by simp [Text.src, Text.plain]
  have hv : (Text.plain s).val = s := by simp [Text.val, Text.plain]
  have e := extractUntilGo_Text s (Text.plain s) hw [] Loc.start
  rw [List.append_nil, hs, hv] at e
  have e2 := replaceAll_Text (Text.plain s) hw
  rw [hs, hv] at e2
  unfold parseHtml parseHtmlGo PSt.extractUntil PSt.init
  simp only
  rw [e]
  simp only [extractUntilGo, PSt.extractRemaining, if_true, e2, List.nil_append]
  unfold rawTok
  cases s <;> simp

/-- Backslashes, single braces and closing braces are plain. -/
example : NoOpen str!"a { b } \\ }} c" := by unfold NoOpen; decide

example : parseHtml Unicode.asciiOnly str!"p" [] str!"a { b } \\ }}" =
    .ok [⟨.raw str!"a { b } \\ }}", str!"p", 1, 1⟩] := by
  rw [C01_plain_text _ _ _ _ (by unfold NoOpen; decide)]; rfl

/-! ### C02

The full claim is: every `\{{` stands for the literal text `{{` and never starts a tag. It is false when a third
brace follows, see the counterexample. -/

/-- C02, in the trailing text (or a file of text only): escapes are literal, if no escape is followed by a
third brace. -/
theorem C02_escaped_text_partial (U : Unicode) (path : Str) (plugins : List PluginFns) (t : Text) (h : t.WF) :
    parseHtml U path plugins t.src = .ok (if t.val = [] then [] else [⟨.raw t.val, path, 1, 1⟩]) := by
  have e := extractUntilGo_Text t.src t h [] Loc.start
  rw [List.append_nil] at e
  unfold parseHtml parseHtmlGo PSt.extractUntil PSt.init
  simp only
  rw [e]
  simp only [extractUntilGo, PSt.extractRemaining, if_true, replaceAll_Text t h, List.nil_append]
  unfold rawTok
  cases t.val <;> simp

/-- C02, in front of a tag and after it: escapes are literal, the tag is a tag. -/
theorem C02_escaped_around_tag_partial (U : Unicode) (path : Str) (plugins : List PluginFns) (t t' : Text)
    (tag : Tag) (h : t.WF) (hg : Glue t) (h' : t'.WF) (htag : tag.WF U plugins) :
    ∃ toks, parseHtml U path plugins (t.src ++ tag.src ++ t'.src) = .ok toks ∧
      toks.map (fun t => t.inner) = textTok t.val ++ [tag.body.tok] ++ textTok t'.val := by
  obtain ⟨toks, h1, h2, _⟩ := parseHtml_src U path plugins ⟨[(t, tag)], t'⟩
    ⟨by intro i hi; simp at hi; subst hi; exact ⟨h, hg, htag⟩, h'⟩
  refine ⟨toks, ?_, ?_⟩
  · simpa [Template.src] using h1
  · simpa [Template.toks] using h2

/-- The hypotheses are met by text with two escapes, one of them after a backslash. -/
example : (⟨str!"a \\", [str!" b }}", str!" c"]⟩ : Text).WF ∧ Glue ⟨str!"a \\", [str!" b }}", str!" c"]⟩ ∧
    (⟨str!"a \\", [str!" b }}", str!" c"]⟩ : Text).src = str!"a \\\\{{ b }}\\{{ c" ∧
    (⟨str!"a \\", [str!" b }}", str!" c"]⟩ : Text).val = str!"a \\{{ b }}{{ c" := by
  refine ⟨⟨by unfold NoOpen; decide, ?_⟩, by unfold Glue; decide, rfl, rfl⟩
  unfold NoOpen; decide

/-- C02 fails in general: in `\{{{ $x }}` the unescaped text and the third brace are taken for an opener, so a
tag starts in the middle of what should be literal text. -/
theorem C02_counterexample :
    parseHtml Unicode.asciiOnly str!"p" [] str!"\\{{{ $x }}" =
      .ok [⟨.raw ['{'], str!"p", 1, 1⟩, ⟨.var ['x'], str!"p", 1, 5⟩] := rfl

/-! ### C03 -/

/-- C03. Laying out any template and parsing it gives back its pieces, variables and functions, in order. -/
theorem C03_round_trip (U : Unicode) (path : Str) (plugins : List PluginFns) (t : Template)
    (h : t.WF U plugins) :
    ∃ toks, parseHtml U path plugins t.src = .ok toks ∧ toks.map (fun t => t.inner) = t.toks ∧
      ∀ t ∈ toks, t.path = path :=
  parseHtml_src U path plugins t h

/-- A template with text, a variable, and a loop with every kind of argument and odd spacing. -/
def exTemplate : Template :=
  { items :=
    [ (Text.plain str!"<p>", ⟨str!" ", .var str!"post.title", str!"\n"⟩),
      (Text.plain [], ⟨[], .call ⟨str!"for", str!" ",
        [⟨[], none, .var str!"x", []⟩, ⟨str!" ", none, .str str!"a,b=).json", str!" "⟩,
         ⟨str!"\t", some str!"skip", .int 3, []⟩, ⟨[], some str!"order", .str str!"desc", []⟩], []⟩
        (.for_ ⟨str!"x", str!"a,b=).json", .jsonFile, some 3, none, none, true⟩), str!" "⟩),
      (Text.plain [], ⟨[], .call ⟨str!"end", [], [⟨[], none, .ident str!"for", []⟩], []⟩
        (.end_ str!"for" false), []⟩) ]
    last := ⟨str!"</p>", [str!" }}"]⟩ }

example : exTemplate.src =
    str!"<p>{{ $post.title\n}}{{for ($x, \"a,b=).json\" ,\tskip=3,order=\"desc\") }}{{end(for)}}</p>\\{{ }}" := rfl

theorem exTemplate_wf : exTemplate.WF Unicode.asciiOnly [] := by
  refine ⟨?_, ⟨by unfold NoOpen; decide, by unfold NoOpen; decide⟩⟩
  intro i hi
  simp only [exTemplate, List.mem_cons, List.not_mem_nil, or_false] at hi
  rcases hi with rfl | rfl | rfl
  · exact ⟨⟨by unfold NoOpen; decide, by simp [Text.plain]⟩, by unfold Glue; decide,
      ⟨by unfold Blank; decide, by unfold Blank; decide, by decide, by decide⟩⟩
  · refine ⟨⟨by unfold NoOpen; decide, by simp [Text.plain]⟩, by unfold Glue; decide,
      ⟨by unfold Blank; decide, by unfold Blank; decide,
       ⟨⟨by decide, by decide⟩, by unfold Blank; decide, by unfold Blank; decide, ?_, ?_⟩, ?_⟩⟩
    · intro a ha
      simp only [List.mem_cons, List.not_mem_nil, or_false] at ha
      rcases ha with rfl | rfl | rfl | rfl
      · exact ⟨by unfold Blank; decide, by unfold Blank; decide, by unfold ArgWF; decide, by simp⟩
      · exact ⟨by unfold Blank; decide, by unfold Blank; decide, by unfold ArgWF; decide, by simp⟩
      · exact ⟨by unfold Blank; decide, by unfold Blank; decide, by unfold ArgWF; decide,
          by rintro k ⟨⟩; decide⟩
      · exact ⟨by unfold Blank; decide, by unfold Blank; decide, by unfold ArgWF; decide,
          by rintro k ⟨⟩; decide⟩
    · simp [PosFirst]
    · exact .builtin (.forJson str!"x" str!"a,b=)" (.desc (.skip 3 .nil)))
  · refine ⟨⟨by unfold NoOpen; decide, by simp [Text.plain]⟩, by unfold Glue; decide,
      ⟨by unfold Blank; decide, by unfold Blank; decide,
       ⟨⟨by decide, by decide⟩, by unfold Blank; decide, by unfold Blank; decide, ?_, ?_⟩, ?_⟩⟩
    · intro a ha
      simp only [List.mem_cons, List.not_mem_nil, or_false] at ha
      subst ha
      exact ⟨by unfold Blank; decide, by unfold Blank; decide, by unfold ArgWF; decide, by simp⟩
    · simp [PosFirst]
    · exact .builtin (.endI str!"for")

/-! ### C04

The full claim is: for every input the parser returns tokens or an error. It is false: a file that ends in a
lone quote as an argument makes it panic, see the counterexample. -/

/-- C04. The parser never runs out of fuel (it does not loop) and never panics, except that it may panic when
the file ends in a double quote followed by blanks only. Parsers supplied by plugins must not panic themselves. -/
theorem C04_no_crash_partial (U : Unicode) (path : Str) (plugins : List PluginFns)
    (hp : ∀ pl ∈ plugins, ∀ f ∈ pl.functions, ∀ raw q, f.parse raw ≠ .panic q)
    (input : Str) (q : Panic) (h : parseHtml U path plugins input = .panic q) :
    q = .loneQuote ∧ ∃ pre blank, input = pre ++ '"' :: blank ∧ ∀ c ∈ blank, isWs c = true :=
  parseHtmlGo_panic U path plugins hp _ _ _ _ _ _ (Nat.lt_succ_self _) h

/-- C04, the form used elsewhere: with no quote in the file's last non-blank place there are only two outcomes. -/
theorem C04_total_partial (U : Unicode) (path : Str) (plugins : List PluginFns)
    (hp : ∀ pl ∈ plugins, ∀ f ∈ pl.functions, ∀ raw q, f.parse raw ≠ .panic q)
    (input : Str) (hq : ¬ ∃ pre blank, input = pre ++ '"' :: blank ∧ ∀ c ∈ blank, isWs c = true) :
    (∃ toks, parseHtml U path plugins input = .ok toks) ∨ ∃ e, parseHtml U path plugins input = .err e := by
  cases h : parseHtml U path plugins input with
  | ok toks => exact Or.inl ⟨toks, rfl⟩
  | err e => exact Or.inr ⟨e, rfl⟩
  | panic q => exact absurd (C04_no_crash_partial U path plugins hp input q h).2 hq

/-- Every file whose last character is not a blank or a quote qualifies, e.g. this malformed one. -/
example : parseHtml Unicode.asciiOnly str!"p" [] str!"{{ for($a, \"b.json" =
    .err ⟨str!"p", 1, 18, .genericSyntax⟩ := rfl

/-- C04 fails in general: a truncated call panics. -/
theorem C04_counterexample :
    parseHtml Unicode.asciiOnly str!"p" [] str!"{{ begin(\"" = .panic .loneQuote := rfl

/-- The other reachable shape: a named argument. -/
theorem C04_counterexample_named :
    parseHtml Unicode.asciiOnly str!"p" [] str!"text {{ for($a, $b, order=\" \n" = .panic .loneQuote := rfl

/-! ### C05 -/

/-- C05, built-ins: the built-in of that name is used, whatever functions plugins define. -/
theorem C05_builtin_first (U : Unicode) (path : Str) (plugins : List PluginFns) (t : Text) (ht : t.WF)
    (hg : Glue t) (w w' : Str) (hw : Blank w) (hw' : Blank w') (c : Call) (hc : c.WF U) (f : Fn)
    (hf : BuiltinCall f c.raw) :
    ∃ toks, parseHtml U path plugins (callFile t w c w') = .ok toks ∧
      toks.map (fun t => t.inner) = textTok t.val ++ [.func f] := by
  obtain ⟨l, e⟩ := callFile_parse U path plugins t ht hg w w' hw hw' c hc
  rw [builtin_resolves plugins hf] at e
  exact ⟨_, e, by simp [rawTok_inner]⟩

/-- C05, built-ins: a call under a built-in name, right or wrong, never reaches a plugin. -/
theorem C05_builtin_shadows (U : Unicode) (path : Str) (plugins plugins' : List PluginFns) (t : Text) (ht : t.WF)
    (hg : Glue t) (w w' : Str) (hw : Blank w) (hw' : Blank w') (c : Call) (hc : c.WF U)
    (hn : c.name ∈ builtinNames) :
    parseHtml U path plugins (callFile t w c w') = parseHtml U path plugins' (callFile t w c w') :=
  callFile_shadows U path plugins plugins' t ht hg w w' hw hw' c hc hn

/-- C05, plugins: otherwise the first plugin function that answers to the name handles the call. -/
theorem C05_first_plugin (U : Unicode) (path : Str) (plugins : List PluginFns) (t : Text) (ht : t.WF)
    (hg : Glue t) (w w' : Str) (hw : Blank w) (hw' : Blank w') (c : Call) (hc : c.WF U)
    (hn : c.name ∉ builtinNames) (p : PluginFnParser) (hp : FirstPlugin plugins c.name p) :
    (∀ g, p.parse c.raw = .ok g → ∃ toks, parseHtml U path plugins (callFile t w c w') = .ok toks ∧
      toks.map (fun t => t.inner) = textTok t.val ++ [.func (.plugin g)]) ∧
    (∀ e, p.parse c.raw = .err e → ∃ tb, parseHtml U path plugins (callFile t w c w') = .err tb ∧ tb.kind = e) := by
  obtain ⟨l, e⟩ := callFile_parse U path plugins t ht hg w w' hw hw' c hc
  have hr : resolveFn plugins c.raw = some ((p.parse c.raw).bind fun g => .ok (.plugin g)) := by
    unfold resolveFn
    rw [show c.raw.name = c.name from rfl, findBuiltin_none hn, findPlugin_of_first hp]
  rw [hr] at e
  refine ⟨fun g hg' => ?_, fun e' he' => ?_⟩
  · rw [hg'] at e
    exact ⟨_, e, by simp [rawTok_inner]⟩
  · rw [he'] at e
    exact ⟨_, e, rfl⟩

/-- C05, unknown names: otherwise the parse fails, naming the function, at the place of the call. -/
theorem C05_unknown (U : Unicode) (path : Str) (plugins : List PluginFns) (t : Text) (ht : t.WF)
    (hg : Glue t) (w w' : Str) (hw : Blank w) (hw' : Blank w') (c : Call) (hc : c.WF U)
    (hn : c.name ∉ builtinNames)
    (hp : ∀ pl ∈ plugins, ∀ g ∈ pl.functions, c.name ≠ g.name ∧ c.name ≠ pl.name ++ str!"::" ++ g.name) :
    ∃ col, parseHtml U path plugins (callFile t w c w') =
      .err ⟨path, lineAt (t.src ++ str!"{{" ++ w), col, .nonexistentFunction c.name⟩ := by
  obtain ⟨l, e⟩ := callFile_parse U path plugins t ht hg w w' hw hw' c hc
  have hr : resolveFn plugins c.raw = none := by
    unfold resolveFn
    rw [show c.raw.name = c.name from rfl, findBuiltin_none hn, findPlugin_none_iff.2 hp]
  rw [hr, foldl_adv_line] at e
  exact ⟨_, e⟩

/-- Two plugins that both define `hi`, and one that tries to define `begin`. -/
def exPlugins : List PluginFns :=
  [⟨str!"a", [⟨str!"begin", fun _ => .err .assertion⟩, ⟨str!"hi", fun _ => .ok ⟨some str!"A", fun _ => .ok ([], [])⟩⟩]⟩,
   ⟨str!"b", [⟨str!"hi", fun _ => .ok ⟨some str!"B", fun _ => .ok ([], [])⟩⟩]⟩]

example : parseHtml Unicode.asciiOnly str!"p" exPlugins str!"{{ hi() }}{{ b::hi() }}{{ begin(\"x\") }}" =
    .ok [⟨.func (.plugin ⟨some str!"A", fun _ => .ok ([], [])⟩), str!"p", 1, 3⟩,
         ⟨.func (.plugin ⟨some str!"B", fun _ => .ok ([], [])⟩), str!"p", 1, 13⟩,
         ⟨.func (.begin_ str!"x" true), str!"p", 1, 26⟩] := rfl

example : parseHtml Unicode.asciiOnly str!"p" exPlugins str!"\n{{ c::hi() }}" =
    .err ⟨str!"p", 2, 2, .nonexistentFunction str!"c::hi"⟩ := rfl

example : FirstPlugin exPlugins str!"b::hi" ⟨str!"hi", fun _ => .ok ⟨some str!"B", fun _ => .ok ([], [])⟩⟩ := by
  refine ⟨[_], _, [], [], [], rfl, rfl, Or.inr rfl, ?_, by simp⟩
  intro p hp g hg
  simp at hp; subst hp
  simp at hg
  rcases hg with rfl | rfl <;> simp

/-! ### C06 -/

/-- C06, order: the positional arguments and the named arguments reach the function in the order in which they
are written. Quoted values may contain any characters but the quote: commas, parentheses and equals signs do not
split them, because the layout places no other condition on them. -/
theorem C06_argument_order (U : Unicode) (path : Str) (t : Text) (ht : t.WF) (hg : Glue t) (w w' : Str)
    (hw : Blank w) (hw' : Blank w') (c : Call) (hc : c.WF U) (hn : c.name ∉ builtinNames)
    (record : RawFn → PluginFn) :
    ∃ toks, parseHtml U path [⟨str!"rec", [⟨c.name, fun raw => .ok (record raw)⟩]⟩] (callFile t w c w') = .ok toks ∧
      toks.map (fun t => t.inner) = textTok t.val ++ [.func (.plugin (record
        { name := c.name
          pos := c.args.filterMap fun a => match a.key with | none => some a.val | some _ => none
          named := c.args.filterMap fun a => match a.key with | none => none | some k => some (k, a.val) }))] :=
  (C05_first_plugin U path [⟨str!"rec", [⟨c.name, fun raw => .ok (record raw)⟩]⟩] t ht hg w w' hw hw' c hc hn
    ⟨c.name, fun raw => .ok (record raw)⟩
    ⟨[], _, [], [], [], rfl, rfl, Or.inl rfl, by simp, by simp⟩).1 _ rfl

/-- C06, rejection: a positional argument anywhere after a named one is an error, whatever follows it. -/
theorem C06_positional_after_named (U : Unicode) (path : Str) (plugins : List PluginFns) (t : Text) (ht : t.WF)
    (hg : Glue t) (w : Str) (hw : Blank w) (name gap : Str)
    (hname : name ≠ [] ∧ ∀ ch ∈ name, U.alnum ch = true ∨ ch = '_' ∨ ch = ':') (hgap : Blank gap)
    (as : List ArgL) (has : ∀ a ∈ as, a.WF U) (hn : ∃ a ∈ as, a.key ≠ none) (b : ArgL) (hb : b.WF U)
    (hbk : b.key = none) (sep : Char) (hsep : sep = ',' ∨ sep = ')') (rest : Str) :
    ∃ e, parseHtml U path plugins (t.src ++ str!"{{" ++ w ++
        (name ++ (gap ++ (['('] ++ ((as.flatMap fun a => a.src ++ [',']) ++ (b.src ++ sep :: rest)))))) = .err e ∧
      e.kind = .positionalAfterNamed := by
  let body : Str := gap ++ (['('] ++ ((as.flatMap fun a => a.src ++ [',']) ++ (b.src ++ sep :: rest)))
  obtain ⟨e, he, hk⟩ := parseFunction_late U path plugins name gap hname hgap as has hn b hb hbk sep hsep rest
    ((t.src ++ str!"{{" ++ w).foldl Loc.adv Loc.start)
  refine ⟨e, ?_, hk⟩
  cases hnm : name with
  | nil => exact absurd hnm hname.1
  | cons y ys =>
    have hyc := hname.2 y (by simp [hnm])
    have hy : y ≠ '$' := by
      rintro rfl
      rcases hyc with h3 | h3 | h3
      · exact not_alnum U '$' (by decide) (by decide) h3
      · revert h3; decide
      · revert h3; decide
    rw [hnm] at he
    rw [parseHtml_first_tag U path plugins t ht hg w _ hw (by
      intro d hd
      simp at hd
      subst hd
      exact not_ws_of_fnChar U hyc)]
    have : ∀ loc, parseTag U path plugins ⟨y :: ys ++ body, loc⟩ =
        parseFunction U path plugins ⟨y :: ys ++ body, loc⟩ := by
      intro loc
      unfold parseTag
      split
      · rename_i h1
        simp [PSt.peek] at h1
        exact absurd h1 hy
      · rfl
      · rename_i h1; simp [PSt.peek] at h1
    rw [this, he]
    rfl

example : parseHtml Unicode.asciiOnly str!"p" [] str!"{{ for($a, skip=1, \"x,)=.json\", junk" =
    .err ⟨str!"p", 1, 30, .positionalAfterNamed⟩ := rfl

example : parseHtml Unicode.asciiOnly str!"p" [] str!"{{ for($a, \"x,)=.json\", limit=2, skip=1) }}" =
    .ok [⟨.func (.for_ ⟨str!"a", str!"x,)=.json", .jsonFile, some 1, some 2, none, false⟩), str!"p", 1, 3⟩] := rfl

/-! ### C07

The full claim has "anything else is a syntax error"; a lone quote panics instead (see C04 and below). -/

/-- C07. What each argument text means. -/
theorem C07_argument_literals_partial (U : Unicode) :
    (∀ v : Str, (∀ c ∈ v, U.alnum c = true ∨ c = '_' ∨ c = '.') → parseRawArg U ('$' :: v) = .ok (.var v)) ∧
    (∀ v : Str, (∃ c ∈ v, U.alnum c = false ∧ c ≠ '_' ∧ c ≠ '.') →
      parseRawArg U ('$' :: v) = .err (.invalidVariableName v)) ∧
    (∀ s : Str, '"' ∉ s → parseRawArg U ('"' :: (s ++ ['"'])) = .ok (.str s)) ∧
    (∀ s : Str, '"' ∈ s → parseRawArg U ('"' :: (s ++ ['"'])) = .err .genericSyntax) ∧
    (∀ s i, Decimal s i → Is32 i → parseRawArg U s = .ok (.int i)) ∧
    (∀ s i, Decimal s i → ¬ Is32 i → parseRawArg U s = .err .genericSyntax) ∧
    (∀ s ∈ builtinNames, parseRawArg U s = .ok (.ident s)) ∧
    (∀ s : Str, s ≠ ['"'] → (¬ ∃ v, s = '$' :: v) → (¬ ∃ v, s = '"' :: (v ++ ['"'])) → (¬ ∃ i, Decimal s i) →
      s ∉ builtinNames → parseRawArg U s = .err .genericSyntax) := by
  have strCase : ∀ s : Str, parseRawArg U ('"' :: (s ++ ['"'])) =
      if s.contains '"' then .err .genericSyntax else .ok (.str s) := by
    intro s
    unfold parseRawArg
    have e1 : startsWith ['$'] ('"' :: (s ++ ['"'])) = false := by rw [startsWith_single]; decide
    have e2 : startsWith ['"'] ('"' :: (s ++ ['"'])) = true := by rw [startsWith_single]; decide
    have e3 : endsWith ['"'] ('"' :: (s ++ ['"'])) = true := endsWith_iff.2 ⟨'"' :: s, rfl⟩
    rw [e1, e2, e3]
    simp [stripSuffix_append]
  have decCase : ∀ s i, Decimal s i → parseRawArg U s =
      if Is32 i then .ok (.int i) else .err .genericSyntax := by
    intro s i h
    obtain ⟨h1, h2⟩ := decimal_head h
    unfold parseRawArg
    rw [h1, h2, parseI32_decimal h]
    simp only [Bool.false_and, Bool.false_eq_true, if_false]
    by_cases hi : Is32 i
    · simp [hi]
    · have : isIdent s = false := by
        rw [Bool.eq_false_iff]; intro hh; exact decimal_not_builtin h (isIdent_iff.1 hh)
      simp [hi, this]
  refine ⟨fun v hv => parseRawArg_src U (.var v) hv, ?_, fun s hs => parseRawArg_src U (.str s) hs, ?_, ?_, ?_,
    fun s hs => parseRawArg_src U (.ident s) hs, ?_⟩
  · rintro v ⟨c, hc, h1, h2, h3⟩
    unfold parseRawArg
    rw [startsWith_single]
    have : v.all (isVarChar U) = false := by
      rw [List.all_eq_false]
      refine ⟨c, hc, ?_⟩
      rw [isVarChar_iff]
      simp [h1, h2, h3]
    simp [this]
  · intro s hs
    rw [strCase]
    simp [hs]
  · intro s i h hi
    rw [decCase s i h, if_pos hi]
  · intro s i h hi
    rw [decCase s i h, if_neg hi]
  · intro s h0 h1 h2 h3 h4
    cases s with
    | nil => rfl
    | cons c cs =>
      have e1 : startsWith ['$'] (c :: cs) = false := by
        rw [startsWith_single, Bool.eq_false_iff]
        intro h
        have : c = '$' := by simpa using (beq_iff_eq.1 h).symm
        exact h1 ⟨cs, by rw [this]⟩
      have e2 : (startsWith ['"'] (c :: cs) && endsWith ['"'] (c :: cs)) = false := by
        rw [Bool.eq_false_iff]
        intro h
        rw [Bool.and_eq_true, startsWith_single] at h
        have hc : c = '"' := by simpa using (beq_iff_eq.1 h.1).symm
        obtain ⟨pre, hp⟩ := endsWith_iff.1 h.2
        cases pre with
        | nil =>
          simp at hp
          exact h0 (by rw [hc, ← hp.2])
        | cons x xs =>
          simp at hp
          exact h2 ⟨xs, by rw [hc, hp.2]⟩
      have e3 : parseI32 (c :: cs) = none := by
        cases h : parseI32 (c :: cs) with
        | none => rfl
        | some i => exact absurd ⟨i, parseI32_some h⟩ h3
      have e4 : isIdent (c :: cs) = false := by
        rw [Bool.eq_false_iff]; intro h; exact h4 (isIdent_iff.1 h)
      unfold parseRawArg
      rw [e1, e2, e3, e4]
      rfl

example : Decimal str!"-2147483648" (-2147483648) ∧ Is32 (-2147483648) ∧ Decimal str!"+007" 7 ∧
    Decimal str!"2147483648" 2147483648 ∧ ¬ Is32 2147483648 := by
  refine ⟨.minus str!"2147483648" (by decide) ?_, by decide, .plus str!"007" (by decide) ?_,
    .plain str!"2147483648" (by decide) ?_, by decide⟩ <;> unfold IsDigit <;> decide

/-- C07 fails for the lone quote: neither a value nor a syntax error. -/
theorem C07_counterexample : parseRawArg Unicode.asciiOnly ['"'] = .panic .loneQuote := rfl

/-! ### C08 -/

/-- C08. Every token of every file carries the place where it starts: the tokens are those the grammar gives, and
the line of a tag is one plus the number of newlines before the last character read ahead of it. -/
theorem C08_lines (U : Unicode) (path : Str) (plugins : List PluginFns) (input : Str) (toks : List LTok)
    (h : parseHtml U path plugins input = .ok toks) : Parses U path plugins [] input toks :=
  (parseHtml_iff U path plugins input toks).1 h

/-- C08, the consequence for tags: if only spaces (no newline) separate the opening braces from the tag, its
recorded line is the line of the opening braces. -/
theorem C08_tag_line (pre txt ws : Str) (hws : '\n' ∉ ws) :
    lineAt (pre ++ txt ++ str!"{{" ++ ws) = 1 + ((pre ++ txt).filter (· = '\n')).length := by
  unfold lineAt
  have : ws.filter (· = '\n') = [] := by
    rw [List.filter_eq_nil_iff]
    intro c hc
    simp only [decide_eq_true_eq]
    rintro rfl
    exact hws hc
  rcases List.eq_nil_or_concat ws with rfl | ⟨w, c, rfl⟩
  · have : pre ++ txt ++ str!"{{" ++ [] = (pre ++ txt ++ ['{']) ++ ['{'] := by simp
    rw [this, List.dropLast_concat]
    simp
  · rw [List.concat_eq_append] at *
    rw [List.filter_append, List.append_eq_nil_iff] at this
    rw [← List.append_assoc, List.dropLast_concat]
    simp only [List.filter_append, this.1]
    simp

example : parseHtml Unicode.asciiOnly str!"p" [] str!"a\n\\{{b\n{{ $x }}c\n\n{{ $y }}" =
    .ok [⟨.raw str!"a\n{{b\n", str!"p", 1, 1⟩, ⟨.var str!"x", str!"p", 3, 2⟩, ⟨.raw str!"c\n\n", str!"p", 3, 7⟩,
         ⟨.var str!"y", str!"p", 5, 2⟩] := rfl

/-! ### C68 -/

/-- C68. The parser accepts exactly the files of the grammar, with exactly the tokens the grammar gives them. -/
theorem C68_exact (U : Unicode) (path : Str) (plugins : List PluginFns) (input : Str) (toks : List LTok) :
    parseHtml U path plugins input = .ok toks ↔ Parses U path plugins [] input toks :=
  parseHtml_iff U path plugins input toks

/-- C68. A file has at most one reading. -/
theorem C68_unambiguous (U : Unicode) (path : Str) (plugins : List PluginFns) (input : Str) (a b : List LTok)
    (ha : Parses U path plugins [] input a) (hb : Parses U path plugins [] input b) : a = b := by
  have h1 := (parseHtml_iff U path plugins input a).2 ha
  have h2 := (parseHtml_iff U path plugins input b).2 hb
  rw [h1] at h2
  cases h2
  rfl

/-- C68. Argument values are exactly those of the grammar. -/
theorem C68_values (U : Unicode) (s : Str) (a : RawArg) : parseRawArg U s = .ok a ↔ ArgVal U s a :=
  ⟨val_of_parseRawArg, parseRawArg_val⟩

/-- C68. Calls denote exactly the functions of the specification. -/
theorem C68_calls (plugins : List PluginFns) (raw : RawFn) (f : Fn) :
    resolveFn plugins raw = some (.ok f) ↔ Denotes plugins raw f := resolveFn_iff

/-- A brace that closes an escape and opens a tag; empty arguments; repeated `order`. -/
example : Parses Unicode.asciiOnly str!"p" [] [] str!"\\{{{ $x }}\n{{for( ,$a,$b,,order=\"desc\" , order=\"asc\",)}}" 
    [⟨.raw str!"{", str!"p", 1, 1⟩, ⟨.var str!"x", str!"p", 1, 5⟩, ⟨.raw str!"\n", str!"p", 1, 10⟩,
     ⟨.func (.for_ ⟨str!"a", str!"b", .jsonObj, none, none, none, false⟩), str!"p", 2, 1⟩] :=
  (parseHtml_iff _ _ _ _ _).1 rfl

/-- No blanks around the equals sign of a named argument. -/
example : ¬ ∃ toks, Parses Unicode.asciiOnly str!"p" [] [] str!"{{for($a,$b,skip =1)}}" toks := by
  rintro ⟨toks, h⟩
  have := (parseHtml_iff _ _ _ _ _).2 h
  cases this

/-! ### Cases: each theorem applied to something that meets its hypotheses -/

/-- No text before the tag. -/
theorem plain_wf : (Text.plain []).WF := ⟨by unfold NoOpen; decide, by unfold NoOpen; decide⟩

/-- A text with escaped braces. -/
theorem escaped_wf : (⟨str!"a ", [str!" b"]⟩ : Text).WF := ⟨by unfold NoOpen; decide, by unfold NoOpen; decide⟩

/-- A call with a positional and a named argument, written with blanks. -/
def exCall (name : Str) : Call := ⟨name, [' '], [⟨[], none, .str str!"x,y", [' ']⟩, ⟨['\n'], some str!"n", .int 3, []⟩], []⟩

theorem exCall_wf : (exCall str!"hi").WF Unicode.asciiOnly where
  name := by decide
  gap := by unfold Blank; decide
  blank := by simp [exCall, Blank]
  args := by
    simp only [exCall, List.mem_cons, List.not_mem_nil, or_false, forall_eq_or_imp, forall_eq]
    exact ⟨⟨by unfold Blank; decide, by unfold Blank; decide, by unfold ArgWF; decide, by simp⟩,
      ⟨by unfold Blank; decide, by unfold Blank; decide, by unfold ArgWF; decide, by rintro k ⟨⟩; decide⟩⟩
  order := by simp [exCall, PosFirst]

/-- `begin(for)` -/
theorem beginFor_wf : (⟨str!"begin", [], [⟨[], none, .ident str!"for", []⟩], []⟩ : Call).WF Unicode.asciiOnly where
  name := by decide
  gap := by simp [Blank]
  blank := by simp [Blank]
  args := by
    simp only [List.mem_cons, List.not_mem_nil, or_false, forall_eq]
    exact ⟨by simp [Blank], by simp [Blank], by unfold ArgWF; decide, by simp⟩
  order := by simp [PosFirst]

example := C02_escaped_text_partial Unicode.asciiOnly str!"p" [] ⟨str!"a ", [str!" b"]⟩ escaped_wf

example := C02_escaped_around_tag_partial Unicode.asciiOnly str!"p" [] ⟨str!"a ", [str!" b"]⟩ (Text.plain [])
  ⟨[' '], .var ['x'], ['\n']⟩ escaped_wf (by unfold Glue; decide) plain_wf
  ⟨by unfold Blank; decide, by unfold Blank; decide, by decide, by decide⟩

example := C03_round_trip Unicode.asciiOnly str!"p" [] exTemplate exTemplate_wf

example := C04_no_crash_partial Unicode.asciiOnly str!"p" [] (by simp) str!"{{ for($a, \"" .loneQuote rfl

example := C04_total_partial Unicode.asciiOnly str!"p" exPlugins
  (by
    simp only [exPlugins, List.mem_cons, List.not_mem_nil, or_false, forall_eq_or_imp, forall_eq]
    exact ⟨⟨fun _ _ => nofun, fun _ _ => nofun⟩, fun _ _ => nofun⟩)
  str!"a {{ hi() }} \"x\"!" (by
    rintro ⟨pre, blank, h, hb⟩
    rcases List.eq_nil_or_concat blank with rfl | ⟨l, c, rfl⟩
    · have := congrArg List.getLast? h
      simp at this
    · have := congrArg List.getLast? h
      rw [List.concat_eq_append, ← List.cons_append, ← List.append_assoc, List.getLast?_concat] at this
      have hc := hb c (by simp)
      rw [← Option.some.inj this] at hc
      revert hc
      decide)

example := C05_builtin_first Unicode.asciiOnly str!"p" exPlugins ⟨str!"a ", [str!" b"]⟩ escaped_wf (by unfold Glue; decide) [' '] []
  (by unfold Blank; decide) (by simp [Blank]) ⟨str!"begin", [], [⟨[], none, .ident str!"for", []⟩], []⟩ beginFor_wf
  (.begin_ str!"for" false) (.beginI _)

example := C05_builtin_shadows Unicode.asciiOnly str!"p" exPlugins [] ⟨str!"a ", [str!" b"]⟩ escaped_wf (by unfold Glue; decide) [' '] []
  (by unfold Blank; decide) (by simp [Blank]) ⟨str!"begin", [], [⟨[], none, .ident str!"for", []⟩], []⟩ beginFor_wf (by decide)

example := C05_first_plugin Unicode.asciiOnly str!"p" exPlugins (Text.plain []) plain_wf (by unfold Glue; decide) [' '] []
  (by unfold Blank; decide) (by simp [Blank]) (exCall str!"hi") exCall_wf (by decide)
  ⟨str!"hi", fun _ => .ok ⟨some str!"A", fun _ => .ok ([], [])⟩⟩ ⟨[], _, _, [_], [], rfl, rfl, .inl rfl, by simp, by decide⟩

example := C05_unknown Unicode.asciiOnly str!"p" [] (Text.plain []) plain_wf (by unfold Glue; decide) [' '] []
  (by unfold Blank; decide) (by simp [Blank]) (exCall str!"hi") exCall_wf (by decide) (by simp)

example := C06_argument_order Unicode.asciiOnly str!"p" (Text.plain []) plain_wf (by unfold Glue; decide) [' '] []
  (by unfold Blank; decide) (by simp [Blank]) (exCall str!"hi") exCall_wf (by decide)

example := C06_positional_after_named Unicode.asciiOnly str!"p" [] (Text.plain []) plain_wf (by unfold Glue; decide)
  [] (by simp [Blank]) str!"else" [] (by decide) (by simp [Blank]) [⟨[], some ['a'], .int 1, []⟩]
  (by
    simp only [List.mem_cons, List.not_mem_nil, or_false, forall_eq]
    exact ⟨by simp [Blank], by simp [Blank], by simp [ArgWF], by simp; decide⟩)
  (by simp) ⟨[], none, .int 1, []⟩ ⟨by simp [Blank], by simp [Blank], by simp [ArgWF], by simp⟩ rfl ')' (.inr rfl) str!"x"

example := C08_lines Unicode.asciiOnly str!"p" [] str!"\n{{$x}}" _ rfl

example := C08_tag_line str!"a\n" str!"b\nc" str!"  " (by decide)

example := C68_unambiguous Unicode.asciiOnly str!"p" [] str!"\n{{$x}}" _ _ (C08_lines _ _ _ _ _ rfl) (C08_lines _ _ _ _ _ rfl)

end Stuart
