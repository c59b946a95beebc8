import Verif.Proof.Report
import Verif.Props.Place
import Verif.Props.Page
import Verif.Props.Tables
/-
Property C84: what is reported when something goes wrong.
-/
namespace Stuart
open Spec

variable (X : Setting)

theorem suffix_right {s a b : Str} (h : s <:+ b) : s <:+ a ++ b := h.trans (List.suffix_append _ _)

theorem ends_bar : str!"\n" <:+ str!"|\n" ++ [] := ⟨str!"|", rfl⟩

theorem quotedLine_ok (c : Option Str) (n : Nat) : ∃ l, quotedLine false c n = .ok l := by
  unfold quotedLine
  split
  · exact ⟨_, rfl⟩
  · split <;> exact ⟨_, rfl⟩

/-- C84. Every error is reported, by a text of whole lines that begins with `error: `, unless the program was built with
overflow checks. -/
theorem C84_reported (e : CliErr) (h : X.checks = false) :
    ∃ report, printCli X e = .ok report ∧ str!"error: " <+: report ∧ str!"\n" <:+ report := by
  have plain : ∀ {msg : Str}, ∃ report, printPlain msg = .ok report ∧ str!"error: " <+: report ∧ str!"\n" <:+ report :=
    fun {msg} => ⟨_, rfl, ⟨msg ++ str!"\n", by simp⟩, List.suffix_append _ _⟩
  have tb : ∀ {κ : Type} {c : Option Str} {m : κ → Str} {hl : κ → Option Str} {e : TB κ}, ∃ report,
      printTB X.checks X.cwd c m hl e = .ok report ∧ str!"error: " <+: report ∧ str!"\n" <:+ report := by
    intro κ c m hl e
    obtain ⟨q, hq⟩ := quotedLine_ok c e.line
    rw [h]
    unfold printTB
    rw [hq]
    simp only [Res.bind_ok, List.append_assoc]
    refine ⟨_, rfl, List.prefix_append _ _, ?_⟩
    cases q <;> cases hl e.kind <;>
      (simp only; repeat (first | exact List.suffix_rfl | exact ends_bar | apply suffix_right))
  cases e with
  | core e => cases e <;> first | exact plain | exact tb
  | scriptFailure s code out err =>
    refine ⟨_, rfl, by simp only [List.append_assoc]; exact ⟨_, rfl⟩, ?_⟩
    unfold scriptPart
    split <;> split <;> simp only [List.append_assoc, List.append_nil] <;>
      repeat (first | exact List.suffix_rfl | apply suffix_right)
  | manifestAt p l c m => rw [printCli]; exact tb
  | _ => exact plain

/-- C84. However the program was built, a report that is printed consists of whole lines and begins with `error: `. -/
theorem C84_lines (e : CliErr) (report : Str) (h : printCli X e = .ok report) :
    str!"error: " <+: report ∧ str!"\n" <:+ report := by
  have plain : ∀ {msg : Str}, printPlain msg = .ok report → str!"error: " <+: report ∧ str!"\n" <:+ report := by
    intro msg h
    cases h
    exact ⟨⟨msg ++ str!"\n", by simp⟩, List.suffix_append _ _⟩
  have tb : ∀ {κ : Type} {c : Option Str} {m : κ → Str} {hl : κ → Option Str} {e : TB κ},
      printTB X.checks X.cwd c m hl e = .ok report → str!"error: " <+: report ∧ str!"\n" <:+ report := by
    intro κ c m hl e h
    unfold printTB at h
    obtain ⟨q, _, h⟩ := Res.bind_eq_ok.1 h
    simp only [List.append_assoc] at h
    cases h
    refine ⟨List.prefix_append _ _, ?_⟩
    cases q <;> cases hl e.kind <;>
      (simp only; repeat (first | exact List.suffix_rfl | exact ends_bar | apply suffix_right))
  cases e with
  | core e => cases e <;> first | exact plain h | exact tb h
  | scriptFailure s code out err =>
    rw [printCli] at h
    cases h
    refine ⟨by simp only [List.append_assoc]; exact ⟨_, rfl⟩, ?_⟩
    unfold scriptPart
    split <;> split <;> simp only [List.append_assoc, List.append_nil] <;>
      repeat (first | exact List.suffix_rfl | apply suffix_right)
  | manifestAt p l c m => rw [printCli] at h; exact tb h
  | _ => exact plain h

/-- C84. An error while the template of a file is run is reported with its message and help, the line of a tag of the file
and a mark on this tag. -/
theorem C84_render (U : Unicode) (path : Str) (plugins : List PluginFns) (input : Str) (toks : List LTok)
    (hp : parseHtml U path plugins input = .ok toks) (hc : X.content path = some input)
    (cx : Ctx) (st : St) (hst : st.stack ≠ []) (e : PErr) (h : runToks cx toks st = .err e) :
    ∃ report, printCli X (.core (.process e)) = .ok report ∧
      QuotesTag U plugins (shownPath X.cwd path) input (procMsg X.texts e.kind) (procHelp e.kind) report := by
  obtain ⟨t, ht, hr, e1, e2, e3⟩ := runToks_tag hst h
  obtain ⟨pre, txt, ws, body, rest, g1, g2, g3, g4, g5, g6, g7, g8⟩ :=
    parses_tag ((parseHtml_iff U path plugins input toks).1 hp) .nil ht hr
  rw [List.nil_append] at g5
  obtain ⟨l, n, gap, h1, h2, h3, h4⟩ := C76_quotes X.checks X.cwd (procMsg X.texts) procHelp e
    (pre ++ txt ++ str!"{{" ++ ws) (body ++ str!"}}" ++ rest) (by simp) (by rw [e2, g7]) (by rw [e3, g8])
  have hi : pre ++ txt ++ str!"{{" ++ ws ++ (body ++ str!"}}" ++ rest) = input := by rw [g5]; simp
  rw [hi] at h1 h4
  refine ⟨_, ?_, pre, txt, ws, body, rest, t.inner, l, n, gap, g1, g2, g3, g4, hr, g5, h1, h2, h3, rfl⟩
  rw [printCli, printCore, e1, g6, hc, h4, e1, g6, e2, g7, e3, g8]

/-- C84. So an error in a page is reported with a tag of the page or of the root template, unless a block is left open or
the root template is missing. -/
theorem C84_page (U : Unicode) (plugins : List PluginFns) (b : Builder) (env : Env) (name src input rsrc rinput : Str)
    (toks root : List LTok) (hn : PageName (.html toks) name)
    (hp : parseHtml U src plugins input = .ok toks) (hc : X.content src = some input)
    (hr : env.root = some root) (hq : parseHtml U rsrc plugins rinput = .ok root) (hd : X.content rsrc = some rinput)
    (e : SErr) (h : processParsed b env name src (.html toks) = .err e) :
    (∃ k report, printCli X (.core e) = .ok report ∧
      (QuotesTag U plugins (shownPath X.cwd src) input (procMsg X.texts k) (procHelp k) report ∨
       QuotesTag U plugins (shownPath X.cwd rsrc) rinput (procMsg X.texts k) (procHelp k) report)) ∨
    e = .process ⟨src, 0, 0, .stackError⟩ := by
  have hnn : (name != str!"root.html" && name != str!"md.html") = true := by simp [hn.1, hn.2.1]
  simp only [processParsed, hnn, if_true, processHtml, hr] at h
  obtain ⟨e', h', rfl⟩ := Res.mapErr_eq_err.1 h
  clear h
  have h := h'
  rcases Res.bind_eq_err.1 h with h | ⟨o, _, h⟩
  · unfold renderOn at h
    rcases Res.bind_eq_err.1 h with h | ⟨st, h1, h⟩
    · obtain ⟨report, k1, k2⟩ := C84_render X U src plugins input toks hp hc b.cx _ (by simp) e' h
      exact .inl ⟨_, report, k1, .inl k2⟩
    · split at h
      · cases h; exact .inr rfl
      · split at h
        · rcases Res.bind_eq_err.1 h with h | ⟨st', _, h⟩
          · obtain ⟨report, k1, k2⟩ := C84_render X U rsrc plugins rinput root hq hd b.cx _ (by simp) e' h
            exact .inl ⟨_, report, k1, .inr k2⟩
          · split at h <;> cases h
        · cases h; exact .inr rfl
  · cases h

/-- C84. The message tells what is wrong: a template error is known from its message. -/
theorem C84_parse_message (e e' : ParseErr) (h : parseMsg X.texts e = parseMsg X.texts e') : e = e' := by
  cases e <;> cases e' <;> simp [parseMsg] at h ⊢ <;> exact h

/-- C84. And so is an error in running a template, up to what is expected of a variable of the wrong type; the messages of
plugins are their own. -/
theorem C84_process_message (e e' : ProcErr) (hp : ∀ s, e ≠ .pluginErr s) (hp' : ∀ s, e' ≠ .pluginErr s)
    (h : procMsg X.texts e = procMsg X.texts e') : e = e' ∨ ∃ v v', e = .invalidDataType v ∧ e' = .invalidDataType v' := by
  cases e <;> cases e' <;> simp [procMsg] at h hp hp' ⊢ <;> exact h

/-- C84. The messages and the help of the errors of templates. -/
theorem C84_parse_texts (s : Str) :
    let T := fun e => (parseMsg X.texts e, parseHelp e)
    let names := str!" names must not be empty and can only contain certain characters"
    T .unexpectedEOF = (str!"unexpected end of file", some str!"are you missing a closing command?") ∧
    T (.expected s) = (str!"expected `" ++ s ++ str!"`", some (str!"try adding `" ++ s ++ str!"`")) ∧
    T (.invalidVariableName s) = (str!"invalid variable name: `" ++ s ++ str!"`", some (str!"variable" ++ names)) ∧
    T (.invalidFunctionName s) = (str!"invalid function name: `" ++ s ++ str!"`", some (str!"function" ++ names)) ∧
    T .invalidArgument = (str!"invalid argument", none) ∧
    T (.nonexistentFunction s) = (str!"function does not exist: `" ++ s ++ str!"`", none) ∧
    T .genericSyntax = (str!"syntax error", none) ∧
    T .positionalAfterNamed =
      (str!"positional argument after named argument", some str!"place positional arguments before named arguments") ∧
    T .invalidFrontmatter = (str!"invalid frontmatter", none) ∧
    T .invalidJson = (str!"invalid json", none) ∧
    T .assertion = (str!"assertion failed: `" ++ X.texts.assertion ++ str!"`", none) :=
  ⟨rfl, rfl, rfl, rfl, rfl, rfl, rfl, rfl, rfl, rfl, rfl⟩

/-- C84. The messages and the help of the errors in running templates. -/
theorem C84_process_texts (s : Str) :
    let T := fun e => (procMsg X.texts e, procHelp e)
    let missing := fun t : Str => (str!"cannot find `" ++ t ++ str!"` template",
      some (str!"ensure that your `" ++ t ++ str!"` template exists and is accessible"))
    T .missingHtmlRoot = missing str!"root.html" ∧
    T .missingMarkdownRoot = missing str!"md.html" ∧
    T .stackError = (str!"stack error", some str!"this shouldn't have happened, please open an issue!") ∧
    T .endWithoutBegin = (str!"no matching `begin` for `end`", none) ∧
    T .elseWithoutIf = (str!"no matching `if` for `else`", none) ∧
    T .notJsonArray = (str!"not a json array", some str!"only arrays can be used in this context") ∧
    T .invalidDate = (str!"invalid date", some str!"ensure the date is valid and the format is correct") ∧
    T .unexpectedEndOfFile = (str!"unexpected end of file", none) ∧
    T (.variableAlreadyExists s) = (str!"variable already exists: `" ++ s ++ str!"`",
      some str!"variables in Stuart are immutable (for the time being)") ∧
    T (.undefinedVariable s) = (str!"undefined variable: `" ++ s ++ str!"`", none) ∧
    T (.undefinedSection s) = (str!"undefined section: `" ++ s ++ str!"`", none) ∧
    T (.nullError s) = (str!"null error: `" ++ s ++ str!"`",
      some str!"if the variable is sometimes null, consider using the `ifdefined` function") ∧
    T (.notFound s) = (str!"not found: `" ++ s ++ str!"`", none) ∧
    T (.invalidDataType s) = (str!"type error in variable `" ++ s ++ str!"`: expected `" ++ X.texts.types s ++ str!"`", none) :=
  ⟨rfl, rfl, rfl, rfl, rfl, rfl, rfl, rfl, rfl, rfl, rfl, rfl, rfl, rfl⟩

/-- C84. The reports of the errors without a place. -/
theorem C84_program_texts (s : Str) (dir : Path) :
    let says := fun (e : CliErr) (msg : Str) => printCli X e = .ok (str!"error: " ++ msg ++ str!"\n")
    says (.core (.fs (.notFound s))) (str!"not found: " ++ s) ∧
    says (.core (.fs .read)) str!"could not read from filesystem" ∧
    says (.core (.fs .write)) str!"could not write to filesystem" ∧
    says (.core .notBuilt) str!"not built" ∧
    says (.core .metadataNotEnabled) str!"metadata saving not enabled in configuration" ∧
    says (.core (.plugin s)) s ∧
    says (.couldNotExecute s) (str!"could not execute `" ++ s ++ str!"`") ∧
    says .invalidManifestPath str!"invalid manifest path" ∧
    says .manifestUnreadable (str!"failed to read manifest:\n  " ++ X.texts.manifest) ∧
    says (.manifestInvalid s) (str!"failed to parse manifest:\n  " ++ s) ∧
    says .pluginsFailed str!"Plugins failed to load" ∧
    says .invalidIterations str!"invalid value for iterations" ∧
    says .notAProject str!"current working directory is not a Stuart project" ∧
    says (.cleanFailed (dir ++ [str!"dist"])) str!"failed to remove output directory" ∧
    says (.cleanFailed (dir ++ [str!"_build"])) str!"failed to remove build directory" ∧
    says (.cleanFailed (dir ++ [str!"metadata.json"])) str!"failed to remove metadata file" := by
  refine ⟨rfl, rfl, rfl, rfl, rfl, rfl, rfl, rfl, rfl, rfl, rfl, rfl, rfl, ?_, ?_, ?_⟩ <;> simp [printCli, printPlain]

/-- C84. A conflict of names is reported with both files, as seen from the current directory. -/
theorem C84_conflict (a b : Str) :
    printCli X (.core (.fs (.conflict a b))) =
      .ok (str!"error: filename conflict between `" ++ shownPath X.cwd b ++ str!"` and `" ++ shownPath X.cwd a ++
        str!"`\n") := by
  simp [printCli, printCore, printPlain, fsMsg]

/-- C84. The outputs of a script that failed are all in the report. -/
theorem C84_script (s : Str) (code : Int) (out err : Str) :
    printCli X (.scriptFailure s code out err) =
      .ok (str!"error: `" ++ s ++ str!"` failed with exit code " ++ decimal code ++ str!"\n" ++
        (if out = [] then [] else str!"\nstdout:\n" ++ out ++ str!"\n") ++
        (if err = [] then [] else str!"\nstderr:\n" ++ err ++ str!"\n")) := by
  rw [← C31_decimal]
  unfold printCli scriptPart
  simp only [Input.toStr]
  split <;> split <;> simp

/-- C84. The help there would be for the errors without a place. -/
theorem C84_help_texts (e : SErr) (help : Str) : e.help = some help ↔
    (∃ s, e = .fs (.notFound s)) ∧ help = str!"ensure that the file path is typed correctly" ∨
    (e = .fs .read ∨ e = .fs .write) ∧ help = str!"are any other processes using the file or directory, such as the terminal?" ∨
    e = .metadataNotEnabled ∧ help = str!"enable metadata by adding `save_metadata = true` to your `stuart.toml`" := by
  cases e with
  | fs e => cases e <;> simp [SErr.help, fsHelp, eq_comm]
  | _ => simp [SErr.help, eq_comm]

/-- C84 fails where the error is one of the file system, or metadata is missing: there is help, but it is not shown. -/
theorem C84_counterexample_help (e : SErr) (help : Str) (h : e.help = some help) :
    ∃ msg, printCli X (.core e) = .ok (str!"error: " ++ msg ++ str!"\n") ∧
      (msg = str!"could not read from filesystem" ∨ msg = str!"could not write to filesystem" ∨
       msg = str!"metadata saving not enabled in configuration" ∨ ∃ s, msg = str!"not found: " ++ s) := by
  cases e with
  | fs e =>
    cases e with
    | notFound s => exact ⟨_, rfl, .inr (.inr (.inr ⟨s, rfl⟩))⟩
    | read => exact ⟨_, rfl, .inl rfl⟩
    | write => exact ⟨_, rfl, .inr (.inl rfl)⟩
    | conflict a b => cases h
  | metadataNotEnabled => exact ⟨_, rfl, .inr (.inr (.inl rfl))⟩
  | _ => cases h

/-! ### Cases -/

/-- A machine in `/p` with one template that uses a variable that is not defined. -/
def demoSetting : Setting where
  checks := true
  cwd := some str!"/p"
  content s := if s = str!"/p/content/a.html" then some str!"<p>\n  {{ $nope }}</p>" else none
  texts := ⟨[], fun _ => [], fun s => s, []⟩

example : parseHtml Unicode.asciiOnly str!"/p/content/a.html" [] str!"<p>\n  {{ $nope }}</p>" =
      .ok [⟨.raw str!"<p>\n  ", str!"/p/content/a.html", 1, 1⟩, ⟨.var str!"nope", str!"/p/content/a.html", 2, 4⟩,
        ⟨.raw str!"</p>", str!"/p/content/a.html", 2, 12⟩] ∧
    runToks demoCx [⟨.raw str!"<p>\n  ", str!"/p/content/a.html", 1, 1⟩, ⟨.var str!"nope", str!"/p/content/a.html", 2, 4⟩,
        ⟨.raw str!"</p>", str!"/p/content/a.html", 2, 12⟩] ⟨[demoBase], []⟩ =
      .err ⟨str!"/p/content/a.html", 2, 4, .undefinedVariable str!"nope"⟩ ∧
    printCli demoSetting (.core (.process ⟨str!"/p/content/a.html", 2, 4, .undefinedVariable str!"nope"⟩)) =
      .ok (unlines [str!"error: undefined variable: `nope`",
        str!"  --> content/a.html:2:4",
        str!"  |",
        str!"2 |   {{ $nope }}</p>",
        str!"  |   ^^^ error occurred here",
        str!"  |"]) := ⟨rfl, rfl, rfl⟩

example := C84_render demoSetting Unicode.asciiOnly str!"/p/content/a.html" [] str!"<p>\n  {{ $nope }}</p>" _ rfl rfl demoCx
  ⟨[demoBase], []⟩ (by simp) _ rfl

/-- The page is in order; the root template, which cannot be quoted here, uses a section that is not defined. -/
example : ∃ toks root, parseHtml Unicode.asciiOnly str!"/p/content/a.html" [] str!"x" = .ok toks ∧
    parseHtml Unicode.asciiOnly str!"/p/content/root.html" [] str!"{{ insert(\"s\") }}" = .ok root ∧
    processParsed ⟨demoCx, demoBase, .default⟩ ⟨some root, none⟩ str!"a.html" str!"/p/content/a.html" (.html toks) =
      .err (.process ⟨str!"/p/content/root.html", 1, 3, .undefinedSection str!"s"⟩) := ⟨_, _, rfl, rfl, rfl⟩

/-- The help after the quoted line, and a file that cannot be read. -/
example : printCli demoSetting (.core (.process ⟨str!"/p/content/a.html", 2, 4, .nullError str!"x"⟩)) =
      .ok (unlines [str!"error: null error: `x`",
        str!"  --> content/a.html:2:4",
        str!"  |",
        str!"2 |   {{ $nope }}</p>",
        str!"  |   ^^^ error occurred here",
        str!"  |",
        str!"  = help: if the variable is sometimes null, consider using the `ifdefined` function"]) ∧
    printCli demoSetting (.core (.parse ⟨str!"/q/b.html", 2, 4, .expected str!"}}"⟩)) =
      .ok (unlines [str!"error: expected `}}`",
        str!"  at /q/b.html:2:4",
        str!"  help: try adding `}}`"]) := ⟨rfl, rfl⟩

example : printCli demoSetting (.scriptFailure str!"onPreBuild.sh" (-1) [] str!"no such command") =
    .ok (unlines [str!"error: `onPreBuild.sh` failed with exit code -1", [], str!"stderr:", str!"no such command"]) := rfl

example := C84_reported { demoSetting with checks := false } (.core (.fs .write)) rfl

example : SErr.help (.fs (.notFound str!"x")) = some str!"ensure that the file path is typed correctly" ∧
    printCli demoSetting (.core (.fs (.notFound str!"x"))) = .ok str!"error: not found: x\n" := ⟨rfl, rfl⟩

end Stuart
