import Verif.Proof.Panic
import Verif.Proof.Display
import Verif.Model.Fs
import Verif.Proof.Utf8
/-
Properties C75 and C76: where errors are reported, and what is shown of that place.
-/
namespace Stuart
open Spec

/-! ### C75 -/

/-- C75. If a template is refused then because of its first tag that is not well formed: what precedes is whole tags, and
the error is placed in the given file right after some part of this one. -/
theorem C75_place (U : Unicode) (path : Str) (plugins : List PluginFns) (input : Str) (e : TB ParseErr)
    (h : parseHtml U path plugins input = .err e) :
    ∃ pre txt part rest, Tags U plugins pre ∧ OpensAfter txt ∧ input = pre ++ txt ++ str!"{{" ++ part ++ rest ∧
      (∀ ws body rest' t, Blank ws → TagText U plugins t body → part ++ rest ≠ ws ++ body ++ str!"}}" ++ rest') ∧
      e.path = path ∧ e.line = lineAt (pre ++ txt ++ str!"{{" ++ part) ∧ e.col = colAt (pre ++ txt ++ str!"{{" ++ part) :=
  parseHtml_err h

/-! ### C04 -/

/-- C04. Exactly when the parser panics: the file ends, blanks aside, in the quote that begins an argument of a call, and
up to there everything is well formed. (The parsers of plugins are assumed not to panic themselves.) -/
theorem C04_exact (U : Unicode) (path : Str) (plugins : List PluginFns)
    (hp : ∀ pl ∈ plugins, ∀ f ∈ pl.functions, ∀ raw q, f.parse raw ≠ .panic q) (input : Str) (q : Panic) :
    parseHtml U path plugins input = .panic q ↔ q = .loneQuote ∧ CutOff U plugins input :=
  parseHtml_panic_iff hp input q

/-- Two tags, and then a call that breaks off in its third argument. -/
example : CutOff Unicode.asciiOnly [] str!"a {{ $x }} {{ else() }}b{{ for ($a, \"f\", order=\" \n" :=
  ((C04_exact Unicode.asciiOnly str!"p" [] (by simp) _ .loneQuote).1 rfl).2

/-- The same call after a tag that is not well formed is an error. -/
example : ¬ CutOff Unicode.asciiOnly [] str!"a {{ $ }} {{ for ($a, \"f\", order=\" \n" := fun h => by
  have := (C04_exact Unicode.asciiOnly str!"p" [] (by simp) _ .loneQuote).2 ⟨rfl, h⟩
  cases this

/-! ### C76 -/

variable {κ : Type} (checks : Bool) (cwd : Option Str) (msg : κ → Str) (help : κ → Option Str)

theorem pad_succ (n : Nat) (s : Str) : List.replicate (n + 1) ' ' ++ s = List.replicate n ' ' ++ (' ' :: s) := by
  rw [List.replicate_succ']; simp

/-- C76. An error placed after the text `pre` of a file is shown with the line of the file in which `pre` ends, and one of
the three marks below that line stands under the last character of `pre`. -/
theorem C76_quotes (e : TB κ) (pre rest : Str) (hp : pre ≠ []) (hl : e.line = lineAt pre) (hc : e.col = colAt pre) :
    ∃ l n gap, LineOf (pre ++ rest) pre l n ∧ gap ≤ n ∧ n < gap + 3 ∧
      printTB checks cwd (some (pre ++ rest)) msg help e =
        .ok (quoting (shownPath cwd e.path ++ str!":" ++ Nat.toDigits 10 e.line ++ str!":" ++ Nat.toDigits 10 e.col)
          (Nat.toDigits 10 e.line) (msg e.kind) l gap (help e.kind)) := by
  obtain ⟨l, n, h1, h2, h3⟩ := lines_at pre rest hp
  have h0 : e.line ≠ 0 := by rw [hl]; unfold lineAt; omega
  refine ⟨l, n, e.col - 2, h1, ?_, ?_, ?_⟩
  · rw [hc, h3]; split <;> omega
  · rw [hc, h3]; split <;> omega
  · unfold printTB quotedLine
    simp only [if_neg h0]
    rw [hl, h2, ← hl]
    simp only [Res.bind_ok, quoting, unlines]
    cases help e.kind <;> simp [pad_succ]

/-- C76. So it is for the errors of a template: the line shown holds the last character that was read of the first malformed
tag, with a mark under this character. -/
theorem C76_template (U : Unicode) (path : Str) (plugins : List PluginFns) (input : Str) (e : TB ParseErr)
    (msg : ParseErr → Str) (help : ParseErr → Option Str) (h : parseHtml U path plugins input = .err e) :
    ∃ pre txt part rest l n gap, Tags U plugins pre ∧ OpensAfter txt ∧ input = pre ++ txt ++ str!"{{" ++ part ++ rest ∧
      (∀ ws body rest' t, Blank ws → TagText U plugins t body → part ++ rest ≠ ws ++ body ++ str!"}}" ++ rest') ∧
      LineOf input (pre ++ txt ++ str!"{{" ++ part) l n ∧ gap ≤ n ∧ n < gap + 3 ∧
      printTB checks cwd (some input) msg help e =
        .ok (quoting (shownPath cwd path ++ str!":" ++ Nat.toDigits 10 e.line ++ str!":" ++ Nat.toDigits 10 e.col)
          (Nat.toDigits 10 e.line) (msg e.kind) l gap (help e.kind)) := by
  obtain ⟨pre, txt, part, rest, ht, ho, hi, hn, hp, hl, hc⟩ := C75_place U path plugins input e h
  obtain ⟨l, n, gap, h1, h2, h3, h4⟩ := C76_quotes checks cwd msg help e (pre ++ txt ++ str!"{{" ++ part) rest (by simp) hl hc
  rw [← hi] at h1 h4
  rw [hp] at h4
  exact ⟨pre, txt, part, rest, l, n, gap, ht, ho, hi, hn, h1, h2, h3, h4⟩

/-- C76. The path shown is the one of the error, with the current directory left out if it is inside. -/
theorem C76_path (path : Str) :
    (∀ d r, d ≠ ['/'] → path = d ++ '/' :: r → shownPath (some d) path = r) ∧
    (∀ d, d ≠ ['/'] → path ≠ d → (∀ r, path ≠ d ++ '/' :: r) → shownPath (some d) path = path) ∧
    shownPath none path = path := by
  refine ⟨?_, ?_, rfl⟩
  · rintro d r hd rfl
    unfold shownPath
    have h1 : d ++ '/' :: r ≠ d := by simp
    have h2 : d ++ '/' :: r = (d ++ ['/']) ++ r := by simp
    simp only [if_neg h1, if_neg hd]
    rw [h2, stripPrefix_append]; rfl
  · intro d hd hn hr
    unfold shownPath
    simp only [if_neg hn, if_neg hd]
    cases h : stripPrefix (d ++ ['/']) path with
    | none => rfl
    | some r => exact absurd (by rw [stripPrefix_eq_some h]; simp) (hr r)

/-- C76. An error in a file that cannot be read is shown with its place only. -/
theorem C76_unreadable (e : TB κ) :
    printTB checks cwd none msg help e =
      .ok (naming (shownPath cwd e.path ++ str!":" ++ Nat.toDigits 10 e.line ++ str!":" ++ Nat.toDigits 10 e.col)
        (msg e.kind) (help e.kind)) := by
  unfold printTB quotedLine naming unlines
  cases help e.kind <;> simp

/-- C76, where it fails. An error without a place (line 0, as for invalid JSON) is shown without a line by a program built
without overflow checks; with overflow checks the program panics in place of showing it, if the file can be read. -/
theorem C76_line_zero (content : Str) (e : TB κ) (h : e.line = 0) :
    printTB true cwd (some content) msg help e = .panic .lineZero ∧
    printTB false cwd (some content) msg help e =
      .ok (naming (shownPath cwd e.path ++ str!":0:" ++ Nat.toDigits 10 e.col) (msg e.kind) (help e.kind)) := by
  refine ⟨?_, ?_⟩
  · unfold printTB quotedLine
    simp [h]
  · unfold printTB quotedLine naming unlines
    simp only [h, if_true, Bool.false_eq_true, if_false, Res.bind_ok]
    have : Nat.toDigits 10 0 = ['0'] := rfl
    cases help e.kind <;> simp [this]

/-- C76, where it fails: every file of invalid JSON is such a case. -/
theorem C76_json (S : Sys) (plugins : List Plugin) (name src : Str) (s : Str) (hn : extension name = some str!"json")
    (hs : S.parseJson s = none) (msg : ParseErr → Str) (help : ParseErr → Option Str) :
    ∃ e, parseContents S plugins name src (bytesOf s) = .err (.parse e) ∧ e.path = src ∧
      printTB true cwd (some s) msg help e = .panic .lineZero := by
  refine ⟨⟨src, 0, 0, .invalidJson⟩, ?_, rfl, (C76_line_zero cwd msg help s _ rfl).1⟩
  unfold parseContents
  rw [hn]
  simp [fromUtf8_bytesOf, hs]

/-- C76, where it fails: the line shown for an error below the frontmatter of a Markdown file is not the line of the error.
Here the error is in the fourth line, and the first is shown. -/
theorem C76_frontmatter (msg : ParseErr → Str) :
    ∃ e, parseMarkdown Unicode.asciiOnly str!"/p/content/a.md" [] str!"---\ntitle: \"x\"\n---\n{{ $x" = .err e ∧
      printTB checks (some str!"/p") (some str!"---\ntitle: \"x\"\n---\n{{ $x") msg (fun _ => none) e =
        .ok (quoting str!"content/a.md:1:5" str!"1" (msg .unexpectedEOF) str!"---" 3 none) := by
  refine ⟨⟨str!"/p/content/a.md", 1, 5, .unexpectedEOF⟩, rfl, ?_⟩
  unfold printTB quotedLine quoting unlines
  simp only [show lines str!"---\ntitle: \"x\"\n---\n{{ $x" = [str!"---", str!"title: \"x\"", str!"---", str!"{{ $x"] from rfl]
  simp
  rfl

/-! ### Cases -/

section Cases

/-- The second tag has a bad argument. -/
def exBad : Str := str!"a{{ $x }}\n  b{{ begin(1) }}c"

theorem exBad_err : parseHtml Unicode.asciiOnly str!"/p/a.html" [] exBad = .err ⟨str!"/p/a.html", 2, 14, .invalidArgument⟩ := by rfl

example := C75_place Unicode.asciiOnly str!"/p/a.html" [] exBad _ exBad_err

example := C76_template true (some str!"/p") Unicode.asciiOnly str!"/p/a.html" [] exBad _ (fun _ => str!"bad") (fun _ => some str!"try")
  exBad_err

example : printTB true (some str!"/p") (some exBad) (fun _ => str!"bad") (fun _ => some str!"try")
    (⟨str!"/p/a.html", 2, 14, ()⟩ : TB Unit) = .ok str!"error: bad\n  --> a.html:2:14\n  |\n2 |   b{{ begin(1) }}c\n  |             ^^^ error occurred here\n  |\n  = help: try\n" := by rfl

example := C76_quotes true none (fun _ : Unit => str!"bad") (fun _ => none) ⟨str!"f", 2, 0, ()⟩ str!"a\nb" str!"c\r\nd" (by simp) rfl rfl

example := (C76_path str!"/p/content/a.html").1 str!"/p" str!"content/a.html" (by decide) rfl

example := (C76_path str!"/pp/a.html").2.1 str!"/p" (by decide) (by decide) (by intro r h; simp at h)

example := C76_unreadable true none (fun _ : Unit => str!"bad") (fun _ => none) ⟨str!"f", 2, 0, ()⟩

example := C76_line_zero none (fun _ : Unit => str!"bad") (fun _ => none) str!"x" ⟨str!"f", 0, 0, ()⟩ rfl

example (S : Sys) (hs : S.parseJson str!"{" = none) :=
  C76_json none S [] str!"a.json" str!"/p/a.json" str!"{" (by decide) hs (fun _ => str!"bad") (fun _ => none)

end Cases

end Stuart
