import Verif.Proof.Markdown
/-
Properties C09–C12: markdown files.
-/
namespace Stuart
open Spec

/-! ### C09

The full claim is: an error in the body of a markdown file is reported with its line in that file. It is false
for files with frontmatter, where the frontmatter lines are not counted. -/

/-- C09, files without frontmatter: the body is the file (with LF line ends and no final newline), so errors
carry lines of the file. -/
theorem C09_error_lines_partial (U : Unicode) (path : Str) (plugins : List PluginFns) (s : Str)
    (h : ¬ str!"---\n" <+: s ∧ ¬ str!"---\r\n" <+: s) (e : TB ParseErr) :
    parseMarkdown U path plugins s = .err e ↔
      parseHtml U path plugins (dropFinalNl (crlfToLf s)) = .err e := by
  have hn : ¬ OpensFm s := fun ho => ho.elim h.1 h.2
  unfold parseMarkdown
  rw [parseFrontmatter_plain path s hn]
  simp only [Res.bind_ok, List.drop_zero, joinLines_lines]
  cases parseHtml U path plugins (dropFinalNl (crlfToLf s)) <;> simp

/-- How far off the line is otherwise: an error at line `n` of the body is reported at `n`, although the body
starts `pairs.length + 2` lines into the file. -/
theorem C09_offset (U : Unicode) (path : Str) (plugins : List PluginFns) (pairs : List (Str × Str))
    (h : ∀ e ∈ pairs, PairWF e) (body : Str) (e : TB ParseErr)
    (he : parseHtml U path plugins (dropFinalNl (crlfToLf body)) = .err e) :
    parseMarkdown U path plugins (mdFile pairs body) = .err e := by
  unfold parseMarkdown
  rw [parseFrontmatter_mdFile path pairs h]
  simp only [Res.bind_ok, lines_mdFile pairs h]
  have : (str!"---" :: (pairs.map fmLine ++ str!"---" :: lines body)).drop (pairs.length + 2) = lines body := by
    have e1 : str!"---" :: (pairs.map fmLine ++ str!"---" :: lines body) =
        (str!"---" :: pairs.map fmLine ++ [str!"---"]) ++ lines body := by simp
    rw [e1, List.drop_append_of_le_length (by simp), List.drop_of_length_le (by simp)]
    rfl
  rw [this, joinLines_lines, he]
  rfl

/-- C09 fails: the bad tag is on line 4 of the file, the error says line 1. -/
theorem C09_counterexample :
    parseMarkdown Unicode.asciiOnly str!"p" [] str!"---\na: \"b\"\n---\n{{ nope() }}\n" =
      .err ⟨str!"p", 1, 3, .nonexistentFunction str!"nope"⟩ := rfl

example : parseMarkdown Unicode.asciiOnly str!"p" [] str!"a\r\nb\r\n\r\n{{ nope() }}\r\n" =
    .err ⟨str!"p", 4, 2, .nonexistentFunction str!"nope"⟩ := rfl

/-! ### C10 -/

/-- C10. A written markdown file parses to its pairs in order and to its body, where the body is taken with LF
line ends and without one final newline. Values may hold colons and quotes. -/
theorem C10_frontmatter_round_trip (U : Unicode) (path : Str) (plugins : List PluginFns)
    (pairs : List (Str × Str)) (h : ∀ e ∈ pairs, PairWF e) (body : Str) (toks : List LTok)
    (hb : parseHtml U path plugins (dropFinalNl (crlfToLf body)) = .ok toks) :
    parseMarkdown U path plugins (mdFile pairs body) =
      .ok ⟨pairs, toks, dropFinalNl (crlfToLf body), none⟩ := by
  unfold parseMarkdown
  rw [parseFrontmatter_mdFile path pairs h]
  simp only [Res.bind_ok, lines_mdFile pairs h]
  have : (str!"---" :: (pairs.map fmLine ++ str!"---" :: lines body)).drop (pairs.length + 2) = lines body := by
    have e1 : str!"---" :: (pairs.map fmLine ++ str!"---" :: lines body) =
        (str!"---" :: pairs.map fmLine ++ [str!"---"]) ++ lines body := by simp
    rw [e1, List.drop_append_of_le_length (by simp), List.drop_of_length_le (by simp)]
    rfl
  rw [this, joinLines_lines, hb]
  rfl

example : PairWF (str!"the key", str!"a \"quoted\": \\ value") := by
  constructor <;> first | decide | (unfold Dashes; decide)

example : parseMarkdown Unicode.asciiOnly str!"p" []
    (mdFile [(str!"title", str!"a: \"b\""), (str!"n", [])] str!"# x\n---\ny\n\n") =
    .ok ⟨[(str!"title", str!"a: \"b\""), (str!"n", [])],
      [⟨.raw str!"# x\n---\ny\n", str!"p", 1, 1⟩], str!"# x\n---\ny\n", none⟩ := rfl

/-! ### C11 -/

/-- C11, never closed: if every line after the opening dashes is a pair, parsing fails at the end of file. -/
theorem C11_unclosed (U : Unicode) (path : Str) (plugins : List PluginFns) (s : Str) (ls : List Str)
    (ho : str!"---\n" <+: s ∨ str!"---\r\n" <+: s) (hl : HasLines s (str!"---" :: ls))
    (hg : ∀ l ∈ ls, (∃ k v, FmLine l k v) ∧ ¬ Dashes l) :
    parseMarkdown U path plugins s = .err ⟨path, ls.length + 1, 0, .unexpectedEOF⟩ := by
  obtain ⟨good, rest, h1, h2, h3⟩ := good_prefix ls
  have hr : rest = [] := by
    rcases h3 with h3 | ⟨l, more, rfl, hd⟩ | ⟨l, more, rfl, _, hf⟩
    · exact h3
    · exact absurd hd (hg l (by simp [h1])).2
    · exact absurd (hg l (by simp [h1])).1 hf
  subst hr
  unfold parseMarkdown
  rw [parseFrontmatter_open path s ho, lines_of_hasLines hl,
    fmLoop_open path _ _ (show Dashes str!"---" from ⟨[], rfl⟩), h1, fmLoop_good path good 1 [] [] h2]
  simp [fmLoop]

/-- C11, malformed line: the first line inside the frontmatter that is not a pair is reported, at its line. -/
theorem C11_malformed (U : Unicode) (path : Str) (plugins : List PluginFns) (s : Str) (good : List Str)
    (bad : Str) (more : List Str) (ho : str!"---\n" <+: s ∨ str!"---\r\n" <+: s)
    (hl : HasLines s (str!"---" :: (good ++ bad :: more)))
    (hg : ∀ l ∈ good, (∃ k v, FmLine l k v) ∧ ¬ Dashes l) (hd : ¬ Dashes bad) (hb : ¬ ∃ k v, FmLine bad k v) :
    parseMarkdown U path plugins s = .err ⟨path, good.length + 2, 0, .invalidFrontmatter⟩ := by
  obtain ⟨good', rest, h1, h2, h3⟩ := good_prefix good
  have hr : rest = [] := by
    rcases h3 with h3 | ⟨l, m, rfl, hd'⟩ | ⟨l, m, rfl, _, hf⟩
    · exact h3
    · exact absurd hd' (hg l (by simp [h1])).2
    · exact absurd (hg l (by simp [h1])).1 hf
  subst hr
  rw [List.append_nil] at h1
  unfold parseMarkdown
  rw [parseFrontmatter_open path s ho, lines_of_hasLines hl,
    fmLoop_open path _ _ (show Dashes str!"---" from ⟨[], rfl⟩), h1, fmLoop_good path good' 1 _ [] h2,
    fmLoop_bad path _ _ _ _ hd hb]
  simp
  omega

/-- C11, nothing is skipped: if a file that opens frontmatter parses, then the frontmatter is closed and every
line inside it is a pair, and these pairs are the result. -/
theorem C11_nothing_skipped (U : Unicode) (path : Str) (plugins : List PluginFns) (s : Str) (m : ParsedMd)
    (ho : str!"---\n" <+: s ∨ str!"---\r\n" <+: s) (h : parseMarkdown U path plugins s = .ok m) :
    ∃ (good : List (Str × Str × Str)) (close : Str) (more : List Str),
      HasLines s (str!"---" :: (good.map (·.1) ++ close :: more)) ∧ Dashes close ∧
      (∀ e ∈ good, FmLine e.1 e.2.1 e.2.2) ∧ m.frontmatter = good.map (·.2) := by
  obtain ⟨ls, hls⟩ := opensFm_lines ho
  obtain ⟨good, rest, h1, h2, h3⟩ := good_prefix ls
  unfold parseMarkdown at h
  rw [parseFrontmatter_open path s ho, hls,
    fmLoop_open path _ _ (show Dashes str!"---" from ⟨[], rfl⟩), h1, fmLoop_good path good 1 rest [] h2] at h
  rcases h3 with rfl | ⟨l, more, rfl, hd⟩ | ⟨l, more, rfl, hd, hf⟩
  · simp [fmLoop] at h
  · refine ⟨good, l, more, by rw [← h1, ← hls]; exact hasLines_lines s, hd, fun e he => (h2 e he).1, ?_⟩
    rw [fmLoop_close path _ _ _ _ hd] at h
    simp only [Res.bind_ok, List.nil_append] at h
    cases hp : parseHtml U path plugins
      (joinLines (List.drop (1 + good.length + 1) (str!"---" :: (good.map (·.1) ++ l :: more)))) with
    | ok toks => rw [hp] at h; cases h; rfl
    | err e => rw [hp] at h; cases h
    | panic q => rw [hp] at h; cases h
  · rw [fmLoop_bad path _ _ _ _ hd hf] at h
    cases h

example : parseMarkdown Unicode.asciiOnly str!"p" [] str!"---\r\na: \"b\"\r\nc: d\r\n---\r\n" =
    .err ⟨str!"p", 3, 0, .invalidFrontmatter⟩ := rfl

/-- The hypotheses of the malformed case are met by this file. -/
example : HasLines str!"---\r\na: \"b\"\r\nc: d\r\n---\r\n"
      (str!"---" :: ([str!"a: \"b\""] ++ str!"c: d" :: [str!"---"])) ∧
    (∃ k v, FmLine str!"a: \"b\"" k v) ∧ ¬ ∃ k v, FmLine str!"c: d" k v := by
  refine ⟨?_, ⟨_, _, parseFmLine_inv (e := (str!"a", str!"b")) rfl⟩, parseFmLine_none.1 rfl⟩
  refine .crlf str!"---" _ _ (by decide) (.crlf str!"a: \"b\"" _ _ (by decide) (.crlf str!"c: d" _ _ (by decide)
    (.crlf str!"---" _ _ (by decide) .nil)))

/-! ### C12 -/

/-- C12. Changing CRLF line ends to LF does not change the result of parsing (tokens, frontmatter, body, or
error), for every file, with one or mixed kinds of line end. A doubled carriage return is not a line end. -/
theorem C12_line_endings (U : Unicode) (path : Str) (plugins : List PluginFns) (s : Str)
    (h : ¬ str!"\r\r\n" <:+: s) :
    parseMarkdown U path plugins s = parseMarkdown U path plugins (crlfToLf s) := by
  have hf : parseFrontmatter path s = parseFrontmatter path (crlfToLf s) := by
    by_cases ho : OpensFm s
    · rw [parseFrontmatter_open path s ho, parseFrontmatter_open path _ ((opensFm_crlf s h).2 ho),
        lines_crlf_eq s h]
    · rw [parseFrontmatter_plain path s ho,
        parseFrontmatter_plain path _ (fun hh => ho ((opensFm_crlf s h).1 hh))]
  unfold parseMarkdown
  rw [← hf, lines_crlf_eq s h]

example : ¬ str!"\r\r\n" <:+: str!"---\r\nk: \"v\"\r\n---\r\n{{ $x }}\r\ny\n" ∧
    crlfToLf str!"---\r\nk: \"v\"\r\n---\r\n{{ $x }}\r\ny\n" = str!"---\nk: \"v\"\n---\n{{ $x }}\ny\n" := by
  decide

/-! ### Cases: each theorem applied to something that meets its hypotheses -/

theorem exPair_wf : ∀ e ∈ [(str!"title", str!"a: \"b\"")], PairWF e := by
  simp only [List.mem_singleton, forall_eq]
  exact ⟨by decide, by decide, by decide, by decide, by unfold Dashes; decide, by decide⟩

example := C09_error_lines_partial Unicode.asciiOnly str!"p" [] str!"a\n\n{{" (by decide)

example := C09_offset Unicode.asciiOnly str!"p" [] [(str!"title", str!"a: \"b\"")] exPair_wf str!"x\n{{" _ rfl

example := C10_frontmatter_round_trip Unicode.asciiOnly str!"p" [] [(str!"title", str!"a: \"b\"")] exPair_wf str!"x\n{{ $y }}" _ rfl

example := C11_unclosed Unicode.asciiOnly str!"p" [] str!"---\r\na:\"b\"\n" [str!"a:\"b\""] (.inr (by decide))
  (.crlf str!"---" _ _ (by decide) (.lf str!"a:\"b\"" [] [] (by decide) (by decide) .nil))
  (by
    simp only [List.mem_singleton, forall_eq]
    exact ⟨⟨['a'], ['b'], .mk [] ['a'] [] [] ['b'] [] (by simp [Blank]) (by simp [Blank]) (by simp [Blank]) (by simp [Blank])
      (by decide) (by decide) (by decide)⟩, by unfold Dashes; decide⟩)

example := C11_malformed Unicode.asciiOnly str!"p" [] str!"---\nx\n---\n" [] ['x'] [str!"---"] (.inl (by decide))
  (.lf str!"---" _ _ (by decide) (by decide) (.lf ['x'] _ _ (by decide) (by decide)
    (.lf str!"---" [] [] (by decide) (by decide) .nil)))
  (by simp) (by unfold Dashes; decide)
  (fun ⟨k, v, hk⟩ => by
    have key : ∀ s k v, FmLine s k v → ':' ∈ s := by rintro _ _ _ ⟨⟩; simp
    exact absurd (key _ _ _ hk) (by decide))

example := C11_nothing_skipped Unicode.asciiOnly str!"p" [] str!"---\na: \"b\"\n---\nx" _ (.inl (by decide)) rfl

example := C12_line_endings Unicode.asciiOnly str!"p" [] str!"---\r\nk: \"v\"\r\n---\r\nx\n{{ $y }}\r\n" (by decide)

end Stuart
