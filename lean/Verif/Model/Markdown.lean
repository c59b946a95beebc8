import Verif.Model.Function
/-
Markdown files: stuart-core/src/parse/markdown.rs.
-/
namespace Stuart

/-- parse/markdown.rs:13-22 `ParsedMarkdown` -/
structure ParsedMd where
  frontmatter : List (Str × Str)
  markdown : List LTok
  markdownString : Str
  html : Option Str

/-- `str::lines`: split after each `\n`; drop the `\n` and one `\r` before it. A final piece without `\n` is
kept as it is, and is no line at all when empty. (Rust before 1.77 also dropped a final `\r` without `\n`.)
`cur` is the current line so far. -/
def linesGo : Str → Str → List Str
  | cur, [] => if cur.isEmpty then [] else [cur]
  | cur, c :: cs =>
    if c = '\n' then ((stripSuffix ['\r'] cur).getD cur) :: linesGo [] cs
    else linesGo (cur ++ [c]) cs

/-- `str::lines` -/
def lines (s : Str) : List Str := linesGo [] s

/-- `[..].join("\n")` -/
def joinLines : List Str → Str
  | [] => []
  | [l] => l
  | l :: ls => l ++ '\n' :: joinLines ls

/-- parse/markdown.rs:56-66: one `key: "value"` line. -/
def parseFmLine (line : Str) : Option (Str × Str) :=
  match splitFirst ':' line with
  | (_, none) => none
  | (k, some v) =>
    match stripPrefix ['"'] (trim v) with
    | none => none
    | some v => (stripSuffix ['"'] v).map fun v => (trim k, v)

/-- parse/markdown.rs:36-70: the frontmatter loop from line index `i`, with the number of dashed lines seen;
returns the number of lines to skip (`none`: fewer than two dashed lines). -/
def fmLoop (path : Str) : Nat → Nat → List Str → List (Str × Str) →
    Res (TB ParseErr) (Option Nat × List (Str × Str))
  | _, _, [], fm => .ok (none, fm)
  | i, dashed, l :: ls, fm =>
    if startsWith str!"---" l then
      if dashed + 1 = 2 then .ok (some (i + 1), fm)
      else fmLoop path (i + 1) (dashed + 1) ls fm
    else if dashed = 1 then
      match parseFmLine l with
      | none => .err ⟨path, i + 1, 0, .invalidFrontmatter⟩
      | some kv => fmLoop path (i + 1) dashed ls (fm ++ [kv])
    else fmLoop path (i + 1) dashed ls fm

/-- parse/markdown.rs:30-84: how many lines to skip, and the frontmatter. -/
def parseFrontmatter (path input : Str) : Res (TB ParseErr) (Nat × List (Str × Str)) :=
  if startsWith str!"---\n" input || startsWith str!"---\r\n" input then
    (fmLoop path 0 0 (lines input) []).bind fun
      | (some n, fm) => .ok (n, fm)
      | (none, _) => .err ⟨path, (lines input).length, 0, .unexpectedEOF⟩
  else .ok (0, [])

/-- parse/markdown.rs:25-100 `parse_markdown` -/
def parseMarkdown (U : Unicode) (path : Str) (plugins : List PluginFns) (input : Str) :
    Res (TB ParseErr) ParsedMd :=
  (parseFrontmatter path input).bind fun (skip, fm) =>
    let raw := joinLines ((lines input).drop skip)
    (parseHtml U path plugins raw).bind fun toks => .ok ⟨fm, toks, raw, none⟩

/-- parse/markdown.rs:115-123 `frontmatter_to_value` -/
def ParsedMd.fmValue (m : ParsedMd) : Value := .obj (m.frontmatter.map fun e => (e.1, .str e.2))

/-- parse/markdown.rs:107-112 `to_value`; panics if the body has not been rendered yet. -/
def ParsedMd.toValue {ε : Type} (m : ParsedMd) : Res ε Value :=
  match m.html with
  | none => .panic .htmlNotReady
  | some h => .ok ((m.fmValue.setKey str!"content" (.str h)).setKey str!"markdown" (.str m.markdownString))

end Stuart
