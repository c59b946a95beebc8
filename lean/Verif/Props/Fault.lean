import Verif.Proof.Fault

/-!
Properties of what the parser says about a file that it does not accept (parse/mod.rs, parse/parser.rs, parse/function.rs,
functions/parsers/*.rs). The faults are those of `Verif/Spec/Faults.lean`.
-/
set_option linter.unusedVariables false
set_option linter.unusedSimpArgs false
namespace Stuart
open Spec

/-- C86. The parser reports an error exactly for the files with a fault; the error is that of the fault and its place is the
end of the part of the file read when the fault is noticed. -/
theorem C86_exact (U : Unicode) (path : Str) (plugins : List PluginFns) (input : Str) (e : TB ParseErr) :
    parseHtml U path plugins input = .err e ↔
      ∃ part kind, Fault U plugins input part kind ∧ e = ⟨path, lineAt part, colAt part, kind⟩ :=
  parseHtml_fault

/-- C86. A file has at most one fault, up to where it is. -/
theorem C86_once (U : Unicode) (plugins : List PluginFns) (input part part' : Str) (k k' : ParseErr)
    (h : Fault U plugins input part k) (h' : Fault U plugins input part' k') :
    k = k' ∧ lineAt part = lineAt part' ∧ colAt part = colAt part' := by
  have h1 := (C86_exact U [] plugins input _).2 ⟨part, k, h, rfl⟩
  rw [(C86_exact U [] plugins input _).2 ⟨part', k', h', rfl⟩] at h1
  injection h1 with h1
  injection h1 with _ h2 h3 h4
  exact ⟨h4.symm, h2.symm, h3.symm⟩

/-- C86. Every file has a reading, or a fault, or breaks off in the quote that begins an argument; and only one of these.
(The parsers of plugins are assumed not to panic themselves.) -/
theorem C86_complete (U : Unicode) (path : Str) (plugins : List PluginFns)
    (hp : ∀ pl ∈ plugins, ∀ f ∈ pl.functions, ∀ raw q, f.parse raw ≠ .panic q) (input : Str) :
    ((∃ toks, Parses U path plugins [] input toks) ∧ ¬ (∃ part k, Fault U plugins input part k) ∧ ¬ CutOff U plugins input) ∨
    (¬ (∃ toks, Parses U path plugins [] input toks) ∧ (∃ part k, Fault U plugins input part k) ∧ ¬ CutOff U plugins input) ∨
    (¬ (∃ toks, Parses U path plugins [] input toks) ∧ ¬ (∃ part k, Fault U plugins input part k) ∧ CutOff U plugins input) := by
  have key1 := parseHtml_iff U path plugins input
  have key2 := C86_exact U path plugins input
  have key3 := parseHtml_panic_iff (U := U) (path := path) hp input
  cases h : parseHtml U path plugins input with
  | ok toks =>
    refine .inl ⟨⟨toks, (key1 _).1 h⟩, ?_, ?_⟩
    · rintro ⟨part, k, hf⟩
      have := (key2 _).2 ⟨part, k, hf, rfl⟩
      rw [h] at this; cases this
    · intro hc
      have := (key3 _).2 ⟨rfl, hc⟩
      rw [h] at this; cases this
  | err e =>
    obtain ⟨part, k, hf, _⟩ := (key2 _).1 h
    refine .inr (.inl ⟨?_, ⟨part, k, hf⟩, ?_⟩)
    · rintro ⟨toks, ht⟩
      have := (key1 _).2 ht
      rw [h] at this; cases this
    · intro hc
      have := (key3 _).2 ⟨rfl, hc⟩
      rw [h] at this; cases this
  | panic q =>
    refine .inr (.inr ⟨?_, ?_, ((key3 _).1 h).2⟩)
    · rintro ⟨toks, ht⟩
      have := (key1 _).2 ht
      rw [h] at this; cases this
    · rintro ⟨part, k, hf⟩
      have := (key2 _).2 ⟨part, k, hf, rfl⟩
      rw [h] at this; cases this

/-! #### Faults of every sort, derived from their definition -/

section
open Unicode

theorem opens_plain {txt : Str} (h : '{' ∉ txt) (h' : '\\' ∉ txt) : OpensAfter txt := by
  refine ⟨?_, ?_⟩
  · intro a b hab
    exfalso
    have h1 : (txt ++ ['{']).count '{' = 1 := by rw [List.count_append, List.count_eq_zero_of_not_mem h]; rfl
    rw [hab, List.count_append, List.count_append] at h1
    have h2 : List.count '{' str!"{{" = 2 := by decide
    omega
  · rintro ⟨a, rfl⟩
    exact h' (by simp)

theorem stop_cons {p : Char → Prop} {c : Char} {r : Str} (h : ¬ p c) : Stop p (c :: r) := by
  intro d hd
  simp at hd
  exact hd ▸ h

/-- The file begins with a whole tag. -/
theorem tags_x : Tags asciiOnly [] str!"a{{ $x }}" :=
  .tag (pre := []) (txt := ['a']) (ws := [' ']) (body := str!"$x ") (t := .var ['x']) .nil
    (opens_plain (by decide) (by decide)) (by unfold Blank; decide)
    (.var ['x'] [' '] (by decide) (by decide) (by unfold Blank; decide))

/-- After it a tag with no name: the second line, after the dollar. -/
example : Fault asciiOnly [] str!"a{{ $x }}\n{{$ x }}" str!"a{{ $x }}\n{{$" (.invalidVariableName str!"<empty>") :=
  ⟨str!"a{{ $x }}", ['\n'], [], str!"$ x }}", ['$'], tags_x, opens_plain (by decide) (by decide), by unfold Blank; decide, stop_cons (by decide), .noVar (stop_cons (by unfold VarChar; decide)), rfl, rfl⟩

example : parseHtml asciiOnly str!"p" [] str!"a{{ $x }}\n{{$ x }}" =
    .err ⟨str!"p", 2, 2, .invalidVariableName str!"<empty>"⟩ :=
  (C86_exact _ _ _ _ _).2 ⟨_, _, ⟨str!"a{{ $x }}", ['\n'], [], str!"$ x }}", ['$'], tags_x, opens_plain (by decide) (by decide), by unfold Blank; decide, stop_cons (by decide),
    .noVar (stop_cons (by unfold VarChar; decide)), rfl, rfl⟩, by decide⟩

/-- No name of a function. -/
example : parseHtml asciiOnly str!"p" [] str!"a{{ $x }}\n{{ (1) }}" =
    .err ⟨str!"p", 2, 2, .invalidFunctionName str!"<empty>"⟩ :=
  (C86_exact _ _ _ _ _).2 ⟨_, _, ⟨str!"a{{ $x }}", ['\n'], [' '], str!"(1) }}", [], tags_x, opens_plain (by decide) (by decide), by unfold Blank; decide, stop_cons (by decide),
    .noName (by decide) (by decide) (stop_cons (by unfold FnChar; decide)), rfl, rfl⟩, by decide⟩

/-- No parenthesis. -/
example : parseHtml asciiOnly str!"p" [] str!"a{{ $x }}{{ else }}" = .err ⟨str!"p", 1, 18, .expected str!"("⟩ :=
  (C86_exact _ _ _ _ _).2 ⟨_, _, ⟨str!"a{{ $x }}", [], [' '], str!"else }}", str!"else }", tags_x, opens_plain (by decide) (by decide), by unfold Blank; decide, stop_cons (by decide),
    .noParen (name := str!"else") (gap := [' ']) (r := str!"}}") (part := ['}']) (by decide) (by unfold FnChar; decide) (by unfold Blank; decide)
      (stop_cons (by unfold FnChar; decide)) (stop_cons (by decide)) (.other (a := []) (b := []) (r := ['}']) rfl (by decide)), rfl, rfl⟩, by decide⟩

/-- A function that does not exist is reported at its name. -/
example : parseHtml asciiOnly str!"p" [] str!"a{{ $x }}{{ elseif() }}" =
    .err ⟨str!"p", 1, 12, .nonexistentFunction str!"elseif"⟩ :=
  (C86_exact _ _ _ _ _).2 ⟨_, _, ⟨str!"a{{ $x }}", [], [' '], str!"elseif() }}", [], tags_x, opens_plain (by decide) (by decide), by unfold Blank; decide, stop_cons (by decide),
    .unknown (name := str!"elseif") (gap := []) (args := []) (pos := []) (named := []) (r := str!" }}")
      (by decide) (by unfold FnChar; decide) (by unfold Blank; decide) (.last (.blank [] (by unfold Blank; decide))) (by decide) (by rintro p ⟨pre, pl, post, fpre, fpost, h, _⟩; simp at h), rfl, rfl⟩, by decide⟩

/-- Only one closing brace. -/
example : parseHtml asciiOnly str!"p" [] str!"{{ $x } }" = .err ⟨str!"p", 1, 8, .expected str!"}}"⟩ :=
  (C86_exact _ _ _ _ _).2 ⟨_, _, ⟨[], [], [' '], str!"$x } }", str!"$x } ", .nil, opens_plain (by decide) (by decide), by unfold Blank; decide, stop_cons (by decide),
    .openVar (n := ['x']) (w := [' ']) (r := str!"} }") (part := str!"} ") (by decide) (by unfold VarChar; decide) (by unfold Blank; decide)
      (stop_cons (by unfold VarChar; decide)) (stop_cons (by decide)) (.other (a := ['}']) (b := []) (c := '}') (d := ' ') (r := ['}']) rfl (by decide)), rfl, rfl⟩, by decide⟩

/-- A positional argument after a named one: noticed at the comma after it. -/
example : ∃ part, Fault asciiOnly [] str!"{{ for($a, skip=1, $b, 2) }}" part .positionalAfterNamed ∧ colAt part = 21 := by
  obtain ⟨part, k, hf, he⟩ := (C86_exact asciiOnly str!"p" [] str!"{{ for($a, skip=1, $b, 2) }}"
    ⟨str!"p", 1, 21, .positionalAfterNamed⟩).1 (by rfl)
  injection he with h1 h2 h3 h4
  exact ⟨part, h4 ▸ hf, h3.symm⟩

/-- A negative number to skip: noticed after the call. -/
example : ∃ part, Fault asciiOnly [] str!"{{ for($a, $b, skip=-1) }}" part .invalidArgument ∧ colAt part = 24 := by
  obtain ⟨part, k, hf, he⟩ := (C86_exact asciiOnly str!"p" [] str!"{{ for($a, $b, skip=-1) }}"
    ⟨str!"p", 1, 24, .invalidArgument⟩).1 (by rfl)
  injection he with h1 h2 h3 h4
  exact ⟨part, h4 ▸ hf, h3.symm⟩

end

end Stuart
