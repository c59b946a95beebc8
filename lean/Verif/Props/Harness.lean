import Verif.Props.Tests
import Verif.Props.Merge
import Verif.Proof.Succeeds
import Verif.Proof.Utf8
import Verif.Proof.Concrete
/-
C111: the test cases of the core library, and what it means that one passes.
-/
namespace Stuart.Spec

/-- The same text but for line breaks: newlines and carriage returns, added or left out anywhere. -/
inductive SameButBreaks : Str → Str → Prop
  | nil : SameButBreaks [] []
  | same {c : Char} {s s' : Str} : SameButBreaks s s' → SameButBreaks (c :: s) (c :: s')
  | left {c : Char} {s s' : Str} : c = '\n' ∨ c = '\r' → SameButBreaks s s' → SameButBreaks (c :: s) s'
  | right {c : Char} {s s' : Str} : c = '\n' ∨ c = '\r' → SameButBreaks s s' → SameButBreaks s (c :: s')

end Stuart.Spec

namespace Stuart
open Spec

/-- The test cases of the repository. -/
def repoTests : List (Str × Entry) :=
  [(str!"for_loop_markdown", case_for_loop_markdown), (str!"for_loop_json_file", case_for_loop_json_file),
   (str!"for_loop_json_object", case_for_loop_json_object), (str!"for_loop_nested", case_for_loop_nested),
   (str!"for_loop_skip_limit", case_for_loop_skip_limit), (str!"dateformat", case_dateformat), (str!"excerpt", case_excerpt),
   (str!"ifdefined", case_ifdefined), (str!"conditionals", case_conditionals),
   (str!"markdown_functions", case_markdown_functions), (str!"escape", case_escape)]

/-- C111. Every test case of the repository passes. -/
theorem C111_all : ∀ c ∈ repoTests, passes repoSys (repoCases c.1 c.2) [str!"t"] c.1 = true := by
  intro c hc
  simp only [repoTests, List.mem_cons, List.not_mem_nil, or_false] at hc
  rcases hc with rfl | rfl | rfl | rfl | rfl | rfl | rfl | rfl | rfl | rfl | rfl
  · exact test_for_loop_markdown
  · exact test_for_loop_json_file
  · exact test_for_loop_json_object
  · exact test_for_loop_nested
  · exact test_for_loop_skip_limit
  · exact test_dateformat
  · exact test_excerpt
  · exact test_ifdefined
  · exact test_conditionals
  · exact test_markdown_functions
  · exact test_escape

theorem withoutBreaks_iff {s s' : Str} : withoutBreaks s = withoutBreaks s' ↔ SameButBreaks s s' := by
  have brk : ∀ c : Char, (c != '\n' && c != '\r') = false ↔ c = '\n' ∨ c = '\r' := by
    intro c
    by_cases h1 : c = '\n' <;> by_cases h2 : c = '\r' <;> simp [h1, h2]
  constructor
  · intro h
    induction s generalizing s' with
    | nil =>
      induction s' with
      | nil => exact .nil
      | cons c s' ih =>
        cases hb : (c != '\n' && c != '\r') with
        | false => exact .right ((brk c).1 hb) (ih (by simpa [withoutBreaks, hb] using h))
        | true => simp [withoutBreaks, hb] at h
    | cons c s ih =>
      cases hb : (c != '\n' && c != '\r') with
      | false => exact .left ((brk c).1 hb) (ih (by simpa [withoutBreaks, hb] using h))
      | true =>
        induction s' with
        | nil => simp [withoutBreaks, hb] at h
        | cons c' s' ih' =>
          cases hb' : (c' != '\n' && c' != '\r') with
          | false => exact .right ((brk c').1 hb') (ih' (by simpa [withoutBreaks, hb, hb'] using h))
          | true =>
            simp only [withoutBreaks, List.filter_cons, hb, hb', if_true, List.cons.injEq] at h
            rw [h.1]; exact .same (ih h.2)
  · intro h
    induction h with
    | nil => rfl
    | @same c s s' _ ih => unfold withoutBreaks at ih ⊢; simp only [List.filter_cons, ih]
    | @left c s s' hc _ ih => unfold withoutBreaks at ih ⊢; simp only [List.filter_cons, (brk c).2 hc, ih, Bool.false_eq_true, if_false]
    | @right c s s' hc _ ih => unfold withoutBreaks at ih ⊢; simp only [List.filter_cons, (brk c).2 hc, ih, Bool.false_eq_true, if_false]

/-- C111. A test case passes exactly if the page that is made and the expected file are texts that are the same but for line
breaks. -/
theorem C111_means (S : Sys) (disk : Entry) (cases : Path) (name : Str) :
    passes S disk cases name = true ↔ ∃ t s s', Testcase.new S disk cases name = .ok t ∧
      t.run S = .ok (bytesOf s, bytesOf s') ∧ SameButBreaks s s' := by
  unfold passes
  constructor
  · intro h
    split at h
    · rename_i c c' hr
      obtain ⟨t, h1, h2⟩ := Res.bind_eq_ok.1 hr
      split at h
      · rename_i s s' k1 k2
        rw [fromUtf8_sound k1, fromUtf8_sound k2] at h2
        exact ⟨t, s, s', h1, h2, withoutBreaks_iff.1 (by simpa using h)⟩
      · cases h
    · cases h
  · rintro ⟨t, s, s', h1, h2, h3⟩
    simp only [h1, Res.bind, h2, fromUtf8_bytesOf, withoutBreaks_iff.2 h3, beq_self_eq_true]

/-- C111. A test case cannot replace what the base has: if it has anything where the base has something and these are not both
directories, it fails. -/
theorem C111_clash (S : Sys) (disk : Entry) (hd : ProperDisk disk) (cases : Path) (name : Str) (ds : List Str) (x : Str)
    {k k' : Kind} (h1 : look disk (cases ++ [str!"_base"] ++ ds ++ [x]) = some k)
    (h2 : look disk (cases ++ [name] ++ ds ++ [x]) = some k') (hk : ¬ (k = .dir ∧ k' = .dir)) :
    passes S disk cases name = false := by
  cases hp : passes S disk cases name with
  | false => rfl
  | true =>
    exfalso
    obtain ⟨t, -, -, hn, -⟩ := (C111_means S disk cases name).1 hp
    unfold Testcase.new at hn
    obtain ⟨base, hb, hn⟩ := Res.bind_eq_ok.1 hn
    obtain ⟨spec, hs, hn⟩ := Res.bind_eq_ok.1 hn
    obtain ⟨u, hm, -⟩ := Res.bind_eq_ok.1 hn
    obtain ⟨l, cs, nm, a1, a2, -, rfl⟩ := readTree_dir_ok.1 hb
    obtain ⟨l', os, nm', b1, b2, -, rfl⟩ := readTree_dir_ok.1 hs
    have proper : ∀ {p : Path} {l}, disk.at p = some (.dir l) → ProperDisk (.dir l) := by
      intro p l hp q m hq
      exact hd (p ++ q) m (by rw [at_append, hp]; exact hq)
    have node : ∀ {p : Path} {l : List (Str × Entry)} {cs : List Node} {k : Kind}, disk.at p = some (.dir l) →
        readEntries S true [] p l = .ok cs → look disk (p ++ ds ++ [x]) = some k →
        ∃ n, Holds cs ds n ∧ n.name = x ∧ (n.isDir = true → k = .dir) := by
      intro p l cs k hp hr hl
      unfold look at hl
      rw [List.append_assoc, at_append, hp] at hl
      simp only [Option.bind_some, Option.map_eq_some_iff] at hl
      obtain ⟨e, he, rfl⟩ := hl
      obtain ⟨n, h⟩ := readEntries_at (proper hp) hr he
      have hname := readEntry_name h
      refine ⟨n, (readEntries_holds (proper hp) hr ds n).2 ⟨e, by rw [hname]; exact he, by rw [hname]; exact h⟩, hname, ?_⟩
      intro hi
      cases e with
      | dir => rfl
      | file b =>
        rw [readEntry] at h; unfold readFile at h
        obtain ⟨c, -, h⟩ := Res.bind_eq_ok.1 h
        cases h; cases hi
      | special => cases h
    obtain ⟨n, c1, c2, c3⟩ := node a1 a2 h1
    obtain ⟨o, d1, d2, d3⟩ := node b1 b2 h2
    cases u
    exact ((C38_succeeds _ _ _ _ _ _ (readEntries_distinct (proper a1) a2) (readEntries_distinct (proper b1) b2)).1.1 hm) ds n o
      ⟨c1, d1, c2.trans d2.symm, fun h => hk ⟨c3 h.1, d3 h.2⟩⟩

/-! ### Cases -/

/-- A test case that differs from its expectation in line breaks passes. -/
example : SameButBreaks str!"<p>\r\nx</p>" str!"<p>x</p>\n" := withoutBreaks_iff.1 (by decide)

/-- A test case with its own `data.json`. -/
def clashCases : Entry := .dir [(str!"t", .dir [(str!"_base", .dir [(str!"data.json", .file [])]),
  (str!"own", .dir [(str!"data.json", .file [])])])]

example : passes repoSys clashCases [str!"t"] str!"own" = false :=
  C111_clash repoSys clashCases (by unfold clashCases; proper_disk) [str!"t"] str!"own" [] str!"data.json" (k := .file []) (k' := .file [])
    rfl rfl (by rintro ⟨h, -⟩; cases h)

end Stuart
