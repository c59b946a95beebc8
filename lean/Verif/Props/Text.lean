import Verif.Proof.Excerpt
import Verif.Proof.Literal
import Verif.Props.Block
/-
Properties C26 and C27: `excerpt` and `timetoread`.
-/
namespace Stuart
open Spec

/-! ### C26

The full claim is `C26_excerpt_partial` with "the ellipsis is there exactly when some of the text was left out". That
is false in one direction. -/

/-- C26. `excerpt($x, n)` outputs a leading part of the text without tags, which holds no delimiter, exceeds the limit
(in bytes) by less than its last character, and is all of it or reaches the limit. If it is not all of it, an ellipsis
follows. If an ellipsis follows and the text is ASCII, then not all of the source was read. -/
theorem C26_excerpt_partial (cx : Ctx) (t : LTok) (rest : List LTok) (f : Frame) (fs : List Frame) (secs : Sections)
    (name : Str) (path : List Str) (n : Nat) (s : Str) (h : Dotless name path)
    (ht : t.inner = .func (.excerpt (dotted name path) n))
    (hs : denoted name path (f.vars :: fs.map (·.vars)) = some (.str s)) :
    ∃ (taken : Str) (dots : Bool),
      runToks cx (t :: rest) ⟨f :: fs, secs⟩ =
        runToks cx rest
          ⟨{ f with out := f.out ++ bytesOf (taken ++ if dots then str!"..." else []) } :: fs, secs⟩ ∧
      taken <+: visible s ∧
      (∀ c ∈ taken, c ≠ '<' ∧ c ≠ '>') ∧
      (taken ≠ [] → (bytesOf taken.dropLast).length < n) ∧
      (taken = visible s ∨ n ≤ (bytesOf taken).length) ∧
      (taken ≠ visible s → dots = true) ∧
      (dots = true → (∀ c ∈ s, c.toNat < 128) → ∃ a b, s = a ++ b ∧ b ≠ [] ∧ taken = visible a) := by
  have hl := lookupVar_denoted h (f :: fs)
  rw [List.map_cons, hs] at hl
  have hsp := excerptGo_spec n s [] 0
  have hin : inTag [] = false := rfl
  rw [hin] at hsp
  obtain ⟨h1, h2, h3, h4⟩ := hsp
  have hv : visible s = visibleAfter [] (s.take (excerptGo n false 0 s).2) ++
      visibleAfter ((s.take (excerptGo n false 0 s).2).reverse ++ []) (s.drop (excerptGo n false 0 s).2) := by
    rw [← visibleAfter_append, List.take_append_drop]; rfl
  rw [← h2] at hv
  refine ⟨(excerptGo n false 0 s).1, decide ((excerptGo n false 0 s).2 < (bytesOf s).length), ?_, ⟨_, hv.symm⟩, ?_, ?_,
    ?_, ?_, ?_⟩
  · rw [runToks_cons, exec_simple cx _ _ _ _ ht rfl]
    have : excerptOf n s = (excerptGo n false 0 s).1 ++
        if decide ((excerptGo n false 0 s).2 < (bytesOf s).length) = true then str!"..." else [] := by
      simp only [excerptOf, decide_eq_true_eq]
      split <;> simp
    rw [← this]
    simp only [execSimple, needString, hl, Value.asStr]
    rfl
  · intro c hc
    rw [h2] at hc
    have := visibleAfter_no_delim _ _ c hc
    simp only [isDelim, Bool.or_eq_false_iff, beq_eq_false_iff_ne] at this
    exact this
  · intro hne
    have := h4 hne
    omega
  · rcases h3 with h3 | h3
    · left
      have : visible s = visibleAfter [] (s.take (excerptGo n false 0 s).2) := by rw [h3, List.take_length]; rfl
      rw [this]; exact h2
    · right; omega
  · intro hne
    have : (excerptGo n false 0 s).2 ≠ s.length := by
      intro he
      apply hne
      have hh : visible s = visibleAfter [] (s.take (excerptGo n false 0 s).2) := by rw [he, List.take_length]; rfl
      rw [hh]; exact h2
    have hb := bytesOf_length_ge s
    simp only [decide_eq_true_eq]
    omega
  · intro hd ha
    rw [decide_eq_true_eq, bytesOf_length_ascii s ha] at hd
    refine ⟨s.take (excerptGo n false 0 s).2, s.drop (excerptGo n false 0 s).2, (List.take_append_drop _ _).symm, ?_, h2⟩
    intro hn
    have := congrArg List.length hn
    rw [List.length_drop, List.length_nil] at this
    omega

/-- C26, what `excerpt` outputs, exactly: what is visible of the part read, followed by an ellipsis if the part read has
fewer characters than the whole text has bytes. The part read exists, and by the theorem any two such parts give the
same output. -/
theorem C26_exact (cx : Ctx) (t : LTok) (rest : List LTok) (f : Frame) (fs : List Frame) (secs : Sections)
    (name : Str) (path : List Str) (n : Nat) (s : Str) (h : Dotless name path)
    (ht : t.inner = .func (.excerpt (dotted name path) n))
    (hs : denoted name path (f.vars :: fs.map (·.vars)) = some (.str s)) :
    (∃ a, ReadFor n s a) ∧ ∀ a, ReadFor n s a →
      runToks cx (t :: rest) ⟨f :: fs, secs⟩ = runToks cx rest
        ⟨{ f with out := f.out ++ bytesOf (visible a ++ if a.length < (bytesOf s).length then str!"..." else []) } :: fs, secs⟩ := by
  have hl := lookupVar_denoted h (f :: fs)
  rw [List.map_cons, hs] at hl
  have hsp := excerptGo_spec n s [] 0
  have hin : inTag [] = false := rfl
  have hbf := excerptGo_before n s [] 0
  rw [hin] at hsp hbf
  obtain ⟨h1, h2, h3, h4⟩ := hsp
  have read : ReadFor n s (s.take (excerptGo n false 0 s).2) := by
    refine ⟨List.take_prefix _ _, ?_, ?_⟩
    · intro a' ha hne
      have hle := ha.length_le
      have : a' = s.take a'.length := by
        have := List.prefix_iff_eq_take.1 (ha.trans (List.take_prefix _ _))
        exact this
      rw [List.length_take, Nat.min_eq_left h1] at hle
      have hlt : a'.length < (excerptGo n false 0 s).2 := by
        rcases Nat.lt_or_eq_of_le hle with h | h
        · exact h
        · exact absurd (by rw [← h]; exact this) hne
      have := hbf _ hlt
      rw [← ‹a' = s.take a'.length›] at this
      simpa [visible] using this
    · rcases h3 with h3 | h3
      · left; rw [h3, List.take_length]
      · right; rw [h2] at h3; simpa [visible] using h3
  refine ⟨⟨_, read⟩, fun a ha => ?_⟩
  have hu : a = s.take (excerptGo n false 0 s).2 := by
    generalize s.take (excerptGo n false 0 s).2 = b at read
    have key : ∀ {a b}, ReadFor n s a → ReadFor n s b → a <+: b → a = b := by
      intro a b ha hb hab
      apply Classical.byContradiction
      intro hne
      have := hb.least a hab hne
      rcases ha.enough with h | h
      · rw [h] at hab hne
        exact hne (hab.eq_of_length_le hb.part.length_le)
      · omega
    rcases List.prefix_or_prefix_of_prefix ha.part read.part with h | h
    · exact key ha read h
    · exact (key read ha h).symm
  subst hu
  rw [runToks_cons, exec_simple cx _ _ _ _ ht rfl]
  have : excerptOf n s = visible (s.take (excerptGo n false 0 s).2) ++
      if (s.take (excerptGo n false 0 s).2).length < (bytesOf s).length then str!"..." else [] := by
    rw [List.length_take, Nat.min_eq_left h1]
    simp only [excerptOf, visible, ← h2]
    split <;> simp
  rw [← this]
  simp only [execSimple, needString, hl, Value.asStr]
  rfl
/-- Two letters are wanted: the tag before them is read over, and the third letter is not read. -/
example : ReadFor 2 str!"<p>abc</p>" str!"<p>ab" :=
  ⟨⟨str!"c</p>", rfl⟩, by
    intro a' h hne
    have := List.prefix_iff_eq_take.1 h
    have hl : a'.length < 5 := by
      rcases Nat.lt_or_eq_of_le h.length_le with h' | h'
      · exact h'
      · exact absurd (h.eq_of_length h') hne
    rw [this]
    generalize a'.length = k at hl
    have : ∀ k < 5, (bytesOf (visible ((str!"<p>ab").take k))).length < 2 := by decide
    exact this k hl, .inr (by decide)⟩

/-- C26. A variable that is not a string is an error. -/
theorem C26_not_a_string (cx : Ctx) (t : LTok) (rest : List LTok) (f : Frame) (fs : List Frame) (secs : Sections)
    (name : Str) (path : List Str) (n : Nat) (h : Dotless name path)
    (ht : t.inner = .func (.excerpt (dotted name path) n))
    (hs : ∀ s, denoted name path (f.vars :: fs.map (·.vars)) ≠ some (.str s)) :
    runToks cx (t :: rest) ⟨f :: fs, secs⟩ = .err (t.tb (.undefinedVariable (dotted name path))) ∨
    runToks cx (t :: rest) ⟨f :: fs, secs⟩ = .err (t.tb (.invalidDataType (dotted name path))) := by
  have hl := lookupVar_denoted h (f :: fs)
  rw [List.map_cons] at hl
  rw [runToks_cons, exec_simple cx _ _ _ _ ht rfl]
  cases hd : denoted name path (f.vars :: fs.map (·.vars)) with
  | none =>
    left
    simp only [execSimple, needString, hl, hd]
    rfl
  | some v =>
    right
    have : v.asStr = none := by
      cases v with
      | str s => exact absurd hd (hs s)
      | _ => rfl
    simp only [execSimple, needString, hl, hd, this]
    rfl

/-- C26 fails: a text that is output whole still gets an ellipsis if it is not ASCII, because characters are compared
with bytes. -/
theorem C26_counterexample_bytes :
    runToks demoCx [here.tok (.func (.excerpt str!"t" 10))] ⟨[⟨str!"base", [(str!"t", .str str!"é")], []⟩], []⟩ =
      .ok ⟨[⟨str!"base", [(str!"t", .str str!"é")], bytesOf str!"é..."⟩], []⟩ ∧ visible str!"é" = str!"é" := ⟨rfl, rfl⟩

/-- C26 fails: so does a text whose unread rest holds only tags. -/
theorem C26_counterexample_tag :
    runToks demoCx [here.tok (.func (.excerpt str!"t" 2))] ⟨[⟨str!"base", [(str!"t", .str str!"<p>ab</p>")], []⟩], []⟩ =
      .ok ⟨[⟨str!"base", [(str!"t", .str str!"<p>ab</p>")], bytesOf str!"ab..."⟩], []⟩ ∧
    visible str!"<p>ab</p>" = str!"ab" := ⟨rfl, rfl⟩

/-- The hypotheses are met in the scopes of the counterexample, and the limit cuts a longer text. -/
example : denoted str!"t" [] [[(str!"t", .str str!"<p>abc</p>")]] = some (.str str!"<p>abc</p>") ∧
    runToks demoCx [here.tok (.func (.excerpt str!"t" 2))] ⟨[⟨str!"base", [(str!"t", .str str!"<p>abc</p>")], []⟩], []⟩ =
      .ok ⟨[⟨str!"base", [(str!"t", .str str!"<p>abc</p>")], bytesOf str!"ab..."⟩], []⟩ := ⟨rfl, rfl⟩

/-! ### C27 -/

/-- C27. `timetoread($x)` outputs, in decimal without leading zeros, the number of whole multiples of 200 words of the
text, but at least 1. -/
theorem C27_time_to_read (cx : Ctx) (t : LTok) (rest : List LTok) (f : Frame) (fs : List Frame) (secs : Sections)
    (name : Str) (path : List Str) (s : Str) (h : Dotless name path)
    (ht : t.inner = .func (.timetoread (dotted name path)))
    (hs : denoted name path (f.vars :: fs.map (·.vars)) = some (.str s)) :
    ∃ ds : Str, runToks cx (t :: rest) ⟨f :: fs, secs⟩ =
        runToks cx rest ⟨{ f with out := f.out ++ bytesOf ds } :: fs, secs⟩ ∧
      (∀ c ∈ ds, IsDigit c) ∧ ds.head? ≠ some '0' ∧ decVal ds = max 1 (words s / 200) := by
  have hl := lookupVar_denoted h (f :: fs)
  rw [List.map_cons, hs] at hl
  obtain ⟨_, h2, h3⟩ := parseDigits_some (parseDigits_natToStr (minutesOf s))
  refine ⟨natToStr (minutesOf s), ?_, h2, ?_, ?_⟩
  · rw [runToks_cons, exec_simple cx _ _ _ _ ht rfl]
    simp only [execSimple, needString, hl, Value.asStr]
    rfl
  · refine natDigitsGo_head _ _ _ (by omega) ?_
    unfold minutesOf
    omega
  · rw [← h3, minutesOf, wordCount_words]
    omega

/-- C27. Adding text at the end never makes it shorter to read. -/
theorem C27_monotone (s t : Str) : max 1 (words s / 200) ≤ max 1 (words (s ++ t) / 200) := by
  have := Nat.div_le_div_right (c := 200) (words_append s t)
  omega

/-- Words. -/
example : words str!"  one\ntwo  three " = 3 ∧
    runToks demoCx [here.tok (.func (.timetoread str!"s"))] ⟨[demoBase], []⟩ =
      .ok ⟨[{ demoBase with out := bytesOf str!"1" }], []⟩ := ⟨rfl, rfl⟩

/-! ### Cases: each theorem applied to something that meets its hypotheses -/

example := C26_excerpt_partial demoCx (here.tok (.func (.excerpt str!"t" 2))) [] ⟨str!"base", [(str!"t", .str str!"<p>abc</p>")], []⟩ [] []
  str!"t" [] 2 str!"<p>abc</p>" (by unfold Dotless; decide) rfl rfl

example := C26_exact demoCx (here.tok (.func (.excerpt str!"t" 2))) [] ⟨str!"base", [(str!"t", .str str!"<p>abc</p>")], []⟩ [] []
  str!"t" [] 2 str!"<p>abc</p>" (by unfold Dotless; decide) rfl rfl

example := C26_not_a_string demoCx (here.tok (.func (.excerpt str!"n" 1))) [] demoBase [] [] str!"n" [] 1
  (by unfold Dotless; decide) rfl (by intro s h; cases h)

example := C27_time_to_read demoCx (here.tok (.func (.timetoread str!"t"))) []
  ⟨str!"base", [(str!"t", .str str!"one two")], []⟩ [] [] str!"t" [] str!"one two" (by unfold Dotless; decide) rfl rfl

end Stuart
