import Verif.Proof.Literal
import Verif.Proof.Template
/-
Helper lemmas: the parser accepts exactly the grammar.
-/
namespace Stuart
open Spec

/-! ### Escapes -/

theorem unescape_append : ∀ (x r : Str), ¬ (['\\'] <:+ x ∧ str!"{{" <+: r) → ¬ (str!"\\{" <:+ x ∧ ['{'] <+: r) →
    unescape (x ++ r) = unescape x ++ unescape r := by
  intro x
  induction x using unescape.induct with
  | case1 x ih =>
    intro r h1 h2
    simp only [List.cons_append, unescape]
    rw [ih r]
    · rintro ⟨⟨a, e⟩, h⟩; exact h1 ⟨⟨'\\' :: '{' :: '{' :: a, by simp [← e]⟩, h⟩
    · rintro ⟨⟨a, e⟩, h⟩; exact h2 ⟨⟨'\\' :: '{' :: '{' :: a, by simp [← e]⟩, h⟩
  | case2 c x hne ih =>
    intro r h1 h2
    have e1 : unescape (c :: x) = c :: unescape x := by
      rw [unescape]; exact hne
    have e2 : unescape (c :: (x ++ r)) = c :: unescape (x ++ r) := by
      rw [unescape]
      rintro r' rfl he
      match x, he with
      | [], he => exact h1 ⟨⟨[], rfl⟩, ⟨r', he.symm⟩⟩
      | [d], he =>
        simp only [List.cons_append, List.nil_append, List.cons.injEq] at he
        obtain ⟨rfl, he⟩ := he
        exact h2 ⟨⟨[], rfl⟩, ⟨r', he.symm⟩⟩
      | d :: d' :: x, he =>
        simp only [List.cons_append, List.cons.injEq] at he
        obtain ⟨rfl, rfl, _⟩ := he
        exact hne x rfl rfl
    rw [List.cons_append, e2, e1, ih r]
    · rfl
    · rintro ⟨⟨a, e⟩, h⟩; exact h1 ⟨⟨c :: a, by simp [← e]⟩, h⟩
    · rintro ⟨⟨a, e⟩, h⟩; exact h2 ⟨⟨c :: a, by simp [← e]⟩, h⟩
  | case3 => intro r _ _; rfl

theorem unescape_snoc (x : Str) (c : Char) (hc : c ≠ '{') : unescape (x ++ [c]) = unescape x ++ [c] := by
  rw [unescape_append]
  · rw [show unescape [c] = [c] by rw [unescape]; rfl; rintro r rfl he; cases he]
  · rintro ⟨_, a, e⟩; simp at e
  · rintro ⟨_, a, e⟩; simp at e; exact hc e.1.symm

theorem unescape_snoc_brace (y : Str) (h : ¬ str!"\\{" <:+ y) : unescape (y ++ ['{']) = unescape y ++ ['{'] := by
  rw [unescape_append]
  · rfl
  · rintro ⟨_, a, e⟩; simp at e
  · rintro ⟨h', _⟩; exact h h'

theorem unescape_escaped (z : Str) : unescape (z ++ str!"\\{{") = unescape z ++ str!"{{" := by
  rw [unescape_append]
  · rfl
  · rintro ⟨_, a, e⟩; simp at e
  · rintro ⟨_, a, e⟩; simp at e

/-- Resolving escapes keeps the last character. -/
theorem unescape_last (y : Str) (c : Char) : ∃ u, unescape (y ++ [c]) = u ++ [c] := by
  by_cases hc : c = '{'
  · subst hc
    by_cases h : str!"\\{" <:+ y
    · obtain ⟨z, rfl⟩ := h
      refine ⟨unescape z ++ ['{'], ?_⟩
      have := unescape_escaped z
      simpa using this
    · exact ⟨_, unescape_snoc_brace y h⟩
  · exact ⟨_, unescape_snoc y c hc⟩

theorem unescape_suffix {x : Str} {a : Char} : [a] <:+ unescape x ↔ [a] <:+ x := by
  rcases List.eq_nil_or_concat x with rfl | ⟨y, c, rfl⟩
  · simp [unescape]
  · rw [List.concat_eq_append]
    obtain ⟨u, e⟩ := unescape_last y c
    rw [e, suffix_singleton_append_singleton, suffix_singleton_append_singleton]

theorem replaceAll_unescape : ∀ (s : Str), replaceAll str!"\\{{" str!"{{" s = unescape s := by
  intro s
  unfold replaceAll
  induction s using unescape.induct with
  | case1 r ih =>
    rw [replaceGo]
    have : startsWith str!"\\{{" ('\\' :: '{' :: '{' :: r) = true := by rw [startsWith_iff]; exact ⟨r, rfl⟩
    simp only [this, if_true, unescape, List.length_cons, List.length_nil, replaceGo, ih]
    rfl
  | case2 c r hne ih =>
    rw [replaceGo]
    have : startsWith str!"\\{{" (c :: r) = false := by
      rw [Bool.eq_false_iff, ne_eq, startsWith_iff]
      rintro ⟨b, e⟩
      simp only [List.cons_append, List.nil_append, List.cons.injEq] at e
      exact hne b e.1.symm e.2.symm
    rw [unescape]
    · simp [this, ih]
    · exact hne
  | case3 => rfl

/-! ### Openers -/

theorem allEscaped_nil : AllEscaped [] := by
  intro a b e
  simp at e

theorem allEscaped_prefix {x y : Str} (h : AllEscaped (x ++ y)) : AllEscaped x := by
  intro a b e
  exact h a (b ++ y) (by rw [e]; simp)

theorem allEscaped_snoc {x : Str} {c : Char} (h : AllEscaped x)
    (hc : c = '{' → ∀ y, x = y ++ ['{'] → ['\\'] <:+ y) : AllEscaped (x ++ [c]) := by
  intro a b e
  rcases List.eq_nil_or_concat b with rfl | ⟨b', d, rfl⟩
  · have e' : x ++ [c] = (a ++ ['{']) ++ ['{'] := by simpa using e
    obtain ⟨e1, e2⟩ := List.append_inj' e' rfl
    exact hc (by simpa using e2) a e1
  · rw [List.concat_eq_append, ← List.append_assoc] at e
    exact h a b' (List.append_inj' e rfl).1

/-- There is only one first opener. -/
theorem opensAfter_unique {a b r r' : Str} (ha : OpensAfter a) (hb : OpensAfter b)
    (h : a ++ str!"{{" ++ r = b ++ str!"{{" ++ r') : a = b ∧ r = r' := by
  have key : ∀ {a b r r' : Str}, OpensAfter a → OpensAfter b → a ++ str!"{{" ++ r = b ++ str!"{{" ++ r' →
      ¬ a.length < b.length := by
    intro a b r r' ha hb h hl
    apply ha.here
    apply hb.before a ((b ++ ['{']).drop (a.length + 2))
    have h1 : (a ++ str!"{{") <+: (b ++ ['{']) := by
      apply List.prefix_of_prefix_length_le (l₃ := a ++ str!"{{" ++ r)
      · exact ⟨r, rfl⟩
      · exact ⟨'{' :: r', by rw [h]; simp⟩
      · simp; omega
    obtain ⟨t, e⟩ := h1
    rw [← e]
    congr 1
    have : a.length + 2 = (a ++ str!"{{").length := by simp
    rw [this, List.drop_left]
  have hlen : a.length = b.length := by
    have h1 := key ha hb h
    have h2 := key hb ha h.symm
    omega
  rw [List.append_assoc, List.append_assoc] at h
  obtain ⟨e1, e2⟩ := List.append_inj h hlen
  exact ⟨e1, by simpa using e2⟩

theorem not_allEscaped {a r : Str} (ha : OpensAfter a) : ¬ AllEscaped (a ++ str!"{{" ++ r) :=
  fun h => ha.here (h a r rfl)

/-- What the scan for an opener finds. `seen` has been read already. -/
theorem extractUntilGo_spec (old : Str) : ∀ (r seen : Str) (loc : Loc), AllEscaped seen →
    (AllEscaped (seen ++ r) ∧
      extractUntilGo str!"{{" true old r loc (unescape seen) = (none, ⟨old, r.foldl Loc.adv loc⟩)) ∨
    ∃ txt x r', OpensAfter txt ∧ r = x ++ r' ∧ seen ++ x = txt ++ str!"{{" ∧
      extractUntilGo str!"{{" true old r loc (unescape seen) = (some (rawText txt), ⟨r', x.foldl Loc.adv loc⟩)
  | [], seen, loc, h => Or.inl ⟨by simpa using h, rfl⟩
  | c :: r, seen, loc, h => by
    have next : AllEscaped (seen ++ [c]) →
        extractUntilGo str!"{{" true old (c :: r) loc (unescape seen) =
          extractUntilGo str!"{{" true old r (loc.adv c) (unescape (seen ++ [c])) →
        ((AllEscaped (seen ++ c :: r) ∧
          extractUntilGo str!"{{" true old (c :: r) loc (unescape seen) =
            (none, ⟨old, (c :: r).foldl Loc.adv loc⟩)) ∨
        ∃ txt x r', OpensAfter txt ∧ c :: r = x ++ r' ∧ seen ++ x = txt ++ str!"{{" ∧
          extractUntilGo str!"{{" true old (c :: r) loc (unescape seen) =
            (some (rawText txt), ⟨r', x.foldl Loc.adv loc⟩)) := by
      intro h1 h2
      rcases extractUntilGo_spec old r (seen ++ [c]) (loc.adv c) h1 with ⟨h3, h4⟩ | ⟨txt, x, r', h3, h4, h5, h6⟩
      · exact Or.inl ⟨by simpa using h3, by rw [h2, h4]; rfl⟩
      · exact Or.inr ⟨txt, c :: x, r', h3, by rw [h4]; rfl, by simpa using h5, by rw [h2, h6]; rfl⟩
    by_cases hb : c = '{' ∧ ['{'] <:+ seen
    · obtain ⟨rfl, y, rfl⟩ := hb
      have hend : ∀ u : Str, endsWith str!"{{" (u ++ ['{'] ++ ['{']) = true := by
        intro u
        rw [endsWith_two_push]; exact ⟨rfl, suffix_singleton_append_singleton.2 rfl⟩
      have htake : ∀ u : Str, (u ++ ['{'] ++ ['{']).take ((u ++ ['{'] ++ ['{']).length - 2) = u := by
        intro u
        have : (u ++ ['{'] ++ ['{']).length - 2 = u.length := by simp
        rw [this, List.append_assoc u]
        exact List.take_left
      obtain ⟨u, hu⟩ := unescape_last y '{'
      have hraw : rawText y = u := by rw [rawText, hu, List.dropLast_concat]
      by_cases he : ['\\'] <:+ y
      · obtain ⟨z, rfl⟩ := he
        have hne : ¬ str!"\\{" <:+ z ++ ['\\'] := by
          rintro ⟨a, e⟩
          have : (a ++ ['\\']) ++ ['{'] = z ++ ['\\'] := by simpa using e
          have := (List.append_inj' this rfl).2
          simp at this
        have hu' : u = unescape z ++ ['\\'] := by
          rw [unescape_snoc_brace _ hne, unescape_snoc _ _ (by decide)] at hu
          exact (List.append_inj' hu rfl).1.symm
        apply next
        · apply allEscaped_snoc h
          intro _ y' e
          have := (List.append_inj' e rfl).1
          exact ⟨z, this⟩
        · rw [hu, extractUntilGo]
          have h5 : endsWith ['\\'] u = true := by rw [endsWith_iff, hu']; exact ⟨_, rfl⟩
          simp only [hend, if_true, List.length_cons, List.length_nil]
          rw [htake]
          simp only [h5, Bool.and_self, if_true]
          have := unescape_escaped z
          rw [hu', List.dropLast_concat]
          simp only [List.append_assoc, List.cons_append, List.nil_append] at this ⊢
          rw [this]
      · right
        refine ⟨y, ['{'], r, ⟨h, he⟩, rfl, by simp, ?_⟩
        have h5 : endsWith ['\\'] u = false := by
          rw [Bool.eq_false_iff, ne_eq, endsWith_iff]
          rintro ⟨a, rfl⟩
          by_cases hs : str!"\\{" <:+ y
          · obtain ⟨z, rfl⟩ := hs
            have := unescape_escaped z
            have e2 : z ++ str!"\\{" ++ ['{'] = z ++ str!"\\{{" := by simp
            rw [e2, this] at hu
            have e3 : (unescape z ++ ['{']) ++ ['{'] = (a ++ ['\\']) ++ ['{'] := by simpa using hu
            have := (List.append_inj' (List.append_inj' e3 rfl).1 rfl).2
            simp at this
          · rw [unescape_snoc_brace _ hs] at hu
            have := (List.append_inj' hu rfl).1
            exact he (unescape_suffix.1 ⟨a, this.symm⟩)
        rw [hu, extractUntilGo]
        simp only [hend, if_true, List.length_cons, List.length_nil]
        rw [htake]
        simp only [h5, Bool.and_false, Bool.false_eq_true, if_false, hraw]
        rfl
    · apply next
      · apply allEscaped_snoc h
        intro hc y e
        exact absurd ⟨hc, y, e.symm⟩ hb
      · have hend : endsWith str!"{{" (unescape seen ++ [c]) = false := by
          rw [Bool.eq_false_iff, ne_eq, endsWith_two_push, unescape_suffix]
          exact hb
        have hun : unescape (seen ++ [c]) = unescape seen ++ [c] := by
          by_cases hc : c = '{'
          · subst hc
            apply unescape_snoc_brace
            rintro ⟨a, e⟩
            exact hb ⟨rfl, a ++ ['\\'], by simp [← e]⟩
          · exact unescape_snoc _ _ hc
        rw [extractUntilGo]
        simp only [hend, Bool.false_eq_true, if_false, hun]

theorem extractUntil_some {p p' : PSt} {raw : Str} (h : p.extractUntil str!"{{" true = (some raw, p')) :
    ∃ txt, OpensAfter txt ∧ raw = rawText txt ∧ Reads p (txt ++ str!"{{") p' := by
  rcases extractUntilGo_spec p.rest p.rest [] p.loc allEscaped_nil with ⟨_, h2⟩ | ⟨txt, x, r', h1, h2, h3, h4⟩
  · have := h.symm.trans h2
    cases this
  · have := h.symm.trans h4
    simp only [Prod.mk.injEq, Option.some.injEq] at this
    obtain ⟨rfl, rfl⟩ := this
    rw [List.nil_append] at h3
    exact ⟨txt, h1, rfl, by rw [h2, h3], by rw [h3]⟩

theorem extractUntil_none {p p' : PSt} (h : p.extractUntil str!"{{" true = (none, p')) :
    AllEscaped p.rest ∧ p'.rest = p.rest := by
  rcases extractUntilGo_spec p.rest p.rest [] p.loc allEscaped_nil with ⟨h1, h2⟩ | ⟨txt, x, r', h1, h2, h3, h4⟩
  · have := h.symm.trans h2
    simp only [Prod.mk.injEq] at this
    exact ⟨by simpa using h1, by rw [this.2]⟩
  · have := h.symm.trans h4
    cases this

theorem extractUntil_opens (txt r : Str) (loc : Loc) (h : OpensAfter txt) :
    PSt.extractUntil str!"{{" true ⟨txt ++ str!"{{" ++ r, loc⟩ =
      (some (rawText txt), ⟨r, (txt ++ str!"{{").foldl Loc.adv loc⟩) := by
  rcases extractUntilGo_spec (txt ++ str!"{{" ++ r) (txt ++ str!"{{" ++ r) [] loc allEscaped_nil with
    ⟨h1, _⟩ | ⟨txt', x, r', h1, h2, h3, h4⟩
  · exact absurd (by simpa using h1) (not_allEscaped h (r := r))
  · rw [List.nil_append] at h3
    subst h3
    obtain ⟨rfl, rfl⟩ := opensAfter_unique h h1 h2
    exact h4

theorem extractUntil_escaped (s : Str) (loc : Loc) (h : AllEscaped s) :
    PSt.extractUntil str!"{{" true ⟨s, loc⟩ = (none, ⟨s, s.foldl Loc.adv loc⟩) := by
  rcases extractUntilGo_spec s s [] loc allEscaped_nil with ⟨_, h1⟩ | ⟨txt, x, r', h1, h2, h3, h4⟩
  · exact h1
  · rw [List.nil_append] at h3
    rw [h2, h3] at h
    exact absurd h (not_allEscaped h1)

/-! ### Argument values -/

theorem decimal_chars {s : Str} {i : Int} (h : Decimal s i) :
    s ≠ [] ∧ ∀ c ∈ s, IsDigit c ∨ c = '+' ∨ c = '-' := by
  cases h with
  | plain ds h0 h => exact ⟨h0, fun c hc => Or.inl (h c hc)⟩
  | plus ds h0 h =>
    refine ⟨by simp, fun c hc => ?_⟩
    rcases List.mem_cons.1 hc with rfl | hc
    · exact Or.inr (Or.inl rfl)
    · exact Or.inl (h c hc)
  | minus ds h0 h =>
    refine ⟨by simp, fun c hc => ?_⟩
    rcases List.mem_cons.1 hc with rfl | hc
    · exact Or.inr (Or.inr rfl)
    · exact Or.inl (h c hc)

theorem digit_alnum {c : Char} (h : IsDigit c) : asciiAlnum c = true := by
  have e0 : '0'.toNat = 48 := rfl
  have e9 : '9'.toNat = 57 := rfl
  unfold IsDigit at h
  rw [e0, e9] at h
  simp only [asciiAlnum, Bool.or_eq_true, Bool.and_eq_true, decide_eq_true_eq]
  omega

theorem parseRawArg_val {U : Unicode} {s : Str} {a : RawArg} (h : ArgVal U s a) : parseRawArg U s = .ok a := by
  cases h with
  | var v hv => exact parseRawArg_src U (.var v) hv
  | str v hv => exact parseRawArg_src U (.str v) hv
  | ident _ hv => exact parseRawArg_src U (.ident s) hv
  | int _ i hd hi =>
    obtain ⟨h1, h2⟩ := decimal_head hd
    unfold parseRawArg
    rw [h1, h2, parseI32_decimal hd, if_pos hi]
    rfl

theorem val_of_parseRawArg {U : Unicode} {s : Str} {a : RawArg} (h : parseRawArg U s = .ok a) : ArgVal U s a := by
  unfold parseRawArg at h
  split at h
  · rename_i hs
    obtain ⟨v, rfl⟩ := startsWith_iff.1 hs
    simp only [List.cons_append, List.nil_append, List.drop_succ_cons, List.drop_zero] at h
    split at h
    · rename_i hv
      cases h
      exact .var v fun c hc => (isVarChar_iff U c).1 (List.all_eq_true.1 hv c hc)
    · cases h
  · split at h
    · rename_i hs
      rw [Bool.and_eq_true] at hs
      obtain ⟨v, rfl⟩ := startsWith_iff.1 hs.1
      simp only [List.cons_append, List.nil_append, List.drop_succ_cons, List.drop_zero] at h
      cases hx : stripSuffix ['"'] v with
      | none => rw [hx] at h; cases h
      | some x =>
        rw [hx] at h
        simp only at h
        split at h
        · cases h
        · rename_i hc
          cases h
          have hv : v = x ++ ['"'] := by
            obtain ⟨pre, hp⟩ := endsWith_iff.1 hs.2
            cases pre with
            | nil =>
              simp at hp
              subst hp
              cases hx
            | cons y pre =>
              simp only [List.cons_append, List.cons.injEq, List.nil_append] at hp
              obtain ⟨_, rfl⟩ := hp
              rw [stripSuffix_append] at hx
              cases hx
              rfl
          subst hv
          exact .str x fun hm => hc (contains_iff.2 hm)
    · split at h
      · rename_i i hi
        cases h
        have hd := parseI32_some hi
        have := parseI32_decimal hd
        rw [hi] at this
        split at this
        · rename_i h32; exact .int s _ hd h32
        · cases this
      · split at h
        · rename_i hb
          cases h
          exact .ident s (isIdent_iff.1 hb)
        · cases h

/-- What the scanner needs to know about a written value. -/
theorem argVal_facts {U : Unicode} {s : Str} {a : RawArg} (h : ArgVal U s a) :
    s ≠ [] ∧ argRun false s = some false ∧ (∀ c, s.head? = some c → isWs c = false) ∧
    (∀ c, s.getLast? = some c → isWs c = false) ∧ (s.head? = some '"' ∨ '=' ∉ s) := by
  cases h with
  | var v hv => exact argSrc_facts U (.var v) hv
  | str v hv => exact argSrc_facts U (.str v) hv
  | ident _ hv => exact argSrc_facts U (.ident s) hv
  | int _ i hd hi =>
    obtain ⟨hne, hc⟩ := decimal_chars hd
    have hs : ∀ c ∈ s, isWs c = false ∧ c ≠ '"' ∧ c ≠ ',' ∧ c ≠ ')' ∧ c ≠ '=' := by
      intro c hm
      rcases hc c hm with h | rfl | rfl
      · have := asciiAlnum_facts (digit_alnum h)
        exact ⟨this.1, this.2.1, this.2.2.1, this.2.2.2.1, this.2.2.2.2.1⟩
      · decide
      · decide
    refine ⟨hne, ?_, ?_, ?_, ?_⟩
    · exact argRun_plain _ _ fun c hc => ⟨(hs c hc).2.1, (hs c hc).2.2.1, (hs c hc).2.2.2.1⟩
    · intro c hc; exact (hs c (List.mem_of_head? hc)).1
    · intro c hc; exact (hs c (List.mem_of_getLast? hc)).1
    · exact Or.inr fun hc => (hs _ hc).2.2.2.2 rfl

/-! ### One argument -/

/-- The lists after one more slot. -/
def slotPos (l : List (Option Str × RawArg)) : List RawArg :=
  l.filterMap fun e => match e.1 with | none => some e.2 | some _ => none

def slotNamed (l : List (Option Str × RawArg)) : List (Str × RawArg) :=
  l.filterMap fun e => match e.1 with | none => none | some k => some (k, e.2)

theorem blank_append {w w' : Str} (h : Blank w) (h' : Blank w') : Blank (w ++ w') := by
  intro c hc
  rcases List.mem_append.1 hc with hc | hc
  · exact h c hc
  · exact h' c hc

theorem trim_blank {w : Str} (h : Blank w) : trim w = [] := by
  have := trim_core w [] [] h (by simp [Blank]) (by simp) (by simp)
  simpa using this

theorem named_core {U : Unicode} {k v : Str} {a : RawArg} (hk : k ≠ [])
    (hc : ∀ c ∈ k, U.alnum c = true ∨ c = '_') (hv : ArgVal U v a) :
    argRun false (k ++ '=' :: v) = some false ∧ (∀ c, (k ++ '=' :: v).head? = some c → isWs c = false) ∧
    (∀ c, (k ++ '=' :: v).getLast? = some c → isWs c = false) := by
  have hf := argVal_facts hv
  refine ⟨?_, ?_, ?_⟩
  · rw [argRun_append, argRun_plain]
    · show argRun false (['='] ++ v) = _
      rw [argRun_append, argRun_plain]
      · exact hf.2.1
      · decide
    · intro c hm
      have := nameChar_facts U (hc c hm)
      exact ⟨this.2.1, this.2.2.1, this.2.2.2.1⟩
  · intro c hm
    cases k with
    | nil => exact absurd rfl hk
    | cons x k =>
      simp at hm; subst hm
      exact (nameChar_facts U (hc x (by simp))).1
  · intro c hm
    apply hf.2.2.2.1
    rw [List.getLast?_append] at hm
    have : ('=' :: v).getLast? = v.getLast? := by
      cases hs : v with
      | nil => exact absurd hs hf.1
      | cons x xs => rw [List.getLast?_cons_cons]
    rw [this] at hm
    cases hg : v.getLast? with
    | none => rw [List.getLast?_eq_none_iff] at hg; exact absurd hg hf.1
    | some y => rw [hg] at hm; simpa using hm

theorem slot_run {U : Unicode} {t : Str} {l : List (Option Str × RawArg)} (h : Slot U t l) :
    argRun false t = some false := by
  cases h with
  | blank _ h => exact argRun_plain _ _ (blank_plain h)
  | pos w v w' a hw hv hw' =>
    rw [argRun_append, argRun_append, argRun_plain _ _ (blank_plain hw)]
    show ((argRun false v).bind fun q' => argRun q' w') = _
    rw [(argVal_facts hv).2.1]
    exact argRun_plain _ _ (blank_plain hw')
  | named w k v w' a hw hk hc hv hw' =>
    rw [argRun_append, argRun_append, argRun_plain _ _ (blank_plain hw)]
    show ((argRun false (k ++ '=' :: v)).bind fun q' => argRun q' w') = _
    rw [(named_core hk hc hv).1]
    exact argRun_plain _ _ (blank_plain hw')

theorem slot_add {U : Unicode} {t : Str} {l : List (Option Str × RawArg)} (h : Slot U t l) (pos : List RawArg)
    (named : List (Str × RawArg)) (hn : named = [] ∨ slotPos l = []) :
    addArg U (trim t) pos named = .ok (pos ++ slotPos l, named ++ slotNamed l) := by
  cases h with
  | blank _ h => rw [trim_blank h]; simp [addArg, looksNamed, slotPos, slotNamed]
  | pos w v w' a hw hv hw' =>
    have hf := argVal_facts hv
    rw [trim_core w v w' hw hw' hf.2.2.1 hf.2.2.2.1]
    rcases hn with rfl | hn
    · have e0 : v.isEmpty = false := by simp [hf.1]
      have e1 : looksNamed v = false := by
        rcases hf.2.2.2.2 with he | he
        · cases hs : v with
          | nil => rfl
          | cons x xs => rw [hs] at he; simp at he; simp [looksNamed, he]
        · have : v.contains '=' = false := by rw [Bool.eq_false_iff, ne_eq, contains_iff]; exact he
          rw [looksNamed.eq_def, this, Bool.and_false]
      unfold addArg
      rw [e1]
      simp [e0, parseRawArg_val hv, slotPos, slotNamed]
    · simp [slotPos] at hn
  | named w k v w' a hw hk hc hv hw' =>
    have hf := argVal_facts hv
    have hcore := named_core hk hc hv
    rw [trim_core w _ w' hw hw' hcore.2.1 hcore.2.2]
    have e1 : looksNamed (k ++ '=' :: v) = true := by
      have h1 : (k ++ '=' :: v).contains '=' = true := by rw [contains_iff]; simp
      rw [looksNamed.eq_def, h1, Bool.and_true]
      cases k with
      | nil => exact absurd rfl hk
      | cons x k =>
        have := (nameChar_facts U (hc x (by simp))).2.1
        simp [this]
    have e2 : splitFirst '=' (k ++ '=' :: v) = (k, some v) :=
      splitFirst_append _ _ _ fun hm => (nameChar_facts U (hc _ hm)).2.2.2.2.1 rfl
    have e3 : (k.isEmpty || v.isEmpty || !k.all (isNameChar U)) = false := by
      have : k.all (isNameChar U) = true := by
        rw [List.all_eq_true]; intro c hm; exact (isNameChar_iff U c).2 (hc c hm)
      simp [hk, hf.1, this]
    unfold addArg
    rw [e1, e2]
    simp [e3, parseRawArg_val hv, slotPos, slotNamed]

theorem add_slot {U : Unicode} {t : Str} {pos pos' : List RawArg} {named named' : List (Str × RawArg)}
    (h : addArg U (trim t) pos named = .ok (pos', named')) :
    ∃ l, Slot U t l ∧ (named = [] ∨ slotPos l = []) ∧ pos' = pos ++ slotPos l ∧ named' = named ++ slotNamed l := by
  obtain ⟨w, w', hw, hw', e⟩ := trim_split t
  generalize trim t = core at h e
  subst e
  unfold addArg at h
  split at h
  · split at h
    · cases h
    · rename_i k v hs
      split at h
      · cases h
      · rename_i hk
        simp only [Bool.or_eq_true, not_or, Bool.not_eq_true, List.isEmpty_eq_false_iff, Bool.not_eq_false',
          List.all_eq_true] at hk
        obtain ⟨a, h1, h2⟩ := bind_ok_iff.1 h
        cases h2
        rw [splitFirst_some hs]
        exact ⟨_, .named w k v w' a hw hk.1.1 (fun c hc => (isNameChar_iff U c).1 (hk.2 c hc))
          (val_of_parseRawArg h1) hw', Or.inr rfl, by simp [slotPos], by simp [slotNamed]⟩
  · split at h
    · split at h
      · cases h
      · rename_i hn
        obtain ⟨a, h1, h2⟩ := bind_ok_iff.1 h
        cases h2
        have hn : named = [] := by simpa using hn
        exact ⟨_, .pos w core w' a hw (val_of_parseRawArg h1) hw', Or.inl hn, by simp [slotPos], by simp [slotNamed]⟩
    · rename_i hc
      have hc : core = [] := by simpa using hc
      subst hc
      cases h
      refine ⟨[], .blank _ ?_, Or.inr rfl, by simp [slotPos], by simp [slotNamed]⟩
      rw [List.append_nil]
      exact blank_append hw hw'

/-! ### Argument lists -/

theorem trimStart_head : ∀ (s : Str) (c : Char), (trimStart s).head? = some c → isWs c = false
  | [], c, h => by simp [trimStart] at h
  | d :: s, c, h => by
    unfold trimStart at h
    split at h
    · exact trimStart_head s c h
    · rename_i hd
      simp only [List.head?_cons, Option.some.injEq] at h
      subst h
      simpa using hd

/-- One round of the loop over any closed text. -/
theorem parseArgs_round (U : Unicode) (path : Str) (n : Nat) (t : Str) (ht : argRun false t = some false)
    (pos : List RawArg) (named : List (Str × RawArg)) (c : Char) (hc : c = ',' ∨ c = ')') (r : Str) (loc : Loc) :
    parseArgs U path (n + 1) pos named ⟨t ++ c :: r, loc⟩ =
      ((addArg U (trim t) pos named).mapErr (PSt.tb ⟨c :: r, t.foldl Loc.adv loc⟩ path)).bind fun (pos, named) =>
        if c = ')' then .ok ((pos, named), ⟨r, (t ++ [c]).foldl Loc.adv loc⟩)
        else parseArgs U path n pos named ⟨r, (t ++ [c]).foldl Loc.adv loc⟩ := by
  obtain ⟨w, hw, e⟩ := trimStart_split t
  have hh := trimStart_head t
  have htrim : trim (trimStart t) = trim t := by
    unfold trim
    rw [trimStart_id _ hh]
  generalize trimStart t = t' at e hh htrim
  subst e
  have e1 : PSt.ignoreWhile isWs ⟨w ++ t' ++ c :: r, loc⟩ = ⟨t' ++ c :: r, w.foldl Loc.adv loc⟩ := by
    rw [List.append_assoc]
    apply ignoreWhile_all
    · exact hw
    · intro d hd
      cases t' with
      | nil => simp at hd; subst hd; rcases hc with rfl | rfl <;> decide
      | cons x t' => exact hh d (by simpa using hd)
  have e2 : argRun false t' = some false := by
    rw [argRun_append, argRun_plain _ _ (blank_plain hw)] at ht
    exact ht
  rw [parseArgs, e1, extractWhileS_arg _ e2 c hc]
  simp only [htrim, List.foldl_append]
  cases addArg U (trim (w ++ t')) pos named with
  | panic p => rfl
  | err e => rfl
  | ok v =>
    simp only [Res.mapErr_ok, Res.bind_ok, PSt.next]
    rcases hc with rfl | rfl <;> rfl

/-- A round that does not fail has read a closed text and a separator. -/
theorem parseArgs_round_split {U : Unicode} {path : Str} {n : Nat} {pos : List RawArg}
    {named : List (Str × RawArg)} {s : Str} {loc : Loc} {v : (List RawArg × List (Str × RawArg)) × PSt}
    (h : parseArgs U path (n + 1) pos named ⟨s, loc⟩ = .ok v) :
    ∃ t c r, s = t ++ c :: r ∧ argRun false t = some false ∧ (c = ',' ∨ c = ')') := by
  obtain ⟨w, hw, hread⟩ := ignoreWs_reads ⟨s, loc⟩
  unfold parseArgs at h
  simp only at h
  generalize PSt.ignoreWhile isWs ⟨s, loc⟩ = p1 at h hread
  have hs := extractWhileGo_reads argScan p1.rest false p1.loc
  obtain ⟨q', hrun, hstop⟩ := extractWhileGo_arg_stop p1.rest false p1.loc
  change Reads p1 _ _ at hs
  have hE : p1.extractWhileS argScan false = extractWhileGo argScan false p1.rest p1.loc := rfl
  rw [hE] at h
  generalize extractWhileGo argScan false p1.rest p1.loc = x at h hs hrun hstop
  obtain ⟨txt, p2⟩ := x
  simp only at h hs hrun hstop
  rcases hstop with hstop | ⟨rfl, c, r, hrest, hc⟩
  · obtain ⟨v', _, h2⟩ := bind_ok_iff.1 h
    simp [PSt.next, hstop] at h2
  · refine ⟨w ++ txt, c, r, ?_, ?_, hc⟩
    · have := hread.1
      simp only at this
      rw [this, hs.1, hrest]; simp
    · rw [argRun_append, argRun_plain _ _ (blank_plain hw)]; exact hrun

theorem slotPos_append (a b : List (Option Str × RawArg)) : slotPos (a ++ b) = slotPos a ++ slotPos b := by
  simp [slotPos]
theorem slotNamed_append (a b : List (Option Str × RawArg)) : slotNamed (a ++ b) = slotNamed a ++ slotNamed b := by
  simp [slotNamed]

/-- Positional arguments come before named ones. -/
def Ordered (l : List (Option Str × RawArg)) : Prop := l = argList (slotPos l) (slotNamed l)

theorem slot_one {U : Unicode} {t : Str} {l : List (Option Str × RawArg)} (h : Slot U t l) :
    l = [] ∨ (∃ a, l = [(none, a)]) ∨ ∃ k a, l = [(some k, a)] := by
  cases h with
  | blank => exact Or.inl rfl
  | pos w v w' a => exact Or.inr (Or.inl ⟨a, rfl⟩)
  | named w k v w' a => exact Or.inr (Or.inr ⟨k, a, rfl⟩)

theorem slotPos_argList (p : List RawArg) (n : List (Str × RawArg)) : slotPos (argList p n) = p := by
  unfold slotPos argList
  rw [List.filterMap_append, List.filterMap_map, List.filterMap_map]
  have e1 : p.filterMap ((fun e : Option Str × RawArg =>
      match e.1 with | none => some e.2 | some _ => none) ∘ fun a => (none, a)) = p := by
    induction p with
    | nil => rfl
    | cons a p ih => exact congrArg (a :: ·) ih
  have e2 : n.filterMap ((fun e : Option Str × RawArg =>
      match e.1 with | none => some e.2 | some _ => none) ∘ fun e => (some e.1, e.2)) = [] := by
    rw [List.filterMap_eq_nil_iff]; intro a _; rfl
  rw [e1, e2, List.append_nil]

theorem slotNamed_argList (p : List RawArg) (n : List (Str × RawArg)) : slotNamed (argList p n) = n := by
  unfold slotNamed argList
  rw [List.filterMap_append, List.filterMap_map, List.filterMap_map]
  have e1 : p.filterMap ((fun e : Option Str × RawArg =>
      match e.1 with | none => none | some k => some (k, e.2)) ∘ fun a => (none, a)) = [] := by
    rw [List.filterMap_eq_nil_iff]; intro a _; rfl
  have e2 : n.filterMap ((fun e : Option Str × RawArg =>
      match e.1 with | none => none | some k => some (k, e.2)) ∘ fun e => (some e.1, e.2)) = n := by
    induction n with
    | nil => rfl
    | cons a n ih => exact congrArg (a :: ·) ih
  rw [e1, e2, List.nil_append]

/-- Adding one slot in front of an ordered list. -/
theorem ordered_cons {U : Unicode} {t : Str} {l l' : List (Option Str × RawArg)} (h : Slot U t l) :
    Ordered (l ++ l') ↔ Ordered l' ∧ (slotNamed l = [] ∨ slotPos l' = []) := by
  rcases slot_one h with rfl | ⟨a, rfl⟩ | ⟨k, a, rfl⟩
  · simp [slotNamed]
  · simp [Ordered, slotPos, slotNamed, argList]
  · have e1 : slotPos ((some k, a) :: l') = slotPos l' := rfl
    have e2 : slotNamed ((some k, a) :: l') = (k, a) :: slotNamed l' := rfl
    have e3 : slotNamed [(some k, a)] = [(k, a)] := rfl
    rw [List.cons_append, List.nil_append, Ordered, e1, e2, e3]
    constructor
    · intro h
      cases hp : slotPos l' with
      | nil =>
        rw [hp] at h
        refine ⟨?_, Or.inr rfl⟩
        rw [Ordered, hp]
        simp only [argList, List.map_nil, List.nil_append, List.map_cons, List.cons.injEq, true_and] at h ⊢
        exact h
      | cons x xs => rw [hp] at h; simp [argList] at h
    · rintro ⟨h1, h2 | h2⟩
      · cases h2
      · rw [Ordered, h2] at h1
        rw [h2]
        simp only [argList, List.map_nil, List.nil_append, List.map_cons, List.cons.injEq, true_and] at h1 ⊢
        exact h1

/-- Writing arguments and reading them. -/
theorem parseArgs_slots (U : Unicode) (path : Str) {x : Str} {l : List (Option Str × RawArg)} (h : Slots U x l) :
    ∀ (n : Nat) (pos : List RawArg) (named : List (Str × RawArg)) (r : Str) (loc : Loc), x.length < n →
    Ordered l → (named = [] ∨ slotPos l = []) →
    parseArgs U path n pos named ⟨x ++ ')' :: r, loc⟩ =
      .ok ((pos ++ slotPos l, named ++ slotNamed l), ⟨r, (x ++ [')']).foldl Loc.adv loc⟩) := by
  induction h with
  | last h =>
    intro n pos named r loc hn _ hp
    obtain ⟨n, rfl⟩ : ∃ m, n = m + 1 := ⟨n - 1, by omega⟩
    rw [parseArgs_round U path n _ (slot_run h) pos named ')' (Or.inr rfl), slot_add h _ _ hp]
    rfl
  | cons h hs ih =>
    rename_i s r' l l'
    intro n pos named r loc hn ho hp
    obtain ⟨n, rfl⟩ : ∃ m, n = m + 1 := ⟨n - 1, by omega⟩
    obtain ⟨ho1, ho2⟩ := (ordered_cons h).1 ho
    rw [slotPos_append, List.append_eq_nil_iff] at hp
    have hp1 : named = [] ∨ slotPos l = [] := hp.imp id And.left
    have hp2 : named ++ slotNamed l = [] ∨ slotPos l' = [] := by
      rcases hp with rfl | ⟨_, h2⟩
      · exact ho2
      · exact Or.inr h2
    rw [List.append_assoc, List.cons_append,
      parseArgs_round U path n _ (slot_run h) pos named ',' (Or.inl rfl), slot_add h _ _ hp1]
    simp only [Res.mapErr_ok, Res.bind_ok]
    have : (',' : Char) ≠ ')' := by decide
    rw [if_neg this, ih n _ _ r _ (by simp at hn; omega) ho1 hp2, slotPos_append, slotNamed_append]
    simp

theorem slots_of_parseArgs (U : Unicode) (path : Str) : ∀ (n : Nat) (pos : List RawArg)
    (named : List (Str × RawArg)) (s : Str) (loc : Loc) (pos' : List RawArg) (named' : List (Str × RawArg))
    (p' : PSt), parseArgs U path n pos named ⟨s, loc⟩ = .ok ((pos', named'), p') →
    ∃ x l, Slots U x l ∧ Ordered l ∧ (named = [] ∨ slotPos l = []) ∧ pos' = pos ++ slotPos l ∧
      named' = named ++ slotNamed l ∧ Reads ⟨s, loc⟩ (x ++ [')']) p'
  | 0, _, _, _, _, _, _, _, h => by simp [parseArgs] at h
  | n + 1, pos, named, s, loc, pos', named', p', h => by
    obtain ⟨t, c, r, rfl, ht, hc⟩ := parseArgs_round_split h
    rw [parseArgs_round U path n t ht pos named c hc] at h
    obtain ⟨⟨pos1, named1⟩, h1, h2⟩ := bind_ok_iff.1 h
    cases ha : addArg U (trim t) pos named with
    | err e => rw [ha] at h1; cases h1
    | panic q => rw [ha] at h1; cases h1
    | ok v =>
      rw [ha] at h1
      cases h1
      obtain ⟨l, hs, hp, rfl, rfl⟩ := add_slot ha
      rcases hc with rfl | rfl
      · have : (',' : Char) ≠ ')' := by decide
        simp only [if_neg this] at h2
        obtain ⟨x, l', h3, h4, h5, rfl, rfl, h6⟩ := slots_of_parseArgs U path n _ _ _ _ _ _ _ h2
        refine ⟨t ++ ',' :: x, l ++ l', .cons hs h3, ?_, ?_, ?_, ?_, ?_⟩
        · rw [ordered_cons hs]
          refine ⟨h4, ?_⟩
          rcases h5 with h5 | h5
          · exact Or.inl (List.append_eq_nil_iff.1 h5).2
          · exact Or.inr h5
        · rw [slotPos_append, List.append_eq_nil_iff]
          rcases hp with hp | hp
          · exact Or.inl hp
          · rcases h5 with h5 | h5
            · exact Or.inl (List.append_eq_nil_iff.1 h5).1
            · exact Or.inr ⟨hp, h5⟩
        · rw [slotPos_append, List.append_assoc]
        · rw [slotNamed_append, List.append_assoc]
        · exact ⟨by have := h6.1; simp only at this ⊢; rw [this]; simp,
            by have := h6.2; simp only at this ⊢; rw [this, ← List.foldl_append]; simp⟩
      · simp only [if_true, Res.ok.injEq, Prod.mk.injEq] at h2
        obtain ⟨⟨rfl, rfl⟩, rfl⟩ := h2
        refine ⟨t, l, .last hs, ?_, hp, rfl, rfl, by simp, rfl⟩
        have := (ordered_cons (l' := []) hs).2 ⟨rfl, Or.inr rfl⟩
        simpa using this

/-! ### Tags -/

theorem parseTag_text {U : Unicode} {path : Str} {plugins : List PluginFns} {t : Token} {body : Str}
    (h : TagText U plugins t body) (r : Str) (loc : Loc) :
    ∃ p x w, parseTag U path plugins ⟨body ++ (str!"}}" ++ r), loc⟩ = .ok (t, p) ∧ body = x ++ w ∧ Blank w ∧
      p = ⟨w ++ (str!"}}" ++ r), x.foldl Loc.adv loc⟩ := by
  have hbr : ∀ c, (str!"}}" ++ r).head? = some c → isWs c = false := by
    intro c hc; simp at hc; subst hc; decide
  cases h with
  | var n w hn hc hw =>
    refine ⟨_, '$' :: n, w, ?_, rfl, hw, rfl⟩
    have e1 := expect_ok path ['$'] (n ++ (w ++ (str!"}}" ++ r))) loc
    have e2 := extractWhile_all (isVarChar U) n (w ++ (str!"}}" ++ r)) (['$'].foldl Loc.adv loc)
      (fun c h => (isVarChar_iff U c).2 (hc c h)) (by
        intro c hc
        rcases head_blank_append hw hc with hc | hc
        · exact isVarChar_false_of_ws U hc
        · simp at hc; subst hc
          rw [Bool.eq_false_iff]
          intro h2
          rcases (isVarChar_iff U _).1 h2 with h3 | h3 | h3
          · exact not_alnum U '}' (by decide) (by decide) h3
          · revert h3; decide
          · revert h3; decide)
    have e3 : n.isEmpty = false := by simp [hn]
    have hp : PSt.peek ⟨'$' :: n ++ w ++ (str!"}}" ++ r), loc⟩ = some '$' := rfl
    have hsrc : '$' :: n ++ w ++ (str!"}}" ++ r) = ['$'] ++ (n ++ (w ++ (str!"}}" ++ r))) := by simp
    unfold parseTag
    rw [hp]
    simp only
    unfold parseVariable
    rw [hsrc, e1]
    simp only [Res.bind_ok, e2, e3, Bool.false_eq_true, if_false]
    rfl
  | func f name gap args w pos named hn hc hg hs hw hd =>
    refine ⟨⟨str!"}}" ++ r, (name ++ gap ++ '(' :: args ++ ')' :: w).foldl Loc.adv loc⟩,
      name ++ gap ++ '(' :: args ++ ')' :: w, [], ?_, by simp, by simp [Blank], by simp⟩
    have hsrc : name ++ gap ++ '(' :: args ++ ')' :: w ++ (str!"}}" ++ r) =
        name ++ (gap ++ (['('] ++ (args ++ ')' :: (w ++ (str!"}}" ++ r))))) := by simp
    have e1 := extractWhile_all (isFnChar U) name (gap ++ (['('] ++ (args ++ ')' :: (w ++ (str!"}}" ++ r))))) loc
      (fun d hm => (isFnChar_iff U d).2 (hc d hm)) (by
        intro d hm
        rcases head_blank_append hg hm with hm | hm
        · exact isFnChar_false_of_ws U hm
        · simp at hm; subst hm
          rw [Bool.eq_false_iff]
          intro h2
          rcases (isFnChar_iff U _).1 h2 with h3 | h3 | h3
          · exact not_alnum U '(' (by decide) (by decide) h3
          · revert h3; decide
          · revert h3; decide)
    have e2 := ignoreWhile_all isWs gap (['('] ++ (args ++ ')' :: (w ++ (str!"}}" ++ r))))
      (name.foldl Loc.adv loc) hg (by intro d hm; simp at hm; subst hm; decide)
    have e3 := expect_ok path ['('] (args ++ ')' :: (w ++ (str!"}}" ++ r)))
      (gap.foldl Loc.adv (name.foldl Loc.adv loc))
    have hord : Ordered (argList pos named) := by
      rw [Ordered, slotPos_argList, slotNamed_argList]
    have e4 := parseArgs_slots U path hs ((args ++ ')' :: (w ++ (str!"}}" ++ r))).length + 1) [] []
      (w ++ (str!"}}" ++ r)) (['('].foldl Loc.adv (gap.foldl Loc.adv (name.foldl Loc.adv loc)))
      (by simp; omega) hord (Or.inl rfl)
    rw [slotPos_argList, slotNamed_argList, List.nil_append, List.nil_append] at e4
    have e5 := ignoreWhile_all isWs w (str!"}}" ++ r)
      ((args ++ [')']).foldl Loc.adv (['('].foldl Loc.adv (gap.foldl Loc.adv (name.foldl Loc.adv loc)))) hw hbr
    have e6 : name.isEmpty = false := by simp [hn]
    have e7 := denotes_resolves hd
    obtain ⟨x, xs, hx⟩ : ∃ x xs, name = x :: xs := by
      cases hn' : name with
      | nil => exact absurd hn' hn
      | cons x xs => exact ⟨x, xs, rfl⟩
    have hxd : x ≠ '$' := by
      rintro rfl
      rcases hc '$' (by simp [hx]) with h3 | h3 | h3
      · exact not_alnum U '$' (by decide) (by decide) h3
      · revert h3; decide
      · revert h3; decide
    have hp : PSt.peek ⟨name ++ gap ++ '(' :: args ++ ')' :: w ++ (str!"}}" ++ r), loc⟩ = some x := by
      rw [hx]; rfl
    unfold parseTag
    split
    · rename_i h1
      rw [hp] at h1
      exact absurd (Option.some.inj h1) hxd
    · unfold parseFunction
      rw [hsrc, e1]
      simp only [e6, Bool.false_eq_true, if_false]
      rw [e2, e3]
      simp only [Res.bind_ok]
      rw [e4]
      simp only [Res.bind_ok, e5, e7, Res.mapErr_ok]
      simp only [List.foldl_append, List.foldl_cons, List.foldl_nil]
    · rename_i h1; rw [hp] at h1; cases h1

theorem tagText_append {U : Unicode} {plugins : List PluginFns} {t : Token} {body w : Str}
    (h : TagText U plugins t body) (hw : Blank w) : TagText U plugins t (body ++ w) := by
  cases h with
  | var n w' hn hc hw' =>
    rw [List.append_assoc]
    exact .var n _ hn hc (blank_append hw' hw)
  | func f name gap args w' pos named hn hc hg hs hw' hd =>
    have : name ++ gap ++ '(' :: args ++ ')' :: w' ++ w = name ++ gap ++ '(' :: args ++ ')' :: (w' ++ w) := by simp
    rw [this]
    exact .func f name gap args _ pos named hn hc hg hs (blank_append hw' hw) hd

theorem text_of_parseTag {U : Unicode} {path : Str} {plugins : List PluginFns} {p p' : PSt} {t : Token}
    (h : parseTag U path plugins p = .ok (t, p')) : ∃ x, TagText U plugins t x ∧ Reads p x p' := by
  unfold parseTag at h
  split at h
  · unfold parseVariable at h
    obtain ⟨⟨u, p1⟩, h1, h⟩ := bind_ok_iff.1 h
    have r1 := expect_reads h1
    have r2 := extractWhile_reads (isVarChar U) p1
    have hc := extractWhile_true (isVarChar U) p1
    simp only at h
    generalize p1.extractWhile (isVarChar U) = x at h r2 hc
    obtain ⟨name, p2⟩ := x
    simp only at h r2 hc
    split at h
    · cases h
    · rename_i hne
      cases h
      refine ⟨_, .var name [] ?_ (fun c hm => (isVarChar_iff U c).1 (hc c hm)) (by simp [Blank]), ?_⟩
      · intro e; exact hne (by simp [e])
      · have := r1.trans r2
        simpa using this
  · unfold parseFunction at h
    have r1 := extractWhile_reads (isFnChar U) p
    have hc := extractWhile_true (isFnChar U) p
    generalize p.extractWhile (isFnChar U) = x at h r1 hc
    obtain ⟨name, p1⟩ := x
    simp only at h r1 hc
    split at h
    · cases h
    · rename_i hne
      obtain ⟨w, hw, r2⟩ := ignoreWs_reads p1
      generalize p1.ignoreWhile isWs = p2 at h r2
      obtain ⟨⟨u, p3⟩, h3, h⟩ := bind_ok_iff.1 h
      have r3 := expect_reads h3
      obtain ⟨⟨⟨pos, named⟩, p4⟩, h4, h⟩ := bind_ok_iff.1 h
      obtain ⟨x, l, hs, ho, _, hpos, hnamed, r4⟩ := slots_of_parseArgs U path _ _ _ _ _ _ _ _ h4
      rw [List.nil_append] at hpos hnamed
      subst hpos
      subst hnamed
      simp only at h
      obtain ⟨w2, hw2, r5⟩ := ignoreWs_reads p4
      generalize p4.ignoreWhile isWs = p5 at h r5
      split at h
      · rename_i r hr
        obtain ⟨f, h6, h7⟩ := bind_ok_iff.1 h
        cases h7
        cases r with
        | err e => cases h6
        | panic q => cases h6
        | ok g =>
          cases h6
          rw [ho] at hs
          refine ⟨_, .func _ name w x w2 _ _ ?_ (fun c hm => (isFnChar_iff U c).1 (hc c hm)) hw hs hw2
            (resolves_denotes hr), ?_⟩
          · intro e; exact hne (by simp [e])
          · have := (((r1.trans r2).trans r3).trans r4).trans r5
            simpa using this
      · cases h
  · cases h

/-! ### Files -/

theorem rawTok_rawAt (path pre s : Str) : rawTok path s (lineAt pre) (colAt pre) = rawAt path pre s := by
  unfold rawTok rawAt
  cases s <;> simp

theorem tagText_head {U : Unicode} {plugins : List PluginFns} {t : Token} {body : Str}
    (h : TagText U plugins t body) (r : Str) : ∀ c, (body ++ r).head? = some c → isWs c = false := by
  intro c hc
  cases h with
  | var n w => simp at hc; subst hc; decide
  | func f name gap args w pos named hn hch =>
    cases name with
    | nil => exact absurd rfl hn
    | cons x xs =>
      simp at hc; subst hc
      exact not_ws_of_fnChar U (hch x (by simp))

/-- The grammar is followed by the main loop. -/
theorem parseHtmlGo_parses (U : Unicode) (path : Str) (plugins : List PluginFns) {pre s : Str} {toks' : List LTok}
    (h : Parses U path plugins pre s toks') : ∀ (n : Nat) (toks : List LTok) (loc : Loc), s.length < n →
    loc = pre.foldl Loc.adv Loc.start →
    parseHtmlGo U path plugins n toks (lineAt pre) (colAt pre) ⟨s, loc⟩ = .ok (toks ++ toks') := by
  induction h with
  | last pre rest h =>
    intro n toks loc hn hloc
    obtain ⟨n, rfl⟩ : ∃ m, n = m + 1 := ⟨n - 1, by omega⟩
    rw [parseHtmlGo, extractUntil_escaped _ _ h]
    simp only [PSt.extractRemaining, if_true, replaceAll_unescape, rawTok_rawAt]
  | tag pre txt ws body rest toks' t ho hw ht hp ih =>
    intro n toks loc hn hloc
    obtain ⟨n, rfl⟩ : ∃ m, n = m + 1 := ⟨n - 1, by omega⟩
    have hsrc : txt ++ str!"{{" ++ ws ++ body ++ str!"}}" ++ rest =
        txt ++ str!"{{" ++ (ws ++ (body ++ (str!"}}" ++ rest))) := by simp
    have e1 := ignoreWhile_all isWs ws (body ++ (str!"}}" ++ rest)) ((txt ++ str!"{{").foldl Loc.adv loc) hw
      (tagText_head ht _)
    obtain ⟨p, x, w, e2, rfl, hw2, rfl⟩ := parseTag_text (path := path) ht rest
      (ws.foldl Loc.adv ((txt ++ str!"{{").foldl Loc.adv loc))
    have e3 := ignoreWhile_all isWs w (str!"}}" ++ rest)
      (x.foldl Loc.adv (ws.foldl Loc.adv ((txt ++ str!"{{").foldl Loc.adv loc))) hw2
      (by intro c hc; simp at hc; subst hc; decide)
    have e4 := expect_ok path str!"}}" rest
      (w.foldl Loc.adv (x.foldl Loc.adv (ws.foldl Loc.adv ((txt ++ str!"{{").foldl Loc.adv loc))))
    have hl2 : ws.foldl Loc.adv ((txt ++ str!"{{").foldl Loc.adv loc) =
        (pre ++ txt ++ str!"{{" ++ ws).foldl Loc.adv Loc.start := by
      rw [hloc]; simp only [List.foldl_append]
    have hl5 : str!"}}".foldl Loc.adv (w.foldl Loc.adv (x.foldl Loc.adv
        (ws.foldl Loc.adv ((txt ++ str!"{{").foldl Loc.adv loc)))) =
        (pre ++ txt ++ str!"{{" ++ ws ++ (x ++ w) ++ str!"}}").foldl Loc.adv Loc.start := by
      rw [hloc]; simp only [List.foldl_append]
    rw [hsrc, parseHtmlGo, extractUntil_opens _ _ _ ho]
    simp only
    rw [e1, e2]
    simp only [Res.bind_ok]
    rw [e3, e4]
    simp only [Res.bind_ok]
    rw [hl5, foldl_adv_line, foldl_adv_col, ih n _ _ (by simp at hn ⊢; omega) rfl, hl2, foldl_adv_line,
      foldl_adv_col, rawTok_rawAt]
    simp

/-- The main loop follows the grammar. -/
theorem parses_of_parseHtmlGo (U : Unicode) (path : Str) (plugins : List PluginFns) : ∀ (n : Nat)
    (toks : List LTok) (pre : Str) (p : PSt) (res : List LTok), p.loc = pre.foldl Loc.adv Loc.start →
    parseHtmlGo U path plugins n toks (lineAt pre) (colAt pre) p = .ok res →
    ∃ toks', res = toks ++ toks' ∧ Parses U path plugins pre p.rest toks'
  | 0, _, _, _, _, _, h => by simp [parseHtmlGo] at h
  | n + 1, toks, pre, p, res, hloc, h => by
    unfold parseHtmlGo at h
    split at h
    · rename_i p1 h1
      obtain ⟨h2, h3⟩ := extractUntil_none h1
      simp only [PSt.extractRemaining, if_true, replaceAll_unescape, h3, rawTok_rawAt, Res.ok.injEq] at h
      exact ⟨_, h.symm, .last _ _ h2⟩
    · rename_i raw p1 h1
      obtain ⟨txt, ho, rfl, r1⟩ := extractUntil_some h1
      obtain ⟨ws, hws, r2⟩ := ignoreWs_reads p1
      simp only at h
      generalize p1.ignoreWhile isWs = p2 at h r2
      obtain ⟨⟨tok, p3⟩, h3, h⟩ := bind_ok_iff.1 h
      obtain ⟨body, hbody, r3⟩ := text_of_parseTag h3
      obtain ⟨w2, hw2, r4⟩ := ignoreWs_reads p3
      simp only at h
      generalize p3.ignoreWhile isWs = p4 at h r4
      obtain ⟨⟨u, p5⟩, h5, h⟩ := bind_ok_iff.1 h
      have r5 := expect_reads h5
      have rr := ((((r1.trans r2).trans r3).trans r4).trans r5)
      have hloc2 : p2.loc = (pre ++ txt ++ str!"{{" ++ ws).foldl Loc.adv Loc.start := by
        rw [(r1.trans r2).2, hloc, ← List.foldl_append]
        simp
      have hloc5 : p5.loc = (pre ++ txt ++ str!"{{" ++ ws ++ (body ++ w2) ++ str!"}}").foldl Loc.adv Loc.start := by
        rw [rr.2, hloc, ← List.foldl_append]
        simp
      have hrest : p.rest = txt ++ str!"{{" ++ ws ++ (body ++ w2) ++ str!"}}" ++ p5.rest := by
        rw [rr.1]; simp
      have hl5 : p5.loc.line = lineAt (pre ++ txt ++ str!"{{" ++ ws ++ (body ++ w2) ++ str!"}}") := by
        rw [hloc5, foldl_adv_line]
      have hc5 : p5.loc.col = colAt (pre ++ txt ++ str!"{{" ++ ws ++ (body ++ w2) ++ str!"}}") := by
        rw [hloc5, foldl_adv_col]
      simp only [hl5, hc5] at h
      obtain ⟨toks', he, hp⟩ := parses_of_parseHtmlGo U path plugins n _ _ p5 res hloc5 h
      have ht := Parses.tag pre txt ws (body ++ w2) p5.rest toks' tok ho hws (tagText_append hbody hw2) hp
      rw [← hrest] at ht
      refine ⟨_, ?_, ht⟩
      rw [he, hloc2, foldl_adv_line, foldl_adv_col, rawTok_rawAt]
      simp

theorem parseHtml_iff (U : Unicode) (path : Str) (plugins : List PluginFns) (input : Str) (toks : List LTok) :
    parseHtml U path plugins input = .ok toks ↔ Parses U path plugins [] input toks := by
  constructor
  · intro h
    obtain ⟨toks', rfl, hp⟩ := parses_of_parseHtmlGo U path plugins _ [] [] (PSt.init input) toks rfl h
    exact hp
  · intro h
    exact parseHtmlGo_parses U path plugins h _ [] Loc.start (by omega) rfl

end Stuart
