import Verif.Proof.Text
/-
Helper lemmas: numbers and argument lists.
-/
namespace Stuart
open Spec

/-! ### Decimal numbers -/

theorem digitVal_digitChar : ∀ d, d < 10 → digitVal (digitChar d) = some d := by decide

theorem digitsGo_natDigitsGo : ∀ (f n : Nat) (acc : Str), n < f →
    digitsGo 0 (natDigitsGo f n acc) = digitsGo n acc
  | 0, n, acc, h => absurd h (by omega)
  | f + 1, n, acc, h => by
    unfold natDigitsGo
    split
    · rename_i hn
      simp [digitsGo, digitVal_digitChar n hn]
    · rename_i hn
      rw [digitsGo_natDigitsGo f (n / 10) _ (by omega)]
      simp only [digitsGo, digitVal_digitChar (n % 10) (by omega)]
      congr 1
      omega

theorem natDigitsGo_ne_nil : ∀ (f n : Nat) (acc : Str), n < f → natDigitsGo f n acc ≠ []
  | 0, n, acc, h => absurd h (by omega)
  | f + 1, n, acc, h => by
    unfold natDigitsGo
    split
    · simp
    · exact natDigitsGo_ne_nil f (n / 10) _ (by omega)

theorem natDigitsGo_digits : ∀ (f n : Nat) (acc : Str), (∀ c ∈ acc, ∃ d, d < 10 ∧ c = digitChar d) →
    ∀ c ∈ natDigitsGo f n acc, ∃ d, d < 10 ∧ c = digitChar d
  | 0, _, _, h => h
  | f + 1, n, acc, h => by
    unfold natDigitsGo
    split
    · rename_i hn
      intro c hc
      rcases List.mem_cons.1 hc with rfl | hc
      · exact ⟨n, hn, rfl⟩
      · exact h c hc
    · apply natDigitsGo_digits f
      intro c hc
      rcases List.mem_cons.1 hc with rfl | hc
      · exact ⟨n % 10, by omega, rfl⟩
      · exact h c hc

theorem digitsGo_natToStr (n : Nat) : digitsGo 0 (natToStr n) = some n := by
  unfold natToStr
  rw [digitsGo_natDigitsGo _ _ _ (by omega)]
  rfl

theorem natToStr_ne_nil (n : Nat) : natToStr n ≠ [] := natDigitsGo_ne_nil _ _ _ (by omega)

theorem natToStr_digits (n : Nat) : ∀ c ∈ natToStr n, ∃ d, d < 10 ∧ c = digitChar d :=
  natDigitsGo_digits _ _ _ (by simp)

theorem parseDigits_natToStr (n : Nat) : parseDigits (natToStr n) = some n := by
  have h1 := natToStr_ne_nil n
  have h2 := digitsGo_natToStr n
  cases h : natToStr n with
  | nil => exact absurd h h1
  | cons c cs => rw [h] at h2; exact h2

theorem digitChar_facts : ∀ d, d < 10 → asciiAlnum (digitChar d) = true ∧ (digitChar d).toNat < 128 ∧
    digitChar d ≠ '-' ∧ digitChar d ≠ '+' := by decide

/-- A digit string is parsed as its digits, without a sign. -/
theorem parseI32_unsigned (c : Char) (cs : Str) (h1 : c ≠ '-') (h2 : c ≠ '+') :
    parseI32 (c :: cs) = ((parseDigits (c :: cs)).map fun (n : Nat) => (n : Int)).bind fun i =>
      if -2147483648 ≤ i ∧ i ≤ 2147483647 then some i else none := by
  unfold parseI32
  split
  · rename_i he; simp at he; exact absurd he.1 h1
  · rename_i he; simp at he; exact absurd he.1 h2
  · rfl

theorem parseI32_natToStr (n : Nat) :
    parseI32 (natToStr n) = if (n : Int) ≤ 2147483647 then some (n : Int) else none := by
  have h1 := natToStr_ne_nil n
  have h2 := parseDigits_natToStr n
  have h3 := natToStr_digits n
  cases h : natToStr n with
  | nil => exact absurd h h1
  | cons c cs =>
    rw [h] at h2 h3
    obtain ⟨d, hd, rfl⟩ := h3 c (by simp)
    have hf := digitChar_facts d hd
    rw [parseI32_unsigned _ _ hf.2.2.1 hf.2.2.2, h2]
    show (if -2147483648 ≤ (n : Int) ∧ (n : Int) ≤ 2147483647 then some (n : Int) else none) = _
    congr 1
    apply propext; omega

theorem parseI32_intToStr (i : Int) :
    parseI32 (intToStr i) = if -2147483648 ≤ i ∧ i ≤ 2147483647 then some i else none := by
  unfold intToStr
  split
  · rename_i hi
    have h2 := parseDigits_natToStr i.natAbs
    show (((parseDigits (natToStr i.natAbs)).map fun (n : Nat) => -(n : Int)).bind fun i =>
      if -2147483648 ≤ i ∧ i ≤ 2147483647 then some i else none) = _
    rw [h2]
    have : -(i.natAbs : Int) = i := by omega
    simp [this]
  · rename_i hi
    rw [parseI32_natToStr]
    have : (i.natAbs : Int) = i := by omega
    rw [this]
    congr 1
    apply propext; omega

/-- Characters of a decimal integer. -/
theorem intToStr_chars (i : Int) : ∀ c ∈ intToStr i, (asciiAlnum c = true ∧ c.toNat < 128) ∨ c = '-' := by
  intro c hc
  have key : ∀ c ∈ natToStr i.natAbs, asciiAlnum c = true ∧ c.toNat < 128 := by
    intro c hc
    obtain ⟨d, hd, rfl⟩ := natToStr_digits _ c hc
    have := digitChar_facts d hd
    exact ⟨this.1, this.2.1⟩
  unfold intToStr at hc
  split at hc
  · rcases List.mem_cons.1 hc with rfl | hc
    · exact Or.inr rfl
    · exact Or.inl (key c hc)
  · exact Or.inl (key c hc)

theorem intToStr_ne_nil (i : Int) : intToStr i ≠ [] := by
  unfold intToStr
  split
  · simp
  · exact natToStr_ne_nil _

/-! ### Scanning one argument -/

/-- Run the argument scanner over text; `none` if it would stop inside. -/
def argRun : Bool → Str → Option Bool
  | q, [] => some q
  | q, c :: cs => match argScan q c with
    | (q', true) => argRun q' cs
    | (_, false) => none

theorem argRun_append (q : Bool) : ∀ (a b : Str), argRun q (a ++ b) = (argRun q a).bind fun q' => argRun q' b := by
  intro a
  induction a generalizing q with
  | nil => intro b; simp [argRun]
  | cons c a ih =>
    intro b
    simp only [List.cons_append, argRun]
    split
    · exact ih _ b
    · rfl

theorem extractWhileGo_argRun : ∀ (a : Str) (q q' : Bool) (r : Str) (loc : Loc), argRun q a = some q' →
    extractWhileGo argScan q (a ++ r) loc =
      ((a ++ (extractWhileGo argScan q' r (a.foldl Loc.adv loc)).1),
        (extractWhileGo argScan q' r (a.foldl Loc.adv loc)).2)
  | [], q, q', r, loc, h => by simp [argRun] at h; simp [h]
  | c :: a, q, q', r, loc, h => by
    simp only [argRun] at h
    cases hs : argScan q c with
    | mk q1 b =>
      rw [hs] at h
      cases b with
      | false => simp at h
      | true =>
        simp only at h
        have ih := extractWhileGo_argRun a q1 q' r (loc.adv c) h
        simp only [List.cons_append, extractWhileGo, hs, ih, List.foldl_cons]

theorem argRun_plain (q : Bool) : ∀ (a : Str), (∀ c ∈ a, c ≠ '"' ∧ c ≠ ',' ∧ c ≠ ')') → argRun q a = some q
  | [], _ => rfl
  | c :: a, h => by
    have hc := h c (by simp)
    have ih := argRun_plain q a (fun d hd => h d (by simp [hd]))
    have : argScan q c = (q, true) := by
      simp [argScan, hc.1, hc.2.1, hc.2.2]
    simp [argRun, this, ih]

theorem argRun_inQuote : ∀ (a : Str), '"' ∉ a → argRun true a = some true
  | [], _ => rfl
  | c :: a, h => by
    have hc : c ≠ '"' := by rintro rfl; exact h (by simp)
    have ih := argRun_inQuote a (fun hd => h (by simp [hd]))
    have : argScan true c = (true, true) := by simp [argScan, hc]
    simp [argRun, this, ih]

theorem argRun_quoted (s : Str) (h : '"' ∉ s) : argRun false ('"' :: (s ++ ['"'])) = some false := by
  have h1 : argScan false '"' = (true, true) := by decide
  simp only [argRun, h1]
  rw [argRun_append, argRun_inQuote s h]
  decide

/-- Scanning a closed argument stops exactly at the separator after it. -/
theorem extractWhileS_arg (a : Str) (h : argRun false a = some false) (c : Char) (hc : c = ',' ∨ c = ')')
    (r : Str) (loc : Loc) :
    PSt.extractWhileS argScan false ⟨a ++ c :: r, loc⟩ = (a, ⟨c :: r, a.foldl Loc.adv loc⟩) := by
  unfold PSt.extractWhileS
  simp only
  rw [extractWhileGo_argRun a false false _ _ h]
  have : argScan false c = (false, false) := by rcases hc with rfl | rfl <;> decide
  simp [extractWhileGo, this]

/-! ### Well-formed arguments -/

theorem builtin_chars : ∀ s ∈ builtinNames, ∀ c ∈ s, asciiAlnum c = true ∧ c.toNat < 128 := by decide

theorem builtin_ne_nil : ∀ s ∈ builtinNames, s ≠ [] := by decide

theorem asciiAlnum_facts {c : Char} (h : asciiAlnum c = true) :
    isWs c = false ∧ c ≠ '"' ∧ c ≠ ',' ∧ c ≠ ')' ∧ c ≠ '=' ∧ c ≠ '$' := by
  refine ⟨?_, ?_, ?_, ?_, ?_, ?_⟩
  · rw [Bool.eq_false_iff]
    intro hw
    have := Unicode.asciiOnly.notWs c hw
    change asciiAlnum c = false at this
    rw [h] at this; cases this
  all_goals (rintro rfl; revert h; decide)

theorem alnum_facts (U : Unicode) {c : Char} (h : U.alnum c = true) :
    isWs c = false ∧ c ≠ '"' ∧ c ≠ ',' ∧ c ≠ ')' ∧ c ≠ '=' ∧ c ≠ '$' := by
  refine ⟨?_, ?_, ?_, ?_, ?_, ?_⟩
  · rw [Bool.eq_false_iff]
    intro hw
    rw [U.notWs c hw] at h; cases h
  all_goals exact ne_of_alnum U _ (by decide) (by decide) h

theorem nameChar_facts (U : Unicode) {c : Char} (h : U.alnum c = true ∨ c = '_') :
    isWs c = false ∧ c ≠ '"' ∧ c ≠ ',' ∧ c ≠ ')' ∧ c ≠ '=' ∧ c ≠ '$' := by
  rcases h with h | rfl
  · exact alnum_facts U h
  · decide

theorem varChar_facts (U : Unicode) {c : Char} (h : U.alnum c = true ∨ c = '_' ∨ c = '.') :
    isWs c = false ∧ c ≠ '"' ∧ c ≠ ',' ∧ c ≠ ')' ∧ c ≠ '=' ∧ c ≠ '$' := by
  rcases h with h | rfl | rfl
  · exact alnum_facts U h
  · decide
  · decide

/-- What the scanner needs to know about a written argument value. -/
theorem argSrc_facts (U : Unicode) (a : RawArg) (h : ArgWF U a) :
    argSrc a ≠ [] ∧ argRun false (argSrc a) = some false ∧
    (∀ c, (argSrc a).head? = some c → isWs c = false) ∧
    (∀ c, (argSrc a).getLast? = some c → isWs c = false) ∧
    ((argSrc a).head? = some '"' ∨ '=' ∉ argSrc a) := by
  have plain : ∀ s : Str, s ≠ [] → (∀ c ∈ s, isWs c = false ∧ c ≠ '"' ∧ c ≠ ',' ∧ c ≠ ')' ∧ c ≠ '=') →
      s ≠ [] ∧ argRun false s = some false ∧ (∀ c, s.head? = some c → isWs c = false) ∧
      (∀ c, s.getLast? = some c → isWs c = false) ∧ (s.head? = some '"' ∨ '=' ∉ s) := by
    intro s hne hs
    refine ⟨hne, ?_, ?_, ?_, ?_⟩
    · exact argRun_plain _ _ fun c hc => ⟨(hs c hc).2.1, (hs c hc).2.2.1, (hs c hc).2.2.2.1⟩
    · intro c hc; exact (hs c (List.mem_of_head? hc)).1
    · intro c hc; exact (hs c (List.mem_of_getLast? hc)).1
    · exact Or.inr fun hc => (hs _ hc).2.2.2.2 rfl
  cases a with
  | var s =>
    apply plain
    · simp [argSrc]
    · intro c hc
      rcases List.mem_cons.1 hc with rfl | hc
      · decide
      · have := varChar_facts U (h c hc)
        exact ⟨this.1, this.2.1, this.2.2.1, this.2.2.2.1, this.2.2.2.2.1⟩
  | ident s =>
    apply plain
    · exact builtin_ne_nil s h
    · intro c hc
      have := asciiAlnum_facts (builtin_chars s h c hc).1
      exact ⟨this.1, this.2.1, this.2.2.1, this.2.2.2.1, this.2.2.2.2.1⟩
  | int i =>
    apply plain
    · exact intToStr_ne_nil i
    · intro c hc
      rcases intToStr_chars i c hc with hc | rfl
      · have := asciiAlnum_facts hc.1
        exact ⟨this.1, this.2.1, this.2.2.1, this.2.2.2.1, this.2.2.2.2.1⟩
      · decide
  | str s =>
    refine ⟨by simp [argSrc], argRun_quoted s h, ?_, ?_, Or.inl rfl⟩
    · intro c hc
      simp only [argSrc, List.head?_cons, Option.some.injEq] at hc
      subst hc; decide
    · intro c hc
      have e : argSrc (.str s) = ('"' :: s) ++ ['"'] := rfl
      rw [e, List.getLast?_append] at hc
      simp at hc
      subst hc; decide

theorem contains_iff {s : Str} {c : Char} : s.contains c = true ↔ c ∈ s := by
  simp

theorem startsWith_single {a c : Char} {s : Str} : startsWith [a] (c :: s) = (a == c) := by
  simp [startsWith, List.isPrefixOf]

theorem stripPrefix_append : ∀ (p s : Str), stripPrefix p (p ++ s) = some s
  | [], _ => rfl
  | c :: p, s => by simp [stripPrefix, stripPrefix_append p s]

theorem stripSuffix_append (p s : Str) : stripSuffix p (s ++ p) = some s := by
  simp [stripSuffix, stripPrefix_append]

theorem isIdent_iff {s : Str} : isIdent s = true ↔ s ∈ builtinNames := by
  simp [isIdent, List.any_eq_true]

theorem parseI32_builtin : ∀ s ∈ builtinNames, parseI32 s = none := by decide

theorem parseRawArg_src (U : Unicode) (a : RawArg) (h : ArgWF U a) : parseRawArg U (argSrc a) = .ok a := by
  cases a with
  | var s =>
    have : s.all (isVarChar U) = true := by
      rw [List.all_eq_true]; intro c hc; exact (isVarChar_iff U c).2 (h c hc)
    simp [parseRawArg, argSrc, startsWith_single, this]
  | str s =>
    have e1 : startsWith ['$'] ('"' :: (s ++ ['"'])) = false := by rw [startsWith_single]; decide
    have e2 : startsWith ['"'] ('"' :: (s ++ ['"'])) = true := by rw [startsWith_single]; decide
    have e3 : endsWith ['"'] ('"' :: (s ++ ['"'])) = true := by
      rw [endsWith_iff]; exact ⟨'"' :: s, rfl⟩
    have e4 : s.contains '"' = false := by
      rw [Bool.eq_false_iff, ne_eq, contains_iff]; exact h
    simp only [parseRawArg, argSrc, e1, e2, e3, Bool.and_self, if_true, Bool.false_eq_true, if_false,
      List.drop_succ_cons, List.drop_zero, stripSuffix_append, e4]
  | ident s =>
    have hb := builtin_chars s h
    have hi := parseI32_builtin s h
    cases hs : s with
    | nil => exact absurd hs (builtin_ne_nil s h)
    | cons c cs =>
      have hf := asciiAlnum_facts (hb c (by simp [hs])).1
      have e1 : startsWith ['$'] (c :: cs) = false := by
        rw [startsWith_single]; simp; exact fun e => hf.2.2.2.2.2 e.symm
      have e2 : startsWith ['"'] (c :: cs) = false := by
        rw [startsWith_single]; simp; exact fun e => hf.2.1 e.symm
      have e3 : isIdent (c :: cs) = true := by rw [isIdent_iff, ← hs]; exact h
      rw [hs] at hi
      simp [parseRawArg, argSrc, e1, e2, hi, e3]
  | int i =>
    have hi := parseI32_intToStr i
    rw [if_pos (show -2147483648 ≤ i ∧ i ≤ 2147483647 from h)] at hi
    cases hs : intToStr i with
    | nil => exact absurd hs (intToStr_ne_nil i)
    | cons c cs =>
      have hc : c ≠ '$' ∧ c ≠ '"' := by
        rcases intToStr_chars i c (by simp [hs]) with hc | rfl
        · have := asciiAlnum_facts hc.1; exact ⟨this.2.2.2.2.2, this.2.1⟩
        · decide
      have e1 : startsWith ['$'] (c :: cs) = false := by
        rw [startsWith_single]; simp; exact fun e => hc.1 e.symm
      have e2 : startsWith ['"'] (c :: cs) = false := by
        rw [startsWith_single]; simp; exact fun e => hc.2 e.symm
      rw [hs] at hi
      simp [parseRawArg, argSrc, hs, e1, e2, hi]

theorem splitFirst_append (d : Char) : ∀ (k v : Str), d ∉ k → splitFirst d (k ++ d :: v) = (k, some v)
  | [], v, _ => by simp [splitFirst]
  | c :: k, v, h => by
    have hc : c ≠ d := by rintro rfl; exact h (by simp)
    have ih := splitFirst_append d k v (fun hd => h (by simp [hd]))
    simp [splitFirst, hc, ih]

/-- What the scanner needs to know about an argument. -/
theorem core_facts (U : Unicode) (a : ArgL) (h : a.WF U) :
    a.core ≠ [] ∧ argRun false a.core = some false ∧
    (∀ c, a.core.head? = some c → isWs c = false) ∧ (∀ c, a.core.getLast? = some c → isWs c = false) := by
  have hv := argSrc_facts U a.val h.val
  unfold ArgL.core
  split
  · exact ⟨hv.1, hv.2.1, hv.2.2.1, hv.2.2.2.1⟩
  · rename_i k hk
    have hkey := h.key k hk
    refine ⟨by simp, ?_, ?_, ?_⟩
    · rw [argRun_append, argRun_plain]
      · show argRun false (['='] ++ argSrc a.val) = _
        rw [argRun_append, argRun_plain]
        · exact hv.2.1
        · decide
      · intro c hc
        have := nameChar_facts U (hkey.2 c hc)
        exact ⟨this.2.1, this.2.2.1, this.2.2.2.1⟩
    · intro c hc
      cases k with
      | nil => exact absurd rfl hkey.1
      | cons x k =>
        simp at hc; subst hc
        exact (nameChar_facts U (hkey.2 x (by simp))).1
    · intro c hc
      apply hv.2.2.2.1
      rw [List.getLast?_append] at hc
      have : ('=' :: argSrc a.val).getLast? = (argSrc a.val).getLast? := by
        cases hs : argSrc a.val with
        | nil => exact absurd hs hv.1
        | cons x xs => rw [List.getLast?_cons_cons]
      rw [this] at hc
      cases hg : (argSrc a.val).getLast? with
      | none => rw [List.getLast?_eq_none_iff] at hg; exact absurd hg hv.1
      | some y => rw [hg] at hc; simpa using hc

theorem addArg_pos (U : Unicode) (a : ArgL) (h : a.WF U) (hk : a.key = none) (pos : List RawArg) :
    addArg U a.core pos [] = .ok (pos ++ [a.val], []) := by
  have hv := argSrc_facts U a.val h.val
  have hc : a.core = argSrc a.val := by simp [ArgL.core, hk]
  rw [hc]
  have e0 : (argSrc a.val).isEmpty = false := by simp [hv.1]
  have e1 : looksNamed (argSrc a.val) = false := by
    rcases hv.2.2.2.2 with he | he
    · cases hs : argSrc a.val with
      | nil => rfl
      | cons x xs => rw [hs] at he; simp at he; simp [looksNamed, he]
    · have : (argSrc a.val).contains '=' = false := by rw [Bool.eq_false_iff, ne_eq, contains_iff]; exact he
      rw [looksNamed.eq_def, this, Bool.and_false]
  unfold addArg
  rw [e1]
  simp [e0, parseRawArg_src U a.val h.val]

/-- A positional argument after a named one is refused. -/
theorem addArg_pos_late (U : Unicode) (a : ArgL) (h : a.WF U) (hk : a.key = none) (pos : List RawArg)
    (named : List (Str × RawArg)) (hn : named ≠ []) :
    addArg U a.core pos named = .err .positionalAfterNamed := by
  have hv := argSrc_facts U a.val h.val
  have hc : a.core = argSrc a.val := by simp [ArgL.core, hk]
  rw [hc]
  have e0 : (argSrc a.val).isEmpty = false := by simp [hv.1]
  have e1 : looksNamed (argSrc a.val) = false := by
    rcases hv.2.2.2.2 with he | he
    · cases hs : argSrc a.val with
      | nil => rfl
      | cons x xs => rw [hs] at he; simp at he; simp [looksNamed, he]
    · have : (argSrc a.val).contains '=' = false := by rw [Bool.eq_false_iff, ne_eq, contains_iff]; exact he
      rw [looksNamed.eq_def, this, Bool.and_false]
  unfold addArg
  rw [e1]
  simp [e0, hn]

theorem addArg_named (U : Unicode) (a : ArgL) (h : a.WF U) (k : Str) (hk : a.key = some k)
    (pos : List RawArg) (named : List (Str × RawArg)) :
    addArg U a.core pos named = .ok (pos, named ++ [(k, a.val)]) := by
  have hv := argSrc_facts U a.val h.val
  have hkey := h.key k hk
  have hc : a.core = k ++ '=' :: argSrc a.val := by simp [ArgL.core, hk]
  rw [hc]
  have e1 : looksNamed (k ++ '=' :: argSrc a.val) = true := by
    have h1 : (k ++ '=' :: argSrc a.val).contains '=' = true := by rw [contains_iff]; simp
    rw [looksNamed.eq_def, h1, Bool.and_true]
    cases k with
    | nil => exact absurd rfl hkey.1
    | cons x k =>
      have := (nameChar_facts U (hkey.2 x (by simp))).2.1
      simp [this]
  have e2 : splitFirst '=' (k ++ '=' :: argSrc a.val) = (k, some (argSrc a.val)) :=
    splitFirst_append _ _ _ fun hc => (nameChar_facts U (hkey.2 _ hc)).2.2.2.2.1 rfl
  have e3 : (k.isEmpty || (argSrc a.val).isEmpty || !k.all (isNameChar U)) = false := by
    have : k.all (isNameChar U) = true := by
      rw [List.all_eq_true]; intro c hc; exact (isNameChar_iff U c).2 (hkey.2 c hc)
    simp [hkey.1, hv.1, this]
  unfold addArg
  rw [e1, e2]
  simp [e3, parseRawArg_src U a.val h.val]

/-! ### Argument lists -/

theorem blank_plain {w : Str} (h : Blank w) : ∀ c ∈ w, c ≠ '"' ∧ c ≠ ',' ∧ c ≠ ')' := by
  intro c hc
  have := h c hc
  refine ⟨?_, ?_, ?_⟩ <;> (rintro rfl; revert this; decide)

/-- One round of the argument loop over a written argument. -/
theorem parseArgs_step (U : Unicode) (path : Str) (n : Nat) (a : ArgL) (h : a.WF U) (pos : List RawArg)
    (named : List (Str × RawArg)) (c : Char) (hc : c = ',' ∨ c = ')') (r : Str) (loc : Loc) :
    ∃ loc' loc'', parseArgs U path (n + 1) pos named ⟨a.src ++ c :: r, loc⟩ =
      ((addArg U a.core pos named).mapErr (PSt.tb ⟨c :: r, loc'⟩ path)).bind fun (pos, named) =>
        if c = ')' then .ok ((pos, named), ⟨r, loc''⟩)
        else parseArgs U path n pos named ⟨r, loc''⟩ := by
  have hf := core_facts U a h
  refine ⟨(a.core ++ a.after).foldl Loc.adv (a.before.foldl Loc.adv loc),
    Loc.adv ((a.core ++ a.after).foldl Loc.adv (a.before.foldl Loc.adv loc)) c, ?_⟩
  have e1 : PSt.ignoreWhile isWs ⟨a.src ++ c :: r, loc⟩ =
      ⟨(a.core ++ a.after) ++ c :: r, a.before.foldl Loc.adv loc⟩ := by
    have : a.src ++ c :: r = a.before ++ ((a.core ++ a.after) ++ c :: r) := by simp [ArgL.src]
    rw [this]
    apply ignoreWhile_all
    · exact h.before
    · intro d hd
      apply hf.2.2.1
      cases hcore : a.core with
      | nil => exact absurd hcore hf.1
      | cons x xs => rw [hcore] at hd; simpa using hd
  have e2 : argRun false (a.core ++ a.after) = some false := by
    rw [argRun_append, hf.2.1]
    exact argRun_plain _ _ (blank_plain h.after)
  have e3 : trim (a.core ++ a.after) = a.core := by
    have := trim_core [] a.core a.after (by intro c hc; simp at hc) h.after hf.2.2.1 hf.2.2.2
    simpa using this
  rw [parseArgs, e1, extractWhileS_arg _ e2 c hc]
  simp only [e3]
  cases addArg U a.core pos named with
  | panic p => rfl
  | err e => rfl
  | ok v =>
    simp only [Res.mapErr_ok, Res.bind_ok, PSt.next]
    rcases hc with rfl | rfl <;> rfl

/-- The argument loop over a whole written argument list. -/
theorem parseArgs_all (U : Unicode) (path : Str) : ∀ (as : List ArgL), as ≠ [] → (∀ a ∈ as, a.WF U) →
    ∀ (n : Nat), as.length ≤ n → ∀ (pos : List RawArg) (named : List (Str × RawArg)), PosFirst as →
    (named = [] ∨ ∀ a ∈ as, a.key ≠ none) → ∀ (r : Str) (loc : Loc),
    ∃ loc', parseArgs U path n pos named ⟨argsSrc as ++ ')' :: r, loc⟩ =
      .ok ((pos ++ as.filterMap (fun a => match a.key with | none => some a.val | some _ => none),
        named ++ as.filterMap fun a => match a.key with | none => none | some k => some (k, a.val)), ⟨r, loc'⟩)
  | [], h, _, _, _, _, _, _, _, _, _ => absurd rfl h
  | a :: as, _, hwf, n, hn, pos, named, hpf, hnamed, r, loc => by
    obtain ⟨n, rfl⟩ : ∃ m, n = m + 1 := ⟨n - 1, by simp at hn; omega⟩
    have ha := hwf a (by simp)
    have hadd : addArg U a.core pos named = .ok
        (pos ++ [a].filterMap (fun a => match a.key with | none => some a.val | some _ => none),
          named ++ [a].filterMap fun a => match a.key with | none => none | some k => some (k, a.val)) := by
      cases hk : a.key with
      | none =>
        rcases hnamed with rfl | hnamed
        · rw [addArg_pos U a ha hk]; simp [hk]
        · exact absurd hk (hnamed a (by simp))
      | some k => rw [addArg_named U a ha k hk]; simp [hk]
    cases as with
    | nil =>
      obtain ⟨l1, l2, e⟩ := parseArgs_step U path n a ha pos named ')' (Or.inr rfl) r loc
      refine ⟨l2, ?_⟩
      simp only [argsSrc]
      rw [e, hadd]
      rfl
    | cons b bs =>
      obtain ⟨l1, l2, e⟩ := parseArgs_step U path n a ha pos named ',' (Or.inl rfl)
        (argsSrc (b :: bs) ++ ')' :: r) loc
      have hrec := parseArgs_all U path (b :: bs) (by simp) (fun x hx => hwf x (by simp [hx])) n
        (by simp at hn ⊢; omega)
        (pos ++ [a].filterMap (fun a => match a.key with | none => some a.val | some _ => none))
        (named ++ [a].filterMap fun a => match a.key with | none => none | some k => some (k, a.val))
        hpf.2 (by
          cases hk : a.key with
          | none =>
            rcases hnamed with rfl | hnamed
            · left; simp [hk]
            · exact absurd hk (hnamed a (by simp))
          | some k => right; intro x hx; exact hpf.1 (by simp [hk]) x hx) r l2
      obtain ⟨l3, e3⟩ := hrec
      refine ⟨l3, ?_⟩
      have : argsSrc (a :: b :: bs) ++ ')' :: r = a.src ++ ',' :: (argsSrc (b :: bs) ++ ')' :: r) := by
        simp [argsSrc]
      rw [this, e, hadd]
      simp only [Res.mapErr_ok, Res.bind_ok]
      rw [if_neg (by decide), e3, List.filterMap_cons (a := a) (l := b :: bs),
        List.filterMap_cons (a := a) (l := b :: bs)]
      cases hk : a.key <;> simp [hk]

/-- The argument loop over empty parentheses. -/
theorem parseArgs_nil (U : Unicode) (path : Str) (n : Nat) (w : Str) (hw : Blank w) (r : Str) (loc : Loc) :
    ∃ loc', parseArgs U path (n + 1) [] [] ⟨w ++ ')' :: r, loc⟩ = .ok (([], []), ⟨r, loc'⟩) := by
  refine ⟨Loc.adv (w.foldl Loc.adv loc) ')', ?_⟩
  have e1 : PSt.ignoreWhile isWs ⟨w ++ ')' :: r, loc⟩ = ⟨[] ++ ')' :: r, w.foldl Loc.adv loc⟩ := by
    apply ignoreWhile_all _ _ _ _ hw
    intro c hc; simp at hc; subst hc; decide
  rw [parseArgs, e1, extractWhileS_arg [] rfl ')' (Or.inr rfl)]
  simp [trim, trimEnd, trimStart, addArg, PSt.next, looksNamed]

theorem length_le_argsSrc (U : Unicode) : ∀ (as : List ArgL), (∀ a ∈ as, a.WF U) →
    as.length ≤ (argsSrc as).length
  | [], _ => by simp
  | [a], h => by
    have := (core_facts U a (h a (by simp))).1
    have : a.core.length ≠ 0 := by simpa using this
    simp [argsSrc, ArgL.src]; omega
  | a :: b :: as, h => by
    have ih := length_le_argsSrc U (b :: as) (fun x hx => h x (by simp [hx]))
    simp only [argsSrc, List.length_append, List.length_cons] at ih ⊢
    omega

end Stuart
