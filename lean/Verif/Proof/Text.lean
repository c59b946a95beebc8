import Verif.Proof.Scan
/-
Helper lemmas: text with escapes, whitespace, character classes.
-/
namespace Stuart
open Spec

/-! ### Text with escapes -/

theorem suffix_singleton_append_of_ne_nil {a : Char} {x y : Str} (hy : y ≠ []) :
    [a] <:+ x ++ y ↔ [a] <:+ y := by
  rcases List.eq_nil_or_concat y with rfl | ⟨y', b, rfl⟩
  · exact absurd rfl hy
  · rw [List.concat_eq_append, ← List.append_assoc, suffix_singleton_append_singleton,
      suffix_singleton_append_singleton]

theorem extractUntilGo_more (old : Str) : ∀ (ps : List Str) (r : Str) (loc : Loc) (acc : Str),
    (∀ p ∈ ps, NoOpen p ∧ ¬ ['{'] <+: p) →
    extractUntilGo str!"{{" true old ((ps.flatMap fun p => str!"\\{{" ++ p) ++ r) loc acc =
      extractUntilGo str!"{{" true old r ((ps.flatMap fun p => str!"\\{{" ++ p).foldl Loc.adv loc)
        (acc ++ ps.flatMap fun p => str!"{{" ++ p)
  | [], r, loc, acc, _ => by simp
  | p :: ps, r, loc, acc, h => by
    have h1 := h p (by simp)
    have ih := extractUntilGo_more old ps r
    simp only [List.flatMap_cons, List.append_assoc]
    rw [extractUntilGo_escape, extractUntilGo_text _ _ _ _ _ _ h1.1 (fun hp => absurd hp h1.2),
      ih _ _ (fun q hq => h q (by simp [hq]))]
    simp only [List.foldl_append, List.append_assoc]

/-- Scanning over well-formed text collects what is meant. -/
theorem extractUntilGo_Text (old : Str) (t : Text) (h : t.WF) (r : Str) (loc : Loc) :
    extractUntilGo str!"{{" true old (t.src ++ r) loc [] =
      extractUntilGo str!"{{" true old r (t.src.foldl Loc.adv loc) t.val := by
  unfold Text.src Text.val
  rw [List.append_assoc, extractUntilGo_text _ _ _ _ _ _ h.first (by
    intro _ ⟨a, e⟩; simp at e), extractUntilGo_more _ _ _ _ _ h.more]
  simp only [List.foldl_append, List.nil_append]

theorem replaceGo_text : ∀ (t r : Str), NoOpen t → (r = [] ∨ ['\\'] <+: r) →
    replaceGo str!"\\{{" str!"{{" 0 (t ++ r) = t ++ replaceGo str!"\\{{" str!"{{" 0 r
  | [], r, _, _ => by simp
  | c :: t, r, hno, hr => by
    have ih := replaceGo_text t r (noOpen_tail hno) hr
    have hs : startsWith str!"\\{{" (c :: (t ++ r)) = false := by
      rw [Bool.eq_false_iff, ne_eq, startsWith_iff]
      rintro ⟨b, e⟩
      simp only [List.cons_append, List.nil_append, List.cons.injEq] at e
      obtain ⟨rfl, e⟩ := e
      cases t with
      | nil =>
        rcases hr with rfl | ⟨q, rfl⟩
        · simp at e
        · simp at e
      | cons a t =>
        simp only [List.cons_append, List.cons.injEq] at e
        obtain ⟨rfl, e⟩ := e
        cases t with
        | nil =>
          rcases hr with rfl | ⟨q, rfl⟩
          · simp at e
          · simp at e
        | cons a t =>
          simp only [List.cons_append, List.cons.injEq] at e
          obtain ⟨rfl, e⟩ := e
          exact hno ⟨['\\'], t, rfl⟩
    rw [List.cons_append, replaceGo, hs]
    simp [ih]

theorem replaceGo_more : ∀ (ps : List Str), (∀ p ∈ ps, NoOpen p ∧ ¬ ['{'] <+: p) →
    replaceGo str!"\\{{" str!"{{" 0 (ps.flatMap fun p => str!"\\{{" ++ p) =
      ps.flatMap fun p => str!"{{" ++ p
  | [], _ => by simp [replaceGo]
  | p :: ps, h => by
    have h1 := h p (by simp)
    have ih := replaceGo_more ps (fun q hq => h q (by simp [hq]))
    simp only [List.flatMap_cons, List.cons_append, List.nil_append]
    rw [replaceGo]
    have hs : startsWith str!"\\{{" ('\\' :: '{' :: '{' :: (p ++ ps.flatMap fun p => '\\' :: '{' :: '{' :: p))
        = true := by
      rw [startsWith_iff]; exact ⟨_, rfl⟩
    simp only [hs, if_true, List.length_cons, List.length_nil]
    have h2 : ps.flatMap (fun p => str!"\\{{" ++ p) = [] ∨
        ['\\'] <+: ps.flatMap (fun p => str!"\\{{" ++ p) := by
      cases ps with
      | nil => exact Or.inl rfl
      | cons q qs => exact Or.inr ⟨_, (by simp only [List.flatMap_cons, List.cons_append, List.nil_append]; rfl)⟩
    have := replaceGo_text p (ps.flatMap fun p => str!"\\{{" ++ p) h1.1 h2
    simp only [List.cons_append, List.nil_append] at this ih
    simp only [replaceGo, this, ih, List.cons_append, List.nil_append]

theorem replaceAll_Text (t : Text) (h : t.WF) : replaceAll str!"\\{{" str!"{{" t.src = t.val := by
  unfold replaceAll Text.src Text.val
  rw [replaceGo_text _ _ h.first, replaceGo_more _ h.more]
  cases t.more with
  | nil => exact Or.inl rfl
  | cons q qs => exact Or.inr ⟨_, (by simp only [List.flatMap_cons, List.cons_append, List.nil_append]; rfl)⟩

/-! ### extract_while -/

theorem extractWhile_all (f : Char → Bool) : ∀ (w r : Str) (loc : Loc), (∀ c ∈ w, f c = true) →
    (∀ c, r.head? = some c → f c = false) →
    PSt.extractWhile f ⟨w ++ r, loc⟩ = (w, ⟨r, w.foldl Loc.adv loc⟩)
  | [], r, loc, _, hr => by
    cases r with
    | nil => rfl
    | cons c r =>
      have := hr c rfl
      simp [PSt.extractWhile, PSt.extractWhileS, extractWhileGo, this]
  | c :: w, r, loc, hw, hr => by
    have ih := extractWhile_all f w r (loc.adv c) (fun d hd => hw d (by simp [hd])) hr
    have hc := hw c (by simp)
    simp only [PSt.extractWhile, PSt.extractWhileS] at ih
    simp [PSt.extractWhile, PSt.extractWhileS, extractWhileGo, hc, ih]

theorem ignoreWhile_all (f : Char → Bool) (w r : Str) (loc : Loc) (hw : ∀ c ∈ w, f c = true)
    (hr : ∀ c, r.head? = some c → f c = false) :
    PSt.ignoreWhile f ⟨w ++ r, loc⟩ = ⟨r, w.foldl Loc.adv loc⟩ := by
  unfold PSt.ignoreWhile
  rw [extractWhile_all f w r loc hw hr]

theorem expectGo_ok (path whole : Str) : ∀ (s r : Str) (loc : Loc),
    PSt.expectGo path whole s ⟨s ++ r, loc⟩ = .ok ((), ⟨r, s.foldl Loc.adv loc⟩)
  | [], _, _ => rfl
  | c :: s, r, loc => by
    have ih := expectGo_ok path whole s r (loc.adv c)
    simp [PSt.expectGo, PSt.next, ih]

theorem expect_ok (path s r : Str) (loc : Loc) :
    PSt.expect path s ⟨s ++ r, loc⟩ = .ok ((), ⟨r, s.foldl Loc.adv loc⟩) :=
  expectGo_ok path s s r loc

/-! ### Character classes -/

theorem alnum_of_asciiAlnum (U : Unicode) (c : Char) (h : c.toNat < 128) :
    U.alnum c = asciiAlnum c := U.ascii c h

theorem not_alnum (U : Unicode) (c : Char) (h : c.toNat < 128) (h2 : asciiAlnum c = false) :
    U.alnum c ≠ true := by rw [U.ascii c h, h2]; decide

theorem not_ws_of_fnChar (U : Unicode) {c : Char} (h : U.alnum c = true ∨ c = '_' ∨ c = ':') :
    isWs c = false := by
  rw [Bool.eq_false_iff]
  intro hw
  rcases h with h | rfl | rfl
  · rw [U.notWs c hw] at h; cases h
  · revert hw; decide
  · revert hw; decide

theorem not_ws_of_varChar (U : Unicode) {c : Char} (h : U.alnum c = true ∨ c = '_' ∨ c = '.') :
    isWs c = false := by
  rw [Bool.eq_false_iff]
  intro hw
  rcases h with h | rfl | rfl
  · rw [U.notWs c hw] at h; cases h
  · revert hw; decide
  · revert hw; decide

theorem isVarChar_iff (U : Unicode) (c : Char) :
    isVarChar U c = true ↔ (U.alnum c = true ∨ c = '_' ∨ c = '.') := by
  simp [isVarChar, or_assoc]

theorem isFnChar_iff (U : Unicode) (c : Char) :
    isFnChar U c = true ↔ (U.alnum c = true ∨ c = '_' ∨ c = ':') := by
  simp [isFnChar, or_assoc]

theorem isNameChar_iff (U : Unicode) (c : Char) :
    isNameChar U c = true ↔ (U.alnum c = true ∨ c = '_') := by
  simp [isNameChar]

theorem isVarChar_false_of_ws (U : Unicode) {c : Char} (h : isWs c = true) : isVarChar U c = false := by
  rw [Bool.eq_false_iff]
  intro h2
  rw [not_ws_of_varChar U ((isVarChar_iff U c).1 h2)] at h
  cases h

theorem isFnChar_false_of_ws (U : Unicode) {c : Char} (h : isWs c = true) : isFnChar U c = false := by
  rw [Bool.eq_false_iff]
  intro h2
  rw [not_ws_of_fnChar U ((isFnChar_iff U c).1 h2)] at h
  cases h

/-- An ASCII character that is neither a letter nor a digit is in no name class. -/
theorem ne_of_alnum (U : Unicode) {c : Char} (d : Char) (hd : d.toNat < 128) (hd2 : asciiAlnum d = false)
    (h : U.alnum c = true) : c ≠ d := by
  rintro rfl; exact not_alnum U c hd hd2 h

/-! ### trim -/

theorem trimStart_blank : ∀ (w r : Str), Blank w → trimStart (w ++ r) = trimStart r
  | [], _, _ => rfl
  | c :: w, r, h => by
    have ih := trimStart_blank w r (fun d hd => h d (by simp [hd]))
    simp [trimStart, h c (by simp), ih]

theorem trimStart_id : ∀ (s : Str), (∀ c, s.head? = some c → isWs c = false) → trimStart s = s
  | [], _ => rfl
  | c :: s, h => by simp [trimStart, h c rfl]

theorem trim_core (w s w' : Str) (hw : Blank w) (hw' : Blank w')
    (h1 : ∀ c, s.head? = some c → isWs c = false) (h2 : ∀ c, s.getLast? = some c → isWs c = false) :
    trim (w ++ s ++ w') = s := by
  have hrev : ∀ x, Blank x → Blank x.reverse := fun x hx c hc => hx c (by simpa using hc)
  unfold trim trimEnd
  by_cases hs : s = []
  · subst hs
    have e : trimStart (w ++ [] ++ w') = [] := by
      rw [List.append_nil, trimStart_blank _ _ hw]
      have := trimStart_blank w' [] hw'
      simpa [trimStart] using this
    rw [e]; rfl
  · have e : trimStart (w ++ s ++ w') = s ++ w' := by
      rw [List.append_assoc, trimStart_blank _ _ hw]
      apply trimStart_id
      intro c hc
      apply h1
      cases s with
      | nil => exact absurd rfl hs
      | cons a s => simpa using hc
    rw [e, List.reverse_append, trimStart_blank _ _ (hrev _ hw')]
    rw [trimStart_id _ (by intro c hc; apply h2; simpa using hc)]
    simp

end Stuart
