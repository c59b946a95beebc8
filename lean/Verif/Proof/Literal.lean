import Verif.Proof.Sound
import Verif.Spec.Literal
/-
Helper lemmas: argument literals.
-/
namespace Stuart
open Spec

theorem digitVal_of_digit {c : Char} (h : IsDigit c) : digitVal c = some (c.toNat - '0'.toNat) := by
  unfold digitVal IsDigit at *
  have e0 : '0'.toNat = 0x30 := rfl
  have e9 : '9'.toNat = 0x39 := rfl
  rw [e0, e9] at h
  rw [if_pos h, e0]

theorem digitsGo_digits : ∀ (ds : Str) (a : Nat), (∀ c ∈ ds, IsDigit c) →
    digitsGo a ds = some (ds.foldl (fun a c => 10 * a + (c.toNat - '0'.toNat)) a)
  | [], a, _ => rfl
  | c :: ds, a, h => by
    simp only [digitsGo, digitVal_of_digit (h c (by simp)), List.foldl_cons]
    rw [digitsGo_digits ds _ (fun d hd => h d (by simp [hd])), Nat.mul_comm]

theorem digitsGo_some : ∀ (ds : Str) (a n : Nat), digitsGo a ds = some n → ∀ c ∈ ds, IsDigit c
  | [], _, _, _ => by simp
  | c :: ds, a, n, h => by
    simp only [digitsGo] at h
    cases hd : digitVal c with
    | none => rw [hd] at h; cases h
    | some d =>
      rw [hd] at h
      intro x hx
      rcases List.mem_cons.1 hx with rfl | hx
      · unfold digitVal at hd
        split at hd
        · assumption
        · cases hd
      · exact digitsGo_some ds _ _ h x hx

theorem parseDigits_digits {ds : Str} (h0 : ds ≠ []) (h : ∀ c ∈ ds, IsDigit c) :
    parseDigits ds = some (decVal ds) := by
  cases ds with
  | nil => exact absurd rfl h0
  | cons c ds => exact digitsGo_digits _ _ h

theorem parseDigits_some {ds : Str} {n : Nat} (h : parseDigits ds = some n) :
    ds ≠ [] ∧ (∀ c ∈ ds, IsDigit c) ∧ n = decVal ds := by
  cases ds with
  | nil => cases h
  | cons c ds =>
    have h1 := digitsGo_some _ _ _ h
    refine ⟨by simp, h1, ?_⟩
    have := parseDigits_digits (ds := c :: ds) (by simp) h1
    rw [h] at this
    exact Option.some.inj this

theorem not_digit_minus : ¬ IsDigit '-' := by unfold IsDigit; decide
theorem not_digit_plus : ¬ IsDigit '+' := by unfold IsDigit; decide

theorem parseI32_decimal {s : Str} {i : Int} (h : Decimal s i) :
    parseI32 s = if Is32 i then some i else none := by
  cases h with
  | plain ds h0 h =>
    cases s with
    | nil => exact absurd rfl h0
    | cons c cs =>
      have hc := h c (by simp)
      rw [parseI32_unsigned c cs (by rintro rfl; exact not_digit_minus hc)
        (by rintro rfl; exact not_digit_plus hc), parseDigits_digits h0 h]
      rfl
  | plus ds h0 h =>
    show ((parseDigits ds).map fun (n : Nat) => (n : Int)).bind _ = _
    rw [parseDigits_digits h0 h]
    rfl
  | minus ds h0 h =>
    show ((parseDigits ds).map fun (n : Nat) => -(n : Int)).bind _ = _
    rw [parseDigits_digits h0 h]
    rfl

theorem parseI32_some {s : Str} {i : Int} (h : parseI32 s = some i) : Decimal s i := by
  unfold parseI32 at h
  simp only at h
  split at h
  · rename_i ds
    cases hd : parseDigits ds with
    | none => rw [hd] at h; cases h
    | some n =>
      rw [hd] at h
      simp only [Option.map_some, Option.bind_some] at h
      split at h
      · cases h
        obtain ⟨h0, h1, rfl⟩ := parseDigits_some hd
        exact .minus ds h0 h1
      · cases h
  · rename_i ds
    cases hd : parseDigits ds with
    | none => rw [hd] at h; cases h
    | some n =>
      rw [hd] at h
      simp only [Option.map_some, Option.bind_some] at h
      split at h
      · cases h
        obtain ⟨h0, h1, rfl⟩ := parseDigits_some hd
        exact .plus ds h0 h1
      · cases h
  · cases hd : parseDigits s with
    | none => rw [hd] at h; cases h
    | some n =>
      rw [hd] at h
      simp only [Option.map_some, Option.bind_some] at h
      split at h
      · cases h
        obtain ⟨h0, h1, rfl⟩ := parseDigits_some hd
        exact .plain s h0 h1
      · cases h

/-- A decimal is neither a variable nor a quoted string. -/
theorem decimal_head {s : Str} {i : Int} (h : Decimal s i) :
    startsWith ['$'] s = false ∧ startsWith ['"'] s = false := by
  have key : ∀ c : Char, IsDigit c → c ≠ '$' ∧ c ≠ '"' := by
    intro c hc
    refine ⟨?_, ?_⟩ <;> (rintro rfl; revert hc; unfold IsDigit; decide)
  have go : ∀ c cs, c ≠ '$' ∧ c ≠ '"' →
      startsWith ['$'] (c :: cs) = false ∧ startsWith ['"'] (c :: cs) = false := by
    intro c cs hc
    rw [startsWith_single, startsWith_single]
    exact ⟨by simpa using Ne.symm hc.1, by simpa using Ne.symm hc.2⟩
  cases h with
  | plain ds h0 h =>
    cases s with
    | nil => exact absurd rfl h0
    | cons c cs => exact go c cs (key c (h c (by simp)))
  | plus ds => exact go _ _ (by decide)
  | minus ds => exact go _ _ (by decide)

/-- Decimals are not built-in names. -/
theorem decimal_not_builtin {s : Str} {i : Int} (h : Decimal s i) : s ∉ builtinNames := by
  have key : ∀ s ∈ builtinNames, ∀ c ∈ s.head?, ¬ IsDigit c ∧ c ≠ '+' ∧ c ≠ '-' := by
    unfold IsDigit; decide
  intro hs
  cases h with
  | plain ds h0 h =>
    cases s with
    | nil => exact absurd rfl h0
    | cons c cs => exact (key _ hs c (by simp)).1 (h c (by simp))
  | plus ds => exact (key _ hs '+' (by simp)).2.1 rfl
  | minus ds => exact (key _ hs '-' (by simp)).2.2 rfl

/-! ### A tag at a known place -/

/-- The first tag of a file: what it parses to decides how the parse goes on. -/
theorem parseHtml_first_tag (U : Unicode) (path : Str) (plugins : List PluginFns) (t : Text) (ht : t.WF)
    (hg : Glue t) (w x : Str) (hw : Blank w) (hx : ∀ c, x.head? = some c → isWs c = false) :
    parseHtml U path plugins (t.src ++ str!"{{" ++ w ++ x) =
      (parseTag U path plugins ⟨x, (t.src ++ str!"{{" ++ w).foldl Loc.adv Loc.start⟩).bind fun (tok, p) =>
        ((p.ignoreWhile isWs).expect path str!"}}").bind fun (_, p) =>
          parseHtmlGo U path plugins (t.src ++ str!"{{" ++ w ++ x).length
            (rawTok path t.val 1 1 ++ [⟨tok, path,
              ((t.src ++ str!"{{" ++ w).foldl Loc.adv Loc.start).line,
              ((t.src ++ str!"{{" ++ w).foldl Loc.adv Loc.start).col⟩]) p.loc.line p.loc.col p := by
  have e1 : PSt.extractUntil str!"{{" true ⟨t.src ++ (str!"{{" ++ (w ++ x)), Loc.start⟩ =
      (some t.val, ⟨w ++ x, str!"{{".foldl Loc.adv (t.src.foldl Loc.adv Loc.start)⟩) := by
    unfold PSt.extractUntil
    simp only
    rw [extractUntilGo_Text _ _ ht, extractUntilGo_open _ _ _ _ _ hg.1 (fun _ => hg.2)]
  have e2 := ignoreWhile_all isWs w x (str!"{{".foldl Loc.adv (t.src.foldl Loc.adv Loc.start)) hw hx
  have hsrc : t.src ++ str!"{{" ++ w ++ x = t.src ++ (str!"{{" ++ (w ++ x)) := by simp
  have hl : (t.src ++ str!"{{" ++ w).foldl Loc.adv Loc.start =
      w.foldl Loc.adv (str!"{{".foldl Loc.adv (t.src.foldl Loc.adv Loc.start)) := by
    rw [List.foldl_append, List.foldl_append]
  unfold parseHtml
  rw [hl, hsrc, parseHtmlGo]
  unfold PSt.init
  rw [e1]
  simp only
  rw [e2]
  rfl

theorem parseTag_call (U : Unicode) (path : Str) (plugins : List PluginFns) (c : Call) (h : c.WF U)
    (r : Str) (loc : Loc) : parseTag U path plugins ⟨c.src ++ r, loc⟩ =
      parseFunction U path plugins ⟨c.src ++ r, loc⟩ := by
  cases hc : c.name with
  | nil => exact absurd hc h.name.1
  | cons y ys =>
    have hy : y ≠ '$' := by
      rintro rfl
      rcases h.name.2 '$' (by simp [hc]) with h3 | h3 | h3
      · exact not_alnum U '$' (by decide) (by decide) h3
      · revert h3; decide
      · revert h3; decide
    have hp : PSt.peek ⟨c.src ++ r, loc⟩ = some y := by simp [PSt.peek, Call.src, hc]
    unfold parseTag
    split
    · rename_i h1
      rw [hp] at h1
      exact absurd (Option.some.inj h1) hy
    · rfl
    · rename_i h1; rw [hp] at h1; cases h1

theorem call_head (U : Unicode) (c : Call) (h : c.WF U) (r : Str) :
    ∀ d, (c.src ++ r).head? = some d → isWs d = false := by
  intro d hd
  cases hc : c.name with
  | nil => exact absurd hc h.name.1
  | cons y ys =>
    simp [Call.src, hc] at hd
    subst hd
    exact not_ws_of_fnChar U (h.name.2 y (by simp [hc]))

/-- A positional argument after a named one stops the argument loop. -/
theorem parseArgs_late (U : Unicode) (path : Str) (b : ArgL) (hb : b.WF U) (hbk : b.key = none) (c : Char)
    (hc : c = ',' ∨ c = ')') (r : Str) : ∀ (as : List ArgL), (∀ a ∈ as, a.WF U) →
    ∀ (n : Nat), as.length < n → ∀ (pos : List RawArg) (named : List (Str × RawArg)),
    (named ≠ [] ∨ ∃ a ∈ as, a.key ≠ none) → ∀ (loc : Loc),
    ∃ e, parseArgs U path n pos named
      ⟨(as.flatMap fun a => a.src ++ [',']) ++ (b.src ++ c :: r), loc⟩ = .err e ∧
      e.kind = .positionalAfterNamed
  | [], _, n, hn, pos, named, hnm, loc => by
    obtain ⟨n, rfl⟩ : ∃ m, n = m + 1 := ⟨n - 1, by simp at hn; omega⟩
    have hne : named ≠ [] := by
      rcases hnm with h | ⟨a, ha, _⟩
      · exact h
      · cases ha
    obtain ⟨l1, l2, e⟩ := parseArgs_step U path n b hb pos named c hc r loc
    refine ⟨PSt.tb ⟨c :: r, l1⟩ path .positionalAfterNamed, ?_, rfl⟩
    rw [List.flatMap_nil, List.nil_append, e, addArg_pos_late U b hb hbk pos named hne]
    rfl
  | a :: as, h, n, hn, pos, named, hnm, loc => by
    obtain ⟨n, rfl⟩ : ∃ m, n = m + 1 := ⟨n - 1, by simp at hn; omega⟩
    have ha := h a (by simp)
    have hsrc : ((a :: as).flatMap fun a => a.src ++ [',']) ++ (b.src ++ c :: r) =
        a.src ++ ',' :: ((as.flatMap fun a => a.src ++ [',']) ++ (b.src ++ c :: r)) := by simp
    obtain ⟨l1, l2, e⟩ := parseArgs_step U path n a ha pos named ',' (Or.inl rfl)
      ((as.flatMap fun a => a.src ++ [',']) ++ (b.src ++ c :: r)) loc
    rw [hsrc, e]
    cases hk : a.key with
    | some k =>
      rw [addArg_named U a ha k hk]
      exact parseArgs_late U path b hb hbk c hc r as (fun x hx => h x (by simp [hx])) n
        (by simp at hn; omega) _ _ (Or.inl (by simp)) l2
    | none =>
      by_cases hne : named = []
      · subst hne
        rw [addArg_pos U a ha hk]
        refine parseArgs_late U path b hb hbk c hc r as (fun x hx => h x (by simp [hx])) n
          (by simp at hn; omega) _ _ (Or.inr ?_) l2
        rcases hnm with h1 | ⟨x, hx, hxk⟩
        · exact absurd rfl h1
        · rcases List.mem_cons.1 hx with rfl | hx
          · exact absurd hk hxk
          · exact ⟨x, hx, hxk⟩
      · rw [addArg_pos_late U a ha hk pos named hne]
        exact ⟨_, rfl, rfl⟩

/-- The argument text of a call, split at its comma-separated prefix, and the error it leads to. -/
theorem parseFunction_late (U : Unicode) (path : Str) (plugins : List PluginFns) (name gap : Str)
    (hname : name ≠ [] ∧ ∀ ch ∈ name, U.alnum ch = true ∨ ch = '_' ∨ ch = ':') (hgap : Blank gap)
    (as : List ArgL) (has : ∀ a ∈ as, a.WF U) (hn : ∃ a ∈ as, a.key ≠ none) (b : ArgL) (hb : b.WF U)
    (hbk : b.key = none) (c : Char) (hc : c = ',' ∨ c = ')') (r : Str) (loc : Loc) :
    ∃ e, parseFunction U path plugins
      ⟨name ++ (gap ++ (['('] ++ ((as.flatMap fun a => a.src ++ [',']) ++ (b.src ++ c :: r)))), loc⟩ = .err e ∧
      e.kind = .positionalAfterNamed := by
  let body : Str := (as.flatMap fun a => a.src ++ [',']) ++ (b.src ++ c :: r)
  have e1 := extractWhile_all (isFnChar U) name (gap ++ (['('] ++ body)) loc
    (fun d hd => (isFnChar_iff U d).2 (hname.2 d hd)) (by
      intro d hd
      have : isWs d = true ∨ d = '(' := by
        cases gap with
        | nil => simp at hd; exact Or.inr hd.symm
        | cons x w => simp at hd; subst hd; exact Or.inl (hgap _ (by simp))
      rcases this with hd | rfl
      · exact isFnChar_false_of_ws U hd
      · rw [Bool.eq_false_iff]
        intro h2
        rcases (isFnChar_iff U _).1 h2 with h3 | h3 | h3
        · exact not_alnum U '(' (by decide) (by decide) h3
        · revert h3; decide
        · revert h3; decide)
  have e2 := ignoreWhile_all isWs gap (['('] ++ body) (name.foldl Loc.adv loc) hgap
    (by intro d hd; simp at hd; subst hd; decide)
  have e3 := expect_ok path ['('] body (gap.foldl Loc.adv (name.foldl Loc.adv loc))
  have hlen : as.length < body.length + 1 := by
    have : ∀ as : List ArgL, as.length ≤ (as.flatMap fun a => a.src ++ [',']).length := by
      intro as
      induction as with
      | nil => simp
      | cons a as ih => simp only [List.flatMap_cons, List.length_append, List.length_cons] at ih ⊢; omega
    have := this as
    simp only [body, List.length_append] at this ⊢
    omega
  obtain ⟨e, e4, hk⟩ := parseArgs_late U path b hb hbk c hc r as has (body.length + 1) hlen [] []
    (Or.inr hn) (['('].foldl Loc.adv (gap.foldl Loc.adv (name.foldl Loc.adv loc)))
  have e6 : name.isEmpty = false := by simp [hname.1]
  refine ⟨e, ?_, hk⟩
  unfold parseFunction
  rw [e1]
  simp only [e6, Bool.false_eq_true, if_false]
  rw [e2, e3]
  simp only [Res.bind_ok]
  change parseArgs U path _ [] [] ⟨body, _⟩ = _ at e4
  rw [e4]
  rfl

end Stuart
