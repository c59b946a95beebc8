import Verif.Spec.Template
/-
Helper lemmas about the low-level scanner.
-/
namespace Stuart
open Spec (NoOpen)


theorem endsWith_iff {s t : Str} : endsWith s t = true ↔ s <:+ t := by
  simp [endsWith, List.isSuffixOf_iff_suffix]

theorem startsWith_iff {s t : Str} : startsWith s t = true ↔ s <+: t := by
  simp [startsWith, List.isPrefixOf_iff_prefix]

theorem endsWith_two_push (a b : Char) (acc : Str) (c : Char) :
    endsWith [a, b] (acc ++ [c]) = true ↔ c = b ∧ [a] <:+ acc := by
  rw [endsWith_iff]
  constructor
  · rintro ⟨pre, h⟩
    have : pre ++ [a] ++ [b] = acc ++ [c] := by simpa using h
    obtain ⟨h1, h2⟩ := List.append_inj' this rfl
    simp at h2
    exact ⟨h2.symm, pre, h1⟩
  · rintro ⟨rfl, pre, h⟩
    exact ⟨pre, by simp [← h]⟩

theorem suffix_singleton_append_singleton {a b : Char} {acc : Str} :
    [a] <:+ acc ++ [b] ↔ a = b := by
  constructor
  · rintro ⟨pre, h⟩
    obtain ⟨_, h2⟩ := List.append_inj' h rfl
    simpa using h2
  · rintro rfl; exact ⟨acc, rfl⟩

theorem noOpen_tail {c : Char} {t : Str} (h : NoOpen (c :: t)) : NoOpen t := by
  intro ⟨a, b, e⟩
  exact h ⟨c :: a, b, by simp at e ⊢; exact e⟩

theorem noOpen_second {t : Str} (h : NoOpen ('{' :: t)) : ¬ ['{'] <+: t := by
  rintro ⟨b, e⟩
  exact h ⟨[], b, by simp at e ⊢; exact e⟩

theorem noOpen_nil : NoOpen [] := by
  rintro ⟨a, b, e⟩
  simp at e

/-- Scanning over text without an opener just collects it. -/
theorem extractUntilGo_text (old : Str) (esc : Bool) : ∀ (t r : Str) (loc : Loc) (acc : Str),
    NoOpen t → (['{'] <+: t → ¬ ['{'] <:+ acc) →
    extractUntilGo str!"{{" esc old (t ++ r) loc acc =
      extractUntilGo str!"{{" esc old r (t.foldl Loc.adv loc) (acc ++ t)
  | [], r, loc, acc, _, _ => by simp
  | c :: t, r, loc, acc, hno, hfst => by
    have hpush : endsWith str!"{{" (acc ++ [c]) = false := by
      rw [Bool.eq_false_iff]
      intro h
      rw [endsWith_two_push] at h
      obtain ⟨rfl, h2⟩ := h
      exact hfst ⟨t, rfl⟩ h2
    have ih := extractUntilGo_text old esc t r (loc.adv c) (acc ++ [c]) (noOpen_tail hno) (by
      intro h1 h2
      rw [suffix_singleton_append_singleton] at h2
      subst h2
      exact noOpen_second hno h1)
    simp only [List.cons_append, extractUntilGo, hpush, Bool.false_eq_true, if_false, List.foldl_cons]
    rw [ih]
    simp

/-- An escaped opener is collected without its backslash. -/
theorem extractUntilGo_escape (old r : Str) (loc : Loc) (acc : Str) :
    extractUntilGo str!"{{" true old (str!"\\{{" ++ r) loc acc =
      extractUntilGo str!"{{" true old r (str!"\\{{".foldl Loc.adv loc) (acc ++ str!"{{") := by
  have h1 : endsWith str!"{{" (acc ++ ['\\']) = false := by
    rw [Bool.eq_false_iff]; intro h; rw [endsWith_two_push] at h; exact absurd h.1 (by decide)
  have h2 : endsWith str!"{{" (acc ++ ['\\'] ++ ['{']) = false := by
    rw [Bool.eq_false_iff]; intro h; rw [endsWith_two_push] at h
    have := suffix_singleton_append_singleton.1 h.2
    exact absurd this (by decide)
  have h3 : endsWith str!"{{" (acc ++ ['\\'] ++ ['{'] ++ ['{']) = true := by
    rw [endsWith_two_push]; exact ⟨rfl, suffix_singleton_append_singleton.2 rfl⟩
  have h4 : (acc ++ ['\\'] ++ ['{'] ++ ['{']).take ((acc ++ ['\\'] ++ ['{'] ++ ['{']).length - 2) =
      acc ++ ['\\'] := by
    have : (acc ++ ['\\'] ++ ['{'] ++ ['{']).length - 2 = (acc ++ ['\\']).length := by simp
    rw [this, List.append_assoc (acc ++ ['\\'])]
    exact List.take_left
  have h5 : endsWith ['\\'] (acc ++ ['\\']) = true := by
    rw [endsWith_iff]; exact ⟨acc, rfl⟩
  simp only [List.cons_append, List.nil_append, extractUntilGo, h1, h2, h3, Bool.false_eq_true,
    if_false, if_true, List.foldl_cons, List.foldl_nil, List.length_cons, List.length_nil]
  rw [h4]
  simp [h5]

/-- An unescaped opener ends the scan. -/
theorem extractUntilGo_open (old r : Str) (loc : Loc) (acc : Str) (esc : Bool)
    (h1 : ¬ ['{'] <:+ acc) (h2 : esc = true → ¬ ['\\'] <:+ acc) :
    extractUntilGo str!"{{" esc old (str!"{{" ++ r) loc acc =
      (some acc, ⟨r, str!"{{".foldl Loc.adv loc⟩) := by
  have e1 : endsWith str!"{{" (acc ++ ['{']) = false := by
    rw [Bool.eq_false_iff]; intro h; rw [endsWith_two_push] at h; exact h1 h.2
  have e2 : endsWith str!"{{" (acc ++ ['{'] ++ ['{']) = true := by
    rw [endsWith_two_push]; exact ⟨rfl, suffix_singleton_append_singleton.2 rfl⟩
  have e3 : (acc ++ ['{'] ++ ['{']).take ((acc ++ ['{'] ++ ['{']).length - 2) = acc := by
    have : (acc ++ ['{'] ++ ['{']).length - 2 = acc.length := by simp
    rw [this, List.append_assoc acc]
    exact List.take_left
  have e4 : (esc && endsWith ['\\'] acc) = false := by
    cases esc
    · rfl
    · simp only [Bool.true_and, Bool.eq_false_iff, ne_eq, endsWith_iff]; exact h2 rfl
  simp only [List.cons_append, List.nil_append, extractUntilGo, e1, e2, Bool.false_eq_true,
    if_false, if_true, List.foldl_cons, List.foldl_nil, List.length_cons, List.length_nil]
  rw [e3]
  simp [e4]

end Stuart
