import Verif.Spec.Text
import Verif.Model.Process
import Verif.Proof.Args
import Verif.Proof.Utf8
/-
`excerpt` and `timetoread`.
-/
namespace Stuart
open Spec

/-- The interpreter's flag for what precedes. -/
def inTag (before : Str) : Bool := before.find? isDelim == some '<'

theorem inTag_cons (c : Char) (before : Str) :
    inTag (c :: before) = if c = '<' then true else if c = '>' then false else inTag before := by
  unfold inTag
  rw [List.find?_cons]
  by_cases h1 : c = '<'
  · subst h1; rfl
  · by_cases h2 : c = '>'
    · subst h2; rfl
    · have : isDelim c = false := by simp [isDelim, h1, h2]
      simp [this, h1, h2]

theorem excerptGo_spec (len : Nat) : ∀ (s before : Str) (k : Nat),
    let r := excerptGo len (inTag before) k s
    r.2 ≤ s.length ∧ r.1 = visibleAfter before (s.take r.2) ∧
    (r.2 = s.length ∨ len ≤ k + (bytesOf r.1).length) ∧
    (r.1 ≠ [] → k + (bytesOf r.1.dropLast).length < len)
  | [], before, k => by simp [excerptGo, visibleAfter]
  | c :: cs, before, k => by
    simp only
    unfold excerptGo
    by_cases hk : k < len
    · rw [if_pos hk]
      by_cases h1 : c = '<'
      · subst h1
        have ih := excerptGo_spec len cs ('<' :: before) k
        rw [inTag_cons, if_pos rfl] at ih
        simp only [if_true] at ih ⊢
        obtain ⟨a, b, c, d⟩ := ih
        refine ⟨by simp; omega, ?_, ?_, d⟩
        · rw [List.take_succ_cons, visibleAfter, if_pos (.inl rfl)]; exact b
        · rcases c with c | c
          · left; simp [c]
          · exact .inr c
      · rw [if_neg h1]
        by_cases h2 : c = '>'
        · subst h2
          have ih := excerptGo_spec len cs ('>' :: before) k
          rw [inTag_cons, if_neg (by decide), if_pos rfl] at ih
          simp only [if_true] at ih ⊢
          obtain ⟨a, b, c, d⟩ := ih
          refine ⟨by simp; omega, ?_, ?_, d⟩
          · rw [List.take_succ_cons, visibleAfter, if_pos (.inl rfl)]; exact b
          · rcases c with c | c
            · left; simp [c]
            · exact .inr c
        · rw [if_neg h2]
          have hd : isDelim c = false := by simp [isDelim, h1, h2]
          by_cases h3 : inTag before = true
          · rw [if_pos h3]
            have ih := excerptGo_spec len cs (c :: before) k
            rw [inTag_cons, if_neg h1, if_neg h2] at ih
            simp only at ih ⊢
            obtain ⟨a, b, cc, d⟩ := ih
            refine ⟨by simp; omega, ?_, ?_, d⟩
            · rw [List.take_succ_cons, visibleAfter, if_pos (.inr (eq_of_beq h3))]; exact b
            · rcases cc with cc | cc
              · left; simp [cc]
              · exact .inr cc
          · rw [if_neg h3]
            have ih := excerptGo_spec len cs (c :: before) (k + (bytesOf [c]).length)
            rw [inTag_cons, if_neg h1, if_neg h2] at ih
            simp only at ih ⊢
            obtain ⟨a, b, cc, d⟩ := ih
            have hb : ∀ t : Str, (bytesOf (c :: t)).length = (bytesOf [c]).length + (bytesOf t).length := by
              intro t
              have := bytesOf_append [c] t
              rw [List.singleton_append] at this
              rw [this, List.length_append]
            refine ⟨by simp; omega, ?_, ?_, ?_⟩
            · rw [List.take_succ_cons, visibleAfter, if_neg]
              · exact congrArg _ b
              · rintro (h | h)
                · rw [hd] at h; cases h
                · exact h3 (by simp [inTag, h])
            · rcases cc with cc | cc
              · left; simp [cc]
              · right; rw [hb]; omega
            · intro _
              cases hr : (excerptGo len (inTag before) (k + (bytesOf [c]).length) cs).1 with
              | nil => simp [bytesOf]; omega
              | cons x xs =>
                rw [hr] at d
                have d := d (by simp)
                rw [List.dropLast_cons_cons, hb]
                omega
    · rw [if_neg hk]
      simp [visibleAfter]; omega

theorem visibleAfter_append : ∀ (a before b : Str),
    visibleAfter before (a ++ b) = visibleAfter before a ++ visibleAfter (a.reverse ++ before) b
  | [], before, b => by simp [visibleAfter]
  | c :: cs, before, b => by
    have ih := visibleAfter_append cs (c :: before) b
    have hr : (c :: cs).reverse ++ before = cs.reverse ++ c :: before := by simp
    rw [List.cons_append, hr]
    simp only [visibleAfter]
    split
    · exact ih
    · rw [ih]; rfl

theorem visibleAfter_no_delim : ∀ (s before : Str), ∀ c ∈ visibleAfter before s, isDelim c = false
  | [], _, c, h => by simp [visibleAfter] at h
  | d :: ds, before, c, h => by
    unfold visibleAfter at h
    split at h
    · exact visibleAfter_no_delim ds _ c h
    · rename_i hn
      rcases List.mem_cons.1 h with rfl | h
      · cases hd : isDelim c with
        | false => rfl
        | true => exact absurd (.inl hd) hn
      · exact visibleAfter_no_delim ds _ c h

theorem bytesOf_length_ge : ∀ s : Str, s.length ≤ (bytesOf s).length
  | [] => by simp
  | c :: cs => by
    have := bytesOf_length_ge cs
    have h := bytesOf_append [c] cs
    rw [List.singleton_append] at h
    rw [h, List.length_append, List.length_cons]
    have : 1 ≤ (bytesOf [c]).length := by
      simp only [bytesOf, List.flatMap_cons, List.flatMap_nil, List.append_nil]
      rw [String.length_utf8EncodeChar]
      exact Char.utf8Size_pos c
    omega

theorem bytesOf_length_ascii : ∀ s : Str, (∀ c ∈ s, c.toNat < 128) → (bytesOf s).length = s.length
  | [], _ => by simp [bytesOf]
  | c :: cs, h => by
    have ih := bytesOf_length_ascii cs fun d hd => h d (by simp [hd])
    have hh := bytesOf_append [c] cs
    rw [List.singleton_append] at hh
    rw [hh, List.length_append, ih, List.length_cons]
    have : (bytesOf [c]).length = 1 := by
      simp only [bytesOf, List.flatMap_cons, List.flatMap_nil, List.append_nil]
      rw [String.length_utf8EncodeChar, Char.utf8Size_eq_one_iff]
      have := h c (by simp)
      show c.val ≤ 127
      rw [UInt32.le_iff_toNat_le]
      show c.val.toNat ≤ 127
      have : c.val.toNat < 128 := this
      omega
    omega

theorem wordsGo_words : ∀ (s : Str) (p : Option Char),
    wordsGo (match p with | none => false | some c => !isWs c) s =
      ((p :: s.map some).zip s).countP fun p => !isWs p.2 && (match p.1 with | none => true | some c => isWs c)
  | [], p => by simp [wordsGo]
  | c :: cs, p => by
    have ih := wordsGo_words cs (some c)
    rw [List.map_cons, List.zip_cons_cons, List.countP_cons, ← ih]
    simp only [wordsGo]
    by_cases hc : isWs c = true
    · simp [hc]
    · have hc : isWs c = false := by simpa using hc
      cases p with
      | none => simp [hc]
      | some d => by_cases hd : isWs d = true <;> simp [hc, hd]

theorem digitChar_core : ∀ n : Nat, n < 10 → Nat.digitChar n = digitChar n := by decide

theorem natDigitsGo_core : ∀ (f n : Nat) (acc : Str), n < f → natDigitsGo f n acc = Nat.toDigitsCore 10 f n acc
  | 0, n, acc, h => by omega
  | f + 1, n, acc, h => by
    rw [natDigitsGo, Nat.toDigitsCore]
    by_cases h10 : n < 10
    · rw [if_pos h10, if_pos (by omega), Nat.mod_eq_of_lt h10, digitChar_core n h10]
    · rw [if_neg h10, if_neg (by omega), digitChar_core _ (by omega)]
      exact natDigitsGo_core f _ _ (by omega)

theorem natToStr_toDigits (n : Nat) : natToStr n = Nat.toDigits 10 n := natDigitsGo_core _ _ _ (by omega)

theorem wordCount_words (s : Str) : wordCount s = words s := wordsGo_words s none

theorem words_append (s t : Str) : words s ≤ words (s ++ t) := by
  rw [← wordCount_words, ← wordCount_words]
  unfold wordCount
  generalize false = b
  induction s generalizing b with
  | nil => simp [wordsGo]
  | cons c cs ih =>
    rw [List.cons_append]
    simp only [wordsGo]
    split
    · exact ih _
    · split
      · exact ih _
      · have := ih true; omega

theorem natDigitsGo_head : ∀ (f n : Nat) (acc : Str), n < f → 0 < n → (natDigitsGo f n acc).head? ≠ some '0'
  | 0, n, acc, h, _ => absurd h (by omega)
  | f + 1, n, acc, h, hp => by
    unfold natDigitsGo
    split
    · rename_i hn
      simp only [List.head?_cons, ne_eq, Option.some.injEq]
      have : ∀ d, d < 10 → 0 < d → digitChar d ≠ '0' := by decide
      exact this n hn hp
    · exact natDigitsGo_head f (n / 10) _ (by omega) (by omega)

theorem bytesOf_cons_length (c : Char) (t : Str) : (bytesOf (c :: t)).length = (bytesOf [c]).length + (bytesOf t).length := by
  have := bytesOf_append [c] t
  rw [List.singleton_append] at this
  rw [this, List.length_append]

/-- Before the last character read the limit was not reached. -/
theorem excerptGo_before (len : Nat) : ∀ (s before : Str) (k : Nat),
    ∀ j < (excerptGo len (inTag before) k s).2, k + (bytesOf (visibleAfter before (s.take j))).length < len
  | [], before, k, j, h => by simp [excerptGo] at h
  | c :: cs, before, k, j, h => by
    unfold excerptGo at h
    by_cases hk : k < len
    · rw [if_pos hk] at h
      cases j with
      | zero => simpa [visibleAfter, bytesOf] using hk
      | succ j =>
        rw [List.take_succ_cons, visibleAfter]
        by_cases h1 : c = '<'
        · have ih := excerptGo_before len cs (c :: before) k j
          rw [inTag_cons, if_pos h1] at ih
          rw [if_pos (.inl (by simp [isDelim, h1]))]
          rw [if_pos h1] at h
          exact ih (by simpa using h)
        · rw [if_neg h1] at h
          by_cases h2 : c = '>'
          · have ih := excerptGo_before len cs (c :: before) k j
            rw [inTag_cons, if_neg h1, if_pos h2] at ih
            rw [if_pos (.inl (by simp [isDelim, h2]))]
            rw [if_pos h2] at h
            exact ih (by simpa using h)
          · rw [if_neg h2] at h
            by_cases h3 : inTag before = true
            · have ih := excerptGo_before len cs (c :: before) k j
              rw [inTag_cons, if_neg h1, if_neg h2] at ih
              rw [if_pos (.inr (eq_of_beq h3))]
              rw [if_pos h3] at h
              exact ih (by simpa using h)
            · have ih := excerptGo_before len cs (c :: before) (k + (bytesOf [c]).length) j
              rw [inTag_cons, if_neg h1, if_neg h2] at ih
              rw [if_neg h3] at h
              rw [if_neg (by
                rintro (h | h)
                · simp [isDelim, h1, h2] at h
                · exact h3 (by simp [inTag, h])), bytesOf_cons_length]
              have := ih (by simpa using h)
              omega
    · rw [if_neg hk] at h
      simp at h

theorem partRead_eq (n : Nat) (s : Str) : partRead n s = s.take (excerptGo n false 0 s).2 := by
  have hsp := excerptGo_spec n s [] 0
  have hin : inTag [] = false := rfl
  have hbf := excerptGo_before n s [] 0
  rw [hin] at hsp hbf
  obtain ⟨h1, h2, h3, -⟩ := hsp
  unfold partRead
  split
  · rename_i k hk
    rw [List.find?_range_eq_some] at hk
    obtain ⟨k1, k2, k3⟩ := hk
    simp only [decide_eq_true_eq] at k1
    rw [List.mem_range] at k2
    have e : k = (excerptGo n false 0 s).2 := by
      rcases Nat.lt_trichotomy k (excerptGo n false 0 s).2 with h | h | h
      · have := hbf k h
        simp only [visible] at k1
        omega
      · exact h
      · have : ¬ n ≤ (bytesOf (visible (s.take (excerptGo n false 0 s).2))).length := by
          have := k3 _ h
          rwa [Bool.not_eq_true', decide_eq_false_iff_not] at this
        simp only [visible] at this
        rw [h2] at h3
        rcases h3 with h3 | h3 <;> omega
    rw [e]
  · rename_i hk
    rw [List.find?_range_eq_none] at hk
    rcases h3 with h3 | h3
    · rw [h3, List.take_length]
    · rcases Nat.lt_or_eq_of_le h1 with h | h
      · have : ¬ n ≤ (bytesOf (visible (s.take (excerptGo n false 0 s).2))).length := by
          have := hk _ h
          rwa [Bool.not_eq_true', decide_eq_false_iff_not] at this
        simp only [visible] at this
        rw [h2] at h3
        omega
      · rw [h, List.take_length]

theorem excerptOf_partRead (n : Nat) (s : Str) :
    excerptOf n s = visible (partRead n s) ++ if (partRead n s).length < (bytesOf s).length then str!"..." else [] := by
  have hsp := excerptGo_spec n s [] 0
  have hin : inTag [] = false := rfl
  rw [hin] at hsp
  obtain ⟨h1, h2, -, -⟩ := hsp
  rw [partRead_eq, List.length_take, Nat.min_eq_left h1]
  simp only [excerptOf, visible, ← h2]
  split <;> simp

end Stuart
