import Verif.Model.Display
import Verif.Spec.Display
import Verif.Proof.Markdown
/-
Lemmas on the line an error report quotes.
-/
namespace Stuart
open Spec

theorem stripPrefix_eq_some : ∀ {p s r : Str}, stripPrefix p s = some r → s = p ++ r
  | [], s, r, h => by simpa [stripPrefix] using h
  | _ :: _, [], _, h => by cases h
  | a :: p, c :: s, r, h => by
    unfold stripPrefix at h
    split at h
    · rename_i hac
      rw [stripPrefix_eq_some h, hac]; rfl
    · cases h

theorem linesGo_skip (s : Str) : ∀ (a cur : Str), ['\n'] <:+ a → ∃ L : List Str, L.length = (a.filter (· = '\n')).length ∧
    linesGo cur (a ++ s) = L ++ linesGo [] s
  | [], _, h => by simp at h
  | c :: a, cur, h => by
    by_cases ha : a = []
    · subst ha
      obtain ⟨t, ht⟩ := h
      have hc : c = '\n' := by
        cases t with
        | nil => simpa using ht.symm
        | cons x t => simp at ht
      subst hc
      exact ⟨[(stripSuffix ['\r'] cur).getD cur], by simp, rfl⟩
    · have h' : ['\n'] <:+ a := by
        obtain ⟨t, ht⟩ := h
        cases t with
        | nil => simp at ht; exact absurd ht.2.symm (by simpa using ha)
        | cons x t => simp at ht; exact ⟨t, by simpa using ht.2⟩
      by_cases hc : c = '\n'
      · subst hc
        obtain ⟨L, hl, he⟩ := linesGo_skip s a [] h'
        exact ⟨(stripSuffix ['\r'] cur).getD cur :: L, by simp [hl], by simp [linesGo, he]⟩
      · obtain ⟨L, hl, he⟩ := linesGo_skip s a (cur ++ [c]) h'
        exact ⟨L, by simp [hl, hc], by simp [linesGo, hc, he]⟩

theorem not_nl_takeWhile : ∀ (s : Str), '\n' ∉ s.takeWhile (· ≠ '\n')
  | [] => by simp
  | c :: s => by
    have := not_nl_takeWhile s
    rw [List.takeWhile_cons]
    split
    · rename_i hc
      have hc : c ≠ '\n' := by simpa using hc
      simp only [List.mem_cons, not_or]
      exact ⟨fun h => hc h.symm, this⟩
    · simp

theorem stripCr (x : Str) : (stripSuffix ['\r'] x).getD x ++ ['\r'] = x ∨ (stripSuffix ['\r'] x).getD x = x ∧ ¬ ['\r'] <:+ x := by
  rcases List.eq_nil_or_concat x with rfl | ⟨y, c, rfl⟩
  · exact .inr ⟨rfl, by simp⟩
  · rw [List.concat_eq_append]
    by_cases hc : c = '\r'
    · subst hc
      left
      simp [stripSuffix, stripPrefix]
    · right
      refine ⟨?_, ?_⟩
      · have : ¬ '\r' = c := fun h => hc h.symm
        simp [stripSuffix, stripPrefix, this]
      · rintro ⟨t, ht⟩
        have := (List.append_inj' ht rfl).2
        exact hc (by simpa using this.symm)

/-- Every non-empty text ends in some line. -/
theorem lines_at (pre d : Str) (hp : pre ≠ []) :
    ∃ l n, LineOf (pre ++ d) pre l n ∧ (lines (pre ++ d))[lineAt pre - 1]? = some l ∧
      colAt pre = n + (if '\n' ∈ pre.dropLast then 0 else 1) := by
  obtain ⟨q, c, rfl⟩ : ∃ q c, pre = q ++ [c] := by
    rcases List.eq_nil_or_concat pre with rfl | ⟨q, c, rfl⟩
    · exact absurd rfl hp
    · exact ⟨q, c, List.concat_eq_append ..⟩
  -- the last line of what precedes the last character
  have hq : q = (q.reverse.dropWhile (· ≠ '\n')).reverse ++ (q.reverse.takeWhile (· ≠ '\n')).reverse := by
    rw [← List.reverse_append, List.takeWhile_append_dropWhile, List.reverse_reverse]
  have ha : (q.reverse.dropWhile (· ≠ '\n')).reverse = [] ∨ ['\n'] <:+ (q.reverse.dropWhile (· ≠ '\n')).reverse := by
    cases he : q.reverse.dropWhile (· ≠ '\n') with
    | nil => exact .inl rfl
    | cons x t =>
      have := List.head_dropWhile_not (fun c : Char => decide (c ≠ '\n')) (l := q.reverse) (by rw [he]; simp)
      simp only [he, List.head_cons] at this
      have hx : x = '\n' := by simpa using this
      subst hx
      exact .inr ⟨t.reverse, by simp⟩
  have hb : '\n' ∉ (q.reverse.takeWhile (· ≠ '\n')).reverse := by
    intro hm
    exact not_nl_takeWhile _ (List.mem_reverse.1 hm)
  generalize hA : (q.reverse.dropWhile (· ≠ '\n')).reverse = a at hq ha
  generalize hB : (q.reverse.takeWhile (· ≠ '\n')).reverse = b at hq hb
  have hcol : colAt (q ++ [c]) = (b.filter (· ≠ '\r')).length + (if '\n' ∈ (q ++ [c]).dropLast then 0 else 1) := by
    unfold colAt
    rw [List.dropLast_concat, ← hB, List.filter_reverse, List.length_reverse]
  -- the rest of the line
  have hr : '\n' ∉ (c :: d).takeWhile (· ≠ '\n') := by
    exact not_nl_takeWhile _
  have ht : (c :: d).dropWhile (· ≠ '\n') = [] ∨ ['\n'] <+: (c :: d).dropWhile (· ≠ '\n') := by
    cases he : (c :: d).dropWhile (· ≠ '\n') with
    | nil => exact .inl rfl
    | cons x t =>
      have := List.head_dropWhile_not (fun c : Char => decide (c ≠ '\n')) (l := c :: d) (by rw [he]; simp)
      simp only [he, List.head_cons] at this
      have hx : x = '\n' := by simpa using this
      subst hx
      exact .inr ⟨t, by simp⟩
  have hcd := (List.takeWhile_append_dropWhile (p := fun c : Char => decide (c ≠ '\n')) (l := c :: d)).symm
  generalize (c :: d).takeWhile (· ≠ '\n') = r at hr hcd
  generalize (c :: d).dropWhile (· ≠ '\n') = tail at ht hcd
  have hfile : q ++ [c] ++ d = a ++ (b ++ r ++ tail) := by
    rw [hq]
    have : a ++ b ++ [c] ++ d = a ++ b ++ (c :: d) := by simp
    rw [this, hcd]; simp
  have hline : lineAt (q ++ [c]) - 1 = (a.filter (· = '\n')).length := by
    unfold lineAt
    rw [List.dropLast_concat, hq, List.filter_append]
    have : b.filter (· = '\n') = [] := by
      rw [List.filter_eq_nil_iff]
      intro x hx
      simp only [decide_eq_true_eq]
      rintro rfl
      exact hb hx
    rw [this]; simp
  have hgo : ∃ L : List Str, L.length = (a.filter (· = '\n')).length ∧ lines (q ++ [c] ++ d) = L ++ linesGo (b ++ r) tail := by
    have e1 : linesGo [] (b ++ r ++ tail) = linesGo (b ++ r) tail := by
      rw [linesGo_run (b ++ r) [] tail (by simp [hb, hr])]; rfl
    rw [hfile]
    rcases ha with rfl | ha
    · exact ⟨[], rfl, e1⟩
    · obtain ⟨L, hl, he⟩ := linesGo_skip (b ++ r ++ tail) a [] ha
      exact ⟨L, hl, by unfold lines; rw [he, e1]⟩
  obtain ⟨L, hL, hl⟩ := hgo
  have hlof : ∀ l, (tail = [] ∧ l = b ++ r ∨ ['\n'] <+: tail ∧ (l ++ ['\r'] = b ++ r ∨ l = b ++ r ∧ ¬ ['\r'] <:+ b ++ r)) →
      LineOf (q ++ [c] ++ d) (q ++ [c]) l (b.filter (· ≠ '\r')).length := fun l h =>
    ⟨a, b, c, d, r, tail, by rw [hq]; simp, by rw [hq], ha, hb, rfl, hcd, hr, h⟩
  rw [hline, hl, ← hL, List.getElem?_append_right (Nat.le_refl _), Nat.sub_self]
  rcases ht with rfl | ⟨t, rfl⟩
  · refine ⟨b ++ r, _, hlof _ (.inl ⟨rfl, rfl⟩), ?_, hcol⟩
    have : b ++ r ≠ [] := by
      rw [List.append_nil] at hcd
      rw [← hcd]; simp
    simp [linesGo, this]
  · exact ⟨_, _, hlof _ (.inr ⟨⟨t, rfl⟩, stripCr (b ++ r)⟩), by simp [linesGo], hcol⟩

end Stuart
