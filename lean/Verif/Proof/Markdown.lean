import Verif.Proof.Sound
import Verif.Spec.Lines
/-
Helper lemmas: lines and frontmatter.
-/
namespace Stuart
open Spec

/-! ### Lines -/

theorem linesGo_run : ∀ (l cur r : Str), '\n' ∉ l → linesGo cur (l ++ r) = linesGo (cur ++ l) r
  | [], cur, r, _ => by simp
  | c :: l, cur, r, h => by
    have hc : c ≠ '\n' := by rintro rfl; exact h (by simp)
    have := linesGo_run l (cur ++ [c]) r (fun hm => h (by simp [hm]))
    simp only [List.cons_append, linesGo, hc, if_false]
    rw [this]
    simp

theorem stripSuffix_none_cr {l : Str} (h : ¬ ['\r'] <:+ l) : stripSuffix ['\r'] l = none := by
  unfold stripSuffix
  rcases List.eq_nil_or_concat l with rfl | ⟨y, c, rfl⟩
  · rfl
  · rw [List.concat_eq_append] at *
    have hc : c ≠ '\r' := by rintro rfl; exact h ⟨y, rfl⟩
    simp [stripPrefix, Ne.symm hc]

theorem lines_of_hasLines {s : Str} {ls : List Str} (h : HasLines s ls) : lines s = ls := by
  unfold lines
  induction h with
  | nil => rfl
  | last l h0 h1 =>
    have := linesGo_run l [] [] h1
    rw [List.append_nil] at this
    rw [this]
    simp [linesGo, h0]
  | lf l r ls h1 h2 _ ih =>
    rw [linesGo_run l [] _ h1]
    simp [linesGo, stripSuffix_none_cr h2, ih]
  | crlf l r ls h1 _ ih =>
    rw [linesGo_run l [] _ h1]
    simp only [List.nil_append, linesGo, Char.reduceEq, if_false, if_true]
    rw [stripSuffix_append, ih]
    rfl

theorem lines_cons_lf {l r : Str} (h1 : '\n' ∉ l) (h2 : ¬ ['\r'] <:+ l) :
    lines (l ++ '\n' :: r) = l :: lines r := by
  unfold lines
  rw [linesGo_run l [] _ h1]
  simp [linesGo, stripSuffix_none_cr h2]

theorem hasLines_lines_aux : ∀ (n : Nat) (s : Str), s.length ≤ n → HasLines s (lines s)
  | n, s, hn => by
    by_cases hm : '\n' ∈ s
    · obtain ⟨l, r, e, hl⟩ := List.eq_append_cons_of_mem hm
      have hlen : r.length + 1 ≤ s.length := by rw [e]; simp
      obtain ⟨m, rfl⟩ : ∃ m, n = m + 1 := ⟨n - 1, by omega⟩
      have ih := hasLines_lines_aux m r (by omega)
      subst e
      by_cases hc : ['\r'] <:+ l
      · obtain ⟨l', rfl⟩ := hc
        have := HasLines.crlf l' r _ (fun h => hl (by simp [h])) ih
        have h2 := lines_of_hasLines this
        have e : l' ++ ['\r'] ++ '\n' :: r = l' ++ '\r' :: '\n' :: r := by simp
        rw [e, h2]
        exact this
      · have := HasLines.lf l r _ hl hc ih
        rw [lines_of_hasLines this]
        exact this
    · cases s with
      | nil => exact .nil
      | cons c cs =>
        have := HasLines.last (c :: cs) (by simp) hm
        rw [lines_of_hasLines this]
        exact this

/-- Every text has lines, and they are the ones found. -/
theorem hasLines_lines (s : Str) : HasLines s (lines s) := hasLines_lines_aux _ s (Nat.le_refl _)

/-- Split at every newline, keeping carriage returns. -/
def lfLines : Str → Str → List Str
  | cur, [] => if cur.isEmpty then [] else [cur]
  | cur, c :: cs => if c = '\n' then cur :: lfLines [] cs else lfLines (cur ++ [c]) cs

theorem linesGo_crlf (s : Str) : ∀ (cur : Str), (['\r'] <:+ cur → s.head? ≠ some '\n') →
    linesGo cur s = lfLines cur (crlfToLf s) := by
  induction s using crlfToLf.induct with
  | case1 => intro cur _; rfl
  | case2 cs ih =>
    intro cur _
    simp only [crlfToLf, linesGo, lfLines, Char.reduceEq, if_false, if_true]
    rw [stripSuffix_append, ih [] (by simp)]
    rfl
  | case3 c cs hne ih =>
    intro cur hcur
    have hcr : crlfToLf (c :: cs) = c :: crlfToLf cs := by
      rw [crlfToLf]
      intro ds h1 h2
      exact hne ds h1 h2
    rw [hcr]
    by_cases hc : c = '\n'
    · subst hc
      have : ¬ ['\r'] <:+ cur := fun h => hcur h rfl
      simp only [linesGo, lfLines, if_true]
      rw [stripSuffix_none_cr this, ih [] (by simp)]
      rfl
    · simp only [linesGo, lfLines, hc, if_false]
      refine ih _ ?_
      intro h h2
      have := suffix_singleton_append_singleton.1 h
      subst this
      cases cs with
      | nil => cases h2
      | cons d ds =>
        simp at h2
        exact hne ds rfl (by rw [h2])

theorem lines_crlf (s : Str) : lines s = lfLines [] (crlfToLf s) :=
  linesGo_crlf s [] (by rintro ⟨a, e⟩; simp at e)

theorem crlfToLf_id : ∀ (s : Str), ¬ str!"\r\n" <:+: s → crlfToLf s = s := by
  intro s
  induction s using crlfToLf.induct with
  | case1 => intro _; rfl
  | case2 cs ih => intro h; exact absurd ⟨[], cs, rfl⟩ h
  | case3 c cs hne ih =>
    intro h
    rw [crlfToLf, ih]
    · intro hh; exact h (hh.trans ⟨[c], [], by simp⟩)
    · exact hne

/-- After normalisation there is no CRLF left, unless there was a doubled carriage return. -/
theorem crlfToLf_clean (s : Str) : ¬ str!"\r\r\n" <:+: s → ¬ str!"\r\n" <:+: crlfToLf s := by
  induction s using crlfToLf.induct with
  | case1 =>
    intro _ h
    obtain ⟨a, b, e⟩ := h
    simp [crlfToLf] at e
  | case2 cs ih =>
    intro h hh
    rw [crlfToLf] at hh
    rw [List.infix_cons_iff] at hh
    rcases hh with hh | hh
    · obtain ⟨t, e⟩ := hh
      simp at e
    · refine ih ?_ hh
      intro h2
      exact h (h2.trans ⟨['\r', '\n'], [], by simp⟩)
  | case3 c cs hne ih =>
    intro h hh
    rw [crlfToLf.eq_3 c cs hne, List.infix_cons_iff] at hh
    rcases hh with hh | hh
    · obtain ⟨t, e⟩ := hh
      simp only [List.cons_append, List.nil_append, List.cons.injEq] at e
      obtain ⟨rfl, e⟩ := e
      -- the rest normalises to something that starts with a newline
      cases cs with
      | nil => simp [crlfToLf] at e
      | cons d ds =>
        by_cases hd : d = '\n'
        · exact hne ds rfl (by rw [hd])
        · by_cases hd2 : ∃ es, d = '\r' ∧ ds = '\n' :: es
          · obtain ⟨es, rfl, rfl⟩ := hd2
            exact h ⟨[], es, rfl⟩
          · rw [crlfToLf.eq_3 d ds (by rintro es rfl rfl; exact hd2 ⟨es, rfl, rfl⟩)] at e
            simp at e
            exact hd e.1.symm
    · refine ih ?_ hh
      intro h2
      exact h (h2.trans ⟨[c], [], by simp⟩)

theorem lines_crlf_eq (s : Str) (h : ¬ str!"\r\r\n" <:+: s) : lines (crlfToLf s) = lines s := by
  rw [lines_crlf (crlfToLf s), crlfToLf_id _ (crlfToLf_clean s h), ← lines_crlf]

theorem lfLines_cons_ne (cur : Str) : ∀ (s : Str), cur ≠ [] → lfLines cur s ≠ []
  | [], h => by simp [lfLines, h]
  | c :: cs, h => by
    unfold lfLines
    split
    · simp
    · exact lfLines_cons_ne _ cs (by simp)

theorem lfLines_ne_nil {s : Str} (h : s ≠ []) : lfLines [] s ≠ [] := by
  cases s with
  | nil => exact absurd rfl h
  | cons c cs =>
    unfold lfLines
    split
    · simp
    · exact lfLines_cons_ne _ cs (by simp)

theorem joinLines_cons {l : Str} {ls : List Str} (h : ls ≠ []) : joinLines (l :: ls) = l ++ '\n' :: joinLines ls := by
  cases ls with
  | nil => exact absurd rfl h
  | cons a b => rfl

theorem joinLines_lfLines : ∀ (s cur : Str), joinLines (lfLines cur s) = cur ++ dropFinalNl s
  | [], cur => by
    cases cur <;> simp [lfLines, joinLines, dropFinalNl]
  | c :: cs, cur => by
    unfold lfLines
    split
    · rename_i hc
      subst hc
      cases cs with
      | nil => simp [lfLines, joinLines, dropFinalNl]
      | cons d ds =>
        rw [joinLines_cons (lfLines_ne_nil (by simp)), joinLines_lfLines (d :: ds) []]
        have : dropFinalNl ('\n' :: d :: ds) = '\n' :: dropFinalNl (d :: ds) := by
          unfold dropFinalNl
          rw [List.getLast?_cons_cons]
          split <;> rfl
        rw [this]
        simp
    · rename_i hc
      rw [joinLines_lfLines cs (cur ++ [c])]
      have : dropFinalNl (c :: cs) = c :: dropFinalNl cs := by
        unfold dropFinalNl
        cases cs with
        | nil => simp [hc]
        | cons d ds =>
          rw [List.getLast?_cons_cons]
          split <;> rfl
      rw [this]
      simp

/-- Joining the lines of a text again: LF line ends, and no final newline. -/
theorem joinLines_lines (s : Str) : joinLines (lines s) = dropFinalNl (crlfToLf s) := by
  rw [lines_crlf, joinLines_lfLines]
  rfl

/-! ### Frontmatter lines -/

theorem trim_mid {a k b : Str} (ha : ∀ c ∈ a, isWs c = true) (hb : ∀ c ∈ b, isWs c = true)
    (h1 : ∀ x, k.head? = some x → isWs x = false) (h2 : ∀ x, k.getLast? = some x → isWs x = false) :
    trim (a ++ k ++ b) = k := by
  have lead : ∀ (a s : Str), (∀ c ∈ a, isWs c = true) → trimStart (a ++ s) = trimStart s := by
    intro a s h
    induction a with
    | nil => rfl
    | cons c a ih =>
      simp only [List.cons_append, trimStart, h c (by simp), if_true]
      exact ih (fun d hd => h d (by simp [hd]))
  have stop : ∀ s : Str, (∀ x, s.head? = some x → isWs x = false) → trimStart s = s := by
    intro s h
    cases s with
    | nil => rfl
    | cons c s => simp [trimStart, h c rfl]
  unfold trim trimEnd
  by_cases hk : k = []
  · subst hk
    have e1 : trimStart (a ++ [] ++ b) = [] := by
      rw [List.append_nil, lead a b ha]
      have := lead b [] hb
      rw [List.append_nil] at this
      rw [this]; rfl
    rw [e1]; rfl
  · have e1 : trimStart (a ++ k ++ b) = k ++ b := by
      rw [List.append_assoc, lead a _ ha, stop]
      intro x hx
      cases k with
      | nil => exact absurd rfl hk
      | cons y ys => exact h1 x (by simpa using hx)
    rw [e1, List.reverse_append, lead _ _ (by simpa using hb), stop, List.reverse_reverse]
    intro x hx
    rw [List.head?_reverse] at hx
    exact h2 x hx

theorem trim_ends (s : Str) : (∀ x, (trim s).head? = some x → isWs x = false) ∧
    (∀ x, (trim s).getLast? = some x → isWs x = false) := by
  have key : ∀ s : Str, ∀ x, (trimStart s).head? = some x → isWs x = false := by
    intro s
    induction s with
    | nil => simp [trimStart]
    | cons c s ih =>
      unfold trimStart
      split
      · exact ih
      · rename_i h
        intro x hx
        simp at hx
        subst hx
        simpa using h
  have last : ∀ x, (trim s).getLast? = some x → isWs x = false := by
    intro x hx
    unfold trim trimEnd at hx
    rw [List.getLast?_reverse] at hx
    exact key _ x hx
  refine ⟨?_, last⟩
  intro x hx
  obtain ⟨w', hw', e'⟩ := trimStart_split (trimStart s).reverse
  have : trimStart s = trim s ++ w'.reverse := by
    have := congrArg List.reverse e'
    simpa [trim, trimEnd] using this
  refine key s x ?_
  rw [this]
  cases h : trim s with
  | nil => rw [h] at hx; cases hx
  | cons y ys => rw [h] at hx; simpa using hx

theorem parseFmLine_some {l k v : Str} (h : FmLine l k v) : parseFmLine l = some (k, v) := by
  cases h with
  | mk a k b c v d ha hb hc hd hcol h1 h2 =>
    unfold parseFmLine
    rw [splitFirst_append ':' (a ++ k ++ b) _ hcol]
    have e : trim (c ++ '"' :: (v ++ '"' :: d)) = '"' :: (v ++ ['"']) := by
      have := trim_mid (a := c) (k := '"' :: (v ++ ['"'])) (b := d) hc hd
        (by intro x hx; simp at hx; subst hx; decide)
        (by
          intro x hx
          have : ('"' :: (v ++ ['"'])).getLast? = some '"' := by
            rw [show '"' :: (v ++ ['"']) = ('"' :: v) ++ ['"'] from rfl, List.getLast?_concat]
          rw [this] at hx
          simp at hx; subst hx; decide)
      rw [← this]
      simp
    simp only [e]
    rw [show stripPrefix ['"'] ('"' :: (v ++ ['"'])) = some (v ++ ['"']) from stripPrefix_append ['"'] _]
    simp only
    rw [stripSuffix_append, trim_mid ha hb h1 h2]
    rfl

theorem splitFirst_fst {d : Char} : ∀ (s : Str), d ∉ (splitFirst d s).1
  | [] => by simp [splitFirst]
  | c :: s => by
    unfold splitFirst
    split
    · simp
    · rename_i hc
      simp only [List.mem_cons, not_or]
      exact ⟨Ne.symm hc, splitFirst_fst s⟩

theorem stripPrefix_single {c : Char} {s t : Str} (h : stripPrefix [c] s = some t) : s = c :: t := by
  cases s with
  | nil => cases h
  | cons d s =>
    simp only [stripPrefix] at h
    split at h
    · rename_i hc; simp at h; rw [hc, h]
    · cases h

theorem stripSuffix_single {c : Char} {s t : Str} (h : stripSuffix [c] s = some t) : s = t ++ [c] := by
  unfold stripSuffix at h
  rw [Option.map_eq_some_iff] at h
  obtain ⟨u, hu, rfl⟩ := h
  have := stripPrefix_single hu
  have := congrArg List.reverse this
  simpa using this

theorem parseFmLine_inv {l : Str} {e : Str × Str} (h : parseFmLine l = some e) : FmLine l e.1 e.2 := by
  unfold parseFmLine at h
  split at h
  · cases h
  · rename_i k v hs
    have hl := splitFirst_some hs
    have hk : ':' ∉ k := by have := splitFirst_fst (d := ':') l; rw [hs] at this; exact this
    split at h
    · cases h
    · rename_i v1 h1
      rw [Option.map_eq_some_iff] at h
      obtain ⟨v2, h2, rfl⟩ := h
      obtain ⟨a, b, ha, hb, hk'⟩ := trim_split k
      obtain ⟨c, d, hc, hd, hv'⟩ := trim_split v
      have e1 := stripPrefix_single h1
      have e2 := stripSuffix_single h2
      subst e2
      have ht := trim_ends k
      have := FmLine.mk a (trim k) b c v2 d ha hb hc hd (by rw [← hk']; exact hk) ht.1 ht.2
      rw [← hk'] at this
      have hv2 : v = c ++ '"' :: (v2 ++ '"' :: d) := by
        rw [hv', e1]; simp
      rw [hl, hv2]
      exact this

theorem parseFmLine_none {l : Str} : parseFmLine l = none ↔ ¬ ∃ k v, FmLine l k v := by
  constructor
  · rintro h ⟨k, v, hf⟩
    rw [parseFmLine_some hf] at h
    cases h
  · intro h
    cases hp : parseFmLine l with
    | none => rfl
    | some e => exact absurd ⟨_, _, parseFmLine_inv hp⟩ h

theorem startsWith_dashes {l : Str} : startsWith str!"---" l = true ↔ Dashes l := by
  unfold startsWith Dashes
  rw [List.isPrefixOf_iff_prefix]

theorem not_dashes {l : Str} (h : ¬ Dashes l) : startsWith str!"---" l = false := by
  rw [Bool.eq_false_iff]; intro hh; exact h (startsWith_dashes.1 hh)

/-- The frontmatter loop over well-formed lines. -/
theorem fmLoop_good (path : Str) : ∀ (good : List (Str × Str × Str)) (i : Nat) (rest : List Str)
    (fm : List (Str × Str)), (∀ e ∈ good, FmLine e.1 e.2.1 e.2.2 ∧ ¬ Dashes e.1) →
    fmLoop path i 1 (good.map (·.1) ++ rest) fm =
      fmLoop path (i + good.length) 1 rest (fm ++ good.map (·.2))
  | [], i, rest, fm, _ => by simp
  | e :: good, i, rest, fm, h => by
    obtain ⟨h1, h2⟩ := h e (by simp)
    simp only [List.map_cons, List.cons_append, fmLoop, not_dashes h2, Bool.false_eq_true, if_false, if_true,
      parseFmLine_some h1]
    rw [fmLoop_good path good (i + 1) rest _ (fun x hx => h x (by simp [hx]))]
    simp [Nat.add_assoc, Nat.add_comm 1]

theorem fmLoop_close (path : Str) (i : Nat) (l : Str) (ls : List Str) (fm : List (Str × Str)) (h : Dashes l) :
    fmLoop path i 1 (l :: ls) fm = .ok (some (i + 1), fm) := by
  simp [fmLoop, startsWith_dashes.2 h]

theorem fmLoop_bad (path : Str) (i : Nat) (l : Str) (ls : List Str) (fm : List (Str × Str)) (h : ¬ Dashes l)
    (hb : ¬ ∃ k v, FmLine l k v) : fmLoop path i 1 (l :: ls) fm = .err ⟨path, i + 1, 0, .invalidFrontmatter⟩ := by
  simp [fmLoop, not_dashes h, parseFmLine_none.2 hb]

theorem fmLoop_open (path : Str) (l : Str) (ls : List Str) (h : Dashes l) :
    fmLoop path 0 0 (l :: ls) [] = fmLoop path 1 1 ls [] := by
  simp [fmLoop, startsWith_dashes.2 h]

/-- Every list of lines is well formed up to its end, a dashed line, or a malformed line. -/
theorem good_prefix : ∀ (ls : List Str), ∃ (good : List (Str × Str × Str)) (rest : List Str),
    ls = good.map (·.1) ++ rest ∧ (∀ e ∈ good, FmLine e.1 e.2.1 e.2.2 ∧ ¬ Dashes e.1) ∧
    (rest = [] ∨ (∃ l more, rest = l :: more ∧ Dashes l) ∨
      ∃ l more, rest = l :: more ∧ ¬ Dashes l ∧ ¬ ∃ k v, FmLine l k v)
  | [] => ⟨[], [], rfl, by simp, Or.inl rfl⟩
  | l :: ls => by
    by_cases hd : Dashes l
    · exact ⟨[], l :: ls, rfl, by simp, Or.inr (Or.inl ⟨l, ls, rfl, hd⟩)⟩
    · by_cases hf : ∃ k v, FmLine l k v
      · obtain ⟨k, v, hf⟩ := hf
        obtain ⟨good, rest, h1, h2, h3⟩ := good_prefix ls
        refine ⟨(l, k, v) :: good, rest, by simp [h1], ?_, h3⟩
        intro e he
        rcases List.mem_cons.1 he with rfl | he
        · exact ⟨hf, hd⟩
        · exact h2 e he
      · exact ⟨[], l :: ls, rfl, by simp, Or.inr (Or.inr ⟨l, ls, rfl, hd, hf⟩)⟩

/-- The test for frontmatter looks at the first line only. -/
def OpensFm (s : Str) : Prop := str!"---\n" <+: s ∨ str!"---\r\n" <+: s

theorem opensFm_test (s : Str) : (startsWith str!"---\n" s || startsWith str!"---\r\n" s) = true ↔ OpensFm s := by
  rw [Bool.or_eq_true]
  unfold startsWith OpensFm
  rw [List.isPrefixOf_iff_prefix, List.isPrefixOf_iff_prefix]

theorem opensFm_lines {s : Str} (h : OpensFm s) : ∃ ls, lines s = str!"---" :: ls := by
  rcases h with ⟨t, rfl⟩ | ⟨t, rfl⟩
  · exact ⟨lines t, lines_cons_lf (l := str!"---") (by decide) (by decide)⟩
  · refine ⟨lines t, ?_⟩
    unfold lines
    rfl

theorem opensFm_crlf (s : Str) (h : ¬ str!"\r\r\n" <:+: s) : OpensFm (crlfToLf s) ↔ OpensFm s := by
  constructor
  · rintro (⟨t, e⟩ | ⟨t, e⟩)
    · rcases s with _ | ⟨a, s⟩; · simp [crlfToLf] at e
      rcases s with _ | ⟨b, s⟩
      · by_cases ha : a = '\r' <;> simp [crlfToLf] at e
      rcases s with _ | ⟨c, s⟩
      · exfalso
        have hl : ∀ s : Str, (crlfToLf s).length ≤ s.length := by
          intro s
          induction s using crlfToLf.induct with
          | case1 => simp [crlfToLf]
          | case2 cs ih => simp [crlfToLf]; omega
          | case3 c cs hne ih => rw [crlfToLf.eq_3 c cs hne]; simp; omega
        have := hl [a, b]
        rw [← e] at this
        simp at this
      have step : ∀ (x : Char) (y r : Str), x :: r = crlfToLf y → x ≠ '\n' →
          ∃ y', y = x :: y' ∧ r = crlfToLf y' := by
        intro x y r he hx
        induction y using crlfToLf.induct with
        | case1 => simp [crlfToLf] at he
        | case2 cs ih => simp [crlfToLf] at he; exact absurd he.1 hx
        | case3 c cs hne ih =>
          rw [crlfToLf.eq_3 c cs hne] at he
          simp at he
          exact ⟨cs, by rw [he.1], he.2⟩
      obtain ⟨y1, e1, e⟩ := step '-' _ _ e (by decide)
      obtain ⟨y2, e2, e⟩ := step '-' _ _ e (by decide)
      obtain ⟨y3, e3, e⟩ := step '-' _ _ e (by decide)
      rw [e1, e2, e3]
      cases y3 with
      | nil => simp [crlfToLf] at e
      | cons d ds =>
        by_cases hd : ∃ es, d = '\r' ∧ ds = '\n' :: es
        · obtain ⟨es, rfl, rfl⟩ := hd
          exact Or.inr ⟨es, rfl⟩
        · rw [crlfToLf.eq_3 d ds (by rintro es rfl rfl; exact hd ⟨es, rfl, rfl⟩)] at e
          simp at e
          exact Or.inl ⟨ds, by rw [← e.1]; rfl⟩
    · exact absurd ⟨str!"---", t, by rw [← e]; simp⟩ (crlfToLf_clean s h)
  · rintro (⟨t, rfl⟩ | ⟨t, rfl⟩)
    · exact Or.inl ⟨crlfToLf t, by simp [crlfToLf]⟩
    · exact Or.inl ⟨crlfToLf t, by simp [crlfToLf]⟩

theorem parseFrontmatter_open (path s : Str) (h : OpensFm s) : parseFrontmatter path s =
    (fmLoop path 0 0 (lines s) []).bind fun
      | (some n, fm) => .ok (n, fm)
      | (none, _) => .err ⟨path, (lines s).length, 0, .unexpectedEOF⟩ := by
  unfold parseFrontmatter
  rw [(opensFm_test s).2 h]
  rfl

theorem parseFrontmatter_plain (path s : Str) (h : ¬ OpensFm s) : parseFrontmatter path s = .ok (0, []) := by
  unfold parseFrontmatter
  have : (startsWith str!"---\n" s || startsWith str!"---\r\n" s) = false := by
    rw [Bool.eq_false_iff]; intro hh; exact h ((opensFm_test s).1 hh)
  rw [this]
  rfl

/-! ### Whole files -/

theorem fmLine_is (e : Str × Str) (h : PairWF e) : FmLine (fmLine e) e.1 e.2 := by
  have := FmLine.mk [] e.1 [] [' '] e.2 [] (by simp [Blank]) (by simp [Blank])
    (by unfold Blank; decide) (by simp [Blank]) (by simpa using h.colon) h.head h.last
  simpa [fmLine] using this

theorem fmLine_nl (e : Str × Str) (h : PairWF e) : '\n' ∉ fmLine e := by
  simp [fmLine, h.nl, h.value]

theorem fmLine_cr (e : Str × Str) : ¬ ['\r'] <:+ fmLine e := by
  rintro ⟨p, hp⟩
  have := congrArg List.getLast? hp
  have e1 : (fmLine e).getLast? = some '"' := by
    unfold fmLine
    exact List.getLast?_concat
  rw [e1, List.getLast?_append] at this
  simp at this

theorem fmLine_dashes (e : Str × Str) (h : PairWF e) : ¬ Dashes (fmLine e) := by
  intro hd
  apply h.dashes
  unfold Dashes fmLine at *
  obtain ⟨t, ht⟩ := hd
  rcases hk : e.1 with _ | ⟨a, k⟩
  · rw [hk] at ht; simp at ht
  rcases k with _ | ⟨b, k⟩
  · rw [hk] at ht; simp at ht
  rcases k with _ | ⟨c, k⟩
  · rw [hk] at ht; simp at ht
  · rw [hk] at ht
    simp at ht
    exact ⟨k, by simp [← ht.1, ← ht.2.1, ← ht.2.2.1]⟩

theorem lines_pairs (pairs : List (Str × Str)) (h : ∀ e ∈ pairs, PairWF e) (r : Str) :
    lines ((pairs.flatMap fun e => fmLine e ++ ['\n']) ++ r) = pairs.map fmLine ++ lines r := by
  induction pairs with
  | nil => simp
  | cons e pairs ih =>
    have he := h e (by simp)
    have : ((e :: pairs).flatMap fun e => fmLine e ++ ['\n']) ++ r =
        fmLine e ++ '\n' :: ((pairs.flatMap fun e => fmLine e ++ ['\n']) ++ r) := by simp
    rw [this, lines_cons_lf (fmLine_nl e he) (fmLine_cr e), ih (fun x hx => h x (by simp [hx]))]
    rfl

theorem lines_mdFile (pairs : List (Str × Str)) (h : ∀ e ∈ pairs, PairWF e) (body : Str) :
    lines (mdFile pairs body) = str!"---" :: (pairs.map fmLine ++ str!"---" :: lines body) := by
  have : mdFile pairs body = str!"---" ++ '\n' :: ((pairs.flatMap fun e => fmLine e ++ ['\n']) ++
      (str!"---" ++ '\n' :: body)) := by simp [mdFile]
  rw [this, lines_cons_lf (by decide) (by decide), lines_pairs pairs h, lines_cons_lf (by decide) (by decide)]

theorem mdFile_opens (pairs : List (Str × Str)) (body : Str) : OpensFm (mdFile pairs body) :=
  Or.inl ⟨_, by simp [mdFile]; rfl⟩

theorem parseFrontmatter_mdFile (path : Str) (pairs : List (Str × Str)) (h : ∀ e ∈ pairs, PairWF e) (body : Str) :
    parseFrontmatter path (mdFile pairs body) = .ok (pairs.length + 2, pairs) := by
  rw [parseFrontmatter_open _ _ (mdFile_opens _ _), lines_mdFile pairs h,
    fmLoop_open path _ _ (show Dashes str!"---" from ⟨[], rfl⟩)]
  have := fmLoop_good path (pairs.map fun e => (fmLine e, e)) 1 (str!"---" :: lines body) [] (by
    intro x hx
    rw [List.mem_map] at hx
    obtain ⟨e, he, rfl⟩ := hx
    exact ⟨fmLine_is e (h e he), fmLine_dashes e (h e he)⟩)
  have e1 : (pairs.map fun e => (fmLine e, e)).map (·.1) = pairs.map fmLine := by simp
  have e2 : (pairs.map fun e => (fmLine e, e)).map (·.2) = pairs := by
    rw [List.map_map]; exact List.map_id' _
  rw [e1, e2] at this
  rw [this, fmLoop_close _ _ _ _ _ (show Dashes str!"---" from ⟨[], rfl⟩)]
  simp
  omega

end Stuart
