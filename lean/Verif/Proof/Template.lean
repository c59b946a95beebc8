import Verif.Proof.Resolve
/-
Helper lemmas: parsing what the layout specification writes.
-/
namespace Stuart
open Spec

theorem head?_append_of_ne_nil {a b : Str} (h : a ≠ []) : (a ++ b).head? = a.head? := by
  cases a with
  | nil => exact absurd rfl h
  | cons x a => rfl

/-- The first character after a blank is that of the text behind it, or blank. -/
theorem head_blank_append {w r : Str} (hw : Blank w) {c : Char} (h : (w ++ r).head? = some c) :
    isWs c = true ∨ r.head? = some c := by
  cases w with
  | nil => exact Or.inr h
  | cons x w =>
    simp at h; subst h
    exact Or.inl (hw _ (by simp))

theorem parseVariable_src (U : Unicode) (path n r : Str) (loc : Loc) (hn : n ≠ [])
    (hc : ∀ c ∈ n, U.alnum c = true ∨ c = '_' ∨ c = '.')
    (hr : ∀ c, r.head? = some c → isVarChar U c = false) :
    ∃ loc', parseVariable U path ⟨'$' :: n ++ r, loc⟩ = .ok (.var n, ⟨r, loc'⟩) := by
  refine ⟨n.foldl Loc.adv (['$'].foldl Loc.adv loc), ?_⟩
  have e1 := expect_ok path ['$'] (n ++ r) loc
  have e2 := extractWhile_all (isVarChar U) n r (['$'].foldl Loc.adv loc)
    (fun c h => (isVarChar_iff U c).2 (hc c h)) hr
  have e3 : n.isEmpty = false := by simp [hn]
  unfold parseVariable
  simp only [List.cons_append, List.nil_append] at e1 ⊢
  rw [e1]
  simp only [Res.bind_ok, e2, e3, Bool.false_eq_true, if_false]

theorem parseArgs_call (U : Unicode) (path : Str) (c : Call) (h : c.WF U) (r : Str) (loc : Loc) (n : Nat)
    (hn : c.args.length ≤ n) :
    ∃ loc', parseArgs U path (n + 1) [] []
      ⟨(if c.args = [] then c.blank else argsSrc c.args) ++ ')' :: r, loc⟩ =
        .ok ((c.raw.pos, c.raw.named), ⟨r, loc'⟩) := by
  by_cases ha : c.args = []
  · rw [if_pos ha]
    obtain ⟨l, e⟩ := parseArgs_nil U path n c.blank h.blank r loc
    exact ⟨l, by rw [e]; simp [Call.raw, ha]⟩
  · rw [if_neg ha]
    obtain ⟨l, e⟩ := parseArgs_all U path c.args ha h.args (n + 1) (by omega) [] [] h.order (Or.inl rfl) r loc
    exact ⟨l, by rw [e]; simp only [Call.raw, List.nil_append]; rfl⟩

/-- Parsing a written call, up to the lookup of its name. -/
theorem parseFunction_src (U : Unicode) (path : Str) (plugins : List PluginFns) (c : Call) (h : c.WF U)
    (w r : Str) (loc : Loc) (hw : Blank w) (hr : ∀ c, r.head? = some c → isWs c = false) :
    ∃ loc', parseFunction U path plugins ⟨c.src ++ (w ++ r), loc⟩ =
      match resolveFn plugins c.raw with
      | some res => (res.mapErr (PSt.tb ⟨r, loc'⟩ path)).bind fun f => .ok (.func f, ⟨r, loc'⟩)
      | none => .err ⟨path, loc.line, loc.col, .nonexistentFunction c.name⟩ := by
  let body : Str := if c.args = [] then c.blank else argsSrc c.args
  have hsrc : c.src ++ (w ++ r) = c.name ++ (c.gap ++ (['('] ++ (body ++ ')' :: (w ++ r)))) := by
    simp [Call.src, body]
  have e1 := extractWhile_all (isFnChar U) c.name (c.gap ++ (['('] ++ (body ++ ')' :: (w ++ r)))) loc
    (fun d hd => (isFnChar_iff U d).2 (h.name.2 d hd)) (by
      intro d hd
      rcases head_blank_append h.gap hd with hd | hd
      · exact isFnChar_false_of_ws U hd
      · simp at hd; subst hd
        rw [Bool.eq_false_iff]
        intro h2
        rcases (isFnChar_iff U _).1 h2 with h3 | h3 | h3
        · exact not_alnum U '(' (by decide) (by decide) h3
        · revert h3; decide
        · revert h3; decide)
  have e2 := ignoreWhile_all isWs c.gap (['('] ++ (body ++ ')' :: (w ++ r)))
    (c.name.foldl Loc.adv loc) h.gap (by intro d hd; simp at hd; subst hd; decide)
  have e3 := expect_ok path ['('] (body ++ ')' :: (w ++ r)) (c.gap.foldl Loc.adv (c.name.foldl Loc.adv loc))
  have hlen : c.args.length ≤ (body ++ ')' :: (w ++ r)).length := by
    have := length_le_argsSrc U c.args h.args
    by_cases ha : c.args = []
    · simp [ha]
    · simp [body, ha]; omega
  obtain ⟨l, e4⟩ := parseArgs_call U path c h (w ++ r)
    (['('].foldl Loc.adv (c.gap.foldl Loc.adv (c.name.foldl Loc.adv loc))) _ hlen
  have e5 := ignoreWhile_all isWs w r l hw hr
  have e6 : c.name.isEmpty = false := by simp [h.name.1]
  refine ⟨w.foldl Loc.adv l, ?_⟩
  unfold parseFunction
  rw [hsrc, e1]
  simp only [e6, Bool.false_eq_true, if_false]
  rw [e2, e3]
  simp only [Res.bind_ok]
  change parseArgs U path _ [] [] ⟨body ++ ')' :: (w ++ r), _⟩ = _ at e4
  rw [e4]
  simp only [Res.bind_ok, e5]
  rfl

theorem tagBody_head (U : Unicode) (plugins : List PluginFns) (b : TagBody) (h : b.WF U plugins) :
    ∃ c s, b.src = c :: s ∧ isWs c = false := by
  cases b with
  | var n => exact ⟨'$', n, rfl, by decide⟩
  | call c f =>
    have hn := h.1.name
    cases hc : c.name with
    | nil => exact absurd hc hn.1
    | cons x xs =>
      refine ⟨x, xs ++ c.gap ++ '(' :: ((if c.args = [] then c.blank else argsSrc c.args) ++ [')']), ?_, ?_⟩
      · simp [TagBody.src, Call.src, hc]
      · exact not_ws_of_fnChar U (hn.2 x (by simp [hc]))

/-- Parsing a tag body yields the token it stands for and stops at the closing braces. -/
theorem parseTag_src (U : Unicode) (path : Str) (plugins : List PluginFns) (b : TagBody)
    (h : b.WF U plugins) (w r : Str) (loc : Loc) (hw : Blank w) :
    ∃ p, parseTag U path plugins ⟨b.src ++ (w ++ (str!"}}" ++ r)), loc⟩ = .ok (b.tok, p) ∧
      ∃ loc', PSt.ignoreWhile isWs p = ⟨str!"}}" ++ r, loc'⟩ := by
  have hbr : ∀ c, (str!"}}" ++ r).head? = some c → isWs c = false := by
    intro c hc; simp at hc; subst hc; decide
  cases b with
  | var n =>
    obtain ⟨l, e⟩ := parseVariable_src U path n (w ++ (str!"}}" ++ r)) loc h.1 h.2 (by
      intro c hc
      rcases head_blank_append hw hc with hc | hc
      · exact isVarChar_false_of_ws U hc
      · simp at hc; subst hc
        rw [Bool.eq_false_iff]
        intro h2
        rcases (isVarChar_iff U _).1 h2 with h3 | h3 | h3
        · exact not_alnum U '}' (by decide) (by decide) h3
        · revert h3; decide
        · revert h3; decide)
    refine ⟨⟨w ++ (str!"}}" ++ r), l⟩, ?_, _, ignoreWhile_all isWs w _ l hw hbr⟩
    exact e
  | call c f =>
    obtain ⟨l, e⟩ := parseFunction_src U path plugins c h.1 w (str!"}}" ++ r) loc hw hbr
    rw [denotes_resolves h.2] at e
    refine ⟨⟨str!"}}" ++ r, l⟩, ?_, l, ?_⟩
    · obtain ⟨x, s, hs, _⟩ := tagBody_head U plugins (.call c f) h
      have hx : x ≠ '$' := by
        rintro rfl
        have hn := h.1.name
        cases hc : c.name with
        | nil => exact hn.1 hc
        | cons y ys =>
          have : y = '$' := by simp [TagBody.src, Call.src, hc] at hs; exact hs.1
          subst this
          rcases hn.2 '$' (by simp [hc]) with h3 | h3 | h3
          · exact not_alnum U '$' (by decide) (by decide) h3
          · revert h3; decide
          · revert h3; decide
      unfold parseTag
      have hp : PSt.peek ⟨(TagBody.call c f).src ++ (w ++ (str!"}}" ++ r)), loc⟩ = some x := by
        rw [hs]; rfl
      split
      · rename_i h1
        rw [hp] at h1
        exact absurd (Option.some.inj h1) hx
      · exact e
      · rename_i h1; rw [hp] at h1; cases h1
    · have := ignoreWhile_all isWs [] (str!"}}" ++ r) l (by simp) hbr
      simpa using this

theorem rawTok_inner (path s : Str) (l c : Nat) : (rawTok path s l c).map (fun t => t.inner) = textTok s := by
  unfold rawTok textTok
  cases s <;> simp

/-- The main loop over a written template. -/
theorem parseHtmlGo_src (U : Unicode) (path : Str) (plugins : List PluginFns) (last : Text) (hl : last.WF) :
    ∀ (items : List (Text × Tag)), (∀ i ∈ items, i.1.WF ∧ Glue i.1 ∧ i.2.WF U plugins) →
    ∀ (n : Nat), items.length < n → ∀ (toks : List LTok) (line col : Nat) (loc : Loc),
    ∃ toks', parseHtmlGo U path plugins n toks line col
        ⟨(items.flatMap fun i => i.1.src ++ i.2.src) ++ last.src, loc⟩ = .ok (toks ++ toks') ∧
      toks'.map (fun t => t.inner) =
        (items.flatMap fun i => textTok i.1.val ++ [i.2.body.tok]) ++ textTok last.val ∧
      (∀ t ∈ toks', t.path = path)
  | [], _, n, hn, toks, line, col, loc => by
    obtain ⟨n, rfl⟩ : ∃ m, n = m + 1 := ⟨n - 1, by simp at hn; omega⟩
    refine ⟨rawTok path last.val line col, ?_, ?_, ?_⟩
    · have e := extractUntilGo_Text last.src last hl [] loc
      rw [List.append_nil] at e
      simp only [parseHtmlGo, List.flatMap_nil, List.nil_append, PSt.extractUntil]
      rw [e]
      simp [extractUntilGo, PSt.extractRemaining, replaceAll_Text last hl]
    · simp [rawTok_inner]
    · intro t ht
      unfold rawTok at ht
      split at ht <;> simp at ht
      rw [ht]
  | i :: items, h, n, hn, toks, line, col, loc => by
    obtain ⟨n, rfl⟩ : ∃ m, n = m + 1 := ⟨n - 1, by simp at hn; omega⟩
    obtain ⟨ht, hg, htag⟩ := h i (by simp)
    let rest : Str := (items.flatMap fun i => i.1.src ++ i.2.src) ++ last.src
    have hsrc : ((i :: items).flatMap fun i => i.1.src ++ i.2.src) ++ last.src =
        i.1.src ++ (str!"{{" ++ (i.2.before ++ (i.2.body.src ++ (i.2.after ++ (str!"}}" ++ rest))))) := by
      simp [Tag.src, rest]
    let tail : Str := i.2.before ++ (i.2.body.src ++ (i.2.after ++ (str!"}}" ++ rest)))
    have e1 : PSt.extractUntil str!"{{" true ⟨i.1.src ++ (str!"{{" ++ tail), loc⟩ =
        (some i.1.val, ⟨tail, str!"{{".foldl Loc.adv (i.1.src.foldl Loc.adv loc)⟩) := by
      unfold PSt.extractUntil
      simp only
      rw [extractUntilGo_Text _ _ ht, extractUntilGo_open _ _ _ _ _ hg.1 (fun _ => hg.2)]
    obtain ⟨x, s, hb, hx⟩ := tagBody_head U plugins _ htag.body
    have e2 := ignoreWhile_all isWs i.2.before (i.2.body.src ++ (i.2.after ++ (str!"}}" ++ rest)))
      (str!"{{".foldl Loc.adv (i.1.src.foldl Loc.adv loc)) htag.before (by
        intro c hc
        rw [hb] at hc
        simp at hc; subst hc; exact hx)
    obtain ⟨p, e3, l, e4⟩ := parseTag_src U path plugins i.2.body htag.body i.2.after rest
      (i.2.before.foldl Loc.adv (str!"{{".foldl Loc.adv (i.1.src.foldl Loc.adv loc))) htag.after
    have e5 := expect_ok path str!"}}" rest l
    let tl := i.2.before.foldl Loc.adv (str!"{{".foldl Loc.adv (i.1.src.foldl Loc.adv loc))
    let l' := str!"}}".foldl Loc.adv l
    obtain ⟨toks', h1, h2, h3⟩ := parseHtmlGo_src U path plugins last hl items
      (fun j hj => h j (by simp [hj])) n (by simp at hn; omega)
      (toks ++ rawTok path i.1.val line col ++ [⟨i.2.body.tok, path, tl.line, tl.col⟩]) l'.line l'.col l'
    refine ⟨rawTok path i.1.val line col ++ ⟨i.2.body.tok, path, tl.line, tl.col⟩ :: toks', ?_, ?_, ?_⟩
    · rw [hsrc, parseHtmlGo]
      show (match PSt.extractUntil str!"{{" true ⟨i.1.src ++ (str!"{{" ++ tail), loc⟩ with
        | (none, p) => _ | (some raw, p) => _) = _
      rw [e1]
      simp only
      rw [show PSt.ignoreWhile isWs ⟨tail, str!"{{".foldl Loc.adv (i.1.src.foldl Loc.adv loc)⟩ = _ from e2, e3]
      simp only [Res.bind_ok, e4, e5]
      rw [show parseHtmlGo U path plugins n _ _ _ _ = _ from h1]
      simp
    · simp only [List.map_append, List.map_cons, rawTok_inner, h2, List.flatMap_cons, List.append_assoc,
        List.cons_append, List.nil_append]
    · intro t ht
      rcases List.mem_append.1 ht with ht | ht
      · unfold rawTok at ht
        split at ht <;> simp at ht
        rw [ht]
      · rcases List.mem_cons.1 ht with rfl | ht
        · rfl
        · exact h3 t ht

theorem items_length_le (items : List (Text × Tag)) (last : Text) :
    items.length < ((items.flatMap fun i => i.1.src ++ i.2.src) ++ last.src).length + 1 := by
  induction items with
  | nil => simp
  | cons i items ih =>
    simp only [List.length_append, List.flatMap_cons, List.length_cons, Tag.src] at ih ⊢
    omega

theorem parseHtml_src (U : Unicode) (path : Str) (plugins : List PluginFns) (t : Template)
    (h : t.WF U plugins) :
    ∃ toks, parseHtml U path plugins t.src = .ok toks ∧ toks.map (fun t => t.inner) = t.toks ∧
      ∀ t ∈ toks, t.path = path := by
  obtain ⟨toks, h1, h2, h3⟩ := parseHtmlGo_src U path plugins t.last h.last t.items h.items
    (t.src.length + 1) (items_length_le _ _) [] 1 1 Loc.start
  exact ⟨toks, (by rw [List.nil_append] at h1; exact h1), h2, h3⟩

end Stuart
