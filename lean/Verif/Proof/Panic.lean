import Verif.Proof.Place
/-
When the template parser panics.
-/
namespace Stuart
open Spec

variable {U : Unicode} {path : Str} {plugins : List PluginFns}

theorem addArg_cut {arg : Str} {pos : List RawArg} {named : List (Str × RawArg)} {q : Panic}
    (h : addArg U arg pos named = .panic q) :
      (arg = ['"'] ∧ named = []) ∨ ∃ k, k ≠ [] ∧ (∀ c ∈ k, U.alnum c = true ∨ c = '_') ∧ arg = k ++ ['=', '"'] := by
  unfold addArg at h
  split at h
  · split at h
    · cases h
    · rename_i name value hs
      split at h
      · cases h
      · rename_i hn
        cases ha : parseRawArg U value with
        | ok a => rw [ha] at h; cases h
        | err e => rw [ha] at h; cases h
        | panic p =>
          obtain ⟨-, rfl⟩ := parseRawArg_panic ha
          simp only [Bool.or_eq_true, not_or, Bool.not_eq_true, List.isEmpty_eq_false_iff, Bool.not_eq_false',
            List.all_eq_true] at hn
          exact .inr ⟨name, hn.1.1, fun c hc => (isNameChar_iff U c).1 (hn.2 c hc), splitFirst_some hs⟩
  · split at h
    · split at h
      · cases h
      · rename_i hn
        cases ha : parseRawArg U arg with
        | ok a => rw [ha] at h; cases h
        | err e => rw [ha] at h; cases h
        | panic p =>
          obtain ⟨-, rfl⟩ := parseRawArg_panic ha
          exact .inl ⟨rfl, by simpa using hn⟩
    · cases h

theorem parseArgs_cut : ∀ (n : Nat) (pos : List RawArg)
    (named : List (Str × RawArg)) (p : PSt) (q : Panic), p.rest.length < n →
    parseArgs U path n pos named p = .panic q → ∃ l, BreaksOff U p.rest l ∧ Ordered l ∧ (named = [] ∨ slotPos l = [])
  | 0, _, _, _, _, hn, _ => absurd hn (by omega)
  | n + 1, pos, named, p, q, hn, h => by
    obtain ⟨w, hw, hread⟩ := ignoreWs_reads p
    unfold parseArgs at h
    simp only at h
    generalize p.ignoreWhile isWs = p1 at h hread
    have hs := extractWhileGo_reads argScan p1.rest false p1.loc
    obtain ⟨q', hrun, hstop⟩ := extractWhileGo_arg_stop p1.rest false p1.loc
    change Reads p1 _ _ at hs
    have hE : p1.extractWhileS argScan false = extractWhileGo argScan false p1.rest p1.loc := rfl
    rw [hE] at h
    generalize hx : extractWhileGo argScan false p1.rest p1.loc = x at h hs hrun hstop
    obtain ⟨txt, p2⟩ := x
    simp only at h hs hrun hstop
    have e1 := hread.1
    have e2 := hs.1
    cases ha : addArg U (trim txt) pos named with
    | err e => rw [ha] at h; cases h
    | panic q0 =>
      obtain ⟨w1, w2, hw1, hw2, htxt⟩ := trim_split txt
      have hq : ∃ a w, (∀ c ∈ a, c ≠ '"' ∧ c ≠ ',' ∧ c ≠ ')') ∧ Blank w ∧ txt = a ++ '"' :: w := by
        rcases addArg_cut ha with ⟨hf, _⟩ | ⟨k, _, hk, hf⟩
        · exact ⟨w1, w2, blank_plain hw1, hw2, by rw [htxt, hf]; simp⟩
        · refine ⟨w1 ++ k ++ ['='], w2, ?_, hw2, by rw [htxt, hf]; simp⟩
          intro c hc
          rcases List.mem_append.1 hc with hc | hc
          · rcases List.mem_append.1 hc with hc | hc
            · exact blank_plain hw1 c hc
            · have := nameChar_facts U (hk c hc)
              exact ⟨this.2.1, this.2.2.1, this.2.2.2.1⟩
          · simp at hc; subst hc; decide
      obtain ⟨a, w', ha', hw', ht⟩ := hq
      rw [ht, argRun_single_quote ha' hw'] at hrun
      cases hrun
      rcases hstop with hstop | ⟨hf, _⟩
      · rw [hstop, List.append_nil] at e2
        rcases addArg_cut ha with ⟨hf, hnm⟩ | ⟨k, hk0, hk, hf⟩
        · rw [hf] at htxt
          refine ⟨[(none, .str [])], ?_, rfl, .inl hnm⟩
          have := BreaksOff.pos (U := U) (blank_append hw hw1) hw2
          rw [e1, e2, htxt]
          simpa using this
        · rw [hf] at htxt
          refine ⟨[(some k, .str [])], ?_, rfl, .inr rfl⟩
          have := BreaksOff.named (U := U) (blank_append hw hw1) hk0 hk hw2
          rw [e1, e2, htxt]
          simpa using this
      · cases hf
    | ok v =>
      obtain ⟨pos1, named1⟩ := v
      rw [ha] at h
      simp only [Res.mapErr_ok, Res.bind_ok] at h
      rcases hstop with hstop | ⟨_, c, r, hrest, hc⟩
      · simp [PSt.next, hstop] at h
      · simp only [PSt.next, hrest] at h
        rcases hc with rfl | rfl
        · simp only [Char.reduceEq, if_false, if_true] at h
          rw [hrest] at e2
          have hlen : r.length < n := by
            have := congrArg List.length e1
            rw [e2] at this
            simp at this
            omega
          obtain ⟨l', h1, h2, h3⟩ := parseArgs_cut n _ _ _ q hlen h
          have htrim : trim (w ++ txt) = trim txt := trim_blank_left hw txt
          rw [← htrim] at ha
          obtain ⟨l, hsl, hp, rfl, rfl⟩ := add_slot ha
          refine ⟨l ++ l', ?_, ?_, ?_⟩
          · have := BreaksOff.more hsl h1
            rw [e1, e2]
            simpa using this
          · rw [ordered_cons hsl]
            refine ⟨h2, ?_⟩
            rcases h3 with h3 | h3
            · exact .inl (List.append_eq_nil_iff.1 h3).2
            · exact .inr h3
          · rw [slotPos_append, List.append_eq_nil_iff]
            rcases hp with hp | hp
            · exact .inl hp
            · rcases h3 with h3 | h3
              · exact .inl (List.append_eq_nil_iff.1 h3).1
              · exact .inr ⟨hp, h3⟩
        · simp at h
where
  trim_blank_left {w : Str} (hw : Blank w) (t : Str) : trim (w ++ t) = trim t := by
    have : trimStart (w ++ t) = trimStart t := by
      induction w with
      | nil => rfl
      | cons c w ih =>
        rw [List.cons_append, trimStart, if_pos (hw c (.head _)), ih fun c hc => hw c (.tail _ hc)]
    rw [trim, this, trim]

/-- The last round over text without the end of a quote. -/
theorem parseArgs_last (n : Nat) (t : Str) (ht : argRun false t = some true) (pos : List RawArg) (named : List (Str × RawArg))
    (loc : Loc) {q : Panic} (h : addArg U (trim t) pos named = .panic q) :
    parseArgs U path (n + 1) pos named ⟨t, loc⟩ = .panic q := by
  obtain ⟨w, hw, e⟩ := trimStart_split t
  have hh := trimStart_head t
  have htrim : trim (trimStart t) = trim t := by
    unfold trim
    rw [trimStart_id _ hh]
  generalize trimStart t = t' at e hh htrim
  subst e
  have e1 : PSt.ignoreWhile isWs ⟨w ++ t', loc⟩ = ⟨t', w.foldl Loc.adv loc⟩ := by
    apply ignoreWhile_all
    · exact hw
    · exact hh
  have e2 : argRun false t' = some true := by
    rw [argRun_append, argRun_plain _ _ (blank_plain hw)] at ht
    exact ht
  have e3 : ∀ loc, extractWhileGo argScan false t' loc = (t', ⟨[], t'.foldl Loc.adv loc⟩) := by
    intro loc
    have := extractWhileGo_argRun t' false true [] loc e2
    rw [List.append_nil] at this
    rw [this]
    simp [extractWhileGo]
  rw [parseArgs, e1]
  simp only [PSt.extractWhileS, e3, htrim, h, Res.mapErr_panic, Res.bind_panic]

theorem breaksOff_args {x : Str} {l : List (Option Str × RawArg)} (h : BreaksOff U x l) :
    ∀ (n : Nat) (pos : List RawArg) (named : List (Str × RawArg)) (loc : Loc), x.length < n →
    Ordered l → (named = [] ∨ slotPos l = []) → parseArgs U path n pos named ⟨x, loc⟩ = .panic .loneQuote := by
  have hq : parseRawArg U ['"'] = .panic .loneQuote := rfl
  induction h with
  | pos hw hw' =>
    rename_i w w'
    intro n pos named loc hn _ hp
    obtain ⟨n, rfl⟩ : ∃ m, n = m + 1 := ⟨n - 1, by omega⟩
    refine parseArgs_last n _ (argRun_single_quote (blank_plain hw) hw') _ _ _ ?_
    have e : w ++ '"' :: w' = w ++ ['"'] ++ w' := by simp
    rw [e, trim_core w ['"'] w' hw hw' (by intro c hc; simp at hc; subst hc; decide) (by intro c hc; simp at hc; subst hc; decide)]
    rcases hp with rfl | hp
    · rfl
    · cases hp
  | named hw hk hc hw' =>
    rename_i w k w'
    intro n pos named loc hn _ hp
    obtain ⟨n, rfl⟩ : ∃ m, n = m + 1 := ⟨n - 1, by omega⟩
    have e : w ++ k ++ '=' :: '"' :: w' = w ++ (k ++ ['=', '"']) ++ w' := by simp
    have e' : w ++ k ++ '=' :: '"' :: w' = (w ++ k ++ ['=']) ++ '"' :: w' := by simp
    have hnq : ∀ c ∈ k, c ≠ '"' ∧ c ≠ ',' ∧ c ≠ ')' := fun c h =>
      have := nameChar_facts U (hc c h); ⟨this.2.1, this.2.2.1, this.2.2.2.1⟩
    refine parseArgs_last n _ ?_ _ _ _ ?_
    · rw [e']
      refine argRun_single_quote ?_ hw'
      intro c hcm
      simp only [List.mem_append, List.mem_singleton] at hcm
      rcases hcm with (hcm | hcm) | rfl
      · exact blank_plain hw c hcm
      · exact hnq c hcm
      · decide
    · rw [e, trim_core w _ w' hw hw' ?_ ?_]
      · have e1 : looksNamed (k ++ ['=', '"']) = true := by
          have h1 : (k ++ ['=', '"']).contains '=' = true := by rw [contains_iff]; simp
          rw [looksNamed.eq_def, h1, Bool.and_true]
          cases k with
          | nil => exact absurd rfl hk
          | cons x k => simp [(hnq x (.head _)).1]
        have e2 : splitFirst '=' (k ++ ['=', '"']) = (k, some ['"']) :=
          splitFirst_append _ _ _ fun hm => (nameChar_facts U (hc _ hm)).2.2.2.2.1 rfl
        have e3 : (k.isEmpty || ['"'].isEmpty || !k.all (isNameChar U)) = false := by
          have : k.all (isNameChar U) = true := by
            rw [List.all_eq_true]; intro c hm; exact (isNameChar_iff U c).2 (hc c hm)
          simp [hk, this]
        unfold addArg
        rw [e1, e2]
        simp only [if_true, e3, Bool.false_eq_true, if_false, hq, Res.bind_panic]
      · intro c hcm
        cases k with
        | nil => exact absurd rfl hk
        | cons x k =>
          simp at hcm; subst hcm
          exact (nameChar_facts U (hc x (.head _))).1
      · intro c hcm
        rw [List.getLast?_append] at hcm
        simp at hcm; subst hcm; decide
  | more h _ ih =>
    rename_i s r l l' _
    intro n pos named loc hn ho hp
    obtain ⟨n, rfl⟩ : ∃ m, n = m + 1 := ⟨n - 1, by omega⟩
    obtain ⟨ho1, ho2⟩ := (ordered_cons h).1 ho
    rw [slotPos_append, List.append_eq_nil_iff] at hp
    have hp1 : named = [] ∨ slotPos l = [] := hp.imp id And.left
    have hp2 : named ++ slotNamed l = [] ∨ slotPos l' = [] := by
      rcases hp with rfl | ⟨_, h2⟩
      · exact ho2
      · exact Or.inr h2
    rw [parseArgs_round U path n _ (slot_run h) pos named ',' (Or.inl rfl), slot_add h _ _ hp1]
    simp only [Res.mapErr_ok, Res.bind_ok]
    have : (',' : Char) ≠ ')' := by decide
    rw [if_neg this]
    exact ih n _ _ _ (by simp at hn; omega) ho1 hp2

/-- The tag that breaks off. -/
def Broken (U : Unicode) (s : Str) : Prop :=
  ∃ name gap args pos named, name ≠ [] ∧ (∀ c ∈ name, U.alnum c = true ∨ c = '_' ∨ c = ':') ∧ Blank gap ∧
    BreaksOff U args (argList pos named) ∧ s = name ++ gap ++ '(' :: args

theorem parseTag_cut (hp : PluginsSafe plugins) {p : PSt} {q : Panic} (h : parseTag U path plugins p = .panic q) :
    Broken U p.rest := by
  unfold parseTag at h
  split at h
  · exact absurd h parseVariable_noPanic
  · unfold parseFunction at h
    have r1 := extractWhile_reads (isFnChar U) p
    have c1 := extractWhile_true (isFnChar U) p
    generalize p.extractWhile (isFnChar U) = x at h r1 c1
    obtain ⟨name, p1⟩ := x
    simp only at h r1 c1
    split at h
    · cases h
    · rename_i hn
      obtain ⟨w, hw, r2⟩ := ignoreWs_reads p1
      generalize p1.ignoreWhile isWs = p2 at h r2
      cases h3 : p2.expect path ['('] with
      | err e => rw [h3] at h; cases h
      | panic q => exact absurd h3 (expect_noPanic _ _ _ _)
      | ok v =>
        obtain ⟨u, p3⟩ := v
        rw [h3] at h
        simp only [Res.bind_ok] at h
        have r3 := expect_reads h3
        cases h4 : parseArgs U path (p3.rest.length + 1) [] [] p3 with
        | err e => rw [h4] at h; cases h
        | panic q' =>
          obtain ⟨l, h5, h6, _⟩ := parseArgs_cut _ _ _ _ _ (by omega) h4
          refine ⟨name, w, p3.rest, slotPos l, slotNamed l, by simpa using hn,
            fun c hc => (isFnChar_iff U c).1 (c1 c hc), hw, h6 ▸ h5, ?_⟩
          rw [((r1.trans r2).trans r3).1]; simp
        | ok v =>
          obtain ⟨⟨pos, named⟩, p4⟩ := v
          rw [h4] at h
          simp only [Res.bind_ok] at h
          split at h
          · rename_i r hr
            have := resolveFn_np hp hr
            cases r with
            | ok f => cases h
            | err e => cases h
            | panic q => exact absurd rfl (this q)
          · cases h
  · cases h

theorem broken_tag {s : Str} (h : Broken U s) (loc : Loc) : parseTag U path plugins ⟨s, loc⟩ = .panic .loneQuote := by
  obtain ⟨name, gap, args, pos, named, hn, hc, hg, hb, rfl⟩ := h
  have hsrc : name ++ gap ++ '(' :: args = name ++ (gap ++ (['('] ++ args)) := by simp
  have e1 := extractWhile_all (isFnChar U) name (gap ++ (['('] ++ args)) loc
    (fun c h => (isFnChar_iff U c).2 (hc c h)) (by
      intro d hm
      rcases head_blank_append hg hm with hm | hm
      · exact isFnChar_false_of_ws U hm
      · simp at hm; subst hm
        rw [Bool.eq_false_iff]
        intro h2
        rcases (isFnChar_iff U _).1 h2 with h3 | h3 | h3
        · exact not_alnum U '(' (by decide) (by decide) h3
        · revert h3; decide
        · revert h3; decide)
  have e2 := ignoreWhile_all isWs gap (['('] ++ args)
    (name.foldl Loc.adv loc) hg (by intro d hm; simp at hm; subst hm; decide)
  have e3 := expect_ok path ['('] args (gap.foldl Loc.adv (name.foldl Loc.adv loc))
  have hord : Ordered (argList pos named) := by
    rw [Ordered, slotPos_argList, slotNamed_argList]
  have e4 := breaksOff_args (path := path) hb (args.length + 1) [] []
    (['('].foldl Loc.adv (gap.foldl Loc.adv (name.foldl Loc.adv loc))) (by omega) hord (Or.inl rfl)
  have e6 : name.isEmpty = false := by simp [hn]
  obtain ⟨x, xs, hx⟩ : ∃ x xs, name = x :: xs := by
    cases hn' : name with
    | nil => exact absurd hn' hn
    | cons x xs => exact ⟨x, xs, rfl⟩
  have hxd : x ≠ '$' := by
    rintro rfl
    rcases hc '$' (by simp [hx]) with h3 | h3 | h3
    · exact not_alnum U '$' (by decide) (by decide) h3
    · revert h3; decide
    · revert h3; decide
  have hp : PSt.peek ⟨name ++ gap ++ '(' :: args, loc⟩ = some x := by
    rw [hx]; rfl
  unfold parseTag
  split
  · rename_i h1
    rw [hp] at h1
    exact absurd (Option.some.inj h1) hxd
  · unfold parseFunction
    rw [hsrc, e1]
    simp only [e6, Bool.false_eq_true, if_false]
    rw [e2, e3]
    simp only [Res.bind_ok]
    rw [e4]
    rfl
  · rename_i h1; rw [hp] at h1; cases h1

theorem parseHtmlGo_cut (hp : PluginsSafe plugins) : ∀ (n : Nat) (toks : List LTok) (line col : Nat) (pre : Str) (p : PSt) (q : Panic),
    p.rest.length < n → Tags U plugins pre → parseHtmlGo U path plugins n toks line col p = .panic q →
    ∃ pre' txt ws s, Tags U plugins pre' ∧ OpensAfter txt ∧ Blank ws ∧ Broken U s ∧
      pre ++ p.rest = pre' ++ txt ++ str!"{{" ++ ws ++ s
  | 0, _, _, _, _, _, _, hn, _, _ => absurd hn (by omega)
  | n + 1, toks, line, col, pre, p, q, hn, hpre, h => by
    unfold parseHtmlGo at h
    split at h
    · cases h
    · rename_i raw p1 h1
      obtain ⟨txt, ho, rfl, r1⟩ := extractUntil_some h1
      obtain ⟨ws, hws, r2⟩ := ignoreWs_reads p1
      simp only at h
      generalize p1.ignoreWhile isWs = p2 at h r2
      cases h3 : parseTag U path plugins p2 with
      | err e => rw [h3] at h; cases h
      | panic q' =>
        refine ⟨pre, txt, ws, p2.rest, hpre, ho, hws, parseTag_cut hp h3, ?_⟩
        rw [(r1.trans r2).1]; simp
      | ok v =>
        obtain ⟨tok, p3⟩ := v
        rw [h3] at h
        simp only [Res.bind_ok] at h
        obtain ⟨body, hbody, r3⟩ := text_of_parseTag h3
        obtain ⟨w2, hw2, r4⟩ := ignoreWs_reads p3
        generalize p3.ignoreWhile isWs = p4 at h r4
        cases h5 : p4.expect path str!"}}" with
        | err e => rw [h5] at h; cases h
        | panic q => exact absurd h5 (expect_noPanic _ _ _ _)
        | ok v =>
          obtain ⟨u, p5⟩ := v
          rw [h5] at h
          simp only [Res.bind_ok] at h
          have r5 := expect_reads h5
          have rr := ((((r1.trans r2).trans r3).trans r4).trans r5)
          have hlen : p5.rest.length < n := by
            have := congrArg List.length rr.1
            simp at this
            omega
          have hrest : pre ++ p.rest = pre ++ txt ++ str!"{{" ++ ws ++ (body ++ w2) ++ str!"}}" ++ p5.rest := by
            rw [rr.1]; simp
          rw [hrest]
          exact parseHtmlGo_cut hp n _ _ _ _ p5 q hlen (.tag hpre ho hws (tagText_append hbody hw2)) h

/-- Whole tags are read and the rest is left. -/
theorem parseHtmlGo_tags {pre : Str} (h : Tags U plugins pre) (rest : Str) (n : Nat) (hn : (pre ++ rest).length < n) :
    ∃ n' toks line col loc, rest.length < n' ∧
      parseHtmlGo U path plugins n [] 1 1 ⟨pre ++ rest, Loc.start⟩ = parseHtmlGo U path plugins n' toks line col ⟨rest, loc⟩ := by
  induction h generalizing rest with
  | nil => exact ⟨n, [], 1, 1, Loc.start, by simpa using hn, rfl⟩
  | @tag pre txt ws body t _ ho hw ht ih =>
    have hsrc : pre ++ txt ++ str!"{{" ++ ws ++ body ++ str!"}}" ++ rest =
        pre ++ (txt ++ str!"{{" ++ (ws ++ (body ++ (str!"}}" ++ rest)))) := by simp
    rw [hsrc] at hn ⊢
    obtain ⟨n', toks, line, col, loc, hn', he⟩ := ih _ hn
    obtain ⟨n', rfl⟩ : ∃ m, n' = m + 1 := ⟨n' - 1, by omega⟩
    have e1 := ignoreWhile_all isWs ws (body ++ (str!"}}" ++ rest)) ((txt ++ str!"{{").foldl Loc.adv loc) hw
      (tagText_head ht _)
    obtain ⟨p, x, w, e2, rfl, hw2, rfl⟩ := parseTag_text (path := path) ht rest
      (ws.foldl Loc.adv ((txt ++ str!"{{").foldl Loc.adv loc))
    have e3 := ignoreWhile_all isWs w (str!"}}" ++ rest)
      (x.foldl Loc.adv (ws.foldl Loc.adv ((txt ++ str!"{{").foldl Loc.adv loc))) hw2
      (by intro c hc; simp at hc; subst hc; decide)
    have e4 := expect_ok path str!"}}" rest
      (w.foldl Loc.adv (x.foldl Loc.adv (ws.foldl Loc.adv ((txt ++ str!"{{").foldl Loc.adv loc))))
    rw [he, parseHtmlGo, extractUntil_opens _ _ _ ho]
    simp only
    rw [e1, e2]
    simp only [Res.bind_ok]
    rw [e3, e4]
    simp only [Res.bind_ok]
    exact ⟨n', _, _, _, _, by simp at hn'; omega, rfl⟩

theorem parseHtml_panic_iff (hp : PluginsSafe plugins) (input : Str) (q : Panic) :
    parseHtml U path plugins input = .panic q ↔ q = .loneQuote ∧ CutOff U plugins input := by
  constructor
  · intro h
    refine ⟨(parseHtmlGo_panic U path plugins hp _ _ _ _ _ _ (Nat.lt_succ_self _) h).1, ?_⟩
    obtain ⟨pre, txt, ws, s, h1, h2, h3, ⟨name, gap, args, pos, named, k1, k2, k3, k4, rfl⟩, h5⟩ :=
      parseHtmlGo_cut hp _ _ _ _ [] _ _ (Nat.lt_succ_self _) .nil h
    exact ⟨pre, txt, ws, name, gap, args, pos, named, h1, h2, h3, k1, k2, k3, k4, h5⟩
  · rintro ⟨rfl, pre, txt, ws, name, gap, args, pos, named, h1, h2, h3, k1, k2, k3, k4, rfl⟩
    have hb : Broken U (name ++ gap ++ '(' :: args) := ⟨name, gap, args, pos, named, k1, k2, k3, k4, rfl⟩
    have hsrc : pre ++ txt ++ str!"{{" ++ ws ++ (name ++ gap ++ '(' :: args) =
        pre ++ (txt ++ str!"{{" ++ (ws ++ (name ++ gap ++ '(' :: args))) := by simp
    rw [hsrc]
    unfold parseHtml PSt.init
    obtain ⟨n, toks, line, col, loc, hn, he⟩ := parseHtmlGo_tags (path := path) h1 (txt ++ str!"{{" ++ (ws ++ (name ++ gap ++ '(' :: args))) _
      (Nat.lt_succ_self _)
    obtain ⟨n, rfl⟩ : ∃ m, n = m + 1 := ⟨n - 1, by omega⟩
    rw [he, parseHtmlGo, extractUntil_opens _ _ _ h2]
    have e1 := ignoreWhile_all isWs ws (name ++ gap ++ '(' :: args) ((txt ++ str!"{{").foldl Loc.adv loc) h3 (by
      intro c hc
      cases name with
      | nil => exact absurd rfl k1
      | cons x xs =>
        simp at hc; subst hc
        exact not_ws_of_fnChar U (k2 x (by simp)))
    simp only
    rw [e1, broken_tag hb]
    rfl

end Stuart
