import Verif.Proof.Refuse
import Verif.Proof.Panic
/-
Which error the parser reports, and where.
-/
namespace Stuart
open Spec

variable {U : Unicode} {path : Str} {plugins : List PluginFns}

/-- The error reported after `part` is read from a place. -/
def errAt (path : Str) (loc : Loc) (part : Str) (e : ParseErr) : TB ParseErr :=
  ⟨path, (part.foldl Loc.adv loc).line, (part.foldl Loc.adv loc).col, e⟩

theorem errAt_append (loc : Loc) (a b : Str) (e : ParseErr) :
    errAt path loc (a ++ b) e = errAt path (a.foldl Loc.adv loc) b e := by
  simp [errAt]

theorem reads_eq {p p' : PSt} {x : Str} (h : Reads p x p') : p' = ⟨p'.rest, x.foldl Loc.adv p.loc⟩ := by
  rw [← h.2]

/-! ### Expected text -/

theorem expectGo_missing (whole : Str) : ∀ (s r : Str) (loc : Loc) (e : TB ParseErr),
    PSt.expectGo path whole s ⟨r, loc⟩ = .err e →
      (r <+: s ∧ r ≠ s ∧ e = errAt path loc r .unexpectedEOF) ∨
      ∃ a b r' c d, s = a ++ c :: b ∧ c ≠ d ∧ r = a ++ d :: r' ∧ e = errAt path loc (a ++ [d]) (.expected whole)
  | [], r, loc, e, h => by cases h
  | c :: s, [], loc, e, h => by
    simp only [PSt.expectGo, PSt.next] at h
    cases h
    exact .inl ⟨⟨c :: s, rfl⟩, by simp, rfl⟩
  | c :: s, d :: r, loc, e, h => by
    simp only [PSt.expectGo, PSt.next] at h
    split at h
    · rename_i hc
      subst hc
      rcases expectGo_missing whole s r _ e h with ⟨h1, h2, h3⟩ | ⟨a, b, r', c', d', h1, h2, h3, h4⟩
      · exact .inl ⟨by simpa using h1, by simpa using h2, h3⟩
      · exact .inr ⟨c :: a, b, r', c', d', by rw [h1]; rfl, h2, by rw [h3]; rfl, h4⟩
    · rename_i hc
      cases h
      exact .inr ⟨[], s, r, c, d, rfl, hc, rfl, rfl⟩

theorem expectGo_ends (whole : Str) : ∀ (s r : Str) (loc : Loc), r <+: s → r ≠ s →
    PSt.expectGo path whole s ⟨r, loc⟩ = .err (errAt path loc r .unexpectedEOF)
  | [], r, loc, h, hn => absurd (List.prefix_nil.1 h) hn
  | c :: s, [], loc, h, hn => rfl
  | c :: s, d :: r, loc, h, hn => by
    obtain ⟨rfl, hp⟩ := List.cons_prefix_cons.1 h
    simp only [PSt.expectGo, PSt.next, if_true]
    rw [expectGo_ends whole s r _ hp (by simpa using hn)]
    rfl

theorem expectGo_other (whole : Str) : ∀ (a b r : Str) (c d : Char) (loc : Loc), c ≠ d →
    PSt.expectGo path whole (a ++ c :: b) ⟨a ++ d :: r, loc⟩ = .err (errAt path loc (a ++ [d]) (.expected whole))
  | [], b, r, c, d, loc, h => by
    simp only [List.nil_append, PSt.expectGo, PSt.next, if_neg h]
    rfl
  | x :: a, b, r, c, d, loc, h => by
    simp only [List.cons_append, PSt.expectGo, PSt.next, if_true]
    rw [expectGo_other whole a b r c d _ h]
    rfl

theorem expect_missing {what s : Str} {loc : Loc} {e : TB ParseErr} :
    PSt.expect path what ⟨s, loc⟩ = .err e ↔ ∃ part k, Missing what s part k ∧ e = errAt path loc part k := by
  constructor
  · intro h
    rcases expectGo_missing what what s loc e h with ⟨h1, h2, h3⟩ | ⟨a, b, r', c, d, h1, h2, rfl, h4⟩
    · exact ⟨s, _, .ends h1 h2, h3⟩
    · exact ⟨_, _, .other h1 h2, h4⟩
  · rintro ⟨part, k, h, rfl⟩
    cases h with
    | ends h1 h2 => exact expectGo_ends what what s loc h1 h2
    | other h1 h2 =>
      subst h1
      exact expectGo_other _ _ _ _ _ _ _ h2

/-! ### Arguments -/

theorem parseRawArg_bad {s : Str} {e : ParseErr} : parseRawArg U s = .err e ↔ BadValue U s e := by
  have fwd : ∀ {e}, parseRawArg U s = .err e → BadValue U s e := by
    intro e h
    by_cases hd : s.head? = some '$'
    · cases s with
      | nil => cases hd
      | cons c v =>
        simp only [List.head?_cons, Option.some.injEq] at hd
        subst hd
        have : startsWith ['$'] ('$' :: v) = true := by rw [startsWith_iff]; exact ⟨v, rfl⟩
        unfold parseRawArg at h
        rw [if_pos this] at h
        simp only [List.drop_succ_cons, List.drop_zero] at h
        split at h
        · cases h
        · rename_i hv
          cases h
          simp only [List.all_eq_true, Classical.not_forall] at hv
          obtain ⟨c, hc, hv⟩ := hv
          exact .var hc fun hk => hv ((isVarChar_iff U c).2 hk)
    · have hk : e = .genericSyntax := by
        unfold parseRawArg at h
        split at h
        · rename_i hs
          obtain ⟨v, rfl⟩ := startsWith_iff.1 hs
          exact absurd rfl hd
        · split at h
          · split at h
            · cases h
            · split at h
              · cases h; rfl
              · cases h
          · split at h
            · cases h
            · split at h
              · cases h
              · cases h; rfl
      subst hk
      refine .other hd ?_ ?_
      · rintro rfl
        cases h
      · intro a ha
        rw [parseRawArg_val ha] at h
        cases h
  refine ⟨fwd, fun h => ?_⟩
  cases hr : parseRawArg U s with
  | ok a =>
    cases h with
    | var hc hv =>
      cases val_of_parseRawArg hr with
      | var v hall => exact absurd (hall _ hc) hv
      | int _ i hd _ =>
        rcases (decimal_chars hd).2 '$' (by simp) with h | h | h
        · exact absurd h (by unfold IsDigit; decide)
        · exact absurd h (by decide)
        · exact absurd h (by decide)
      | ident _ hm =>
        have : ∀ x ∈ builtinNames, x.head? ≠ some '$' := by decide
        exact absurd rfl (this _ hm)
    | other _ _ hno => exact absurd (val_of_parseRawArg hr) (hno a)
  | panic q =>
    obtain ⟨-, rfl⟩ := parseRawArg_panic hr
    cases h with
    | other _ h _ => exact absurd rfl h
  | err e' =>
    congr 1
    have h' := fwd hr
    cases h with
    | var hc hv =>
      cases h' with
      | var => rfl
      | other h _ _ => exact absurd rfl h
    | other hd _ _ =>
      cases h' with
      | var => exact absurd rfl hd
      | other => rfl

theorem looksNamed_iff {s : Str} : looksNamed s = true ↔ s.head? ≠ some '"' ∧ '=' ∈ s := by
  cases s with
  | nil => simp [looksNamed]
  | cons c s => simp [looksNamed]

theorem addArg_bad {s : Str} {pos : List RawArg} {named : List (Str × RawArg)} {e : ParseErr} :
    addArg U s pos named = .err e ↔ BadArg U (!named.isEmpty) s e := by
  have good : ∀ {k : Str}, k ≠ [] → (∀ c ∈ k, KeyChar U c) → '=' ∉ k ∧ k.head? ≠ some '"' ∧ k.all (isNameChar U) = true := by
    intro k hk hc
    refine ⟨fun hm => (nameChar_facts U (hc _ hm)).2.2.2.2.1 rfl, ?_, ?_⟩
    · intro hh
      cases k with
      | nil => cases hh
      | cons x k =>
        simp at hh
        subst hh
        exact (nameChar_facts U (hc _ (.head _))).2.1 rfl
    · rw [List.all_eq_true]
      exact fun c hm => (isNameChar_iff U c).2 (hc c hm)
  have split_eq : ∀ {k v : Str}, '=' ∉ k → k.head? ≠ some '"' →
      looksNamed (k ++ '=' :: v) = true ∧ splitFirst '=' (k ++ '=' :: v) = (k, some v) := by
    intro k v h1 h2
    refine ⟨looksNamed_iff.2 ⟨?_, by simp⟩, splitFirst_append _ _ _ h1⟩
    cases k with
    | nil => simp
    | cons x k => simpa using h2
  constructor
  · intro h
    unfold addArg at h
    split at h
    · rename_i hl
      obtain ⟨h1, h2⟩ := looksNamed_iff.1 hl
      obtain ⟨k, v, rfl, hk⟩ := List.eq_append_cons_of_mem h2
      have hq : k.head? ≠ some '"' := by
        cases k with
        | nil => simp
        | cons x k => simpa using h1
      rw [(split_eq hk hq).2] at h
      simp only at h
      by_cases hbad : k = [] ∨ ∃ c ∈ k, ¬ KeyChar U c
      · have : e = .genericSyntax := by
          split at h
          · cases h; rfl
          · rename_i hc
            exfalso
            simp only [Bool.or_eq_true, not_or, Bool.not_eq_true, List.isEmpty_eq_false_iff, Bool.not_eq_false',
              List.all_eq_true] at hc
            rcases hbad with hb | ⟨c, hm, hb⟩
            · exact hc.1.1 hb
            · exact hb ((isNameChar_iff U c).1 (hc.2 c hm))
        subst this
        exact .key hq hk hbad
      · simp only [not_or, not_exists, not_and, Classical.not_not] at hbad
        obtain ⟨hk0, hkc⟩ := hbad
        refine .named hk0 hkc ?_
        have hall := (good hk0 hkc).2.2
        by_cases hv : v = []
        · subst hv
          simp [hall] at h
          subst h
          exact parseRawArg_bad.1 rfl
        · simp [hk0, hv, hall] at h
          rcases Res.bind_eq_err.1 h with h | ⟨_, _, h⟩
          · exact parseRawArg_bad.1 h
          · cases h
    · rename_i hl
      have hl' : s.head? = some '"' ∨ '=' ∉ s := by
        rw [looksNamed_iff] at hl
        by_cases h1 : s.head? = some '"'
        · exact .inl h1
        · exact .inr fun h2 => hl ⟨h1, h2⟩
      split at h
      · rename_i hs
        have hs' : s ≠ [] := by simpa using hs
        split at h
        · rename_i hn
          cases h
          exact .late hs' hl' hn
        · rename_i hn
          rcases Res.bind_eq_err.1 h with h | ⟨_, _, h⟩
          · exact .pos hs' hl' (by simpa using hn) (parseRawArg_bad.1 h)
          · cases h
      · cases h
  · intro h
    have plain : ∀ {t : Str}, (t.head? = some '"' ∨ '=' ∉ t) → looksNamed t = false := by
      intro t ht
      rw [Bool.eq_false_iff, ne_eq, looksNamed_iff]
      rintro ⟨h1, h2⟩
      rcases ht with h | h
      · exact h1 h
      · exact h h2
    unfold addArg
    cases h with
    | key hq hk hbad =>
      obtain ⟨h1, h2⟩ := split_eq (v := _) hk hq
      rw [h1, h2]
      simp only [if_true]
      have : ∀ (v : Str) (k : Str), (k = [] ∨ ∃ c ∈ k, ¬ KeyChar U c) → (k.isEmpty || v.isEmpty || !k.all (isNameChar U)) = true := by
        intro v k hb
        rcases hb with rfl | ⟨c, hm, hb⟩
        · rfl
        · have : k.all (isNameChar U) = false := by
            rw [Bool.eq_false_iff, ne_eq, List.all_eq_true]
            exact fun h => hb ((isNameChar_iff U c).1 (h c hm))
          simp [this]
      rw [this _ _ hbad]
      rfl
    | named hk0 hkc hv =>
      obtain ⟨g1, g2, g3⟩ := good hk0 hkc
      obtain ⟨h1, h2⟩ := split_eq (v := _) g1 g2
      rw [h1, h2]
      simp only [if_true]
      rename_i k v
      by_cases hv0 : v = []
      · subst hv0
        have : e = .genericSyntax := by cases hv; rfl
        subst this
        simp
      · have hr := parseRawArg_bad.2 hv
        simp [hk0, hv0, g3, hr]
    | late hs hl hn =>
      rw [plain hl]
      simp [hs, hn]
    | pos hs hl hn hv =>
      rw [plain hl]
      have hr := parseRawArg_bad.2 hv
      have hn' : named.isEmpty = true := by simpa using hn
      simp [hs, hn', hr]

def UnsplitFrom (q : Bool) (t : Str) : Prop :=
  ∀ a c b, t = a ++ c :: b → c = ',' ∨ c = ')' → (a.count '"' + q.toNat) % 2 = 1

theorem unsplitFrom_cons (q : Bool) (d : Char) (t : Str) :
    UnsplitFrom q (d :: t) ↔ (d = ',' ∨ d = ')' → q = true) ∧ UnsplitFrom (if d = '"' then !q else q) t := by
  have par : ∀ a : Str, ((d :: a).count '"' + q.toNat) % 2 = (a.count '"' + (if d = '"' then !q else q).toNat) % 2 := by
    intro a
    rw [List.count_cons]
    by_cases hd : d = '"'
    · subst hd
      cases q <;> simp <;> omega
    · simp [hd]
  constructor
  · intro h
    refine ⟨fun hd => ?_, fun a c b e hc => ?_⟩
    · have := h [] d t rfl hd
      cases q
      · simp at this
      · rfl
    · rw [← par]
      exact h (d :: a) c b (by rw [e]; rfl) hc
  · rintro ⟨h1, h2⟩ a c b e hc
    cases a with
    | nil =>
      simp at e
      rw [h1 (e.1 ▸ hc)]
      rfl
    | cons x a =>
      simp at e
      obtain ⟨rfl, e⟩ := e
      rw [par]
      exact h2 a c b e hc

theorem argRun_unsplit : ∀ (t : Str) (q q' : Bool),
    argRun q t = some q' ↔ UnsplitFrom q t ∧ q'.toNat = (t.count '"' + q.toNat) % 2
  | [], q, q' => by
    simp only [argRun, Option.some.injEq, List.count_nil, Nat.zero_add]
    constructor
    · rintro rfl
      exact ⟨fun a c b e => by simp at e, by cases q <;> rfl⟩
    · rintro ⟨_, h⟩
      cases q <;> cases q' <;> simp at h ⊢
  | d :: t, q, q' => by
    rw [unsplitFrom_cons]
    have hcount : ((d :: t).count '"' + q.toNat) % 2 = (t.count '"' + (if d = '"' then !q else q).toNat) % 2 := by
      rw [List.count_cons]
      by_cases hd : d = '"'
      · subst hd
        cases q <;> simp <;> omega
      · simp [hd]
    rw [hcount]
    have ih := argRun_unsplit t (if d = '"' then !q else q) q'
    have hs : argScan q d = ((if d = '"' then !q else q), (if d = '"' then !q else q) || (d != ')' && d != ',')) := by
      simp [argScan]
    simp only [argRun, hs]
    by_cases hq : d = ',' ∨ d = ')'
    · have hd : d ≠ '"' := by rcases hq with rfl | rfl <;> decide
      simp only [hd, if_false] at ih ⊢
      cases q with
      | true =>
        simp only [Bool.true_or]
        rw [ih]
        simp
      | false =>
        have : (d != ')' && d != ',') = false := by rcases hq with rfl | rfl <;> decide
        rw [Bool.false_or, this]
        simp [hq]
    · have : (d != ')' && d != ',') = true := by
        simp only [not_or] at hq
        simp [hq.1, hq.2]
      rw [this, Bool.or_true]
      simp only [ih, hq, false_imp_iff, true_and]

theorem unsplit_run {t : Str} (h : Unsplit t) : argRun false t = some (decide (t.count '"' % 2 = 1)) := by
  rw [argRun_unsplit]
  refine ⟨h, ?_⟩
  by_cases hp : t.count '"' % 2 = 1
  · simp [hp]
  · have : t.count '"' % 2 = 0 := by omega
    simp [this]

theorem run_unsplit {t : Str} {q : Bool} (h : argRun false t = some q) : Unsplit t ∧ q.toNat = t.count '"' % 2 := by
  rw [argRun_unsplit] at h
  exact h

theorem trim_ends (t : Str) : (∀ c, (trim t).head? = some c → isWs c = false) ∧ ∀ c, (trim t).getLast? = some c → isWs c = false := by
  constructor
  · intro c hc
    obtain ⟨w', _, e'⟩ := trimStart_split (trimStart t).reverse
    have : trimStart t = trim t ++ w'.reverse := by
      have := congrArg List.reverse e'
      simpa [trim, trimEnd] using this
    refine trimStart_head t c ?_
    rw [this]
    cases ht : trim t with
    | nil => rw [ht] at hc; cases hc
    | cons x xs => rw [ht] at hc; simpa using hc
  · intro c hc
    have : trim t = (trimStart (trimStart t).reverse).reverse := by simp [trim, trimEnd]
    rw [this, List.getLast?_reverse] at hc
    exact trimStart_head _ c hc

theorem parseArgs_end (n : Nat) (t : Str) {q : Bool} (ht : argRun false t = some q) (pos : List RawArg) (named : List (Str × RawArg))
    (loc : Loc) : parseArgs U path (n + 1) pos named ⟨t, loc⟩ =
      ((addArg U (trim t) pos named).mapErr (errAt path loc t)).bind fun _ => .err (errAt path loc t .unexpectedEOF) := by
  obtain ⟨w, hw, e⟩ := trimStart_split t
  have hh := trimStart_head t
  have htrim : trim (trimStart t) = trim t := by
    unfold trim
    rw [trimStart_id _ hh]
  generalize trimStart t = t' at e hh htrim
  subst e
  have e1 : PSt.ignoreWhile isWs ⟨w ++ t', loc⟩ = ⟨t', w.foldl Loc.adv loc⟩ := ignoreWhile_all _ _ _ _ hw hh
  have e2 : argRun false t' = some q := by
    rw [argRun_append, argRun_plain _ _ (blank_plain hw)] at ht
    exact ht
  have e3 : ∀ loc, extractWhileGo argScan false t' loc = (t', ⟨[], t'.foldl Loc.adv loc⟩) := by
    intro loc
    have := extractWhileGo_argRun t' false q [] loc e2
    rw [List.append_nil] at this
    rw [this]
    simp [extractWhileGo]
  have e4 : PSt.tb ⟨[], t'.foldl Loc.adv (w.foldl Loc.adv loc)⟩ path = errAt path loc (w ++ t') := by
    funext k
    simp [PSt.tb, errAt]
  rw [parseArgs, e1]
  simp only [PSt.extractWhileS, e3, htrim, PSt.next, e4]

theorem slot_late {t : Str} {l : List (Option Str × RawArg)} (h : Slot U t l) (named : List (Str × RawArg)) :
    (named = [] ∨ slotPos l = []) ↔ ((!named.isEmpty) = true → ∀ x ∈ l, x.1 ≠ none) := by
  rcases slot_one h with rfl | ⟨a, rfl⟩ | ⟨k, a, rfl⟩ <;> simp [slotPos]

theorem slot_late' {t : Str} {l : List (Option Str × RawArg)} (h : Slot U t l) (named : List (Str × RawArg)) :
    (!(named ++ slotNamed l).isEmpty) = ((!named.isEmpty) || l.any fun x => x.1.isSome) := by
  rcases slot_one h with rfl | ⟨a, rfl⟩ | ⟨k, a, rfl⟩ <;> simp [slotNamed]

/-- Every text begins with an argument, in the widest sense. -/
theorem argEnds_split (s : Str) : ∃ t rest, s = t ++ rest ∧ ArgEnds t rest := by
  obtain ⟨q, h1, h2⟩ := extractWhileGo_arg_stop s false Loc.start
  have hr := extractWhileGo_reads argScan s false Loc.start
  obtain ⟨u1, u2⟩ := run_unsplit h1
  refine ⟨_, _, hr.1, u1, ?_⟩
  rcases h2 with h2 | ⟨rfl, c, r, h2, h3⟩
  · exact .inl h2
  · right
    refine ⟨u2.symm, ?_⟩
    rw [h2]
    rcases h3 with rfl | rfl
    · exact .inl rfl
    · exact .inr rfl

theorem parseArgs_faults : ∀ (n : Nat) (pos : List RawArg) (named : List (Str × RawArg)) (s : Str) (loc : Loc) (e : TB ParseErr),
    s.length < n → parseArgs U path n pos named ⟨s, loc⟩ = .err e →
    ∃ part k, ArgsFault U (!named.isEmpty) s part k ∧ e = errAt path loc part k
  | 0, _, _, _, _, _, hn, _ => absurd hn (by omega)
  | n + 1, pos, named, s, loc, e, hn, h => by
    obtain ⟨t, rest, rfl, hu, hend⟩ := argEnds_split s
    have bad : ∀ {k}, addArg U (trim t) pos named = .err k → ArgsFault U (!named.isEmpty) (t ++ rest) t k := by
      intro k hk
      obtain ⟨w, w', hw, hw', ht⟩ := trim_split t
      have := ArgsFault.bad (U := U) (late := !named.isEmpty) hw hw' (trim_ends t).1 (trim_ends t).2
        (by rw [← ht]; exact ⟨hu, hend⟩) (addArg_bad.1 hk)
      rwa [← ht] at this
    by_cases hrest : rest = []
    · subst hrest
      rw [List.append_nil] at h hn
      rw [parseArgs_end n t (unsplit_run hu)] at h
      cases ha : addArg U (trim t) pos named with
      | err k =>
        rw [ha] at h
        cases h
        exact ⟨t, k, bad ha, rfl⟩
      | panic q => rw [ha] at h; cases h
      | ok v =>
        obtain ⟨pos', named'⟩ := v
        rw [ha] at h
        cases h
        obtain ⟨l, h1, h2, _, _⟩ := add_slot ha
        rw [List.append_nil]
        exact ⟨t, _, .ends h1 ((slot_late h1 named).1 h2), rfl⟩
    · rcases hend with hend | ⟨hq, hc⟩
      · exact absurd hend hrest
      · cases rest with
        | nil => exact absurd rfl hrest
        | cons c r =>
          have hc' : c = ',' ∨ c = ')' := by simpa using hc
          have hrun : argRun false t = some false := by
            have := unsplit_run hu
            rw [hq] at this
            exact this
          rw [parseArgs_round U path n t hrun pos named c hc'] at h
          cases ha : addArg U (trim t) pos named with
          | err k =>
            rw [ha] at h
            cases h
            exact ⟨t, k, bad ha, rfl⟩
          | panic q => rw [ha] at h; cases h
          | ok v =>
            obtain ⟨pos', named'⟩ := v
            rw [ha] at h
            simp only [Res.mapErr_ok, Res.bind_ok] at h
            split at h
            · cases h
            · rename_i hp
              have hcc : c = ',' := by
                rcases hc' with h | h
                · exact h
                · exact absurd h hp
              subst hcc
              obtain ⟨l, h1, h2, rfl, rfl⟩ := add_slot ha
              obtain ⟨part, k, h3, h4⟩ := parseArgs_faults n _ _ r _ e (by simp at hn; omega) h
              rw [slot_late' h1] at h3
              refine ⟨_, k, .more h1 ((slot_late h1 named).1 h2) h3, ?_⟩
              rw [h4, ← errAt_append]
              simp

theorem faults_parseArgs {late : Bool} {s part : Str} {k : ParseErr} (h : ArgsFault U late s part k) :
    ∀ (n : Nat) (pos : List RawArg) (named : List (Str × RawArg)) (loc : Loc), s.length < n → late = !named.isEmpty →
    parseArgs U path n pos named ⟨s, loc⟩ = .err (errAt path loc part k) := by
  induction h with
  | @bad late w s w' rest k hw hw' h1 h2 hend hb =>
    intro n pos named loc hn hl
    obtain ⟨n, rfl⟩ : ∃ m, n = m + 1 := ⟨n - 1, by omega⟩
    subst hl
    have ha : addArg U (trim (w ++ s ++ w')) pos named = .err k := by
      rw [trim_core w s w' hw hw' h1 h2]
      exact addArg_bad.2 hb
    obtain ⟨hu, hend⟩ := hend
    generalize w ++ s ++ w' = t at ha hu hend ⊢
    rcases hend with rfl | ⟨hq, hc⟩
    · rw [List.append_nil, parseArgs_end n t (unsplit_run hu), ha]
      rfl
    · have hrun : argRun false t = some false := by
        have := unsplit_run hu
        rw [hq] at this
        exact this
      cases rest with
      | nil => simp at hc
      | cons c r =>
        have hc' : c = ',' ∨ c = ')' := by simpa using hc
        rw [parseArgs_round U path n t hrun pos named c hc', ha]
        rfl
  | @ends late t l hs hlate =>
    intro n pos named loc hn hl
    obtain ⟨n, rfl⟩ : ∃ m, n = m + 1 := ⟨n - 1, by omega⟩
    subst hl
    rw [parseArgs_end n t (slot_run hs), slot_add hs pos named ((slot_late hs named).2 hlate)]
    rfl
  | @more late t r part l k hs hlate _ ih =>
    intro n pos named loc hn hl
    obtain ⟨n, rfl⟩ : ∃ m, n = m + 1 := ⟨n - 1, by omega⟩
    subst hl
    rw [parseArgs_round U path n t (slot_run hs) pos named ',' (.inl rfl), slot_add hs pos named ((slot_late hs named).2 hlate)]
    simp only [Res.mapErr_ok, Res.bind_ok]
    have : (',' : Char) ≠ ')' := by decide
    rw [if_neg this, ih n _ _ _ (by simp at hn; omega) (slot_late' hs named).symm]
    congr 1
    rw [← errAt_append]
    simp

/-! ### Tags -/

theorem split_while (f : Char → Bool) : ∀ (s : Str), ∃ a b, s = a ++ b ∧ (∀ c ∈ a, f c = true) ∧ ∀ c, b.head? = some c → f c = false
  | [] => ⟨[], [], rfl, by simp, by simp⟩
  | c :: s => by
    by_cases h : f c = true
    · obtain ⟨a, b, rfl, h1, h2⟩ := split_while f s
      refine ⟨c :: a, b, rfl, ?_, h2⟩
      intro d hd
      rcases List.mem_cons.1 hd with rfl | hd
      · exact h
      · exact h1 d hd
    · exact ⟨[], c :: s, rfl, by simp, by intro d hd; simp at hd; subst hd; simpa using h⟩

theorem stop_ws {r : Str} : Stop (isWs · = true) r ↔ ∀ c, r.head? = some c → isWs c = false := by
  simp [Stop]

theorem stop_var {r : Str} : Stop (VarChar U) r ↔ ∀ c, r.head? = some c → isVarChar U c = false := by
  constructor
  · intro h c hc
    rw [Bool.eq_false_iff]
    exact fun h' => h c hc ((isVarChar_iff U c).1 h')
  · intro h c hc hv
    have := h c hc
    rw [(isVarChar_iff U c).2 hv] at this
    cases this

theorem stop_fn {r : Str} : Stop (FnChar U) r ↔ ∀ c, r.head? = some c → isFnChar U c = false := by
  constructor
  · intro h c hc
    rw [Bool.eq_false_iff]
    exact fun h' => h c hc ((isFnChar_iff U c).1 h')
  · intro h c hc hv
    have := h c hc
    rw [(isFnChar_iff U c).2 hv] at this
    cases this

/-- The rest of a call after the opening parenthesis. -/
def callRest (U : Unicode) (path : Str) (plugins : List PluginFns) (name : Str) (start : Loc) (p : PSt) : PRes Token :=
  (parseArgs U path (p.rest.length + 1) [] [] p).bind fun ((pos, named), p) =>
    let p := p.ignoreWhile isWs
    match resolveFn plugins ⟨name, pos, named⟩ with
    | some r => (r.mapErr (p.tb path)).bind fun f => .ok (.func f, p)
    | none => .err (errAt path start [] (.nonexistentFunction name))

theorem parseFunction_head {name gap r : Str} (hn : name ≠ []) (hc : ∀ c ∈ name, FnChar U c) (hg : Blank gap)
    (h1 : Stop (FnChar U) (gap ++ r)) (h2 : Stop (isWs · = true) r) (loc : Loc) :
    parseFunction U path plugins ⟨name ++ gap ++ r, loc⟩ =
      (PSt.expect path ['('] ⟨r, (name ++ gap).foldl Loc.adv loc⟩).bind fun x => callRest U path plugins name loc x.2 := by
  have e1 := extractWhile_all (isFnChar U) name (gap ++ r) loc (fun c h => (isFnChar_iff U c).2 (hc c h)) (stop_fn.1 h1)
  have e2 := ignoreWhile_all isWs gap r (name.foldl Loc.adv loc) hg (stop_ws.1 h2)
  unfold parseFunction
  rw [List.append_assoc, e1]
  have e6 : name.isEmpty = false := by simp [hn]
  simp only [e6, Bool.false_eq_true, if_false]
  rw [e2, List.foldl_append]
  rfl

/-- What is read of a call up to its closing parenthesis. -/
theorem callRest_slots {args r : Str} {pos : List RawArg} {named : List (Str × RawArg)} (hs : Slots U args (argList pos named))
    (name : Str) (start loc : Loc) :
    callRest U path plugins name start ⟨args ++ ')' :: r, loc⟩ =
      match resolveFn plugins ⟨name, pos, named⟩ with
      | some x => (x.mapErr ((PSt.ignoreWhile isWs ⟨r, (args ++ [')']).foldl Loc.adv loc⟩).tb path)).bind fun f =>
          .ok (.func f, PSt.ignoreWhile isWs ⟨r, (args ++ [')']).foldl Loc.adv loc⟩)
      | none => .err (errAt path start [] (.nonexistentFunction name)) := by
  have hord : Ordered (argList pos named) := by
    rw [Ordered, slotPos_argList, slotNamed_argList]
  have e4 := parseArgs_slots U path hs ((args ++ ')' :: r).length + 1) [] [] r loc (by simp; omega) hord (.inl rfl)
  rw [slotPos_argList, slotNamed_argList] at e4
  unfold callRest
  rw [e4]
  rfl

theorem name_head {name : Str} (hn : name ≠ []) (hc : ∀ c ∈ name, FnChar U c) (r : Str) :
    ∃ x xs, name ++ r = x :: xs ∧ x ≠ '$' := by
  cases name with
  | nil => exact absurd rfl hn
  | cons x xs =>
    refine ⟨x, xs ++ r, rfl, ?_⟩
    rintro rfl
    rcases hc '$' (.head _) with h3 | h3 | h3
    · exact not_alnum U '$' (by decide) (by decide) h3
    · revert h3; decide
    · revert h3; decide

theorem parseTag_name {s : Str} {x : Char} {xs : Str} (h : s = x :: xs) (hx : x ≠ '$') (loc : Loc) :
    parseTag U path plugins ⟨s, loc⟩ = parseFunction U path plugins ⟨s, loc⟩ := by
  subst h
  unfold parseTag
  split
  · rename_i h1
    simp [PSt.peek] at h1
    exact absurd h1 hx
  · rfl
  · rename_i h1; simp [PSt.peek] at h1

theorem parseTag_var {r : Str} (loc : Loc) : parseTag U path plugins ⟨'$' :: r, loc⟩ = parseVariable U path ⟨'$' :: r, loc⟩ := rfl

theorem parseVariable_name {n r : Str} (hc : ∀ c ∈ n, VarChar U c) (h : Stop (VarChar U) r) (loc : Loc) :
    parseVariable U path ⟨'$' :: (n ++ r), loc⟩ =
      if n = [] then .err (errAt path loc ['$'] (.invalidVariableName str!"<empty>"))
      else .ok (.var n, ⟨r, ('$' :: n).foldl Loc.adv loc⟩) := by
  unfold parseVariable
  have e0 := expect_ok path ['$'] (n ++ r) loc
  have e1 := extractWhile_all (isVarChar U) n r (['$'].foldl Loc.adv loc) (fun c h => (isVarChar_iff U c).2 (hc c h)) (stop_var.1 h)
  rw [show '$' :: (n ++ r) = ['$'] ++ (n ++ r) from rfl, e0]
  simp only [Res.bind_ok]
  rw [e1]
  cases n with
  | nil => rfl
  | cons x n => rfl

/-- A tag and its end. -/
def tagThen (U : Unicode) (path : Str) (plugins : List PluginFns) (p : PSt) : PRes Unit :=
  (parseTag U path plugins p).bind fun x => (x.2.ignoreWhile isWs).expect path str!"}}"

theorem ws_not_fn {w r : Str} (hw : Blank w) (h : w ≠ [] ∨ Stop (FnChar U) r) : Stop (FnChar U) (w ++ r) := by
  cases w with
  | nil =>
    rcases h with h | h
    · exact absurd rfl h
    · exact h
  | cons x w =>
    rw [stop_fn]
    intro c hc
    simp at hc
    subst hc
    exact isFnChar_false_of_ws U (hw x (.head _))

theorem paren_not_fn (r : Str) : Stop (FnChar U) (['('] ++ r) := by
  intro c hc h
  simp at hc
  subst hc
  rcases h with h | h | h
  · exact not_alnum U '(' (by decide) (by decide) h
  · revert h; decide
  · revert h; decide

theorem paren_not_ws (r : Str) : Stop (isWs · = true) (['('] ++ r) := by
  intro c hc h
  simp at hc
  subst hc
  revert h; decide

theorem faults_tag {r part : Str} {k : ParseErr} (h : TagFault U plugins r part k) (loc : Loc) :
    tagThen U path plugins ⟨r, loc⟩ = .err (errAt path loc part k) := by
  have call : ∀ {name gap args : Str} {r : Str} {pos : List RawArg} {named : List (Str × RawArg)}, name ≠ [] → (∀ c ∈ name, FnChar U c) →
      Blank gap → Slots U args (argList pos named) →
      parseTag U path plugins ⟨name ++ gap ++ '(' :: args ++ ')' :: r, loc⟩ =
        match resolveFn plugins ⟨name, pos, named⟩ with
        | some x => (x.mapErr ((PSt.ignoreWhile isWs ⟨r, (name ++ gap ++ '(' :: args ++ [')']).foldl Loc.adv loc⟩).tb path)).bind fun f =>
            .ok (.func f, PSt.ignoreWhile isWs ⟨r, (name ++ gap ++ '(' :: args ++ [')']).foldl Loc.adv loc⟩)
        | none => .err (errAt path loc [] (.nonexistentFunction name)) := by
    intro name gap args r pos named hn hc hg hs
    obtain ⟨x, xs, e, hx⟩ := name_head hn hc (gap ++ '(' :: args ++ ')' :: r)
    have e' : name ++ gap ++ '(' :: args ++ ')' :: r = x :: xs := by rw [← e]; simp
    rw [parseTag_name e' hx]
    have e2 : name ++ gap ++ '(' :: args ++ ')' :: r = name ++ gap ++ (['('] ++ (args ++ ')' :: r)) := by simp
    rw [e2, parseFunction_head hn hc hg (by
      by_cases h0 : gap = []
      · subst h0; exact paren_not_fn _
      · exact ws_not_fn hg (.inl h0)) (paren_not_ws _), expect_ok]
    simp only [Res.bind_ok]
    rw [callRest_slots hs]
    have e3 : (args ++ [')']).foldl Loc.adv (['('].foldl Loc.adv ((name ++ gap).foldl Loc.adv loc)) =
        (name ++ gap ++ '(' :: args ++ [')']).foldl Loc.adv loc := by
      rw [← List.foldl_append, ← List.foldl_append]
      exact congrArg (List.foldl Loc.adv loc) (by simp)
    rw [e3]
  have space : ∀ {w r : Str} {l : Loc}, Blank w → Stop (isWs · = true) r → PSt.ignoreWhile isWs ⟨w ++ r, l⟩ = ⟨r, w.foldl Loc.adv l⟩ :=
    fun hw hr => ignoreWhile_all isWs _ _ _ hw (stop_ws.1 hr)
  have again : ∀ {r : Str} {l : Loc}, Stop (isWs · = true) r → PSt.ignoreWhile isWs ⟨r, l⟩ = ⟨r, l⟩ := by
    intro r l hr
    exact space (w := []) (by simp [Blank]) hr
  unfold tagThen
  cases h with
  | nothing => rfl
  | noVar hs =>
    rename_i r
    rw [parseTag_var, show '$' :: r = '$' :: ([] ++ r) from rfl, parseVariable_name (by simp) hs]
    rfl
  | noName h0 h1 h2 =>
    cases r with
    | nil => exact absurd rfl h0
    | cons x xs =>
      have hx : x ≠ '$' := by simpa using h1
      rw [parseTag_name rfl hx]
      have e1 := extractWhile_all (isFnChar U) [] (x :: xs) loc (by simp) (stop_fn.1 h2)
      rw [List.nil_append] at e1
      unfold parseFunction
      rw [e1]
      rfl
  | noParen hn hc hg h1 h2 hm =>
    rename_i name gap r part
    obtain ⟨x, xs, e, hx⟩ := name_head hn hc (gap ++ r)
    rw [parseTag_name (by rw [← e]; simp) hx, parseFunction_head hn hc hg h1 h2, expect_missing.2 ⟨_, _, hm, rfl⟩, errAt_append]
    rfl
  | args hn hc hg hf =>
    rename_i name gap r part
    obtain ⟨x, xs, e, hx⟩ := name_head hn hc (gap ++ '(' :: r)
    have e2 : name ++ gap ++ '(' :: r = name ++ gap ++ (['('] ++ r) := by simp
    rw [parseTag_name (by rw [← e]; simp) hx, e2, parseFunction_head hn hc hg (by
      by_cases h0 : gap = []
      · subst h0; exact paren_not_fn _
      · exact ws_not_fn hg (.inl h0)) (paren_not_ws _), expect_ok]
    simp only [Res.bind_ok]
    unfold callRest
    rw [faults_parseArgs hf _ _ _ _ (by simp) rfl]
    simp only [Res.bind_err]
    have e3 : name ++ gap ++ '(' :: part = (name ++ gap) ++ (['('] ++ part) := by simp
    rw [e3, errAt_append, errAt_append]
  | unknown hn hc hg hs hb hp =>
    rw [call hn hc hg hs, resolveFn_unknown.2 ⟨hb, hp⟩]
    rfl
  | refused hn hc hg hs hr hw hstop =>
    rename_i name gap args w r pos named
    have e2 : name ++ gap ++ '(' :: args ++ ')' :: w ++ r = name ++ gap ++ '(' :: args ++ ')' :: (w ++ r) := by simp
    rw [e2, call hn hc hg hs, resolveFn_refused.2 hr, space hw hstop, ← List.foldl_append]
    simp only [Res.mapErr_err, Res.bind_err]
    have e3 : name ++ gap ++ '(' :: args ++ [')'] ++ w = name ++ gap ++ '(' :: args ++ ')' :: w := by simp
    rw [e3]
    rfl
  | openVar hn hc hw h1 h2 hm =>
    rename_i n w r part
    have e2 : '$' :: n ++ w ++ r = '$' :: (n ++ (w ++ r)) := by simp
    rw [e2, parseTag_var, parseVariable_name hc h1, if_neg hn]
    simp only [Res.bind_ok]
    rw [space hw h2, ← List.foldl_append, expect_missing.2 ⟨_, _, hm, rfl⟩, ← errAt_append]
  | openCall hn hc hg hs hd hw hstop hm =>
    rename_i name gap args w r part pos named f
    have e2 : name ++ gap ++ '(' :: args ++ ')' :: w ++ r = name ++ gap ++ '(' :: args ++ ')' :: (w ++ r) := by simp
    rw [e2, call hn hc hg hs, resolveFn_iff.2 hd]
    simp only [Res.mapErr_ok, Res.bind_ok]
    rw [space hw hstop, ← List.foldl_append, again hstop, expect_missing.2 ⟨_, _, hm, rfl⟩, ← errAt_append]
    have e3 : name ++ gap ++ '(' :: args ++ [')'] ++ w = name ++ gap ++ '(' :: args ++ ')' :: w := by simp
    rw [e3]

theorem tag_faults {r : Str} {loc : Loc} {e : TB ParseErr} (h : tagThen U path plugins ⟨r, loc⟩ = .err e) :
    ∃ part k, TagFault U plugins r part k ∧ e = errAt path loc part k := by
  have space : ∀ {w r : Str} {l : Loc}, Blank w → (∀ c, r.head? = some c → isWs c = false) →
      PSt.ignoreWhile isWs ⟨w ++ r, l⟩ = ⟨r, w.foldl Loc.adv l⟩ := fun hw hr => ignoreWhile_all isWs _ _ _ hw hr
  unfold tagThen at h
  cases r with
  | nil => cases h; exact ⟨[], _, .nothing, rfl⟩
  | cons x xs =>
    by_cases hx : x = '$'
    · subst hx
      obtain ⟨n, b, rfl, h1, h2⟩ := split_while (isVarChar U) xs
      have hc : ∀ c ∈ n, VarChar U c := fun c hc => (isVarChar_iff U c).1 (h1 c hc)
      rw [parseTag_var, parseVariable_name hc (stop_var.2 h2)] at h
      by_cases hn : n = []
      · subst hn
        cases h
        exact ⟨_, _, .noVar (stop_var.2 h2), rfl⟩
      · rw [if_neg hn] at h
        simp only [Res.bind_ok] at h
        obtain ⟨w, r, rfl, h3, h4⟩ := split_while isWs b
        rw [space h3 h4, ← List.foldl_append] at h
        obtain ⟨part, k, hm, rfl⟩ := expect_missing.1 h
        refine ⟨'$' :: n ++ w ++ part, k, ?_, by rw [errAt_append]⟩
        have := TagFault.openVar (plugins := plugins) hn hc h3 (stop_var.2 h2) (stop_ws.2 h4) hm
        simpa using this
    · rw [parseTag_name rfl hx] at h
      obtain ⟨name, b, hb, h1, h2⟩ := split_while (isFnChar U) (x :: xs)
      have hc : ∀ c ∈ name, FnChar U c := fun c hc => (isFnChar_iff U c).1 (h1 c hc)
      by_cases hn : name = []
      · subst hn
        rw [List.nil_append] at hb
        subst hb
        have e1 := extractWhile_all (isFnChar U) [] (x :: xs) loc (by simp) h2
        rw [List.nil_append] at e1
        unfold parseFunction at h
        rw [e1] at h
        cases h
        exact ⟨[], _, .noName (by simp) (by simpa using hx) (stop_fn.2 h2), rfl⟩
      · obtain ⟨gap, r, rfl, h3, h4⟩ := split_while isWs b
        rw [hb] at h ⊢
        rw [← List.append_assoc, parseFunction_head hn hc h3 (stop_fn.2 h2) (stop_ws.2 h4)] at h
        rw [← List.append_assoc]
        cases he : PSt.expect path ['('] ⟨r, (name ++ gap).foldl Loc.adv loc⟩ with
        | err e' =>
          rw [he] at h
          cases h
          obtain ⟨part, k, hm, rfl⟩ := expect_missing.1 he
          exact ⟨_, k, .noParen hn hc h3 (stop_fn.2 h2) (stop_ws.2 h4) hm, by rw [errAt_append]⟩
        | panic q => exact absurd he (expect_noPanic _ _ _ _)
        | ok v =>
          obtain ⟨u, p⟩ := v
          have rd := expect_reads he
          rw [he] at h
          simp only [Res.bind_ok] at h
          have e1 : r = '(' :: p.rest := rd.1
          have e2 := reads_eq rd
          subst e1
          obtain ⟨r, l⟩ := p
          simp only [PSt.mk.injEq, true_and] at e2
          simp only at h ⊢
          unfold callRest at h
          simp only at h
          cases hA : parseArgs U path (r.length + 1) [] [] ⟨r, l⟩ with
          | err e' =>
            rw [hA] at h
            cases h
            obtain ⟨part, k, hf, rfl⟩ := parseArgs_faults _ _ _ _ _ _ (by omega) hA
            refine ⟨_, k, .args hn hc h3 hf, ?_⟩
            rw [e2]
            have e3 : name ++ gap ++ '(' :: part = (name ++ gap) ++ (['('] ++ part) := by simp
            rw [e3, errAt_append, errAt_append]
          | panic q => rw [hA] at h; cases h
          | ok v =>
            obtain ⟨⟨pos, named⟩, p'⟩ := v
            obtain ⟨args, l0, hs, ho, _, rfl, rfl, rd2⟩ := slots_of_parseArgs U path _ _ _ _ _ _ _ _ hA
            rw [hA] at h
            simp only [Res.bind_ok, List.nil_append] at h
            rw [ho] at hs
            have e3 : r = args ++ ')' :: p'.rest := by have := rd2.1; simpa using this
            have e4 := reads_eq rd2
            obtain ⟨r', l'⟩ := p'
            simp only at e3
            simp only [PSt.mk.injEq, true_and] at e4
            subst e3
            obtain ⟨w, r'', rfl, h5, h6⟩ := split_while isWs r'
            rw [space h5 h6] at h
            have e5 : w.foldl Loc.adv l' = (name ++ gap ++ '(' :: args ++ ')' :: w).foldl Loc.adv loc := by
              rw [e4, e2, ← List.foldl_append, ← List.foldl_append, ← List.foldl_append]
              exact congrArg (List.foldl Loc.adv loc) (by simp)
            rw [e5] at h
            have e6 : name ++ gap ++ '(' :: (args ++ ')' :: (w ++ r'')) = name ++ gap ++ '(' :: args ++ ')' :: w ++ r'' := by simp
            rw [e6]
            cases hr : resolveFn plugins ⟨name, slotPos l0, slotNamed l0⟩ with
            | none =>
              rw [hr] at h
              cases h
              obtain ⟨k1, k2⟩ := resolveFn_unknown.1 hr
              refine ⟨[], _, ?_, rfl⟩
              have := TagFault.unknown (r := w ++ r'') hn hc h3 hs k1 k2
              simpa using this
            | some x =>
              rw [hr] at h
              cases x with
              | err k =>
                cases h
                exact ⟨_, k, .refused hn hc h3 hs (resolveFn_refused.1 hr) h5 (stop_ws.2 h6), rfl⟩
              | panic q => cases h
              | ok f =>
                simp only [Res.mapErr_ok, Res.bind_ok] at h
                have e7 := space (w := []) (r := r'') (l := (name ++ gap ++ '(' :: args ++ ')' :: w).foldl Loc.adv loc) (by simp [Blank]) h6
                rw [List.nil_append, List.foldl_nil] at e7
                rw [e7] at h
                obtain ⟨part, k, hm, rfl⟩ := expect_missing.1 h
                exact ⟨_, k, .openCall hn hc h3 hs (resolveFn_iff.1 hr) h5 (stop_ws.2 h6) hm, by rw [errAt_append]⟩

/-! ### Files -/

theorem parseHtmlGo_faults (U : Unicode) (path : Str) (plugins : List PluginFns) : ∀ (n : Nat) (toks : List LTok) (line col : Nat)
    (pre : Str) (p : PSt) (e : TB ParseErr), p.loc = pre.foldl Loc.adv Loc.start → Tags U plugins pre →
    parseHtmlGo U path plugins n toks line col p = .err e →
    ∃ part k, Fault U plugins (pre ++ p.rest) part k ∧ e = errAt path Loc.start part k
  | 0, _, _, _, _, _, _, _, _, h => by simp [parseHtmlGo] at h
  | n + 1, toks, line, col, pre, p, e, hloc, hpre, h => by
    unfold parseHtmlGo at h
    split at h
    · cases h
    · rename_i raw p1 h1
      obtain ⟨txt, ho, rfl, r1⟩ := extractUntil_some h1
      obtain ⟨ws, r, hr, hw, hst⟩ := split_while isWs p1.rest
      have e1 := ignoreWhile_all isWs ws r p1.loc hw hst
      rw [← hr] at e1
      simp only at h
      have e0 : PSt.ignoreWhile isWs p1 = ⟨r, ws.foldl Loc.adv p1.loc⟩ := e1
      rw [e0] at h
      have hl : ws.foldl Loc.adv p1.loc = (pre ++ txt ++ str!"{{" ++ ws).foldl Loc.adv Loc.start := by
        rw [r1.2, hloc, ← List.foldl_append, ← List.foldl_append]
        exact congrArg (List.foldl Loc.adv Loc.start) (by simp)
      have hsrc : pre ++ p.rest = pre ++ txt ++ str!"{{" ++ ws ++ r := by rw [r1.1, hr]; simp
      have close : ∀ {d : TB ParseErr}, tagThen U path plugins ⟨r, ws.foldl Loc.adv p1.loc⟩ = .err d →
          ∃ part k, Fault U plugins (pre ++ p.rest) part k ∧ d = errAt path Loc.start part k := by
        intro d hd
        obtain ⟨part, k, hf, rfl⟩ := tag_faults hd
        exact ⟨pre ++ txt ++ str!"{{" ++ ws ++ part, k, ⟨pre, txt, ws, r, part, hpre, ho, hw, stop_ws.2 hst, hf, hsrc, rfl⟩,
          by rw [hl, errAt_append]⟩
      rcases Res.bind_eq_err.1 h with h3 | ⟨⟨tok, p3⟩, h3, h4⟩
      · exact close (by unfold tagThen; rw [h3]; rfl)
      · obtain ⟨body, hbody, r3⟩ := text_of_parseTag h3
        obtain ⟨w2, hw2, r4⟩ := ignoreWs_reads p3
        simp only at h4
        rcases Res.bind_eq_err.1 h4 with h5 | ⟨⟨u, p5⟩, h5, h6⟩
        · exact close (by unfold tagThen; rw [h3]; exact h5)
        · have r5 := expect_reads h5
          have rr := ((r3.trans r4).trans r5)
          have hloc5 : p5.loc = (pre ++ txt ++ str!"{{" ++ ws ++ (body ++ w2) ++ str!"}}").foldl Loc.adv Loc.start := by
            rw [rr.2]
            simp only
            rw [hl, ← List.foldl_append]
            exact congrArg (List.foldl Loc.adv Loc.start) (by simp)
          have hrest : pre ++ p.rest = pre ++ txt ++ str!"{{" ++ ws ++ (body ++ w2) ++ str!"}}" ++ p5.rest := by
            have := rr.1
            simp only at this
            rw [hsrc, this]; simp
          rw [hrest]
          exact parseHtmlGo_faults U path plugins n _ _ _ _ p5 e hloc5 (.tag hpre ho hw (tagText_append hbody hw2)) h6

theorem parseHtmlGo_tags_at {pre : Str} (h : Tags U plugins pre) (rest : Str) (n : Nat) (hn : (pre ++ rest).length < n) :
    ∃ n' toks line col, rest.length < n' ∧
      parseHtmlGo U path plugins n [] 1 1 ⟨pre ++ rest, Loc.start⟩ =
        parseHtmlGo U path plugins n' toks line col ⟨rest, pre.foldl Loc.adv Loc.start⟩ := by
  induction h generalizing rest with
  | nil => exact ⟨n, [], 1, 1, by simpa using hn, rfl⟩
  | @tag pre txt ws body t _ ho hw ht ih =>
    have hsrc : pre ++ txt ++ str!"{{" ++ ws ++ body ++ str!"}}" ++ rest =
        pre ++ (txt ++ str!"{{" ++ (ws ++ (body ++ (str!"}}" ++ rest)))) := by simp
    rw [hsrc] at hn ⊢
    obtain ⟨n', toks, line, col, hn', he⟩ := ih _ hn
    obtain ⟨n', rfl⟩ : ∃ m, n' = m + 1 := ⟨n' - 1, by omega⟩
    generalize hloc : pre.foldl Loc.adv Loc.start = loc at he
    have e1 := ignoreWhile_all isWs ws (body ++ (str!"}}" ++ rest)) ((txt ++ str!"{{").foldl Loc.adv loc) hw
      (tagText_head ht _)
    obtain ⟨p, x, w, e2, rfl, hw2, rfl⟩ := parseTag_text (path := path) ht rest
      (ws.foldl Loc.adv ((txt ++ str!"{{").foldl Loc.adv loc))
    have e3 := ignoreWhile_all isWs w (str!"}}" ++ rest)
      (x.foldl Loc.adv (ws.foldl Loc.adv ((txt ++ str!"{{").foldl Loc.adv loc))) hw2
      (by intro c hc; simp at hc; subst hc; decide)
    have e4 := expect_ok path str!"}}" rest
      (w.foldl Loc.adv (x.foldl Loc.adv (ws.foldl Loc.adv ((txt ++ str!"{{").foldl Loc.adv loc))))
    rw [he, parseHtmlGo, extractUntil_opens _ _ _ ho]
    simp only
    rw [e1, e2]
    simp only [Res.bind_ok]
    rw [e3, e4]
    simp only [Res.bind_ok]
    have e5 : (pre ++ txt ++ str!"{{" ++ ws ++ (x ++ w) ++ str!"}}").foldl Loc.adv Loc.start =
        str!"}}".foldl Loc.adv (w.foldl Loc.adv (x.foldl Loc.adv (ws.foldl Loc.adv ((txt ++ str!"{{").foldl Loc.adv loc)))) := by
      rw [← hloc, ← List.foldl_append, ← List.foldl_append, ← List.foldl_append, ← List.foldl_append, ← List.foldl_append]
      exact congrArg (List.foldl Loc.adv Loc.start) (by simp)
    rw [e5]
    exact ⟨n', _, _, _, by simp at hn'; omega, rfl⟩

theorem faults_parseHtml {input part : Str} {k : ParseErr} (h : Fault U plugins input part k) :
    parseHtml U path plugins input = .err (errAt path Loc.start part k) := by
  obtain ⟨pre, txt, ws, r, x, h1, h2, h3, h4, h5, rfl, rfl⟩ := h
  have hsrc : pre ++ txt ++ str!"{{" ++ ws ++ r = pre ++ (txt ++ str!"{{" ++ (ws ++ r)) := by simp
  rw [hsrc]
  unfold parseHtml PSt.init
  obtain ⟨n, toks, line, col, hn, he⟩ := parseHtmlGo_tags_at (path := path) h1 (txt ++ str!"{{" ++ (ws ++ r)) _ (Nat.lt_succ_self _)
  obtain ⟨n, rfl⟩ : ∃ m, n = m + 1 := ⟨n - 1, by omega⟩
  rw [he, parseHtmlGo, extractUntil_opens _ _ _ h2]
  simp only
  rw [ignoreWhile_all isWs ws r _ h3 (stop_ws.1 h4)]
  have e1 := faults_tag (path := path) h5 (ws.foldl Loc.adv ((txt ++ str!"{{").foldl Loc.adv (pre.foldl Loc.adv Loc.start)))
  rw [← List.foldl_append, ← List.foldl_append, ← errAt_append] at e1
  have e2 : pre ++ txt ++ str!"{{" ++ ws ++ x = pre ++ (txt ++ str!"{{" ++ ws) ++ x := by simp
  rw [e2]
  unfold tagThen at e1
  rw [← List.foldl_append, ← List.foldl_append]
  cases ht : parseTag U path plugins ⟨r, (pre ++ (txt ++ str!"{{" ++ ws)).foldl Loc.adv Loc.start⟩ with
  | err d => rw [ht] at e1; cases e1; rfl
  | panic q => rw [ht] at e1; cases e1
  | ok v =>
    rw [ht] at e1
    simp only [Res.bind_ok] at e1 ⊢
    rw [e1]
    rfl

theorem parseHtml_fault {input : Str} {e : TB ParseErr} :
    parseHtml U path plugins input = .err e ↔
      ∃ part k, Fault U plugins input part k ∧ e = ⟨path, lineAt part, colAt part, k⟩ := by
  have hat : ∀ part k, errAt path Loc.start part k = ⟨path, lineAt part, colAt part, k⟩ := by
    intro part k
    unfold errAt
    rw [← foldl_adv_line, ← foldl_adv_col]
  constructor
  · intro h
    obtain ⟨part, k, hf, rfl⟩ := parseHtmlGo_faults U path plugins _ [] 1 1 [] (PSt.init input) e rfl .nil h
    exact ⟨part, k, hf, hat _ _⟩
  · rintro ⟨part, k, hf, rfl⟩
    rw [faults_parseHtml hf, hat]

end Stuart
