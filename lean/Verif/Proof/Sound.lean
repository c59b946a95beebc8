import Verif.Proof.Resolve
import Verif.Spec.Grammar
/-
Helper lemmas: what the parser consumes, and where it can panic.
-/
namespace Stuart
open Spec

/-- `p'` is `p` after reading `x`. -/
def Reads (p : PSt) (x : Str) (p' : PSt) : Prop := p.rest = x ++ p'.rest ∧ p'.loc = x.foldl Loc.adv p.loc

theorem Reads.refl (p : PSt) : Reads p [] p := ⟨rfl, rfl⟩

theorem Reads.trans {p q r : PSt} {x y : Str} (h1 : Reads p x q) (h2 : Reads q y r) : Reads p (x ++ y) r :=
  ⟨by rw [h1.1, h2.1, List.append_assoc], by rw [h2.2, h1.2, List.foldl_append]⟩

theorem extractWhileGo_reads {σ : Type} (f : σ → Char → σ × Bool) : ∀ (s : Str) (st : σ) (loc : Loc),
    Reads ⟨s, loc⟩ (extractWhileGo f st s loc).1 (extractWhileGo f st s loc).2
  | [], st, loc => by simp [extractWhileGo, Reads]
  | c :: s, st, loc => by
    unfold extractWhileGo
    split
    · rename_i st' h
      have ih := extractWhileGo_reads f s st' (loc.adv c)
      exact ⟨by simp only [List.cons_append]; rw [← ih.1], by simp only [List.foldl_cons]; exact ih.2⟩
    · exact ⟨rfl, rfl⟩

theorem extractWhile_reads (f : Char → Bool) (p : PSt) :
    Reads p (p.extractWhile f).1 (p.extractWhile f).2 := extractWhileGo_reads _ _ _ _

theorem extractWhileGo_true (f : Char → Bool) : ∀ (s : Str) (loc : Loc),
    ∀ c ∈ (extractWhileGo (fun (_ : Unit) c => ((), f c)) () s loc).1, f c = true
  | [], loc => by simp [extractWhileGo]
  | c :: s, loc => by
    unfold extractWhileGo
    split
    · rename_i st' h
      intro d hd
      simp only at hd
      rcases List.mem_cons.1 hd with rfl | hd
      · exact congrArg Prod.snd h
      · exact extractWhileGo_true f s _ d hd
    · simp

theorem extractWhile_true (f : Char → Bool) (p : PSt) : ∀ c ∈ (p.extractWhile f).1, f c = true :=
  extractWhileGo_true f _ _

theorem ignoreWs_reads (p : PSt) : ∃ w, Blank w ∧ Reads p w (p.ignoreWhile isWs) :=
  ⟨_, extractWhile_true isWs p, extractWhile_reads isWs p⟩

theorem expectGo_reads (path whole : Str) : ∀ (s : Str) (p p' : PSt) (u : Unit),
    PSt.expectGo path whole s p = .ok (u, p') → Reads p s p'
  | [], p, p', u, h => by simp [PSt.expectGo] at h; subst h; exact Reads.refl p
  | c :: s, p, p', u, h => by
    unfold PSt.expectGo at h
    unfold PSt.next at h
    cases hr : p.rest with
    | nil => rw [hr] at h; simp at h
    | cons d ds =>
      rw [hr] at h
      simp only at h
      split at h
      · rename_i hcd
        subst hcd
        have := expectGo_reads path whole s _ _ _ h
        exact ⟨by rw [hr]; simp [← this.1], by simpa using this.2⟩
      · cases h

theorem expect_reads {path s : Str} {p p' : PSt} {u : Unit} (h : p.expect path s = .ok (u, p')) :
    Reads p s p' := expectGo_reads path s s p p' u h

theorem expectGo_noPanic (path whole : Str) : ∀ (s : Str) (p : PSt) (q : Panic),
    PSt.expectGo path whole s p ≠ .panic q
  | [], p, q => by simp [PSt.expectGo]
  | c :: s, p, q => by
    unfold PSt.expectGo
    split
    · simp
    · split
      · exact expectGo_noPanic path whole s _ q
      · simp

theorem expect_noPanic (path s : Str) (p : PSt) (q : Panic) : p.expect path s ≠ .panic q :=
  expectGo_noPanic path s s p q

/-! ### Where the argument scanner stops -/

/-- The scanner stops at the end of input, or at a separator outside quotes; a run that ends inside quotes
ends at the end of input. -/
theorem extractWhileGo_arg_stop : ∀ (s : Str) (q : Bool) (loc : Loc),
    ∃ q', argRun q (extractWhileGo argScan q s loc).1 = some q' ∧
      ((extractWhileGo argScan q s loc).2.rest = [] ∨
       (q' = false ∧ ∃ c r, (extractWhileGo argScan q s loc).2.rest = c :: r ∧ (c = ',' ∨ c = ')')))
  | [], q, loc => ⟨q, rfl, Or.inl rfl⟩
  | c :: s, q, loc => by
    unfold extractWhileGo
    split
    · rename_i st' h
      obtain ⟨q', h1, h2⟩ := extractWhileGo_arg_stop s st' (loc.adv c)
      refine ⟨q', ?_, h2⟩
      simp only [argRun, h]
      exact h1
    · rename_i st' h
      refine ⟨q, rfl, Or.inr ?_⟩
      unfold argScan at h
      simp only [Prod.mk.injEq, Bool.or_eq_false_iff, Bool.and_eq_false_iff] at h
      obtain ⟨h0, h1, h2⟩ := h
      have hc : c = ',' ∨ c = ')' := by
        rcases h2 with h2 | h2
        · right; simpa using h2
        · left; simpa using h2
      refine ⟨?_, c, s, rfl, hc⟩
      have : c ≠ '"' := by rcases hc with rfl | rfl <;> decide
      simpa [this] using h1

/-- The result ends in a lone quote followed by blanks only. -/
def QuoteEnd (s : Str) : Prop := ∃ pre w, s = pre ++ '"' :: w ∧ Blank w

theorem QuoteEnd.prepend {s : Str} (x : Str) (h : QuoteEnd s) : QuoteEnd (x ++ s) := by
  obtain ⟨pre, w, rfl, hw⟩ := h
  exact ⟨x ++ pre, w, by simp, hw⟩

theorem parseRawArg_panic {U : Unicode} {arg : Str} {q : Panic} (h : parseRawArg U arg = .panic q) :
    q = .loneQuote ∧ arg = ['"'] := by
  unfold parseRawArg at h
  split at h
  · simp only at h
    split at h <;> cases h
  · split at h
    · rename_i hs
      rw [Bool.and_eq_true] at hs
      split at h
      · rename_i hsuf
        refine ⟨by cases h; rfl, ?_⟩
        cases arg with
        | nil => simp [startsWith] at hs
        | cons c cs =>
          rw [startsWith_single] at hs
          have hc : c = '"' := by have := hs.1; simp at this; first | exact this | exact this.symm
          subst hc
          cases hcs : cs with
          | nil => rfl
          | cons d ds =>
            exfalso
            obtain ⟨pre, hp⟩ := endsWith_iff.1 hs.2
            rw [hcs] at hp
            have : ∃ z, d :: ds = z ++ ['"'] := by
              cases pre with
              | nil => simp at hp
              | cons x xs => simp at hp; exact ⟨xs, hp.2.symm⟩
            obtain ⟨z, hz⟩ := this
            simp only [List.drop_succ_cons, List.drop_zero, hcs, hz, stripSuffix_append] at hsuf
            cases hsuf
      · split at h <;> cases h
    · split at h
      · cases h
      · split at h <;> cases h

theorem splitFirst_some {d : Char} : ∀ {s k v : Str}, splitFirst d s = (k, some v) → s = k ++ d :: v
  | [], k, v, h => by simp [splitFirst] at h
  | c :: s, k, v, h => by
    unfold splitFirst at h
    split at h
    · rename_i hc
      simp only [Prod.mk.injEq, Option.some.injEq] at h
      obtain ⟨rfl, rfl⟩ := h
      simp [hc]
    · cases hs : splitFirst d s with
      | mk a b =>
        rw [hs] at h
        simp only [Prod.mk.injEq] at h
        obtain ⟨rfl, rfl⟩ := h
        rw [splitFirst_some hs]
        rfl

theorem addArg_panic {U : Unicode} {arg : Str} {pos : List RawArg} {named : List (Str × RawArg)} {q : Panic}
    (h : addArg U arg pos named = .panic q) : q = .loneQuote ∧
      (arg = ['"'] ∨ ∃ k, (∀ c ∈ k, U.alnum c = true ∨ c = '_') ∧ arg = k ++ ['=', '"']) := by
  unfold addArg at h
  split at h
  · split at h
    · cases h
    · rename_i name value hs
      split at h
      · cases h
      · rename_i hn
        cases ha : parseRawArg U value with
        | ok a => rw [ha] at h; cases h
        | err e => rw [ha] at h; cases h
        | panic p =>
          rw [ha] at h
          cases h
          obtain ⟨rfl, rfl⟩ := parseRawArg_panic ha
          refine ⟨rfl, Or.inr ⟨name, ?_, splitFirst_some hs⟩⟩
          intro c hc
          rw [← isNameChar_iff]
          simp only [Bool.or_eq_true, Bool.not_eq_true', not_or, Bool.not_eq_false] at hn
          exact List.all_eq_true.1 hn.2 c hc
  · split at h
    · split at h
      · cases h
      · cases ha : parseRawArg U arg with
        | ok a => rw [ha] at h; cases h
        | err e => rw [ha] at h; cases h
        | panic p =>
          rw [ha] at h
          cases h
          obtain ⟨rfl, rfl⟩ := parseRawArg_panic ha
          exact ⟨rfl, Or.inl rfl⟩
    · cases h

theorem trimStart_split : ∀ (s : Str), ∃ w, Blank w ∧ s = w ++ trimStart s
  | [] => ⟨[], by simp [Blank], rfl⟩
  | c :: s => by
    unfold trimStart
    split
    · rename_i hc
      obtain ⟨w, hw, e⟩ := trimStart_split s
      refine ⟨c :: w, ?_, by simp [← e]⟩
      intro d hd
      rcases List.mem_cons.1 hd with rfl | hd
      · exact hc
      · exact hw d hd
    · exact ⟨[], by simp [Blank], rfl⟩

theorem trim_split (s : Str) : ∃ w w', Blank w ∧ Blank w' ∧ s = w ++ trim s ++ w' := by
  obtain ⟨w, hw, e⟩ := trimStart_split s
  obtain ⟨w', hw', e'⟩ := trimStart_split (trimStart s).reverse
  refine ⟨w, w'.reverse, hw, fun c hc => hw' c (by simpa using hc), ?_⟩
  have : trimStart s = trim s ++ w'.reverse := by
    have := congrArg List.reverse e'
    simpa [trim, trimEnd] using this
  rw [List.append_assoc, ← this, ← e]

theorem argRun_single_quote {a w : Str} (ha : ∀ c ∈ a, c ≠ '"' ∧ c ≠ ',' ∧ c ≠ ')') (hw : Blank w) :
    argRun false (a ++ '"' :: w) = some true := by
  rw [argRun_append, argRun_plain _ _ ha]
  show argRun false (['"'] ++ w) = _
  rw [argRun_append]
  exact argRun_plain _ _ (blank_plain hw)

/-- The argument loop can only panic on a lone quote at the end of the input. -/
theorem parseArgs_panic (U : Unicode) (path : Str) : ∀ (n : Nat) (pos : List RawArg)
    (named : List (Str × RawArg)) (p : PSt) (q : Panic), p.rest.length < n →
    parseArgs U path n pos named p = .panic q → q = .loneQuote ∧ QuoteEnd p.rest
  | 0, _, _, _, _, hn, _ => absurd hn (by omega)
  | n + 1, pos, named, p, q, hn, h => by
    obtain ⟨w, hw, hread⟩ := ignoreWs_reads p
    unfold parseArgs at h
    simp only at h
    generalize p.ignoreWhile isWs = p1 at h hread
    have hs := extractWhileGo_reads argScan p1.rest false p1.loc
    obtain ⟨q', hrun, hstop⟩ := extractWhileGo_arg_stop p1.rest false p1.loc
    change Reads p1 _ _ at hs
    have hE : p1.extractWhileS argScan false = extractWhileGo argScan false p1.rest p1.loc := rfl
    rw [hE] at h
    generalize hx : extractWhileGo argScan false p1.rest p1.loc = x at h hs hrun hstop
    obtain ⟨txt, p2⟩ := x
    simp only at h hs hrun hstop
    cases ha : addArg U (trim txt) pos named with
    | err e => rw [ha] at h; cases h
    | panic q0 =>
      rw [ha] at h
      simp only [Res.mapErr_panic, Res.bind_panic, Res.panic.injEq] at h
      subst h
      obtain ⟨rfl, hform⟩ := addArg_panic ha
      refine ⟨rfl, ?_⟩
      obtain ⟨w1, w2, hw1, hw2, htxt⟩ := trim_split txt
      have hq : ∃ a w, (∀ c ∈ a, c ≠ '"' ∧ c ≠ ',' ∧ c ≠ ')') ∧ Blank w ∧ txt = a ++ '"' :: w := by
        rcases hform with hf | ⟨k, hk, hf⟩
        · exact ⟨w1, w2, blank_plain hw1, hw2, by rw [htxt, hf]; simp⟩
        · refine ⟨w1 ++ k ++ ['='], w2, ?_, hw2, by rw [htxt, hf]; simp⟩
          intro c hc
          rcases List.mem_append.1 hc with hc | hc
          · rcases List.mem_append.1 hc with hc | hc
            · exact blank_plain hw1 c hc
            · have := nameChar_facts U (hk c hc)
              exact ⟨this.2.1, this.2.2.1, this.2.2.2.1⟩
          · simp at hc; subst hc; decide
      obtain ⟨a, w', ha', hw', rfl⟩ := hq
      rw [argRun_single_quote ha' hw'] at hrun
      cases hrun
      rcases hstop with hstop | ⟨hf, _⟩
      · have e1 := hread.1
        have e2 := hs.1
        rw [hstop, List.append_nil] at e2
        rw [e1, e2]
        exact QuoteEnd.prepend _ ⟨a, w', rfl, hw'⟩
      · cases hf
    | ok v =>
      rw [ha] at h
      simp only [Res.mapErr_ok, Res.bind_ok] at h
      rcases hstop with hstop | ⟨_, c, r, hrest, hc⟩
      · simp [PSt.next, hstop] at h
      · simp only [PSt.next, hrest] at h
        rcases hc with rfl | rfl
        · simp only [Char.reduceEq, if_false, if_true] at h
          have e1 := hread.1
          have e2 := hs.1
          rw [hrest] at e2
          have hlen : r.length < n := by
            have := congrArg List.length e1
            rw [e2] at this
            simp at this
            omega
          obtain ⟨h1, h2⟩ := parseArgs_panic U path n _ _ _ q hlen h
          refine ⟨h1, ?_⟩
          have : p.rest = (w ++ txt ++ [',']) ++ r := by rw [e1, e2]; simp
          rw [this]
          exact QuoteEnd.prepend _ h2
        · simp at h

theorem parseArgs_reads (U : Unicode) (path : Str) : ∀ (n : Nat) (pos : List RawArg)
    (named : List (Str × RawArg)) (p p' : PSt) (v : List RawArg × List (Str × RawArg)),
    parseArgs U path n pos named p = .ok (v, p') → ∃ x, Reads p (x ++ [')']) p'
  | 0, _, _, _, _, _, h => by simp [parseArgs] at h
  | n + 1, pos, named, p, p', v, h => by
    obtain ⟨w, hw, hread⟩ := ignoreWs_reads p
    unfold parseArgs at h
    simp only at h
    generalize p.ignoreWhile isWs = p1 at h hread
    have hs := extractWhileGo_reads argScan p1.rest false p1.loc
    change Reads p1 _ _ at hs
    have hE : p1.extractWhileS argScan false = extractWhileGo argScan false p1.rest p1.loc := rfl
    rw [hE] at h
    generalize hx : extractWhileGo argScan false p1.rest p1.loc = x at h hs
    obtain ⟨txt, p2⟩ := x
    simp only at h hs
    cases ha : addArg U (trim txt) pos named with
    | err e => rw [ha] at h; cases h
    | panic q0 => rw [ha] at h; cases h
    | ok v =>
      rw [ha] at h
      simp only [Res.mapErr_ok, Res.bind_ok] at h
      unfold PSt.next at h
      cases hr : p2.rest with
      | nil => rw [hr] at h; cases h
      | cons c cs =>
        rw [hr] at h
        simp only at h
        have hone : Reads p2 [c] ⟨cs, p2.loc.adv c⟩ := ⟨hr, rfl⟩
        split at h
        · rename_i hc
          subst hc
          simp only [Res.ok.injEq, Prod.mk.injEq] at h
          obtain ⟨_, rfl⟩ := h
          exact ⟨w ++ txt, (hread.trans hs).trans hone⟩
        · split at h
          · obtain ⟨x, hx⟩ := parseArgs_reads U path n _ _ _ _ _ h
            refine ⟨w ++ txt ++ [c] ++ x, ?_⟩
            have := ((hread.trans hs).trans hone).trans hx
            simpa using this
          · cases h

/-! ### Function objects -/

def NoPanic {ε α : Type} (r : Res ε α) : Prop := ∀ q, r ≠ .panic q

theorem NoPanic.ok {ε α : Type} (a : α) : NoPanic (.ok a : Res ε α) := fun _ h => by cases h
theorem NoPanic.err {ε α : Type} (e : ε) : NoPanic (.err e : Res ε α) := fun _ h => by cases h

theorem NoPanic.bind {ε α β : Type} {r : Res ε α} {f : α → Res ε β} (h : NoPanic r)
    (hf : ∀ a, NoPanic (f a)) : NoPanic (r.bind f) := by
  cases r with
  | ok a => exact hf a
  | err e => exact NoPanic.err e
  | panic q => exact absurd rfl (h q)

theorem quietAssert_np (b : Bool) : NoPanic (quietAssert b) := by
  unfold quietAssert; split <;> intro q h <;> cases h

theorem shape_np (raw : RawFn) (n : Nat) : NoPanic (raw.shape n) :=
  (quietAssert_np _).bind fun _ => quietAssert_np _

theorem needVar_np (a : RawArg) : NoPanic a.needVar := by cases a <;> intro q h <;> cases h
theorem needStr_np (a : RawArg) : NoPanic a.needStr := by cases a <;> intro q h <;> cases h
theorem needLabel_np (a : RawArg) : NoPanic a.needLabel := by cases a <;> intro q h <;> cases h
theorem needInput_np (a : RawArg) : NoPanic a.needInput := by cases a <;> intro q h <;> cases h
theorem toUsize_np (i : Int) : NoPanic (toUsize i) := by
  unfold toUsize; split <;> intro q h <;> cases h
theorem needNat_np (a : RawArg) : NoPanic a.needNat := by
  cases a with
  | int i => exact toUsize_np i
  | _ => intro q h; cases h

theorem forNamed_np (o : ForOpts) (n : Str) (a : RawArg) : NoPanic (forNamed o n a) := by
  unfold forNamed
  split
  · cases a with
    | int i => exact (quietAssert_np _).bind fun _ => (toUsize_np _).bind fun _ => NoPanic.ok _
    | _ => exact NoPanic.err _
  · split
    · cases a with
      | int i => exact (quietAssert_np _).bind fun _ => (toUsize_np _).bind fun _ => NoPanic.ok _
      | _ => exact NoPanic.err _
    · split
      · cases a with
        | var v => exact (quietAssert_np _).bind fun _ => NoPanic.ok _
        | _ => exact NoPanic.err _
      · split
        · cases a with
          | str s =>
            simp only
            split
            · exact NoPanic.ok _
            · split
              · exact NoPanic.ok _
              · exact NoPanic.err _
          | _ => exact NoPanic.err _
        · exact NoPanic.err _

theorem forNamedAll_np : ∀ (l : List (Str × RawArg)) (o : ForOpts), NoPanic (forNamedAll o l)
  | [], _ => NoPanic.ok _
  | (n, a) :: l, o => (forNamed_np o n a).bind fun o' => forNamedAll_np l o'

theorem forSource_np (a : RawArg) : NoPanic (forSource a) := by
  cases a with
  | str s =>
    simp only [forSource]
    split
    · exact NoPanic.ok _
    · split
      · exact NoPanic.ok _
      · exact NoPanic.err _
  | var s => exact NoPanic.ok _
  | _ => exact NoPanic.err _

theorem parseFor_np (raw : RawFn) : NoPanic (parseFor raw) :=
  (quietAssert_np _).bind fun _ => (needVar_np _).bind fun _ => (forSource_np _).bind fun _ =>
    (forNamedAll_np _ _).bind fun _ => NoPanic.ok _

theorem parseCmp_np (op : CmpFn) (raw : RawFn) : NoPanic (parseCmp op raw) :=
  (shape_np _ _).bind fun _ => (needInput_np _).bind fun _ => (needInput_np _).bind fun _ => NoPanic.ok _

theorem builtinParsers_np : ∀ e ∈ builtinParsers, ∀ raw, NoPanic (e.2 raw) := by
  intro e he raw
  simp only [builtinParsers, List.mem_cons, List.not_mem_nil, or_false] at he
  rcases he with rfl | rfl | rfl | rfl | rfl | rfl | rfl | rfl | rfl | rfl | rfl | rfl | rfl | rfl | rfl | rfl
  · exact (shape_np _ _).bind fun _ => (needLabel_np _).bind fun _ => NoPanic.ok _
  · exact (shape_np _ _).bind fun _ => (needVar_np _).bind fun _ => (needStr_np _).bind fun _ => NoPanic.ok _
  · exact (quietAssert_np _).bind fun _ => (quietAssert_np _).bind fun _ => NoPanic.ok _
  · exact (shape_np _ _).bind fun _ => (needLabel_np _).bind fun _ => NoPanic.ok _
  · exact (shape_np _ _).bind fun _ => (needVar_np _).bind fun _ => (needNat_np _).bind fun _ => NoPanic.ok _
  · exact parseFor_np raw
  · exact (shape_np _ _).bind fun _ => (needVar_np _).bind fun _ => NoPanic.ok _
  · exact (shape_np _ _).bind fun _ => (needVar_np _).bind fun _ => (needStr_np _).bind fun _ => NoPanic.ok _
  · exact (shape_np _ _).bind fun _ => (needStr_np _).bind fun _ => NoPanic.ok _
  · exact (shape_np _ _).bind fun _ => (needVar_np _).bind fun _ => NoPanic.ok _
  all_goals exact parseCmp_np _ raw

/-- Plugin function parsers that never panic. -/
def PluginsSafe (plugins : List PluginFns) : Prop :=
  ∀ pl ∈ plugins, ∀ f ∈ pl.functions, ∀ raw q, f.parse raw ≠ .panic q

theorem resolveFn_np {plugins : List PluginFns} (hp : PluginsSafe plugins) {raw : RawFn}
    {r : Res ParseErr Fn} (h : resolveFn plugins raw = some r) : NoPanic r := by
  unfold resolveFn at h
  split at h
  · rename_i f hf
    simp only [Option.some.injEq] at h
    subst h
    unfold findBuiltin at hf
    rw [Option.map_eq_some_iff] at hf
    obtain ⟨e, he, rfl⟩ := hf
    exact builtinParsers_np e (List.mem_of_find?_eq_some he) raw
  · split at h
    · rename_i f hf
      simp only [Option.some.injEq] at h
      subst h
      obtain ⟨pre, pl, post, fpre, fpost, rfl, hfs, _⟩ := first_of_findPlugin hf
      exact NoPanic.bind (fun q => hp pl (by simp) f (by simp [hfs]) raw q) fun _ => NoPanic.ok _
    · cases h

/-! ### Tags -/

theorem parseFunction_panic {U : Unicode} {path : Str} {plugins : List PluginFns} (hp : PluginsSafe plugins)
    {p : PSt} {q : Panic} (h : parseFunction U path plugins p = .panic q) :
    q = .loneQuote ∧ QuoteEnd p.rest := by
  unfold parseFunction at h
  have r1 := extractWhile_reads (isFnChar U) p
  generalize p.extractWhile (isFnChar U) = x at h r1
  obtain ⟨name, p1⟩ := x
  simp only at h r1
  split at h
  · cases h
  · obtain ⟨w, _, r2⟩ := ignoreWs_reads p1
    generalize p1.ignoreWhile isWs = p2 at h r2
    cases h3 : p2.expect path ['('] with
    | err e => rw [h3] at h; cases h
    | panic q => exact absurd h3 (expect_noPanic _ _ _ _)
    | ok v =>
      obtain ⟨u, p3⟩ := v
      rw [h3] at h
      simp only [Res.bind_ok] at h
      have r3 := expect_reads h3
      cases h4 : parseArgs U path (p3.rest.length + 1) [] [] p3 with
      | err e => rw [h4] at h; cases h
      | panic q' =>
        rw [h4] at h
        cases h
        obtain ⟨h5, h6⟩ := parseArgs_panic U path _ _ _ _ _ (by omega) h4
        refine ⟨h5, ?_⟩
        rw [((r1.trans r2).trans r3).1]
        exact QuoteEnd.prepend _ h6
      | ok v =>
        obtain ⟨⟨pos, named⟩, p4⟩ := v
        rw [h4] at h
        simp only [Res.bind_ok] at h
        split at h
        · rename_i r hr
          have := resolveFn_np hp hr
          cases r with
          | ok f => cases h
          | err e => cases h
          | panic q => exact absurd rfl (this q)
        · cases h

theorem parseFunction_reads {U : Unicode} {path : Str} {plugins : List PluginFns} {p p' : PSt} {t : Token}
    (h : parseFunction U path plugins p = .ok (t, p')) : ∃ x, Reads p x p' := by
  unfold parseFunction at h
  have r1 := extractWhile_reads (isFnChar U) p
  generalize p.extractWhile (isFnChar U) = x at h r1
  obtain ⟨name, p1⟩ := x
  simp only at h r1
  split at h
  · cases h
  · rename_i hne
    obtain ⟨w, hw, r2⟩ := ignoreWs_reads p1
    generalize p1.ignoreWhile isWs = p2 at h r2
    cases h3 : p2.expect path ['('] with
    | err e => rw [h3] at h; cases h
    | panic q => rw [h3] at h; cases h
    | ok v =>
      obtain ⟨u, p3⟩ := v
      rw [h3] at h
      simp only [Res.bind_ok] at h
      have r3 := expect_reads h3
      cases h4 : parseArgs U path (p3.rest.length + 1) [] [] p3 with
      | err e => rw [h4] at h; cases h
      | panic q' => rw [h4] at h; cases h
      | ok v =>
        obtain ⟨⟨pos, named⟩, p4⟩ := v
        rw [h4] at h
        simp only [Res.bind_ok] at h
        obtain ⟨x, r4⟩ := parseArgs_reads U path _ _ _ _ _ _ h4
        obtain ⟨w2, hw2, r5⟩ := ignoreWs_reads p4
        generalize p4.ignoreWhile isWs = p5 at h r5
        split at h
        · rename_i r hr
          cases r with
          | ok f =>
            simp only [Res.mapErr_ok, Res.bind_ok, Res.ok.injEq, Prod.mk.injEq] at h
            obtain ⟨rfl, rfl⟩ := h
            exact ⟨_, (((r1.trans r2).trans r3).trans r4).trans r5⟩
          | err e => cases h
          | panic q => cases h
        · cases h

theorem parseVariable_reads {U : Unicode} {path : Str} {p p' : PSt} {t : Token}
    (h : parseVariable U path p = .ok (t, p')) : ∃ x, Reads p x p' := by
  unfold parseVariable at h
  cases h1 : p.expect path ['$'] with
  | err e => rw [h1] at h; cases h
  | panic q => rw [h1] at h; cases h
  | ok v =>
    obtain ⟨u, p1⟩ := v
    rw [h1] at h
    simp only [Res.bind_ok] at h
    have r1 := expect_reads h1
    have r2 := extractWhile_reads (isVarChar U) p1
    generalize p1.extractWhile (isVarChar U) = x at h r2
    obtain ⟨name, p2⟩ := x
    simp only at h r2
    split at h
    · cases h
    · rename_i hne
      cases h
      exact ⟨_, r1.trans r2⟩

theorem parseVariable_noPanic {U : Unicode} {path : Str} {p : PSt} {q : Panic} :
    parseVariable U path p ≠ .panic q := by
  intro h
  unfold parseVariable at h
  cases h1 : p.expect path ['$'] with
  | err e => rw [h1] at h; cases h
  | panic q => exact expect_noPanic _ _ _ _ h1
  | ok v =>
    rw [h1] at h
    simp only [Res.bind_ok] at h
    split at h <;> cases h

theorem parseTag_reads {U : Unicode} {path : Str} {plugins : List PluginFns} {p p' : PSt} {t : Token}
    (h : parseTag U path plugins p = .ok (t, p')) : ∃ x, Reads p x p' := by
  unfold parseTag at h
  split at h
  · exact parseVariable_reads h
  · exact parseFunction_reads h
  · cases h

theorem parseTag_panic {U : Unicode} {path : Str} {plugins : List PluginFns} (hp : PluginsSafe plugins)
    {p : PSt} {q : Panic} (h : parseTag U path plugins p = .panic q) : q = .loneQuote ∧ QuoteEnd p.rest := by
  unfold parseTag at h
  split at h
  · exact absurd h parseVariable_noPanic
  · exact parseFunction_panic hp h
  · cases h

/-! ### The scan for the opener -/

theorem extractUntilGo_some (s old : Str) (esc : Bool) : ∀ (cs : Str) (loc : Loc) (acc raw : Str) (p : PSt),
    extractUntilGo s esc old cs loc acc = (some raw, p) →
    ∃ y c, cs = y ++ c :: p.rest ∧ p.loc = (y ++ [c]).foldl Loc.adv loc ∧
      (s ≠ [] → s.getLast? = some c)
  | [], loc, acc, raw, p, h => by simp [extractUntilGo] at h
  | c :: cs, loc, acc, raw, p, h => by
    unfold extractUntilGo at h
    simp only at h
    split at h
    · rename_i hend
      split at h
      · obtain ⟨y, d, h1, h2, h3⟩ := extractUntilGo_some s old esc cs _ _ _ _ h
        exact ⟨c :: y, d, by simp [h1], by simpa using h2, h3⟩
      · simp only [Prod.mk.injEq] at h
        obtain ⟨_, rfl⟩ := h
        refine ⟨[], c, rfl, rfl, ?_⟩
        intro hne
        obtain ⟨pre, hp⟩ := endsWith_iff.1 hend
        have := congrArg List.getLast? hp
        rw [List.getLast?_append] at this
        cases hg : s.getLast? with
        | none => rw [List.getLast?_eq_none_iff] at hg; exact absurd hg hne
        | some z => rw [hg] at this; simpa using this
    · obtain ⟨y, d, h1, h2, h3⟩ := extractUntilGo_some s old esc cs _ _ _ _ h
      exact ⟨c :: y, d, by simp [h1], by simpa using h2, h3⟩

/-- The collected text keeps track of the characters read: a match for `{{` means the last two characters
read are braces. `lastc` is the last character read. -/
theorem extractUntilGo_some2 (old : Str) (esc : Bool) : ∀ (cs : Str) (loc : Loc) (acc seen raw : Str) (p : PSt),
    (['{'] <:+ acc → ['{'] <:+ seen) →
    extractUntilGo str!"{{" esc old cs loc acc = (some raw, p) →
    ∃ y, seen ++ cs = y ++ str!"{{" ++ p.rest
  | [], loc, acc, seen, raw, p, _, h => by simp [extractUntilGo] at h
  | c :: cs, loc, acc, seen, raw, p, hinv, h => by
    unfold extractUntilGo at h
    simp only at h
    split at h
    · rename_i hend
      obtain ⟨rfl, hbr⟩ := (endsWith_two_push _ _ _ _).1 hend
      obtain ⟨z, hz⟩ := hinv hbr
      split at h
      · obtain ⟨y, hy⟩ := extractUntilGo_some2 old esc cs _ _ (seen ++ ['{']) _ _
          (fun _ => ⟨seen, rfl⟩) h
        exact ⟨y, by rw [← hy]; simp⟩
      · simp only [Prod.mk.injEq] at h
        obtain ⟨_, rfl⟩ := h
        exact ⟨z, by simp [← hz]⟩
    · obtain ⟨y, hy⟩ := extractUntilGo_some2 old esc cs _ _ (seen ++ [c]) _ _ (by
        intro hs
        have := suffix_singleton_append_singleton.1 hs
        subst this
        exact ⟨seen, rfl⟩) h
      exact ⟨y, by rw [← hy]; simp⟩

theorem extractUntil_reads {p p' : PSt} {raw : Str} (h : p.extractUntil str!"{{" true = (some raw, p')) :
    ∃ txt, Reads p (txt ++ str!"{{") p' := by
  unfold PSt.extractUntil at h
  obtain ⟨y, c, h1, h2, h3⟩ := extractUntilGo_some _ _ _ _ _ _ _ _ h
  obtain ⟨z, hz⟩ := extractUntilGo_some2 _ _ _ _ _ [] _ _ (by rintro ⟨a, e⟩; simp at e) h
  rw [List.nil_append] at hz
  have e : y ++ [c] = z ++ str!"{{" := by
    rw [h1] at hz
    have : (y ++ [c]) ++ p'.rest = (z ++ str!"{{") ++ p'.rest := by simpa using hz
    exact List.append_cancel_right this
  exact ⟨z, by rw [hz], by rw [h2, e]⟩

/-! ### Lines -/

theorem foldl_adv_nline : ∀ (x : Str) (loc : Loc),
    (x.foldl Loc.adv loc).nline = loc.nline + (x.filter (· = '\n')).length
  | [], loc => by simp
  | c :: x, loc => by
    rw [List.foldl_cons, foldl_adv_nline x]
    by_cases hc : c = '\n'
    · simp [Loc.adv, hc]; omega
    · simp [Loc.adv, hc]

theorem foldl_adv_line (x : Str) : (x.foldl Loc.adv Loc.start).line = lineAt x := by
  rcases List.eq_nil_or_concat x with rfl | ⟨y, c, rfl⟩
  · rfl
  · rw [List.concat_eq_append, List.foldl_append]
    show (y.foldl Loc.adv Loc.start).nline = _
    rw [foldl_adv_nline]
    simp [lineAt, Loc.start]

theorem foldl_adv_ncol (loc : Loc) : ∀ (x : Str), (x.foldl Loc.adv loc).ncol =
    ((x.reverse.takeWhile (· ≠ '\n')).filter (· ≠ '\r')).length + (if '\n' ∈ x then 0 else loc.ncol) := by
  intro x
  induction h : x.length generalizing x with
  | zero => cases x with
    | nil => simp
    | cons => simp at h
  | succ n ih =>
    rcases List.eq_nil_or_concat x with rfl | ⟨y, c, rfl⟩
    · simp at h
    · rw [List.concat_eq_append] at h ⊢
      rw [List.foldl_append, List.foldl_cons, List.foldl_nil]
      have := ih y (by simpa using h)
      simp only [Loc.adv]
      by_cases hc : c = '\n'
      · subst hc
        simp
      · by_cases hr : c = '\r'
        · subst hr
          simp only [Char.reduceEq, if_false, if_true, this]
          simp
        · simp only [hc, hr, if_false, this]
          have : ('\n' ∈ y ++ [c]) ↔ '\n' ∈ y := by
            simp only [List.mem_append, List.mem_singleton]
            exact ⟨fun h => h.elim id fun h => absurd h.symm hc, Or.inl⟩
          simp only [this, List.reverse_append, List.reverse_cons, List.reverse_nil, List.nil_append,
            List.cons_append, List.takeWhile_cons, ne_eq, hc, not_false_eq_true, decide_true, if_true,
            List.filter_cons, hr, List.length_cons]
          omega

theorem foldl_adv_col (x : Str) : (x.foldl Loc.adv Loc.start).col = colAt x := by
  rcases List.eq_nil_or_concat x with rfl | ⟨y, c, rfl⟩
  · rfl
  · rw [List.concat_eq_append, List.foldl_append]
    show (y.foldl Loc.adv Loc.start).ncol = _
    rw [foldl_adv_ncol]
    simp [colAt, Loc.start]

/-- The main loop can only panic on a lone quote at the end of the input. -/
theorem parseHtmlGo_panic (U : Unicode) (path : Str) (plugins : List PluginFns) (hp : PluginsSafe plugins) :
    ∀ (n : Nat) (toks : List LTok) (line col : Nat) (p : PSt) (q : Panic), p.rest.length < n →
    parseHtmlGo U path plugins n toks line col p = .panic q → q = .loneQuote ∧ QuoteEnd p.rest
  | 0, _, _, _, _, _, hn, _ => absurd hn (by omega)
  | n + 1, toks, line, col, p, q, hn, h => by
    unfold parseHtmlGo at h
    split at h
    · cases h
    · rename_i raw p1 h1
      obtain ⟨txt, r1⟩ := extractUntil_reads h1
      obtain ⟨ws, hws, r2⟩ := ignoreWs_reads p1
      simp only at h
      generalize p1.ignoreWhile isWs = p2 at h r2
      cases h3 : parseTag U path plugins p2 with
      | err e => rw [h3] at h; cases h
      | panic q' =>
        rw [h3] at h; cases h
        obtain ⟨h4, h5⟩ := parseTag_panic hp h3
        refine ⟨h4, ?_⟩
        rw [(r1.trans r2).1]
        exact QuoteEnd.prepend _ h5
      | ok v =>
        obtain ⟨tok, p3⟩ := v
        rw [h3] at h
        simp only [Res.bind_ok] at h
        obtain ⟨body, r3⟩ := parseTag_reads h3
        obtain ⟨w2, hw2, r4⟩ := ignoreWs_reads p3
        generalize p3.ignoreWhile isWs = p4 at h r4
        cases h5 : p4.expect path str!"}}" with
        | err e => rw [h5] at h; cases h
        | panic q => exact absurd h5 (expect_noPanic _ _ _ _)
        | ok v =>
          obtain ⟨u, p5⟩ := v
          rw [h5] at h
          simp only [Res.bind_ok] at h
          have r5 := expect_reads h5
          have rr := ((((r1.trans r2).trans r3).trans r4).trans r5)
          have hlen : p5.rest.length < n := by
            have := congrArg List.length rr.1
            simp at this
            omega
          obtain ⟨h6, h7⟩ := parseHtmlGo_panic U path plugins hp n _ _ _ p5 q hlen h
          refine ⟨h6, ?_⟩
          rw [rr.1]
          exact QuoteEnd.prepend _ h7

end Stuart
