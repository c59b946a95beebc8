import Verif.Spec.Faults
import Verif.Proof.Place
/-
Calls that are refused.
-/
namespace Stuart
open Spec

theorem forNamed_err {l : List (Str × RawArg)} {a b : Option Nat} {k : Option Str} {d : Bool}
    (h : ForNamed l a b k d) : (a.isSome ↔ str!"skip" ∈ l.map Prod.fst) ∧ (b.isSome ↔ str!"limit" ∈ l.map Prod.fst) ∧
      (k.isSome ↔ str!"sortby" ∈ l.map Prod.fst) := by
  induction h with
  | nil => simp
  | _ => simp_all [List.map_append, List.mem_append]

theorem forNamed_bad {l : List (Str × RawArg)} {a b : Option Nat} {k : Option Str} {d : Bool}
    (h : ForNamed l a b k d) {n : Str} {x : RawArg} {e : ParseErr} :
    forNamed ⟨a, b, k, d⟩ n x = .err e ↔ BadNamed l n x e := by
  obtain ⟨h1, h2, h3⟩ := forNamed_err h
  constructor
  · intro he
    unfold forNamed at he
    simp only [beq_iff_eq] at he
    split at he
    · rename_i hn
      subst hn
      cases x with
      | int i =>
        simp only at he
        cases a with
        | some v => cases he; exact .again (.inl rfl) (h1.1 rfl)
        | none =>
          by_cases hi : 0 ≤ i
          · simp [quietAssert, toUsize, hi] at he
          · simp [quietAssert, toUsize, hi] at he
            subst he
            exact .negative (.inl rfl) (fun hm => by cases h1.2 hm) (by omega)
      | _ => cases he; exact .number (.inl rfl) (by nofun)
    · rename_i hn0
      split at he
      · rename_i hn
        subst hn
        cases x with
        | int i =>
          simp only at he
          cases b with
          | some v => cases he; exact .again (.inr (.inl rfl)) (h2.1 rfl)
          | none =>
            by_cases hi : 0 ≤ i
            · simp [quietAssert, toUsize, hi] at he
            · simp [quietAssert, toUsize, hi] at he
              subst he
              exact .negative (.inr rfl) (fun hm => by cases h2.2 hm) (by omega)
        | _ => cases he; exact .number (.inr rfl) (by nofun)
      · rename_i hn1
        split at he
        · rename_i hn
          subst hn
          cases x with
          | var v =>
            cases k with
            | some v => cases he; exact .again (.inr (.inr rfl)) (h3.1 rfl)
            | none => cases he
          | _ => cases he; exact .key (by nofun)
        · rename_i hn2
          split at he
          · rename_i hn
            subst hn
            cases x with
            | str s =>
              simp only at he
              split at he
              · cases he
              · rename_i ha
                split at he
                · cases he
                · rename_i hb
                  cases he
                  exact .order (fun h => ha (by cases h; rfl)) (fun h => hb (by cases h; rfl))
            | _ => cases he; exact .order (by nofun) (by nofun)
          · rename_i hn3
            cases he
            exact .unknown (by simp [hn0, hn1, hn2, hn3])
  · intro hb
    cases hb with
    | number hn hx =>
      rcases hn with rfl | rfl <;> cases x <;> first | rfl | exact absurd rfl (hx _)
    | key hx => cases x <;> first | rfl | exact absurd rfl (hx _)
    | again hn hm =>
      rcases hn with rfl | rfl | rfl
      · have := h1.2 hm
        cases x <;> first | rfl | (cases a <;> first | rfl | cases this)
      · have := h2.2 hm
        cases x <;> first | rfl | (cases b <;> first | rfl | cases this)
      · have := h3.2 hm
        cases x <;> first | rfl | (cases k <;> first | rfl | cases this)
    | negative hn hm hi =>
      rename_i i
      have hi' : ¬ 0 ≤ i := by omega
      rcases hn with rfl | rfl
      · have : a = none := by cases a; rfl; exact absurd (h1.1 rfl) hm
        subst this
        simp [forNamed, quietAssert, toUsize, hi']
      · have : b = none := by cases b; rfl; exact absurd (h2.1 rfl) hm
        subst this
        simp [forNamed, quietAssert, toUsize, hi']
    | order ha hb =>
      cases x with
      | str s =>
        have h1 : s ≠ str!"asc" := fun h => ha (by rw [h])
        have h2 : s ≠ str!"desc" := fun h => hb (by rw [h])
        simp [forNamed, h1, h2]
      | _ => rfl
    | unknown hn =>
      simp only [List.mem_cons, List.not_mem_nil, or_false, not_or] at hn
      simp [forNamed, hn.1, hn.2.1, hn.2.2.1, hn.2.2.2]

theorem forNamed_noPanic {o : ForOpts} {n : Str} {x : RawArg} {q : Panic} : forNamed o n x ≠ .panic q := by
  intro h
  exact forNamedAll_np [(n, x)] o q (by simp only [forNamedAll, h, Res.bind_panic])

theorem forNamedAll_bad : ∀ (r : List (Str × RawArg)) {l : List (Str × RawArg)} {a b : Option Nat} {k : Option Str} {d : Bool},
    ForNamed l a b k d → ∀ {e : ParseErr}, forNamedAll ⟨a, b, k, d⟩ r = .err e →
    ∃ r1 n x r2 a' b' k' d', r = r1 ++ (n, x) :: r2 ∧ ForNamed (l ++ r1) a' b' k' d' ∧ BadNamed (l ++ r1) n x e
  | [], _, _, _, _, _, _, _, he => by cases he
  | (n, x) :: r, l, a, b, k, d, h, e, he => by
    simp only [forNamedAll] at he
    cases hf : forNamed ⟨a, b, k, d⟩ n x with
    | err e' =>
      rw [hf] at he
      cases he
      exact ⟨[], n, x, r, a, b, k, d, rfl, by simpa using h, by simpa using (forNamed_bad h).1 hf⟩
    | panic q => exact absurd hf forNamed_noPanic
    | ok o' =>
      rw [hf] at he
      obtain ⟨r1, n', x', r2, a', b', k', d', e1, e2, e3⟩ := forNamedAll_bad r (forNamed_named h hf) he
      refine ⟨(n, x) :: r1, n', x', r2, a', b', k', d', by rw [e1]; rfl, ?_, ?_⟩
      · simpa using e2
      · simpa using e3

theorem forNamedAll_append : ∀ (l r : List (Str × RawArg)) (o : ForOpts),
    forNamedAll o (l ++ r) = (forNamedAll o l).bind fun o' => forNamedAll o' r
  | [], r, o => rfl
  | (n, a) :: l, r, o => by
    simp only [List.cons_append, forNamedAll]
    cases forNamed o n a with
    | ok o' => exact forNamedAll_append l r o'
    | err e => rfl
    | panic q => rfl

/-- How the parsers of the built-in functions other than `for` fail. -/
def FailsAs (n : Nat) (raw : RawFn) (e : ParseErr) : Prop :=
  (raw.pos.length ≠ n ∧ e = .assertion) ∨ (raw.named ≠ [] ∧ e = .assertion) ∨
    (raw.pos.length = n ∧ raw.named = [] ∧ e = .invalidArgument)

theorem shape_then {α : Type} {raw : RawFn} {n : Nat} {f : Unit → Res ParseErr α} {e : ParseErr}
    (h : (raw.shape n).bind f = .err e) (hf : ∀ e', f () = .err e' → e' = .invalidArgument) : FailsAs n raw e := by
  unfold RawFn.shape quietAssert at h
  by_cases h1 : raw.pos.length = n
  · by_cases h2 : raw.named = []
    · simp [h1, h2] at h
      exact .inr (.inr ⟨h1, h2, hf _ h⟩)
    · have : raw.named.isEmpty = false := by simpa using h2
      simp [h1, this] at h
      exact .inr (.inl ⟨h2, h.symm⟩)
  · simp [h1] at h
    exact .inl ⟨h1, h.symm⟩

theorem needVar_err {a : RawArg} {e : ParseErr} (h : a.needVar = .err e) : e = .invalidArgument := by
  cases a <;> cases h <;> rfl
theorem needStr_err {a : RawArg} {e : ParseErr} (h : a.needStr = .err e) : e = .invalidArgument := by
  cases a <;> cases h <;> rfl
theorem needLabel_err {a : RawArg} {e : ParseErr} (h : a.needLabel = .err e) : e = .invalidArgument := by
  cases a <;> cases h <;> rfl
theorem needInput_err {a : RawArg} {e : ParseErr} (h : a.needInput = .err e) : e = .invalidArgument := by
  cases a <;> cases h <;> rfl
theorem needNat_err {a : RawArg} {e : ParseErr} (h : a.needNat = .err e) : e = .invalidArgument := by
  cases a with
  | int i =>
    simp only [RawArg.needNat, toUsize] at h
    split at h
    · cases h
    · cases h; rfl
  | _ => cases h; rfl

theorem bind_invalid {α β : Type} {r : Res ParseErr α} {f : α → Res ParseErr β} {e : ParseErr}
    (h : r.bind f = .err e) (hr : ∀ e', r = .err e' → e' = .invalidArgument)
    (hf : ∀ a e', f a = .err e' → e' = .invalidArgument) : e = .invalidArgument := by
  cases r with
  | ok a => exact hf a e h
  | err e' => cases h; exact hr _ rfl
  | panic q => cases h

theorem parseCmp_fails {op : CmpFn} {raw : RawFn} {e : ParseErr} (h : parseCmp op raw = .err e) : FailsAs 2 raw e :=
  shape_then h fun _ h => bind_invalid h (fun _ h => needInput_err h) fun _ _ h =>
    bind_invalid h (fun _ h => needInput_err h) fun _ _ h => by cases h

theorem builtinParsers_fails : ∀ x ∈ builtinParsers, x.1 ≠ str!"for" → ∀ (raw : RawFn) (e : ParseErr), x.2 raw = .err e →
    ∃ n, (x.1, n) ∈ arities ∧ FailsAs n raw e := by
  intro x hx hf raw e h
  simp only [builtinParsers, List.mem_cons, List.not_mem_nil, or_false] at hx
  rcases hx with rfl | rfl | rfl | rfl | rfl | rfl | rfl | rfl | rfl | rfl | rfl | rfl | rfl | rfl | rfl | rfl
  · exact ⟨1, by decide, shape_then h fun _ h => bind_invalid h (fun _ h => needLabel_err h) fun _ _ h => by cases h⟩
  · exact ⟨2, by decide, shape_then h fun _ h => bind_invalid h (fun _ h => needVar_err h) fun _ _ h =>
      bind_invalid h (fun _ h => needStr_err h) fun _ _ h => by cases h⟩
  · refine ⟨0, by decide, ?_⟩
    simp only at h
    by_cases h1 : raw.pos = []
    · by_cases h2 : raw.named = []
      · simp [quietAssert, h1, h2] at h
      · have : raw.named.isEmpty = false := by simpa using h2
        simp [quietAssert, h1, this] at h
        exact .inr (.inl ⟨h2, h.symm⟩)
    · have : raw.pos.isEmpty = false := by simpa using h1
      simp [quietAssert, this] at h
      exact .inl ⟨by simpa using h1, h.symm⟩
  · exact ⟨1, by decide, shape_then h fun _ h => bind_invalid h (fun _ h => needLabel_err h) fun _ _ h => by cases h⟩
  · exact ⟨2, by decide, shape_then h fun _ h => bind_invalid h (fun _ h => needVar_err h) fun _ _ h =>
      bind_invalid h (fun _ h => needNat_err h) fun _ _ h => by cases h⟩
  · exact absurd rfl hf
  · exact ⟨1, by decide, shape_then h fun _ h => bind_invalid h (fun _ h => needVar_err h) fun _ _ h => by cases h⟩
  · exact ⟨2, by decide, shape_then h fun _ h => bind_invalid h (fun _ h => needVar_err h) fun _ _ h =>
      bind_invalid h (fun _ h => needStr_err h) fun _ _ h => by cases h⟩
  · exact ⟨1, by decide, shape_then h fun _ h => bind_invalid h (fun _ h => needStr_err h) fun _ _ h => by cases h⟩
  · exact ⟨1, by decide, shape_then h fun _ h => bind_invalid h (fun _ h => needVar_err h) fun _ _ h => by cases h⟩
  all_goals exact ⟨2, by decide, parseCmp_fails h⟩

theorem arities_unique {x : Str} {n m : Nat} (h : (x, n) ∈ arities) (h' : (x, m) ∈ arities) : n = m := by
  have : ∀ a ∈ arities, ∀ b ∈ arities, a.1 = b.1 → a.2 = b.2 := by decide
  exact this _ h _ h' rfl

theorem arities_builtin {x : Str} : x ∈ builtinNames ↔ ∃ n, (x, n) ∈ arities := by
  have : builtinNames = arities.map Prod.fst ∨ (∀ y ∈ builtinNames, y ∈ arities.map Prod.fst) ∧ ∀ y ∈ arities.map Prod.fst, y ∈ builtinNames := by
    right; decide
  constructor
  · intro h
    have : x ∈ arities.map Prod.fst := by
      rcases this with e | e
      · rw [← e]; exact h
      · exact e.1 x h
    simpa using this
  · rintro ⟨n, h⟩
    have hm : x ∈ arities.map Prod.fst := List.mem_map.2 ⟨_, h, rfl⟩
    rcases this with e | e
    · rw [e]; exact hm
    · exact e.2 x hm

theorem builtinCall_arity {f : Fn} {raw : RawFn} (h : BuiltinCall f raw) :
    (raw.name, raw.pos.length) ∈ arities ∧ (raw.name ≠ str!"for" → raw.named = []) := by
  cases h with
  | cmp op a b => cases op <;> exact ⟨by simp [arities, CmpFn.name], fun _ => rfl⟩
  | forVar => exact ⟨by simp [arities], fun h => absurd rfl h⟩
  | forJson => exact ⟨by simp [arities], fun h => absurd rfl h⟩
  | forDir => exact ⟨by simp [arities], fun h => absurd rfl h⟩
  | _ => exact ⟨by simp [arities], fun _ => rfl⟩

theorem builtinParsers_ok {x : Str × (RawFn → Res ParseErr Fn)} {raw : RawFn} {f : Fn} (h : findBuiltin raw.name = some x.2)
    (hb : BuiltinCall f raw) : x.2 raw = .ok f := by
  have := builtin_resolves [] hb
  simp only [resolveFn, h] at this
  exact Option.some.inj this

theorem for_swap {f : Fn} {raw : RawFn} (h : BuiltinCall f raw) (hn : raw.name = str!"for") {l : List (Str × RawArg)}
    {a b : Option Nat} {k : Option Str} {d : Bool} (hl : ForNamed l a b k d) : ∃ g, BuiltinCall g ⟨str!"for", raw.pos, l⟩ := by
  cases h with
  | cmp op a b => cases op <;> cases hn
  | forVar v s => exact ⟨_, .forVar v s hl⟩
  | forJson v s => exact ⟨_, .forJson v s hl⟩
  | forDir v s => exact ⟨_, .forDir v s hl⟩
  | _ => cases hn

/-- `for`: the first argument that is wrong. -/
theorem parseFor_fails {raw : RawFn} {e : ParseErr} (hn : raw.name = str!"for") (h : parseFor raw = .err e) : Refused raw e := by
  obtain ⟨name, pos, named⟩ := raw
  simp only at hn
  subst hn
  by_cases hl : pos.length = 2
  · by_cases hc : ∃ f, BuiltinCall f ⟨str!"for", pos, []⟩
    · obtain ⟨f, hc⟩ := hc
      have key : forNamedAll {} named = .err e → Refused ⟨str!"for", pos, named⟩ e := by
        intro h
        obtain ⟨r1, n, x, r2, a, b, k, d, rfl, h1, h2⟩ := forNamedAll_bad named .nil h
        rw [List.nil_append] at h1 h2
        obtain ⟨g, hg⟩ : ∃ g, BuiltinCall g ⟨str!"for", pos, r1⟩ := by
          exact for_swap hc rfl h1
        exact .forNamed hg h2
      apply key
      have hok := builtinParsers_ok (x := (str!"for", parseFor)) rfl hc
      simp only at hok
      unfold parseFor at hok h
      obtain ⟨u, h1, hok⟩ := bind_ok_iff.1 hok
      obtain ⟨v, h2, hok⟩ := bind_ok_iff.1 hok
      obtain ⟨⟨s, k⟩, h3, hok⟩ := bind_ok_iff.1 hok
      have h1' : quietAssert (pos.length == 2) = .ok () := h1
      have h2' : (RawFn.arg ⟨str!"for", pos, named⟩ 0).needVar = .ok v := h2
      have h3' : forSource (RawFn.arg ⟨str!"for", pos, named⟩ 1) = .ok (s, k) := h3
      simp only [bind, h1', h2', h3', Res.bind_ok] at h
      rcases Res.bind_eq_err.1 h with h | ⟨o, _, h⟩
      · exact h
      · cases h
    · have hnone : ∀ f, ¬ BuiltinCall f ⟨str!"for", pos, []⟩ := fun f hf => hc ⟨f, hf⟩
      suffices e = .invalidArgument by subst this; exact .forArgs hl hnone
      match pos, hl with
      | [a, b], _ =>
        cases a with
        | var v =>
          cases b with
          | var s => exact absurd (.forVar v s .nil) (hnone _)
          | str s =>
            by_cases h1 : endsWith str!".json" s = true
            · obtain ⟨x, rfl⟩ := endsWith_iff.1 h1
              exact absurd (.forJson v x .nil) (hnone _)
            · by_cases h2 : endsWith ['/'] s = true
              · obtain ⟨x, rfl⟩ := endsWith_iff.1 h2
                exact absurd (.forDir v x .nil) (hnone _)
              · simp [parseFor, bind, quietAssert, RawFn.arg, RawArg.needVar, forSource, h1, h2] at h
                exact h.symm
          | ident s => cases h; rfl
          | int i => cases h; rfl
        | _ => cases h; rfl
  · have : e = .assertion := by
      simp [parseFor, bind, quietAssert, hl] at h
      exact h.symm
    subst this
    exact .count (n := 2) (by simp [arities]) hl

theorem parseFor_refused {raw : RawFn} {e : ParseErr} (hn : raw.name = str!"for") (h : Refused raw e) : parseFor raw = .err e := by
  cases h with
  | count hm hl =>
    rw [hn] at hm
    have := arities_unique hm (show (str!"for", 2) ∈ arities by simp [arities])
    subst this
    simp [parseFor, bind, quietAssert, hl]
  | named _ h _ => exact absurd hn h
  | args _ h _ => exact absurd hn h
  | forArgs hl hnone =>
    rename_i pos named
    match pos, hl with
    | [a, b], _ =>
      cases a with
      | var v =>
        cases b with
        | var s => exact absurd (.forVar v s .nil) (hnone _)
        | str s =>
          by_cases h1 : endsWith str!".json" s = true
          · obtain ⟨x, rfl⟩ := endsWith_iff.1 h1
            exact absurd (.forJson v x .nil) (hnone _)
          · by_cases h2 : endsWith ['/'] s = true
            · obtain ⟨x, rfl⟩ := endsWith_iff.1 h2
              exact absurd (.forDir v x .nil) (hnone _)
            · simp [parseFor, bind, quietAssert, RawFn.arg, RawArg.needVar, forSource, h1, h2]
        | ident s => rfl
        | int i => rfl
      | _ => rfl
  | forNamed hb hbad =>
    rename_i pos before after n a f
    have hok := builtinParsers_ok (x := (str!"for", parseFor)) rfl hb
    simp only at hok
    unfold parseFor at hok ⊢
    obtain ⟨u, h1, hok⟩ := bind_ok_iff.1 hok
    obtain ⟨v, h2, hok⟩ := bind_ok_iff.1 hok
    obtain ⟨⟨s, k⟩, h3, hok⟩ := bind_ok_iff.1 hok
    obtain ⟨o, h4, hok⟩ := bind_ok_iff.1 hok
    have h1' : quietAssert (pos.length == 2) = .ok () := h1
    have h2' : (RawFn.arg ⟨str!"for", pos, before ++ (n, a) :: after⟩ 0).needVar = .ok v := h2
    have h3' : forSource (RawFn.arg ⟨str!"for", pos, before ++ (n, a) :: after⟩ 1) = .ok (s, k) := h3
    have h5 : ForNamed before o.skip o.limit o.sortVar o.desc := named_of_forNamedAll before .nil h4
    have h6 : forNamed o n a = .err e := (forNamed_bad h5).2 hbad
    simp only at h4
    simp only [bind, h1', h2', h3', Res.bind_ok, forNamedAll_append, h4, forNamedAll, h6, Res.bind_err]

theorem resolveFn_refused {plugins : List PluginFns} {raw : RawFn} {e : ParseErr} :
    resolveFn plugins raw = some (.err e) ↔ RefusedCall plugins raw e := by
  have find : ∀ {p}, findBuiltin raw.name = some p → ∃ x ∈ builtinParsers, x.1 = raw.name ∧ x.2 = p := by
    intro p hp
    unfold findBuiltin at hp
    rw [Option.map_eq_some_iff] at hp
    obtain ⟨x, he, rfl⟩ := hp
    exact ⟨x, List.mem_of_find?_eq_some he, by simpa using List.find?_some he, rfl⟩
  have fwd : ∀ {p e}, findBuiltin raw.name = some p → p raw = .err e → Refused raw e := by
    intro p e hp h
    obtain ⟨x, hx, hn, rfl⟩ := find hp
    by_cases hf : raw.name = str!"for"
    · rw [hf] at hp
      have : x.2 = parseFor := by
        have : some x.2 = some parseFor := hp.symm
        exact Option.some.inj this
      rw [this] at h
      exact parseFor_fails hf h
    · obtain ⟨n, h1, h2⟩ := builtinParsers_fails x hx (by rw [hn]; exact hf) raw e h
      rw [hn] at h1
      rcases h2 with ⟨h2, rfl⟩ | ⟨h2, rfl⟩ | ⟨h2, h3, rfl⟩
      · exact .count h1 h2
      · exact .named (arities_builtin.2 ⟨n, h1⟩) hf h2
      · refine .args (by rw [h2]; exact h1) hf h3 fun f hb => ?_
        rw [builtinParsers_ok (x := x) hp hb] at h
        cases h
  constructor
  · intro h
    cases hp : findBuiltin raw.name with
    | some p =>
      simp only [resolveFn, hp] at h
      exact .builtin (fwd hp (Option.some.inj h))
    | none =>
      simp only [resolveFn, hp] at h
      have hb : raw.name ∉ builtinNames := by
        intro hm
        obtain ⟨x, hx⟩ := findBuiltin_some hm
        rw [hx] at hp; cases hp
      split at h
      · rename_i p hpl
        rcases Res.bind_eq_err.1 (Option.some.inj h) with h | ⟨_, _, h⟩
        · exact .plugin hb (first_of_findPlugin hpl) h
        · cases h
      · cases h
  · intro h
    cases h with
    | plugin hb hf hp =>
      simp [resolveFn, findBuiltin_none hb, findPlugin_of_first hf, hp]
    | builtin h =>
      have hb : raw.name ∈ builtinNames := by
        cases h with
        | count h _ => exact arities_builtin.2 ⟨_, h⟩
        | named h _ _ => exact h
        | args h _ _ _ => exact arities_builtin.2 ⟨_, h⟩
        | forArgs => simp [builtinNames]
        | forNamed => simp [builtinNames]
      obtain ⟨p, hp⟩ := findBuiltin_some hb
      simp only [resolveFn, hp]
      congr 1
      obtain ⟨x, hx, hn, rfl⟩ := find hp
      by_cases hf : raw.name = str!"for"
      · rw [hf] at hp
        have : x.2 = parseFor := by
          have : some x.2 = some parseFor := hp.symm
          exact Option.some.inj this
        rw [this]
        exact parseFor_refused hf h
      · have hne : ∀ f, x.2 raw ≠ .ok f := by
          intro f hok
          have hbc := builtinParsers_denotes x hx raw f hn.symm hok
          obtain ⟨h1, h2⟩ := builtinCall_arity hbc
          cases h with
          | count hm hl => exact hl (arities_unique h1 hm)
          | named _ _ hnm => exact hnm (h2 hf)
          | args _ _ _ hno => exact hno f hbc
          | forArgs => exact hf rfl
          | forNamed => exact hf rfl
        have hnp : ∀ q, x.2 raw ≠ .panic q := by
          intro q hq
          exact resolveFn_np (plugins := []) (by simp [PluginsSafe]) (raw := raw) (r := x.2 raw) (by simp [resolveFn, hp]) q hq
        cases hr : x.2 raw with
        | ok f => exact absurd hr (hne f)
        | panic q => exact absurd hr (hnp q)
        | err e' =>
          congr 1
          obtain ⟨n, h1, h2⟩ := builtinParsers_fails x hx (by rw [hn]; exact hf) raw e' hr
          rw [hn] at h1
          cases h with
          | count hm hl =>
            have := arities_unique h1 hm
            subst this
            rcases h2 with ⟨_, rfl⟩ | ⟨_, rfl⟩ | ⟨h2, _⟩
            · rfl
            · rfl
            · exact absurd h2 hl
          | named _ _ hnm =>
            rcases h2 with ⟨_, rfl⟩ | ⟨_, rfl⟩ | ⟨_, h2, _⟩
            · rfl
            · rfl
            · exact absurd h2 hnm
          | args hm _ hnm _ =>
            have := arities_unique h1 hm
            subst this
            rcases h2 with ⟨h2, _⟩ | ⟨h2, _⟩ | ⟨_, _, rfl⟩
            · exact absurd rfl h2
            · exact absurd hnm h2
            · rfl
          | forArgs => exact absurd rfl hf
          | forNamed => exact absurd rfl hf

theorem resolveFn_unknown {plugins : List PluginFns} {raw : RawFn} :
    resolveFn plugins raw = none ↔ raw.name ∉ builtinNames ∧ ∀ p, ¬ FirstPlugin plugins raw.name p := by
  constructor
  · intro h
    unfold resolveFn at h
    split at h
    · cases h
    · rename_i hb
      split at h
      · cases h
      · rename_i hp
        refine ⟨fun hm => ?_, fun p hf => ?_⟩
        · obtain ⟨x, hx⟩ := findBuiltin_some hm
          rw [hx] at hb; cases hb
        · rw [findPlugin_of_first hf] at hp; cases hp
  · rintro ⟨h1, h2⟩
    have : findPlugin raw.name plugins = none := by
      cases h : findPlugin raw.name plugins with
      | none => rfl
      | some p => exact absurd (first_of_findPlugin h) (h2 p)
    simp [resolveFn, findBuiltin_none h1, this]

end Stuart
