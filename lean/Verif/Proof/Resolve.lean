import Verif.Proof.Args
/-
Helper lemmas: which function a call denotes.
-/
namespace Stuart
open Spec

theorem builtinParsers_names : builtinParsers.map (fun e => e.1) = builtinNames := by
  simp [builtinParsers, builtinNames]

theorem findBuiltin_none {name : Str} (h : name ∉ builtinNames) : findBuiltin name = none := by
  unfold findBuiltin
  rw [Option.map_eq_none_iff, List.find?_eq_none]
  intro e he
  simp only [beq_iff_eq]
  rintro rfl
  apply h
  rw [← builtinParsers_names]
  exact List.mem_map.2 ⟨e, he, rfl⟩

theorem findBuiltin_some {name : Str} (h : name ∈ builtinNames) : ∃ f, findBuiltin name = some f := by
  cases hf : findBuiltin name with
  | some f => exact ⟨f, rfl⟩
  | none =>
    unfold findBuiltin at hf
    rw [Option.map_eq_none_iff, List.find?_eq_none] at hf
    rw [← builtinParsers_names] at h
    obtain ⟨e, he, rfl⟩ := List.mem_map.1 h
    exact absurd (by simp) (hf e he)

theorem pluginMatches_iff {name : Str} {pl : PluginFns} {f : PluginFnParser} :
    pluginMatches name pl f = true ↔ name = f.name ∨ name = pl.name ++ str!"::" ++ f.name := by
  simp [pluginMatches]

theorem findPlugin_of_first {plugins : List PluginFns} {name : Str} {f : PluginFnParser}
    (h : FirstPlugin plugins name f) : findPlugin name plugins = some f := by
  obtain ⟨pre, pl, post, fpre, fpost, rfl, hf, hm, hpre, hfpre⟩ := h
  unfold findPlugin
  rw [List.findSome?_append]
  have e1 : (pre.findSome? fun pl => pl.functions.find? (pluginMatches name pl)) = none := by
    rw [List.findSome?_eq_none_iff]
    intro p hp
    rw [List.find?_eq_none]
    intro g hg
    rw [pluginMatches_iff]
    have := hpre p hp g hg
    exact fun e => e.elim this.1 this.2
  have e2 : pl.functions.find? (pluginMatches name pl) = some f := by
    rw [hf, List.find?_append]
    have : fpre.find? (pluginMatches name pl) = none := by
      rw [List.find?_eq_none]
      intro g hg
      rw [pluginMatches_iff]
      have := hfpre g hg
      exact fun e => e.elim this.1 this.2
    rw [this]
    simp [pluginMatches_iff.2 hm]
  rw [e1]
  simp [e2]

theorem first_of_findPlugin {plugins : List PluginFns} {name : Str} {f : PluginFnParser}
    (h : findPlugin name plugins = some f) : FirstPlugin plugins name f := by
  unfold findPlugin at h
  rw [List.findSome?_eq_some_iff] at h
  obtain ⟨pre, pl, post, rfl, hpl, hpre⟩ := h
  rw [List.find?_eq_some_iff_append] at hpl
  obtain ⟨hm, fpre, fpost, hfs, hfpre⟩ := hpl
  refine ⟨pre, pl, post, fpre, fpost, rfl, hfs, pluginMatches_iff.1 hm, ?_, ?_⟩
  · intro p hp g hg
    have := hpre p hp
    rw [List.find?_eq_none] at this
    have := this g hg
    rw [pluginMatches_iff] at this
    exact ⟨fun e => this (Or.inl e), fun e => this (Or.inr e)⟩
  · intro g hg
    have := hfpre g hg
    simp only [Bool.not_eq_true', Bool.eq_false_iff, ne_eq, pluginMatches_iff] at this
    exact ⟨fun e => this (Or.inl e), fun e => this (Or.inr e)⟩

theorem findPlugin_none_iff {plugins : List PluginFns} {name : Str} :
    findPlugin name plugins = none ↔
      ∀ p ∈ plugins, ∀ g ∈ p.functions, name ≠ g.name ∧ name ≠ p.name ++ str!"::" ++ g.name := by
  unfold findPlugin
  rw [List.findSome?_eq_none_iff]
  constructor
  · intro h p hp g hg
    have := h p hp
    rw [List.find?_eq_none] at this
    have := this g hg
    rw [pluginMatches_iff] at this
    exact ⟨fun e => this (Or.inl e), fun e => this (Or.inr e)⟩
  · intro h p hp
    rw [List.find?_eq_none]
    intro g hg
    rw [pluginMatches_iff]
    have := h p hp g hg
    exact fun e => e.elim this.1 this.2

theorem toUsize_nat (n : Nat) : toUsize (n : Int) = .ok n := by
  simp [toUsize]

theorem forNamedAll_snoc (x : Str × RawArg) : ∀ (l : List (Str × RawArg)) (o : ForOpts),
    forNamedAll o (l ++ [x]) = (forNamedAll o l).bind fun o' => forNamed o' x.1 x.2
  | [], o => by
    simp only [List.nil_append, forNamedAll, Res.bind_ok]
    cases forNamed o x.1 x.2 <;> rfl
  | (n, a) :: l, o => by
    simp only [List.cons_append, forNamedAll]
    cases forNamed o n a with
    | ok o' => exact forNamedAll_snoc x l o'
    | err e => rfl
    | panic q => rfl

theorem forNamedAll_named {l : List (Str × RawArg)} {a b : Option Nat} {k : Option Str} {d : Bool}
    (h : ForNamed l a b k d) : forNamedAll {} l = .ok ⟨a, b, k, d⟩ := by
  induction h with
  | nil => rfl
  | _ => simp_all [forNamedAll_snoc, forNamed, quietAssert, toUsize]

theorem toUsize_ok {i : Int} {n : Nat} (h : toUsize i = .ok n) : i = n := by
  unfold toUsize at h
  split at h
  · cases h; omega
  · cases h

theorem forNamed_named {l : List (Str × RawArg)} {a b : Option Nat} {k : Option Str} {d : Bool}
    (h : ForNamed l a b k d) {n : Str} {x : RawArg} {o : ForOpts}
    (he : forNamed ⟨a, b, k, d⟩ n x = .ok o) : ForNamed (l ++ [(n, x)]) o.skip o.limit o.sortVar o.desc := by
  unfold forNamed at he
  split at he
  · rename_i hn
    rw [beq_iff_eq] at hn
    subst hn
    cases x with
    | int i =>
      cases a with
      | some _ => cases he
      | none =>
        simp only [quietAssert, Option.isNone_none, if_true, Res.bind_ok] at he
        cases hu : toUsize i with
        | ok n =>
          rw [hu] at he
          cases he
          rw [toUsize_ok hu]
          exact .skip n h
        | err e => rw [hu] at he; cases he
        | panic q => rw [hu] at he; cases he
    | _ => cases he
  · split at he
    · rename_i hn
      rw [beq_iff_eq] at hn
      subst hn
      cases x with
      | int i =>
        cases b with
        | some _ => cases he
        | none =>
          simp only [quietAssert, Option.isNone_none, if_true, Res.bind_ok] at he
          cases hu : toUsize i with
          | ok n =>
            rw [hu] at he
            cases he
            rw [toUsize_ok hu]
            exact .limit n h
          | err e => rw [hu] at he; cases he
          | panic q => rw [hu] at he; cases he
      | _ => cases he
    · split at he
      · rename_i hn
        rw [beq_iff_eq] at hn
        subst hn
        cases x with
        | var v =>
          cases k with
          | some _ => cases he
          | none => cases he; exact .sortby v h
        | _ => cases he
      · split at he
        · rename_i hn
          rw [beq_iff_eq] at hn
          subst hn
          cases x with
          | str s =>
            simp only at he
            split at he
            · rename_i hs
              rw [beq_iff_eq] at hs
              subst hs
              cases he
              exact .asc h
            · split at he
              · rename_i hs
                rw [beq_iff_eq] at hs
                subst hs
                cases he
                exact .desc h
              · cases he
          | _ => cases he
        · cases he

theorem named_of_forNamedAll : ∀ (r : List (Str × RawArg)) {l : List (Str × RawArg)} {a b : Option Nat}
    {k : Option Str} {d : Bool}, ForNamed l a b k d → ∀ {o : ForOpts}, forNamedAll ⟨a, b, k, d⟩ r = .ok o →
    ForNamed (l ++ r) o.skip o.limit o.sortVar o.desc
  | [], l, a, b, k, d, h, o, he => by cases he; rw [List.append_nil]; exact h
  | (n, x) :: r, l, a, b, k, d, h, o, he => by
    simp only [forNamedAll] at he
    cases hf : forNamed ⟨a, b, k, d⟩ n x with
    | err e => rw [hf] at he; cases he
    | panic q => rw [hf] at he; cases he
    | ok o' =>
      rw [hf] at he
      have := named_of_forNamedAll r (forNamed_named h hf) he
      simpa using this

theorem builtin_resolves (plugins : List PluginFns) {f : Fn} {raw : RawFn} (h : BuiltinCall f raw) :
    resolveFn plugins raw = some (.ok f) := by
  cases h with
  | cmp op a b => cases op <;> cases a <;> cases b <;> rfl
  | excerpt v n =>
    show some _ = _
    simp [RawFn.shape, RawFn.arg, quietAssert, RawArg.needVar, RawArg.needNat, toUsize]
  | forVar v s hn =>
    show some (parseFor _) = _
    simp [parseFor, RawFn.arg, quietAssert, RawArg.needVar, forSource, forNamedAll_named hn]
  | forJson v s hn =>
    show some (parseFor _) = _
    have : endsWith str!".json" (s ++ str!".json") = true := by rw [endsWith_iff]; exact ⟨s, rfl⟩
    simp [parseFor, RawFn.arg, quietAssert, RawArg.needVar, forSource, forNamedAll_named hn, this]
  | forDir v s hn =>
    show some (parseFor _) = _
    have e1 : endsWith str!".json" (s ++ str!"/") = false := by
      rw [Bool.eq_false_iff, ne_eq, endsWith_iff]
      rintro ⟨x, e⟩
      have e' : (x ++ str!".jso") ++ ['n'] = s ++ ['/'] := by simpa using e
      have := List.append_inj' e' rfl
      simp at this
    have e2 : endsWith ['/'] (s ++ str!"/") = true := by rw [endsWith_iff]; exact ⟨s, rfl⟩
    simp [parseFor, RawFn.arg, quietAssert, RawArg.needVar, forSource, forNamedAll_named hn, e1, e2]
  | _ => rfl

theorem denotes_resolves {plugins : List PluginFns} {f : Fn} {raw : RawFn} (h : Denotes plugins raw f) :
    resolveFn plugins raw = some (.ok f) := by
  cases h with
  | builtin h => exact builtin_resolves plugins h
  | plugin h1 h2 h3 =>
    simp [resolveFn, findBuiltin_none h1, findPlugin_of_first h2, h3]

/-! ### Only the calls of the specification resolve -/

theorem bind_ok_iff {ε α β : Type} {r : Res ε α} {f : α → Res ε β} {b : β} :
    r.bind f = .ok b ↔ ∃ a, r = .ok a ∧ f a = .ok b := by
  cases r with
  | ok a => exact ⟨fun h => ⟨a, rfl, h⟩, fun ⟨a', e, h⟩ => by cases e; exact h⟩
  | err e => exact ⟨fun h => (by cases h), fun ⟨_, e, _⟩ => (by cases e)⟩
  | panic q => exact ⟨fun h => (by cases h), fun ⟨_, e, _⟩ => (by cases e)⟩

theorem quietAssert_ok {b : Bool} {u : Unit} (h : quietAssert b = .ok u) : b = true := by
  unfold quietAssert at h
  split at h
  · assumption
  · cases h

theorem shape_ok {raw : RawFn} {n : Nat} {u : Unit} (h : raw.shape n = .ok u) :
    raw.pos.length = n ∧ raw.named = [] := by
  obtain ⟨u', h1, h2⟩ := bind_ok_iff.1 h
  exact ⟨by simpa using quietAssert_ok h1, by simpa using quietAssert_ok h2⟩

theorem needVar_ok {a : RawArg} {s : Str} (h : a.needVar = .ok s) : a = .var s := by
  cases a <;> cases h; rfl
theorem needStr_ok {a : RawArg} {s : Str} (h : a.needStr = .ok s) : a = .str s := by
  cases a <;> cases h; rfl
theorem needNat_ok {a : RawArg} {n : Nat} (h : a.needNat = .ok n) : a = .int n := by
  cases a with
  | int i => rw [toUsize_ok h]
  | _ => cases h
theorem needLabel_ok {a : RawArg} {l : Str × Bool} (h : a.needLabel = .ok l) :
    (a = .str l.1 ∧ l.2 = true) ∨ (a = .ident l.1 ∧ l.2 = false) := by
  cases a <;> cases h
  · exact Or.inl ⟨rfl, rfl⟩
  · exact Or.inr ⟨rfl, rfl⟩
theorem needInput_ok {a : RawArg} {i : Input} (h : a.needInput = .ok i) : a = inp i := by
  cases a <;> cases h <;> rfl

theorem one_arg {raw : RawFn} {n : Str} (hn : raw.name = n) (h : raw.pos.length = 1 ∧ raw.named = []) :
    raw = ⟨n, [raw.arg 0], []⟩ := by
  obtain ⟨name, pos, named⟩ := raw
  obtain ⟨h1, h2⟩ := h
  simp only at hn h1 h2
  subst hn; subst h2
  match pos, h1 with
  | [a], _ => rfl

theorem two_args {raw : RawFn} {n : Str} (hn : raw.name = n) (h : raw.pos.length = 2 ∧ raw.named = []) :
    raw = ⟨n, [raw.arg 0, raw.arg 1], []⟩ := by
  obtain ⟨name, pos, named⟩ := raw
  obtain ⟨h1, h2⟩ := h
  simp only at hn h1 h2
  subst hn; subst h2
  match pos, h1 with
  | [a, b], _ => rfl

theorem parseCmp_denotes {op : CmpFn} {raw : RawFn} {f : Fn} (hn : raw.name = op.name)
    (h : parseCmp op raw = .ok f) : BuiltinCall f raw := by
  obtain ⟨_, h1, h⟩ := bind_ok_iff.1 h
  obtain ⟨b, h2, h⟩ := bind_ok_iff.1 h
  obtain ⟨a, h3, h⟩ := bind_ok_iff.1 h
  cases h
  rw [two_args hn (shape_ok h1), needInput_ok h2, needInput_ok h3]
  exact .cmp op a b

theorem parseFor_denotes {raw : RawFn} {f : Fn} (hn : raw.name = str!"for")
    (h : parseFor raw = .ok f) : BuiltinCall f raw := by
  obtain ⟨_, h1, h⟩ := bind_ok_iff.1 h
  obtain ⟨v, h2, h⟩ := bind_ok_iff.1 h
  obtain ⟨⟨s, k⟩, h3, h⟩ := bind_ok_iff.1 h
  obtain ⟨o, h4, h⟩ := bind_ok_iff.1 h
  cases h
  have hlen : raw.pos.length = 2 := by simpa using quietAssert_ok h1
  have hnamed : ForNamed raw.named o.skip o.limit o.sortVar o.desc :=
    named_of_forNamedAll raw.named .nil h4
  obtain ⟨name, pos, named⟩ := raw
  simp only at hn hlen hnamed
  subst hn
  match pos, hlen with
  | [a, b], _ =>
    have ha : a = .var v := needVar_ok h2
    change forSource b = _ at h3
    subst ha
    cases b with
    | var w => cases h3; exact .forVar v _ hnamed
    | str w =>
      simp only [forSource] at h3
      split at h3
      · rename_i hs
        obtain ⟨x, rfl⟩ := endsWith_iff.1 hs
        cases h3
        exact .forJson v x hnamed
      · split at h3
        · rename_i hs
          obtain ⟨x, rfl⟩ := endsWith_iff.1 hs
          cases h3
          exact .forDir v x hnamed
        · cases h3
    | ident w => cases h3
    | int i => cases h3

theorem builtinParsers_denotes : ∀ e ∈ builtinParsers, ∀ (raw : RawFn) (f : Fn), raw.name = e.1 →
    e.2 raw = .ok f → BuiltinCall f raw := by
  intro e he raw f hn h
  simp only [builtinParsers, List.mem_cons, List.not_mem_nil, or_false] at he
  rcases he with rfl | rfl | rfl | rfl | rfl | rfl | rfl | rfl | rfl | rfl | rfl | rfl | rfl | rfl | rfl | rfl
  · obtain ⟨_, h1, h⟩ := bind_ok_iff.1 h
    obtain ⟨⟨l, b⟩, h2, h⟩ := bind_ok_iff.1 h
    cases h
    rw [one_arg hn (shape_ok h1)]
    rcases needLabel_ok h2 with ⟨e, hb⟩ | ⟨e, hb⟩
    · rw [e]; cases hb; exact .beginS l
    · rw [e]; cases hb; exact .beginI l
  · obtain ⟨_, h1, h⟩ := bind_ok_iff.1 h
    obtain ⟨v, h2, h⟩ := bind_ok_iff.1 h
    obtain ⟨w, h3, h⟩ := bind_ok_iff.1 h
    cases h
    rw [two_args hn (shape_ok h1), needVar_ok h2, needStr_ok h3]
    exact .dateformat v w
  · obtain ⟨_, h1, h⟩ := bind_ok_iff.1 h
    obtain ⟨_, h2, h⟩ := bind_ok_iff.1 h
    cases h
    have h3 : raw.pos = [] := by simpa using quietAssert_ok h1
    have h4 : raw.named = [] := by simpa using quietAssert_ok h2
    obtain ⟨name, pos, named⟩ := raw
    simp only at hn h3 h4
    subst hn; subst h3; subst h4
    exact .else_
  · obtain ⟨_, h1, h⟩ := bind_ok_iff.1 h
    obtain ⟨⟨l, b⟩, h2, h⟩ := bind_ok_iff.1 h
    cases h
    rw [one_arg hn (shape_ok h1)]
    rcases needLabel_ok h2 with ⟨e, hb⟩ | ⟨e, hb⟩
    · rw [e]; cases hb; exact .endS l
    · rw [e]; cases hb; exact .endI l
  · obtain ⟨_, h1, h⟩ := bind_ok_iff.1 h
    obtain ⟨v, h2, h⟩ := bind_ok_iff.1 h
    obtain ⟨w, h3, h⟩ := bind_ok_iff.1 h
    cases h
    rw [two_args hn (shape_ok h1), needVar_ok h2, needNat_ok h3]
    exact .excerpt v w
  · exact parseFor_denotes hn h
  · obtain ⟨_, h1, h⟩ := bind_ok_iff.1 h
    obtain ⟨v, h2, h⟩ := bind_ok_iff.1 h
    cases h
    rw [one_arg hn (shape_ok h1), needVar_ok h2]
    exact .ifdefined v
  · obtain ⟨_, h1, h⟩ := bind_ok_iff.1 h
    obtain ⟨v, h2, h⟩ := bind_ok_iff.1 h
    obtain ⟨w, h3, h⟩ := bind_ok_iff.1 h
    cases h
    rw [two_args hn (shape_ok h1), needVar_ok h2, needStr_ok h3]
    exact .import_ v w
  · obtain ⟨_, h1, h⟩ := bind_ok_iff.1 h
    obtain ⟨v, h2, h⟩ := bind_ok_iff.1 h
    cases h
    rw [one_arg hn (shape_ok h1), needStr_ok h2]
    exact .insert v
  · obtain ⟨_, h1, h⟩ := bind_ok_iff.1 h
    obtain ⟨v, h2, h⟩ := bind_ok_iff.1 h
    cases h
    rw [one_arg hn (shape_ok h1), needVar_ok h2]
    exact .timetoread v
  · exact parseCmp_denotes (op := .ifeq) hn h
  · exact parseCmp_denotes (op := .ifne) hn h
  · exact parseCmp_denotes (op := .ifgt) hn h
  · exact parseCmp_denotes (op := .ifge) hn h
  · exact parseCmp_denotes (op := .iflt) hn h
  · exact parseCmp_denotes (op := .ifle) hn h

theorem resolves_denotes {plugins : List PluginFns} {f : Fn} {raw : RawFn}
    (h : resolveFn plugins raw = some (.ok f)) : Denotes plugins raw f := by
  unfold resolveFn at h
  split at h
  · rename_i p hp
    unfold findBuiltin at hp
    rw [Option.map_eq_some_iff] at hp
    obtain ⟨e, he, rfl⟩ := hp
    have hn : e.1 = raw.name := by simpa using List.find?_some he
    exact .builtin (builtinParsers_denotes e (List.mem_of_find?_eq_some he) raw f hn.symm (Option.some.inj h))
  · rename_i hb
    split at h
    · rename_i p hp
      obtain ⟨g, h1, h2⟩ := bind_ok_iff.1 (Option.some.inj h)
      cases h2
      refine .plugin ?_ (first_of_findPlugin hp) h1
      intro hm
      obtain ⟨x, hx⟩ := findBuiltin_some hm
      rw [hx] at hb; cases hb
    · cases h

/-- Resolution is exactly what the specification says. -/
theorem resolveFn_iff {plugins : List PluginFns} {raw : RawFn} {f : Fn} :
    resolveFn plugins raw = some (.ok f) ↔ Denotes plugins raw f :=
  ⟨resolves_denotes, denotes_resolves⟩

end Stuart
