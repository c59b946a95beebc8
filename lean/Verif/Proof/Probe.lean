import Verif.Proof.Alike
import Verif.Proof.Block
import Verif.Proof.Scope
/-
Lemmas: templates that tell values apart.
-/
namespace Stuart
open Spec

/-! ### Positions in lists -/

theorem decVal_snoc (ds : Str) (c : Char) : decVal (ds ++ [c]) = 10 * decVal ds + (c.toNat - '0'.toNat) := by
  simp [decVal, List.foldl_append]

theorem digitChar_digit : ∀ d, d < 10 → ('0'.toNat ≤ d.digitChar.toNat ∧ d.digitChar.toNat ≤ '9'.toNat) ∧ d.digitChar.toNat - '0'.toNat = d := by decide

theorem toDigits_spec : ∀ n : Nat, Nat.toDigits 10 n ≠ [] ∧ (∀ c ∈ Nat.toDigits 10 n, '0'.toNat ≤ c.toNat ∧ c.toNat ≤ '9'.toNat) ∧
    decVal (Nat.toDigits 10 n) = n := by
  intro n
  induction n using Nat.strongRecOn with
  | _ n ih =>
    by_cases h : n < 10
    · rw [Nat.toDigits_of_lt_base h]
      have := digitChar_digit n h
      refine ⟨by simp, ?_, ?_⟩
      · intro c hc
        rw [List.mem_singleton.1 hc]; exact this.1
      · have := decVal_snoc [] n.digitChar
        simp only [List.nil_append] at this
        rw [this]
        have := (digitChar_digit n h).2
        have h0 : decVal [] = 0 := rfl
        omega
    · rw [Nat.toDigits_of_base_le (by omega) (by omega)]
      obtain ⟨h1, h2, h3⟩ := ih (n / 10) (by omega)
      have hd := digitChar_digit (n % 10) (by omega)
      refine ⟨by simp, ?_, ?_⟩
      · intro c hc
        rcases List.mem_append.1 hc with hc | hc
        · exact h2 c hc
        · rw [List.mem_singleton.1 hc]; exact hd.1
      · rw [decVal_snoc, h3, hd.2]
        omega

/-- Each position below 2^64 can be written, without a point. -/
theorem written_position {n : Nat} (h : n < 2 ^ 64) : ∃ k : Str, '.' ∉ k ∧ parseUsize k = some n := by
  obtain ⟨h1, h2, h3⟩ := toDigits_spec n
  refine ⟨Nat.toDigits 10 n, ?_, ?_⟩
  · intro hm
    exact absurd (h2 _ hm) (by decide)
  · rw [parseUsize_position, position]
    have hh : (Nat.toDigits 10 n).head? ≠ some '+' := by
      intro hh
      have := h2 _ (List.mem_of_head? hh)
      exact absurd this (by decide)
    simp only [if_neg hh, h3]
    rw [if_pos ⟨h1, h2, h⟩]

theorem getValue_append : ∀ (is js : List Str) (v : Value), getValue (is ++ js) v = getValue js (getValue is v)
  | [], _, _ => rfl
  | i :: is, js, v => by
    by_cases h : ∃ l, v = .arr l
    · obtain ⟨l, rfl⟩ := h
      rw [List.cons_append, getValue_item, getValue_item, getValue_append is js]
    · have h : ∀ l, v ≠ .arr l := fun l e => h ⟨l, e⟩
      rw [List.cons_append, getValue_part h, getValue_part h, getValue_append is js]

/-! ### Probes -/

section
variable (cx : Ctx) (vars : List (Str × Str)) (mode src : Str)

/-- The place of the tokens. -/
def probeAt : At := ⟨str!"probe", 1, 1⟩

/-- The frame with the value. -/
abbrev held (v : Value) : Frame := (baseFrame vars mode).addVar str!"self" v

/-- What comes of a template. -/
abbrev probed (toks : List LTok) (v : Value) : Res PErr Bytes := renderOn cx (held vars mode v) (baseFrame vars mode) src toks []

theorem self_dotless {is : List Str} (h : ∀ i ∈ is, '.' ∉ i) : Dotless str!"self" is := ⟨by decide, h⟩

theorem held_var (v : Value) : (held vars mode v).getVar str!"self" = some v := rfl

theorem look_probe {is : List Str} (h : ∀ i ∈ is, '.' ∉ i) (v : Value) :
    lookupVar (dotted str!"self" is) [held vars mode v] = some (getValue is v) := by
  unfold lookupVar
  rw [splitVar_dotted (self_dotless h)]
  simp only [lookupFrames, held_var]

/-- A frame without variables on top. -/
theorem look_probe' {is : List Str} (h : ∀ i ∈ is, '.' ∉ i) (v : Value) (name : Str) :
    lookupVar (dotted str!"self" is) [Frame.new name, held vars mode v] = some (getValue is v) := by
  unfold lookupVar
  rw [splitVar_dotted (self_dotless h)]
  rfl

/-- A page that only errors come of. -/
theorem probed_err {toks : List LTok} {v : Value} {e : PErr} (h : runToks cx toks ⟨[held vars mode v], []⟩ = .err e) :
    probed cx vars mode src toks v = .err e := by
  unfold probed renderOn
  rw [h]; rfl

theorem probed_ok {toks : List LTok} {v : Value} {f : Frame} {secs} (h : runToks cx toks ⟨[held vars mode v], []⟩ = .ok ⟨[f], secs⟩)
    (hf : f.name = str!"base") : probed cx vars mode src toks v = .ok [] := by
  unfold probed renderOn
  rw [h]
  simp only [Res.bind_ok, hf, beq_self_eq_true, if_true, runToks_nil]
  rfl

/-- `{{ $self.a.b }}` -/
def probeVar (is : List Str) : List LTok := [probeAt.tok (.var (dotted str!"self" is))]

theorem probeVar_null {is : List Str} (h : ∀ i ∈ is, '.' ∉ i) (v : Value) (hv : getValue is v = .null) :
    probed cx vars mode src (probeVar is) v = .err (probeAt.err (.nullError (dotted str!"self" is))) := by
  apply probed_err
  rw [probeVar, runToks_cons, exec_var cx _ _ _ _ rfl]
  simp only [execVar, splitVar_dotted (self_dotless h), varSearch, held_var, hv]
  rfl

theorem probeVar_other {is : List Str} (h : ∀ i ∈ is, '.' ∉ i) (v : Value) (hv : getValue is v ≠ .null) :
    probed cx vars mode src (probeVar is) v ≠ .err (probeAt.err (.nullError (dotted str!"self" is))) := by
  intro hp
  unfold probed renderOn at hp
  rw [probeVar, runToks_cons, exec_var cx _ _ _ _ rfl] at hp
  simp only [execVar, splitVar_dotted (self_dotless h), varSearch, held_var] at hp
  cases hw : getValue is v with
  | null => exact hv hw
  | str s =>
    rw [hw] at hp
    simp only [Res.bind_ok, St.output, Res.unwrap, Res.mapErr, runToks_nil, Frame.emit, Frame.addVar, baseFrame, Frame.new,
      beq_self_eq_true, if_true] at hp
    cases hp
  | _ =>
    rw [hw] at hp
    simp only [Res.bind_err, Res.mapErr] at hp
    cases hp

/-- `{{ ifeq($self.a.b, x) }}{{ $self.a.b.x }}{{ end(ifeq) }}`: an error where the two are the same, and another where the first is no text or number. -/
def probeEq (is : List Str) (x : Input) : List LTok :=
  [probeAt.tok (.func (.cmp .ifeq (.var (dotted str!"self" is)) x)), probeAt.tok (.var (dotted str!"self" (is ++ [str!"x"]))),
    probeAt.tok (.func (.end_ str!"ifeq" false))]

/-- A text or number, to compare with. -/
def plainOf : Value → Option Input
  | .str s => some (.str s)
  | .num n => some (.int n.toI32)
  | _ => none

theorem plain_part {v : Value} {x : Input} (h : plainOf v = some x) (k : Str) : getValue [k] v = .null := by
  cases v <;> first | (cases h; done) | (rw [getValue_part (by simp)]; rfl)

theorem eval_probe {is : List Str} (h : ∀ i ∈ is, '.' ∉ i) (v : Value) :
    (Input.var (dotted str!"self" is)).eval ⟨[held vars mode v], []⟩ = plainOf (getValue is v) := by
  simp only [Input.eval, look_probe vars mode h]
  cases getValue is v <;> rfl

theorem probeEq_other {is : List Str} (h : ∀ i ∈ is, '.' ∉ i) (x : Input) (v : Value) (hv : plainOf (getValue is v) = none) :
    probed cx vars mode src (probeEq is x) v = .err (probeAt.err (.undefinedVariable (Input.var (dotted str!"self" is)).toStr)) := by
  apply probed_err
  rw [probeEq, runToks_cons, exec_cmp cx _ _ _ _ _ _ rfl, eval_probe vars mode h, hv]
  rfl

theorem dotless_x {is : List Str} (h : ∀ i ∈ is, '.' ∉ i) : ∀ i ∈ is ++ [str!"x"], '.' ∉ i := by
  intro i hi
  rcases List.mem_append.1 hi with hi | hi
  · exact h i hi
  · rw [List.mem_singleton.1 hi]; decide

theorem probeEq_same {is : List Str} (h : ∀ i ∈ is, '.' ∉ i) (x : Input) (hx : ∀ a, x ≠ .var a) (v : Value) (hv : plainOf (getValue is v) = some x) :
    probed cx vars mode src (probeEq is x) v = .err (probeAt.err (.nullError (dotted str!"self" (is ++ [str!"x"])))) := by
  apply probed_err
  rw [probeEq, runToks_cons, exec_cmp cx _ _ _ _ _ _ rfl, eval_probe vars mode h, hv]
  have he : x.eval ⟨[held vars mode v], []⟩ = some x := by cases x <;> first | rfl | exact absurd rfl (hx _)
  have hq : CmpFn.holds .ifeq x x = true := by cases x <;> simp [CmpFn.holds, Input.eqv]
  rw [he]
  simp only [Res.ofOption, Res.bind_ok, hq]
  rw [branch_eq, if_neg (by simp)]
  have hn : tokName (probeAt.tok (.var (dotted str!"self" (is ++ [str!"x"])))) = .ok none := rfl
  simp only [hn, Res.bind_ok, Bool.true_or, if_true]
  rw [exec_var cx _ _ _ _ rfl]
  have hz : getValue (is ++ [str!"x"]) v = .null := by rw [getValue_append]; exact plain_part hv _
  simp only [execVar, splitVar_dotted (self_dotless (dotless_x h)), varSearch]
  have hg : (Frame.new (cmpFrameName .ifeq (.var (dotted str!"self" is)) x)).getVar str!"self" = none := rfl
  simp only [hg, held_var, hz]
  rfl

theorem probeEq_differ {is : List Str} (h : ∀ i ∈ is, '.' ∉ i) (x y : Input) (hx : ∀ a, x ≠ .var a) (hxy : y ≠ x) (v : Value)
    (hv : plainOf (getValue is v) = some y) : probed cx vars mode src (probeEq is x) v = .ok [] := by
  have he : x.eval ⟨[held vars mode v], []⟩ = some x := by cases x <;> first | rfl | exact absurd rfl (hx _)
  have hq : CmpFn.holds .ifeq y x = false := by
    cases x <;> cases y <;> simp [CmpFn.holds, Input.eqv] <;> intro e <;> exact hxy (by rw [e])
  refine probed_ok cx vars mode src (f := (held vars mode v).emit []) (secs := []) ?_ rfl
  rw [probeEq, runToks_cons, exec_cmp cx _ _ _ _ _ _ rfl, eval_probe vars mode h, hv, he]
  simp only [Res.ofOption, Res.bind_ok, hq]
  rw [branch_eq, if_neg (by simp)]
  have hn : tokName (probeAt.tok (.var (dotted str!"self" (is ++ [str!"x"])))) = .ok none := rfl
  simp only [hn, Res.bind_ok]
  have e1 : ((none : Option Str) == some str!"end") = false := rfl
  have e2 : ((none : Option Str) == some str!"else") = false := rfl
  simp only [e1, e2, Bool.false_or, Bool.false_and, Bool.false_eq_true, if_false]
  have hb := branch_end cx (probeAt.err .unexpectedEndOfFile) false probeAt str!"ifeq" []
    (Frame.new (cmpFrameName .ifeq (.var (dotted str!"self" is)) x)) (held vars mode v) [] [] rfl
  exact (congrArg (fun r => r.bind fun (r, s) => runToks cx r s) hb).trans rfl

/-- `{{ for($i, $self.a.b, skip=n, limit=1) }}{{ end(for) }}`: this needs a list that is longer than `n`. -/
def probeFor (is : List Str) (n : Nat) : List LTok :=
  [probeAt.tok (.func (.for_ ⟨str!"i", dotted str!"self" is, .jsonObj, some n, some 1, none, false⟩)), probeAt.tok (.func (.end_ str!"for" false))]

theorem probeFor_other {is : List Str} (h : ∀ i ∈ is, '.' ∉ i) (n : Nat) (v : Value) (hv : ∀ l, getValue is v ≠ .arr l) :
    probed cx vars mode src (probeFor is n) v = .err (probeAt.err .notJsonArray) := by
  apply probed_err
  rw [probeFor, runToks_cons, exec_for cx _ _ _ _ rfl]
  simp only [forItems, look_probe vars mode h]
  have : (getValue is v).asArray = none := by
    cases hw : getValue is v <;> first | rfl | exact absurd hw (hv _)
  simp only [Option.bind_some, this]
  rfl

theorem probeFor_short {is : List Str} (h : ∀ i ∈ is, '.' ∉ i) (n : Nat) (v : Value) {l : List Value} (hv : getValue is v = .arr l)
    (hl : l.length ≤ n) : probed cx vars mode src (probeFor is n) v = .err (probeAt.err .endWithoutBegin) := by
  apply probed_err
  rw [probeFor, runToks_cons, exec_for cx _ _ _ _ rfl]
  simp only [forItems, look_probe vars mode h, hv, Option.bind_some, Value.asArray, Res.ofOption, Res.mapErr, Res.bind_ok]
  have : arrange ⟨str!"i", dotted str!"self" is, .jsonObj, some n, some 1, none, false⟩ l = [] := by
    simp [arrange, sortItems, hl]
  rw [this, iter_nil]
  simp only [Res.bind_ok]
  rw [runToks_cons, exec_simple cx _ _ _ _ rfl rfl]
  rfl

theorem probeFor_long {is : List Str} (h : ∀ i ∈ is, '.' ∉ i) (n : Nat) (v : Value) {l : List Value} (hv : getValue is v = .arr l)
    (hl : n < l.length) : probed cx vars mode src (probeFor is n) v = .ok [] := by
  refine probed_ok cx vars mode src (f := (held vars mode v).emit []) (secs := []) ?_ rfl
  rw [probeFor, runToks_cons, exec_for cx _ _ _ _ rfl]
  simp only [forItems, look_probe vars mode h, hv, Option.bind_some, Value.asArray, Res.ofOption, Res.mapErr, Res.bind_ok]
  have : arrange ⟨str!"i", dotted str!"self" is, .jsonObj, some n, some 1, none, false⟩ l = [l[n]] := by
    simp only [arrange, sortItems, Bool.false_eq_true, if_false]
    rw [List.drop_eq_getElem_cons hl]
    rfl
  rw [this, iter_cons, loop_eq, if_neg (by simp)]
  simp only
  rw [exec_end cx probeAt str!"for" [] _ _ [] [] rfl]
  simp only [Res.bind_ok]
  rw [loop_eq, if_pos (by simp)]
  simp only [Res.bind_ok, iter_nil, runToks_nil]
  rfl
end

/-! ### Values with nothing to tell them apart -/

/-- The three probes. -/
structure Unprobed (cx : Ctx) (vars : List (Str × Str)) (mode src : Str) (v v' : Value) : Prop where
  var : ∀ is : List Str, (∀ i ∈ is, '.' ∉ i) → probed cx vars mode src (probeVar is) v = probed cx vars mode src (probeVar is) v'
  eq : ∀ (is : List Str) (x : Input), (∀ i ∈ is, '.' ∉ i) → probed cx vars mode src (probeEq is x) v = probed cx vars mode src (probeEq is x) v'
  loop : ∀ (is : List Str) (n : Nat), (∀ i ∈ is, '.' ∉ i) → probed cx vars mode src (probeFor is n) v = probed cx vars mode src (probeFor is n) v'

section
variable {cx : Ctx} {vars : List (Str × Str)} {mode src : Str} {v v' : Value}

theorem Unprobed.symm (h : Unprobed cx vars mode src v v') : Unprobed cx vars mode src v' v :=
  ⟨fun is hi => (h.var is hi).symm, fun is x hi => (h.eq is x hi).symm, fun is n hi => (h.loop is n hi).symm⟩

theorem Unprobed.null (h : Unprobed cx vars mode src v v') {is : List Str} (hi : ∀ i ∈ is, '.' ∉ i) (hv : getValue is v = .null) :
    getValue is v' = .null := by
  apply Classical.byContradiction
  intro hn
  have := h.var is hi
  rw [probeVar_null cx vars mode src hi v hv] at this
  exact probeVar_other cx vars mode src hi v' hn this.symm

theorem Unprobed.plain (h : Unprobed cx vars mode src v v') {is : List Str} (hi : ∀ i ∈ is, '.' ∉ i) {x : Input} (hv : plainOf (getValue is v) = some x) :
    plainOf (getValue is v') = some x := by
  have hx : ∀ a, x ≠ .var a := by
    intro a e
    subst e
    cases hw : getValue is v <;> rw [hw] at hv <;> cases hv
  have := h.eq is x hi
  rw [probeEq_same cx vars mode src hi x hx v hv] at this
  cases hw : plainOf (getValue is v') with
  | none => rw [probeEq_other cx vars mode src hi x v' hw] at this; cases this
  | some y =>
    by_cases hxy : y = x
    · rw [hxy]
    · rw [probeEq_differ cx vars mode src hi x y hx hxy v' hw] at this; cases this

theorem Unprobed.list (h : Unprobed cx vars mode src v v') {is : List Str} (hi : ∀ i ∈ is, '.' ∉ i) {l : List Value} (hv : getValue is v = .arr l) :
    ∃ l', getValue is v' = .arr l' ∧ l.length = l'.length := by
  have hex : ∃ l', getValue is v' = .arr l' := by
    apply Classical.byContradiction
    intro hn
    have := h.loop is l.length hi
    rw [probeFor_short cx vars mode src hi l.length v hv (Nat.le_refl _),
      probeFor_other cx vars mode src hi l.length v' (fun l' e => hn ⟨l', e⟩)] at this
    cases this
  obtain ⟨l', hl'⟩ := hex
  refine ⟨l', hl', ?_⟩
  rcases Nat.lt_trichotomy l.length l'.length with hlt | heq | hgt
  · have := h.loop is l.length hi
    rw [probeFor_short cx vars mode src hi _ v hv (Nat.le_refl _), probeFor_long cx vars mode src hi _ v' hl' hlt] at this
    cases this
  · exact heq
  · have := h.loop is l'.length hi
    rw [probeFor_long cx vars mode src hi _ v hv hgt, probeFor_short cx vars mode src hi _ v' hl' (Nat.le_refl _)] at this
    cases this

theorem part_size {l : List (Str × Value)} {k : Str} : sizeOf (part (.obj l) k) < sizeOf (Value.obj l) := by
  simp only [part]
  cases hf : l.find? fun e => e.1 == k with
  | none => simp only [Value.null.sizeOf_spec, Value.obj.sizeOf_spec]; have : 0 < sizeOf l := by cases l <;> simp <;> omega
            omega
  | some e =>
    have := List.sizeOf_lt_of_mem (List.mem_of_find?_eq_some hf)
    obtain ⟨a, b⟩ := e
    simp only [Prod.mk.sizeOf_spec, Value.obj.sizeOf_spec] at this ⊢
    omega

/-- Values at the ends of paths that nothing tells apart are alike. -/
theorem Unprobed.alike (h : Unprobed cx vars mode src v v') (hfit : ∀ is l, getValue is v = .arr l → l.length ≤ 2 ^ 64) :
    ∀ (n : Nat) (is : List Str), (∀ i ∈ is, '.' ∉ i) → sizeOf (getValue is v) ≤ n → SeenAlike (getValue is v) (getValue is v') := by
  intro n
  induction n with
  | zero => intro is _ hz; cases hw : getValue is v <;> rw [hw] at hz <;> simp at hz
  | succ n ih =>
    intro is hi hz
    have hthing : IsThing (getValue is v) → IsThing (getValue is v') := by
      intro ht
      cases hw' : getValue is v' with
      | null => rw [h.symm.null hi hw'] at ht; exact ht.elim
      | bool b => trivial
      | obj l => trivial
      | str s =>
        have := h.symm.plain hi (x := .str s) (by rw [hw']; rfl)
        cases hw : getValue is v <;> rw [hw] at this ht <;> first | (cases this; done) | exact ht.elim
      | num m =>
        have := h.symm.plain hi (x := .int m.toI32) (by rw [hw']; rfl)
        cases hw : getValue is v <;> rw [hw] at this ht <;> first | (cases this; done) | exact ht.elim
      | arr l' =>
        obtain ⟨l, hl, _⟩ := h.symm.list hi hw'
        rw [hl] at ht; exact ht.elim
    have hstep : IsThing (getValue is v) → (∀ k, sizeOf (part (getValue is v) k) < sizeOf (getValue is v) ∨ part (getValue is v) k = .null) →
        SeenAlike (getValue is v) (getValue is v') := by
      intro ht hs
      refine .thing ht (hthing ht) fun k hk => ?_
      have hk' : ∀ i ∈ is ++ [k], '.' ∉ i := by
        intro i hm
        rcases List.mem_append.1 hm with hm | hm
        · exact hi i hm
        · rw [List.mem_singleton.1 hm]; exact hk
      have e : getValue (is ++ [k]) v = part (getValue is v) k := by rw [getValue_append, getValue_part (thing_ne_arr ht)]; rfl
      have e' : getValue (is ++ [k]) v' = part (getValue is v') k := by rw [getValue_append, getValue_part (thing_ne_arr (hthing ht))]; rfl
      rcases hs k with hs | hs
      · have := ih (is ++ [k]) hk' (by rw [e]; omega)
        rwa [e, e'] at this
      · have := h.null hk' (by rw [e]; exact hs)
        rw [← e, ← e', this, e, hs]
        exact .null
    cases hw : getValue is v with
    | null => rw [h.null hi hw]; exact .null
    | str s =>
      have := h.plain hi (x := .str s) (by rw [hw]; rfl)
      cases hw' : getValue is v' <;> rw [hw'] at this <;> cases this
      exact .str _
    | num m =>
      have := h.plain hi (x := .int m.toI32) (by rw [hw]; rfl)
      cases hw' : getValue is v' <;> rw [hw'] at this <;> simp [plainOf] at this
      exact .num this.symm
    | bool b =>
      rw [← hw]
      exact hstep (by rw [hw]; trivial) fun k => .inr (by rw [hw]; rfl)
    | obj l =>
      rw [← hw]
      exact hstep (by rw [hw]; trivial) fun k => .inl (by rw [hw]; exact part_size)
    | arr l =>
      obtain ⟨l', hl', hlen⟩ := h.list hi hw
      rw [hl']
      refine .arr hlen fun i a a' ha ha' => ?_
      have hlt : i < l.length := (List.getElem?_eq_some_iff.1 ha).1
      obtain ⟨k, hk, hp⟩ := written_position (n := i) (Nat.lt_of_lt_of_le hlt (hfit is l hw))
      have e : getValue (is ++ [k]) v = a := by rw [getValue_append, hw, getValue_item, hp]; simp [ha, getValue]
      have e' : getValue (is ++ [k]) v' = a' := by rw [getValue_append, hl', getValue_item, hp]; simp [ha', getValue]
      have hsz : sizeOf a < sizeOf l := List.sizeOf_lt_of_mem (List.mem_of_getElem? ha)
      have := ih (is ++ [k]) (by
        intro j hm
        rcases List.mem_append.1 hm with hm | hm
        · exact hi j hm
        · rw [List.mem_singleton.1 hm]; exact hk) (by rw [e]; rw [hw] at hz; simp only [Value.arr.sizeOf_spec] at hz; omega)
      rwa [e, e'] at this
end

end Stuart
