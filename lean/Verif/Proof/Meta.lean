import Verif.Model.Fs
import Verif.Spec.Meta
import Verif.Spec.Site
import Verif.Proof.Interp
import Verif.Proof.Step
/-
Exported metadata.
-/
namespace Stuart
open Spec

theorem lookup_setEntry (k k' : Str) (v : Value) (l : List (Str × Value)) :
    (Value.setEntry k v l).lookup k' = if k' = k then some v else l.lookup k' := by
  induction l with
  | nil =>
    simp only [Value.setEntry, List.lookup_cons, List.lookup_nil]
    by_cases h : k' = k
    · subst h; simp
    · rw [if_neg h, show (k' == k) = false by simpa using h]
  | cons e l ih =>
    obtain ⟨a, b⟩ := e
    simp only [Value.setEntry]
    split
    · rename_i h
      have h : a = k := by simpa using h
      subst h
      simp only [List.lookup_cons]
      by_cases h' : k' = a
      · subst h'; simp
      · rw [if_neg h', show (k' == a) = false by simpa using h']
    · rename_i h
      have h : a ≠ k := by simpa using h
      simp only [List.lookup_cons, ih]
      by_cases h' : k' = a
      · subst h'; simp [h]
      · rw [show (k' == a) = false by simpa using h']

theorem setAll_obj : ∀ (l l0 : List (Str × Value)), ∃ l1, setAll (.obj l0) l = .obj l1 ∧
    ∀ k, l1.lookup k = match l.reverse.lookup k with
      | some v => some v
      | none => l0.lookup k
  | [], l0 => ⟨l0, rfl, fun k => rfl⟩
  | (a, x) :: l, l0 => by
    rw [setAll, Value.setKey]
    obtain ⟨l1, h1, h2⟩ := setAll_obj l (Value.setEntry a x l0)
    refine ⟨l1, h1, fun k => ?_⟩
    rw [h2, List.reverse_cons, List.lookup_append]
    cases l.reverse.lookup k with
    | some v => rfl
    | none =>
      simp only [Option.none_or, List.lookup_cons, List.lookup_nil, lookup_setEntry]
      by_cases h : k = a
      · subst h; simp
      · rw [if_neg h, show (k == a) = false by simpa using h]

theorem metaNodes_ok {cs : List Node} {vs : List Value} (h : metaNodes cs = .ok vs) :
    vs.length = cs.length ∧ ∀ (i : Nat) (c : Node), cs[i]? = some c → ∃ v, vs[i]? = some v ∧ metaNode c = .ok v := by
  induction cs generalizing vs with
  | nil => rw [metaNodes] at h; cases h; simp
  | cons c cs ih =>
    rw [metaNodes] at h
    obtain ⟨v, h1, h⟩ := Res.bind_eq_ok.1 h
    obtain ⟨vs', h2, h⟩ := Res.bind_eq_ok.1 h
    cases h
    obtain ⟨i1, i2⟩ := ih h2
    refine ⟨by simp [i1], ?_⟩
    intro i c' hc
    cases i with
    | zero => simp only [List.getElem?_cons_zero, Option.some.injEq] at hc; subst hc; exact ⟨v, rfl, h1⟩
    | succ i => simpa using i2 i c' (by simpa using hc)

theorem metaNode_describes {n : Node} {v : Value} (h : metaNode n = .ok v) : Describes n v := by
  cases n with
  | dir d cs src =>
    rw [metaNode] at h
    obtain ⟨vs, h1, h⟩ := Res.bind_eq_ok.1 h
    cases h
    refine ⟨rfl, rfl, (metaNodes_ok h1).1, ?_⟩
    intro k hk
    simp only [List.mem_cons, List.not_mem_nil, or_false, not_or] at hk
    obtain ⟨k1, k2, k3⟩ := hk
    rw [field, List.lookup_cons, beq_false_of_ne k1]
    simp only
    rw [List.lookup_cons, beq_false_of_ne k2]
    simp only
    rw [List.lookup_cons, beq_false_of_ne k3]
    rfl
  | file name b p m src =>
    cases m with
    | none =>
      rw [metaNode] at h
      cases h
      refine ⟨rfl, rfl, ?_⟩
      intro k hk
      simp only [List.mem_cons, List.not_mem_nil, or_false, not_or] at hk
      show List.lookup k (Value.setEntry _ _ _) = none
      rw [lookup_setEntry, if_neg hk.1]
      rw [List.lookup_cons, beq_false_of_ne hk.2]
      rfl
    | some x =>
      rw [metaNode] at h
      obtain ⟨l, h1, h⟩ := Res.bind_eq_ok.1 h
      cases x <;> simp only [Value.asObject, Res.unwrap] at h1 <;> cases h1
      cases h
      intro k
      obtain ⟨l1, h2, h3⟩ := setAll_obj l [(str!"name", .str name)]
      rw [h2, field, h3]
      cases l.reverse.lookup k with
      | some v => rfl
      | none =>
        simp only [List.lookup_cons, List.lookup_nil]
        by_cases hk : k = str!"name"
        · subst hk; rfl
        · rw [if_neg hk, show (k == str!"name") = false by simpa using hk]

theorem metaNode_at : ∀ (pos : List Nat) {n x : Node} {v : Value}, metaNode n = .ok v → nodeAt n pos = some x →
    ∃ e, entryAt v pos = some e ∧ metaNode x = .ok e
  | [], n, x, v, h, hx => by
    rw [nodeAt] at hx; cases hx; exact ⟨v, rfl, h⟩
  | i :: is, n, x, v, h, hx => by
    cases n with
    | file => cases hx
    | dir d cs src =>
      rw [metaNode] at h
      obtain ⟨vs, h1, h⟩ := Res.bind_eq_ok.1 h
      cases h
      rw [nodeAt] at hx
      cases hc : cs[i]? with
      | none => rw [hc] at hx; cases hx
      | some c =>
        rw [hc] at hx
        simp only at hx
        obtain ⟨v, hv, hm⟩ := (metaNodes_ok h1).2 i c hc
        obtain ⟨e, he, hm'⟩ := metaNode_at is hm hx
        refine ⟨e, ?_, hm'⟩
        rw [entryAt]
        show (vs[i]?).bind _ = _
        rw [hv]; exact he

theorem metaNode_panic {n : Node} {p : Panic} (h : metaNode n = .panic p) : p = .metadataNotObject ∧
    ∃ pos name b q x src, nodeAt n pos = some (.file name b q (some x) src) ∧ x.asObject = none := by
  cases n with
  | file name b q m src =>
    cases m with
    | none => rw [metaNode] at h; cases h
    | some x =>
      rw [metaNode] at h
      cases hx : x.asObject with
      | none =>
        simp only [hx] at h; cases h
        exact ⟨rfl, [], name, b, q, x, src, by rw [nodeAt], hx⟩
      | some l => simp only [hx] at h; cases h
  | dir d cs src =>
    rw [metaNode] at h
    have key : ∀ (cs : List Node), metaNodes cs = .panic p → ∃ (i : Nat) (c : Node), cs[i]? = some c ∧ metaNode c = .panic p := by
      intro cs
      induction cs with
      | nil => intro h; rw [metaNodes] at h; cases h
      | cons c cs ih =>
        intro h
        rw [metaNodes] at h
        cases hc : metaNode c with
        | ok v =>
          rw [hc, Res.bind_ok] at h
          cases hcs : metaNodes cs with
          | ok vs => rw [hcs] at h; cases h
          | err e => rw [hcs] at h; cases h
          | panic q =>
            rw [hcs] at h; cases h
            obtain ⟨i, c', h1, h2⟩ := ih hcs
            exact ⟨i + 1, c', by simpa using h1, h2⟩
        | err e => rw [hc] at h; cases h
        | panic q => rw [hc] at h; cases h; exact ⟨0, c, rfl, hc⟩
    cases hcs : metaNodes cs with
    | ok vs => rw [hcs] at h; cases h
    | err e => rw [hcs] at h; cases h
    | panic q =>
      rw [hcs] at h; cases h
      obtain ⟨i, c, h1, h2⟩ := key cs hcs
      have hlt : sizeOf c < sizeOf cs := List.sizeOf_lt_of_mem (List.mem_of_getElem? h1)
      obtain ⟨h3, pos, name, b, q, x, src', h4, h5⟩ := metaNode_panic h2
      exact ⟨h3, i :: pos, name, b, q, x, src', by rw [nodeAt, h1]; exact h4, h5⟩
termination_by sizeOf n
decreasing_by subst_vars; simp only [Node.dir.sizeOf_spec]; omega

theorem metaNode_no_err {n : Node} {e : SErr} : metaNode n ≠ .err e := by
  intro h
  cases n with
  | file name b q m src =>
    cases m with
    | none => rw [metaNode] at h; cases h
    | some x =>
      rw [metaNode] at h
      cases hx : x.asObject with
      | none => simp only [hx] at h; cases h
      | some l => simp only [hx] at h; cases h
  | dir d cs src =>
    rw [metaNode] at h
    have key : ∀ (cs : List Node), metaNodes cs = .err e → ∃ c ∈ cs, metaNode c = .err e := by
      intro cs
      induction cs with
      | nil => intro h; rw [metaNodes] at h; cases h
      | cons c cs ih =>
        intro h
        rw [metaNodes] at h
        cases hc : metaNode c with
        | ok v =>
          rw [hc, Res.bind_ok] at h
          cases hcs : metaNodes cs with
          | ok vs => rw [hcs] at h; cases h
          | err e => rw [hcs] at h; cases h; obtain ⟨c', h1, h2⟩ := ih hcs; exact ⟨c', .tail _ h1, h2⟩
          | panic q => rw [hcs] at h; cases h
        | err e => rw [hc] at h; cases h; exact ⟨c, .head _, hc⟩
        | panic q => rw [hc] at h; cases h
    cases hcs : metaNodes cs with
    | ok vs => rw [hcs] at h; cases h
    | panic q => rw [hcs] at h; cases h
    | err q =>
      rw [hcs] at h; cases h
      obtain ⟨c, h1, h2⟩ := key cs hcs
      have hlt : sizeOf c < sizeOf cs := List.sizeOf_lt_of_mem h1
      exact metaNode_no_err h2
termination_by sizeOf n
decreasing_by subst_vars; simp only [Node.dir.sizeOf_spec]; omega

end Stuart
