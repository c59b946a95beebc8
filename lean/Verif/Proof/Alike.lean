import Verif.Spec.Alike
import Verif.Proof.TellTree
/-
Lemmas: values that templates cannot tell apart.
-/
namespace Stuart
open Spec

theorem getValue_null (is : List Str) : getValue is .null = .null := by
  cases is with
  | nil => rfl
  | cons i is =>
    simp only [getValue, Value.getKey]
    cases parseUsize i <;> rfl

/-- A step of a path, for what is no list. -/
theorem getValue_part {v : Value} (h : ∀ l, v ≠ .arr l) (i : Str) (is : List Str) : getValue (i :: is) v = getValue is (part v i) := by
  simp only [getValue]
  cases v with
  | arr l => exact absurd rfl (h l)
  | obj l =>
    simp only [Value.getKey, part]
    cases l.find? fun e => e.1 == i with
    | some e => rfl
    | none =>
      simp only [Option.map_none]
      cases parseUsize i <;> simp [Value.getIdx, getValue_null]
  | _ => simp only [Value.getKey, part, getValue_null]; cases parseUsize i <;> simp [Value.getIdx]

theorem getValue_item (l : List Value) (i : Str) (is : List Str) :
    getValue (i :: is) (.arr l) = getValue is (((parseUsize i).bind fun n => l[n]?).getD .null) := by
  simp only [getValue, Value.getKey]
  cases parseUsize i with
  | none => simp [getValue_null]
  | some n =>
    simp only [Option.bind_some, Value.getIdx]
    cases l[n]? with
    | none => simp [getValue_null]
    | some v => rfl

theorem thing_ne_arr {v : Value} (h : IsThing v) (l : List Value) : v ≠ .arr l := by
  rintro rfl; exact h

theorem Spec.SeenAlike.path : ∀ (is : List Str) {v v' : Value}, (∀ i ∈ is, '.' ∉ i) → SeenAlike v v' → SeenAlike (getValue is v) (getValue is v')
  | [], _, _, _, h => h
  | i :: is, _, _, hi, h => by
    have his : ∀ j ∈ is, '.' ∉ j := fun j hj => hi j (.tail _ hj)
    cases h with
    | null => rw [getValue_null]; exact .null
    | num h => rw [getValue_part (by simp), getValue_part (by simp)]; simp only [part, getValue_null]; exact .null
    | str s => rw [getValue_part (by simp)]; simp only [part, getValue_null]; exact .null
    | arr hl h =>
      rename_i l l'
      rw [getValue_item, getValue_item]
      refine SeenAlike.path is his ?_
      cases parseUsize i with
      | none => exact .null
      | some n =>
        simp only [Option.bind_some]
        cases h1 : l[n]? with
        | none =>
          have : l'[n]? = none := by rw [List.getElem?_eq_none_iff] at h1 ⊢; omega
          rw [this]; exact .null
        | some v =>
          cases h2 : l'[n]? with
          | none =>
            rw [List.getElem?_eq_none_iff] at h2
            have := (List.getElem?_eq_some_iff.1 h1).1
            omega
          | some v' => exact h n v v' h1 h2
    | thing h1 h2 h =>
      rw [getValue_part (thing_ne_arr h1), getValue_part (thing_ne_arr h2)]
      exact SeenAlike.path is his (h i (hi i (.head _)))

theorem thing_sight {v : Value} (h : IsThing v) : sight v = .thing := by
  cases v <;> first | rfl | exact h.elim

mutual
theorem alike_refl : ∀ v : Value, SeenAlike v v
  | .null => .null
  | .num _ => .num rfl
  | .str _ => .str _
  | .bool _ => .thing trivial trivial fun _ _ => .null
  | .arr l => .arr rfl fun i v v' h1 h2 => by
    rw [h1] at h2
    cases h2
    exact alike_refl_all l v (List.mem_of_getElem? h1)
  | .obj l => .thing trivial trivial fun k _ => alike_refl_part l k
theorem alike_refl_all : ∀ (l : List Value) (v : Value), v ∈ l → SeenAlike v v
  | v :: l, w, h => by
    rcases List.mem_cons.1 h with h | h
    · rw [h]; exact alike_refl v
    · exact alike_refl_all l w h
theorem alike_refl_part : ∀ (l : List (Str × Value)) (k : Str), SeenAlike (part (.obj l) k) (part (.obj l) k)
  | [], _ => .null
  | (a, v) :: l, k => by
    simp only [part, List.find?]
    cases a == k with
    | true => exact alike_refl v
    | false => exact alike_refl_part l k
end

theorem rows_of : ∀ {l l' : List Value}, l.length = l'.length → (∀ (i : Nat) (v v' : Value), l[i]? = some v → l'[i]? = some v' → SeenAlike v v') →
    Rows SeenAlike l l'
  | [], [], _, _ => .nil
  | [], _ :: _, h, _ => by cases h
  | _ :: _, [], h, _ => by cases h
  | v :: l, v' :: l', h, hi => .cons (hi 0 v v' rfl rfl) (rows_of (by simpa using h) fun i => hi (i + 1))

theorem splitOn_pieces : ∀ (a i : Str), i ∈ splitOn '.' a → '.' ∉ i := by
  intro a
  induction hn : a.length using Nat.strongRecOn generalizing a with
  | _ n ih =>
    intro i hi
    by_cases hd : '.' ∈ a
    · obtain ⟨b, r, rfl, hb⟩ := List.eq_append_cons_of_mem hd
      rw [splitOn_cons_sep '.' b r hb] at hi
      rcases List.mem_cons.1 hi with rfl | hi
      · exact hb
      · exact ih r.length (by rw [← hn]; simp; omega) r rfl i hi
    · rw [splitOn_nodot '.' a hd] at hi
      rcases List.mem_cons.1 hi with rfl | hi
      · exact hd
      · cases hi

/-- As for the lemmas about look-ups. -/
def alikeTell : Tell where
  E := SeenAlike
  clear _ := True
  refl := alike_refl
  path {a _ _} _ h := h.path _ fun i hi => splitOn_pieces a i (List.mem_of_mem_drop hi)
  sight h := by
    cases h with
    | null => rfl
    | num h => simp only [Stuart.sight, h]
    | str => rfl
    | arr => rfl
    | thing h1 h2 => rw [thing_sight h1, thing_sight h2]
  rows h := by
    cases h with
    | arr h1 h2 => exact rows_of h1 h2
    | thing h => exact h.elim

theorem part_setEntry (k : Str) (v : Value) (l : List (Str × Value)) (j : Str) :
    part (.obj (Value.setEntry k v l)) j = if k = j then v else part (.obj l) j := by
  induction l with
  | nil =>
    simp only [Value.setEntry, part, List.find?]
    by_cases h : k = j
    · subst h; simp
    · have : (k == j) = false := beq_eq_false_iff_ne.2 h
      simp [h, this]
  | cons e l ih =>
    obtain ⟨a, w⟩ := e
    simp only [Value.setEntry]
    by_cases h : a = k
    · subst h
      simp only [beq_self_eq_true, if_true, part, List.find?]
      by_cases hj : a = j
      · subst hj; simp
      · have : (a == j) = false := beq_eq_false_iff_ne.2 hj
        simp [this, hj]
    · have hak : (a == k) = false := beq_eq_false_iff_ne.2 h
      simp only [hak, Bool.false_eq_true, if_false]
      simp only [part, List.find?] at ih ⊢
      by_cases hj : a = j
      · subst hj
        simp [Ne.symm h]
      · have : (a == j) = false := beq_eq_false_iff_ne.2 hj
        simp only [this]
        exact ih

theorem part_front (l : List (Str × Str)) (k : Str) :
    part (.obj (l.map fun e => (e.1, Value.str e.2))) k = match frontOf l k with | some s => .str s | none => .null := by
  induction l with
  | nil => rfl
  | cons e l ih =>
    simp only [part, frontOf, List.map_cons, List.find?] at ih ⊢
    cases e.1 == k with
    | true => rfl
    | false => exact ih

theorem silent_pluginFree {toks : List LTok} (h : PluginFree toks) : ∀ t ∈ toks, SilentTok alikeTell t := fun t ht => ⟨h t ht, fun _ _ => trivial⟩

theorem Spec.FileAlike.tell {b b' : Bytes} {c c' : Parsed} (h : FileAlike b b' c c') : FileTell alikeTell b b' c c' := by
  cases h with
  | html h => exact .html (silent_pluginFree h)
  | markdown h1 h2 h3 h4 h5 =>
    refine .markdown (fun h m => ?_) h2 h3 h4 (silent_pluginFree h5)
    refine SeenAlike.thing (by exact trivial) (by exact trivial) fun k hk => ?_
    simp only [ParsedMd.fmValue, Value.setKey, part_setEntry, part_front, h1 k hk]
    exact alike_refl _
  | data h => exact .data (show alikeTell.E _ _ from h)
  | other => exact .other

end Stuart
