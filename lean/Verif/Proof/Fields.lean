import Verif.Spec.Fields
import Verif.Proof.TellTree
/-
Lemmas: rendering does not depend on fields that are not mentioned.
-/
namespace Stuart
open Spec

/-! ### Values without the fields -/

section
variable (K : List Str)

mutual
/-- A value without the fields of these names. -/
def bare : Value → Value
  | .null => .null
  | .bool b => .bool b
  | .num n => .num n
  | .str s => .str s
  | .arr l => .arr (bareAll l)
  | .obj l => .obj (bareFields l)
def bareAll : List Value → List Value
  | [] => []
  | v :: l => bare v :: bareAll l
def bareFields : List (Str × Value) → List (Str × Value)
  | [] => []
  | (k, v) :: l => if k ∈ K then bareFields l else (k, bare v) :: bareFields l
end
end

section
variable {K : List Str}

mutual
theorem Spec.ValueBut.bare_eq : ∀ {v v' : Value}, ValueBut K v v' → bare K v = bare K v'
  | _, _, .null => rfl
  | _, _, .bool _ => rfl
  | _, _, .num _ => rfl
  | _, _, .str _ => rfl
  | _, _, .arr h => by simp only [bare, ValuesBut.bare_eq h]
  | _, _, .obj h => by simp only [bare, FieldsBut.bare_eq h]
theorem Spec.ValuesBut.bare_eq : ∀ {l l' : List Value}, ValuesBut K l l' → bareAll K l = bareAll K l'
  | _, _, .nil => rfl
  | _, _, .cons h hs => by simp only [bareAll, ValueBut.bare_eq h, ValuesBut.bare_eq hs]
theorem Spec.FieldsBut.bare_eq : ∀ {l l' : List (Str × Value)}, FieldsBut K l l' → bareFields K l = bareFields K l'
  | _, _, .nil => rfl
  | _, _, .same k h hs => by simp only [bareFields, ValueBut.bare_eq h, FieldsBut.bare_eq hs]
  | _, _, .left v hk hs => by simp only [bareFields, if_pos hk, FieldsBut.bare_eq hs]
  | _, _, .right v hk hs => by simp only [bareFields, if_pos hk, FieldsBut.bare_eq hs]
end

theorem bareAll_map (l : List Value) : bareAll K l = l.map (bare K) := by
  induction l with
  | nil => rfl
  | cons v l ih => simp only [bareAll, ih, List.map_cons]

theorem bareFields_map (l : List (Str × Value)) :
    bareFields K l = (l.filter fun e => decide (e.1 ∉ K)).map fun e => (e.1, bare K e.2) := by
  induction l with
  | nil => rfl
  | cons e l ih =>
    obtain ⟨k, v⟩ := e
    by_cases hk : k ∈ K
    · simp [bareFields, hk, ih]
    · simp [bareFields, hk, ih]

theorem getKey_bare {k : Str} (hk : k ∉ K) (v : Value) : (bare K v).getKey k = (v.getKey k).map (bare K) := by
  cases v with
  | obj l =>
    simp only [bare, Value.getKey]
    induction l with
    | nil => rfl
    | cons e l ih =>
      obtain ⟨k', v'⟩ := e
      by_cases h : k' ∈ K
      · have hne : (k' == k) = false := by
          rw [beq_eq_false_iff_ne]; rintro rfl; exact hk h
        simp only [bareFields, if_pos h, ih, List.find?, hne]
      · simp only [bareFields, if_neg h, List.find?]
        cases k' == k with
        | true => rfl
        | false => exact ih
  | _ => rfl

theorem getIdx_bare (i : Nat) (v : Value) : (bare K v).getIdx i = (v.getIdx i).map (bare K) := by
  cases v with
  | arr l => simp only [bare, Value.getIdx, bareAll_map, List.getElem?_map]
  | _ => rfl

theorem getValue_bare : ∀ (is : List Str) (v : Value), (∀ i ∈ is, i ∉ K) → getValue is (bare K v) = bare K (getValue is v)
  | [], v, _ => rfl
  | i :: is, v, h => by
    have ih := fun v => getValue_bare is v fun j hj => h j (.tail _ hj)
    simp only [getValue, getKey_bare (h i (.head _))]
    cases v.getKey i with
    | some w => exact ih w
    | none =>
      simp only [Option.map_none]
      cases parseUsize i with
      | none => rfl
      | some n =>
        simp only [Option.bind_some, getIdx_bare]
        cases v.getIdx n with
        | none => rfl
        | some w => exact ih w

theorem asStr_bare (v : Value) : (bare K v).asStr = v.asStr := by cases v <;> rfl

theorem asArray_bare (v : Value) : (bare K v).asArray = v.asArray.map fun l => l.map (bare K) := by
  cases v with
  | arr l => simp only [bare, Value.asArray, bareAll_map, Option.map_some]
  | _ => rfl

/-- The same value but for the fields. -/
def VBut (K : List Str) (v v' : Value) : Prop := bare K v = bare K v'

theorem VBut.asStr {v v' : Value} (h : VBut K v v') : v.asStr = v'.asStr := by rw [← asStr_bare (K := K) v, h, asStr_bare]

theorem VBut.path {v v' : Value} (h : VBut K v v') {is : List Str} (hi : ∀ i ∈ is, i ∉ K) : VBut K (getValue is v) (getValue is v') := by
  unfold VBut at h ⊢
  rw [← getValue_bare is v hi, h, getValue_bare is v' hi]

/-! ### Paths of keys -/

theorem splitOn_keyIn : ∀ (v : Str) (i : Str), i ∈ (splitOn '.' v).drop 1 → KeyIn v i := by
  intro v
  induction hn : v.length using Nat.strongRecOn generalizing v with
  | _ n ih =>
    intro i hi
    by_cases hd : '.' ∈ v
    · obtain ⟨a, r, rfl, ha⟩ := List.eq_append_cons_of_mem hd
      rw [splitOn_cons_sep '.' a r ha] at hi
      simp only [List.drop_succ_cons, List.drop_zero] at hi
      cases hs : splitOn '.' r with
      | nil => rw [hs] at hi; cases hi
      | cons x xs =>
        rw [hs] at hi
        rcases List.mem_cons.1 hi with rfl | hi
        · by_cases hr : '.' ∈ r
          · obtain ⟨b, q, rfl, hb⟩ := List.eq_append_cons_of_mem hr
            rw [splitOn_cons_sep '.' b q hb] at hs
            cases hs
            exact ⟨a, '.' :: q, by simp, .inr ⟨q, rfl⟩⟩
          · rw [splitOn_nodot '.' r hr] at hs
            cases hs
            exact ⟨a, [], by simp, .inl rfl⟩
        · obtain ⟨b, c, h1, h2⟩ := ih r.length (by rw [← hn]; simp; omega) r rfl i (by rw [hs]; exact hi)
          exact ⟨a ++ '.' :: b, c, by rw [h1]; simp, h2⟩
    · rw [splitOn_nodot '.' v hd] at hi
      cases hi

/-- A variable whose path has none of the keys. -/
def Clear (K : List Str) (v : Str) : Prop := ∀ k ∈ K, ¬ KeyIn v k

theorem Clear.keys {v : Str} (h : Clear K v) : ∀ i ∈ (splitOn '.' v).drop 1, i ∉ K :=
  fun i hi hk => h i hk (splitOn_keyIn v i hi)

/-! ### Frontmatter -/

theorem Spec.FrontBut.bare_eq {l l' : List (Str × Str)} (h : FrontBut K l l') :
    bareFields K (l.map fun e => (e.1, Value.str e.2)) = bareFields K (l'.map fun e => (e.1, Value.str e.2)) := by
  induction h with
  | nil => rfl
  | same k v _ ih => simp only [List.map_cons, bareFields, ih]
  | left v hk _ ih => simp only [List.map_cons, bareFields, if_pos hk, ih]
  | right v hk _ ih => simp only [List.map_cons, bareFields, if_pos hk, ih]

theorem setEntry_bare (k : Str) (v : Value) (l : List (Str × Value)) :
    bareFields K (Value.setEntry k v l) = if k ∈ K then bareFields K l else Value.setEntry k (bare K v) (bareFields K l) := by
  induction l with
  | nil => by_cases hk : k ∈ K <;> simp [Value.setEntry, bareFields, hk]
  | cons e l ih =>
    obtain ⟨k', v'⟩ := e
    by_cases he : k' = k
    · subst he
      by_cases hk : k' ∈ K <;> simp [Value.setEntry, bareFields, hk]
    · have hne : (k' == k) = false := beq_eq_false_iff_ne.2 he
      by_cases hk : k ∈ K <;> by_cases hk' : k' ∈ K <;> simp [Value.setEntry, bareFields, hk, hk', hne, he, ih]

/-- As for the lemmas about look-ups. -/
def fieldTell (K : List Str) : Tell where
  E := VBut K
  clear := Clear K
  refl _ := rfl
  path h k := k.path h.keys
  sight {v v'} h := by
    unfold VBut at h
    cases v <;> cases v' <;> simp only [bare] at h <;> first | (cases h; done) | (cases h; rfl) | rfl
  rows {l l'} h := by
    simp only [VBut, bare, Value.arr.injEq] at h
    induction l generalizing l' with
    | nil => cases l' with
      | nil => exact .nil
      | cons => simp only [bareAll] at h; cases h
    | cons v l ih => cases l' with
      | nil => simp only [bareAll] at h; cases h
      | cons v' l' =>
        simp only [bareAll, List.cons.injEq] at h
        exact .cons h.1 (ih h.2)

theorem Spec.FileBut.tell {b b' : Bytes} {c c' : Parsed} (h : FileBut K b b' c c') : FileTell (fieldTell K) b b' c c' := by
  cases h with
  | html h => exact .html h
  | markdown h1 h2 h3 h4 h5 =>
    refine .markdown (fun h m => ?_) h2 h3 h4 h5
    simp only [fieldTell, VBut, ParsedMd.fmValue, Value.setKey, bare, setEntry_bare, h1.bare_eq]
  | data h => exact .data h.bare_eq
  | other => exact .other
end

end Stuart
