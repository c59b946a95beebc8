import Verif.Spec.Scope
import Verif.Proof.Interp
import Verif.Proof.Literal
/-
The model's variable lookup, path following and item sorting agree with the specification.
-/
namespace Stuart
open Spec

theorem find_lookup {β : Type} (n : Str) : ∀ l : List (Str × β),
    (l.find? fun e => e.1 == n).map (fun e => e.2) = l.lookup n
  | [] => rfl
  | (k, v) :: l => by
    rw [List.find?_cons, List.lookup_cons]
    by_cases h : k = n
    · subst h; simp
    · have h1 : (k == n) = false := by simpa using h
      have h2 : (n == k) = false := by simpa using Ne.symm h
      simp only [h1, h2]
      exact find_lookup n l

theorem Frame.getVar_lookup (f : Frame) (n : Str) : f.getVar n = f.vars.lookup n := find_lookup n f.vars

theorem splitOn_nodot (d : Char) : ∀ n : Str, d ∉ n → splitOn d n = [n]
  | [], _ => rfl
  | c :: cs, h => by
    simp only [List.mem_cons, not_or] at h
    rw [splitOn, if_neg (Ne.symm h.1), splitOn_nodot d cs h.2]

theorem splitOn_cons_sep (d : Char) : ∀ (n r : Str), d ∉ n → splitOn d (n ++ d :: r) = n :: splitOn d r
  | [], r, _ => by simp [splitOn]
  | c :: cs, r, h => by
    simp only [List.mem_cons, not_or] at h
    rw [List.cons_append, splitOn, if_neg (Ne.symm h.1), splitOn_cons_sep d cs r h.2]

theorem splitOn_dotted : ∀ (ps : List Str) (n : Str), Dotless n ps → splitOn '.' (dotted n ps) = n :: ps
  | [], n, h => by simp only [dotted, List.flatMap_nil, List.append_nil]; exact splitOn_nodot _ _ h.1
  | p :: ps, n, h => by
    have : dotted n (p :: ps) = n ++ '.' :: dotted p ps := by simp [dotted]
    rw [this, splitOn_cons_sep _ _ _ h.1, splitOn_dotted ps p ⟨h.2 p (by simp), fun q hq => h.2 q (by simp [hq])⟩]

theorem splitOn_ne_nil (d : Char) : ∀ s : Str, splitOn d s ≠ []
  | [] => by simp [splitOn]
  | c :: cs => by
    unfold splitOn
    split
    · simp
    · split <;> simp

theorem splitOn_noSep (d : Char) : ∀ (s : Str), ∀ p ∈ splitOn d s, d ∉ p
  | [], p, h => by simp [splitOn] at h; subst h; simp
  | c :: cs, p, h => by
    have ih := splitOn_noSep d cs
    unfold splitOn at h
    split at h
    · rcases List.mem_cons.1 h with rfl | h
      · simp
      · exact ih p h
    · rename_i hc
      split at h
      · rename_i hn; exact absurd hn (splitOn_ne_nil d cs)
      · rename_i w ws hw
        rw [hw] at ih
        rcases List.mem_cons.1 h with rfl | h
        · simp only [List.mem_cons, not_or]
          exact ⟨Ne.symm hc, ih w (by simp)⟩
        · exact ih p (by simp [h])

theorem dotted_splitOn : ∀ (s : Str) (n : Str) (ps : List Str), splitOn '.' s = n :: ps → dotted n ps = s
  | [], n, ps, h => by simp only [splitOn, List.cons.injEq] at h; obtain ⟨rfl, rfl⟩ := h; rfl
  | c :: cs, n, ps, h => by
    unfold splitOn at h
    split at h
    · rename_i hc
      subst hc
      simp only [List.cons.injEq] at h
      obtain ⟨rfl, rfl⟩ := h
      cases hs : splitOn '.' cs with
      | nil => exact absurd hs (splitOn_ne_nil _ _)
      | cons m ms =>
        have := dotted_splitOn cs m ms hs
        simp [dotted] at this ⊢
        rw [this]
    · split at h
      · rename_i hn; exact absurd hn (splitOn_ne_nil _ _)
      · rename_i w ws hw
        simp only [List.cons.injEq] at h
        obtain ⟨rfl, rfl⟩ := h
        have := dotted_splitOn cs w ws hw
        simp [dotted] at this ⊢
        rw [this]

/-- Every variable text is a dotted name. -/
theorem exists_dotted (v : Str) : ∃ n ps, Dotless n ps ∧ v = dotted n ps := by
  cases hs : splitOn '.' v with
  | nil => exact absurd hs (splitOn_ne_nil _ _)
  | cons n ps =>
    have hn := splitOn_noSep '.' v
    rw [hs] at hn
    exact ⟨n, ps, ⟨hn n (by simp), fun p hp => hn p (by simp [hp])⟩, (dotted_splitOn v n ps hs).symm⟩

theorem splitVar_dotted {n : Str} {ps : List Str} (h : Dotless n ps) : splitVar (dotted n ps) = (n, ps) := by
  unfold splitVar
  rw [splitOn_dotted ps n h]

theorem parseUsize_position (k : Str) : parseUsize k = position k := by
  have hdig : ∀ ds : Str, parseDigits ds =
      if ds ≠ [] ∧ (∀ c ∈ ds, '0'.toNat ≤ c.toNat ∧ c.toNat ≤ '9'.toNat) then some (decVal ds) else none := by
    intro ds
    split
    · rename_i h; exact parseDigits_digits h.1 h.2
    · rename_i h
      cases hp : parseDigits ds with
      | none => rfl
      | some n =>
        obtain ⟨h1, h2, _⟩ := parseDigits_some hp
        exact absurd ⟨h1, h2⟩ h
  have hgo : ∀ ds : Str, ((parseDigits ds).bind fun n => if n < 18446744073709551616 then some n else none) =
      if ds ≠ [] ∧ (∀ c ∈ ds, '0'.toNat ≤ c.toNat ∧ c.toNat ≤ '9'.toNat) ∧ decVal ds < 2 ^ 64
        then some (decVal ds) else none := by
    intro ds
    rw [hdig]
    have e : (2:Nat) ^ 64 = 18446744073709551616 := rfl
    rw [e]
    by_cases h : ds ≠ [] ∧ (∀ c ∈ ds, '0'.toNat ≤ c.toNat ∧ c.toNat ≤ '9'.toNat)
    · rw [if_pos h]
      by_cases h2 : decVal ds < 18446744073709551616
      · rw [if_pos ⟨h.1, h.2, h2⟩]; simp [h2]
      · rw [if_neg (fun hh => h2 hh.2.2)]; simp [h2]
    · rw [if_neg h, if_neg (fun hh => h ⟨hh.1, hh.2.1⟩)]; rfl
  unfold parseUsize position
  cases k with
  | nil => exact hgo []
  | cons c cs =>
    by_cases hc : c = '+'
    · subst hc; simpa using hgo cs
    · have h1 : (c :: cs).head? ≠ some '+' := by simpa using hc
      rw [if_neg h1]
      split
      · rename_i heq; simp only [List.cons.injEq] at heq; exact absurd heq.1 hc
      · exact hgo (c :: cs)

theorem getValue_follow : ∀ (ps : List Str) (v : Value), getValue ps v = follow ps v
  | [], v => rfl
  | k :: ks, v => by
    have ih := getValue_follow ks
    unfold getValue follow
    rw [parseUsize_position]
    cases v with
    | obj l =>
      simp only [Value.getKey, child, find_lookup]
      cases hl : List.lookup k l with
      | some w => simp [ih]
      | none =>
        have : ((position k).bind fun n => Value.getIdx n (.obj l)) = none := by
          cases position k <;> rfl
        simp [this]
    | arr l =>
      simp only [Value.getKey, child, Value.getIdx]
      cases hp : (position k).bind fun n => l[n]? with
      | some w => simp [ih]
      | none => simp
    | _ =>
      simp only [Value.getKey, child]
      cases position k <;> rfl

theorem lookupFrames_bound (name : Str) (ps : List Str) : ∀ stk : List Frame,
    lookupFrames name ps stk = denoted name ps (stk.map (·.vars))
  | [] => rfl
  | f :: fs => by
    unfold lookupFrames denoted bound
    rw [Frame.getVar_lookup, List.map_cons, List.findSome?_cons]
    cases f.vars.lookup name with
    | some v => simp [getValue_follow]
    | none => exact lookupFrames_bound name ps fs

theorem lookupVar_denoted {n : Str} {ps : List Str} (h : Dotless n ps) (stk : List Frame) :
    lookupVar (dotted n ps) stk = denoted n ps (stk.map (·.vars)) := by
  unfold lookupVar
  rw [splitVar_dotted h]
  exact lookupFrames_bound n ps stk

theorem varSearch_denoted (v name : Str) (ps : List Str) : ∀ stk : List Frame,
    varSearch v name ps stk = match denoted name ps (stk.map (·.vars)) with
      | none => .ok none
      | some (.str s) => .ok (some s)
      | some .null => .err (.nullError v)
      | some _ => .err (.invalidDataType v)
  | [] => rfl
  | f :: fs => by
    have ih := varSearch_denoted v name ps fs
    unfold varSearch denoted bound
    unfold denoted bound at ih
    rw [Frame.getVar_lookup, List.map_cons, List.findSome?_cons]
    cases f.vars.lookup name with
    | some x =>
      simp only [getValue_follow, Option.map_some]
      cases follow ps x <;> rfl
    | none => exact ih

/-! ### Sorting -/

theorem bytesLe_iff : ∀ a b : Bytes, bytesLe a b = true ↔ a ≤ b
  | [], b => by simp [bytesLe]
  | _ :: _, [] => by simp [bytesLe]
  | a :: as, b :: bs => by
    have ih := bytesLe_iff as bs
    unfold bytesLe
    rw [List.cons_le_cons_iff]
    by_cases h1 : a < b
    · simp [h1]
    · by_cases h2 : b < a
      · have : a ≠ b := by rintro rfl; exact absurd h2 (UInt8.lt_irrefl _)
        simp [h1, h2, this]
      · have : a = b := UInt8.le_antisymm (UInt8.not_lt.1 h2) (UInt8.not_lt.1 h1)
        subst this
        simp [ih]

theorem sortKey_keyOf (k : Str) (v : Value) : sortKey k v = keyOf ((splitOn '.' k).drop 1) v := by
  unfold sortKey keyOf
  rw [getValue_follow]
  cases follow ((splitOn '.' k).drop 1) v <;> rfl

theorem strLe_trans {a b c : Str} (h1 : strLe a b) (h2 : strLe b c) : strLe a c := List.le_trans h1 h2

theorem strLe_total (a b : Str) : strLe a b ∨ strLe b a := List.le_total _ _

/-- To put one value before its equals and another one behind its equals is the same in either order. -/
theorem insertBy_insertLast (path : List Str) (le : Value → Value → Bool)
    (hle : ∀ a b, le a b = true ↔ strLe (keyOf path a) (keyOf path b)) (y x : Value) : ∀ l : List Value,
    insertBy path y (insertLast le x l) = insertLast le x (insertBy path y l)
  | [] => by
    simp only [insertLast, insertBy, hle]
  | w :: ws => by
    have ih := insertBy_insertLast path le hle y x ws
    by_cases h1 : strLe (keyOf path w) (keyOf path x)
    · rw [insertLast, if_pos ((hle _ _).2 h1)]
      by_cases h2 : strLe (keyOf path y) (keyOf path w)
      · rw [insertBy, if_pos h2, insertBy, if_pos h2, insertLast, if_pos ((hle _ _).2 (strLe_trans h2 h1)), insertLast,
          if_pos ((hle _ _).2 h1)]
      · rw [insertBy, if_neg h2, insertBy, if_neg h2, insertLast, if_pos ((hle _ _).2 h1), ih]
    · rw [insertLast, if_neg (fun k => h1 ((hle _ _).1 k))]
      have hxw := (strLe_total (keyOf path w) (keyOf path x)).resolve_left h1
      by_cases h2 : strLe (keyOf path y) (keyOf path x)
      · rw [insertBy, if_pos h2, insertBy, if_pos (strLe_trans h2 hxw), insertLast, if_pos ((hle _ _).2 h2), insertLast,
          if_neg (fun k => h1 ((hle _ _).1 k))]
      · rw [insertBy, if_neg h2]
        by_cases h3 : strLe (keyOf path y) (keyOf path w)
        · rw [insertBy, if_pos h3, insertLast, if_neg (fun k => h2 ((hle _ _).1 k))]
        · rw [insertBy, if_neg h3, insertLast, if_neg (fun k => h1 ((hle _ _).1 k))]

theorem sortBy_snoc (path : List Str) (le : Value → Value → Bool)
    (hle : ∀ a b, le a b = true ↔ strLe (keyOf path a) (keyOf path b)) (x : Value) : ∀ l : List Value,
    sortBy path (l ++ [x]) = insertLast le x (sortBy path l)
  | [] => rfl
  | y :: l => by
    rw [List.cons_append, sortBy, sortBy_snoc path le hle x l, insertBy_insertLast path le hle, sortBy]

theorem stableSort_sortBy (path : List Str) (le : Value → Value → Bool)
    (hle : ∀ a b, le a b = true ↔ strLe (keyOf path a) (keyOf path b)) (l : List Value) : stableSort le l = sortBy path l := by
  have key : ∀ (l done : List Value), l.foldl (fun acc v => insertLast le v acc) (sortBy path done) = sortBy path (done ++ l) := by
    intro l
    induction l with
    | nil => intro done; rw [List.append_nil]; rfl
    | cons x xs ih =>
      intro done
      rw [List.foldl_cons, ← sortBy_snoc path le hle, ih, List.append_assoc]
      rfl
  exact key l []

theorem sortItems_sortBy (k : Str) (l : List Value) :
    sortItems (some k) l = sortBy ((splitOn '.' k).drop 1) l := by
  unfold sortItems
  apply stableSort_sortBy
  intro a b
  rw [bytesLe_iff, sortKey_keyOf, sortKey_keyOf]
  rfl

theorem arrange_visited (f : ForFn) (l : List Value) :
    arrange f l = visited (f.sortVar.map fun k => (splitOn '.' k).drop 1) f.desc f.skip f.limit l := by
  unfold arrange visited
  cases hk : f.sortVar with
  | none => cases f.skip <;> cases f.limit <;> rfl
  | some k => simp only [sortItems_sortBy]; cases f.skip <;> cases f.limit <;> rfl

end Stuart
