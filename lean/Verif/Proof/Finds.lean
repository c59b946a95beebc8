import Verif.Spec.Finds
import Verif.Proof.Content
import Verif.Proof.Block
/-
Lemmas on what loops and imports find.
-/
namespace Stuart
open Spec

theorem written_aims (tree : Node) {path : Str} {names : List Str} (h : Aims path names) : written tree path = reached tree names := by
  obtain ⟨q, qs, h1, rfl, h2, rfl⟩ := h
  have e : ∀ n, written tree (slashed q qs) = some n ↔ reached tree (namesIn (q :: qs)) = some n := by
    intro n
    rw [written_getAtPath, getAtPath_reaches _ _ _ _ h1, reached_reaches]
    exact ⟨fun h => h.2, fun h => ⟨h2, h⟩⟩
  cases h3 : reached tree (namesIn (q :: qs)) with
  | some n => exact (e n).2 h3
  | none =>
    cases h4 : written tree (slashed q qs) with
    | none => rfl
    | some n => rw [(e n).1 h4] at h3; cases h3

theorem written_astray (tree : Node) {path : Str} (h : ∀ names, ¬ Aims path names) : written tree path = none := by
  obtain ⟨q, qs, h1, rfl⟩ := exists_slashed path
  cases h4 : written tree (slashed q qs) with
  | none => rfl
  | some n =>
    rw [written_getAtPath, getAtPath_reaches _ _ _ _ h1] at h4
    exact absurd ⟨q, qs, h1, rfl, h4.1, rfl⟩ (h _)

section
variable {reads : Str → Str → Bytes → Parsed → Prop}

/-- What an entry at a place is read as. -/
inductive ReadTo (reads : Str → Str → Bytes → Parsed → Prop) (q : Path) : Entry → Node → Prop
  | file {b : Bytes} {nm : Str} {c : Parsed} : q.getLast? = some nm → reads nm (pathStr q) b c →
      ReadTo reads q (.file b) (.file nm b c none (pathStr q))
  | dir {l : List (Str × Entry)} {nm src : Str} {cs : List Node} : ReadList reads q l cs → ReadTo reads q (.dir l) (.dir nm cs src)

theorem readNode_to {p : Path} {nm : Str} {e : Entry} {n : Node} (h : ReadNode reads p nm e n) :
    n.name = nm ∧ ReadTo reads (p ++ [nm]) e n := by
  cases h with
  | file h => exact ⟨rfl, .file (by simp) h⟩
  | dir h => exact ⟨rfl, .dir h⟩

theorem readList_find {p : Path} (nm : Str) : ∀ {l : List (Str × Entry)} {cs : List Node}, ReadList reads p l cs →
    (findEntry nm l = none → cs.find? (fun c => c.name = nm) = none) ∧
    ∀ e, findEntry nm l = some e → ∃ n, cs.find? (fun c => c.name = nm) = some n ∧ ReadTo reads (p ++ [nm]) e n
  | _, _, .nil => ⟨fun _ => rfl, nofun⟩
  | _, _, .cons (nm := m) (e := e0) h hs => by
    obtain ⟨h1, h2⟩ := readNode_to h
    have ih := readList_find nm hs
    rw [findEntry, List.find?_cons, h1]
    by_cases hm : m = nm
    · subst hm
      simp only [if_true, decide_true]
      exact ⟨nofun, fun e k => by cases k; exact ⟨_, rfl, h2⟩⟩
    · simp only [hm, if_false, decide_false]
      exact ih

theorem read_reached : ∀ (names : List Str) {q : Path} {e : Entry} {n : Node}, ReadTo reads q e n →
    (e.at names = none → reached n names = none) ∧
    ∀ e', e.at names = some e' → ∃ n', reached n names = some n' ∧ ReadTo reads (q ++ names) e' n'
  | [], q, e, n, h => ⟨nofun, fun e' k => by cases k; exact ⟨n, by cases n <;> rfl, by simpa using h⟩⟩
  | nm :: names, q, e, n, h => by
    cases h with
    | file h => exact ⟨fun _ => rfl, nofun⟩
    | dir h =>
      obtain ⟨h1, h2⟩ := readList_find nm h
      rw [Entry.at, reached]
      cases hf : findEntry nm _ with
      | none =>
        simp only [h1 hf, Option.bind_none]
        exact ⟨fun _ => trivial, nofun⟩
      | some e1 =>
        obtain ⟨n1, k1, k2⟩ := h2 e1 hf
        simp only [k1, Option.bind_some]
        have := read_reached names k2
        simpa using this
end

section
variable {ext : Ext} {cx : Ctx} {base : Frame}

theorem usedAs_name {n t : Node} (h : UsedAs ext cx base n t) : t.name = n.name := by cases h <;> rfl

theorem usedList_find (nm : Str) : ∀ {cs ts : List Node}, UsedList ext cx base cs ts →
    (cs.find? (fun c => c.name = nm) = none → ts.find? (fun c => c.name = nm) = none) ∧
    ∀ n, cs.find? (fun c => c.name = nm) = some n → ∃ t, ts.find? (fun c => c.name = nm) = some t ∧ UsedAs ext cx base n t
  | _, _, .nil => ⟨fun _ => rfl, nofun⟩
  | _, _, .cons (c := c) h hs => by
    have ih := usedList_find nm hs
    rw [List.find?_cons, List.find?_cons, usedAs_name h]
    by_cases hm : c.name = nm
    · simp only [hm, decide_true]
      exact ⟨nofun, fun n k => by cases k; exact ⟨_, rfl, h⟩⟩
    · simp only [hm, decide_false]
      exact ih

theorem used_reached : ∀ (names : List Str) {n t : Node}, UsedAs ext cx base n t →
    (reached n names = none → reached t names = none) ∧
    ∀ n', reached n names = some n' → ∃ t', reached t names = some t' ∧ UsedAs ext cx base n' t'
  | [], n, t, h => by
    have e : ∀ m : Node, reached m [] = some m := fun m => by cases m <;> rfl
    rw [e, e]
    exact ⟨nofun, fun n' k => by cases k; exact ⟨t, rfl, h⟩⟩
  | nm :: names, n, t, h => by
    cases h with
    | file h => exact ⟨fun _ => rfl, nofun⟩
    | dir h =>
      obtain ⟨h1, h2⟩ := usedList_find nm h
      rw [reached, reached]
      cases hf : List.find? _ _ with
      | none =>
        simp only [h1 hf, Option.bind_none]
        exact ⟨fun _ => trivial, nofun⟩
      | some n1 =>
        obtain ⟨t1, k1, k2⟩ := h2 n1 hf
        simp only [k1, Option.bind_some]
        exact used_reached names k2
end

end Stuart
