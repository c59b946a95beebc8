import Verif.Spec.Tree
import Verif.Proof.Scope
/-
Path resolution against `Spec.Reaches`.
-/
namespace Stuart
open Spec

theorem splitOn_slashed : ∀ (ps : List Str) (p : Str), Slashless p ps → splitOn '/' (slashed p ps) = p :: ps
  | [], p, h => by simp only [slashed, List.flatMap_nil, List.append_nil]; exact splitOn_nodot _ _ h.1
  | q :: qs, p, h => by
    have : slashed p (q :: qs) = p ++ '/' :: slashed q qs := by simp [slashed]
    rw [this, splitOn_cons_sep _ _ _ h.1, splitOn_slashed qs q ⟨h.2 q (by simp), fun r hr => h.2 r (by simp [hr])⟩]

theorem exists_slashed (s : Str) : ∃ p ps, Slashless p ps ∧ s = slashed p ps := by
  induction s with
  | nil => exact ⟨[], [], ⟨by simp, by simp⟩, rfl⟩
  | cons c cs ih =>
    obtain ⟨p, ps, h, rfl⟩ := ih
    by_cases hc : c = '/'
    · subst hc
      refine ⟨[], p :: ps, ⟨by simp, ?_⟩, by simp [slashed]⟩
      intro q hq
      rcases List.mem_cons.1 hq with rfl | hq
      · exact h.1
      · exact h.2 q hq
    · refine ⟨c :: p, ps, ⟨?_, h.2⟩, by simp [slashed]⟩
      simp only [List.mem_cons, not_or]
      exact ⟨Ne.symm hc, h.1⟩

theorem restComps_names : ∀ ps : List Str, str!".." ∉ ps → restComps ps = (namesIn ps).map Comp.normal
  | [], _ => rfl
  | p :: ps, h => by
    have hp : p ≠ str!".." := fun he => h (by simp [he])
    have ih := restComps_names ps fun he => h (List.mem_cons_of_mem _ he)
    unfold restComps namesIn
    by_cases h1 : p = []
    · rw [if_pos h1, ih]; simp [h1, namesIn]
    · rw [if_neg h1]
      by_cases h2 : p = ['.']
      · rw [if_pos h2, ih]; simp [h2, namesIn]
      · rw [if_neg h2, if_neg hp, ih]; simp [h1, h2, namesIn]

theorem restComps_parent : ∀ ps : List Str, str!".." ∈ ps → Comp.parentDir ∈ restComps ps
  | p :: ps, h => by
    unfold restComps
    rcases List.mem_cons.1 h with h | h
    · subst h; simp
    · have ih := restComps_parent ps h
      split
      · exact ih
      · split
        · exact ih
        · split
          · exact List.mem_cons_of_mem _ ih
          · exact List.mem_cons_of_mem _ ih

theorem getComps_root : ∀ (cs : List Comp) (n : Node), (Comp.rootDir ∈ cs ∨ Comp.parentDir ∈ cs) → getComps n cs = none
  | [], _, h => by simp at h
  | c :: cs, n, h => by
    cases c with
    | rootDir => rfl
    | parentDir => rfl
    | curDir =>
      have : Comp.rootDir ∈ cs ∨ Comp.parentDir ∈ cs := by simpa using h
      exact getComps_root cs n this
    | normal s =>
      have : Comp.rootDir ∈ cs ∨ Comp.parentDir ∈ cs := by simpa using h
      unfold getComps
      split
      · exact getComps_root cs _ this
      · rfl

theorem find_split (nm : Str) : ∀ (l : List Node) (c : Node), l.find? (fun m => m.name == nm) = some c ↔
    ∃ before after, l = before ++ c :: after ∧ c.name = nm ∧ ∀ b ∈ before, b.name ≠ nm := by
  intro l c
  rw [List.find?_eq_some_iff_append]
  constructor
  · rintro ⟨h1, as, bs, h2, h3⟩
    exact ⟨as, bs, h2, eq_of_beq h1, fun b hb he => by have := h3 b hb; simp [he] at this⟩
  · rintro ⟨as, bs, h2, h1, h3⟩
    exact ⟨by simp [h1], as, bs, h2, fun b hb => by simp [h3 b hb]⟩

theorem getComps_reaches : ∀ (names : List Str) (n m : Node),
    getComps n (names.map Comp.normal) = some m ↔ Reaches n names m
  | [], n, m => by
    simp only [List.map_nil, getComps, Option.some.injEq]
    constructor
    · rintro rfl; exact .here _
    · intro h; cases h; rfl
  | nm :: names, n, m => by
    rw [List.map_cons, getComps]
    cases n with
    | file a b c d e =>
      simp only [Node.children, Option.bind_none]
      constructor
      · intro h; cases h
      · intro h; cases h
    | dir d cs src =>
      simp only [Node.children, Option.bind_some]
      constructor
      · intro h
        split at h
        · rename_i c hc
          obtain ⟨as, bs, rfl, h1, h2⟩ := (find_split nm cs c).1 hc
          exact .down d src nm as bs c m names h1 h2 ((getComps_reaches names c m).1 h)
        · cases h
      · intro h
        cases h with
        | down _ _ _ as bs c _ _ h1 h2 h3 =>
          rw [(find_split nm _ c).2 ⟨as, bs, rfl, h1, h2⟩]
          exact (getComps_reaches names c m).2 h3

theorem components_slashed (p : Str) (ps : List Str) (h : Slashless p ps) :
    (Escapes p ps → Comp.rootDir ∈ components (slashed p ps) ∨ Comp.parentDir ∈ components (slashed p ps)) ∧
    (¬ Escapes p ps → ∀ n, getComps n (components (slashed p ps)) = getComps n ((namesIn (p :: ps)).map Comp.normal)) := by
  unfold components
  rw [splitOn_slashed ps p h]
  have hcur : ∀ qs n, str!".." ∉ qs → getComps n (.curDir :: restComps qs) = getComps n ((namesIn qs).map Comp.normal) := by
    intro qs n hq
    rw [getComps, restComps_names qs hq]
  cases ps with
  | nil =>
    simp only
    split
    · rename_i hp
      subst hp
      constructor
      · rintro (⟨h, _⟩ | h)
        · cases h
        · simp at h
      · intro _ n; rfl
    · rename_i hp
      constructor
      · rintro (⟨_, h⟩ | h)
        · exact absurd rfl h
        · exact .inr (restComps_parent _ h)
      · intro he n
        rw [restComps_names]
        exact fun hh => he (.inr hh)
  | cons q qs =>
    simp only
    split
    · rename_i hp
      exact ⟨fun _ => .inl (by simp), fun he => absurd (.inl ⟨hp, by simp⟩) he⟩
    · rename_i hp
      split
      · rename_i hd
        subst hd
        constructor
        · rintro (⟨h, _⟩ | h)
          · cases h
          · right
            have : str!".." ∈ q :: qs := by
              rcases List.mem_cons.1 h with h | h
              · cases h
              · exact h
            exact List.mem_cons_of_mem _ (restComps_parent _ this)
        · intro he n
          rw [hcur _ _ fun hh => he (.inr (List.mem_cons_of_mem _ hh))]
          congr 2
      · constructor
        · rintro (⟨h, _⟩ | h)
          · exact absurd h hp
          · exact .inr (restComps_parent _ h)
        · intro he n
          rw [restComps_names]
          exact fun hh => he (.inr hh)

/-- Path resolution is `Reaches`. -/
theorem getAtPath_reaches (tree m : Node) (p : Str) (ps : List Str) (h : Slashless p ps) :
    tree.getAtPath (slashed p ps) = some m ↔ ¬ Escapes p ps ∧ Reaches tree (namesIn (p :: ps)) m := by
  have hc := components_slashed p ps h
  unfold Node.getAtPath
  by_cases he : Escapes p ps
  · rw [getComps_root _ _ (hc.1 he)]
    simp [he]
  · rw [hc.2 he, getComps_reaches]
    simp [he]

theorem reached_reaches : ∀ (names : List Str) (n m : Node), reached n names = some m ↔ Reaches n names m
  | [], n, m => by
    simp only [reached, Option.some.injEq]
    constructor
    · rintro rfl; exact .here _
    · intro h; cases h; rfl
  | nm :: names, n, m => by
    cases n with
    | file a b c d e =>
      simp only [reached]
      constructor
      · intro h; cases h
      · intro h; cases h
    | dir d cs src =>
      have hf : (fun c : Node => decide (c.name = nm)) = fun c => c.name == nm := by
        funext c; rw [Bool.eq_iff_iff]; simp
      simp only [reached, Option.bind_eq_some_iff, hf]
      constructor
      · rintro ⟨c, hc, h⟩
        obtain ⟨as, bs, rfl, h1, h2⟩ := (find_split nm cs c).1 hc
        exact .down d src nm as bs c m names h1 h2 ((reached_reaches names c m).1 h)
      · intro h
        cases h with
        | down _ _ _ as bs c _ _ h1 h2 h3 =>
          exact ⟨c, (find_split nm _ c).2 ⟨as, bs, rfl, h1, h2⟩, (reached_reaches names c m).2 h3⟩

/-- Path resolution is `written`. -/
theorem written_getAtPath (tree : Node) (path : Str) : written tree path = tree.getAtPath path := by
  obtain ⟨p, ps, h, rfl⟩ := exists_slashed path
  refine Option.ext fun m => ?_
  rw [getAtPath_reaches tree m p ps h]
  unfold written
  rw [splitOn_slashed ps p h]
  have he : (((p :: ps).head? = some [] ∧ (p :: ps).length ≠ 1) ∨ str!".." ∈ p :: ps) ↔ Escapes p ps := by
    unfold Escapes
    cases ps <;> simp
  by_cases hs : Escapes p ps
  · have h := he.2 hs
    simp only [if_pos h, hs, not_true_eq_false, false_and]
    exact ⟨nofun, False.elim⟩
  · have h : ¬ _ := fun h => hs (he.1 h)
    simp only [if_neg h, hs, not_false_eq_true, true_and]
    exact reached_reaches _ _ _

end Stuart
