import Verif.Proof.Merge
/-
Properties C38 and C39: merging static files into the built site.
-/
namespace Stuart
open Spec

variable (n s n' s' : Str) (cs os : List Node)

/-! ### C38 -/

/-- C38. After a successful merge the tree has exactly what either tree had: every file at its path with its contents
(and all else about it), every directory, nothing more. -/
theorem C38_union (h : (mergeNode (.dir n cs s) (.dir n' os s')).2 = .ok ()) :
    ∃ ms, (mergeNode (.dir n cs s) (.dir n' os s')).1 = .dir n ms s ∧
      ∀ ds nm t, Shows ms ds nm t ↔ Shows cs ds nm t ∨ Shows os ds nm t := by
  rw [mergeNode] at h ⊢
  exact ⟨_, rfl, mergeAll_union cs os h⟩

/-- C38. Trees without repeated names merge successfully exactly when no two of their nodes at the same path fail to be
both directories, and the result has no repeated names either. -/
theorem C38_succeeds (hc : Distinct cs) (ho : Distinct os) :
    ((mergeNode (.dir n cs s) (.dir n' os s')).2 = .ok () ↔ ∀ ds x y, ¬ Conflict cs os ds x y) ∧
    ∀ ms, mergeNode (.dir n cs s) (.dir n' os s') = (.dir n ms s, .ok ()) → Distinct ms := by
  rw [mergeNode]
  obtain ⟨h1, h2⟩ := mergeAll_tells cs os hc ho
  constructor
  · constructor
    · intro h
      simp only at h
      rw [h] at h1; exact h1
    · intro h
      revert h1
      cases (mergeAll cs os).2 with
      | ok u => exact fun _ => rfl
      | err e => rintro ⟨ds, x, y, k, _⟩; exact absurd k (h _ _ _)
      | panic p => exact fun h => h.elim
  · intro ms h
    simp only [Prod.mk.injEq, Node.dir.injEq, true_and, and_true] at h
    rw [← h.1]; exact h2 h.2

/-- Two trees, one file in each and one common directory. -/
example : (mergeNode (.dir str!"out" [.dir str!"css" [.file str!"a" [1] .none none []] []] [])
    (.dir str!"static" [.dir str!"css" [.file str!"b" [2] .ignored none []] []] [])) =
    (.dir str!"out" [.dir str!"css" [.file str!"a" [1] .none none [], .file str!"b" [2] .ignored none []] []] [], .ok ()) := rfl

example : Distinct [.dir str!"css" [.file str!"a" [1] .none none []] []] := by
  rw [Distinct_iff]
  refine ⟨by decide, ?_⟩
  intro d cs' src h
  cases List.mem_singleton.1 h
  rw [Distinct_iff]
  exact ⟨by decide, fun d cs' src h => by cases List.mem_singleton.1 h⟩

/-! ### C39 -/

/-- C39. A merge that fails reports a conflict with the sources of two nodes, one from each tree, at the same path and
not both directories. There is no other way for it to fail. -/
theorem C39_conflict (ho : Distinct os) (r : Res SErr Unit) (h : (mergeNode (.dir n cs s) (.dir n' os s')).2 = r)
    (hr : r ≠ .ok ()) :
    ∃ ds x y, Holds cs ds x ∧ Holds os ds y ∧ x.name = y.name ∧ ¬ (x.isDir = true ∧ y.isDir = true) ∧
      r = .err (.fs (.conflict x.source y.source)) := by
  rw [mergeNode] at h
  cases r with
  | ok u => exact absurd rfl hr
  | panic p => exact absurd h (mergeAll_panic cs os p)
  | err e =>
    obtain ⟨ds, x, y, k, rfl⟩ := mergeAll_err cs os ho e h
    exact ⟨ds, x, y, k.left, k.right, k.name, k.notDirs, rfl⟩

example : (mergeNode (.dir str!"out" [.file str!"a" [] .none none str!"content/a"] [])
    (.dir str!"static" [.dir str!"a" [] str!"static/a"] [])).2 =
    .err (.fs (.conflict str!"content/a" str!"static/a")) := rfl

/-- C39. A merge that fails loses nothing of the tree that is merged into, and all that it adds is from the other. -/
theorem C39_keeps : ∃ ms, (mergeNode (.dir n cs s) (.dir n' os s')).1 = .dir n ms s ∧
    ∀ ds nm t, (Shows cs ds nm t → Shows ms ds nm t) ∧ (Shows ms ds nm t → Shows cs ds nm t ∨ Shows os ds nm t) := by
  rw [mergeNode]
  exact ⟨_, rfl, mergeAll_keeps cs os⟩

/-- Here the conflict is one level down. -/
example : ∃ e, mergeNode (.dir str!"out" [.file str!"z" [] .none none [], .dir str!"d" [.file str!"b" [] .none none []] []] [])
      (.dir str!"static" [.dir str!"d" [.file str!"a" [] .none none [], .dir str!"b" [] []] []] []) =
    (.dir str!"out" [.file str!"z" [] .none none [], .dir str!"d" [.file str!"b" [] .none none [], .file str!"a" [] .none none []] []] [],
      .err e) := ⟨_, rfl⟩

/-- The tree a failed merge leaves behind is neither of the two: what came before the conflict has been merged. -/
theorem C39_leaves_partial_merge :
    mergeNode (.dir str!"out" [.file str!"b" [] .none none str!"content/b"] [])
      (.dir str!"static" [.file str!"a" [] .ignored none str!"static/a", .file str!"b" [] .ignored none str!"static/b"] []) =
    (.dir str!"out" [.file str!"b" [] .none none str!"content/b", .file str!"a" [] .ignored none str!"static/a"] [],
      .err (.fs (.conflict str!"content/b" str!"static/b"))) := rfl

/-! ### Cases: each theorem applied to something that meets its hypotheses -/

theorem distinct_one (n s : Str) (b : Bytes) : Distinct [.dir n [.file s b .none none []] []] := by
  refine ⟨by simp, ?_⟩
  intro ds d l src h
  cases h with
  | here h => simp only [List.mem_singleton] at h; cases h; simp
  | down h k =>
    simp only [List.mem_singleton] at h
    cases h
    cases k with
    | here k => simp at k
    | down k _ => simp at k

example := C38_union [] [] [] [] [.dir str!"css" [.file str!"a" [1] .none none []] []]
  [.dir str!"css" [.file str!"b" [2] .none none []] []] rfl

example := C38_succeeds [] [] [] [] _ _ (distinct_one str!"css" str!"a" [1]) (distinct_one str!"css" str!"b" [2])

example := C39_conflict [] [] [] [] [.dir str!"css" [.file str!"a" [1] .none none []] []]
  [.dir str!"css" [.file str!"a" [2] .none none []] []] (distinct_one _ _ _) _ rfl (by intro h; cases h)

end Stuart
