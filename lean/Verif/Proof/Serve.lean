import Verif.Model.Serve
/-
Lemmas on the development server.
-/
namespace Stuart

/-! ### Finding a window -/

theorem findWindow_none {pat b : Bytes} (hp : pat ≠ []) (h : ∀ pre post, b ≠ pre ++ pat ++ post) :
    findWindow pat b = none := by
  induction b with
  | nil => rw [findWindow, if_neg hp]
  | cons x l ih =>
    rw [findWindow, if_neg, ih]
    · rfl
    · intro pre post e
      exact h (x :: pre) post (by rw [e]; rfl)
    · intro k
      obtain ⟨t, ht⟩ := List.isPrefixOf_iff_prefix.1 k
      exact h [] t ht.symm

theorem findWindow_some {pat pre post : Bytes} (hp : pat ≠ [])
    (h : ∀ pre' post', pre ++ pat ++ post = pre' ++ pat ++ post' → pre.length ≤ pre'.length) :
    findWindow pat (pre ++ pat ++ post) = some pre.length := by
  induction pre with
  | nil =>
    cases pat with
    | nil => exact absurd rfl hp
    | cons x l =>
      simp only [List.nil_append, List.cons_append]
      rw [findWindow, if_pos]
      · rfl
      · exact List.isPrefixOf_iff_prefix.2 ⟨post, rfl⟩
  | cons x pre ih =>
    simp only [List.cons_append]
    rw [findWindow, if_neg, ih]
    · rfl
    · intro pre' post' e
      have := h (x :: pre') post' (by simp only [List.cons_append]; rw [e])
      simpa using this
    · intro k
      obtain ⟨t, ht⟩ := List.isPrefixOf_iff_prefix.1 k
      have := h [] t (by simpa using ht.symm)
      simp at this

/-- Either there is no occurrence, or there is a first one. -/
theorem first_occurrence (pat b : Bytes) :
    (∀ pre post, b ≠ pre ++ pat ++ post) ∨
    ∃ pre post, b = pre ++ pat ++ post ∧ ∀ pre' post', b = pre' ++ pat ++ post' → pre.length ≤ pre'.length := by
  induction b with
  | nil =>
    by_cases h : pat = []
    · right; subst h
      exact ⟨[], [], rfl, fun _ _ _ => Nat.zero_le _⟩
    · left
      intro pre post e
      have := congrArg List.length e
      simp only [List.length_nil, List.length_append] at this
      exact h (List.length_eq_zero_iff.1 (by omega))
  | cons x l ih =>
    by_cases h : pat <+: x :: l
    · right
      obtain ⟨t, ht⟩ := h
      exact ⟨[], t, ht.symm, fun _ _ _ => Nat.zero_le _⟩
    · rcases ih with ih | ⟨pre, post, e, hm⟩
      · left
        intro pre post e
        cases pre with
        | nil => exact h ⟨post, e.symm⟩
        | cons y pre =>
          simp only [List.cons_append, List.cons.injEq] at e
          exact ih pre post e.2
      · right
        refine ⟨x :: pre, post, by rw [e]; rfl, ?_⟩
        intro pre' post' e'
        cases pre' with
        | nil => exact absurd ⟨post', e'.symm⟩ h
        | cons y pre' =>
          simp only [List.cons_append, List.cons.injEq] at e'
          have := hm pre' post' e'.2
          simpa using this

/-! ### Notifying -/

theorem swapRemove_here {α : Type} (pre : List α) (x : α) (t : List α) :
    ∃ t', swapRemove (pre ++ x :: t) pre.length = pre ++ t' ∧ t'.Perm t := by
  rcases List.eq_nil_or_concat t with rfl | ⟨t0, y, rfl⟩
  · refine ⟨[], ?_, .refl _⟩
    simp [swapRemove]
  · refine ⟨y :: t0, ?_, ?_⟩
    · have hl : (pre ++ x :: t0.concat y).getLast? = some y := by
        rw [List.concat_eq_append, ← List.cons_append, ← List.append_assoc, List.getLast?_append]
        simp
      simp only [swapRemove, hl]
      rw [List.set_append_right _ _ (Nat.le_refl _), Nat.sub_self, List.set_cons_zero, List.concat_eq_append,
        ← List.cons_append, ← List.append_assoc, List.dropLast_concat]
    · rw [List.concat_eq_append]
      exact (List.perm_append_comm (l₁ := [y]) (l₂ := t0))

theorem notifyAll_spec {α : Type} (send : α → α × Bool) (l : List α) (pre : List α) :
    ∃ t, (notifyAll send pre.length l).2.reverse.foldl swapRemove (pre ++ (notifyAll send pre.length l).1) = pre ++ t ∧
      t.Perm (((l.map send).filter fun r => r.2).map fun r => r.1) := by
  induction l generalizing pre with
  | nil => exact ⟨[], by simp [notifyAll], .refl _⟩
  | cons x l ih =>
    obtain ⟨t, h1, h2⟩ := ih (pre ++ [(send x).1])
    simp only [List.length_append, List.length_cons, List.length_nil, Nat.zero_add, List.append_assoc,
      List.cons_append, List.nil_append] at h1
    rw [notifyAll]
    simp only
    cases hs : (send x).2 with
    | true =>
      refine ⟨(send x).1 :: t, by simpa using h1, ?_⟩
      simp only [List.map_cons, List.filter_cons, hs, if_true]
      exact h2.cons _
    | false =>
      simp only [Bool.false_eq_true, if_false, List.reverse_cons, List.foldl_append, List.foldl_cons, List.foldl_nil, h1]
      obtain ⟨t', k1, k2⟩ := swapRemove_here pre (send x).1 t
      refine ⟨t', k1, ?_⟩
      simp only [List.map_cons, List.filter_cons, hs, Bool.false_eq_true, if_false]
      exact k2.trans h2

end Stuart
