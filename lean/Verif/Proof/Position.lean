import Verif.Proof.Data
/-
Facts about positions.
-/
namespace Stuart
open Spec

theorem nodeAt_append : ∀ (a b : List Nat) (n : Node), nodeAt n (a ++ b) = (nodeAt n a).bind fun m => nodeAt m b := by
  intro a
  induction a with
  | nil => intro b n; simp [nodeAt]
  | cons i is ih =>
    intro b n
    cases n with
    | file => simp [nodeAt]
    | dir d cs s =>
      rw [List.cons_append, nodeAt, nodeAt]
      cases cs[i]? with
      | none => rfl
      | some c => exact ih b c

/-- What a path names is at some position. -/
theorem getComps_pos : ∀ (cs : List Comp) {n m : Node}, getComps n cs = some m → ∃ pos, nodeAt n pos = some m := by
  intro cs
  induction cs with
  | nil => intro n m h; cases h; exact ⟨[], by simp [nodeAt]⟩
  | cons c cs ih =>
    intro n m h
    cases c with
    | rootDir => cases h
    | parentDir => cases h
    | curDir => exact ih h
    | normal s =>
      simp only [getComps] at h
      cases n with
      | file => cases h
      | dir d ch src =>
        simp only [Node.children, Option.bind_some] at h
        cases hf : ch.find? fun m => m.name == s with
        | none => rw [hf] at h; cases h
        | some c =>
          rw [hf] at h
          obtain ⟨pos, hp⟩ := ih h
          obtain ⟨i, hi⟩ := List.mem_iff_getElem?.1 (List.mem_of_find?_eq_some hf)
          exact ⟨i :: pos, by simp [nodeAt, hi, hp]⟩

theorem child_pos {n : Node} {pos : List Nat} {d : Str} {cs : List Node} {s : Str} {c : Node}
    (h : nodeAt n pos = some (.dir d cs s)) (hc : c ∈ cs) : ∃ pos', nodeAt n pos' = some c := by
  obtain ⟨i, hi⟩ := List.mem_iff_getElem?.1 hc
  exact ⟨pos ++ [i], by rw [nodeAt_append, h]; simp [nodeAt, hi]⟩

theorem around_pos : ∀ (pos : List Nat) {n : Node} {cs : List Node} {c : Node}, cs ∈ around n pos → c ∈ cs →
    ∃ pos', nodeAt n pos' = some c := by
  intro pos
  induction pos with
  | nil => intro n cs c h; cases n <;> simp [around] at h
  | cons i is ih =>
    intro n cs c h hc
    cases n with
    | file => simp [around] at h
    | dir d ch src =>
      simp only [around] at h
      cases hi : ch[i]? with
      | none => rw [hi] at h; simp at h
      | some m =>
        rw [hi] at h
        rcases List.mem_append.1 h with h | h
        · obtain ⟨pos', hp⟩ := ih h hc
          exact ⟨i :: pos', by simp [nodeAt, hi, hp]⟩
        · simp only [List.mem_singleton] at h
          subst h
          obtain ⟨j, hj⟩ := List.mem_iff_getElem?.1 hc
          exact ⟨[j], by simp [nodeAt, hj]⟩

theorem nearest_mem {nm : Str} : ∀ {l : List (List Node)} {c : Node}, nearest nm l = some c → ∃ cs ∈ l, c ∈ cs := by
  intro l
  induction l with
  | nil => intro c h; cases h
  | cons d ds ih =>
    intro c h
    rw [nearest] at h
    split at h
    · rename_i x hx
      cases h
      exact ⟨d, by simp, by simpa using List.mem_of_find?_eq_some hx⟩
    · obtain ⟨cs, h1, h2⟩ := ih h
      exact ⟨cs, by simp [h1], h2⟩

/-- A template is a file of the tree. -/
theorem template_pos {nm : Str} {n : Node} {pos : List Nat} {toks : List LTok} (h : template nm n pos = some toks) :
    ∃ pos' name c m src, nodeAt n pos' = some (.file name c (.html toks) m src) := by
  unfold template at h
  cases hn : nearest nm (around n pos) with
  | none => rw [hn] at h; cases h
  | some c =>
    rw [hn] at h
    obtain ⟨cs, h1, h2⟩ := nearest_mem hn
    obtain ⟨pos', h3⟩ := around_pos pos h1 h2
    cases c with
    | dir => cases h
    | file name b p m src =>
      cases p with
      | html t => cases h; exact ⟨pos', name, b, m, src, h3⟩
      | _ => cases h

mutual
theorem mem_files : ∀ (n : Node) (pos : List Nat),
    pos ∈ files n ↔ ∃ name c p m src, nodeAt n pos = some (.file name c p m src)
  | .file name c p m src, pos => by
    cases pos with
    | nil => simp [files, nodeAt]
    | cons => simp [files, nodeAt]
  | .dir d cs s, pos => by
    rw [files, mem_filesFrom cs 0 pos]
    cases pos with
    | nil => simp [nodeAt]
    | cons i is =>
      simp only [List.cons.injEq, Nat.zero_add, nodeAt]
      constructor
      · rintro ⟨j, js, c, ⟨rfl, rfl⟩, h1, h2⟩
        rw [h1]; exact h2
      · intro h
        cases hc : cs[i]? with
        | none => rw [hc] at h; simp at h
        | some c => rw [hc] at h; exact ⟨i, is, c, ⟨rfl, rfl⟩, hc, h⟩
theorem mem_filesFrom : ∀ (cs : List Node) (k : Nat) (pos : List Nat), pos ∈ filesFrom k cs ↔
    ∃ i is c, pos = (k + i) :: is ∧ cs[i]? = some c ∧ ∃ name b p m src, nodeAt c is = some (.file name b p m src)
  | [], k, pos => by simp [filesFrom]
  | c :: cs, k, pos => by
    rw [filesFrom, List.mem_append, mem_filesFrom cs (k + 1) pos, List.mem_map]
    constructor
    · rintro (⟨is, h1, rfl⟩ | ⟨i, is, c', rfl, h1, h2⟩)
      · exact ⟨0, is, c, rfl, rfl, (mem_files c is).1 h1⟩
      · exact ⟨i + 1, is, c', by congr 1; omega, by simpa using h1, h2⟩
    · rintro ⟨i, is, c', rfl, h1, h2⟩
      cases i with
      | zero =>
        simp only [List.getElem?_cons_zero, Option.some.injEq] at h1
        subst h1
        exact .inl ⟨is, (mem_files c is).2 h2, rfl⟩
      | succ i => exact .inr ⟨i, is, c', by congr 1; omega, by simpa using h1, h2⟩
end

mutual
/-- `files` lists them in the order of the positions. -/
theorem files_sorted : ∀ (n : Node), (files n).Pairwise (· < ·)
  | .file .. => by simp [files]
  | .dir d cs s => by rw [files]; exact filesFrom_sorted cs 0
theorem filesFrom_sorted : ∀ (cs : List Node) (k : Nat), (filesFrom k cs).Pairwise (· < ·)
  | [], k => by simp [filesFrom]
  | c :: cs, k => by
    rw [filesFrom, List.pairwise_append]
    refine ⟨?_, filesFrom_sorted cs (k + 1), ?_⟩
    · rw [List.pairwise_map]
      refine (files_sorted c).imp ?_
      intro a b h
      exact List.Lex.cons h
    · intro a ha b hb
      obtain ⟨is, _, rfl⟩ := List.mem_map.1 ha
      obtain ⟨i, js, _, rfl, _, _⟩ := (mem_filesFrom cs (k + 1) b).1 hb
      exact List.Lex.rel (by omega)
end

end Stuart
