import Verif.Model.Fs
import Verif.Spec.Disk
/-
Looking at a disk after changes to it.
-/
namespace Stuart
open Spec

theorem findEntry_set_same (n : Str) (v : Option Entry) (l : List (Str × Entry)) : findEntry n (setEntryAt n v l) = v := by
  induction l with
  | nil => cases v <;> simp [setEntryAt, findEntry]
  | cons x l ih =>
    obtain ⟨m, e⟩ := x
    by_cases h : m = n
    · cases v
      · simp only [setEntryAt, if_pos h]; exact ih
      · simp [setEntryAt, if_pos h, findEntry]
    · simp [setEntryAt, if_neg h, findEntry, ih]

theorem findEntry_set_other {n k : Str} (hk : k ≠ n) (v : Option Entry) (l : List (Str × Entry)) :
    findEntry k (setEntryAt n v l) = findEntry k l := by
  induction l with
  | nil => cases v <;> simp [setEntryAt, findEntry, Ne.symm hk]
  | cons x l ih =>
    obtain ⟨m, e⟩ := x
    by_cases h : m = n
    · cases v
      · simp only [setEntryAt, if_pos h, findEntry, ih]
        rw [if_neg]; rw [h]; exact Ne.symm hk
      · have : m ≠ k := by rw [h]; exact Ne.symm hk
        simp only [setEntryAt, if_pos h, findEntry, if_neg this]
    · simp only [setEntryAt, if_neg h, findEntry, ih]

theorem look_dir_cons (l : List (Str × Entry)) (n : Str) (p : Path) :
    look (.dir l) (n :: p) = (findEntry n l).bind fun e => look e p := by
  simp only [look, Entry.at]
  cases findEntry n l <;> rfl

theorem look_nil (d : Entry) : look d [] = some (kind d) := by cases d <;> rfl

theorem look_file_cons (b : Bytes) (n : Str) (p : Path) : look (.file b) (n :: p) = none := rfl
theorem look_special_cons (n : Str) (p : Path) : look .special (n :: p) = none := rfl

theorem kind_put {d : Entry} {n : Str} {p : Path} {v : Option Entry} : kind (d.put (n :: p) v) = kind d := by
  cases d with
  | dir l =>
    cases p with
    | nil => rfl
    | cons m p =>
      simp only [Entry.put]
      cases findEntry n l <;> rfl
  | _ => cases p <;> rfl

/-- Nothing changes outside the place changed. -/
theorem look_put_outside {d : Entry} {p q : Path} {v : Option Entry} (h : ¬ p <+: q) : look (d.put p v) q = look d q := by
  induction p generalizing d q with
  | nil => exact absurd (List.nil_prefix) h
  | cons n p ih =>
    cases q with
    | nil => rw [look_nil, look_nil, kind_put]
    | cons k q =>
      cases d with
      | dir l =>
        by_cases hk : k = n
        · subst hk
          cases p with
          | nil => exact absurd (List.prefix_iff_eq_append.2 rfl) h
          | cons m p =>
            simp only [Entry.put]
            cases hf : findEntry k l with
            | none => rfl
            | some e =>
              simp only [look_dir_cons, findEntry_set_same, hf, Option.bind_some]
              exact ih (fun hp => h (by simpa using hp))
        · cases p with
          | nil => simp only [Entry.put, look_dir_cons, findEntry_set_other hk]
          | cons m p =>
            simp only [Entry.put]
            cases hf : findEntry n l with
            | none => rfl
            | some e => simp only [look_dir_cons, findEntry_set_other hk]
      | file b => cases p <;> rfl
      | special => cases p <;> rfl

/-- The place changed is as intended. -/
theorem look_put_inside {d : Entry} {p : Path} (hp : p ≠ []) (r : Path) {v : Option Entry} (h : look d p.dropLast = some .dir) :
    look (d.put p v) (p ++ r) = v.bind fun e => look e r := by
  induction p generalizing d with
  | nil => exact absurd rfl hp
  | cons n p ih =>
    cases d with
    | dir l =>
      cases p with
      | nil => simp only [Entry.put, List.cons_append, List.nil_append, look_dir_cons, findEntry_set_same]
      | cons m p =>
        rw [List.dropLast_cons_cons, look_dir_cons] at h
        cases hf : findEntry n l with
        | none => rw [hf] at h; cases h
        | some e =>
          rw [hf] at h
          simp only [Entry.put, hf, List.cons_append, look_dir_cons, findEntry_set_same, Option.bind_some]
          exact ih (by simp) h
    | file b =>
      cases p with
      | nil => rw [show ([n] : Path).dropLast = [] from rfl, look_nil] at h; cases h
      | cons m p => rw [List.dropLast_cons_cons, look_file_cons] at h; cases h
    | special =>
      cases p with
      | nil => rw [show ([n] : Path).dropLast = [] from rfl, look_nil] at h; cases h
      | cons m p => rw [List.dropLast_cons_cons, look_special_cons] at h; cases h

theorem isDirAt_iff {d : Entry} {p : Path} : d.isDirAt p = true ↔ look d p = some .dir := by
  unfold Entry.isDirAt look
  cases d.at p with
  | none => simp
  | some e => cases e <;> simp [kind]

theorem at_none_iff {d : Entry} {p : Path} : d.at p = none ↔ look d p = none := by
  unfold look; cases d.at p <;> simp

theorem look_of_at {d : Entry} {p : Path} {e : Entry} (h : d.at p = some e) : look d p = some (kind e) := by
  unfold look; rw [h]; rfl

theorem at_append (d : Entry) (p r : Path) : d.at (p ++ r) = (d.at p).bind fun e => e.at r := by
  induction p generalizing d with
  | nil => cases d <;> rfl
  | cons n p ih =>
    cases d with
    | dir l =>
      simp only [List.cons_append, Entry.at]
      cases findEntry n l with
      | none => rfl
      | some e => exact ih e
    | _ => rfl

/-- A thing that is there has directories above it. -/
theorem look_above {d : Entry} {p r : Path} (hr : r ≠ []) (h : look d (p ++ r) ≠ none) : look d p = some .dir := by
  induction p generalizing d with
  | nil =>
    cases r with
    | nil => exact absurd rfl hr
    | cons n r =>
      cases d with
      | dir l => exact look_nil _
      | file b => exact absurd rfl h
      | special => exact absurd rfl h
  | cons n p ih =>
    cases d with
    | dir l =>
      rw [List.cons_append, look_dir_cons] at h
      rw [look_dir_cons]
      cases hf : findEntry n l with
      | none => rw [hf] at h; exact absurd rfl h
      | some e => rw [hf] at h; exact ih h
    | file b => exact absurd rfl h
    | special => exact absurd rfl h

/-- One change that succeeds. -/
theorem apply_outside {d d' : Entry} {o : Op} (h : o.apply d = some d') {q : Path} (hq : ¬ o.target <+: q) :
    look d' q = look d q := by
  cases o with
  | clear p =>
    simp only [Op.apply] at h
    split at h
    · split at h
      · cases h
      · cases h; exact look_put_outside hq
    · cases h; rfl
  | mkdir p =>
    simp only [Op.apply] at h
    split at h
    · cases h
    · split at h
      · cases h; exact look_put_outside hq
      · cases h
  | mkdirTolerant p =>
    simp only [Op.apply] at h
    split at h
    · cases h; rfl
    · split at h
      · cases h; exact look_put_outside hq
      · cases h
  | write p b =>
    simp only [Op.apply] at h
    split at h
    · cases h; exact look_put_outside hq
    · cases h
    · split at h
      · cases h; exact look_put_outside hq
      · cases h
  | removeFile p =>
    simp only [Op.apply] at h
    split at h
    · cases h
    · cases h; exact look_put_outside hq
    · cases h

theorem World.step_outside (w : World) (o : Op) {q : Path} (hq : ¬ o.target <+: q) :
    look (w.step o).1.disk q = look w.disk q := by
  unfold World.step
  split
  · exact look_put_outside hq
  · split
    · rename_i h; exact apply_outside h hq
    · rfl

/-- Whatever happens, changes do not reach beyond their targets. -/
theorem runOps_outside {os : List Op} {w : World} {q : Path} (h : ∀ o ∈ os, ¬ o.target <+: q) :
    look (runOps os w).1.disk q = look w.disk q := by
  induction os generalizing w with
  | nil => rfl
  | cons o os ih =>
    rw [runOps]
    split
    · rw [ih fun o ho => h o (.tail _ ho)]
      exact w.step_outside o (h o (.head _))
    · exact w.step_outside o (h o (.head _))

theorem World.step_ok {w : World} {o : Op} (h : (w.step o).2 = true) : o.apply w.disk = some (w.step o).1.disk := by
  unfold World.step at h ⊢
  split at h
  · cases h
  · split at h
    · rename_i ho; simp [ho]
    · cases h

theorem runOps_cons_ok {o : Op} {os : List Op} {w : World} (h : (runOps (o :: os) w).2 = .ok ()) :
    (w.step o).2 = true ∧ runOps (o :: os) w = runOps os (w.step o).1 := by
  rw [runOps] at h ⊢
  split at h
  · rename_i hs; exact ⟨hs, by rw [if_pos hs]⟩
  · cases h

/-- Creating directories and files, without removing any. -/
def Op.Adds : Op → Prop
  | .mkdirTolerant p => p ≠ []
  | .write p _ => p ≠ []
  | _ => False

/-- What is seen after an addition. -/
def Op.seen (d : Entry) (q : Path) : Op → Option Kind
  | .write p b => if q = p then some (.file b) else look d q
  | .mkdirTolerant p => if q = p then (if look d p = none then some .dir else look d p) else look d q
  | _ => look d q

/-- What an addition needs. -/
def Op.needs (d : Entry) : Op → Prop
  | .write p _ => p ≠ [] ∧ look d p.dropLast = some .dir ∧ (look d p = none ∨ ∃ b, look d p = some (.file b))
  | _ => True

/-- What one successful addition does. -/
theorem adds_step {d d' : Entry} {o : Op} (ho : o.Adds) (h : o.apply d = some d') (q : Path) :
    look d' q = o.seen d q ∧ o.needs d := by
  have key : ∀ (p : Path) (e : Entry) (k : Kind), p ≠ [] → look d p.dropLast = some .dir → kind e = k →
      (∀ n r, look e (n :: r) = none) → (∀ n r, look d (p ++ n :: r) = none) → ∀ q,
      look (d.put p (some e)) q = if q = p then some k else look d q := by
    intro p e k hp hd hk he hb q
    by_cases hq : p <+: q
    · obtain ⟨r, rfl⟩ := hq
      rw [look_put_inside hp r hd, Option.bind_some]
      cases r with
      | nil => simp [look_nil, hk]
      | cons n r => rw [he, hb, if_neg (by simp)]
    · rw [look_put_outside hq, if_neg]
      rintro rfl
      exact hq (List.prefix_refl _)
  have below : ∀ p, look d p ≠ some .dir → ∀ n r, look d (p ++ n :: r) = none := by
    intro p hp n r
    refine Classical.byContradiction fun hc => hp (look_above (by simp) hc)
  cases o with
  | mkdirTolerant p =>
    refine ⟨?_, trivial⟩
    simp only [Op.apply] at h
    split at h
    · rename_i e he
      cases h
      have : look d p ≠ none := by rw [look_of_at he]; nofun
      simp only [Op.seen, if_neg this]
      split
      · rename_i hq; rw [hq]
      · rfl
    · rename_i hn
      split at h
      · rename_i hd
        cases h
        have hn' := at_none_iff.1 hn
        simp only [Op.seen, hn', if_true]
        exact key p (.dir []) .dir ho (isDirAt_iff.1 hd) rfl (fun _ _ => rfl) (below p (by rw [hn']; nofun)) q
      · cases h
  | write p b =>
    have hp : p ≠ [] := ho
    simp only [Op.apply] at h
    split at h
    · rename_i b' hb'
      cases h
      have hl : look d p = some (.file b') := look_of_at hb'
      have hd : look d p.dropLast = some .dir := by
        refine look_above (r := [p.getLast hp]) (by simp) ?_
        rw [List.dropLast_concat_getLast hp, hl]; nofun
      exact ⟨key p (.file b) _ hp hd rfl (fun _ _ => rfl) (below p (by rw [hl]; nofun)) q, hp, hd, .inr ⟨_, hl⟩⟩
    · cases h
    · rename_i hn
      split at h
      · rename_i hd
        cases h
        have hl := at_none_iff.1 hn
        have hd := isDirAt_iff.1 hd
        exact ⟨key p (.file b) _ hp hd rfl (fun _ _ => rfl) (below p (by rw [hl]; nofun)) q, hp, hd, .inl hl⟩
      · cases h
  | _ => exact ho.elim

/-- What is seen after successful additions. -/
theorem runOps_adds {os : List Op} {w : World} (ho : ∀ o ∈ os, o.Adds) (h : (runOps os w).2 = .ok ()) (q : Path) :
    (∀ b, look (runOps os w).1.disk q = some (.file b) → look w.disk q = some (.file b) ∨ .write q b ∈ os) ∧
    (look (runOps os w).1.disk q = some .dir → look w.disk q = some .dir ∨ .mkdirTolerant q ∈ os) ∧
    (look (runOps os w).1.disk q = some .special → look w.disk q = some .special) ∧
    (look w.disk q = some .dir → look (runOps os w).1.disk q = some .dir) ∧
    ((∃ b, look w.disk q = some (.file b)) ∨ (∃ b, .write q b ∈ os) → ∃ b, look (runOps os w).1.disk q = some (.file b)) ∧
    (.mkdirTolerant q ∈ os → look (runOps os w).1.disk q ≠ none) ∧
    (look w.disk q ≠ none → look (runOps os w).1.disk q ≠ none) := by
  induction os generalizing w with
  | nil => simp [runOps]
  | cons o os ih =>
    obtain ⟨hs, he⟩ := runOps_cons_ok h
    rw [he] at h ⊢
    obtain ⟨i1, i2, i3, i4, i5, i6, i7⟩ := ih (fun o h => ho o (.tail _ h)) h
    obtain ⟨hl, hw⟩ := adds_step (ho o (.head _)) (World.step_ok hs) q
    generalize hr : (runOps os (w.step o).1).1.disk = d' at i1 i2 i3 i4 i5 i6 i7 ⊢
    generalize hd1 : (w.step o).1.disk = d1 at hl i1 i2 i3 i4 i5 i7
    have hoa := ho o (.head _)
    cases o with
    | write p b =>
      simp only [Op.seen, Op.needs] at hl hw
      obtain ⟨_, _, hw⟩ := hw
      by_cases hq : q = p
      · subst hq
        rw [if_pos rfl] at hl
        refine ⟨?_, ?_, ?_, ?_, ?_, ?_, ?_⟩
        · intro b' h'
          rcases i1 b' h' with h' | h'
          · rw [hl] at h'; cases h'; exact .inr (.head _)
          · exact .inr (.tail _ h')
        · intro h'
          obtain ⟨b', hb'⟩ := i5 (.inl ⟨b, hl⟩)
          rw [hb'] at h'; cases h'
        · intro h'
          obtain ⟨b', hb'⟩ := i5 (.inl ⟨b, hl⟩)
          rw [hb'] at h'; cases h'
        · intro h'
          rcases hw with hw | ⟨_, hw⟩ <;> rw [hw] at h' <;> cases h'
        · intro _; exact i5 (.inl ⟨b, hl⟩)
        · intro _; exact i7 (by rw [hl]; nofun)
        · intro _; exact i7 (by rw [hl]; nofun)
      · rw [if_neg hq] at hl
        rw [hl] at i1 i2 i3 i4 i5 i7
        refine ⟨?_, ?_, i3, i4, ?_, ?_, i7⟩
        · intro b' h'
          rcases i1 b' h' with h' | h'
          · exact .inl h'
          · exact .inr (.tail _ h')
        · intro h'
          rcases i2 h' with h' | h'
          · exact .inl h'
          · exact .inr (.tail _ h')
        · rintro (h' | ⟨b', h'⟩)
          · exact i5 (.inl h')
          · cases h' with
            | head => exact absurd rfl hq
            | tail _ h' => exact i5 (.inr ⟨b', h'⟩)
        · intro h'
          cases h' with
          | tail _ h' => exact i6 h'
    | mkdirTolerant p =>
      simp only [Op.seen] at hl
      by_cases hq : q = p
      · subst hq
        rw [if_pos rfl] at hl
        have hne : look d1 q ≠ none := by rw [hl]; split <;> simp_all
        by_cases hn : look w.disk q = none
        · rw [if_pos hn] at hl
          refine ⟨?_, fun _ => .inr (.head _), ?_, ?_, ?_, fun _ => i7 hne, fun _ => i7 hne⟩
          · intro b' h'; rw [i4 hl] at h'; cases h'
          · intro h'; rw [i4 hl] at h'; cases h'
          · intro h'; rw [hn] at h'; cases h'
          · rintro (⟨b', h'⟩ | ⟨b', h'⟩)
            · rw [hn] at h'; cases h'
            · cases h' with
              | tail _ h' => exact i5 (.inr ⟨b', h'⟩)
        · rw [if_neg hn] at hl
          rw [hl] at i1 i2 i3 i4 i5 i7
          refine ⟨?_, fun _ => .inr (.head _), i3, i4, ?_, fun _ => i7 hn, i7⟩
          · intro b' h'
            rcases i1 b' h' with h' | h'
            · exact .inl h'
            · exact .inr (.tail _ h')
          · rintro (h' | ⟨b', h'⟩)
            · exact i5 (.inl h')
            · cases h' with
              | tail _ h' => exact i5 (.inr ⟨b', h'⟩)
      · rw [if_neg hq] at hl
        rw [hl] at i1 i2 i3 i4 i5 i7
        refine ⟨?_, ?_, i3, i4, ?_, ?_, i7⟩
        · intro b' h'
          rcases i1 b' h' with h' | h'
          · exact .inl h'
          · exact .inr (.tail _ h')
        · intro h'
          rcases i2 h' with h' | h'
          · exact .inl h'
          · exact .inr (.tail _ h')
        · rintro (h' | ⟨b', h'⟩)
          · exact i5 (.inl h')
          · cases h' with
            | tail _ h' => exact i5 (.inr ⟨b', h'⟩)
        · intro h'
          cases h' with
          | head => exact absurd rfl hq
          | tail _ h' => exact i6 h'
    | _ => exact hoa.elim

end Stuart
