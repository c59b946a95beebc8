import Verif.Proof.Disk
/-
Ways to show, of disks and trees that are written out, what the theorems ask of them. Used for the examples only.
-/
namespace Stuart
open Spec

theorem findEntry_in {m : Str} {l : List (Str × Entry)} {e : Entry} (h : findEntry m l = some e) : (m, e) ∈ l := by
  induction l with
  | nil => cases h
  | cons x l ih =>
    obtain ⟨k, v⟩ := x
    simp only [findEntry] at h
    split at h
    · rename_i hk; cases h; subst hk; simp
    · exact List.mem_cons_of_mem _ (ih h)

theorem properDisk_file (b : Bytes) : ProperDisk (.file b) := by
  intro p l h
  cases p <;> simp [Entry.at] at h

theorem properDisk_special : ProperDisk .special := by
  intro p l h
  cases p <;> simp [Entry.at] at h

theorem properDisk_dir {l : List (Str × Entry)} (h1 : (l.map Prod.fst).Nodup)
    (h2 : ∀ e ∈ l, PlainName e.1 ∧ ProperDisk e.2) : ProperDisk (.dir l) := by
  intro p l' h
  cases p with
  | nil =>
    simp only [Entry.at, Option.some.injEq, Entry.dir.injEq] at h
    subst h
    exact ⟨h1, fun e he => (h2 e he).1⟩
  | cons n p =>
    simp only [Entry.at] at h
    split at h
    · rename_i e he
      exact (h2 _ (findEntry_in he)).2 p l' h
    · cases h

/-- Below this entry nothing has this name. -/
def Lacks (n : Str) (e : Entry) : Prop := ∀ ds, look e (ds ++ [n]) = none

theorem lacks_file (n : Str) (b : Bytes) : Lacks n (.file b) := by
  intro ds
  cases ds <;> rfl

theorem lacks_dir {n : Str} {l : List (Str × Entry)} (h : ∀ e ∈ l, e.1 ≠ n ∧ Lacks n e.2) : Lacks n (.dir l) := by
  intro ds
  cases ds with
  | nil =>
    simp only [look, List.nil_append, Entry.at]
    split
    · rename_i e he; exact absurd rfl (h _ (findEntry_in he)).1
    · rfl
  | cons m ds =>
    simp only [look, List.cons_append, Entry.at]
    split
    · rename_i e he; exact (h _ (findEntry_in he)).2 ds
    · rfl

theorem plainNames_nil (cfg : Config) : PlainNames cfg [] := by
  intro ds n h
  cases h with
  | here h => cases h
  | down h _ => cases h

theorem plainNames_file {cfg : Config} {cs : List Node} {nm src : Str} {b : Bytes} {p : Parsed} {m : Option Value}
    (h1 : PlainName nm ∧ nm ≠ str!"...html") (h2 : PlainNames cfg cs) : PlainNames cfg (.file nm b p m src :: cs) := by
  intro ds n h
  cases h with
  | here h =>
    rcases List.mem_cons.1 h with rfl | h
    · exact ⟨h1.1, fun _ => h1.2⟩
    · exact h2 _ _ (.here h)
  | down h k =>
    rcases List.mem_cons.1 h with h | h
    · cases h
    · exact h2 _ _ (.down h k)

theorem plainNames_dir {cfg : Config} {cs l : List Node} {nm src : Str}
    (h1 : PlainName nm ∧ nm ≠ str!"...html") (hl : PlainNames cfg l) (h2 : PlainNames cfg cs) :
    PlainNames cfg (.dir nm l src :: cs) := by
  intro ds n h
  cases h with
  | here h =>
    rcases List.mem_cons.1 h with rfl | h
    · exact ⟨h1.1, fun _ => h1.2⟩
    · exact h2 _ _ (.here h)
  | down h k =>
    rcases List.mem_cons.1 h with h | h
    · cases h; exact hl _ _ k
    · exact h2 _ _ (.down h k)

instance (n : Str) : Decidable (PlainName n) := inferInstanceAs (Decidable (_ ∧ _ ∧ _ ∧ _))

/-- Shows that a disk that is written out is proper. -/
syntax "proper_disk" : tactic
macro_rules
  | `(tactic| proper_disk) => `(tactic| first
      | exact properDisk_file _
      | exact properDisk_special
      | (refine properDisk_dir (by decide) ?_
         simp only [List.mem_cons, List.not_mem_nil, or_false, forall_eq_or_imp, forall_eq, false_implies, implies_true]
         repeat' apply And.intro
         all_goals first | decide | proper_disk))

/-- Shows that a written out disk has no entry of a name. -/
syntax "lacks_name" : tactic
macro_rules
  | `(tactic| lacks_name) => `(tactic| first
      | exact lacks_file _ _
      | (refine lacks_dir ?_
         simp only [List.mem_cons, List.not_mem_nil, or_false, forall_eq_or_imp, forall_eq, false_implies, implies_true]
         repeat' apply And.intro
         all_goals first | decide | lacks_name))

/-- Shows that a tree that is written out has plain names. -/
syntax "plain_names" : tactic
macro_rules
  | `(tactic| plain_names) => `(tactic| first
      | exact plainNames_nil _
      | (refine plainNames_file (by decide) ?_; plain_names)
      | (refine plainNames_dir (by decide) ?_ ?_ <;> plain_names))

example : ProperDisk (.dir [(str!"p", .dir [(str!"a.txt", .file [1]), (str!"d", .dir [])]), (str!"q", .special)]) := by
  proper_disk

example : PlainNames .default [.file str!"a.html" [] .none none [], .dir str!"b" [.file str!"c" [] .none none []] []] := by
  plain_names

/-- Where a site of one file goes. -/
theorem goes_one {cfg : Config} {nm src : Str} {b b' : Bytes} {p : Parsed} {m : Option Value} {r : Path}
    (h : Goes cfg [.file nm b p m src] r b') : (r.getLast? = some nm ∨ r.getLast? = some str!"index.html") ∧ b' = b := by
  have key : ∀ {ds n}, Holds [.file nm b p m src] ds n → n = .file nm b p m src := by
    intro ds n h
    cases h with
    | here h => simpa using h
    | down h _ => simp at h
  cases h with
  | plain h1 _ _ => cases key h1; simp
  | page h1 _ _ => cases key h1; simp

end Stuart
