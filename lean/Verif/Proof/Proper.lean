import Verif.Proof.Save
import Verif.Proof.Concrete
import Verif.Proof.Plugins
/-
Changes whose paths have plain names leave a proper disk proper.
-/
namespace Stuart
open Spec

theorem setEntryAt_mem {n : Str} {v : Option Entry} {l : List (Str × Entry)} {x : Str × Entry}
    (h : x ∈ setEntryAt n v l) : x ∈ l ∨ (x.1 = n ∧ v = some x.2) := by
  induction l with
  | nil =>
    cases v with
    | none => cases h
    | some e => simp only [setEntryAt, List.mem_singleton] at h; subst h; exact .inr ⟨rfl, rfl⟩
  | cons y l ih =>
    obtain ⟨m, e⟩ := y
    simp only [setEntryAt] at h
    split at h
    · rename_i hm
      cases v with
      | none =>
        rcases ih h with k | k
        · exact .inl (.tail _ k)
        · exact .inr k
      | some e' =>
        rcases List.mem_cons.1 h with k | k
        · subst k; exact .inr ⟨hm, rfl⟩
        · exact .inl (.tail _ k)
    · rcases List.mem_cons.1 h with k | k
      · subst k; exact .inl (.head _)
      · rcases ih k with k | k
        · exact .inl (.tail _ k)
        · exact .inr k

theorem setEntryAt_nodup {n : Str} {v : Option Entry} {l : List (Str × Entry)} (h : (l.map Prod.fst).Nodup) :
    ((setEntryAt n v l).map Prod.fst).Nodup := by
  induction l with
  | nil => cases v <;> simp [setEntryAt]
  | cons y l ih =>
    obtain ⟨m, e⟩ := y
    simp only [List.map_cons, List.nodup_cons] at h
    simp only [setEntryAt]
    split
    · cases v with
      | none => exact ih h.2
      | some e' => simpa using h
    · rename_i hm
      simp only [List.map_cons, List.nodup_cons]
      refine ⟨fun hmem => ?_, ih h.2⟩
      obtain ⟨x, hx, hxm⟩ := List.mem_map.1 hmem
      rcases setEntryAt_mem hx with k | k
      · exact h.1 (List.mem_map.2 ⟨x, k, hxm⟩)
      · exact hm (hxm.symm.trans k.1)

theorem proper_set {n : Str} {v : Option Entry} {l : List (Str × Entry)} (h : ProperDisk (.dir l)) (hn : PlainName n)
    (hv : ∀ e, v = some e → ProperDisk e) : ProperDisk (.dir (setEntryAt n v l)) := by
  obtain ⟨h1, h2⟩ := h [] l rfl
  refine properDisk_dir (setEntryAt_nodup h1) fun x hx => ?_
  rcases setEntryAt_mem hx with k | k
  · exact ⟨h2 _ k, properDisk_sub h (n := x.1) (e := x.2) k⟩
  · exact ⟨k.1 ▸ hn, hv _ k.2⟩

theorem proper_put {d : Entry} {p : Path} {v : Option Entry} (h : ProperDisk d) (hp : ∀ n ∈ p, PlainName n)
    (hv : ∀ e, v = some e → ProperDisk e) : ProperDisk (d.put p v) := by
  induction p generalizing d with
  | nil =>
    cases v with
    | none => rw [Entry.put]; exact h
    | some e => rw [Entry.put]; exact hv e rfl
  | cons n p ih =>
    cases d with
    | file b => rw [Entry.put]; exact h; all_goals nofun
    | special => rw [Entry.put]; exact h; all_goals nofun
    | dir l =>
      cases p with
      | nil => rw [Entry.put]; exact proper_set h (hp n (.head _)) hv
      | cons m p =>
        rw [Entry.put]
        · split
          · rename_i e he
            refine proper_set h (hp n (.head _)) ?_
            intro e' k
            cases k
            exact ih (properDisk_sub h (findEntry_in he)) (fun x hx => hp x (.tail _ hx))
          · exact h
        · nofun

theorem proper_apply {d d' : Entry} {o : Op} (h : ProperDisk d) (hp : ∀ n ∈ o.target, PlainName n)
    (ho : o.apply d = some d') : ProperDisk d' := by
  have hnil : ProperDisk (.dir []) := properDisk_dir (by simp) nofun
  cases o <;> simp only [Op.apply] at ho <;> split at ho <;> (try split at ho) <;> cases ho <;> first
    | exact h
    | (refine proper_put h hp ?_; intro e k; cases k; exact hnil)
    | (refine proper_put h hp ?_; intro e k; cases k; exact properDisk_file _)
    | (refine proper_put h hp ?_; intro e k; cases k)

theorem proper_runOps {os : List Op} {w : World} (h : ProperDisk w.disk) (hp : ∀ o ∈ os, ∀ n ∈ o.target, PlainName n)
    (ho : (runOps os w).2 = .ok ()) : ProperDisk (runOps os w).1.disk := by
  induction os generalizing w with
  | nil => exact h
  | cons o os ih =>
    obtain ⟨h1, h2⟩ := runOps_cons_ok ho
    rw [h2] at ho ⊢
    exact ih (proper_apply h (hp o (.head _)) (World.step_ok h1)) (fun x hx => hp x (.tail _ hx)) ho

/-- All names on the way to a node are plain. -/
theorem plainNames_way {cfg : Config} {cs : List Node} (h : PlainNames cfg cs) {ds : List Str} {n : Node} (hn : Holds cs ds n) :
    ∀ d ∈ ds ++ [n.name], PlainName d := by
  induction hn with
  | here hm =>
    intro d hd
    simp only [List.nil_append, List.mem_singleton] at hd
    subst hd
    exact (h _ _ (.here hm)).1
  | down hm hi ih =>
    intro d hd
    rcases List.mem_cons.1 hd with k | k
    · subst k; exact (h _ _ (.here hm)).1
    · exact ih (fun ds' n' h' => h _ _ (.down hm h')) d k

theorem stemDir_plain {cfg : Config} {name stem : Str} {p : Parsed} (h : PlainName name)
    (hd : cfg.stripExtensions = true → name ≠ str!"...html") (ho : OwnDir cfg name stem p) :
    ∀ d ∈ stemDir stem, PlainName d := by
  intro d hm
  unfold stemDir at hm
  split at hm
  · cases hm
  · rename_i hs
    rw [List.mem_singleton] at hm
    subst hm
    have hne := ho.2.1
    refine ⟨fun k => hs (.inl k), fun k => hs (.inr k), ?_, ?_⟩
    · intro k; subst k; exact hd ho.1 hne
    · intro k
      exact h.2.2.2 (by rw [hne]; exact List.mem_append_left _ k)

theorem saveAll_plain {cfg : Config} {p : Path} {cs : List Node} (hp : ∀ n ∈ p, PlainName n) (h : PlainNames cfg cs) {o : Op}
    (ho : o ∈ saveAll cfg p cs) : ∀ n ∈ o.target, PlainName n := by
  have hgo : ∀ r, (∀ n ∈ r, PlainName n) → ∀ n ∈ p ++ r, PlainName n := by
    intro r hr n hn
    rcases List.mem_append.1 hn with k | k
    · exact hp n k
    · exact hr n k
  have hpage : ∀ {ds name b q m src stem}, Holds cs ds (.file name b q m src) → OwnDir cfg name stem q →
      ∀ n ∈ ds ++ stemDir stem, PlainName n := by
    intro ds name b q m src stem hh hown n hn
    rcases List.mem_append.1 hn with k | k
    · exact plainNames_way h hh n (List.mem_append_left _ k)
    · exact stemDir_plain (h _ _ hh).1 (h _ _ hh).2 hown n k
  rcases (saveAll_ops p cs h o).1 ho with ⟨r, b, rfl, hg⟩ | ⟨r, rfl, hg⟩
  · refine hgo r ?_
    cases hg with
    | plain hh _ _ => exact plainNames_way h hh
    | page hh _ hown =>
      intro n hn
      rcases List.mem_append.1 hn with k | k
      · exact hpage hh hown n k
      · rw [List.mem_singleton.1 k]; decide
  · refine hgo r ?_
    cases hg with
    | dir hh => exact plainNames_way h hh
    | page hh _ hown => exact hpage hh hown

end Stuart
