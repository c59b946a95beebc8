import Verif.Proof.Saved
/-
The last file written to a place is the one that stays.
-/
namespace Stuart
open Spec

/-- The contents last written to a path by these changes. -/
def lastWrite (q : Path) : List Op → Option Bytes
  | [] => none
  | .write p b :: os => (lastWrite q os).or (if q = p then some b else none)
  | _ :: os => lastWrite q os

theorem lastWrite_append (q : Path) : ∀ os os' : List Op, lastWrite q (os ++ os') = (lastWrite q os').or (lastWrite q os)
  | [], os' => by simp [lastWrite]
  | o :: os, os' => by
    cases o <;> simp [lastWrite, lastWrite_append q os os', Option.or_assoc]

theorem runOps_last {os : List Op} {w : World} (ho : ∀ o ∈ os, o.Adds) (h : (runOps os w).2 = .ok ()) (q : Path) (b : Bytes) :
    look (runOps os w).1.disk q = some (.file b) ↔
      lastWrite q os = some b ∨ (lastWrite q os = none ∧ look w.disk q = some (.file b)) := by
  induction os generalizing w with
  | nil => simp [runOps, lastWrite]
  | cons o os ih =>
    obtain ⟨hs, he⟩ := runOps_cons_ok h
    rw [he] at h ⊢
    rw [ih (fun o h => ho o (.tail _ h)) h]
    obtain ⟨hl, hw⟩ := adds_step (ho o (.head _)) (World.step_ok hs) q
    rw [hl]
    have hoa := ho o (.head _)
    cases o with
    | write p b0 =>
      simp only [lastWrite, Op.seen]
      cases lastWrite q os with
      | some x => simp
      | none => by_cases hq : q = p <;> simp [hq]
    | mkdirTolerant p =>
      simp only [lastWrite, Op.seen]
      by_cases hq : q = p
      · subst hq
        cases look w.disk q <;> simp
      · simp [hq]
    | _ => exact hoa.elim

variable {cfg : Config}

theorem landsLast_nil {r : Path} {b : Bytes} : ¬ LandsLast cfg [] r b := by
  rintro ⟨pre, f, post, h, _⟩
  simp at h

theorem landsLast_append {fs gs : List (List Str × Node)} {r : Path} {b : Bytes} :
    LandsLast cfg (fs ++ gs) r b ↔ LandsLast cfg gs r b ∨ ((∀ g ∈ gs, ∀ b', ¬ Lands cfg g.1 g.2 r b') ∧ LandsLast cfg fs r b) := by
  constructor
  · rintro ⟨pre, f, post, h, h1, h2⟩
    rcases List.append_eq_append_iff.1 h with ⟨as, rfl, rfl⟩ | ⟨bs, rfl, hb⟩
    · exact .inl ⟨as, f, post, rfl, h1, h2⟩
    · cases bs with
      | nil =>
        simp only [List.nil_append] at hb
        exact .inl ⟨[], f, post, hb.symm, h1, h2⟩
      | cons x bs =>
        simp only [List.cons_append, List.cons.injEq] at hb
        obtain ⟨rfl, rfl⟩ := hb
        exact .inr ⟨fun g hg => h2 g (List.mem_append_right _ hg), pre, f, bs, rfl, h1, fun g hg => h2 g (List.mem_append_left _ hg)⟩
  · rintro (⟨pre, f, post, rfl, h1, h2⟩ | ⟨h0, pre, f, post, rfl, h1, h2⟩)
    · exact ⟨fs ++ pre, f, post, by simp, h1, h2⟩
    · refine ⟨pre, f, post ++ gs, by simp, h1, fun g hg => ?_⟩
      rcases List.mem_append.1 hg with hg | hg
      · exact h2 g hg
      · exact h0 g hg

/-- If no file goes there none is last, and conversely. -/
theorem landsLast_none {fs : List (List Str × Node)} {r : Path} :
    (∀ b, ¬ LandsLast cfg fs r b) ↔ ∀ g ∈ fs, ∀ b', ¬ Lands cfg g.1 g.2 r b' := by
  constructor
  · intro h
    induction fs with
    | nil => simp
    | cons f fs ih =>
      have hfs : ∀ g ∈ fs, ∀ b', ¬ Lands cfg g.1 g.2 r b' :=
        ih fun b hb => h b ((landsLast_append (fs := [f])).2 (.inl hb))
      intro g hg b' hl
      rcases List.mem_cons.1 hg with rfl | hg
      · exact h b' ⟨[], g, fs, rfl, hl, hfs⟩
      · exact hfs g hg b' hl
  · rintro h b ⟨pre, f, post, rfl, h1, _⟩
    exact h f (by simp) b h1

mutual
theorem saveRec_last (P : Path) (ds : List Str) (n : Node) (h : PlainNames cfg [n]) (r : Path) (b : Bytes) :
    lastWrite (P ++ r) (saveRec cfg (P ++ ds) n) = some b ↔ LandsLast cfg (listing ds n) r b := by
  cases n with
  | dir d cs src =>
    have hd : PlainName d := (h [] _ (.here (.head _))).1
    have hcs : PlainNames cfg cs := fun ds n hh => h (d :: ds) n (.down (.head _) hh)
    rw [saveRec, joinPath_plain hd, lastWrite, listing, List.append_assoc]
    · exact saveAll_last P (ds ++ [d]) cs hcs r b
    · nofun
  | file name b0 parsed m src =>
    have one : ∀ {f : List Str × Node}, LandsLast cfg [f] r b ↔ Lands cfg f.1 f.2 r b := by
      intro f
      constructor
      · rintro ⟨pre, g, post, h, h1, _⟩
        have : g ∈ [f] := by rw [h]; simp
        rw [List.mem_singleton.1 this] at h1
        exact h1
      · intro h; exact ⟨[], f, [], rfl, h, by simp⟩
    rw [listing, one]
    have hn := h [] _ (.here (.head _))
    rcases saveFile_ops (p := P ++ ds) (name := name) (b := b0) (parsed := parsed) (m := m) (src := src) hn with
      ⟨he, hp⟩ | ⟨hp, ho, he⟩ | ⟨hp, stem, ho, he⟩
    · rw [he]; simp [lastWrite, Lands, hp]
    · rw [he]
      simp only [lastWrite, Lands, hp, true_and, Option.none_or]
      by_cases hq : r = ds ++ [name]
      · subst hq
        rw [if_pos (by simp)]
        constructor
        · intro k; cases k; exact ⟨rfl, .inl ⟨ho, rfl⟩⟩
        · rintro ⟨rfl, _⟩; rfl
      · rw [if_neg (by rw [List.append_assoc]; exact fun k => hq (List.append_cancel_left k))]
        refine ⟨nofun, ?_⟩
        rintro ⟨_, ⟨_, k⟩ | ⟨stem, k, _⟩⟩
        · exact absurd k hq
        · exact absurd k (ho stem)
    · rw [he]
      simp only [lastWrite, Lands, hp, true_and, Option.none_or]
      by_cases hq : r = ds ++ stemDir stem ++ [str!"index.html"]
      · subst hq
        rw [if_pos (by simp)]
        constructor
        · intro k; cases k; exact ⟨rfl, .inr ⟨stem, ho, rfl⟩⟩
        · rintro ⟨rfl, _⟩; rfl
      · rw [if_neg (fun k => hq (List.append_cancel_left (as := P) (by rw [k]; simp)))]
        refine ⟨nofun, ?_⟩
        rintro ⟨_, ⟨k, _⟩ | ⟨stem', k, k'⟩⟩
        · exact absurd ho (k stem)
        · rw [OwnDir_stem k ho] at k'; exact absurd k' hq
theorem saveAll_last (P : Path) (ds : List Str) (cs : List Node) (h : PlainNames cfg cs) (r : Path) (b : Bytes) :
    lastWrite (P ++ r) (saveAll cfg (P ++ ds) cs) = some b ↔ LandsLast cfg (listingAll ds cs) r b := by
  cases cs with
  | nil => rw [saveAll, listingAll]; simp [lastWrite, landsLast_nil]
  | cons c cs =>
    have h1 : PlainNames cfg [c] := fun ds n hh => h ds n (Holds_cons.2 (.inl hh))
    have h2 : PlainNames cfg cs := fun ds n hh => h ds n (Holds_cons.2 (.inr hh))
    rw [saveAll, listingAll, lastWrite_append, landsLast_append, ← landsLast_none, ← saveRec_last P ds c h1 r b]
    have i2 := saveAll_last P ds cs h2 r
    simp only [← i2]
    cases lastWrite (P ++ r) (saveAll cfg (P ++ ds) cs) with
    | none => simp
    | some x => simp
end

end Stuart
