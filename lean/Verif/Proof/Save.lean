import Verif.Proof.Disk
/-
The changes made when saving a site.
-/
namespace Stuart
open Spec

theorem splitOn_none {d : Char} {s : Str} (h : d ∉ s) : splitOn d s = [s] := by
  induction s with
  | nil => rfl
  | cons c s ih =>
    simp only [List.mem_cons, not_or] at h
    rw [splitOn, if_neg (Ne.symm h.1), ih h.2]

theorem joinPath_stem {p : Path} {s : Str} (h1 : s ≠ str!"..") (h2 : '/' ∉ s) : joinPath p s = p ++ stemDir s := by
  unfold joinPath components stemDir
  rw [splitOn_none h2]
  by_cases hd : s = ['.']
  · subst hd; simp
  · by_cases he : s = []
    · subst he; simp [restComps]
    · have h1' : s ≠ ['.', '.'] := h1
      simp [hd, he, h1', restComps]

theorem joinPath_plain {p : Path} {s : Str} (h : PlainName s) : joinPath p s = p ++ [s] := by
  obtain ⟨h1, h2, h3, h4⟩ := h
  have h2' : s ≠ ['.'] := h2
  rw [joinPath_stem h3 h4]
  simp [stemDir, h1, h2']

theorem joinPath_index (p : Path) : joinPath p str!"index.html" = p ++ [str!"index.html"] :=
  joinPath_plain (by refine ⟨?_, ?_, ?_, ?_⟩ <;> decide)

theorem Holds_cons {c : Node} {cs : List Node} {ds : List Str} {n : Node} :
    Holds (c :: cs) ds n ↔ Holds [c] ds n ∨ Holds cs ds n := by
  constructor
  · intro h
    cases h with
    | here h =>
      rcases List.mem_cons.1 h with rfl | h
      · exact .inl (.here (.head _))
      · exact .inr (.here h)
    | down h h' =>
      rcases List.mem_cons.1 h with rfl | h
      · exact .inl (.down (.head _) h')
      · exact .inr (.down h h')
  · rintro (h | h)
    · cases h with
      | here h => rw [List.mem_singleton.1 h]; exact .here (.head _)
      | down h h' => rw [List.mem_singleton] at h; rw [← h]; exact .down (.head _) h'
    · cases h with
      | here h => exact .here (.tail _ h)
      | down h h' => exact .down (.tail _ h) h'

theorem Holds_nil {ds : List Str} {n : Node} : ¬ Holds [] ds n := by
  intro h
  cases h with
  | here h => cases h
  | down h => cases h

theorem Holds_file {name : Str} {b : Bytes} {p : Parsed} {m : Option Value} {src : Str} {ds : List Str} {n : Node} :
    Holds [.file name b p m src] ds n ↔ ds = [] ∧ n = .file name b p m src := by
  constructor
  · intro h
    cases h with
    | here h => exact ⟨rfl, List.mem_singleton.1 h⟩
    | down h h' => cases List.mem_singleton.1 h
  · rintro ⟨rfl, rfl⟩; exact .here (.head _)

theorem Holds_dir {d src : Str} {cs : List Node} {ds : List Str} {n : Node} :
    Holds [.dir d cs src] ds n ↔ (ds = [] ∧ n = .dir d cs src) ∨ ∃ ds', ds = d :: ds' ∧ Holds cs ds' n := by
  constructor
  · intro h
    cases h with
    | here h => exact .inl ⟨rfl, List.mem_singleton.1 h⟩
    | down h h' => cases List.mem_singleton.1 h; exact .inr ⟨_, rfl, h'⟩
  · rintro (⟨rfl, rfl⟩ | ⟨ds', rfl, h⟩)
    · exact .here (.head _)
    · exact .down (.head _) h

variable {cfg : Config}

theorem Goes_cons {c : Node} {cs : List Node} {r : Path} {b : Bytes} :
    Goes cfg (c :: cs) r b ↔ Goes cfg [c] r b ∨ Goes cfg cs r b := by
  constructor
  · intro h
    cases h with
    | plain h h1 h2 => exact (Holds_cons.1 h).elim (fun h => .inl (.plain h h1 h2)) (fun h => .inr (.plain h h1 h2))
    | page h h1 h2 => exact (Holds_cons.1 h).elim (fun h => .inl (.page h h1 h2)) (fun h => .inr (.page h h1 h2))
  · rintro (h | h)
    · cases h with
      | plain h h1 h2 => exact .plain (Holds_cons.2 (.inl h)) h1 h2
      | page h h1 h2 => exact .page (Holds_cons.2 (.inl h)) h1 h2
    · cases h with
      | plain h h1 h2 => exact .plain (Holds_cons.2 (.inr h)) h1 h2
      | page h h1 h2 => exact .page (Holds_cons.2 (.inr h)) h1 h2

theorem GoesDir_cons {c : Node} {cs : List Node} {r : Path} :
    GoesDir cfg (c :: cs) r ↔ GoesDir cfg [c] r ∨ GoesDir cfg cs r := by
  constructor
  · intro h
    cases h with
    | dir h => exact (Holds_cons.1 h).elim (fun h => .inl (.dir h)) (fun h => .inr (.dir h))
    | page h h1 h2 => exact (Holds_cons.1 h).elim (fun h => .inl (.page h h1 h2)) (fun h => .inr (.page h h1 h2))
  · rintro (h | h)
    · cases h with
      | dir h => exact .dir (Holds_cons.2 (.inl h))
      | page h h1 h2 => exact .page (Holds_cons.2 (.inl h)) h1 h2
    · cases h with
      | dir h => exact .dir (Holds_cons.2 (.inr h))
      | page h h1 h2 => exact .page (Holds_cons.2 (.inr h)) h1 h2

theorem Goes_dir {d src : Str} {cs : List Node} {r : Path} {b : Bytes} :
    Goes cfg [.dir d cs src] r b ↔ ∃ r', r = d :: r' ∧ Goes cfg cs r' b := by
  constructor
  · intro h
    cases h with
    | plain h h1 h2 =>
      rcases Holds_dir.1 h with ⟨_, k⟩ | ⟨ds', rfl, k⟩
      · cases k
      · exact ⟨_, rfl, .plain k h1 h2⟩
    | page h h1 h2 =>
      rcases Holds_dir.1 h with ⟨_, k⟩ | ⟨ds', rfl, k⟩
      · cases k
      · exact ⟨_, rfl, .page k h1 h2⟩
  · rintro ⟨r', rfl, h⟩
    cases h with
    | plain h h1 h2 => exact .plain (ds := d :: _) (.down (.head _) h) h1 h2
    | page h h1 h2 => exact .page (ds := d :: _) (.down (.head _) h) h1 h2

theorem GoesDir_dir {d src : Str} {cs : List Node} {r : Path} :
    GoesDir cfg [.dir d cs src] r ↔ r = [d] ∨ ∃ r', r = d :: r' ∧ GoesDir cfg cs r' := by
  constructor
  · intro h
    cases h with
    | dir h =>
      rcases Holds_dir.1 h with ⟨rfl, k⟩ | ⟨ds', rfl, k⟩
      · cases k; exact .inl rfl
      · exact .inr ⟨_, rfl, .dir k⟩
    | page h h1 h2 =>
      rcases Holds_dir.1 h with ⟨_, k⟩ | ⟨ds', rfl, k⟩
      · cases k
      · exact .inr ⟨_, rfl, .page k h1 h2⟩
  · rintro (rfl | ⟨r', rfl, h⟩)
    · exact .dir (ds := []) (.here (.head _))
    · cases h with
      | dir h => exact .dir (ds := d :: _) (.down (.head _) h)
      | page h h1 h2 => exact .page (ds := d :: _) (.down (.head _) h) h1 h2

theorem stripSuffix_append (suf s : Str) : stripSuffix suf (s ++ suf) = some s := by
  have aux : ∀ p s : Str, stripPrefix p (p ++ s) = some s := by
    intro p s
    induction p with
    | nil => rfl
    | cons c p ih => rw [List.cons_append, stripPrefix, if_pos rfl, ih]
  simp [stripSuffix, aux]

theorem published_iff {name : Str} :
    (name != str!"root.html" && name != str!"md.html" && (cfg.saveDataFiles || !endsWith str!".json" name)) = true ↔
      Published cfg name := by
  simp only [Bool.and_eq_true, bne_iff_ne, Bool.or_eq_true, Bool.not_eq_true', endsWith, Published, and_assoc,
    ← Bool.not_eq_true, List.isSuffixOf_iff_suffix]

theorem ownDir_iff {name : Str} {p : Parsed} :
    (cfg.stripExtensions && endsWith str!".html" name && name != str!"index.html" && !p.isIgnored) = true ↔
      ∃ stem, OwnDir cfg name stem p := by
  have hi : p.isIgnored = false ↔ p ≠ .ignored := by cases p <;> simp [Parsed.isIgnored]
  simp only [Bool.and_eq_true, bne_iff_ne, Bool.not_eq_true', endsWith, OwnDir, hi, List.isSuffixOf_iff_suffix]
  constructor
  · rintro ⟨⟨⟨h1, ⟨s, h2⟩⟩, h3⟩, h4⟩
    exact ⟨s, h1, h2.symm, h3, h4⟩
  · rintro ⟨s, h1, h2, h3, h4⟩
    exact ⟨⟨⟨h1, ⟨s, h2.symm⟩⟩, h3⟩, h4⟩

theorem saveFile_ops {p : Path} {name : Str} {b : Bytes} {parsed : Parsed} {m : Option Value} {src : Str}
    (hn : PlainName name ∧ (cfg.stripExtensions = true → name ≠ str!"...html")) :
    (saveRec cfg p (.file name b parsed m src) = [] ∧ ¬ Published cfg name) ∨
    (Published cfg name ∧ (∀ stem, ¬ OwnDir cfg name stem parsed) ∧
      saveRec cfg p (.file name b parsed m src) = [.write (p ++ [name]) b]) ∨
    (Published cfg name ∧ ∃ stem, OwnDir cfg name stem parsed ∧
      saveRec cfg p (.file name b parsed m src) =
        [.mkdirTolerant (p ++ stemDir stem), .write (p ++ stemDir stem ++ [str!"index.html"]) b]) := by
  rw [saveRec]
  by_cases h1 : Published cfg name
  · rw [if_pos (published_iff.2 h1)]
    by_cases h2 : ∃ stem, OwnDir cfg name stem parsed
    · rw [if_pos (ownDir_iff.2 h2)]
      obtain ⟨stem, h2⟩ := h2
      have hs : stripSuffix str!".html" name = some stem := by rw [h2.2.1]; exact stripSuffix_append _ _
      have h3 : stem ≠ str!".." := by
        rintro rfl
        exact hn.2 h2.1 h2.2.1
      have h4 : '/' ∉ stem := by
        intro h; exact hn.1.2.2.2 (by rw [h2.2.1]; exact List.mem_append_left _ h)
      refine .inr (.inr ⟨h1, stem, h2, ?_⟩)
      simp only [hs, Option.getD_some, joinPath_stem h3 h4, joinPath_index]
    · rw [if_neg (mt ownDir_iff.1 h2)]
      refine .inr (.inl ⟨h1, fun stem hs => h2 ⟨stem, hs⟩, ?_⟩)
      rw [joinPath_plain hn.1]
  · exact .inl ⟨by rw [if_neg (mt published_iff.1 h1)], h1⟩

theorem OwnDir_stem {name s t : Str} {p : Parsed} (h1 : OwnDir cfg name s p) (h2 : OwnDir cfg name t p) : s = t := by
  have := h1.2.1.symm.trans h2.2.1
  exact List.append_cancel_right this

mutual
/-- The changes made for a node are those the specification asks for. -/
theorem saveRec_ops (p : Path) (n : Node) (h : PlainNames cfg [n]) (o : Op) :
    o ∈ saveRec cfg p n ↔
      (∃ r b, o = .write (p ++ r) b ∧ Goes cfg [n] r b) ∨ (∃ r, o = .mkdirTolerant (p ++ r) ∧ GoesDir cfg [n] r) := by
  cases n with
  | dir d cs src =>
    have hd : PlainName d := (h [] _ (.here (.head _))).1
    have hcs : PlainNames cfg cs := fun ds n hh => h (d :: ds) n (.down (.head _) hh)
    rw [saveRec, joinPath_plain hd, List.mem_cons, saveAll_ops (p ++ [d]) cs hcs o]
    constructor
    · rintro (rfl | ⟨r, b, rfl, hr⟩ | ⟨r, rfl, hr⟩)
      · exact .inr ⟨[d], rfl, GoesDir_dir.2 (.inl rfl)⟩
      · exact .inl ⟨d :: r, b, by simp, Goes_dir.2 ⟨r, rfl, hr⟩⟩
      · exact .inr ⟨d :: r, by simp, GoesDir_dir.2 (.inr ⟨r, rfl, hr⟩)⟩
    · rintro (⟨r, b, rfl, hr⟩ | ⟨r, rfl, hr⟩)
      · obtain ⟨r', rfl, kr⟩ := Goes_dir.1 hr
        exact .inr (.inl ⟨r', b, by simp, kr⟩)
      · rcases GoesDir_dir.1 hr with rfl | ⟨r', rfl, kr⟩
        · exact .inl rfl
        · exact .inr (.inr ⟨r', by simp, kr⟩)
  | file name b parsed m src =>
    have hn := h [] _ (.here (.head _))
    rcases saveFile_ops (p := p) (name := name) (b := b) (parsed := parsed) (m := m) (src := src) hn with
      ⟨he, hp⟩ | ⟨hp, ho, he⟩ | ⟨hp, stem, ho, he⟩
    · rw [he]
      refine ⟨nofun, ?_⟩
      rintro (⟨r, b, rfl, hr⟩ | ⟨r, rfl, hr⟩)
      · cases hr with
        | plain h h1 => cases (Holds_file.1 h).2; exact absurd h1 hp
        | page h h1 => cases (Holds_file.1 h).2; exact absurd h1 hp
      · cases hr with
        | dir h => cases (Holds_file.1 h).2
        | page h h1 => cases (Holds_file.1 h).2; exact absurd h1 hp
    · rw [he, List.mem_singleton]
      constructor
      · rintro rfl
        exact .inl ⟨[name], b, rfl, .plain (ds := []) (.here (.head _)) hp ho⟩
      · rintro (⟨r, b, rfl, hr⟩ | ⟨r, rfl, hr⟩)
        · cases hr with
          | plain h h1 => obtain ⟨rfl, k⟩ := Holds_file.1 h; cases k; rfl
          | page h h1 h2 => obtain ⟨rfl, k⟩ := Holds_file.1 h; cases k; exact absurd h2 (ho _)
        · cases hr with
          | dir h => cases (Holds_file.1 h).2
          | page h h1 h2 => obtain ⟨rfl, k⟩ := Holds_file.1 h; cases k; exact absurd h2 (ho _)
    · rw [he, List.mem_cons, List.mem_singleton]
      constructor
      · rintro (rfl | rfl)
        · exact .inr ⟨stemDir stem, rfl, .page (ds := []) (.here (.head _)) hp ho⟩
        · exact .inl ⟨stemDir stem ++ [str!"index.html"], b, by simp, .page (ds := []) (.here (.head _)) hp ho⟩
      · rintro (⟨r, b, rfl, hr⟩ | ⟨r, rfl, hr⟩)
        · cases hr with
          | plain h h1 h2 => obtain ⟨rfl, k⟩ := Holds_file.1 h; cases k; exact absurd ho (h2 _)
          | page h h1 h2 =>
            obtain ⟨rfl, k⟩ := Holds_file.1 h; cases k
            rw [OwnDir_stem h2 ho]; right; simp
        · cases hr with
          | dir h => cases (Holds_file.1 h).2
          | page h h1 h2 =>
            obtain ⟨rfl, k⟩ := Holds_file.1 h; cases k
            rw [OwnDir_stem h2 ho]; left; simp
/-- The same for the children of a directory. -/
theorem saveAll_ops (p : Path) (cs : List Node) (h : PlainNames cfg cs) (o : Op) :
    o ∈ saveAll cfg p cs ↔
      (∃ r b, o = .write (p ++ r) b ∧ Goes cfg cs r b) ∨ (∃ r, o = .mkdirTolerant (p ++ r) ∧ GoesDir cfg cs r) := by
  cases cs with
  | nil =>
    rw [saveAll]
    refine ⟨nofun, ?_⟩
    rintro (⟨r, b, rfl, hr⟩ | ⟨r, rfl, hr⟩)
    · cases hr with
      | plain h => exact (Holds_nil h).elim
      | page h => exact (Holds_nil h).elim
    · cases hr with
      | dir h => exact (Holds_nil h).elim
      | page h => exact (Holds_nil h).elim
  | cons c cs =>
    have h1 : PlainNames cfg [c] := fun ds n hh => h ds n (Holds_cons.2 (.inl hh))
    have h2 : PlainNames cfg cs := fun ds n hh => h ds n (Holds_cons.2 (.inr hh))
    rw [saveAll, List.mem_append, saveRec_ops p c h1 o, saveAll_ops p cs h2 o]
    constructor
    · rintro ((⟨r, b, rfl, hr⟩ | ⟨r, rfl, hr⟩) | (⟨r, b, rfl, hr⟩ | ⟨r, rfl, hr⟩))
      · exact .inl ⟨r, b, rfl, Goes_cons.2 (.inl hr)⟩
      · exact .inr ⟨r, rfl, GoesDir_cons.2 (.inl hr)⟩
      · exact .inl ⟨r, b, rfl, Goes_cons.2 (.inr hr)⟩
      · exact .inr ⟨r, rfl, GoesDir_cons.2 (.inr hr)⟩
    · rintro (⟨r, b, rfl, hr⟩ | ⟨r, rfl, hr⟩)
      · rcases Goes_cons.1 hr with k | k
        · exact .inl (.inl ⟨r, b, rfl, k⟩)
        · exact .inr (.inl ⟨r, b, rfl, k⟩)
      · rcases GoesDir_cons.1 hr with k | k
        · exact .inl (.inr ⟨r, rfl, k⟩)
        · exact .inr (.inr ⟨r, rfl, k⟩)
end

/-- All changes of a save are at the output directory or below it. -/
theorem saveAll_target {p : Path} {cs : List Node} (h : PlainNames cfg cs) {o : Op} (ho : o ∈ saveAll cfg p cs) :
    p <+: o.target ∧ (p ≠ [] → o.Adds) := by
  rcases (saveAll_ops p cs h o).1 ho with ⟨r, b, rfl, _⟩ | ⟨r, rfl, _⟩
  · exact ⟨⟨r, rfl⟩, fun hp => by simp [Op.Adds, hp]⟩
  · exact ⟨⟨r, rfl⟩, fun hp => by simp [Op.Adds, hp]⟩

/-- Right after the output directory has been made. -/
theorem clear_mkdir {path : Path} {os : List Op} {w : World} (hp : path ≠ [])
    (h : (runOps (.clear path :: .mkdir path :: os) w).2 = .ok ()) :
    ∃ w', runOps (.clear path :: .mkdir path :: os) w = runOps os w' ∧
      (∀ r, look w'.disk (path ++ r) = if r = [] then some .dir else none) ∧
      look w.disk path.dropLast = some .dir := by
  obtain ⟨h1, e1⟩ := runOps_cons_ok h
  rw [e1] at h ⊢
  obtain ⟨h2, e2⟩ := runOps_cons_ok h
  rw [e2] at h ⊢
  refine ⟨_, rfl, ?_⟩
  have a1 := World.step_ok h1
  have a2 := World.step_ok h2
  generalize (w.step (.clear path)).1 = w1 at a1 a2 ⊢
  generalize (w1.step (.mkdir path)).1 = w2 at a2 ⊢
  simp only [Op.apply] at a2
  split at a2
  · cases a2
  · split at a2
    · rename_i hd
      injection a2 with a2
      rw [← a2]
      have hd := isDirAt_iff.1 hd
      constructor
      · intro r
        rw [look_put_inside hp r hd]
        cases r <;> rfl
      · rw [← hd]
        refine (apply_outside a1 ?_).symm
        intro hc
        have := hc.length_le
        simp only [Op.target, List.length_dropLast] at this
        have : path.length ≠ 0 := by simpa using hp
        omega
    · cases a2

end Stuart
