import Verif.Proof.Plugins
import Verif.Proof.Save
import Verif.Spec.Fetch
/-
Lemmas on fetching plugins: where they are kept, and what is changed.
-/
namespace Stuart
open Spec

/-- The directory a plugin is kept in. -/
theorem pluginDir_eq (root : Path) {name : Str} (h : PlainName name) :
    joinPath root (str!"_build/plugins/" ++ name) = root ++ [str!"_build", str!"plugins", name] := by
  obtain ⟨h1, h2, h3, h4⟩ := h
  have hs : splitOn '/' (str!"_build/plugins/" ++ name) = [str!"_build", str!"plugins", name] := by
    have := splitOn_sepBy '/' [str!"plugins", name] str!"_build" (by decide) (by simp; exact h4)
    simpa [sepBy] using this
  have h2' : name ≠ ['.'] := h2
  have h3' : name ≠ ['.', '.'] := h3
  unfold joinPath components
  rw [hs]
  simp [restComps, h1, h2', h3']

theorem mkdir_apply {d d' : Entry} {p : Path} (h : (Op.mkdir p).apply d = some d') (q : Path) :
    look d' q = if q = p then some .dir else look d q := by
  have hp : p ≠ [] := by
    rintro rfl
    simp [Op.apply, Entry.at] at h
  have hn : look d p = none := by
    simp only [Op.apply] at h
    split at h
    · cases h
    · rename_i k; exact at_none_iff.1 k
  have ht : (Op.mkdirTolerant p).apply d = some d' := by
    have := at_none_iff.2 hn
    simp only [Op.apply, this] at h ⊢
    exact h
  have := (adds_step (o := .mkdirTolerant p) hp ht q).1
  simpa [Op.seen, hn] using this

/-- What is there already need not be made. -/
theorem createDirAll_skip {w : World} {a b : Path} : ∀ {done : Path}, look w.disk (done ++ a) = some .dir →
    createDirAll done (a ++ b) w = createDirAll (done ++ a) b w := by
  induction a with
  | nil => intro done _; simp
  | cons n a ih =>
    intro done h
    have hn : look w.disk (done ++ [n]) = some .dir := by
      cases a with
      | nil => exact h
      | cons m a =>
        refine look_above (r := m :: a) (by simp) ?_
        rw [List.append_assoc, List.singleton_append, h]; nofun
    rw [List.cons_append, createDirAll, if_pos (isDirAt_iff.2 hn), ih (by simpa using h)]
    simp

/-- Making directories changes nothing outside of them. -/
theorem createDirAll_outside {q : Path} {p : Path} : ∀ {done : Path} {w : World}, (∀ n r, p = n :: r → ¬ (done ++ [n]) <+: q) →
    look (createDirAll done p w).1.disk q = look w.disk q := by
  induction p with
  | nil => intro done w _; rfl
  | cons n p ih =>
    intro done w h
    have hn := h n p rfl
    have hnext : ∀ m r, p = m :: r → ¬ (done ++ [n] ++ [m]) <+: q := fun m r _ hc =>
      hn ((List.prefix_append _ _).trans hc)
    rw [createDirAll]
    split
    · exact ih hnext
    · simp only
      split
      · rw [ih hnext]
        exact World.step_outside _ _ hn
      · exact World.step_outside _ _ hn

open Classical in
/-- When it succeeds the directories are there, and all else is as before. -/
theorem createDirAll_made {p : Path} : ∀ {done : Path} {w : World}, (createDirAll done p w).2 = true → ∀ q,
    look (createDirAll done p w).1.disk q =
      if ∃ r, r <+: p ∧ r ≠ [] ∧ q = done ++ r then some .dir else look w.disk q := by
  induction p with
  | nil =>
    intro done w _ q
    rw [if_neg]
    · rfl
    · rintro ⟨r, h1, h2, _⟩
      exact h2 (List.prefix_nil.1 h1)
  | cons n p ih =>
    intro done w h q
    have split_cond : (∃ r, r <+: n :: p ∧ r ≠ [] ∧ q = done ++ r) ↔
        q = done ++ [n] ∨ ∃ r, r <+: p ∧ r ≠ [] ∧ q = done ++ [n] ++ r := by
      constructor
      · rintro ⟨r, h1, h2, rfl⟩
        cases r with
        | nil => exact absurd rfl h2
        | cons m r =>
          obtain ⟨rfl, h3⟩ := List.cons_prefix_cons.1 h1
          cases r with
          | nil => exact .inl rfl
          | cons k r => exact .inr ⟨k :: r, h3, by simp, by simp⟩
      · rintro (rfl | ⟨r, h1, _, rfl⟩)
        · exact ⟨[n], by simp, by simp, rfl⟩
        · exact ⟨n :: r, List.cons_prefix_cons.2 ⟨rfl, h1⟩, by simp, by simp⟩
    by_cases hd : w.disk.isDirAt (done ++ [n])
    · have e : createDirAll done (n :: p) w = createDirAll (done ++ [n]) p w := by rw [createDirAll, if_pos hd]
      rw [e] at h ⊢
      rw [ih h]
      simp only [split_cond]
      by_cases hq : q = done ++ [n]
      · rw [if_pos (Or.inl hq)]
        split
        · rfl
        · rw [hq]; exact isDirAt_iff.1 hd
      · simp [hq]
    · have e : createDirAll done (n :: p) w = if (w.step (.mkdir (done ++ [n]))).2 then
          createDirAll (done ++ [n]) p (w.step (.mkdir (done ++ [n]))).1 else ((w.step (.mkdir (done ++ [n]))).1, false) := by
        rw [createDirAll, if_neg hd]
      cases hs : (w.step (.mkdir (done ++ [n]))).2 with
      | false => rw [e, hs] at h; cases h
      | true =>
        rw [hs, if_pos rfl] at e
        rw [e] at h ⊢
        rw [ih h]
        simp only [split_cond]
        rw [mkdir_apply (World.step_ok hs)]
        by_cases hq : q = done ++ [n]
        · rw [if_pos (Or.inl hq)]
          split
          · rfl
          · simp
        · simp [hq]

theorem lastPiece_noSlash (s : Str) : '/' ∉ lastPiece s := by
  unfold lastPiece
  induction s with
  | nil => simp [splitOn]
  | cons c cs ih =>
    rw [splitOn]
    cases hk : splitOn '/' cs with
    | nil => exact absurd hk (splitOn_ne_nil '/' cs)
    | cons q qs =>
      rw [hk] at ih
      split
      · simpa [List.getLast?_cons_cons] using ih
      · rename_i hc
        cases qs with
        | nil => simpa [Ne.symm hc] using ih
        | cons r rs => simpa [List.getLast?_cons_cons] using ih

/-- The last piece of an address. -/
theorem lastPiece_eq {pre file : Str} (h : '/' ∉ file) : lastPiece (pre ++ '/' :: file) = file := by
  unfold lastPiece
  induction pre with
  | nil => simp [splitOn, splitOn_none h]
  | cons c cs ih =>
    rw [List.cons_append, splitOn]
    cases hk : splitOn '/' (cs ++ '/' :: file) with
    | nil => exact absurd hk (splitOn_ne_nil '/' _)
    | cons q qs =>
      rw [hk] at ih
      split
      · simpa [List.getLast?_cons_cons] using ih
      · cases qs with
        | nil =>
          exfalso
          have hs := sepBy_splitOn '/' _ hk
          simp only [sepBy, List.flatMap_nil, List.append_nil] at hs
          have : '/' ∉ q := by
            have hf : ∀ s : Str, ∀ x ∈ splitOn '/' s, '/' ∉ x := by
              intro s
              induction s with
              | nil => simp [splitOn]
              | cons d ds ih =>
                rw [splitOn]
                cases hk : splitOn '/' ds with
                | nil => exact absurd hk (splitOn_ne_nil '/' ds)
                | cons y ys =>
                  rw [hk] at ih
                  split
                  · intro x hx
                    rcases List.mem_cons.1 hx with rfl | hx
                    · simp
                    · exact ih x hx
                  · rename_i hd
                    intro x hx
                    rcases List.mem_cons.1 hx with rfl | hx
                    · have := ih y (by simp)
                      simp [Ne.symm hd, this]
                    · exact ih x (by simp [hx])
            exact hf _ q (by rw [hk]; simp)
          rw [hs] at this
          simp at this
        | cons r rs => simpa [List.getLast?_cons_cons] using ih

theorem endsIn_piece {src file : Str} (h : EndsIn src file) : namesFile src = true ∧ lastPiece src = file := by
  have key : lastPiece src = file := by
    obtain ⟨pre, rfl, h2, h3⟩ := h
    rcases h2 with rfl | ⟨p, rfl⟩
    · unfold lastPiece
      rw [List.nil_append, splitOn_none h3.2.2.2]; rfl
    · rw [List.append_assoc]
      exact lastPiece_eq h3.2.2.2
  refine ⟨?_, key⟩
  obtain ⟨_, _, _, h1, h2, h3, _⟩ := h
  unfold namesFile
  rw [key]
  have h2' : file ≠ ['.'] := h2
  have h3' : file ≠ ['.', '.'] := h3
  simp [h1, h2', h3']

/-- A piece of an address does not lead further out than the directory above. -/
theorem joinPath_piece {a : Path} {n s : Str} (hs : '/' ∉ s) : a <+: joinPath (a ++ [n]) s := by
  by_cases h : s = str!".."
  · subst h
    have : joinPath (a ++ [n]) str!".." = a := by
      unfold joinPath components
      simp [splitOn, restComps]
    rw [this]
    exact List.prefix_refl _
  · rw [joinPath_stem h hs, List.append_assoc]
    exact List.prefix_append _ _

/-! ### What fetching leaves alone -/

section
variable {O : Outside} {q : Path}

theorem buildCargo_spares (h : Spares O q) (p : Path) (s : LoadSt) :
    look (buildCargo O p s).1.world.disk q = look s.world.disk q := by
  have := h.cargo s.tick (p ++ [str!"Cargo.toml"]) s.world.disk
  unfold buildCargo
  simp only
  repeat' split
  all_goals exact this

theorem loadBinary_world (p : Path) (s : LoadSt) : (loadBinary O p s).1.world = s.world := by
  unfold loadBinary
  simp only
  split <;> rfl

theorem managerLoad_world (p : Path) (n : Str) (s : LoadSt) : (managerLoad O p n s).1.world = s.world := by
  unfold managerLoad
  simp only
  repeat' split
  all_goals first | rfl | exact loadBinary_world _ _

theorem andThen_fst {α β : Type} (P : LoadSt → Prop) {r : LoadSt × Res LoadErr α} {f : α → LoadSt → LoadSt × Res LoadErr β}
    (h1 : P r.1) (h2 : ∀ a, P r.1 → P (f a r.1).1) : P (LoadSt.andThen r f).1 := by
  obtain ⟨s, r⟩ := r
  cases r with
  | ok a => exact h2 a h1
  | err e => exact h1
  | panic p => exact h1

theorem loadFromSource_spares {root : Path} {name : Str} (hn : PlainName name) (h : Spares O q) (hq : ¬ (root ++ [str!"_build"]) <+: q)
    (src : Str) (s : LoadSt) (hroot : look s.world.disk root = some .dir) :
    look (loadFromSource O root name src s).1.world.disk q = look s.world.disk q := by
  have below : ∀ r : Path, (root ++ [str!"_build"]) <+: r → ¬ r <+: q := fun r h1 h2 => hq (h1.trans h2)
  have hdirs : ∀ (w : World) (r : Path), look w.disk root = some .dir →
      look (createDirAll [] (root ++ str!"_build" :: r) w).1.disk q = look w.disk q := by
    intro w r hr
    rw [createDirAll_skip (by simpa using hr)]
    refine createDirAll_outside fun n r' e => ?_
    cases e
    simpa using hq
  have hdir := pluginDir_eq root hn
  unfold loadFromSource
  simp only
  split
  · rw [managerLoad_world]
  · split
    · refine andThen_fst (fun t => look t.world.disk q = look s.world.disk q) (buildCargo_spares h _ _) fun a k => ?_
      rw [loadBinary_world]; exact k
    · split
      · unfold loadGit fetchRepo
        refine andThen_fst (fun t => look t.world.disk q = look s.world.disk q) ?_ fun a k => ?_
        · simp only
          split
          · split
            · exact (h.clone _ _ _ _).trans (hdirs s.world _ hroot)
            · exact hdirs s.world _ hroot
          · exact h.pull _ _ _
        · simp only at k ⊢
          split
          · exact k
          · refine andThen_fst (fun t => look t.world.disk q = look s.world.disk q) ?_ fun b k' => ?_
            · exact (buildCargo_spares h _ _).trans k
            · rw [loadBinary_world]; exact k'
      · split
        · unfold loadDownload
          rw [hdir]
          have hw : ∀ w : World, look (w.step (.write (joinPath (root ++ [str!"_build", str!"plugins", name]) (lastPiece src)) ‹Bytes›)).1.disk q
              = look w.disk q := by
            intro w
            refine World.step_outside _ _ (below _ ?_)
            have := joinPath_piece (a := root ++ [str!"_build", str!"plugins"]) (n := name) (lastPiece_noSlash src)
            refine List.IsPrefix.trans (l₂ := root ++ [str!"_build", str!"plugins"]) ⟨[str!"plugins"], by simp⟩ ?_
            show _ <+: joinPath _ _
            simpa using this
          have hm : look (if s.world.disk.existsAt (root ++ [str!"_build", str!"plugins", name]) = true then (s.world, true)
              else createDirAll [] (root ++ [str!"_build", str!"plugins", name]) s.world).1.disk q = look s.world.disk q := by
            split
            · rfl
            · exact hdirs s.world _ hroot
          simp only
          generalize (if s.world.disk.existsAt (root ++ [str!"_build", str!"plugins", name]) = true then (s.world, true)
              else createDirAll [] (root ++ [str!"_build", str!"plugins", name]) s.world) = m at hm ⊢
          split
          · split
            · rw [managerLoad_world, hw]; exact hm
            · rw [hw]; exact hm
          · exact hm
        · rfl

end

end Stuart
