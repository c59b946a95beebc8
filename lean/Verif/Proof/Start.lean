import Verif.Spec.Start
import Verif.Proof.Publish
import Verif.Proof.Utf8
import Verif.Proof.Scope
import Verif.Proof.Plugins
/-
Starting the program: lemmas.
-/
namespace Stuart
open Spec

theorem exists_iff {d : Entry} {p : Path} : d.existsAt p = true ↔ look d p ≠ none := by
  unfold Entry.existsAt look
  cases d.at p <;> simp

theorem takes_iff {q p : Path} {x : Str} :
    Takes q x p ↔ p = if x = [] || x = str!"." then q else if x = str!".." then q.dropLast else q ++ [x] := by
  constructor
  · rintro (_ | _ | _ | ⟨h1, h2, h3⟩)
    · rfl
    · rfl
    · rfl
    · simp [h1, h2, h3]
  · rintro rfl
    by_cases h1 : x = []
    · subst h1; exact .nothing
    · by_cases h2 : x = str!"."
      · subst h2; exact .dot
      · by_cases h3 : x = str!".."
        · subst h3; exact .up
        · simpa [h1, h2, h3] using Takes.down h1 h2 h3

theorem append_sep_inj {d : Char} : ∀ {a b x y : Str}, d ∉ a → d ∉ b → a ++ d :: x = b ++ d :: y → a = b ∧ x = y
  | [], [], _, _, _, _, h => by simpa using h
  | [], c :: b, _, _, _, h2, h => by simp at h; simp [h.1] at h2
  | c :: a, [], _, _, h1, _, h => by simp at h; simp [h.1] at h1
  | c :: a, c' :: b, _, _, h1, h2, h => by
    simp only [List.cons_append, List.cons.injEq] at h
    obtain ⟨k1, k2⟩ := append_sep_inj (fun k => h1 (.tail _ k)) (fun k => h2 (.tail _ k)) h.2
    exact ⟨by rw [h.1, k1], k2⟩

theorem walkPath_way {d : Entry} {p : Path} (s : Str) (q : Path) : walkPath d q (splitOn '/' s) = some p ↔ Way d q s p := by
  by_cases hs : '/' ∈ s
  · obtain ⟨n, r, hr, hn⟩ := List.eq_append_cons_of_mem hs
    rw [hr, splitOn_cons_sep _ _ _ hn]
    simp only [walkPath]
    have ih := fun q' => walkPath_way (d := d) (p := p) r q'
    constructor
    · intro h
      split at h
      · rename_i hd
        exact .more hn (isDirAt_iff.1 hd) (takes_iff.2 rfl) ((ih _).1 h)
      · cases h
    · intro h
      generalize ht : n ++ '/' :: r = t at h
      cases h with
      | last h1 => subst ht; simp at h1
      | more h1 h2 h3 h4 =>
        have hnr := append_sep_inj hn h1 ht
        obtain ⟨rfl, rfl⟩ := hnr
        rw [if_pos (isDirAt_iff.2 h2), ← takes_iff.1 h3]
        exact (ih _).2 h4
  · rw [splitOn_nodot _ _ hs]
    simp only [walkPath]
    constructor
    · intro h
      split at h
      · rename_i hd
        generalize hg : (if s = [] || s = str!"." then q else if s = str!".." then q.dropLast else q ++ [s]) = g at h
        split at h
        · rename_i he
          cases h
          exact .last hs (isDirAt_iff.1 hd) (takes_iff.2 hg.symm) (exists_iff.1 he)
        · cases h
      · cases h
    · intro h
      cases h with
      | last h1 h2 h3 h4 =>
        rw [if_pos (isDirAt_iff.2 h2), ← takes_iff.1 h3, if_pos (exists_iff.2 h4)]
      | more h1 => exact absurd (by simp) hs
termination_by s.length
decreasing_by subst hr; simp; omega

theorem canonicalize_names {d : Entry} {cwd p : Path} {s : Str} : canonicalize d cwd s = some p ↔ Names d cwd s p := by
  unfold canonicalize Names
  split
  · simp
  · rename_i r
    rw [walkPath_way]
    constructor
    · exact fun h => .inl ⟨r, rfl, h⟩
    · rintro (⟨r', h1, h2⟩ | ⟨_, h, _⟩)
      · cases h1; exact h2
      · exact absurd rfl (h r)
  · rename_i h1 h2
    rw [walkPath_way]
    constructor
    · exact fun h => .inr ⟨h1, h2, h⟩
    · rintro (⟨r', rfl, _⟩ | ⟨_, _, h⟩)
      · exact absurd rfl (h2 r')
      · exact h

theorem canonicalize_none {d : Entry} {cwd : Path} {s : Str} : canonicalize d cwd s = none ↔ ∀ p, ¬ Names d cwd s p := by
  rw [Option.eq_none_iff_forall_ne_some]
  exact forall_congr' fun p => not_congr canonicalize_names

/-- A plain name is the entry of that name in the working directory. -/
theorem canonicalize_plain {d : Entry} {cwd p : Path} {n : Str} (hn : PlainName n) (h : canonicalize d cwd n = some p) :
    p = cwd ++ [n] := by
  obtain ⟨h1, h2, h3, h4⟩ := hn
  rcases canonicalize_names.1 h with ⟨r, rfl, _⟩ | ⟨_, _, hw⟩
  · simp at h4
  · cases hw with
    | last _ _ ht _ => rw [takes_iff.1 ht]; simp [h1, h2, h3]
    | more => simp at h4

theorem canonicalize_there {d : Entry} {cwd : Path} {n : Str} (hn : PlainName n) (h1 : look d cwd = some .dir)
    (h2 : look d (cwd ++ [n]) ≠ none) : canonicalize d cwd n = some (cwd ++ [n]) := by
  obtain ⟨k1, k2, k3, k4⟩ := hn
  refine canonicalize_names.2 (.inr ⟨k1, fun r hr => by simp [hr] at k4, .last k4 h1 (.down k1 k2 k3) h2⟩)

/-- What a successful start amounts to. -/
theorem Context.init_ok {L : Loader} {cwd : Path} {manifest output mode : Str} {s s' : Host} {c : Context}
    (h : Context.init L cwd manifest output mode s = (s', .ok c)) :
    ∃ path b text raw plugins, canonicalize s.world.disk cwd manifest = some path ∧ s.world.disk.at path = some (.file b) ∧
      fromUtf8 b = some text ∧ L.parseToml text = .ok raw ∧ L.loadPlugins raw.dependencies path.dropLast s = (s', .ok plugins) ∧
      c = {
        stuart := { dir := path.dropLast ++ [str!"content"], config := raw.toConfig, plugins := plugins }
        pre := findScripts preNames s'.world.disk (path.dropLast ++ [str!"scripts"])
        post := findScripts postNames s'.world.disk (path.dropLast ++ [str!"scripts"])
        env := [(str!"STUART_MANIFEST_PATH", pathStr path), (str!"STUART_MANIFEST_DIR", dirStr path.dropLast),
          (str!"STUART_TEMP_DIR", pathStr (path.dropLast ++ [str!"temp"])), (str!"STUART_OUT_DIR", joinStr path.dropLast output),
          (str!"STUART_ENV", mode)]
        mode := mode
        dir := path.dropLast
        output := output } := by
  unfold Context.init at h
  split at h
  · cases h
  · rename_i path hp
    split at h
    · rename_i b hb
      split at h
      · cases h
      · rename_i text ht
        split at h
        · split at h <;> cases h
        · rename_i raw hr
          simp only at h
          split at h
          · cases h
          · cases h
          · rename_i s1 plugins hl
            cases h
            exact ⟨path, b, text, raw, plugins, hp, hb, ht, hr, hl, rfl⟩
    · cases h

end Stuart
