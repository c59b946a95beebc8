import Verif.Spec.Tables
import Verif.Props.Bench
import Verif.Props.Start
/-
The tables behind C05, C31, C51 and C68: white space, letters and digits, numbers in decimal, and paths as text.
-/
namespace Stuart
open Spec

/-- C68. The characters allowed as white space around the parts of a tag are those of the Unicode table. -/
theorem C68_white (c : Char) : isWs c = true ↔ c.toNat ∈ whiteSpace := by
  simp only [isWs, whiteSpace, Bool.or_eq_true, Bool.and_eq_true, decide_eq_true_eq, beq_iff_eq, List.mem_cons,
    List.not_mem_nil, or_false]
  omega

/-- C05. The characters of names within ASCII. -/
theorem C05_letters (U : Unicode) (c : Char) (h : c.toNat < 128) : U.alnum c = true ↔ c ∈ lettersDigits := by
  rw [U.ascii c h]
  have : ∀ n : Fin 128, (asciiAlnum (Char.ofNat n) = true ↔ Char.ofNat n ∈ lettersDigits) := by decide
  have := this ⟨c.toNat, h⟩
  rwa [Char.ofNat_toNat] at this

theorem natDigitsGo_toDigits : ∀ (f n : Nat) (acc : Str), n < f → natDigitsGo f n acc = Nat.toDigits 10 n ++ acc
  | 0, n, acc, h => by omega
  | f + 1, n, acc, h => by
    have hd : ∀ d, d < 10 → digitChar d = d.digitChar := by decide
    rw [natDigitsGo]
    split
    · rename_i hn
      rw [Nat.toDigits_of_lt_base hn, hd n hn]; rfl
    · rename_i hn
      rw [natDigitsGo_toDigits f (n / 10) _ (by omega), Nat.toDigits_of_base_le (n := n) (by omega) (by omega), hd _ (by omega)]
      simp

/-- C31. Numbers in the names of blocks and in error messages are written in decimal. -/
theorem C31_decimal (i : Int) : (Input.int i).toStr = decimal i := by
  have h : ∀ n, natToStr n = n.repr.toList := by
    intro n
    rw [natToStr, natDigitsGo_toDigits _ _ _ (by omega), List.append_nil]
    simp [Nat.repr]
  show intToStr i = i.repr.toList
  cases i with
  | ofNat n => simp [intToStr, h, Int.repr]
  | negSucc n => simp [intToStr, h, Int.repr, Int.negSucc_lt_zero]

example : decimal (-42) = str!"-42" ∧ decimal 0 = str!"0" := by decide

/-- The place one piece of a path leads to. -/
def takes (q : Path) (x : Str) : Path := if x = [] || x = str!"." then q else if x = str!".." then q.dropLast else q ++ [x]

theorem leads_fold {p : Path} (s : Str) (q : Path) : Leads q s p ↔ p = (splitOn '/' s).foldl takes q := by
  by_cases hs : '/' ∈ s
  · obtain ⟨n, r, hr, hn⟩ := List.eq_append_cons_of_mem hs
    rw [hr, splitOn_cons_sep _ _ _ hn, List.foldl_cons, ← leads_fold r]
    constructor
    · intro h
      generalize ht : n ++ '/' :: r = t at h
      cases h with
      | last h1 => subst ht; simp at h1
      | more h1 h3 h4 =>
        have hnr := append_sep_inj hn h1 ht
        obtain ⟨rfl, rfl⟩ := hnr
        rw [takes, ← takes_iff.1 h3]
        exact h4
    · exact fun h => .more hn (takes_iff.2 rfl) h
  · rw [splitOn_nodot _ _ hs]
    constructor
    · intro h
      cases h with
      | last h1 h3 => exact takes_iff.1 h3
      | more h1 => exact absurd (by simp) hs
    · exact fun h => .last hs (takes_iff.2 h)
termination_by s.length
decreasing_by subst hr; simp; omega

theorem restComps_fold (ps : List Str) (q : Path) :
    (restComps ps).foldl (fun q c => match c with
      | .rootDir => []
      | .curDir => q
      | .parentDir => q.dropLast
      | .normal n => q ++ [n]) q = ps.foldl takes q := by
  induction ps generalizing q with
  | nil => rfl
  | cons x ps ih =>
    rw [restComps, List.foldl_cons, takes]
    by_cases h1 : x = []
    · simp [h1, ih]
    · by_cases h2 : x = ['.']
      · simp [h2, ih]
      · by_cases h3 : x = ['.', '.']
        · simp [h3, ih]
        · simp [h1, h2, h3, ih]

theorem joinPath_abs (q : Path) (r : Str) : joinPath q ('/' :: r) = (splitOn '/' r).foldl takes [] := by
  have h : splitOn '/' ('/' :: r) = [] :: splitOn '/' r := by simp [splitOn]
  unfold joinPath components
  rw [h, ← restComps_fold]
  cases hr : splitOn '/' r with
  | nil => exact absurd hr (splitOn_ne_nil _ _)
  | cons x xs => rfl

theorem joinPath_rel (q : Path) {s : Str} (hs : ∀ r, s ≠ '/' :: r) : joinPath q s = (splitOn '/' s).foldl takes q := by
  unfold joinPath components
  rw [← restComps_fold]
  cases hx : splitOn '/' s with
  | nil => rfl
  | cons x xs =>
    have hx0 : x = [] → xs = [] := by
      rintro rfl
      cases s with
      | nil => simp [splitOn] at hx; exact hx
      | cons c s =>
        simp only [splitOn] at hx
        split at hx
        · rename_i hc; subst hc; exact absurd rfl (hs s)
        · split at hx <;> simp at hx
    cases xs with
    | nil =>
      simp only
      split
      · rename_i h; simp [h, restComps]
      · rfl
    | cons y ys =>
      simp only
      rw [if_neg (fun h => by cases hx0 h)]
      split
      · rename_i h; subst h; rfl
      · rfl

/-- Joining a path does what the operating system does with it. -/
theorem joinPath_locates {q p : Path} {s : Str} : joinPath q s = p ↔ Locates q s p := by
  unfold Locates
  by_cases hs : ∃ r, s = '/' :: r
  · obtain ⟨r, rfl⟩ := hs
    rw [joinPath_abs, eq_comm, ← leads_fold]
    constructor
    · exact fun h => .inl ⟨r, rfl, h⟩
    · rintro (⟨r', h, h'⟩ | ⟨h, _⟩)
      · cases h; exact h'
      · exact absurd rfl (h r)
  · have hn : ∀ r, s ≠ '/' :: r := fun r h => hs ⟨r, h⟩
    rw [joinPath_rel q hn, eq_comm, ← leads_fold]
    constructor
    · exact fun h => .inr ⟨hn, h⟩
    · rintro (⟨r', rfl, _⟩ | ⟨_, h⟩)
      · exact absurd rfl (hn r')
      · exact h

theorem takes_plain {q : Path} {x : Str} (h : PlainName x) : takes q x = q ++ [x] := by
  obtain ⟨h1, h2, h3, _⟩ := h
  simp [takes, h1, h2, h3]

theorem splitOn_pathStr : ∀ (p : Path) (s : Str), (∀ x ∈ p, PlainName x) → splitOn '/' (pathStr p ++ '/' :: s) = [] :: (p ++ splitOn '/' s)
  | [], s, _ => by simp [pathStr, splitOn]
  | x :: p, s, h => by
    have := splitOn_pathStr p s fun y hy => h y (.tail _ hy)
    have hx := splitOn_cons_sep '/' x
    simp only [pathStr, List.flatMap_cons, List.cons_append, splitOn, if_true, List.cons.injEq, true_and]
    cases p with
    | nil => simp [splitOn_cons_sep '/' _ _ (h x (.head _)).2.2.2]
    | cons y p =>
      simp only [pathStr, List.flatMap_cons, List.cons_append, splitOn, if_true, List.cons.injEq, true_and] at this
      simp only [List.flatMap_cons, List.cons_append, List.append_assoc]
      rw [splitOn_cons_sep '/' _ _ (h x (.head _)).2.2.2]
      simp only [List.append_assoc] at this
      rw [this]

theorem fold_plain : ∀ (p q : Path), (∀ x ∈ p, PlainName x) → p.foldl takes q = q ++ p
  | [], q, _ => by simp
  | x :: p, q, h => by
    rw [List.foldl_cons, takes_plain (h x (.head _)), fold_plain p _ fun y hy => h y (.tail _ hy)]
    simp

theorem pathStr_locates {p : Path} (hp : p ≠ []) (h : ∀ x ∈ p, PlainName x) (q : Path) : Locates q (pathStr p) p := by
  obtain ⟨a, n, rfl⟩ : ∃ a n, p = a ++ [n] := ⟨p.dropLast, p.getLast hp, (List.dropLast_concat_getLast hp).symm⟩
  have hn := h n (by simp)
  have hs := splitOn_pathStr a n fun x hx => h x (by simp [hx])
  have he : pathStr (a ++ [n]) = pathStr a ++ '/' :: n := by simp [pathStr]
  rw [he]
  obtain ⟨r, hr⟩ : ∃ r, pathStr a ++ '/' :: n = '/' :: r := by
    cases a with
    | nil => exact ⟨_, rfl⟩
    | cons x a => exact ⟨_, rfl⟩
  refine .inl ⟨r, hr, (leads_fold _ _).2 ?_⟩
  rw [hr, splitOn, if_pos rfl] at hs
  rw [(List.cons.inj hs).2, splitOn_none hn.2.2.2, fold_plain _ _ h, List.nil_append]

theorem joinStr_locates {p q r : Path} {s : Str} (h : ∀ x ∈ p, PlainName x) : Locates q (joinStr p s) r ↔ Locates p s r := by
  unfold joinStr
  split
  · rename_i t
    unfold Locates
    constructor <;>
    · rintro (h | ⟨h, _⟩)
      · exact .inl h
      · exact absurd rfl (h t)
  · rename_i hn
    obtain ⟨t, ht⟩ : ∃ t, pathStr p ++ '/' :: s = '/' :: t := by
      cases p with
      | nil => exact ⟨_, rfl⟩
      | cons x p => exact ⟨_, rfl⟩
    have hs := splitOn_pathStr p s h
    rw [ht, splitOn, if_pos rfl] at hs
    have hl : Leads [] t r ↔ Leads p s r := by
      rw [leads_fold, leads_fold, (List.cons.inj hs).2, List.foldl_append, fold_plain _ _ h, List.nil_append]
    unfold Locates
    constructor
    · rintro (⟨t', h1, h2⟩ | ⟨h1, _⟩)
      · rw [ht] at h1; cases h1
        exact .inr ⟨hn, hl.1 h2⟩
      · exact absurd ht (h1 t)
    · rintro (⟨t', h1, _⟩ | ⟨_, h2⟩)
      · exact absurd h1 (hn t')
      · exact .inl ⟨t, ht, hl.2 h2⟩

theorem names_from {d : Entry} {cwd p : Path} {s : Str} (h : Names d cwd s p) : ∃ q, look d q = some .dir := by
  rcases h with ⟨_, _, h⟩ | ⟨_, _, h⟩ <;> cases h <;> exact ⟨_, ‹look d _ = some .dir›⟩

/-- C51. Wherever a script uses them as paths, the variables mean the manifest, its directory, the temporary directory
and the output directory of this start. -/
theorem C51_paths (L : Loader) (cwd : Path) (manifest output mode : Str) (s s' : Host) (c : Context)
    (hd : ProperDisk s.world.disk) (h : Context.init L cwd manifest output mode s = (s', .ok c)) :
    ∃ p, Names s.world.disk cwd manifest p ∧ ∀ q,
      (∃ v, (str!"STUART_MANIFEST_PATH", v) ∈ c.env ∧ ∀ r, Locates q v r ↔ r = p) ∧
      (∃ v, (str!"STUART_MANIFEST_DIR", v) ∈ c.env ∧ ∀ r, Locates q v r ↔ r = p.dropLast) ∧
      (∃ v, (str!"STUART_TEMP_DIR", v) ∈ c.env ∧ ∀ r, Locates q v r ↔ r = p.dropLast ++ [str!"temp"]) ∧
      (∃ v, (str!"STUART_OUT_DIR", v) ∈ c.env ∧ ∀ r, Locates q v r ↔ Locates p.dropLast output r) := by
  obtain ⟨p, b, text, raw, plugins, h1, h2, h3, h4, h5, rfl⟩ := Context.init_ok h
  have hpl : ∀ x ∈ p, PlainName x := plain_way hd (by rw [look_of_at h2]; nofun)
  have hdl : ∀ x ∈ p.dropLast, PlainName x := fun x hx => hpl x (List.dropLast_subset _ hx)
  have only : ∀ {q v p'}, Locates q v p' → ∀ r, Locates q v r ↔ r = p' := by
    intro q v p' hm r
    rw [← joinPath_locates] at hm ⊢
    rw [hm, eq_comm]
  refine ⟨p, canonicalize_names.1 h1, fun q => ⟨⟨_, .head _, only ?_⟩, ⟨_, .tail _ (.head _), only ?_⟩,
    ⟨_, .tail _ (.tail _ (.head _)), only ?_⟩, ⟨_, .tail _ (.tail _ (.tail _ (.head _))), fun r => joinStr_locates hdl⟩⟩⟩
  · refine pathStr_locates ?_ hpl q
    rintro rfl
    obtain ⟨q, hq⟩ := names_from (canonicalize_names.1 h1)
    have h2' : s.world.disk = .file b := by simpa [Entry.at] using h2
    rw [h2'] at hq
    cases q <;> simp [look, Entry.at, kind] at hq
  · unfold dirStr
    split
    · rename_i he
      rw [he]
      exact .inl ⟨[], rfl, .last (by simp) .nothing⟩
    · exact pathStr_locates ‹_› hdl q
  · refine pathStr_locates (by simp) ?_ q
    intro x hx
    rcases List.mem_append.1 hx with hx | hx
    · exact hdl x hx
    · rw [List.mem_singleton.1 hx]; unfold PlainName; decide

/-- C51. The build is saved at the place the variable means. -/
theorem C51_out (c : Context) (r : Path) : Locates c.dir c.output r ↔ r = c.outPath := by
  rw [← joinPath_locates, Context.outPath, eq_comm]

theorem startDisk_proper : ProperDisk startDisk := by unfold startDisk; proper_disk

/-- A start in a directory of the project, with an output directory beside it. -/
example := C51_paths shortLoader [str!"p"] str!"sub/.././stuart.toml" str!"../out" str!"production" ⟨⟨startDisk, []⟩, []⟩
  _ _ startDisk_proper rfl

/-- What that output directory is. -/
example : Locates [str!"p"] str!"../out" [str!"out"] := joinPath_locates.1 rfl

end Stuart
