import Verif.Proof.Plugins
import Verif.Proof.Fetch
import Verif.Proof.Kinds
import Verif.Proof.Concrete
import Verif.Props.Startup
/-
Properties C53 and C64 to C66: loading plugins.
-/
namespace Stuart
open Spec

variable (O : Outside) (root : Path)

/-! ### C53 -/

/-- The text consists of these pieces, separated by semicolons. -/
def Separated (src : Str) (pieces : List Str) : Prop :=
  ∃ p ps, pieces = p :: ps ∧ src = p ++ ps.flatMap (fun q => ';' :: q) ∧ ∀ q ∈ pieces, ';' ∉ q

/-- The source is one for this platform and program. -/
def Supported (src : Str) : Prop :=
  ¬ str!".dll" <:+ src ∧ (O.js = false → ¬ str!".js" <:+ src ∧ ¬ str!".mjs" <:+ src)

/-- All of these sources, tried one after the other, fail. -/
inductive AllFail (name : Str) : List Str → LoadSt → LoadSt → Prop
  | nil (s : LoadSt) : AllFail name [] s s
  | skip {src : Str} {srcs : List Str} {s t : LoadSt} : ¬ Supported O src → AllFail name srcs s t →
      AllFail name (src :: srcs) s t
  | fail {src : Str} {srcs : List Str} {s s1 t : LoadSt} {e : LoadErr} : Supported O src →
      loadFromSource O root name src s = (s1, .err e) → AllFail name srcs s1 t → AllFail name (src :: srcs) s t

/-- One of these sources loads this plugin, after those before it have failed. -/
def FirstLoads (name : Str) (srcs : List Str) (s t : LoadSt) (q : Plugin) : Prop :=
  ∃ before src after s1, srcs = before ++ src :: after ∧ AllFail O root name before s s1 ∧ Supported O src ∧
    loadFromSource O root name src s1 = (t, .ok [q])

/-- All of these plugins load, one after the other. -/
inductive AllLoad : List (Str × Str) → LoadSt → LoadSt → List Plugin → Prop
  | nil (s : LoadSt) : AllLoad [] s s []
  | cons {name src : Str} {pieces : List Str} {rest : List (Str × Str)} {s s1 t : LoadSt} {q : Plugin} {qs : List Plugin} :
      Separated src pieces → FirstLoads O root name pieces s s1 q → AllLoad rest s1 t qs →
      AllLoad ((name, src) :: rest) s t (q :: qs)

variable {O root}

theorem separated_iff {src : Str} {pieces : List Str} : Separated src pieces ↔ splitOn ';' src = pieces := by
  constructor
  · rintro ⟨p, ps, rfl, rfl, h⟩
    exact splitOn_sepBy ';' ps p (h p (by simp)) fun q hq => h q (by simp [hq])
  · intro h
    cases hk : splitOn ';' src with
    | nil => exact absurd hk (splitOn_ne_nil _ _)
    | cons p ps =>
      refine ⟨p, ps, by rw [← h, hk], (sepBy_splitOn ';' src hk).symm, ?_⟩
      rw [← h]
      exact splitOn_noSep ';' src

theorem supported_iff {src : Str} : Supported O src ↔ skipsSource O src = false := by
  have hk : ∀ p : Str, ¬ p <:+ src ↔ endsWith p src = false := by
    intro p
    rw [endsWith, ← List.isSuffixOf_iff_suffix, Bool.not_eq_true]
  unfold Supported skipsSource
  rw [hk, hk, hk]
  cases O.js <;> cases endsWith str!".dll" src <;> cases endsWith str!".js" src <;> cases endsWith str!".mjs" src <;> decide

theorem loadSources_err {name : Str} {srcs : List Str} {s t : LoadSt} {e : CliErr} :
    loadSources O root name srcs s = (t, .err e) ↔ AllFail O root name srcs s t ∧ e = .pluginsFailed := by
  induction srcs generalizing s with
  | nil =>
    rw [loadSources]
    constructor
    · intro h; cases h; exact ⟨.nil _, rfl⟩
    · rintro ⟨h, rfl⟩; cases h; rfl
  | cons src srcs ih =>
    rw [loadSources]
    by_cases hs : Supported O src
    · rw [if_neg (by rw [supported_iff.1 hs]; simp)]
      generalize hl : loadFromSource O root name src s = r
      obtain ⟨s1, r⟩ := r
      cases r with
      | ok ps =>
        simp only
        constructor
        · intro h; cases h
        · rintro ⟨h, rfl⟩
          cases h with
          | skip h _ => exact absurd hs h
          | fail _ h _ => rw [hl] at h; cases h
      | err e' =>
        simp only
        rw [ih]
        constructor
        · rintro ⟨h, rfl⟩; exact ⟨.fail hs hl h, rfl⟩
        · rintro ⟨h, rfl⟩
          cases h with
          | skip h _ => exact absurd hs h
          | fail _ h k => rw [hl] at h; cases h; exact ⟨k, rfl⟩
      | panic p =>
        simp only
        constructor
        · intro h; cases h
        · rintro ⟨h, rfl⟩
          cases h with
          | skip h _ => exact absurd hs h
          | fail _ h _ => rw [hl] at h; cases h
    · rw [if_pos (by rw [supported_iff] at hs; simpa using hs), ih]
      constructor
      · rintro ⟨h, rfl⟩; exact ⟨.skip hs h, rfl⟩
      · rintro ⟨h, rfl⟩
        cases h with
        | skip _ h => exact ⟨h, rfl⟩
        | fail h _ _ => exact absurd h hs

theorem loadSources_ok {name : Str} {srcs : List Str} {s t : LoadSt} {ps : List Plugin} :
    loadSources O root name srcs s = (t, .ok ps) ↔ ∃ q, ps = [q] ∧ FirstLoads O root name srcs s t q := by
  induction srcs generalizing s with
  | nil =>
    rw [loadSources]
    constructor
    · intro h; cases h
    · rintro ⟨q, rfl, before, src, after, s1, h, _⟩
      cases before <;> cases h
  | cons src srcs ih =>
    rw [loadSources]
    by_cases hs : Supported O src
    · rw [if_neg (by rw [supported_iff.1 hs]; simp)]
      generalize hl : loadFromSource O root name src s = r
      obtain ⟨s1, r⟩ := r
      cases r with
      | ok ps' =>
        simp only
        obtain ⟨q', rfl⟩ := loadFromSource_one (supported_iff.1 hs) hl
        constructor
        · intro h; cases h
          exact ⟨q', rfl, [], src, srcs, s, rfl, .nil _, hs, hl⟩
        · rintro ⟨q, rfl, before, src', after, s2, h1, h2, h3, h4⟩
          cases before with
          | nil =>
            cases h1
            cases h2
            rw [hl] at h4; cases h4; rfl
          | cons b before =>
            cases h1
            cases h2 with
            | skip h _ => exact absurd hs h
            | fail _ h _ => rw [hl] at h; cases h
      | err e' =>
        simp only
        rw [ih]
        constructor
        · rintro ⟨q, rfl, before, src', after, s2, rfl, h2, h3, h4⟩
          exact ⟨q, rfl, src :: before, src', after, s2, rfl, .fail hs hl h2, h3, h4⟩
        · rintro ⟨q, rfl, before, src', after, s2, h1, h2, h3, h4⟩
          refine ⟨q, rfl, ?_⟩
          cases before with
          | nil =>
            cases h1
            cases h2
            rw [hl] at h4; cases h4
          | cons b before =>
            cases h1
            cases h2 with
            | skip h _ => exact absurd hs h
            | fail _ h k =>
              rw [hl] at h; cases h
              exact ⟨before, src', after, s2, rfl, k, h3, h4⟩
      | panic p =>
        simp only
        constructor
        · intro h; cases h
        · rintro ⟨q, rfl, before, src', after, s2, h1, h2, h3, h4⟩
          cases before with
          | nil => cases h1; cases h2; rw [hl] at h4; cases h4
          | cons b before =>
            cases h1
            cases h2 with
            | skip h _ => exact absurd hs h
            | fail _ h _ => rw [hl] at h; cases h
    · rw [if_pos (by rw [supported_iff] at hs; simpa using hs), ih]
      constructor
      · rintro ⟨q, rfl, before, src', after, s2, rfl, h2, h3, h4⟩
        exact ⟨q, rfl, src :: before, src', after, s2, rfl, .skip hs h2, h3, h4⟩
      · rintro ⟨q, rfl, before, src', after, s2, h1, h2, h3, h4⟩
        refine ⟨q, rfl, ?_⟩
        cases before with
        | nil => cases h1; exact absurd h3 hs
        | cons b before =>
          cases h1
          cases h2 with
          | skip _ k => exact ⟨before, src', after, s2, rfl, k, h3, h4⟩
          | fail h _ _ => exact absurd h hs

/-- C53. Loading succeeds exactly when for every plugin, in turn, one of its sources loads after the supported ones
before it have failed; the result has one plugin for each. -/
theorem C53_loads (plugins : List (Str × Str)) (s t : LoadSt) (qs : List Plugin) :
    loadAll O root plugins s = (t, .ok qs) ↔ AllLoad O root plugins s t qs := by
  induction plugins generalizing s qs with
  | nil =>
    rw [loadAll]
    constructor
    · intro h; cases h; exact .nil _
    · intro h; cases h; rfl
  | cons x rest ih =>
    obtain ⟨name, src⟩ := x
    rw [loadAll]
    generalize hl : loadSources O root name (splitOn ';' src) s = r
    obtain ⟨s1, r⟩ := r
    cases r with
    | ok ps =>
      obtain ⟨q, rfl, hf⟩ := loadSources_ok.1 hl
      simp only
      generalize hr : loadAll O root rest s1 = r2
      obtain ⟨s2, r2⟩ := r2
      constructor
      · intro h
        cases r2 with
        | ok qs' =>
          cases h
          exact .cons (separated_iff.2 rfl) hf ((ih s1 qs').1 hr)
        | err e => cases h
        | panic p => cases h
      · intro h
        cases h with
        | cons k1 k2 k3 =>
          rw [separated_iff] at k1
          subst k1
          have := loadSources_ok.2 ⟨_, rfl, k2⟩
          rw [hl] at this
          cases this
          rw [(ih _ _).2 k3] at hr
          cases hr
          rfl
    | err e =>
      simp only
      constructor
      · intro h; cases h
      · intro h
        cases h with
        | cons k1 k2 k3 =>
          rw [separated_iff] at k1
          subst k1
          have := loadSources_ok.2 ⟨_, rfl, k2⟩
          rw [hl] at this
          cases this
    | panic p =>
      simp only
      constructor
      · intro h; cases h
      · intro h
        cases h with
        | cons k1 k2 k3 =>
          rw [separated_iff] at k1
          subst k1
          have := loadSources_ok.2 ⟨_, rfl, k2⟩
          rw [hl] at this
          cases this

/-- C53. Loading reports failure exactly when there is a plugin of which no supported source loads, those before it
having loaded; those after it are not tried. -/
theorem C53_fails (plugins : List (Str × Str)) (s t : LoadSt) (e : CliErr) :
    loadAll O root plugins s = (t, .err e) ↔
      ∃ front name src pieces rest s1 qs, plugins = front ++ (name, src) :: rest ∧ AllLoad O root front s s1 qs ∧
        Separated src pieces ∧ AllFail O root name pieces s1 t ∧ e = .pluginsFailed := by
  induction plugins generalizing s with
  | nil =>
    rw [loadAll]
    constructor
    · intro h; cases h
    · rintro ⟨front, _, _, _, _, _, _, h, _⟩
      cases front <;> cases h
  | cons x rest ih =>
    obtain ⟨name, src⟩ := x
    rw [loadAll]
    generalize hl : loadSources O root name (splitOn ';' src) s = r
    obtain ⟨s1, r⟩ := r
    cases r with
    | ok ps =>
      obtain ⟨q, rfl, hf⟩ := loadSources_ok.1 hl
      simp only
      constructor
      · intro h
        have h' : loadAll O root rest s1 = (t, .err e) := by
          generalize loadAll O root rest s1 = r2 at h
          obtain ⟨s2, r2⟩ := r2
          cases r2 <;> cases h
          rfl
        obtain ⟨front, n, sr, pieces, rest', s2, qs, rfl, k1, k2, k3, k4⟩ := (ih s1).1 h'
        exact ⟨(name, src) :: front, n, sr, pieces, rest', s2, q :: qs, rfl, .cons (separated_iff.2 rfl) hf k1, k2, k3, k4⟩
      · rintro ⟨front, n, sr, pieces, rest', s2, qs, h1, k1, k2, k3, k4⟩
        cases front with
        | nil =>
          cases h1; cases k1
          rw [separated_iff] at k2
          subst k2
          have := loadSources_err.2 ⟨k3, k4⟩
          rw [hl] at this; cases this
        | cons y front =>
          cases h1
          cases k1 with
          | cons g1 g2 g3 =>
            rw [separated_iff] at g1
            subst g1
            have := loadSources_ok.2 ⟨_, rfl, g2⟩
            rw [hl] at this
            cases this
            rw [(ih _).2 ⟨front, n, sr, pieces, rest', s2, _, rfl, g3, k2, k3, k4⟩]
    | err e' =>
      simp only
      obtain ⟨hf, rfl⟩ := loadSources_err.1 hl
      constructor
      · intro h; cases h
        exact ⟨[], name, src, _, rest, s, [], rfl, .nil _, separated_iff.2 rfl, hf, rfl⟩
      · rintro ⟨front, n, sr, pieces, rest', s2, qs, h1, k1, k2, k3, k4⟩
        cases front with
        | nil =>
          cases h1; cases k1
          rw [separated_iff] at k2
          subst k2
          rw [← hl, loadSources_err.2 ⟨k3, k4⟩]
        | cons y front =>
          cases h1
          cases k1 with
          | cons g1 g2 g3 =>
            rw [separated_iff] at g1
            subst g1
            have := loadSources_ok.2 ⟨_, rfl, g2⟩
            rw [hl] at this
            cases this
    | panic p =>
      simp only
      constructor
      · intro h; cases h
      · rintro ⟨front, n, sr, pieces, rest', s2, qs, h1, k1, k2, k3, k4⟩
        cases front with
        | nil =>
          cases h1; cases k1
          rw [separated_iff] at k2
          subst k2
          have := loadSources_err.2 ⟨k3, k4⟩
          rw [hl] at this; cases this
        | cons y front =>
          cases h1
          cases k1 with
          | cons g1 g2 g3 =>
            rw [separated_iff] at g1
            subst g1
            have := loadSources_ok.2 ⟨_, rfl, g2⟩
            rw [hl] at this
            cases this

/-- C53. As many plugins as are configured. -/
theorem C53_count (plugins : List (Str × Str)) (s t : LoadSt) (qs : List Plugin)
    (h : loadAll O root plugins s = (t, .ok qs)) : qs.length = plugins.length := by
  rw [C53_loads] at h
  induction h with
  | nil => rfl
  | cons _ _ _ ih => simp [ih]

/-- A machine without network or Git, on which cargo works, with one library. -/
def plainOutside : Outside where
  js := false
  gitExists _ _ := false
  gitClone _ _ _ d := (d, false)
  gitPull _ _ d := (d, false)
  cargo _ _ d := (d, some ⟨some 0, [], []⟩)
  http _ _ := none
  openLibrary _ p _ := if p = [str!"p", str!"b.so"] then some (some ⟨⟨str!"b", []⟩, []⟩) else none
  openJs _ _ _ := none
  packageName s := if s = str!"[package]" then some str!"my-plugin" else none

/-- Three sources are passed over, one of them without being tried; the last is not needed. -/
example :
    let disk := Entry.dir [(str!"p", .dir [(str!"a.so", .file [1]), (str!"b.so", .file [2]), (str!"c.so", .file [3])])]
    (loadAll plainOutside [str!"p"] [(str!"b", str!"b.dll;a.so;missing.so;b.so;c.so")] ⟨⟨disk, []⟩, 0⟩).2 =
      .ok [⟨⟨str!"b", []⟩, []⟩] := rfl

example : Separated str!"b.dll;a.so" [str!"b.dll", str!"a.so"] ∧ ¬ Supported plainOutside str!"b.dll" ∧
    Supported plainOutside str!"a.so" :=
  ⟨⟨_, _, rfl, rfl, by decide⟩, by rw [supported_iff]; decide, by rw [supported_iff]; decide⟩

/-- C53 has an exception: a source that is a Cargo workspace without a package builds, but then the program panics
instead of trying the next source. -/
theorem C53_counterexample :
    let disk := Entry.dir [(str!"p", .dir [(str!"b.so", .file [2]),
      (str!"ws", .dir [(str!"Cargo.toml", .file (bytesOf str!"[workspace]"))])])]
    (loadAll plainOutside [str!"p"] [(str!"b", str!"ws;b.so")] ⟨⟨disk, []⟩, 0⟩).2 = .panic .noProjectName := rfl

theorem loadSources_panic {name : Str} {srcs : List Str} {s t : LoadSt} {p : Panic} :
    loadSources O root name srcs s = (t, .panic p) ↔
      ∃ before src after s1, srcs = before ++ src :: after ∧ AllFail O root name before s s1 ∧ Supported O src ∧
        loadFromSource O root name src s1 = (t, .panic p) := by
  induction srcs generalizing s with
  | nil =>
    rw [loadSources]
    constructor
    · intro h; cases h
    · rintro ⟨before, src, after, s1, h, _⟩
      cases before <;> cases h
  | cons src srcs ih =>
    rw [loadSources]
    by_cases hs : Supported O src
    · rw [if_neg (by rw [supported_iff.1 hs]; simp)]
      generalize hl : loadFromSource O root name src s = r
      obtain ⟨s1, r⟩ := r
      cases r with
      | ok ps =>
        simp only
        constructor
        · intro h; cases h
        · rintro ⟨before, src', after, s2, h1, h2, h3, h4⟩
          cases before with
          | nil => cases h1; cases h2; rw [hl] at h4; cases h4
          | cons b before =>
            cases h1
            cases h2 with
            | skip h _ => exact absurd hs h
            | fail _ h _ => rw [hl] at h; cases h
      | err e' =>
        simp only
        rw [ih]
        constructor
        · rintro ⟨before, src', after, s2, rfl, h2, h3, h4⟩
          exact ⟨src :: before, src', after, s2, rfl, .fail hs hl h2, h3, h4⟩
        · rintro ⟨before, src', after, s2, h1, h2, h3, h4⟩
          cases before with
          | nil => cases h1; cases h2; rw [hl] at h4; cases h4
          | cons b before =>
            cases h1
            cases h2 with
            | skip h _ => exact absurd hs h
            | fail _ h k => rw [hl] at h; cases h; exact ⟨before, src', after, s2, rfl, k, h3, h4⟩
      | panic q =>
        simp only
        constructor
        · intro h; cases h; exact ⟨[], src, srcs, s, rfl, .nil _, hs, hl⟩
        · rintro ⟨before, src', after, s2, h1, h2, h3, h4⟩
          cases before with
          | nil => cases h1; cases h2; rw [hl] at h4; cases h4; rfl
          | cons b before =>
            cases h1
            cases h2 with
            | skip h _ => exact absurd hs h
            | fail _ h _ => rw [hl] at h; cases h
    · rw [if_pos (by rw [supported_iff] at hs; simpa using hs), ih]
      constructor
      · rintro ⟨before, src', after, s2, rfl, h2, h3, h4⟩
        exact ⟨src :: before, src', after, s2, rfl, .skip hs h2, h3, h4⟩
      · rintro ⟨before, src', after, s2, h1, h2, h3, h4⟩
        cases before with
        | nil => cases h1; exact absurd h3 hs
        | cons b before =>
          cases h1
          cases h2 with
          | skip _ k => exact ⟨before, src', after, s2, rfl, k, h3, h4⟩
          | fail h _ _ => exact absurd h hs

/-- C53. The program panics exactly when the first source that does not fail in the ordinary way panics, everything
before it being as in `C53_loads` and `C53_fails`. -/
theorem C53_panics (plugins : List (Str × Str)) (s t : LoadSt) (p : Panic) :
    loadAll O root plugins s = (t, .panic p) ↔
      ∃ front name src pieces rest s1 qs, plugins = front ++ (name, src) :: rest ∧ AllLoad O root front s s1 qs ∧
        Separated src pieces ∧ ∃ before piece after s2, pieces = before ++ piece :: after ∧
          AllFail O root name before s1 s2 ∧ Supported O piece ∧
          loadFromSource O root name piece s2 = (t, .panic p) := by
  induction plugins generalizing s with
  | nil =>
    rw [loadAll]
    constructor
    · intro h; cases h
    · rintro ⟨front, _, _, _, _, _, _, h, _⟩
      cases front <;> cases h
  | cons x rest ih =>
    obtain ⟨name, src⟩ := x
    rw [loadAll]
    generalize hl : loadSources O root name (splitOn ';' src) s = r
    obtain ⟨s1, r⟩ := r
    cases r with
    | ok ps =>
      obtain ⟨q, rfl, hf⟩ := loadSources_ok.1 hl
      simp only
      constructor
      · intro h
        have h' : loadAll O root rest s1 = (t, .panic p) := by
          generalize loadAll O root rest s1 = r2 at h
          obtain ⟨s2, r2⟩ := r2
          cases r2 <;> cases h
          rfl
        obtain ⟨front, n, sr, pieces, rest', s2, qs, rfl, k1, k2, k3⟩ := (ih s1).1 h'
        exact ⟨(name, src) :: front, n, sr, pieces, rest', s2, q :: qs, rfl, .cons (separated_iff.2 rfl) hf k1, k2, k3⟩
      · rintro ⟨front, n, sr, pieces, rest', s2, qs, h1, k1, k2, k3⟩
        cases front with
        | nil =>
          cases h1; cases k1
          rw [separated_iff] at k2
          subst k2
          have := loadSources_panic.2 k3
          rw [hl] at this; cases this
        | cons y front =>
          cases h1
          cases k1 with
          | cons g1 g2 g3 =>
            rw [separated_iff] at g1
            subst g1
            have := loadSources_ok.2 ⟨_, rfl, g2⟩
            rw [hl] at this
            cases this
            rw [(ih _).2 ⟨front, n, sr, pieces, rest', s2, _, rfl, g3, k2, k3⟩]
    | err e' =>
      simp only
      constructor
      · intro h; cases h
      · rintro ⟨front, n, sr, pieces, rest', s2, qs, h1, k1, k2, k3⟩
        cases front with
        | nil =>
          cases h1; cases k1
          rw [separated_iff] at k2
          subst k2
          have := loadSources_panic.2 k3
          rw [hl] at this; cases this
        | cons y front =>
          cases h1
          cases k1 with
          | cons g1 g2 g3 =>
            rw [separated_iff] at g1
            subst g1
            have := loadSources_ok.2 ⟨_, rfl, g2⟩
            rw [hl] at this
            cases this
    | panic q =>
      simp only
      have hf := loadSources_panic.1 hl
      constructor
      · intro h; cases h
        exact ⟨[], name, src, _, rest, s, [], rfl, .nil _, separated_iff.2 rfl, hf⟩
      · rintro ⟨front, n, sr, pieces, rest', s2, qs, h1, k1, k2, k3⟩
        cases front with
        | nil =>
          cases h1; cases k1
          rw [separated_iff] at k2
          subst k2
          rw [← hl, loadSources_panic.2 k3]
        | cons y front =>
          cases h1
          cases k1 with
          | cons g1 g2 g3 =>
            rw [separated_iff] at g1
            subst g1
            have := loadSources_ok.2 ⟨_, rfl, g2⟩
            rw [hl] at this
            cases this

/-- The file of this path, if it is there and a text, is no manifest with the name of a package. -/
def Nameless (O : Outside) (disk : Entry) (manifest : Path) : Prop :=
  ∀ text, look disk manifest = some (.file (bytesOf text)) → O.packageName text = none

theorem projectName_none {disk : Entry} {m : Path} : projectName O disk m = none ↔ Nameless O disk m := by
  unfold projectName Nameless look
  cases h : disk.at m with
  | none => simp
  | some e =>
    cases e with
    | dir l => simp [kind]
    | special => simp [kind]
    | file b =>
      simp only [Option.map_some, kind, Option.some.injEq, Kind.file.injEq]
      cases hu : fromUtf8 b with
      | none =>
        simp only [Option.bind_none, true_iff]
        rintro text rfl
        rw [fromUtf8_bytesOf] at hu; cases hu
      | some text =>
        have := fromUtf8_sound hu
        subst this
        simp only [Option.bind_some]
        constructor
        · intro h' text' he
          have := fromUtf8_bytesOf text'
          rw [← he, hu] at this
          cases this; exact h'
        · intro h'; exact h' text rfl

theorem buildCargo_panic {dir : Path} {s t : LoadSt} {p : Panic} (h : buildCargo O dir s = (t, .panic p)) :
    p = .noProjectName ∧
      (∃ out err, O.cargo s.tick (dir ++ [str!"Cargo.toml"]) s.world.disk = (t.world.disk, some ⟨some 0, out, err⟩)) ∧
      Nameless O t.world.disk (dir ++ [str!"Cargo.toml"]) := by
  unfold buildCargo at h
  simp only at h
  generalize hr : O.cargo s.tick (dir ++ [str!"Cargo.toml"]) s.world.disk = r at h
  obtain ⟨d, o⟩ := r
  cases o with
  | none => cases h
  | some o =>
    obtain ⟨code, out, err⟩ := o
    simp only at h
    split at h
    · rename_i hc
      subst hc
      split at h
      · rename_i hn
        cases h
        exact ⟨rfl, ⟨out, err, rfl⟩, projectName_none.1 hn⟩
      · cases h
    · cases h

theorem loadBinary_no_panic {path : Path} {s t : LoadSt} {p : Panic} : loadBinary O path s ≠ (t, .panic p) := by
  unfold loadBinary
  intro h
  simp only at h
  split at h <;> cases h

theorem managerLoad_no_panic {path : Path} {name : Str} {s t : LoadSt} {p : Panic} :
    managerLoad O path name s ≠ (t, .panic p) := by
  unfold managerLoad
  intro h
  split at h
  · split at h
    · simp only at h
      split at h <;> cases h
    · cases h
  · exact loadBinary_no_panic h

theorem cargo_then_panic {dir : Path} {s t : LoadSt} {p : Panic}
    (h : LoadSt.andThen (buildCargo O dir s) (fun path s => loadBinary O path s) = (t, .panic p)) :
    buildCargo O dir s = (t, .panic p) := by
  generalize hb : buildCargo O dir s = r at h
  obtain ⟨s1, r⟩ := r
  cases r with
  | ok a => exact absurd h loadBinary_no_panic
  | err e => cases h
  | panic q => cases h; rfl

/-- C53. A source panics only in one way: Cargo reports that it has built a project, whose manifest then is not one with
the name of a package. -/
theorem C53_why (name src : Str) (s t : LoadSt) (p : Panic) (h : loadFromSource O root name src s = (t, .panic p)) :
    p = .noProjectName ∧ ∃ dir n disk out err,
      O.cargo n (dir ++ [str!"Cargo.toml"]) disk = (t.world.disk, some ⟨some 0, out, err⟩) ∧
      Nameless O t.world.disk (dir ++ [str!"Cargo.toml"]) := by
  have fin : ∀ {dir : Path} {s1 : LoadSt}, buildCargo O dir s1 = (t, .panic p) → _ := fun {dir} {s1} hb =>
    (⟨(buildCargo_panic hb).1, dir, s1.tick, s1.world.disk, (buildCargo_panic hb).2.1.choose,
      (buildCargo_panic hb).2.1.choose_spec.choose, (buildCargo_panic hb).2.1.choose_spec.choose_spec,
      (buildCargo_panic hb).2.2⟩ : p = .noProjectName ∧ ∃ dir n disk out err,
      O.cargo n (dir ++ [str!"Cargo.toml"]) disk = (t.world.disk, some ⟨some 0, out, err⟩) ∧
      Nameless O t.world.disk (dir ++ [str!"Cargo.toml"]))
  unfold loadFromSource at h
  simp only at h
  split at h
  · exact absurd h managerLoad_no_panic
  · split at h
    · exact fin (cargo_then_panic h)
    · split at h
      · unfold loadGit fetchRepo at h
        simp only at h
        generalize hf : (if (!s.world.disk.existsAt (joinPath root (str!"_build/plugins/" ++ name))) = true then _ else _ :
          LoadSt × Res LoadErr Unit) = r at h
        obtain ⟨s1, r⟩ := r
        cases r with
        | ok a =>
          simp only [LoadSt.andThen] at h
          split at h
          · cases h
          · exact fin (cargo_then_panic h)
        | err e => cases h
        | panic q =>
          exfalso
          clear h fin
          split at hf
          · split at hf
            · simp only [Prod.mk.injEq] at hf
              obtain ⟨_, hf⟩ := hf
              split at hf <;> cases hf
            · cases hf
          · simp only [Prod.mk.injEq] at hf
            obtain ⟨_, hf⟩ := hf
            split at hf <;> cases hf
      · split at h
        · unfold loadDownload at h
          simp only at h
          generalize (if s.world.disk.existsAt (joinPath root (str!"_build/plugins/" ++ name)) = true then _ else _ :
            World × Bool) = m at h
          split at h
          · split at h
            · exact absurd h managerLoad_no_panic
            · cases h
          · cases h
        · cases h

/-- C53. A source that is a directory with a manifest, and that Cargo can build, panics exactly when the manifest is not
one with the name of a package. -/
theorem C53_workspace (name src : Str) (s : LoadSt) (disk : Entry) (out err : Bytes)
    (hf : ∀ b, look s.world.disk (joinPath root src) ≠ some (.file b))
    (hm : look s.world.disk (joinPath root src ++ [str!"Cargo.toml"]) ≠ none)
    (hc : O.cargo s.tick (joinPath root src ++ [str!"Cargo.toml"]) s.world.disk = (disk, some ⟨some 0, out, err⟩)) :
    (loadFromSource O root name src s).2 = .panic .noProjectName ↔
      Nameless O disk (joinPath root src ++ [str!"Cargo.toml"]) := by
  have h1 : s.world.disk.isFileAt (joinPath root src) = false := by
    unfold Entry.isFileAt
    unfold look at hf
    split
    · rename_i b hb
      rw [hb] at hf
      exact absurd rfl (hf b)
    · rfl
  have h2 : s.world.disk.existsAt (joinPath root src ++ [str!"Cargo.toml"]) = true := by
    unfold Entry.existsAt
    unfold look at hm
    cases hd : s.world.disk.at (joinPath root src ++ [str!"Cargo.toml"]) with
    | none => rw [hd] at hm; exact absurd rfl hm
    | some e => rfl
  unfold loadFromSource
  simp only [h1, h2, Bool.and_false, Bool.false_eq_true, if_false, if_true]
  rw [← projectName_none]
  unfold buildCargo
  simp only [hc, if_true]
  cases hp : projectName O disk (joinPath root src ++ [str!"Cargo.toml"]) with
  | none => simp [LoadSt.andThen]
  | some n =>
    simp only [LoadSt.andThen, reduceCtorEq, iff_false]
    intro h
    generalize hl : loadBinary O _ _ = r at h
    obtain ⟨s1, r⟩ := r
    cases h
    exact loadBinary_no_panic hl

/-- The workspace of `C53_counterexample`. -/
example : (loadFromSource plainOutside [str!"p"] str!"b" str!"ws" ⟨⟨.dir [(str!"p", .dir
      [(str!"ws", .dir [(str!"Cargo.toml", .file (bytesOf str!"[workspace]"))])])], []⟩, 0⟩).2 = .panic .noProjectName :=
  (C53_workspace str!"b" str!"ws" _ _ [] [] (by intro b h; cases h) (by intro h; cases h) rfl).2 (by
    intro text h
    have h2 : some (Kind.file (bytesOf str!"[workspace]")) = some (Kind.file (bytesOf text)) := h
    have h3 := fromUtf8_bytesOf text
    rw [← Kind.file.inj (Option.some.inj h2), fromUtf8_bytesOf] at h3
    cases h3
    rfl)

/-! ### C64 -/

theorem isFileAt_look {disk : Entry} {p : Path} {b : Bytes} (hb : look disk p = some (.file b)) : disk.isFileAt p = true := by
  unfold Entry.isFileAt
  unfold look at hb
  split
  · rfl
  · rename_i h
    cases hd : disk.at p with
    | none => rw [hd] at hb; cases hb
    | some e =>
      cases e with
      | file c => exact absurd hd (h c)
      | dir l => rw [hd] at hb; cases hb
      | special => rw [hd] at hb; cases hb

/-- C64. A source that names a file is loaded from that file: nothing on the disk changes, and neither Git nor Cargo
nor the network has any influence. -/
theorem C64_local (O' : Outside) (name src : Str) (s : LoadSt) (hj : O'.js = O.js) (hl : O'.openLibrary = O.openLibrary)
    (ho : O'.openJs = O.openJs) (file : Str) (b : Bytes) (hf : EndsIn src file)
    (hb : look s.world.disk (joinPath root src) = some (.file b)) :
    loadFromSource O' root name src s = loadFromSource O root name src s ∧
    (loadFromSource O root name src s).1.world = s.world := by
  have hk := isFileAt_look hb
  unfold loadFromSource
  simp only [(endsIn_piece hf).1, (endsIn_piece hf).2, hk, Bool.and_self, if_true]
  unfold managerLoad loadBinary
  simp only [hj, hl, ho]
  refine ⟨trivial, ?_⟩
  repeat' split
  all_goals rfl

/-- C64. It is loaded as a library from exactly that path, unless its extension is `js` or `mjs`; it loads exactly when
the library opens and has the entry function. -/
theorem C64_library (name src : Str) (s : LoadSt) (file : Str) (b : Bytes) (hf : EndsIn src file)
    (hb : look s.world.disk (joinPath root src) = some (.file b))
    (hx : ¬ HasExt file str!"js" ∧ ¬ HasExt file str!"mjs") :
    (loadFromSource O root name src s).2 =
      (match O.openLibrary s.tick (joinPath root src) s.world.disk with
      | some (some q) => .ok [q]
      | _ => .err .library) := by
  unfold loadFromSource
  simp only [(endsIn_piece hf).1, (endsIn_piece hf).2, isFileAt_look hb, Bool.and_self, if_true]
  unfold managerLoad
  rw [if_neg (by rw [extension_iff, extension_iff]; exact not_or.2 hx)]
  unfold loadBinary
  simp only
  repeat' split
  all_goals first | rfl | simp_all

/-- C64. With one of these extensions it is run as a script from exactly that path. -/
theorem C64_script (name src : Str) (s : LoadSt) (file : Str) (b : Bytes) (hf : EndsIn src file)
    (hb : look s.world.disk (joinPath root src) = some (.file b)) (hj : O.js = true)
    (hx : HasExt file str!"js" ∨ HasExt file str!"mjs") :
    (loadFromSource O root name src s).2 =
      (match O.openJs s.tick (joinPath root src) s.world.disk with
      | some q => .ok [q]
      | none => .err .script) := by
  unfold loadFromSource
  simp only [(endsIn_piece hf).1, (endsIn_piece hf).2, isFileAt_look hb, Bool.and_self, if_true]
  unfold managerLoad
  rw [if_pos (by rw [extension_iff, extension_iff]; exact hx), if_pos hj]
  simp only
  split <;> simp_all

example : EndsIn str!"plugins/a.b.js" str!"a.b.js" ∧ HasExt str!"a.b.js" str!"js" :=
  ⟨⟨str!"plugins/", rfl, .inr ⟨str!"plugins", rfl⟩, by decide⟩, extension_iff.1 rfl⟩

example :
    let disk := Entry.dir [(str!"p", .dir [(str!"b.so", .file [2])])]
    EndsIn str!"b.so" str!"b.so" ∧ look disk (joinPath [str!"p"] str!"b.so") = some (.file [2]) :=
  ⟨⟨[], rfl, .inl rfl, by decide⟩, rfl⟩

/-! ### C65 -/

/-- What Cargo does when a build succeeds: the library of the package is in the target directory, its name with
underscores in place of hyphens. -/
def libraryName (package : Str) : Str := package.map fun c => if c = '-' then '_' else c

/-- C65. A source that is a Cargo project whose name has no hyphen is loaded from the library that Cargo has built. -/
theorem C65_cargo_partial (name src pkg : Str) (s : LoadSt) (disk : Entry) (o : ShellOut) (b : Bytes) (q : Plugin)
    (hfile : s.world.disk.isFileAt (joinPath root src) = false)
    (hmanifest : s.world.disk.existsAt (joinPath root src ++ [str!"Cargo.toml"]) = true)
    (hcargo : O.cargo s.tick (joinPath root src ++ [str!"Cargo.toml"]) s.world.disk = (disk, some o)) (hok : o.code = some 0)
    (hpkg : look disk (joinPath root src ++ [str!"Cargo.toml"]) = some (.file b) ∧ (fromUtf8 b).bind O.packageName = some pkg)
    (hslash : '/' ∉ pkg) (hhyphen : '-' ∉ pkg)
    (hlib : O.openLibrary (s.tick + 1)
      (joinPath root src ++ [str!"target", str!"release", str!"lib" ++ libraryName pkg ++ str!".so"]) disk = some (some q)) :
    (loadFromSource O root name src s).2 = .ok [q] := by
  have hname : libraryName pkg = pkg := by
    unfold libraryName
    have : ∀ l : Str, '-' ∉ l → l.map (fun c => if c = '-' then '_' else c) = l := by
      intro l hl
      induction l with
      | nil => rfl
      | cons c l ih =>
        simp only [List.mem_cons, not_or] at hl
        rw [List.map_cons, ih hl.2, if_neg (Ne.symm hl.1)]
    exact this _ hhyphen
  have hat : projectName O disk (joinPath root src ++ [str!"Cargo.toml"]) = some pkg := by
    unfold projectName
    have hb := hpkg.1
    unfold look at hb
    cases hd : disk.at (joinPath root src ++ [str!"Cargo.toml"]) with
    | none => rw [hd] at hb; cases hb
    | some e =>
      rw [hd] at hb
      cases e with
      | file c => cases hb; exact hpkg.2
      | dir l => cases hb
      | special => cases hb
  have hj : joinPath (joinPath root src ++ [str!"target", str!"release"]) (str!"lib" ++ pkg ++ str!".so") =
      joinPath root src ++ [str!"target", str!"release", str!"lib" ++ libraryName pkg ++ str!".so"] := by
    rw [joinPath_plain, hname]
    · simp
    · refine ⟨by simp, ?_, ?_, by simp [hslash]⟩
      · intro k
        have := congrArg List.length k
        simp at this
      · intro k
        have := congrArg List.length k
        simp at this
  unfold loadFromSource
  simp only [hfile, hmanifest, Bool.and_false, Bool.false_eq_true, if_false, if_true]
  unfold buildCargo
  simp only [hcargo, hok, if_true, hat, LoadSt.andThen, hj]
  unfold loadBinary
  simp only [hlib]

/-- A machine on which Cargo builds libraries, under their proper names. -/
def cargoOutside (pkg : Str) : Outside :=
  { plainOutside with
    packageName := fun _ => some pkg
    cargo := fun _ m d => (d.put (m.dropLast ++ [str!"target"]) (some (.dir [(str!"release", .dir [
      (str!"lib" ++ libraryName pkg ++ str!".so", .file [])])])), some ⟨some 0, [], []⟩)
    openLibrary := fun _ p d => if d.isFileAt p then some (some ⟨⟨pkg, []⟩, []⟩) else none }

/-- A project in `/p/src`. -/
def cargoDisk : Entry := .dir [(str!"p", .dir [(str!"src", .dir [(str!"Cargo.toml", .file [])])])]

/-- C65 fails for packages with a hyphen: Cargo has built the library, but the loader looks for another name. -/
theorem C65_counterexample :
    let r := loadFromSource (cargoOutside str!"my-plugin") [str!"p"] str!"x" str!"src" ⟨⟨cargoDisk, []⟩, 0⟩
    look r.1.world.disk [str!"p", str!"src", str!"target", str!"release", str!"libmy_plugin.so"] = some (.file []) ∧
    r.2 = .err .library := ⟨rfl, rfl⟩

example : (loadFromSource (cargoOutside str!"plugin") [str!"p"] str!"x" str!"src" ⟨⟨cargoDisk, []⟩, 0⟩).2 =
    .ok [⟨⟨str!"plugin", []⟩, []⟩] := rfl

/-! ### C66 -/

/-- C66. In a repository the project is found whose manifest names the plugin, wherever it is, and none is found only
when there is none. -/
theorem C66_found (name : Str) (repo : Path) (e : Entry) (hd : ProperDisk e) :
    (∀ q, findProject O name repo e = some q →
      ∃ r b, q = repo ++ r ∧ look e (r ++ [str!"Cargo.toml"]) = some (.file b) ∧ (fromUtf8 b).bind O.packageName = some name) ∧
    (findProject O name repo e = none →
      ∀ r b, look e (r ++ [str!"Cargo.toml"]) = some (.file b) → (fromUtf8 b).bind O.packageName ≠ some name) := by
  constructor
  · intro q h
    obtain ⟨r, b, h1, h2, h3⟩ := findProject_some hd h
    exact ⟨r, b, h1, by rw [look, h2]; rfl, h3⟩
  · intro h r b hb
    refine findProject_none hd h r b ?_
    unfold look at hb
    cases hk : e.at (r ++ [str!"Cargo.toml"]) with
    | none => rw [hk] at hb; cases hb
    | some x => rw [hk] at hb; cases x <;> cases hb; rfl

example : findProject plainOutside str!"my-plugin" [str!"r"] (.dir [(str!"Cargo.toml", .file (bytesOf str!"[workspace]")),
    (str!"a", .dir [(str!"b", .dir [(str!"Cargo.toml", .file (bytesOf str!"[package]"))])])]) =
    some [str!"r", str!"a", str!"b"] := rfl

/-! ### Cases: each theorem applied to something that meets its hypotheses -/

/-- Local plugins. -/
def pluginDisk : Entry := .dir [(str!"p", .dir [(str!"a.js", .file [1]), (str!"b.so", .file [2])])]

example := C53_count (O := plainOutside) (root := [str!"p"]) [(str!"b", str!"b.dll;b.so")] ⟨⟨pluginDisk, []⟩, 0⟩ _ _ rfl

example := C64_local (O := plainOutside) (root := [str!"p"]) { plainOutside with http := fun _ _ => some (200, []) } str!"b" str!"b.so"
  ⟨⟨pluginDisk, []⟩, 0⟩ rfl rfl rfl str!"b.so" [2] ⟨[], rfl, .inl rfl, by decide⟩ rfl

example := C64_library (O := plainOutside) (root := [str!"p"]) str!"b" str!"b.so" ⟨⟨pluginDisk, []⟩, 0⟩ str!"b.so" [2]
  ⟨[], rfl, .inl rfl, by decide⟩ rfl (by constructor <;> intro h <;> cases extension_iff.2 h)

example := C64_script (O := { plainOutside with js := true }) (root := [str!"p"]) str!"a" str!"a.js" ⟨⟨pluginDisk, []⟩, 0⟩ str!"a.js"
  [1] ⟨[], rfl, .inl rfl, by decide⟩ rfl rfl (.inl (extension_iff.1 rfl))

example := C65_cargo_partial (O := (cargoOutside str!"plugin")) (root := [str!"p"]) str!"x" str!"src" str!"plugin" ⟨⟨cargoDisk, []⟩, 0⟩ _ _ []
  ⟨⟨str!"plugin", []⟩, []⟩ rfl rfl rfl rfl ⟨rfl, rfl⟩ (by decide) (by decide) rfl

example := C66_found (O := plainOutside) str!"my-plugin" [str!"r"] (.dir [(str!"Cargo.toml", .file (bytesOf str!"[workspace]")),
  (str!"a", .dir [(str!"b", .dir [(str!"Cargo.toml", .file (bytesOf str!"[package]"))])])]) (by proper_disk)

end Stuart
