import Verif.Proof.Screen
import Verif.Props.Terminal
import Verif.Props.Shown
/-
C100: the terminal after each command, text by text; and C90, the exact length of the progress bar.
-/
namespace Stuart
open Spec

variable (s : Host) (S : Site) (X : Setting) (K : Clock) (level : LogLevel)

/-! ### C100 -/

/-- C100. `stuart new` says one line, and `stuart clean` nothing; if they fail there is only the report. -/
theorem C100_new (hl : level ≠ .quiet) (name : Str) (noGit : Bool) :
    (((Command.new name noGit).run S s).2 = .ok () →
      (mainRun S X K level (.new name noGit) s).2.1.written =
        [screenLine str!"Created" (str!"new Stuart website `" ++ name ++ str!"`")]) ∧
    ((Command.clean.run S s).2 = .ok () → (mainRun S X K level .clean s).2.1.written = []) ∧
    ∀ cmd ∈ [Command.new name noGit, .clean], ∀ e text, (cmd.run S s).2 = .err e → printCli X e = .ok text →
      (mainRun S X K level cmd s).2.1.written = [(.err, text)] := by
  refine ⟨fun h => ?_, fun h => ?_, fun cmd hc e text h ht => ?_⟩
  · rw [mainRun_loud s S X K (.new name noGit) nofun level hl, h]
    have h' : (cmdNew S.G S.png S.cwd name noGit s.world).2 = .ok () := h
    rw [Command.say, h']
    rfl
  · rw [mainRun_loud s S X K .clean nofun level hl, h]
    rfl
  · rw [mainRun_loud s S X K cmd (by
      rintro n rfl
      simp at hc) level hl, h]
    simp only [List.mem_cons, List.not_mem_nil, or_false] at hc
    rcases hc with rfl | rfl
    · have h' : (cmdNew S.G S.png S.cwd name noGit s.world).2 = .err e := h
      rw [Command.say, h']
      simp [ht]
    · rw [Command.say]
      simp [ht]

theorem initSay_shown {manifest : Str} {path : Path} {raw : RawConfig} (hm : ManifestIs S s manifest path raw) :
    (initSay K S.O S.parseToml S.cwd manifest s).map lineOf = pluginsShown S K s path raw := by
  obtain ⟨h1, b, text, h2, h3, h4⟩ := hm
  rw [initSay_plain.shown, initSay, h1]
  simp only
  rw [h2]
  simp only
  rw [h3, Option.map_some, h4]
  rfl

theorem buildSay_shown {M : Machine} {c : Context} {s : Host} {times : Times} :
    (buildSay M times c s).map lineOf <+: buildShown c times ∧
    ((c.build M s).2.2 = .ok () → (buildSay M times c s).map lineOf = buildShown c times) := by
  obtain ⟨h1, h2, _⟩ := C87_lines M times c s
  constructor
  · rw [buildSay_plain.shown, ← buildLines_shown]
    obtain ⟨r, hr⟩ := h1
    rw [← hr, List.flatMap_append]
    exact List.prefix_append _ _
  · intro h
    rw [buildSay_plain.shown, h2.1 h, buildLines_shown]

/-- C100. A build that succeeds: what is said about plugins, and the lines of the build. With no other arguments the manifest
is `stuart.toml` and the output `dist`. -/
theorem C100_build (hl : level ≠ .quiet) (manifest output : Option Str) (path : Path) (raw : RawConfig) (s' : Host) (c : Context)
    (hm : ManifestIs S s (manifest.getD str!"stuart.toml") path raw)
    (hi : Context.init (S.O.loader S.parseToml) S.cwd (manifest.getD str!"stuart.toml") (output.getD str!"dist") str!"production" s =
      (s', .ok c))
    (hb : (c.build S.M s').2.2 = .ok ()) :
    (mainRun S X K level (.build manifest output) s).2.2 = 0 ∧
    (mainRun S X K level (.build manifest output) s).2.1.written = pluginsShown S K s path raw ++ buildShown c (K.times 0) := by
  have hrun : ((Command.build manifest output).run S s).2 = .ok () := by
    rw [Command.run, cmdBuild, hi]
    simp only
    rw [← hb]
  constructor
  · exact ((C89_status s S X K (.build manifest output) level).1).2 hrun
  · rw [mainRun_loud s S X K (.build manifest output) nofun level hl, hrun, Command.say, hi]
    simp only
    rw [List.map_append, initSay_shown s S K hm, buildSay_shown.2 hb, List.append_nil]

theorem Logs.prefix {l l' : List Say} (h : Logs l') (hp : l <+: l') : Logs l := fun x hx => h x (hp.subset hx)

theorem benchSay_says {M : Machine} {c : Context} {s : Host} {t : Term} (he : t.enabled = false) (total n k : Nat) (hk : k + n = total)
    (h : (benchLoop M n c s).2 = .ok ()) :
    t.says (benchSay M K total n k c s) = { t with written := t.written ++
      ((List.range' (k + 1) n).map fun i => (Stream.err, barText str!"Processing" i total)) ++
      if n = 0 then [] else [emptyLine] } := by
  induction n generalizing k c s t with
  | zero => simp [benchSay, Term.says_nil]
  | succ n ih =>
    rw [benchLoop] at h
    rw [benchSay, Term.says_append, (buildLines_logs.prefix (C87_lines M (K.times k) c s).1).says_off he]
    generalize c.build M s = r at h ⊢
    obtain ⟨c', s', r⟩ := r
    cases r with
    | err e => cases h
    | panic e => cases h
    | ok u =>
      cases u
      simp only at h ⊢
      rw [Term.says_cons, Term.says_append]
      by_cases hn : n = 0
      · subst hn
        rw [if_pos (by omega)]
        simp [Term.says_cons, Term.says_nil, Term.say, benchSay, emptyLine]
      · rw [if_neg (by omega), Term.says_nil, ih (by exact he) (k + 1) (by omega) h, if_neg hn, if_neg (by omega),
          List.range'_succ, List.map_cons]
        simp [Term.say]

/-- C100. A benchmark of `n` builds, all of which succeed: what is said about plugins, the bar from 0 to `n`, an empty line for
its end and one more, and the four means. The builds themselves are silent. -/
theorem C100_bench (hl : level ≠ .quiet) (iterations : Option Str) (path : Path) (raw : RawConfig) (s' : Host) (c : Context) (n : Nat)
    (hm : ManifestIs S s str!"stuart.toml" path raw)
    (hi : Context.init (S.O.loader S.parseToml) S.cwd str!"stuart.toml" str!"dist" str!"benchmark" s = (s', .ok c))
    (hn : parseUsize (iterations.getD str!"10") = some n) (hb : (benchLoop S.M n c s').2 = .ok ()) :
    (mainRun S X K level (.bench iterations) s).2.2 = 0 ∧
    (mainRun S X K level (.bench iterations) s).2.1.written = pluginsShown S K s path raw ++
      ((List.range (n + 1)).map fun k => (Stream.err, barText str!"Processing" k n)) ++
      (if n = 0 then [] else [emptyLine]) ++ [emptyLine,
        screenLine str!"Total:" (meanText (tookTotal K n) ++ str!"ms mean"),
        screenLine str!"Build:" (meanText (tookBuild K n) ++ str!"ms mean"),
        screenLine str!"Scripts:" (meanText (tookScripts K n) ++ str!"ms mean"),
        screenLine str!"Filesystem:" (meanText (tookFiles K n) ++ str!"ms mean")] := by
  have hrun : ((Command.bench iterations).run S s).2 = .ok () := by
    rw [Command.run, cmdBench, hi]
    simp only
    rw [hn]
    exact hb
  refine ⟨((C89_status s S X K (.bench iterations) level).1).2 hrun, ?_⟩
  unfold mainRun
  simp only
  rw [hrun]
  simp only
  rw [Command.say, hi]
  simp only
  rw [hn]
  simp only
  generalize hbl : benchLoop S.M n c s' = r at hb
  obtain ⟨sb, rb⟩ := r
  simp only at hb
  subst hb
  simp only
  rw [Term.says_append, Term.says_loud initSay_plain (by exact hl) rfl, initSay_shown s S K hm]
  simp only [Term.says_append]
  simp only [Term.says_cons, Term.says_nil, Term.say]
  rw [benchSay_says K rfl n n 0 (by omega) (by rw [hbl])]
  have hq : ∀ l : LogLevel, l ≠ .quiet → (l != .quiet) = true := fun l h => by cases l <;> first | rfl | exact absurd rfl h
  simp [Term.says_cons, Term.says_nil, Term.say, meansSay, tookTotal, tookBuild, tookScripts, tookFiles, Function.comp_def, hq level hl, List.range_eq_range', List.range'_succ, emptyLine, screenLine,
    padLeft]

/-! ### The development server -/

theorem says_blank {t : Term} {l : List Say} : t.says (.blank :: l) = Term.says { t with written := t.written ++ [emptyLine] } l := rfl

/-- C100. `stuart dev` says what there is to say about plugins, that it has started (with an empty line), and the lines of the
first build; if that fails, the lines up to there, an empty line and the report, and the server goes on. -/
theorem C100_dev (hl : level ≠ .quiet) (manifest output : Str) (path : Path) (raw : RawConfig) (s' : Host) (c : Context)
    (hm : ManifestIs S s manifest path raw) (hp : path ≠ [])
    (hi : Context.init (S.O.loader S.parseToml) S.cwd manifest output str!"development" s = (s', .ok c)) :
    ((c.build S.M s').2.2 = .ok () →
      (mainDev S X K level manifest output s).2 = none ∧
      (mainDev S X K level manifest output s).1.written = pluginsShown S K s path raw ++
        [screenLine str!"Started" str!"development server at http://localhost:6904\n"] ++ buildShown c (K.times 0)) ∧
    ∀ e text, (c.build S.M s').2.2 = .err e → printCli X e = .ok text →
      (mainDev S X K level manifest output s).2 = none ∧
      ∃ w, w <+: buildShown c (K.times 0) ∧
      (mainDev S X K level manifest output s).1.written = pluginsShown S K s path raw ++
        [screenLine str!"Started" str!"development server at http://localhost:6904\n"] ++ w ++ [emptyLine, (.err, text)] := by
  have hcan := hm.1
  obtain ⟨x, p, rfl⟩ := List.exists_cons_of_ne_nil hp
  have hplain : Plain (initSay K S.O S.parseToml S.cwd manifest s ++
      Say.log str!"Started" str!"development server at http://localhost:6904\n" :: buildSay S.M (K.times 0) c s') :=
    initSay_plain.append (.cons (by decide) buildSay_plain)
  have hstart : ∀ r, (c.build S.M s').2.2 = r → (∀ p, r ≠ .panic p) →
      ∃ v, (startDev S.M (S.O.loader S.parseToml) S.cwd manifest output s).2 = .ok v := by
    intro r hr hnp
    unfold startDev
    rw [hcan]
    simp only
    rw [hi]
    simp only
    split
    · rename_i h; rw [h] at hr; exact absurd hr.symm (hnp _)
    · exact ⟨_, rfl⟩
  constructor
  · intro hb
    obtain ⟨v, hv⟩ := hstart _ hb nofun
    unfold mainDev
    simp only
    rw [hv]
    simp only
    rw [hi]
    simp only
    rw [hb]
    refine ⟨rfl, ?_⟩
    simp only
    rw [devSay, hcan]
    simp only
    rw [hi]
    simp only
    rw [Term.says_loud hplain (by exact hl) rfl]
    simp only [List.nil_append, List.map_append, List.map_cons]
    rw [initSay_shown s S K hm, buildSay_shown.2 hb]
    simp [lineOf, logLine_eq]
  · intro e text hb ht
    obtain ⟨v, hv⟩ := hstart _ hb nofun
    unfold mainDev
    simp only
    rw [hv]
    simp only
    rw [hi]
    simp only
    rw [hb]
    simp only
    rw [ht]
    simp only
    refine ⟨by simp only, _, (buildSay_shown (M := S.M) (c := c) (s := s') (times := K.times 0)).1, ?_⟩
    rw [devSay, hcan]
    simp only
    rw [hi]
    simp only
    rw [Term.says_loud hplain (by exact hl) rfl]
    simp only [List.nil_append, List.map_append, List.map_cons]
    rw [initSay_shown s S K hm, if_pos (by simp [isLog])]
    simp [lineOf, logLine_eq, Term.say, emptyLine]

/-- C100. An error before the first build ends `stuart dev` with the status 1 and the report. -/
theorem C100_dev_fails (manifest output : Str) (e : CliErr) (text : Str) (ht : printCli X e = .ok text)
    (h : (startDev S.M (S.O.loader S.parseToml) S.cwd manifest output s).2 = .err e) :
    (mainDev S X K level manifest output s).2 = some 1 ∧
    ∃ w, (mainDev S X K level manifest output s).1.written = w ++ [(.err, text)] := by
  unfold mainDev
  simp only
  rw [h]
  simp only
  rw [ht]
  exact ⟨rfl, _, rfl⟩

/-- C100. What the development server says of a change: nothing in `dist` and `temp`; a request to restart for the manifest; and
the change and the build for all others. -/
theorem C100_change (M : Machine) (times : Times) (c : Context) (rel : Path) (t : Term) (hl : t.level ≠ .quiet) (he : t.enabled = true) :
    let r := Term.onEvent M X times (some (c.dir ++ rel)) c s t
    (rel.head? ∈ [some str!"dist", some str!"temp"] → r = .ok t) ∧
    (rel.head? ∉ [some str!"dist", some str!"temp"] → rel.getLast? = some str!"stuart.toml" →
      r = .ok { t with hasLogged := true, written := t.written ++
        [emptyLine, screenLine str!"Detected" str!"configuration change, please restart the server"] }) ∧
    (rel.head? ∉ [some str!"dist", some str!"temp"] → rel.getLast? ≠ some str!"stuart.toml" →
      ((c.build M s).2.2 = .ok () → r = .ok { t with hasLogged := true, written := (t.written ++
        [emptyLine, screenLine str!"Detected" (str!"change at " ++ dirStr (c.dir ++ rel) ++ str!", rebuilding")] ++
        buildShown c times) }) ∧
      ∀ e text, (c.build M s).2.2 = .err e → printCli X e = .ok text → ∃ w, w <+: buildShown c times ∧
        r = .ok { t with hasLogged := true, written := (t.written ++
          [emptyLine, screenLine str!"Detected" (str!"change at " ++ dirStr (c.dir ++ rel) ++ str!", rebuilding")] ++ w ++
          [emptyLine, (.err, text)]) }) := by
  have hstrip : ∀ d : Path, stripPath d (d ++ rel) = some rel := by
    intro d
    induction d with
    | nil => cases rel <;> rfl
    | cons n d ih => rw [List.cons_append, stripPath, if_pos rfl, ih]
  have hq : ∀ l : LogLevel, l ≠ .quiet → (l != .quiet) = true := fun l h => by cases l <;> first | rfl | exact absurd rfl h
  simp only
  unfold Term.onEvent
  rw [Option.bind_some, hstrip]
  simp only
  refine ⟨fun h => ?_, fun h hm => ?_, fun h hm => ⟨fun hb => ?_, fun e text hb ht => ?_⟩⟩
  · have hr : reaction rel = .ignore := by
      unfold reaction
      rw [if_pos]
      simpa using h
    rw [hr]
  · have hr : reaction rel = .restart := by
      unfold reaction
      rw [if_neg (by simpa using h), if_pos hm]
    rw [hr]
    simp [Term.says_cons, Term.says_nil, Term.say, hq _ hl, he, emptyLine, screenLine, padLeft]
  · have hr : reaction rel = .rebuild := by
      unfold reaction
      rw [if_neg (by simpa using h), if_neg hm]
    rw [hr]
    simp only [List.cons_append, List.nil_append]
    rw [hb, says_blank, Term.says_loud (.cons (by decide) buildSay_plain) (by exact hl) (by exact he)]
    simp only [List.map_cons]
    rw [buildSay_shown.2 hb]
    simp [lineOf, logLine_eq, isLog]
  · have hr : reaction rel = .rebuild := by
      unfold reaction
      rw [if_neg (by simpa using h), if_neg hm]
    rw [hr]
    simp only [List.cons_append, List.nil_append]
    rw [hb, says_blank, Term.says_loud (.cons (by decide) buildSay_plain) (by exact hl) (by exact he)]
    refine ⟨_, (buildSay_shown (M := M) (c := c) (s := s) (times := times)).1, ?_⟩
    simp only
    rw [if_pos (by simp [isLog]), ht]
    simp [lineOf, logLine_eq, isLog, Res.bind, Term.say, emptyLine]

/-! ### C90 -/

/-- C90. The bar is `k / n` rounded to 53 binary digits, fifty times that rounded so again, and the result rounded upwards. -/
theorem C90_length (k n : Nat) (hk : 0 < k) (hkn : k ≤ n) (hn : n ≤ 2 ^ 46) :
    ∃ m p m' p', Nearest k n m p ∧ Nearest (m * 50) (2 ^ p) m' p' ∧
      m' ≤ barLength k n * 2 ^ p' ∧ (barLength k n - 1) * 2 ^ p' < m' := by
  have hnpos : 0 < n := by omega
  have h1 := toFloat_nearest (a := k) (b := n) hnpos (by omega) (by
    have h1 : 2 ^ 52 * n ≤ 2 ^ 52 * 2 ^ 46 := Nat.mul_le_mul_left _ hn
    have h2 : 1 * 2 ^ 106 ≤ k * 2 ^ 106 := Nat.mul_le_mul_right _ hk
    exact Nat.le_trans h1 (Nat.le_trans (by decide) h2))
  have hA' : 2 ^ scale k n 106 ≤ 2 ^ 106 := Nat.pow_le_pow_right (by decide) scale_le
  have hApos : 0 < 2 ^ scale k n 106 := Nat.two_pow_pos _
  have hXA : (toFloat k n).1 ≤ 2 ^ scale k n 106 := by
    unfold toFloat
    exact roundDiv_le hnpos (by rw [Nat.mul_comm (2 ^ _)]; exact Nat.mul_le_mul_right _ hkn)
  have h2 := toFloat_nearest (a := (toFloat k n).1 * 50) (b := 2 ^ scale k n 106) hApos (by omega) (by
    have h3 : 2 ^ 52 * 2 ^ scale k n 106 ≤ 2 ^ 52 * 2 ^ 106 := Nat.mul_le_mul_left _ hA'
    have h4 : 2 ^ 52 * 2 ^ 106 ≤ (toFloat k n).1 * 50 * 2 ^ 106 := Nat.mul_le_mul_right _ (by have := h1.low; omega)
    exact Nat.le_trans h3 h4)
  refine ⟨_, _, _, _, h1, h2, ?_⟩
  have hb : barLength k n = ((toFloat ((toFloat k n).1 * 50) (2 ^ scale k n 106)).1 +
      2 ^ scale ((toFloat k n).1 * 50) (2 ^ scale k n 106) 106 - 1) / 2 ^ scale ((toFloat k n).1 * 50) (2 ^ scale k n 106) 106 := by
    rw [barLength, if_neg (by omega)]
    rfl
  rw [hb]
  have hlow := h2.low
  generalize (toFloat ((toFloat k n).1 * 50) (2 ^ scale k n 106)).1 = y at hlow ⊢
  have hB : 0 < 2 ^ scale ((toFloat k n).1 * 50) (2 ^ scale k n 106) 106 := Nat.two_pow_pos _
  generalize 2 ^ scale ((toFloat k n).1 * 50) (2 ^ scale k n 106) 106 = B at hB ⊢
  have hd := Nat.div_add_mod (y + B - 1) B
  have hm := Nat.mod_lt (y + B - 1) hB
  have hc : (y + B - 1) / B * B = B * ((y + B - 1) / B) := Nat.mul_comm _ _
  rw [Nat.sub_mul, Nat.one_mul, hc]
  omega

/-! ### Cases -/

/-- A website made, and the terminal after it. -/
example :
    let r := mainRun (plainSite idleMachine) demoSetting stillClock .normal (.new str!"blog" true) ⟨⟨.dir [(str!"p", .dir [])], []⟩, []⟩
    r.2.2 = 0 ∧ r.2.1.written = [(.err, str!"     Created new Stuart website `blog`\n")] := by
  refine ⟨?_, ?_⟩ <;> decide +kernel

/-- A benchmark of two builds, up to the four means. -/
example :
    let r := mainRun (plainSite idleMachine) demoSetting stillClock .normal (.bench (some str!"2")) ⟨⟨tiredDisk, []⟩, []⟩
    r.2.2 = 0 ∧ r.2.1.written.take 5 = [
      (.err, barText str!"Processing" 0 2), (.err, barText str!"Processing" 1 2), (.err, barText str!"Processing" 2 2),
      (.out, str!"\n"), (.out, str!"\n")] := by
  refine ⟨?_, ?_⟩ <;> decide +kernel

/-- The development server as it starts, and when a script of the first build fails. -/
example :
    let r := mainDev (plainSite idleMachine) demoSetting stillClock .normal str!"stuart.toml" str!"dist" ⟨⟨tiredDisk, []⟩, []⟩
    r.2 = none ∧ r.1.written = [
      (.err, str!"     Started development server at http://localhost:6904\n\n"),
      (.err, str!"   Executing script `onPreBuild`\n"),
      (.err, str!"    Building Blog (/p)\n"),
      (.err, str!"    Finished build in 1.5ms (1.2ms build, 0.2ms scripts, 0ms filesystem)\n")] := by
  refine ⟨?_, ?_⟩ <;> decide +kernel

example :
    let r := mainDev (plainSite failingMachine) demoSetting stillClock .normal str!"stuart.toml" str!"dist" ⟨⟨tiredDisk, []⟩, []⟩
    r.2 = none ∧ r.1.written = [
      (.err, str!"     Started development server at http://localhost:6904\n\n"),
      (.err, str!"   Executing script `onPreBuild`\n"), (.out, str!"\n"),
      (.err, str!"error: `onPreBuild` failed with exit code 1\n")] := by
  refine ⟨?_, ?_⟩ <;> decide +kernel

/-- The manifest of these cases. -/
theorem plain_manifest (M : Machine) : ManifestIs (plainSite M) ⟨⟨tiredDisk, []⟩, []⟩ str!"stuart.toml" [str!"p", str!"stuart.toml"]
    ⟨str!"Blog", none, none, none⟩ := ⟨rfl, _, _, rfl, rfl, rfl⟩

example := C100_new ⟨⟨.dir [(str!"p", .dir [])], []⟩, []⟩ (plainSite idleMachine) demoSetting stillClock .verbose nofun str!"blog" true
example := C100_build ⟨⟨tiredDisk, []⟩, []⟩ (plainSite idleMachine) demoSetting stillClock .normal nofun none none _ _ _ _
  (plain_manifest _) rfl rfl
example := C100_bench ⟨⟨benchDisk, []⟩, []⟩ { plainSite idleMachine with parseToml := fun _ => .ok ⟨[], none, none, none⟩ } demoSetting
  stillClock .normal nofun (some str!"2") [str!"p", str!"stuart.toml"] ⟨[], none, none, none⟩ ⟨⟨benchDisk, []⟩, []⟩ benchContext 2
  ⟨rfl, _, _, rfl, rfl, rfl⟩ rfl rfl rfl
example := (C100_dev ⟨⟨tiredDisk, []⟩, []⟩ (plainSite idleMachine) demoSetting stillClock .normal nofun str!"stuart.toml" str!"dist" _ _ _ _
  (plain_manifest _) nofun rfl).1 rfl
example := (C100_dev ⟨⟨tiredDisk, []⟩, []⟩ (plainSite failingMachine) demoSetting stillClock .normal nofun str!"stuart.toml" str!"dist" _ _ _ _
  (plain_manifest _) nofun rfl).2 _ _ rfl rfl
example := C100_dev_fails ⟨⟨.dir [], []⟩, []⟩ (plainSite idleMachine) demoSetting stillClock .quiet str!"stuart.toml" str!"dist"
  .invalidManifestPath _ rfl rfl
example := ((C100_change ⟨⟨tiredDisk, []⟩, []⟩ demoSetting idleMachine someTimes demoContext [str!"content", str!"a.html"]
  { level := .normal } nofun rfl).2.2 (by decide) (by decide)).1 rfl
example := C90_length 7 50 (by decide) (by decide) (by decide)

end Stuart
