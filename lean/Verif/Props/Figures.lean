import Verif.Proof.Mean
import Verif.Props.Screen
/-
C101: the figures of a benchmark.
-/
namespace Stuart
open Spec

theorem showHundredths_spec (x : Nat × Nat) : Hundredths (roundDiv (x.1 * 100) x.2) (showHundredths x) := by
  unfold showHundredths
  simp only [natToStr_eq]
  generalize roundDiv (x.1 * 100) x.2 = q
  have := Hundredths.mk (q / 100) (q % 100 / 10) (q % 10) (by omega) (by omega)
  rw [show 100 * (q / 100) + 10 * (q % 100 / 10) + q % 10 = q by omega] at this
  simpa [List.append_assoc] using this

theorem sum_cut_le (l : List Nat) : 100 * (l.map (· / 100)).sum ≤ l.sum ∧ l.sum ≤ 100 * (l.map (· / 100)).sum + 99 * l.length := by
  induction l with
  | nil => simp
  | cons m l ih => simp only [List.map_cons, List.sum_cons, List.length_cons]; omega

/-- A mean is shown with two digits after the point, and off by at most 0.00505 ms. -/
theorem meanText_spec (l : List Nat) (hl : l ≠ []) (hn : l.length < 2 ^ 40) (hS : l.sum < 2 ^ 46) :
    ∃ q, Hundredths q (meanText l) ∧ IsMean l q := by
  refine ⟨_, ?_, meanFloat_isMean l hl hn (by have := (sum_cut_le l).1; omega)⟩
  unfold meanText
  rw [if_neg hl]
  exact showHundredths_spec _

theorem sum_le_of_le {f g : Nat → Nat} (h : ∀ k, f k ≤ g k) (n : Nat) :
    ((List.range n).map f).sum ≤ ((List.range n).map g).sum := by
  induction n with
  | zero => simp
  | succ n ih =>
    simp only [List.range_succ, List.map_append, List.sum_append, List.map_cons, List.map_nil, List.sum_cons, List.sum_nil]
    have := h n
    omega

variable (S : Site) (X : Setting) (K : Clock) (s : Host) (level : LogLevel)

/-- C101. After a benchmark of at least one build, all of which succeed, the last lines are the mean times: altogether, of the
content, of the scripts and of saving. Each is that of the times of the builds as they are shown after a build, in tenths of
milliseconds, to two digits after the point: it is off by at most 0.00505 ms, as the nearest number with two digits can be by
0.005 ms. This is so for benchmarks of less than 2^40 builds that take less than 2^46 microseconds (two years). -/
theorem C101_figures_partial (hl : level ≠ .quiet) (iterations : Option Str) (path : Path) (raw : RawConfig) (s' : Host) (c : Context)
    (n : Nat) (hm : ManifestIs S s str!"stuart.toml" path raw)
    (hi : Context.init (S.O.loader S.parseToml) S.cwd str!"stuart.toml" str!"dist" str!"benchmark" s = (s', .ok c))
    (hn : parseUsize (iterations.getD str!"10") = some n) (hb : (benchLoop S.M n c s').2 = .ok ())
    (hpos : 0 < n) (hsmall : n < 2 ^ 40) (hshort : (tookTotal K n).sum < 2 ^ 46) :
    ∃ before total build scripts files, ∃ t b sc f : Str,
      (mainRun S X K level (.bench iterations) s).2.1.written = before ++
        [screenLine str!"Total:" (t ++ str!"ms mean"), screenLine str!"Build:" (b ++ str!"ms mean"),
          screenLine str!"Scripts:" (sc ++ str!"ms mean"), screenLine str!"Filesystem:" (f ++ str!"ms mean")] ∧
      Hundredths total t ∧ IsMean (tookTotal K n) total ∧ Hundredths build b ∧ IsMean (tookBuild K n) build ∧
      Hundredths scripts sc ∧ IsMean (tookScripts K n) scripts ∧ Hundredths files f ∧ IsMean (tookFiles K n) files := by
  have hne : ∀ f : Nat → Nat, (List.range n).map f ≠ [] := by
    intro f h
    have := congrArg List.length h
    simp at this
    omega
  have hle : ∀ f : Nat → Nat, (∀ k, f k ≤ (K.times k).pre + (K.times k).build + (K.times k).save + (K.times k).post) →
      ∃ q, Hundredths q (meanText ((List.range n).map f)) ∧ IsMean ((List.range n).map f) q := by
    intro f hf
    exact meanText_spec _ (hne f) (by simpa using hsmall) (Nat.lt_of_le_of_lt (sum_le_of_le hf n) hshort)
  obtain ⟨total, h1, h2⟩ := hle _ (fun k => Nat.le_refl _)
  obtain ⟨build, h3, h4⟩ := hle (fun k => (K.times k).build) (fun k => by omega)
  obtain ⟨scripts, h5, h6⟩ := hle (fun k => (K.times k).pre + (K.times k).post) (fun k => by omega)
  obtain ⟨files, h7, h8⟩ := hle (fun k => (K.times k).save) (fun k => by omega)
  have h := (C100_bench s S X K level hl iterations path raw s' c n hm hi hn hb).2
  rw [if_neg (by omega)] at h
  refine ⟨pluginsShown S K s path raw ++ ((List.range (n + 1)).map fun k => (Stream.err, barText str!"Processing" k n)) ++
    [emptyLine, emptyLine], total, build, scripts, files, _, _, _, _, ?_, h1, h2, h3, h4, h5, h6, h7, h8⟩
  rw [h]
  simp [tookTotal, tookBuild, tookScripts, tookFiles]

/-- C101. A benchmark of no builds ends with no numbers at all: `NaNms mean`. -/
theorem C101_counterexample_none (hl : level ≠ .quiet) (path : Path) (raw : RawConfig) (s' : Host) (c : Context)
    (hm : ManifestIs S s str!"stuart.toml" path raw)
    (hi : Context.init (S.O.loader S.parseToml) S.cwd str!"stuart.toml" str!"dist" str!"benchmark" s = (s', .ok c)) :
    (mainRun S X K level (.bench (some str!"0")) s).2.2 = 0 ∧
    ∃ before, (mainRun S X K level (.bench (some str!"0")) s).2.1.written = before ++
      [screenLine str!"Total:" str!"NaNms mean", screenLine str!"Build:" str!"NaNms mean",
        screenLine str!"Scripts:" str!"NaNms mean", screenLine str!"Filesystem:" str!"NaNms mean"] := by
  have h := C100_bench s S X K level hl (some str!"0") path raw s' c 0 hm hi rfl rfl
  refine ⟨h.1, pluginsShown S K s path raw ++ [(.err, barText str!"Processing" 0 0), emptyLine], ?_⟩
  rw [h.2]
  simp [tookTotal, tookBuild, tookScripts, tookFiles, meanText, List.range_succ]

/-! ### What follows for the figures -/

/-- C101. A mean lies between the shortest and the longest of the times. -/
theorem C101_between (l : List Nat) (q lo hi : Nat) (hl : l ≠ []) (h : IsMean l q)
    (hlo : ∀ m ∈ l, lo ≤ m / 100) (hhi : ∀ m ∈ l, m / 100 ≤ hi) : 10 * lo ≤ q ∧ q ≤ 10 * hi := by
  have hlen : 0 < l.length := List.length_pos_iff.2 hl
  have hsum : ∀ l : List Nat, (∀ m ∈ l, lo ≤ m / 100) → (∀ m ∈ l, m / 100 ≤ hi) →
      lo * l.length ≤ (l.map (· / 100)).sum ∧ (l.map (· / 100)).sum ≤ hi * l.length := by
    intro l
    induction l with
    | nil => intro _ _; simp
    | cons m l ih =>
      intro h1 h2
      obtain ⟨g1, g2⟩ := ih (fun x hx => h1 x (.tail _ hx)) (fun x hx => h2 x (.tail _ hx))
      have := h1 m (.head _)
      have := h2 m (.head _)
      simp only [List.map_cons, List.sum_cons, List.length_cons, Nat.mul_add, Nat.mul_one]
      omega
  obtain ⟨g1, g2⟩ := hsum l hlo hhi
  obtain ⟨m1, m2⟩ := h
  generalize (l.map (· / 100)).sum = T at g1 g2 m1 m2
  generalize l.length = n at hlen g1 g2 m1 m2
  constructor
  · refine Decidable.byContradiction fun hc => ?_
    have : (q + 1) * n ≤ 10 * lo * n := Nat.mul_le_mul_right _ (by omega)
    rw [Nat.add_mul, Nat.mul_assoc] at this
    omega
  · refine Decidable.byContradiction fun hc => ?_
    have : (10 * hi + 1) * n ≤ q * n := Nat.mul_le_mul_right _ (by omega)
    rw [Nat.add_mul, Nat.mul_assoc] at this
    omega

/-- C101. If all builds are shown to take the same time, so is their mean. -/
theorem C101_steady (l : List Nat) (q t : Nat) (hl : l ≠ []) (h : IsMean l q) (ht : ∀ m ∈ l, m / 100 = t) : q = 10 * t := by
  have := C101_between l q t t hl h (fun m hm => Nat.le_of_eq (ht m hm).symm) (fun m hm => Nat.le_of_eq (ht m hm))
  omega

/-- C101. Of the true mean, the figure is at most 0.00505 ms too great, and at most 0.10405 ms too small. -/
theorem C101_true (l : List Nat) (q : Nat) (h : IsMean l q) :
    20 * (10 * q * l.length) ≤ 20 * l.sum + 101 * l.length ∧ 20 * l.sum ≤ 20 * (10 * q * l.length) + (101 + 1980) * l.length := by
  obtain ⟨m1, m2⟩ := h
  obtain ⟨c1, c2⟩ := sum_cut_le l
  rw [Nat.mul_assoc 10]
  omega

/-- C101. The figures of the parts make up that of the whole, up to 0.2 ms lost in cutting and 0.02 ms in rounding. -/
theorem C101_parts (n total build scripts files : Nat) (hpos : 0 < n) (h1 : IsMean (tookTotal K n) total)
    (h2 : IsMean (tookBuild K n) build) (h3 : IsMean (tookScripts K n) scripts) (h4 : IsMean (tookFiles K n) files) :
    build + scripts + files ≤ total + 2 ∧ total ≤ build + scripts + files + 22 := by
  have hsum : ∀ n, ((tookBuild K n).map (· / 100)).sum + ((tookScripts K n).map (· / 100)).sum +
      ((tookFiles K n).map (· / 100)).sum ≤ ((tookTotal K n).map (· / 100)).sum ∧
      ((tookTotal K n).map (· / 100)).sum ≤ ((tookBuild K n).map (· / 100)).sum + ((tookScripts K n).map (· / 100)).sum +
      ((tookFiles K n).map (· / 100)).sum + 2 * n := by
    intro n
    induction n with
    | zero => simp [tookTotal, tookBuild, tookScripts, tookFiles]
    | succ n ih =>
      simp only [tookTotal, tookBuild, tookScripts, tookFiles, List.range_succ, List.map_append, List.sum_append, List.map_cons,
        List.map_nil, List.sum_cons, List.sum_nil] at ih ⊢
      omega
  obtain ⟨s1, s2⟩ := hsum n
  have hlen : (tookTotal K n).length = n ∧ (tookBuild K n).length = n ∧ (tookScripts K n).length = n ∧
      (tookFiles K n).length = n := by simp [tookTotal, tookBuild, tookScripts, tookFiles]
  obtain ⟨l1, l2, l3, l4⟩ := hlen
  unfold IsMean at h1 h2 h3 h4
  rw [l1] at h1
  rw [l2] at h2
  rw [l3] at h3
  rw [l4] at h4
  constructor
  · refine Decidable.byContradiction fun hc => ?_
    have : (total + 3) * n ≤ (build + scripts + files) * n := Nat.mul_le_mul_right _ (by omega)
    simp only [Nat.add_mul] at this
    omega
  · refine Decidable.byContradiction fun hc => ?_
    have : (build + scripts + files + 23) * n ≤ total * n := Nat.mul_le_mul_right _ (by omega)
    simp only [Nat.add_mul] at this
    omega

example := C101_figures_partial { plainSite idleMachine with parseToml := fun _ => .ok ⟨[], none, none, none⟩ } demoSetting
  stillClock ⟨⟨benchDisk, []⟩, []⟩ .normal nofun (some str!"2") [str!"p", str!"stuart.toml"] ⟨[], none, none, none⟩
  ⟨⟨benchDisk, []⟩, []⟩ benchContext 2 ⟨rfl, _, _, rfl, rfl, rfl⟩ rfl rfl rfl (by decide) (by decide) (by decide)
example := C101_counterexample_none { plainSite idleMachine with parseToml := fun _ => .ok ⟨[], none, none, none⟩ } demoSetting
  stillClock ⟨⟨benchDisk, []⟩, []⟩ .normal nofun [str!"p", str!"stuart.toml"] ⟨[], none, none, none⟩
  ⟨⟨benchDisk, []⟩, []⟩ benchContext ⟨rfl, _, _, rfl, rfl, rfl⟩ rfl
example := C101_between [12345, 4599, 6000] 760 45 123 nofun (by unfold IsMean; decide) (by decide) (by decide)
example := C101_steady [12345, 12399] 1230 123 nofun (by unfold IsMean; decide) (by decide)
example := C101_true [12345, 4599, 6000] 760 (by unfold IsMean; decide)
example := C101_parts stillClock 2 150 120 20 0 (by decide) (by unfold IsMean; decide) (by unfold IsMean; decide)
  (by unfold IsMean; decide) (by unfold IsMean; decide)

/-- The end of a benchmark of two builds. -/
example :
    let r := mainRun (plainSite idleMachine) demoSetting stillClock .normal (.bench (some str!"2")) ⟨⟨tiredDisk, []⟩, []⟩
    r.2.1.written.drop 5 = [
      (.err, str!"      Total: 1.50ms mean\n"), (.err, str!"      Build: 1.20ms mean\n"),
      (.err, str!"    Scripts: 0.20ms mean\n"), (.err, str!" Filesystem: 0.00ms mean\n")] := by
  decide +kernel

/-- Three builds of 12.3, 4.5 and 6 ms: 7.6 ms. -/
example : meanText [12345, 4599, 6000] = str!"7.60" := by decide +kernel

/-- The digits after the point are rounded: 0.1 and two times 0.2 make 0.17 in the mean. -/
example : meanText [100, 200, 299] = str!"0.17" := by decide +kernel

end Stuart
