import Verif.Proof.Serve
import Verif.Proof.Kinds
import Verif.Props.Rebuild
/-
Properties C54 to C57 and C71: the development server.
-/
namespace Stuart
open Spec

/-! ### C54 -/

/-- The script that is inserted. -/
def reloadScript (js : Bytes) : Bytes := bytesOf str!"<script>" ++ js ++ bytesOf str!"</script>"

/-- `</body>` -/
def bodyEnd : Bytes := bytesOf str!"</body>"

/-- C54. A file is served with the script in front of its first `</body>`, and as it is when it has none. -/
theorem C54_inject (js : Bytes) (locate : Str → Option Located) (mime : Str → Str) (disk : Entry) (uri : Str) (p : Path)
    (b : Bytes) (hl : locate (dropSlash uri) = some (.file p))
    (hb : look disk p = some (.file b)) :
    (serveDir js locate mime disk uri).status = 200 ∧
    (∀ pre post, b = pre ++ bodyEnd ++ post →
      (∀ pre' post', b = pre' ++ bodyEnd ++ post' → pre.length ≤ pre'.length) →
      (serveDir js locate mime disk uri).body = pre ++ reloadScript js ++ bodyEnd ++ post) ∧
    ((∀ pre post, b ≠ pre ++ bodyEnd ++ post) → (serveDir js locate mime disk uri).body = b) := by
  have ha : disk.at p = some (.file b) := by
    unfold look at hb
    cases hd : disk.at p with
    | none => rw [hd] at hb; cases hb
    | some e => rw [hd] at hb; cases e <;> cases hb; rfl
  have hne : bytesOf str!"</body>" ≠ [] := by decide
  unfold serveDir
  rw [hl]
  simp only [ha]
  refine ⟨trivial, ?_, ?_⟩
  · intro pre post e hm
    subst e
    unfold injectReload
    rw [show findWindow (bytesOf str!"</body>") (pre ++ bodyEnd ++ post) = some pre.length from findWindow_some hne hm]
    simp only [List.append_assoc]
    rw [List.take_left, List.drop_left]
    simp [reloadScript]
  · intro hn
    unfold injectReload
    rw [findWindow_none hne hn]

/-- C54. These are all the cases: a file without `</body>` or with a first one. -/
theorem C54_cases (b : Bytes) :
    (∀ pre post, b ≠ pre ++ bodyEnd ++ post) ∨
    ∃ pre post, b = pre ++ bodyEnd ++ post ∧ ∀ pre' post', b = pre' ++ bodyEnd ++ post' → pre.length ≤ pre'.length :=
  first_occurrence bodyEnd b

/-- C54. Its content type is that of the extension of its name; without one it has none. -/
theorem C54_type (js : Bytes) (locate : Str → Option Located) (mime : Str → Str) (disk : Entry) (uri : Str) (p : Path)
    (name : Str) (b : Bytes) (hl : locate (dropSlash uri) = some (.file (p ++ [name])))
    (hb : look disk (p ++ [name]) = some (.file b)) :
    (∀ e, HasExt name e → (serveDir js locate mime disk uri).contentType = some (mime e)) ∧
    ((∀ e, ¬ HasExt name e) → (serveDir js locate mime disk uri).contentType = none) := by
  have ha : disk.at (p ++ [name]) = some (.file b) := by
    unfold look at hb
    cases hd : disk.at (p ++ [name]) with
    | none => rw [hd] at hb; cases hb
    | some e => rw [hd] at hb; cases e <;> cases hb; rfl
  unfold serveDir
  rw [hl]
  simp only [ha, List.getLast?_concat, Option.getD_some]
  refine ⟨fun e he => ?_, fun hn => ?_⟩
  · rw [extension_iff.2 he]; rfl
  · cases he : extension name with
    | none => rfl
    | some e => exact absurd (extension_iff.1 he) (hn e)

/-- C54. Anything else that is asked for gets no contents of the site at all: a directory is redirected to the same
address with a slash, what is not found is not found, and a file that cannot be read is an error. -/
theorem C54_other (js : Bytes) (locate : Str → Option Located) (mime : Str → Str) (disk : Entry) (uri : Str) :
    (locate (dropSlash uri) = none →
      serveDir js locate mime disk uri = ⟨404, none, none, bytesOf str!"Not Found"⟩) ∧
    (locate (dropSlash uri) = some .directory →
      serveDir js locate mime disk uri = ⟨301, some (uri ++ str!"/"), none, []⟩) ∧
    (∀ p, locate (dropSlash uri) = some (.file p) → (∀ b, look disk p ≠ some (.file b)) →
      serveDir js locate mime disk uri = ⟨500, none, none, bytesOf str!"Internal Server Error"⟩) := by
  refine ⟨fun h => ?_, fun h => ?_, fun p hp hb => ?_⟩
  · unfold serveDir; rw [h]
  · unfold serveDir; rw [h]
  · unfold serveDir
    rw [hp]
    simp only
    split
    · rename_i b hk
      exact absurd (by rw [look, hk]; rfl) (hb b)
    · rfl

/-- C54. What is looked for is the address without a leading slash. -/
theorem C54_address (uri : Str) : dropSlash ('/' :: uri) = uri ∧ (uri.head? ≠ some '/' → dropSlash uri = uri) := by
  refine ⟨rfl, fun h => ?_⟩
  unfold dropSlash
  split
  · simp at h
  · rfl

/-- Two places where it could go: the first is taken. -/
example :
    let disk := Entry.dir [(str!"dist", .dir [(str!"index.html", .file (bytesOf str!"<body>é</body></body>"))])]
    let r := serveDir (bytesOf str!"go()") (fun u => if u = str!"x" then some (.file [str!"dist", str!"index.html"]) else none)
      (fun e => e) disk str!"/x"
    r.status = 200 ∧ r.contentType = some str!"html" ∧
      r.body = bytesOf str!"<body>é<script>go()</script></body></body>" := by decide

example : (serveDir [] (fun _ => some .directory) id (.dir []) str!"/a").location = some str!"/a/" := rfl

/-! ### C55 -/

/-- C71. The watcher ignores what lies in `dist` or `temp` in the project, only asks for a restart when a file called
`stuart.toml` is changed elsewhere, and rebuilds for everything else. -/
theorem C71_reacts (rel : Path) :
    (reaction rel = .ignore ↔ [str!"dist"] <+: rel ∨ [str!"temp"] <+: rel) ∧
    (reaction rel = .restart ↔ ¬ ([str!"dist"] <+: rel ∨ [str!"temp"] <+: rel) ∧ [str!"stuart.toml"] <:+ rel) ∧
    (reaction rel = .rebuild ↔ ¬ ([str!"dist"] <+: rel ∨ [str!"temp"] <+: rel) ∧ ¬ [str!"stuart.toml"] <:+ rel) := by
  have h1 : ∀ n : Str, [n] <+: rel ↔ rel.head? = some n := by
    intro n
    cases rel with
    | nil => simp
    | cons x r => simp [List.cons_prefix_cons, eq_comm]
  have h2 : [str!"stuart.toml"] <:+ rel ↔ rel.getLast? = some str!"stuart.toml" := by
    rw [List.getLast?_eq_some_iff]
    exact ⟨fun ⟨t, h⟩ => ⟨t, h.symm⟩, fun ⟨t, h⟩ => ⟨t, h.symm⟩⟩
  rw [h1, h1, h2]
  unfold reaction
  simp only [Bool.or_eq_true, decide_eq_true_eq]
  by_cases ha : rel.head? = some str!"dist" ∨ rel.head? = some str!"temp" <;>
    by_cases hb : rel.getLast? = some str!"stuart.toml" <;> simp [ha, hb]

/-- C71. One event: only a change that the watcher rebuilds for leads to a build, and the disk changes only by it; a
failed build is not an error of the server; events without a path, or with one outside the project, make it panic. -/
theorem C71_event {α : Type} (M : Machine) (send : α → α × Bool) (c : Context) (s : Host) (streams : List α) :
    (∀ rel, reaction rel ≠ .rebuild → onEvent M send (some (c.dir ++ rel)) c s streams = (c, s, streams, .ok false)) ∧
    (∀ rel, reaction rel = .rebuild →
      (onEvent M send (some (c.dir ++ rel)) c s streams).1 = (c.build M s).1 ∧
      (onEvent M send (some (c.dir ++ rel)) c s streams).2.1 = (c.build M s).2.1 ∧
      ((∀ p, (c.build M s).2.2 ≠ .panic p) → (onEvent M send (some (c.dir ++ rel)) c s streams).2.2.2 = .ok true)) ∧
    (∀ p, (∀ rel, p ≠ some (c.dir ++ rel)) → onEvent M send p c s streams = (c, s, streams, .panic .watchPath)) := by
  have hs : ∀ d rel : Path, stripPath d (d ++ rel) = some rel := by
    intro d rel
    induction d with
    | nil => rfl
    | cons x d ih => simp only [List.cons_append, stripPath, if_pos]; exact ih
  have hr : ∀ d p rel : Path, stripPath d p = some rel → p = d ++ rel := by
    intro d
    induction d with
    | nil => intro p rel h; cases h; rfl
    | cons x d ih =>
      intro p rel h
      cases p with
      | nil => cases h
      | cons n p =>
        simp only [stripPath] at h
        split at h
        · rename_i e; subst e; rw [ih _ _ h]; rfl
        · cases h
  refine ⟨fun rel h => ?_, fun rel h => ?_, fun p h => ?_⟩
  · unfold onEvent
    simp only [Option.bind_some, hs]
    cases k : reaction rel with
    | ignore => rfl
    | restart => rfl
    | rebuild => exact absurd k h
  · unfold onEvent
    simp only [Option.bind_some, hs, h]
    generalize c.build M s = r
    obtain ⟨c', s', r⟩ := r
    cases r with
    | ok _ => exact ⟨rfl, rfl, fun _ => rfl⟩
    | err _ => exact ⟨rfl, rfl, fun _ => rfl⟩
    | panic p => exact ⟨rfl, rfl, fun k => absurd rfl (k p)⟩
  · unfold onEvent
    cases p with
    | none => rfl
    | some p =>
      cases k : stripPath c.dir p with
      | none => simp only [Option.bind_some, k]
      | some rel => exact absurd (congrArg some (hr _ _ _ k)) (h rel)

/-- C55. After a rebuild the connections are those to which the message could be sent, each as often as before; their
order may change. -/
theorem C55_notify {α : Type} (send : α → α × Bool) (streams : List α) :
    (notify send streams).Perm (((streams.map send).filter fun r => r.2).map fun r => r.1) := by
  obtain ⟨t, h1, h2⟩ := notifyAll_spec send streams []
  simp only [List.nil_append, List.length_nil] at h1
  unfold notify
  simp only [h1]
  exact h2

/-- C55. The message is sent exactly when an event led to a successful build: otherwise the connections stay as they
are. -/
theorem C55_when {α : Type} (M : Machine) (send : α → α × Bool) (rel : Path) (c : Context) (s : Host) (streams : List α) :
    (reaction rel = .rebuild ∧ (c.build M s).2.2 = .ok () →
      (onEvent M send (some (c.dir ++ rel)) c s streams).2.2.1 = notify send streams) ∧
    (¬ (reaction rel = .rebuild ∧ (c.build M s).2.2 = .ok ()) →
      (onEvent M send (some (c.dir ++ rel)) c s streams).2.2.1 = streams) := by
  have hs : ∀ d : Path, stripPath d (d ++ rel) = some rel := by
    intro d
    induction d with
    | nil => rfl
    | cons x d ih => simp only [List.cons_append, stripPath, if_pos]; exact ih
  unfold onEvent
  simp only [Option.bind_some, hs]
  cases hr : reaction rel with
  | ignore => simp
  | restart => simp
  | rebuild =>
    simp only [true_and]
    generalize c.build M s = r
    obtain ⟨c', s', r⟩ := r
    cases r <;> simp

/-- Connections are numbers; those below 10 are dead. -/
example : notify (fun n => (n, decide (10 ≤ n))) [1, 11, 2, 12, 3] = [12, 11] := rfl
example : notify (fun n => (n, decide (10 ≤ n))) [11, 1, 12] = [11, 12] := rfl

/-! ### C56 -/

/-- A step in which nothing is changed between the moment the build has read the project and the moment the queue is
empty again. -/
def Dev.CalmStep (own : List Path) (s t : Dev) : Prop :=
  Dev.Step own s t ∧ (t.version ≠ s.version → s.phase = .idle ∨ s.phase = .started)

/-- Any number of such steps. -/
inductive Dev.CalmSteps (own : List Path) : Dev → Dev → Prop
  | refl (s : Dev) : CalmSteps own s s
  | tail {a b c : Dev} (h : CalmSteps own a b) (hs : Dev.CalmStep own b c) : CalmSteps own a c

/-- Nothing is going on, and no event is on its way. -/
def Dev.Quiet (s : Dev) : Prop := s.phase = .idle ∧ s.pending = [] ∧ s.queue = []

private def Dev.Ok (s : Dev) : Prop :=
  match s.phase with
  | .idle => s.served = s.version ∨ ∃ p ∈ s.pending ++ s.queue, reaction p = .rebuild
  | .started => True
  | .read v => v = s.version
  | .published => s.served = s.version

private theorem Dev.Ok_step {own : List Path} {s t : Dev} (h : Dev.CalmStep own s t) (hs : s.Ok) : t.Ok := by
  obtain ⟨h, hc⟩ := h
  cases h with
  | edit p hp =>
    have := hc (by simp)
    unfold Dev.Ok at hs ⊢
    simp only
    rcases this with k | k
    · rw [k]
      exact .inr ⟨p, by simp, hp⟩
    · rw [k]; trivial
  | deliver p ps hp =>
    unfold Dev.Ok at hs ⊢
    simp only
    split
    · rename_i k
      rw [k] at hs
      rcases hs with hs | ⟨x, hx, hr⟩
      · exact .inl hs
      · refine .inr ⟨x, ?_, hr⟩
        rw [hp] at hx
        simp only [List.mem_append, List.mem_cons, List.not_mem_nil, or_false] at hx ⊢
        rcases hx with (hx | hx) | hx
        · exact .inr (.inr hx)
        · exact .inl hx
        · exact .inr (.inl hx)
    · trivial
    · rename_i v k
      rw [k] at hs; exact hs
    · rename_i k
      rw [k] at hs; exact hs
  | skip p q hi hp hr =>
    unfold Dev.Ok at hs ⊢
    rw [hi] at hs
    simp only [hi]
    rcases hs with hs | ⟨x, hx, hxr⟩
    · exact .inl hs
    · refine .inr ⟨x, ?_, hxr⟩
      rw [hp] at hx
      simp only [List.mem_append, List.mem_cons] at hx ⊢
      rcases hx with hx | rfl | hx
      · exact .inl hx
      · exact absurd hxr hr
      · exact .inr hx
  | start p q hi hp hr => trivial
  | read hi => rfl
  | publish v hi =>
    unfold Dev.Ok at hs ⊢
    rw [hi] at hs
    exact hs
  | drain hi =>
    unfold Dev.Ok at hs ⊢
    rw [hi] at hs
    exact .inl hs

/-- C56. When everything is quiet, the output shows the latest version: provided that nothing was changed while a build
was between reading the project and the emptying of the queue. Not so in general (`C56_counterexample`). -/
theorem C56_caught_up_partial (own : List Path) (s : Dev) (h : Dev.CalmSteps own Dev.initial s) (hq : s.Quiet) :
    s.served = s.version := by
  have hok : s.Ok := by
    clear hq
    have ha : Dev.initial.Ok := Or.inl rfl
    generalize Dev.initial = a at h ha
    induction h with
    | refl => exact ha
    | tail _ hs ih => exact Dev.Ok_step hs ih
  unfold Dev.Ok at hok
  obtain ⟨h1, h2, h3⟩ := hq
  rw [h1, h2, h3] at hok
  rcases hok with hok | ⟨_, hx, _⟩
  · exact hok
  · simp at hx

/-- C56 is false in general: a change made after a build has read the project, whose event arrives before the queue is
emptied, is lost. The server is idle, nothing is on its way, and the output is out of date. -/
theorem C56_counterexample : ∃ own s, Dev.Steps own Dev.initial s ∧ s.Quiet ∧ s.served ≠ s.version := by
  let p : Path := [str!"content", str!"a.html"]
  have hp : reaction p = .rebuild := by decide
  refine ⟨[], ⟨2, [], [], .idle, 1, 1⟩, ?_, ⟨rfl, rfl, rfl⟩, by decide⟩
  refine .tail ?_ (Dev.Step.drain ⟨2, [], [p], .published, 1, 1⟩ rfl)
  refine .tail ?_ (Dev.Step.deliver ⟨2, [p], [], .published, 1, 1⟩ p [] rfl)
  refine .tail ?_ (Dev.Step.publish ⟨2, [p], [], .read 1, 0, 1⟩ 1 rfl)
  refine .tail ?_ (Dev.Step.edit ⟨1, [], [], .read 1, 0, 1⟩ p hp)
  refine .tail ?_ (Dev.Step.read ⟨1, [], [], .started, 0, 1⟩ rfl)
  refine .tail ?_ (Dev.Step.start ⟨1, [], [p], .idle, 0, 0⟩ p [] rfl rfl hp)
  refine .tail ?_ (Dev.Step.deliver ⟨1, [p], [], .idle, 0, 0⟩ p [] rfl)
  exact .tail (.refl _) (Dev.Step.edit Dev.initial p hp)

/-- A run to which `C56_caught_up_partial` applies: two changes, one of them during the build but before it reads. -/
theorem calm_run : ∃ s, Dev.CalmSteps [] Dev.initial s ∧ s.Quiet ∧ s.version = 2 ∧ s.builds = 1 := by
  let p : Path := [str!"content", str!"a.html"]
  have hp : reaction p = .rebuild := by decide
  refine ⟨⟨2, [], [], .idle, 2, 1⟩, ?_, ⟨rfl, rfl, rfl⟩, rfl, rfl⟩
  refine .tail ?_ ⟨Dev.Step.drain ⟨2, [], [p], .published, 2, 1⟩ rfl, fun k => absurd rfl k⟩
  refine .tail ?_ ⟨Dev.Step.deliver ⟨2, [p], [], .published, 2, 1⟩ p [] rfl, fun k => absurd rfl k⟩
  refine .tail ?_ ⟨Dev.Step.publish ⟨2, [p], [], .read 2, 0, 1⟩ 2 rfl, fun k => absurd rfl k⟩
  refine .tail ?_ ⟨Dev.Step.read ⟨2, [p], [], .started, 0, 1⟩ rfl, fun k => absurd rfl k⟩
  refine .tail ?_ ⟨Dev.Step.edit ⟨1, [], [], .started, 0, 1⟩ p hp, fun _ => .inr rfl⟩
  refine .tail ?_ ⟨Dev.Step.start ⟨1, [], [p], .idle, 0, 0⟩ p [] rfl rfl hp, fun k => absurd rfl k⟩
  refine .tail ?_ ⟨Dev.Step.deliver ⟨1, [p], [], .idle, 0, 0⟩ p [] rfl, fun k => absurd rfl k⟩
  exact .tail (.refl _) ⟨Dev.Step.edit Dev.initial p hp, fun _ => .inl rfl⟩

/-! ### C57 -/

private def Dev.due (s : Dev) : Nat := (s.pending ++ s.queue).countP fun p => reaction p = .rebuild

private theorem Dev.due_step {own : List Path} (ho : ∀ p ∈ own, reaction p ≠ .rebuild) {s t : Dev} (h : Dev.Step own s t)
    (hs : s.builds + s.due ≤ s.version) : t.builds + t.due ≤ t.version := by
  have hown : own.countP (fun p => reaction p = .rebuild) = 0 := by
    rw [List.countP_eq_zero]
    intro p hp
    simpa using ho p hp
  unfold Dev.due at hs ⊢
  cases h with
  | edit p hp =>
    simp only [List.countP_append, List.countP_cons, List.countP_nil, hp, decide_true, if_true] at hs ⊢
    omega
  | deliver p ps hp =>
    rw [hp] at hs
    simp only [List.countP_append, List.countP_cons, List.countP_nil] at hs ⊢
    omega
  | skip p q hi hp hr =>
    rw [hp] at hs
    simp only [List.countP_append, List.countP_cons, hr, decide_false, Bool.false_eq_true, if_false] at hs ⊢
    omega
  | start p q hi hp hr =>
    rw [hp] at hs
    simp only [List.countP_append, List.countP_cons, hr, decide_true, if_true] at hs ⊢
    omega
  | read hi => exact hs
  | publish v hi =>
    simp only [List.countP_append, hown] at hs ⊢
    omega
  | drain hi =>
    simp only [List.countP_append, List.countP_nil] at hs ⊢
    omega

/-- C57. There are no more builds than changes, if a build changes only paths which the watcher ignores. -/
theorem C57_builds_partial (own : List Path) (ho : ∀ p ∈ own, reaction p ≠ .rebuild) (s : Dev)
    (h : Dev.Steps own Dev.initial s) : s.builds ≤ s.version := by
  suffices s.builds + s.due ≤ s.version by omega
  have ha : Dev.initial.builds + Dev.initial.due ≤ Dev.initial.version := Nat.le_refl _
  generalize Dev.initial = a at h ha
  induction h with
  | refl => exact ha
  | tail _ hs ih => exact Dev.due_step ho hs ih

/-- C57. And so it is when the output goes to `dist` and no metadata is exported: every change that publishing makes is
to a path that the watcher ignores. (Changes made by scripts are theirs.) -/
theorem C57_own {M : Machine} {c : Context} (s1 s2 : Host) (name src : Str) (cs : List Node)
    (h : Publishes M c s1 s2 name src cs) (hd : ProperDisk s1.world.disk) (hn : PlainNames c.stuart.config cs)
    (hdots : NoDots c.stuart.config s1.world.disk c.dir) (hout : c.output = str!"dist")
    (hmeta : c.stuart.config.saveMetadata = false) :
    ∃ os : List Op, s2.world = (runOps os (s1.world.step (.clear (c.dir ++ [str!"temp"]))).1).1 ∧
      ∀ o ∈ .clear (c.dir ++ [str!"temp"]) :: os, ∃ rel, o.target = c.dir ++ rel ∧ reaction rel = .ignore := by
  obtain ⟨p, nm', ms, src', w, h1, h2, h3, h4, h5⟩ := h.steps
  obtain ⟨ms', k1, k2⟩ := mergeDirs_shows hd (Context.built_output h.content).1 (by rw [h1])
  rw [h1, h2] at k1
  cases k1
  have hpl := merged_plain hd k2 hn hdots
  have hop : c.outPath = c.dir ++ [str!"dist"] := by
    unfold Context.outPath
    rw [hout]; rfl
  have hig : ∀ r, reaction ([str!"dist"] ++ r) = .ignore := fun r => by simp [reaction]
  refine ⟨.clear c.outPath :: .mkdir c.outPath :: saveAll c.stuart.config c.outPath ms, ?_, ?_⟩
  · rcases exportMeta_ok (c := c.built M s1.world.disk) h2 h5 with ⟨_, e⟩ | ⟨_, e, _⟩
    · rw [e]
      unfold saveNode at h4
      simp only at h4
      rw [h4]
    · rw [h3, hmeta] at e; cases e
  · intro o ho
    simp only [List.mem_cons] at ho
    rcases ho with rfl | rfl | rfl | ho
    · exact ⟨[str!"temp"], rfl, by decide⟩
    · exact ⟨[str!"dist"], hop, by decide⟩
    · exact ⟨[str!"dist"], hop, by decide⟩
    · obtain ⟨r, hr⟩ := (saveAll_target hpl ho).1
      exact ⟨[str!"dist"] ++ r, by rw [← hr, hop, List.append_assoc], hig r⟩

/-- `C57_own` for the project of the examples. -/
example : ∃ os : List Op,
    (fullAfter demoContext).world = (runOps os ((⟨fullDisk, []⟩ : World).step (.clear [str!"p", str!"temp"])).1).1 ∧
    ∀ o ∈ .clear [str!"p", str!"temp"] :: os, ∃ rel, o.target = [str!"p"] ++ rel ∧ reaction rel = .ignore :=
  C57_own _ _ _ _ _ full_publishes fullDisk_proper (by unfold fullTree; plain_names) (fullDisk_noDots _) rfl rfl

/-- Steps taken one after the other. -/
theorem Dev.Steps.trans {own : List Path} {a b c : Dev} (h : Dev.Steps own a b) (h' : Dev.Steps own b c) :
    Dev.Steps own a c := by
  induction h' with
  | refl => exact h
  | tail _ hs ih => exact .tail ih hs

/-- C57 is false in general: with an output directory that is not called `dist`, or with metadata, the events of a build
that arrive after the queue has been emptied cause the next build, and so on without end, though nothing but one file
was ever changed. -/
theorem C57_counterexample (p : Path) (hp : reaction p = .rebuild) (n : Nat) :
    ∃ s, Dev.Steps [p] Dev.initial s ∧ s.version = 1 ∧ n ≤ s.builds := by
  suffices ∃ k s, Dev.Steps [p] Dev.initial s ∧ s = ⟨1, [p], [], .idle, k, n⟩ by
    obtain ⟨_, s, h, rfl⟩ := this
    exact ⟨_, h, rfl, Nat.le_refl _⟩
  induction n with
  | zero => exact ⟨0, _, .tail (.refl _) (Dev.Step.edit Dev.initial p hp), rfl⟩
  | succ n ih =>
    obtain ⟨k, s, h, rfl⟩ := ih
    refine ⟨1, _, h.trans ?_, rfl⟩
    refine .tail ?_ (Dev.Step.drain ⟨1, [p], [], .published, 1, n + 1⟩ rfl)
    refine .tail ?_ (Dev.Step.publish ⟨1, [], [], .read 1, k, n + 1⟩ 1 rfl)
    refine .tail ?_ (Dev.Step.read ⟨1, [], [], .started, k, n + 1⟩ rfl)
    refine .tail ?_ (Dev.Step.start ⟨1, [], [p], .idle, k, n⟩ p [] rfl rfl hp)
    exact .tail (.refl _) (Dev.Step.deliver ⟨1, [p], [], .idle, k, n⟩ p [] rfl)

/-- Two such paths. -/
example : reaction [str!"public", str!"index.html"] = .rebuild ∧ reaction [str!"metadata.json"] = .rebuild := by decide

/-- Paths that the watcher ignores: whole components count. -/
example : reaction [str!"dist", str!"a", str!"index.html"] = .ignore ∧ reaction [str!"dist2"] = .rebuild ∧
    reaction [str!"content", str!"temp"] = .rebuild ∧ reaction [str!"stuart.toml"] = .restart := by decide

/-! ### Cases: each theorem applied to something that meets its hypotheses -/

/-- A page that has been published. -/
def servedDisk : Entry := .dir [(str!"dist", .dir [(str!"index.html", .file (bytesOf str!"<body></body>"))])]

example := C54_inject (bytesOf str!"go()") (fun _ => some (.file [str!"dist", str!"index.html"])) id servedDisk str!"/x"
  [str!"dist", str!"index.html"] _ rfl rfl

example := C54_type (bytesOf str!"go()") (fun _ => some (.file [str!"dist", str!"index.html"])) id servedDisk str!"/x"
  [str!"dist"] str!"index.html" _ rfl rfl

example : ∃ s : Dev, s.version = 2 ∧ s.served = s.version := by
  obtain ⟨s, h1, h2, h3, _⟩ := calm_run
  exact ⟨s, h3, C56_caught_up_partial [] s h1 h2⟩

example : ∃ s : Dev, s.version = 1 ∧ s.builds ≤ s.version :=
  ⟨_, rfl, C57_builds_partial [[str!"dist", str!"a"]] (by decide) _
    (.tail (.refl _) (Dev.Step.edit Dev.initial [str!"content", str!"a.html"] (by decide)))⟩

example := C57_counterexample [str!"metadata.json"] (by decide) 1000

end Stuart
