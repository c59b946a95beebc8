import Verif.Proof.ReadFail
import Verif.Props.Read
/-
C92: why a content directory cannot be read.
-/
namespace Stuart
open Spec

variable (S : Sys) (plugins : List Plugin) (disk : Entry) (p : Path)

/-- C92. Reading a content directory fails with an error exactly when the directory is not there, or this is the error of
the first thing in it, in the order of the listings, that cannot be read. -/
theorem C92_first (e : SErr) : readTree S true plugins disk p = .err e ↔
    (look disk p ≠ some .dir ∧ e = .fs (.notFound (pathStr p))) ∨
    ∃ l before x after, disk.at p = some (.dir l) ∧ leavesIn p l = before ++ x :: after ∧
      (∀ y ∈ before, LeafReads S plugins y) ∧ LeafFails S plugins x e := by
  unfold readTree
  cases hl : disk.at p with
  | none =>
    have : look disk p ≠ some .dir := by unfold look; rw [hl]; simp
    constructor
    · intro h; cases h; exact .inl ⟨this, rfl⟩
    · rintro (⟨_, rfl⟩ | ⟨_, _, _, _, h, _⟩)
      · rfl
      · cases h
  | some f =>
    have hk := look_of_at hl
    cases f with
    | file b =>
      constructor
      · intro h; cases h; exact .inl ⟨by rw [hk]; simp [kind], rfl⟩
      · rintro (⟨_, rfl⟩ | ⟨_, _, _, _, h, _⟩)
        · rfl
        · cases h
    | special =>
      constructor
      · intro h; cases h; exact .inl ⟨by rw [hk]; simp [kind], rfl⟩
      · rintro (⟨_, rfl⟩ | ⟨_, _, _, _, h, _⟩)
        · rfl
        · cases h
    | dir l =>
      have hv := readEntries_verdict (S := S) (plugins := plugins) (d := p) l
      have h1 : ((readEntries S true plugins p l).bind fun cs =>
          (Res.unwrap .noFileName p.getLast?).bind fun name => .ok (.dir name cs (pathStr p))) = (.err e : Res SErr Node) ↔
          verdict (readEntries S true plugins p l) = .err e := by
        rw [verdict_err]
        cases readEntries S true plugins p l with
        | ok cs => cases p.getLast? <;> simp [Res.unwrap]
        | err x => simp
        | panic x => simp
      simp only [h1, hv, allOk_fail _ _ _ (show Res.err e ≠ .ok () by simp)]
      constructor
      · rintro ⟨a, x, c, k1, k2, k3⟩
        refine .inr ⟨l, a, x, c, rfl, k1, fun y hy => ?_, ?_⟩
        · exact (leafVerdict_ok (leavesIn_leaf l y (by rw [k1]; simp [hy]))).1 (k2 y hy)
        · exact (leafVerdict_err (leavesIn_leaf l x (by rw [k1]; simp))).1 k3
      · rintro (⟨h, _⟩ | ⟨l', a, x, c, h0, k1, k2, k3⟩)
        · exact absurd hk h
        · cases h0
          refine ⟨a, x, c, k1, fun y hy => ?_, ?_⟩
          · exact (leafVerdict_ok (leavesIn_leaf l y (by rw [k1]; simp [hy]))).2 (k2 y hy)
          · exact (leafVerdict_err (leavesIn_leaf l x (by rw [k1]; simp))).2 k3

/-- C92. It panics exactly when reading the first such file panics, or when everything can be read and the directory is
that of the whole disk, which has no name. -/
theorem C92_panics (q : Panic) : readTree S true plugins disk p = .panic q ↔
    ∃ l, disk.at p = some (.dir l) ∧
      ((∃ before x after, leavesIn p l = before ++ x :: after ∧ (∀ y ∈ before, LeafReads S plugins y) ∧ LeafPanics S plugins x q) ∨
       ((∀ y ∈ leavesIn p l, LeafReads S plugins y) ∧ p = [] ∧ q = .noFileName)) := by
  unfold readTree
  cases hl : disk.at p with
  | none => simp
  | some f =>
    cases f with
    | file b => simp
    | special => simp
    | dir l =>
      have hv := readEntries_verdict (S := S) (plugins := plugins) (d := p) l
      have h1 : ((readEntries S true plugins p l).bind fun cs =>
          (Res.unwrap .noFileName p.getLast?).bind fun name => .ok (.dir name cs (pathStr p))) = (.panic q : Res SErr Node) ↔
          verdict (readEntries S true plugins p l) = .panic q ∨
          (verdict (readEntries S true plugins p l) = .ok () ∧ p = [] ∧ q = .noFileName) := by
        rw [verdict_panic, verdict_ok]
        cases readEntries S true plugins p l with
        | ok cs =>
          cases hp : p.getLast? with
          | none =>
            have := List.getLast?_eq_none_iff.1 hp
            subst this
            simp [Res.unwrap, eq_comm]
          | some n =>
            have : p ≠ [] := by rintro rfl; cases hp
            simp [Res.unwrap, this]
        | err x => simp
        | panic x => simp
      simp only [h1, hv, allOk_fail _ _ _ (show Res.panic q ≠ .ok () by simp), allOk_ok]
      have hok : ∀ y ∈ leavesIn p l, (leafVerdict S plugins y = .ok () ↔ LeafReads S plugins y) :=
        fun y hy => leafVerdict_ok (leavesIn_leaf l y hy)
      constructor
      · intro h
        refine ⟨l, rfl, h.imp ?_ ?_⟩
        · rintro ⟨a, x, c, k1, k2, k3⟩
          exact ⟨a, x, c, k1, fun y hy => (hok y (by rw [k1]; simp [hy])).1 (k2 y hy), leafVerdict_panic.1 k3⟩
        · rintro ⟨k, k'⟩
          exact ⟨fun y hy => (hok y hy).1 (k y hy), k'⟩
      · rintro ⟨l', h0, h⟩
        cases h0
        refine h.imp ?_ ?_
        · rintro ⟨a, x, c, k1, k2, k3⟩
          exact ⟨a, x, c, k1, fun y hy => (hok y (by rw [k1]; simp [hy])).2 (k2 y hy), leafVerdict_panic.2 k3⟩
        · rintro ⟨k, k'⟩
          exact ⟨fun y hy => (hok y hy).2 (k y hy), k'⟩

/-- C92. What is listed are the files and the unreadable things below the directory. -/
theorem C92_listed (hd : ProperDisk disk) (l : List (Str × Entry)) (hl : disk.at p = some (.dir l)) (d : Path) (n : Str) :
    (∀ b, (d, n, .file b) ∈ leavesIn p l ↔ p <+: d ∧ look disk (d ++ [n]) = some (.file b)) ∧
    ((d, n, .special) ∈ leavesIn p l ↔ p <+: d ∧ look disk (d ++ [n]) = some .special) ∧
    ∀ l', (d, n, .dir l') ∉ leavesIn p l := by
  have hd' : ProperDisk (.dir l) := by
    intro q l' hq
    refine hd (p ++ q) l' ?_
    rw [at_append, hl]; exact hq
  have key : ∀ e, (∀ l', e ≠ .dir l') → ((d, n, e) ∈ leavesIn p l ↔ p <+: d ∧ disk.at (d ++ [n]) = some e) := by
    intro e he
    rw [mem_leavesIn l (fun n e he => properDisk_entry hd' he)]
    constructor
    · rintro ⟨_, m, f, q, h1, h2, h3⟩
      simp only at h2 h3
      have hat : disk.at (d ++ [n]) = some e := by
        rw [← h3, List.append_assoc, at_append, hl]
        show (Entry.dir l).at (m :: q) = _
        rw [Entry.at, (findEntry_mem (hd' [] l rfl).1).2 h1]
        exact h2
      refine ⟨?_, hat⟩
      refine List.prefix_of_prefix_length_le (l₃ := d ++ [n]) ⟨[m] ++ q, by rw [← h3]; simp⟩ (List.prefix_append _ _) ?_
      have := congrArg List.length h3
      simp only [List.length_append, List.length_cons, List.length_nil] at this
      omega
    · rintro ⟨⟨r, rfl⟩, h⟩
      refine ⟨he, ?_⟩
      rw [List.append_assoc, at_append, hl] at h
      have h : (Entry.dir l).at (r ++ [n]) = some e := h
      cases r with
      | nil =>
        rw [List.nil_append, Entry.at] at h
        cases hf : findEntry n l with
        | none => rw [hf] at h; cases h
        | some f =>
          rw [hf] at h
          exact ⟨n, f, [], (findEntry_mem (hd' [] l rfl).1).1 hf, h, by simp⟩
      | cons m r =>
        rw [List.cons_append, Entry.at] at h
        cases hf : findEntry m l with
        | none => rw [hf] at h; cases h
        | some f =>
          rw [hf] at h
          exact ⟨m, f, r ++ [n], (findEntry_mem (hd' [] l rfl).1).1 hf, h, by simp⟩
  refine ⟨fun b => ?_, ?_, fun l' h => leavesIn_leaf l _ h l' rfl⟩
  · rw [key _ (by simp)]
    refine and_congr_right fun _ => ⟨fun h => look_of_at h, fun h => ?_⟩
    unfold look at h
    cases hx : disk.at (d ++ [n]) with
    | none => rw [hx] at h; cases h
    | some f => rw [hx] at h; cases f <;> cases h; rfl
  · rw [key _ (by simp)]
    refine and_congr_right fun _ => ⟨fun h => look_of_at h, fun h => ?_⟩
    unfold look at h
    cases hx : disk.at (d ++ [n]) with
    | none => rw [hx] at h; cases h
    | some f => rw [hx] at h; cases f <;> cases h; rfl

/-- C92. So an error of reading always has a cause on the disk. -/
theorem C92_cause (hd : ProperDisk disk) (e : SErr) (h : readTree S true plugins disk p = .err e) :
    (look disk p ≠ some .dir ∧ e = .fs (.notFound (pathStr p))) ∨
    (∃ q, look disk (p ++ q) = some .special ∧ e = .fs .read) ∨
    ∃ ds nm b, look disk (p ++ ds ++ [nm]) = some (.file b) ∧ ReadFails S plugins nm (pathStr (p ++ ds ++ [nm])) b e := by
  rcases (C92_first S plugins disk p e).1 h with h | ⟨l, a, ⟨d, n, f⟩, c, h1, h2, _, h3⟩
  · exact .inl h
  · right
    have hm : (d, n, f) ∈ leavesIn p l := by rw [h2]; simp
    rcases h3 with ⟨h3, h4⟩ | ⟨b, h3, h4⟩
    · simp only at h3
      subst h3
      obtain ⟨⟨r, rfl⟩, k⟩ := (C92_listed disk p hd l h1 d n).2.1.1 hm
      exact .inl ⟨r ++ [n], by rw [← List.append_assoc]; exact k, h4⟩
    · simp only at h3 h4
      subst h3
      obtain ⟨⟨r, rfl⟩, k⟩ := ((C92_listed disk p hd l h1 d n).1 b).1 hm
      exact .inr ⟨r, n, b, k, h4⟩

/-- C92. And if there is one file that cannot be read, and everything else can be, its error is the one. -/
theorem C92_only (hd : ProperDisk disk) (hp : look disk p = some .dir) (hs : ∀ q, look disk (p ++ q) ≠ some .special)
    (ds : Path) (nm : Str) (b : Bytes) (hb : look disk (p ++ ds ++ [nm]) = some (.file b)) (e : SErr)
    (he : ReadFails S plugins nm (pathStr (p ++ ds ++ [nm])) b e)
    (hother : ∀ ds' nm' b', look disk (p ++ ds' ++ [nm']) = some (.file b') → ds' ++ [nm'] ≠ ds ++ [nm] →
      ∃ c, ReadAs S plugins nm' (pathStr (p ++ ds' ++ [nm'])) b' c) :
    readTree S true plugins disk p = .err e := by
  have hl : ∃ l, disk.at p = some (.dir l) := by
    unfold look at hp
    cases hx : disk.at p with
    | none => rw [hx] at hp; cases hp
    | some f => rw [hx] at hp; cases f <;> cases hp; exact ⟨_, rfl⟩
  obtain ⟨l, hl⟩ := hl
  have hlist := C92_listed disk p hd l hl
  have hm : (p ++ ds, nm, Entry.file b) ∈ leavesIn p l := ((hlist (p ++ ds) nm).1 b).2 ⟨List.prefix_append _ _, hb⟩
  -- every other leaf is readable
  have hread : ∀ x ∈ leavesIn p l, x ≠ (p ++ ds, nm, Entry.file b) → LeafReads S plugins x := by
    rintro ⟨d, n, f⟩ hx hne
    cases f with
    | dir l' => exact absurd hx ((hlist d n).2.2 l')
    | special =>
      obtain ⟨⟨r, rfl⟩, k⟩ := (hlist d n).2.1.1 hx
      exact absurd (by rw [← List.append_assoc]; exact k) (hs (r ++ [n]))
    | file b' =>
      obtain ⟨⟨r, rfl⟩, k⟩ := ((hlist d n).1 b').1 hx
      by_cases heq : r ++ [n] = ds ++ [nm]
      · obtain ⟨rfl, h3⟩ := List.append_inj' heq rfl
        cases h3
        rw [hb] at k
        cases k
        exact absurd rfl hne
      · obtain ⟨c, hc⟩ := hother r n b' k heq
        exact ⟨b', c, rfl, hc⟩
  have hfirst : ∀ {t : List (Path × Str × Entry)}, (∀ x ∈ t, x ≠ (p ++ ds, nm, Entry.file b) → LeafReads S plugins x) →
      (p ++ ds, nm, Entry.file b) ∈ t →
      ∃ a c, t = a ++ (p ++ ds, nm, Entry.file b) :: c ∧ ∀ y ∈ a, LeafReads S plugins y := by
    intro t
    induction t with
    | nil => intro _ h; cases h
    | cons y t ih =>
      intro h1 h2
      by_cases hy : y = (p ++ ds, nm, Entry.file b)
      · exact ⟨[], t, by rw [hy]; rfl, by simp⟩
      · rcases List.mem_cons.1 h2 with h2 | h2
        · exact absurd h2.symm hy
        · obtain ⟨a, c, rfl, k⟩ := ih (fun x hx => h1 x (.tail _ hx)) h2
          exact ⟨y :: a, c, rfl, by rw [List.forall_mem_cons]; exact ⟨h1 y (.head _) hy, k⟩⟩
  obtain ⟨a, c, k1, k2⟩ := hfirst hread hm
  exact (C92_first S plugins disk p e).2 (.inr ⟨l, a, _, c, hl, k1, k2, .inr ⟨b, rfl, he⟩⟩)

/-! ### Cases: each theorem applied to something that meets its hypotheses -/

/-- A content directory with a good page, a picture, a page that is not text, and a page with a fault. -/
def faultyDisk : Entry := .dir [(str!"c", .dir [(str!"a.html", .file (bytesOf str!"x")),
  (str!"d", .dir [(str!"p.png", .file [255]), (str!"q.html", .file [255])]), (str!"z.html", .file (bytesOf str!"{{"))])]

theorem faultyDisk_proper : ProperDisk faultyDisk := by unfold faultyDisk; proper_disk

/-- The order in which it is read. -/
example : leavesIn [str!"c"] [(str!"a.html", .file [1]), (str!"d", .dir [(str!"p.png", .file [2])]), (str!"s", .special)] =
    [([str!"c"], str!"a.html", .file [1]), ([str!"c", str!"d"], str!"p.png", .file [2]), ([str!"c"], str!"s", .special)] := rfl

/-- The page that is not text comes first, so the fault in the other is not reported. -/
example : readTree demoSys true [] faultyDisk [str!"c"] = .err (.fs .read) := rfl

example := (C92_first demoSys [] faultyDisk [str!"c"] (.fs .read)).1 rfl

example := C92_cause demoSys [] faultyDisk [str!"c"] faultyDisk_proper (.fs .read) rfl

example := C92_listed faultyDisk [str!"c"] faultyDisk_proper _ rfl [str!"c", str!"d"] str!"q.html"

/-- A page with a fault, beside a picture and a page without fault. -/
def oneFaultDisk : Entry := .dir [(str!"c", .dir [(str!"a.html", .file (bytesOf str!"x")),
  (str!"d", .dir [(str!"p.png", .file [255])]), (str!"z.html", .file (bytesOf str!"{{"))])]

theorem oneFaultDisk_proper : ProperDisk oneFaultDisk := by unfold oneFaultDisk; proper_disk

theorem oneFaultDisk_files (ds : Path) (nm : Str) (b : Bytes) (h : look oneFaultDisk ([str!"c"] ++ ds ++ [nm]) = some (.file b)) :
    (ds = [] ∧ nm = str!"a.html" ∧ b = bytesOf str!"x") ∨ (ds = [str!"d"] ∧ nm = str!"p.png" ∧ b = [255]) ∨
    (ds = [] ∧ nm = str!"z.html" ∧ b = bytesOf str!"{{") := by
  have h := ((C92_listed oneFaultDisk [str!"c"] oneFaultDisk_proper _ rfl ([str!"c"] ++ ds) nm).1 b).2 ⟨List.prefix_append _ _, h⟩
  rw [leavesIn, leavesAt, leavesIn, leavesAt, leavesIn, leavesAt, leavesIn, leavesIn, leavesAt, leavesIn] at h
  simp only [List.append_nil, List.cons_append, List.nil_append, List.mem_cons, List.not_mem_nil, or_false, Prod.mk.injEq,
    List.cons.injEq, true_and, Entry.file.injEq] at h
  exact h

example := C92_only demoSys [] oneFaultDisk [str!"c"] oneFaultDisk_proper rfl
  (fun q h => by
    rcases List.eq_nil_or_concat q with rfl | ⟨ds, nm, rfl⟩
    · cases h
    · rw [List.concat_eq_append, ← List.append_assoc] at h
      have h := (C92_listed oneFaultDisk [str!"c"] oneFaultDisk_proper _ rfl ([str!"c"] ++ ds) nm).2.1.2 ⟨List.prefix_append _ _, h⟩
      rw [leavesIn, leavesAt, leavesIn, leavesAt, leavesIn, leavesAt, leavesIn, leavesIn, leavesAt, leavesIn] at h
      simp at h)
  [] str!"z.html" _ rfl _ (.html ⟨['z'], by decide, rfl, by decide⟩ (fromUtf8_bytesOf str!"{{") rfl)
  (fun ds nm b h hne => by
    rcases oneFaultDisk_files ds nm b h with ⟨rfl, rfl, rfl⟩ | ⟨rfl, rfl, rfl⟩ | ⟨rfl, rfl, rfl⟩
    · exact ⟨_, .html ⟨['a'], by decide, rfl, by decide⟩ (fromUtf8_bytesOf str!"x") rfl⟩
    · exact ⟨_, parseContents_ok.1 rfl⟩
    · exact absurd rfl hne)

/-- A page that ends in a quote: the program panics. -/
example := (C92_panics demoSys [] (.dir [(str!"c", .dir [(str!"a.html", .file (bytesOf str!"{{ begin(\""))])]) [str!"c"] .loneQuote).1 rfl

/-- The whole disk as the content directory. -/
example := (C92_panics demoSys [] (.dir [(str!"a.html", .file (bytesOf str!"x"))]) [] .noFileName).1 rfl

end Stuart
