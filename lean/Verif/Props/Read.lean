import Verif.Proof.Kinds
import Verif.Proof.Concrete
import Verif.Props.Site
/-
Properties C62, C63: reading the content directory.
-/
namespace Stuart
open Spec

variable (S : Sys) (plugins : List Plugin) (disk : Entry) (p : Path)

/-! ### C62 -/

/-- C62. A successful read gives a tree that shows exactly the files and directories of the disk below the path, each
file with its bytes, its absolute path and what it is read as; a read without parsing marks all files as ignored. -/
theorem C62_mirror (parse : Bool) (hd : ProperDisk disk) (root : Node)
    (h : readTree S parse plugins disk p = .ok root) :
    ∃ name cs, root = .dir name cs (pathStr p) ∧ p.getLast? = some name ∧ Distinct cs ∧
      (∀ ds nm, Shows cs ds nm .dir ↔ look disk (p ++ ds ++ [nm]) = some .dir) ∧
      ∀ ds nm b c m src, Shows cs ds nm (.file b c m src) ↔
        look disk (p ++ ds ++ [nm]) = some (.file b) ∧ m = none ∧ src = pathStr (p ++ ds ++ [nm]) ∧
        ((parse = true ∧ ReadAs S plugins nm src b c) ∨ (parse = false ∧ c = .ignored)) := by
  unfold readTree at h
  split at h
  · rename_i l hl
    obtain ⟨cs, h1, h2⟩ := Res.bind_eq_ok.1 h
    obtain ⟨name, h3, h4⟩ := Res.bind_eq_ok.1 h2
    cases h4
    have hd' : ProperDisk (.dir l) := by
      intro q l' hq
      refine hd (p ++ q) l' ?_
      rw [at_append, hl]; exact hq
    have hat : ∀ q, disk.at (p ++ q) = (Entry.dir l).at q := by
      intro q; rw [at_append, hl]; rfl
    refine ⟨name, cs, rfl, ?_, readEntries_distinct hd' h1, ?_, ?_⟩
    · cases hp : p.getLast? with
      | none => rw [hp] at h3; cases h3
      | some n => rw [hp] at h3; cases h3; rfl
    · intro ds nm
      rw [look, List.append_assoc, hat]
      constructor
      · rintro ⟨n, hh, rfl, ht⟩
        obtain ⟨e, k1, k2⟩ := (readEntries_holds hd' h1 ds n).1 hh
        rw [k1]
        cases e with
        | dir l' => rfl
        | file b =>
          rw [readEntry, readFile] at k2
          obtain ⟨_, _, k3⟩ := Res.bind_eq_ok.1 k2
          rw [← Res.ok.inj k3] at ht; cases ht
        | special => rw [readEntry] at k2; cases k2
      · intro hk
        cases he : (Entry.dir l).at (ds ++ [nm]) with
        | none => rw [he] at hk; cases hk
        | some e =>
          rw [he] at hk
          cases e with
          | dir l' =>
            obtain ⟨n, hn⟩ := readEntries_at hd' h1 he
            refine ⟨n, ?_, readEntry_name hn, ?_⟩
            · have := (readEntries_holds hd' h1 ds n).2
              rw [readEntry_name hn] at this
              exact this ⟨_, he, hn⟩
            · rw [readEntry] at hn
              obtain ⟨_, _, k3⟩ := Res.bind_eq_ok.1 hn
              cases k3; rfl
          | file b => cases hk
          | special => cases hk
    · intro ds nm b c m src
      have hfile : ∀ n, readFile S parse plugins (p ++ ds ++ [nm]) nm b = .ok n ↔
          ∃ c, n = .file nm b c none (pathStr (p ++ ds ++ [nm])) ∧
            ((parse = true ∧ ReadAs S plugins nm (pathStr (p ++ ds ++ [nm])) b c) ∨ (parse = false ∧ c = .ignored)) := by
        intro n
        rw [readFile, Res.bind_eq_ok]
        cases parse with
        | true =>
          simp only [if_true, parseContents_ok]
          constructor
          · rintro ⟨c, k1, k2⟩; cases k2; exact ⟨c, rfl, .inl ⟨trivial, k1⟩⟩
          · rintro ⟨c, rfl, k | k⟩
            · exact ⟨c, k.2, rfl⟩
            · cases k.1
        | false =>
          simp only
          constructor
          · rintro ⟨c, k1, k2⟩; cases k1; cases k2; exact ⟨_, rfl, .inr ⟨trivial, rfl⟩⟩
          · rintro ⟨c, rfl, k | k⟩
            · cases k.1
            · exact ⟨c, by rw [k.2]; rfl, rfl⟩
      rw [look, List.append_assoc, hat, ← List.append_assoc]
      constructor
      · rintro ⟨n, hh, rfl, ht⟩
        obtain ⟨e, k1, k2⟩ := (readEntries_holds hd' h1 ds n).1 hh
        rw [k1]
        cases e with
        | dir l' =>
          rw [readEntry] at k2
          obtain ⟨_, _, k3⟩ := Res.bind_eq_ok.1 k2
          rw [← Res.ok.inj k3] at ht; cases ht
        | file b' =>
          have hb : b' = b := by
            have k3 := k2
            rw [readEntry, readFile] at k3
            obtain ⟨_, _, k4⟩ := Res.bind_eq_ok.1 k3
            have := Res.ok.inj k4
            rw [← this] at ht
            cases ht; rfl
          subst hb
          rw [readEntry, hfile] at k2
          obtain ⟨c', k3, k4⟩ := k2
          rw [k3] at ht
          simp only [thing, Thing.file.injEq] at ht
          obtain ⟨-, rfl, rfl, rfl⟩ := ht
          exact ⟨rfl, rfl, rfl, k4⟩
        | special => rw [readEntry] at k2; cases k2
      · rintro ⟨hk, rfl, rfl, hc⟩
        cases he : (Entry.dir l).at (ds ++ [nm]) with
        | none => rw [he] at hk; cases hk
        | some e =>
          rw [he] at hk
          cases e with
          | file b' =>
            simp only [Option.map_some, kind, Option.some.injEq, Kind.file.injEq] at hk
            subst hk
            have hn := (hfile _).2 ⟨c, rfl, hc⟩
            refine ⟨.file nm b' c none (pathStr (p ++ ds ++ [nm])), ?_, rfl, rfl⟩
            exact (readEntries_holds hd' h1 ds _).2 ⟨_, he, by rw [readEntry]; exact hn⟩
          | dir l' => cases hk
          | special => cases hk
  · cases h

/-- A content directory with a page, data and a picture. -/
def readDisk : Entry :=
  .dir [(str!"c", .dir [(str!"a.html", .file (bytesOf str!"x")), (str!"d", .dir [(str!"p.png", .file [255])])])]

/-- Libraries for examples. -/
def demoSys : Sys := ⟨.asciiOnly, demoExt, fun _ _ => none, fun _ => none, fun _ => [], []⟩

example : readTree demoSys true [] readDisk [str!"c"] =
    .ok (.dir str!"c" [.file str!"a.html" (bytesOf str!"x") (.html [⟨.raw str!"x", str!"/c/a.html", 1, 1⟩]) none str!"/c/a.html",
      .dir str!"d" [.file str!"p.png" [255] .none none str!"/c/d/p.png"] str!"/c/d"] str!"/c") := rfl

/-! ### C63 -/

/-- C63. A read with parsing succeeds iff the path is a directory other than the root, nothing below it is unreadable,
and every file can be read as something. -/
theorem C63_succeeds (hd : ProperDisk disk) :
    (∃ root, readTree S true plugins disk p = .ok root) ↔
      p ≠ [] ∧ look disk p = some .dir ∧ (∀ q, look disk (p ++ q) ≠ some .special) ∧
      ∀ ds nm b, look disk (p ++ ds ++ [nm]) = some (.file b) →
        ∃ c, ReadAs S plugins nm (pathStr (p ++ ds ++ [nm])) b c := by
  constructor
  · rintro ⟨root, h⟩
    have h' := h
    unfold readTree at h'
    split at h'
    · rename_i l hl
      obtain ⟨cs, h1, h2⟩ := Res.bind_eq_ok.1 h'
      obtain ⟨name, h3, h4⟩ := Res.bind_eq_ok.1 h2
      have hd' : ProperDisk (.dir l) := by
        intro q l' hq
        refine hd (p ++ q) l' ?_
        rw [at_append, hl]; exact hq
      have hat : ∀ q, disk.at (p ++ q) = (Entry.dir l).at q := by
        intro q; rw [at_append, hl]; rfl
      refine ⟨?_, look_of_at hl, ?_, ?_⟩
      · rintro rfl; cases h3
      · intro q hs
        rcases List.eq_nil_or_concat q with rfl | ⟨ds, nm, rfl⟩
        · rw [List.append_nil, look_of_at hl] at hs; cases hs
        · rw [List.concat_eq_append, look, hat] at hs
          cases he : (Entry.dir l).at (ds ++ [nm]) with
          | none => rw [he] at hs; cases hs
          | some e =>
            rw [he] at hs
            cases e with
            | special =>
              obtain ⟨n, hn⟩ := readEntries_at hd' h1 he
              rw [readEntry] at hn; cases hn
            | file b => cases hs
            | dir l' => cases hs
      · intro ds nm b hb
        rw [look, List.append_assoc, hat] at hb
        cases he : (Entry.dir l).at (ds ++ [nm]) with
        | none => rw [he] at hb; cases hb
        | some e =>
          rw [he] at hb
          cases e with
          | special => cases hb
          | file b' =>
            cases hb
            obtain ⟨n, hn⟩ := readEntries_at hd' h1 he
            rw [readEntry, readFile] at hn
            obtain ⟨c, k1, _⟩ := Res.bind_eq_ok.1 hn
            exact ⟨c, parseContents_ok.1 k1⟩
          | dir l' => cases hb
    · cases h'
  · rintro ⟨hp, hl, hs, hf⟩
    cases he : disk.at p with
    | none => rw [look, he] at hl; cases hl
    | some e =>
      rw [look_of_at he] at hl
      cases e with
      | special => cases hl
      | file b => cases hl
      | dir l =>
        have hd' : ProperDisk (.dir l) := by
          intro q l' hq
          refine hd (p ++ q) l' ?_
          rw [at_append, he]; exact hq
        have hat : ∀ q, disk.at (p ++ q) = (Entry.dir l).at q := by
          intro q; rw [at_append, he]; rfl
        obtain ⟨name, hname⟩ : ∃ name, p.getLast? = some name := by
          cases hx : p.getLast? with
          | none => exact absurd (List.getLast?_eq_none_iff.1 hx) hp
          | some n => exact ⟨n, rfl⟩
        obtain ⟨n, hn⟩ := readEntry_total S true plugins p name (.dir l) hd'
          (fun q => by have := hs q; rw [look, hat] at this; exact this)
          (fun q b hb => by
            rcases List.eq_nil_or_concat q with rfl | ⟨ds, nm, rfl⟩
            · cases hb
            · rw [List.concat_eq_append] at hb ⊢
              obtain ⟨c, hc⟩ := hf ds nm b (by rw [look, List.append_assoc, hat, hb]; rfl)
              rw [readFile]
              simp only [if_true, ← List.append_assoc]
              have hlast : ∀ h, (name :: (ds ++ [nm])).getLast h = nm := fun h =>
                List.getLast_eq_iff_getLast?_eq_some h |>.2 (by rw [List.getLast?_cons, List.getLast?_concat]; rfl)
              rw [hlast, parseContents_ok.2 hc]
              exact ⟨_, rfl⟩)
        rw [readEntry] at hn
        obtain ⟨cs, h1, _⟩ := Res.bind_eq_ok.1 hn
        refine ⟨.dir name cs (pathStr p), ?_⟩
        unfold readTree
        rw [he]
        simp only [h1, Res.bind_ok, hname, Res.unwrap]

/-- C63. The four kinds of files, and those that are left alone: what a file is read as depends on its name, its path
and its bytes only, and there is at most one way. -/
theorem C63_one_way (name src : Str) (b : Bytes) (c c' : Parsed) (h : ReadAs S plugins name src b c)
    (h' : ReadAs S plugins name src b c') : c = c' := by
  have h1 := parseContents_ok.2 h
  rw [parseContents_ok.2 h'] at h1
  cases h1; rfl

example : HasExt str!"a.tar.gz" str!"gz" := ⟨str!"a.tar", by decide, rfl, by decide⟩
example : Unhandled [] str!".html" := by
  rintro e h
  have := extension_iff.2 h
  cases this

/-! ### Cases: each theorem applied to something that meets its hypotheses -/

theorem readDisk_proper : ProperDisk readDisk := by unfold readDisk; proper_disk

example := C62_mirror demoSys [] readDisk [str!"c"] true readDisk_proper _ rfl

example := C63_succeeds demoSys [] readDisk [str!"c"] readDisk_proper

example := C63_one_way demoSys [] str!"a.html" str!"/c/a.html" (bytesOf str!"x") _ _
  (.html ⟨['a'], by decide, rfl, by decide⟩ (fromUtf8_bytesOf str!"x") rfl)
  (.html ⟨['a'], by decide, rfl, by decide⟩ (fromUtf8_bytesOf str!"x") rfl)

end Stuart
