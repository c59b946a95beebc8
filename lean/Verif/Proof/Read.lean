import Verif.Proof.Merge
import Verif.Proof.Interp
import Verif.Spec.Read
/-
Reading a tree from disk.
-/
namespace Stuart
open Spec

theorem findEntry_mem {l : List (Str × Entry)} (h : (l.map Prod.fst).Nodup) {n : Str} {e : Entry} :
    findEntry n l = some e ↔ (n, e) ∈ l := by
  induction l with
  | nil => simp [findEntry]
  | cons x l ih =>
    obtain ⟨m, e'⟩ := x
    simp only [List.map_cons, List.nodup_cons, List.mem_map, not_exists, not_and] at h
    rw [findEntry]
    split
    · rename_i hm
      subst hm
      constructor
      · intro h'; cases h'; exact .head _
      · intro h'
        rcases List.mem_cons.1 h' with h' | h'
        · cases h'; rfl
        · exact absurd rfl (h.1 _ h')
    · rename_i hm
      rw [ih h.2, List.mem_cons]
      constructor
      · exact .inr
      · rintro (h' | h')
        · cases h'; exact absurd rfl hm
        · exact h'

variable {S : Sys} {parse : Bool} {plugins : List Plugin}

theorem readEntries_ok {p : Path} {l : List (Str × Entry)} {cs : List Node} (h : readEntries S parse plugins p l = .ok cs) :
    cs.map Node.name = l.map Prod.fst ∧
    ∀ n, n ∈ cs ↔ ∃ nm e, (nm, e) ∈ l ∧ readEntry S parse plugins (p ++ [nm]) nm e = .ok n := by
  induction l generalizing cs with
  | nil => rw [readEntries] at h; cases h; simp
  | cons x l ih =>
    obtain ⟨nm, e⟩ := x
    rw [readEntries] at h
    obtain ⟨c, h1, h2⟩ := Res.bind_eq_ok.1 h
    obtain ⟨cs', h3, h4⟩ := Res.bind_eq_ok.1 h2
    cases h4
    obtain ⟨i1, i2⟩ := ih h3
    constructor
    · have : c.name = nm := by
        cases e with
        | file b =>
          rw [readEntry, readFile] at h1
          obtain ⟨_, _, k⟩ := Res.bind_eq_ok.1 h1
          cases k; rfl
        | dir l =>
          rw [readEntry] at h1
          obtain ⟨_, _, k⟩ := Res.bind_eq_ok.1 h1
          cases k; rfl
        | special => rw [readEntry] at h1; cases h1
      simp [this, i1]
    · intro n
      rw [List.mem_cons, i2]
      constructor
      · rintro (rfl | ⟨nm', e', k1, k2⟩)
        · exact ⟨nm, e, .head _, h1⟩
        · exact ⟨nm', e', .tail _ k1, k2⟩
      · rintro ⟨nm', e', k1, k2⟩
        rcases List.mem_cons.1 k1 with k1 | k1
        · cases k1; rw [h1] at k2; cases k2; exact .inl rfl
        · exact .inr ⟨nm', e', k1, k2⟩

theorem readEntry_name {p : Path} {nm : Str} {e : Entry} {n : Node} (h : readEntry S parse plugins p nm e = .ok n) :
    n.name = nm := by
  cases e with
  | file b =>
    rw [readEntry, readFile] at h
    obtain ⟨_, _, k⟩ := Res.bind_eq_ok.1 h
    cases k; rfl
  | dir l =>
    rw [readEntry] at h
    obtain ⟨_, _, k⟩ := Res.bind_eq_ok.1 h
    cases k; rfl
  | special => rw [readEntry] at h; cases h

/-- The nodes read are those of the entries. -/
theorem readEntries_holds {p : Path} {l : List (Str × Entry)} {cs : List Node}
    (hd : ProperDisk (.dir l)) (h : readEntries S parse plugins p l = .ok cs) (ds : List Str) (n : Node) :
    Holds cs ds n ↔ ∃ e, (Entry.dir l).at (ds ++ [n.name]) = some e ∧
      readEntry S parse plugins (p ++ ds ++ [n.name]) n.name e = .ok n := by
  induction ds generalizing p l cs with
  | nil =>
    have hl := (hd [] l rfl).1
    obtain ⟨-, h2⟩ := readEntries_ok h
    constructor
    · intro hh
      cases hh with
      | here hm =>
        obtain ⟨nm, e, k1, k2⟩ := (h2 n).1 hm
        have := readEntry_name k2
        subst this
        refine ⟨e, ?_, by rw [List.append_nil]; exact k2⟩
        simp [Entry.at, (findEntry_mem hl).2 k1]
    · rintro ⟨e, k1, k2⟩
      rw [List.append_nil] at k2
      refine .here ((h2 n).2 ⟨n.name, e, ?_, k2⟩)
      simp only [List.nil_append, Entry.at] at k1
      cases hf : findEntry n.name l with
      | none => rw [hf] at k1; cases k1
      | some e' =>
        rw [hf] at k1
        simp only [Option.some.injEq] at k1
        rw [← k1]; exact (findEntry_mem hl).1 hf
  | cons d ds ih =>
    have hl := (hd [] l rfl).1
    obtain ⟨-, h2⟩ := readEntries_ok h
    have sub : ∀ l', findEntry d l = some (.dir l') → ProperDisk (.dir l') := by
      intro l' hf q l'' hq
      refine hd (d :: q) l'' ?_
      simp only [Entry.at, hf]; exact hq
    constructor
    · intro hh
      cases hh with
      | down hm hh =>
        obtain ⟨nm, e, k1, k2⟩ := (h2 _).1 hm
        have hnm := readEntry_name k2
        simp only [Node.name] at hnm
        subst hnm
        cases e with
        | dir l' =>
          rw [readEntry] at k2
          obtain ⟨cs', k3, k4⟩ := Res.bind_eq_ok.1 k2
          cases k4
          have hf := (findEntry_mem hl).2 k1
          obtain ⟨e', q1, q2⟩ := (ih (sub l' hf) k3).1 hh
          refine ⟨e', ?_, by simpa using q2⟩
          simp only [List.cons_append, Entry.at, hf]; exact q1
        | file b =>
          rw [readEntry, readFile] at k2
          obtain ⟨_, _, k4⟩ := Res.bind_eq_ok.1 k2
          cases k4
        | special => rw [readEntry] at k2; cases k2
    · rintro ⟨e, k1, k2⟩
      simp only [List.cons_append, Entry.at] at k1
      cases hf : findEntry d l with
      | none => rw [hf] at k1; cases k1
      | some e' =>
        rw [hf] at k1
        simp only at k1
        cases e' with
        | dir l' =>
          have hm := (findEntry_mem hl).1 hf
          have : ∃ c, readEntry S parse plugins (p ++ [d]) d (.dir l') = .ok c := by
            clear ih k2 h2 hd hl hf sub k1
            induction l generalizing cs with
            | nil => cases hm
            | cons x l ih' =>
              obtain ⟨a, b⟩ := x
              rw [readEntries] at h
              obtain ⟨c, h1, h3⟩ := Res.bind_eq_ok.1 h
              obtain ⟨cs', h4, _⟩ := Res.bind_eq_ok.1 h3
              rcases List.mem_cons.1 hm with hm | hm
              · cases hm; exact ⟨c, h1⟩
              · exact ih' h4 hm
          obtain ⟨c, hc⟩ := this
          have hc' := hc
          rw [readEntry] at hc
          obtain ⟨cs', k3, k4⟩ := Res.bind_eq_ok.1 hc
          cases k4
          refine .down ((h2 _).2 ⟨d, _, hm, hc'⟩) ((ih (sub l' hf) k3).2 ⟨e, k1, by simpa using k2⟩)
        | file b => cases ds <;> cases k1
        | special => cases ds <;> cases k1

/-- Where there is an entry, it was read. -/
theorem readEntries_at {p : Path} {l : List (Str × Entry)} {cs : List Node}
    (hd : ProperDisk (.dir l)) (h : readEntries S parse plugins p l = .ok cs) {ds : List Str} {nm : Str} {e : Entry}
    (he : (Entry.dir l).at (ds ++ [nm]) = some e) :
    ∃ n, readEntry S parse plugins (p ++ ds ++ [nm]) nm e = .ok n := by
  have each : ∀ {p : Path} {l : List (Str × Entry)} {cs : List Node}, readEntries S parse plugins p l = .ok cs →
      ∀ {nm : Str} {e : Entry}, (nm, e) ∈ l → ∃ n, readEntry S parse plugins (p ++ [nm]) nm e = .ok n := by
    intro p l cs h nm e hm
    induction l generalizing cs with
    | nil => cases hm
    | cons x l ih' =>
      obtain ⟨a, b⟩ := x
      rw [readEntries] at h
      obtain ⟨c, h1, h3⟩ := Res.bind_eq_ok.1 h
      obtain ⟨cs', h4, _⟩ := Res.bind_eq_ok.1 h3
      rcases List.mem_cons.1 hm with hm | hm
      · cases hm; exact ⟨c, h1⟩
      · exact ih' h4 hm
  induction ds generalizing p l cs with
  | nil =>
    simp only [List.nil_append, Entry.at] at he
    cases hf : findEntry nm l with
    | none => rw [hf] at he; cases he
    | some e' =>
      rw [hf] at he
      simp only [Option.some.injEq] at he
      subst he
      rw [List.append_nil]
      exact each h ((findEntry_mem (hd [] l rfl).1).1 hf)
  | cons d ds ih =>
    simp only [List.cons_append, Entry.at] at he
    cases hf : findEntry d l with
    | none => rw [hf] at he; cases he
    | some e' =>
      rw [hf] at he
      simp only at he
      cases e' with
      | dir l' =>
        obtain ⟨n, hn⟩ := each h ((findEntry_mem (hd [] l rfl).1).1 hf)
        rw [readEntry] at hn
        obtain ⟨cs', k3, _⟩ := Res.bind_eq_ok.1 hn
        have sub : ProperDisk (.dir l') := by
          intro q l'' hq
          refine hd (d :: q) l'' ?_
          simp only [Entry.at, hf]; exact hq
        simpa using ih sub k3 he
      | file b => cases ds <;> cases he
      | special => cases ds <;> cases he

theorem readEntries_distinct {p : Path} {l : List (Str × Entry)} {cs : List Node}
    (hd : ProperDisk (.dir l)) (h : readEntries S parse plugins p l = .ok cs) : Distinct cs := by
  refine ⟨by rw [(readEntries_ok h).1]; exact (hd [] l rfl).1, ?_⟩
  intro ds d cs' src hh
  obtain ⟨e, k1, k2⟩ := (readEntries_holds hd h ds _).1 hh
  cases e with
  | dir l' =>
    rw [readEntry] at k2
    obtain ⟨cs'', k3, k4⟩ := Res.bind_eq_ok.1 k2
    simp only [Res.ok.injEq, Node.dir.injEq] at k4
    rw [← k4.2.1, (readEntries_ok k3).1]
    exact (hd _ _ k1).1
  | file b =>
    rw [readEntry, readFile] at k2
    obtain ⟨_, _, k4⟩ := Res.bind_eq_ok.1 k2
    cases k4
  | special => rw [readEntry] at k2; cases k2

/-- Names read are plain. -/
theorem readEntries_plain {p : Path} {l : List (Str × Entry)} {cs : List Node}
    (hd : ProperDisk (.dir l)) (h : readEntries S parse plugins p l = .ok cs) (ds : List Str) (n : Node)
    (hh : Holds cs ds n) : PlainName n.name := by
  obtain ⟨e, k1, _⟩ := (readEntries_holds hd h ds n).1 hh
  rw [at_append] at k1
  cases hd' : (Entry.dir l).at ds with
  | none => rw [hd'] at k1; cases k1
  | some e' =>
    rw [hd'] at k1
    simp only [Option.bind_some] at k1
    cases e' with
    | dir l' =>
      simp only [Entry.at] at k1
      cases hf : findEntry n.name l' with
      | none => rw [hf] at k1; cases k1
      | some e'' =>
        have := (findEntry_mem (hd _ _ hd').1).1 hf
        exact (hd _ _ hd').2 _ this
    | file b => cases k1
    | special => cases k1

mutual
/-- Reading succeeds when all is readable. -/
theorem readEntry_total (S : Sys) (parse : Bool) (plugins : List Plugin) (p : Path) (nm : Str) (e : Entry)
    (hu : ProperDisk e) (h : ∀ q, look e q ≠ some .special)
    (hp : ∀ q b, e.at q = some (.file b) →
      ∃ n, readFile S parse plugins (p ++ q) ((nm :: q).getLast (by simp)) b = .ok n) :
    ∃ n, readEntry S parse plugins p nm e = .ok n := by
  cases e with
  | special => exact absurd rfl (h [])
  | file b =>
    rw [readEntry]
    have := hp [] b rfl
    simpa using this
  | dir l =>
    rw [readEntry]
    have key : ∀ n e, (n, e) ∈ l → ∀ q, (Entry.dir l).at (n :: q) = e.at q := by
      intro n e hm q
      simp only [Entry.at, (findEntry_mem (hu [] l rfl).1).2 hm]
    obtain ⟨cs, hcs⟩ := readEntries_total S parse plugins p l
      (fun n e hm q l' hq => hu (n :: q) l' (by rw [key n e hm]; exact hq))
      (fun q n e hm hs => h (n :: q) (by rw [look, key n e hm]; exact hs))
      (fun q n e b hm hb => by
        have := hp (n :: q) b (by rw [key n e hm]; exact hb)
        simpa using this)
    rw [hcs]
    exact ⟨_, rfl⟩
/-- The same for the entries of a directory. -/
theorem readEntries_total (S : Sys) (parse : Bool) (plugins : List Plugin) (p : Path) (l : List (Str × Entry))
    (hu : ∀ n e, (n, e) ∈ l → ProperDisk e) (h : ∀ q n e, (n, e) ∈ l → look e q ≠ some .special)
    (hp : ∀ q n e b, (n, e) ∈ l → e.at q = some (.file b) →
      ∃ x, readFile S parse plugins (p ++ n :: q) ((n :: q).getLast (by simp)) b = .ok x) :
    ∃ cs, readEntries S parse plugins p l = .ok cs := by
  cases l with
  | nil => exact ⟨_, by rw [readEntries]⟩
  | cons x l =>
    obtain ⟨n, e⟩ := x
    obtain ⟨c, hc⟩ := readEntry_total S parse plugins (p ++ [n]) n e (hu n e (.head _)) (fun q => h q n e (.head _))
      (fun q b hb => by simpa using hp q n e b (.head _) hb)
    obtain ⟨cs, hcs⟩ := readEntries_total S parse plugins p l (fun n e hm => hu n e (.tail _ hm))
      (fun q n e hm => h q n e (.tail _ hm))
      (fun q n e b hm => hp q n e b (.tail _ hm))
    rw [readEntries, hc, Res.bind_ok, hcs]
    exact ⟨_, rfl⟩
end

end Stuart
