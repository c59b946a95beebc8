import Verif.Spec.FileTypes
import Verif.Proof.Kinds
import Verif.Proof.OrderRead
import Verif.Proof.Project
/-
Reading and building with one more plugin.
-/
namespace Stuart
open Spec

/-! ### Parsing sees the plugins through the functions they answer with -/

theorem parseFunction_plugins {U : Unicode} {path : Str} {ps ps' : List PluginFns} (h : ∀ raw, resolveFn ps raw = resolveFn ps' raw)
    (p : PSt) : parseFunction U path ps p = parseFunction U path ps' p := by
  simp only [parseFunction, h]

theorem parseHtmlGo_plugins {U : Unicode} {path : Str} {ps ps' : List PluginFns} (h : ∀ raw, resolveFn ps raw = resolveFn ps' raw) :
    ∀ n toks line col p, parseHtmlGo U path ps n toks line col p = parseHtmlGo U path ps' n toks line col p := by
  intro n
  induction n with
  | zero => intros; rfl
  | succ n ih =>
    intro toks line col p
    have ht : ∀ p, parseTag U path ps p = parseTag U path ps' p := by
      intro p
      unfold parseTag
      split
      · rfl
      · exact parseFunction_plugins h p
      · rfl
    simp only [parseHtmlGo, ht, ih]

theorem parseHtml_plugins {U : Unicode} {path : Str} {ps ps' : List PluginFns} (h : ∀ raw, resolveFn ps raw = resolveFn ps' raw)
    (s : Str) : parseHtml U path ps s = parseHtml U path ps' s := parseHtmlGo_plugins h _ _ _ _ _

theorem parseMarkdown_plugins {U : Unicode} {path : Str} {ps ps' : List PluginFns} (h : ∀ raw, resolveFn ps raw = resolveFn ps' raw)
    (s : Str) : parseMarkdown U path ps s = parseMarkdown U path ps' s := by
  simp only [parseMarkdown, parseHtml_plugins h]

theorem parseContents_plugins {S : Sys} {ps ps' : List Plugin} {nm src : Str} {b : Bytes}
    (h : ∀ raw, resolveFn (ps.map fun p => p.fns) raw = resolveFn (ps'.map fun p => p.fns) raw)
    (hp : ∀ e, HasExt nm e → ¬ Known e → findParser ps e = findParser ps' e) :
    parseContents S ps nm src b = parseContents S ps' nm src b := by
  unfold parseContents
  split
  · rfl
  · rename_i e he
    split
    · simp only [parseHtml_plugins h]
    · split
      · simp only [parseMarkdown_plugins h]
      · split
        · rfl
        · rename_i h1 h2 h3
          rw [hp e (extension_iff.1 he) (by rintro (h | h | h) <;> contradiction)]

theorem readFile_plugins {S : Sys} {ps ps' : List Plugin} {p : Path} {nm : Str} {b : Bytes}
    (h : ∀ raw, resolveFn (ps.map fun p => p.fns) raw = resolveFn (ps'.map fun p => p.fns) raw)
    (hp : ∀ e, HasExt nm e → ¬ Known e → findParser ps e = findParser ps' e) (parse : Bool) :
    readFile S parse ps p nm b = readFile S parse ps' p nm b := by
  simp only [readFile, parseContents_plugins h hp]

mutual
theorem readEntry_plugins {S : Sys} {ps ps' : List Plugin}
    (h : ∀ raw, resolveFn (ps.map fun p => p.fns) raw = resolveFn (ps'.map fun p => p.fns) raw)
    (hp : ∀ nm e, HasExt nm e → ¬ Known e → findParser ps e = findParser ps' e) (parse : Bool) (p : Path) (nm : Str) :
    ∀ e, readEntry S parse ps p nm e = readEntry S parse ps' p nm e
  | .file b => by rw [readEntry, readEntry, readFile_plugins h (hp nm)]
  | .dir l => by rw [readEntry, readEntry, readEntries_plugins h hp parse p l]
  | .special => rfl
theorem readEntries_plugins {S : Sys} {ps ps' : List Plugin}
    (h : ∀ raw, resolveFn (ps.map fun p => p.fns) raw = resolveFn (ps'.map fun p => p.fns) raw)
    (hp : ∀ nm e, HasExt nm e → ¬ Known e → findParser ps e = findParser ps' e) (parse : Bool) (p : Path) :
    ∀ l, readEntries S parse ps p l = readEntries S parse ps' p l
  | [] => rfl
  | (n, e) :: l => by
    rw [readEntries, readEntries, readEntry_plugins h hp parse (p ++ [n]) n e, readEntries_plugins h hp parse p l]
end

theorem readTree_plugins {S : Sys} {ps ps' : List Plugin}
    (h : ∀ raw, resolveFn (ps.map fun p => p.fns) raw = resolveFn (ps'.map fun p => p.fns) raw)
    (hp : ∀ nm e, HasExt nm e → ¬ Known e → findParser ps e = findParser ps' e) (parse : Bool) (disk : Entry) (p : Path) :
    readTree S parse ps disk p = readTree S parse ps' disk p := by
  unfold readTree
  split
  · rw [readEntries_plugins h hp]
  · rfl

/-! ### One more plugin -/

theorem resolveFn_more {ps : List Plugin} {P : Plugin} (h : P.fns.functions = []) (raw : RawFn) :
    resolveFn (ps.map fun p => p.fns) raw = resolveFn ((ps ++ [P]).map fun p => p.fns) raw := by
  unfold resolveFn findPlugin
  rw [List.map_append, List.findSome?_append]
  simp [h]

theorem findParser_append {ps ps' : List Plugin} {e : Str} :
    findParser (ps ++ ps') e = (findParser ps e).or (findParser ps' e) := by
  unfold findParser
  rw [List.flatMap_append, List.find?_append]

theorem findParser_mem {ps : List Plugin} {e : Str} {q : NodeParser} (h : findParser ps e = some q) :
    ∃ p ∈ ps, q ∈ p.parsers ∧ e ∈ q.extensions := by
  unfold findParser at h
  have h1 := List.mem_of_find?_eq_some h
  have h2 := List.find?_some h
  obtain ⟨p, h3, h4⟩ := List.mem_flatMap.1 h1
  exact ⟨p, h3, h4, by simpa using h2⟩

theorem hasExt_unique {nm e e' : Str} (h : HasExt nm e) (h' : HasExt nm e') : e = e' := by
  rw [← extension_iff] at h h'
  rw [h] at h'
  exact Option.some.inj h'

/-- The new plugin comes to see this file. -/
def Taken (ps : List Plugin) (P : Plugin) (nm : Str) : Prop := Handles P nm ∧ ∀ p ∈ ps, ¬ Handles p nm

theorem parseContents_taken {S : Sys} {ps : List Plugin} {P : Plugin} {nm : Str} (h : Taken ps P nm) (src : Str) (b : Bytes) :
    parseContents S ps nm src b = .ok .none ∧ ∃ q e, q ∈ P.parsers ∧ HasExt nm e ∧ ¬ Known e ∧ e ∈ q.extensions ∧
      findParser [P] e = some q ∧
      parseContents S (ps ++ [P]) nm src b = ((q.parse b src).mapErr .plugin).bind fun c => .ok (.custom c) := by
  obtain ⟨⟨e, he, hk, q0, hq0, hm⟩, hps⟩ := h
  have hnone : findParser ps e = none := by
    rw [findParser_none]
    intro p hp q hq hc
    exact hps p hp ⟨e, he, hk, q, hq, hc⟩
  have hk1 : e ≠ str!"html" := fun h => hk (.inl h)
  have hk2 : e ≠ str!"md" := fun h => hk (.inr (.inl h))
  have hk3 : e ≠ str!"json" := fun h => hk (.inr (.inr h))
  cases hq : findParser [P] e with
  | none => exact absurd hm (findParser_none.1 hq P (by simp) q0 hq0)
  | some q =>
    obtain ⟨p, hp, hqp, hqe⟩ := findParser_mem hq
    rw [List.mem_singleton] at hp
    subst hp
    constructor
    · unfold parseContents
      rw [extension_iff.2 he]
      simp only [if_neg hk1, if_neg hk2, if_neg hk3, hnone]
    · refine ⟨q, e, hqp, he, hk, hqe, hq, ?_⟩
      unfold parseContents
      rw [extension_iff.2 he]
      simp only [if_neg hk1, if_neg hk2, if_neg hk3, findParser_append, hnone, hq, Option.none_or]

theorem parseContents_left {S : Sys} {ps : List Plugin} {P : Plugin} {nm : Str} (hf : P.fns.functions = []) (h : ¬ Taken ps P nm)
    (src : Str) (b : Bytes) : parseContents S ps nm src b = parseContents S (ps ++ [P]) nm src b := by
  refine parseContents_plugins (resolveFn_more hf) ?_
  intro e he hk
  rw [findParser_append]
  cases h1 : findParser ps e with
  | some q => rfl
  | none =>
    rw [Option.none_or]
    symm
    rw [findParser_none]
    simp only [List.mem_singleton, forall_eq]
    intro q hq hc
    refine h ⟨⟨e, he, hk, q, hq, hc⟩, ?_⟩
    rintro p hp ⟨e', he', _, q', hq', hc'⟩
    rw [← hasExt_unique he he'] at hc'
    exact findParser_none.1 h1 p hp q' hq' hc'

/-! ### Trees of the same shape -/

/-- The trees have the same directories, and their files correspond. -/
inductive PairAll (R : Node → Node → Prop) : List Node → List Node → Prop
  | nil : PairAll R [] []
  | file (nm b p m s nm' b' p' m' s') {cs cs' : List Node} : R (.file nm b p m s) (.file nm' b' p' m' s') → PairAll R cs cs' →
      PairAll R (.file nm b p m s :: cs) (.file nm' b' p' m' s' :: cs')
  | dir (nm s) {ds ds' cs cs' : List Node} : PairAll R ds ds' → PairAll R cs cs' →
      PairAll R (.dir nm ds s :: cs) (.dir nm ds' s :: cs')

theorem PairAll.flip {R : Node → Node → Prop} {cs cs' : List Node} (h : PairAll R cs cs') : PairAll (fun a b => R b a) cs' cs := by
  induction h with
  | nil => exact .nil
  | file _ _ _ _ _ _ _ _ _ _ h _ ih => exact .file _ _ _ _ _ _ _ _ _ _ h ih
  | dir _ _ _ _ i1 i2 => exact .dir _ _ i1 i2

theorem PairAll.mono {R R' : Node → Node → Prop} (hr : ∀ a b, R a b → R' a b) {cs cs' : List Node} (h : PairAll R cs cs') :
    PairAll R' cs cs' := by
  induction h with
  | nil => exact .nil
  | file _ _ _ _ _ _ _ _ _ _ h _ ih => exact .file _ _ _ _ _ _ _ _ _ _ (hr _ _ h) ih
  | dir _ _ _ _ i1 i2 => exact .dir _ _ i1 i2

theorem PairAll.holds_file {R : Node → Node → Prop} {cs cs' : List Node} (h : PairAll R cs cs') :
    ∀ {ds nm b p m s}, Holds cs ds (.file nm b p m s) → ∃ nm' b' p' m' s', R (.file nm b p m s) (.file nm' b' p' m' s') ∧
      Holds cs' ds (.file nm' b' p' m' s') := by
  induction h with
  | nil => intro ds nm b p m s h; exact absurd h Holds_nil
  | file nm b p m s nm' b' p' m' s' hr _ ih =>
    intro ds nm b p m s h
    rcases Holds_cons.1 h with h | h
    · cases h with
      | here hn => rw [List.mem_singleton] at hn; cases hn; exact ⟨_, _, _, _, _, hr, .here (.head _)⟩
      | down hn _ => rw [List.mem_singleton] at hn; cases hn
    · obtain ⟨_, _, _, _, _, k1, k2⟩ := ih h
      exact ⟨_, _, _, _, _, k1, Holds_cons.2 (.inr k2)⟩
  | dir nm s _ _ i1 i2 =>
    intro ds nm b p m s h
    rcases Holds_cons.1 h with h | h
    · cases h with
      | here hn => rw [List.mem_singleton] at hn; cases hn
      | down hn hh =>
        rw [List.mem_singleton] at hn; cases hn
        obtain ⟨_, _, _, _, _, k1, k2⟩ := i1 hh
        exact ⟨_, _, _, _, _, k1, .down (.head _) k2⟩
    · obtain ⟨_, _, _, _, _, k1, k2⟩ := i2 h
      exact ⟨_, _, _, _, _, k1, Holds_cons.2 (.inr k2)⟩

theorem PairAll.holds_dir {R : Node → Node → Prop} {cs cs' : List Node} (h : PairAll R cs cs') :
    ∀ {ds nm xs s}, Holds cs ds (.dir nm xs s) → ∃ xs', Holds cs' ds (.dir nm xs' s) := by
  induction h with
  | nil => intro ds nm xs s h; exact absurd h Holds_nil
  | file _ _ _ _ _ _ _ _ _ _ hr _ ih =>
    intro ds nm xs s h
    rcases Holds_cons.1 h with h | h
    · cases h with
      | here hn => rw [List.mem_singleton] at hn; cases hn
      | down hn _ => rw [List.mem_singleton] at hn; cases hn
    · obtain ⟨_, k2⟩ := ih h
      exact ⟨_, Holds_cons.2 (.inr k2)⟩
  | dir nm s _ _ i1 i2 =>
    intro ds nm xs s h
    rcases Holds_cons.1 h with h | h
    · cases h with
      | here hn => rw [List.mem_singleton] at hn; cases hn; exact ⟨_, .here (.head _)⟩
      | down hn hh =>
        rw [List.mem_singleton] at hn; cases hn
        obtain ⟨_, k2⟩ := i1 hh
        exact ⟨_, .down (.head _) k2⟩
    · obtain ⟨_, k2⟩ := i2 h
      exact ⟨_, Holds_cons.2 (.inr k2)⟩

/-! ### Reading -/

mutual
/-- This holds of every file. -/
def AllFiles (Q : Path → Str → Bytes → Prop) (p : Path) (nm : Str) : Entry → Prop
  | .file b => Q p nm b
  | .dir l => AllFilesIn Q p l
  | .special => True
def AllFilesIn (Q : Path → Str → Bytes → Prop) (p : Path) : List (Str × Entry) → Prop
  | [] => True
  | (n, e) :: l => AllFiles Q (p ++ [n]) n e ∧ AllFilesIn Q p l
end

mutual
theorem allFiles_of {Q : Path → Str → Bytes → Prop} {p : Path} {nm : Str} : ∀ {e : Entry}, ProperDisk e →
    (∀ b, e = .file b → Q p nm b) → (∀ ds n b, e.at (ds ++ [n]) = some (.file b) → Q (p ++ ds ++ [n]) n b) → AllFiles Q p nm e
  | .file b, _, h, _ => by rw [AllFiles]; exact h b rfl
  | .special, _, _, _ => by rw [AllFiles]; trivial
  | .dir l, hd, _, h => by
    rw [AllFiles]
    refine allFilesIn_of (fun n e he => properDisk_entry hd he) ?_ ?_
    · intro n b hb
      have := h [] n b (by rw [List.nil_append, Entry.at, (findEntry_mem (hd [] l rfl).1).2 hb]; rfl)
      simpa using this
    · intro n e he ds m b hb
      have := h (n :: ds) m b (by rw [List.cons_append, Entry.at, (findEntry_mem (hd [] l rfl).1).2 he]; exact hb)
      simpa using this
theorem allFilesIn_of {Q : Path → Str → Bytes → Prop} {p : Path} : ∀ {l : List (Str × Entry)}, (∀ n e, (n, e) ∈ l → ProperDisk e) →
    (∀ n b, (n, .file b) ∈ l → Q (p ++ [n]) n b) →
    (∀ n e, (n, e) ∈ l → ∀ ds m b, e.at (ds ++ [m]) = some (.file b) → Q (p ++ [n] ++ ds ++ [m]) m b) → AllFilesIn Q p l
  | [], _, _, _ => by rw [AllFilesIn]; trivial
  | (n, e) :: l, hd, h1, h2 => by
    rw [AllFilesIn]
    refine ⟨allFiles_of (hd n e (.head _)) (fun b hb => h1 n b (hb ▸ .head _)) (fun ds m b hb => h2 n e (.head _) ds m b hb), ?_⟩
    exact allFilesIn_of (fun n e he => hd n e (.tail _ he)) (fun n b hb => h1 n b (.tail _ hb)) (fun n e he => h2 n e (.tail _ he))
end

/-- A file read without the new plugin and with it. `K` is what is known about the plugin's reading. -/
inductive ReadR (K : Str → Custom → Prop) (ps : List Plugin) (P : Plugin) : Node → Node → Prop
  | same (nm b p s) : ReadR K ps P (.file nm b p none s) (.file nm b p none s)
  | new (nm b s d c) : Taken ps P nm → s = pathStr (d ++ [nm]) → K nm c →
      ReadR K ps P (.file nm b .none none s) (.file nm b (.custom c) none s)

variable {S : Sys} {ps : List Plugin} {P : Plugin}

mutual
theorem readEntry_back (hf : P.fns.functions = []) {d : Path} {nm : Str} : ∀ {e : Entry} {c' : Node},
    AllFiles (fun _ nm _ => '/' ∉ nm) (d ++ [nm]) nm e → readEntry S true (ps ++ [P]) (d ++ [nm]) nm e = .ok c' →
    ∃ c, readEntry S true ps (d ++ [nm]) nm e = .ok c ∧ PairAll (ReadR (fun nm _ => '/' ∉ nm) ps P) [c] [c']
  | .special, c', _, h => by rw [readEntry] at h; cases h
  | .file b, c', hm, h => by
    rw [AllFiles] at hm
    rw [readEntry, readFile, if_pos rfl] at h
    obtain ⟨x, h1, h2⟩ := Res.bind_eq_ok.1 h
    cases h2
    by_cases ht : Taken ps P nm
    · obtain ⟨k1, q, e, _, _, _, _, _, k2⟩ := parseContents_taken (S := S) ht (pathStr (d ++ [nm])) b
      rw [k2] at h1
      obtain ⟨c, _, h3⟩ := Res.bind_eq_ok.1 h1
      cases h3
      refine ⟨.file nm b .none none (pathStr (d ++ [nm])), by rw [readEntry, readFile, if_pos rfl, k1]; rfl, ?_⟩
      exact .file _ _ _ _ _ _ _ _ _ _ (.new _ _ _ d _ ht rfl hm) .nil
    · rw [← parseContents_left hf ht] at h1
      refine ⟨.file nm b x none (pathStr (d ++ [nm])), by rw [readEntry, readFile, if_pos rfl, h1]; rfl, ?_⟩
      exact .file _ _ _ _ _ _ _ _ _ _ (.same _ _ _ _) .nil
  | .dir l, c', hm, h => by
    rw [AllFiles] at hm
    rw [readEntry] at h
    obtain ⟨x, h1, h2⟩ := Res.bind_eq_ok.1 h
    cases h2
    obtain ⟨cs, k1, k2⟩ := readEntries_back hf hm h1
    exact ⟨.dir nm cs (pathStr (d ++ [nm])), by rw [readEntry, k1]; rfl, .dir _ _ k2 .nil⟩
theorem readEntries_back (hf : P.fns.functions = []) {p : Path} : ∀ {l : List (Str × Entry)} {cs' : List Node},
    AllFilesIn (fun _ nm _ => '/' ∉ nm) p l → readEntries S true (ps ++ [P]) p l = .ok cs' →
    ∃ cs, readEntries S true ps p l = .ok cs ∧ PairAll (ReadR (fun nm _ => '/' ∉ nm) ps P) cs cs'
  | [], cs', _, h => by rw [readEntries] at h; cases h; exact ⟨[], by rw [readEntries], .nil⟩
  | (n, e) :: l, cs', hm, h => by
    rw [AllFilesIn] at hm
    obtain ⟨c, cs1, h1, h2, rfl⟩ := readEntries_cons_ok.1 h
    obtain ⟨c0, k1, k2⟩ := readEntry_back hf hm.1 h1
    obtain ⟨cs0, k3, k4⟩ := readEntries_back hf hm.2 h2
    refine ⟨c0 :: cs0, readEntries_cons_ok.2 ⟨_, _, k1, k3, rfl⟩, ?_⟩
    cases k2 with
    | file _ _ _ _ _ _ _ _ _ _ hr _ => exact .file _ _ _ _ _ _ _ _ _ _ hr k4
    | dir _ _ hr _ => exact .dir _ _ hr k4
end

/-- The new plugin manages to read this file. -/
def Manages (K : Str → Custom → Prop) (ps : List Plugin) (P : Plugin) (p : Path) (nm : Str) (b : Bytes) : Prop :=
  Taken ps P nm → ∀ q ∈ P.parsers, (∃ e ∈ q.extensions, HasExt nm e) → ∃ c, q.parse b (pathStr p) = .ok c ∧ K nm c

mutual
theorem readEntry_forth {K : Str → Custom → Prop} (hf : P.fns.functions = []) {d : Path} {nm : Str} : ∀ {e : Entry} {c : Node},
    AllFiles (Manages K ps P) (d ++ [nm]) nm e → readEntry S true ps (d ++ [nm]) nm e = .ok c →
    ∃ c', readEntry S true (ps ++ [P]) (d ++ [nm]) nm e = .ok c' ∧ PairAll (ReadR K ps P) [c] [c']
  | .special, c', _, h => by rw [readEntry] at h; cases h
  | .file b, c', hm, h => by
    rw [readEntry, readFile, if_pos rfl] at h
    obtain ⟨x, h1, h2⟩ := Res.bind_eq_ok.1 h
    cases h2
    rw [AllFiles] at hm
    by_cases ht : Taken ps P nm
    · obtain ⟨k1, q, e, hq, he, _, hqe, _, k2⟩ := parseContents_taken (S := S) ht (pathStr (d ++ [nm])) b
      rw [k1] at h1
      cases h1
      obtain ⟨c, hc, hk⟩ := hm ht q hq ⟨e, hqe, he⟩
      refine ⟨.file nm b (.custom c) none (pathStr (d ++ [nm])), by rw [readEntry, readFile, if_pos rfl, k2, hc]; rfl, ?_⟩
      exact .file _ _ _ _ _ _ _ _ _ _ (.new _ _ _ d _ ht rfl hk) .nil
    · rw [parseContents_left hf ht] at h1
      refine ⟨.file nm b x none (pathStr (d ++ [nm])), by rw [readEntry, readFile, if_pos rfl, h1]; rfl, ?_⟩
      exact .file _ _ _ _ _ _ _ _ _ _ (.same _ _ _ _) .nil
  | .dir l, c', hm, h => by
    rw [readEntry] at h
    obtain ⟨x, h1, h2⟩ := Res.bind_eq_ok.1 h
    cases h2
    rw [AllFiles] at hm
    obtain ⟨cs, k1, k2⟩ := readEntries_forth hf hm h1
    exact ⟨.dir nm cs (pathStr (d ++ [nm])), by rw [readEntry, k1]; rfl, .dir _ _ k2 .nil⟩
theorem readEntries_forth {K : Str → Custom → Prop} (hf : P.fns.functions = []) {p : Path} : ∀ {l : List (Str × Entry)} {cs : List Node},
    AllFilesIn (Manages K ps P) p l → readEntries S true ps p l = .ok cs →
    ∃ cs', readEntries S true (ps ++ [P]) p l = .ok cs' ∧ PairAll (ReadR K ps P) cs cs'
  | [], cs', _, h => by rw [readEntries] at h; cases h; exact ⟨[], by rw [readEntries], .nil⟩
  | (n, e) :: l, cs', hm, h => by
    rw [AllFilesIn] at hm
    obtain ⟨c, cs1, h1, h2, rfl⟩ := readEntries_cons_ok.1 h
    obtain ⟨c0, k1, k2⟩ := readEntry_forth hf hm.1 h1
    obtain ⟨cs0, k3, k4⟩ := readEntries_forth hf hm.2 h2
    refine ⟨c0 :: cs0, readEntries_cons_ok.2 ⟨_, _, k1, k3, rfl⟩, ?_⟩
    cases k2 with
    | file _ _ _ _ _ _ _ _ _ _ hr _ => exact .file _ _ _ _ _ _ _ _ _ _ hr k4
    | dir _ _ hr _ => exact .dir _ _ hr k4
end

/-! ### Building -/

theorem pairs_data {K : Str → Custom → Prop} {cs cs' : List Node} (h : PairAll (ReadR K ps P) cs cs') : datasOf cs = datasOf cs' := by
  induction h with
  | nil => rfl
  | file _ _ _ _ _ _ _ _ _ _ hr _ ih =>
    rw [datasOf, datasOf, ih]
    cases hr <;> rfl
  | dir _ _ _ _ i1 i2 => rw [datasOf, datasOf, dataOf, dataOf, i1, i2]

theorem pairs_env {K : Str → Custom → Prop} {cs cs' : List Node} (h : PairAll (ReadR K ps P) cs cs') :
    ∀ env, updateEnv env cs = updateEnv env cs' := by
  induction h with
  | nil => intro env; rfl
  | file _ _ _ _ _ _ _ _ _ _ hr _ ih =>
    intro env
    rw [updateEnv, updateEnv, ih]
    cases hr <;> rfl
  | dir _ _ _ _ i1 i2 => intro env; rw [updateEnv, updateEnv, i2]; rfl

/-- Markdown bodies are rendered in the same way, one way and the other. -/
theorem pre_pairs {R : Node → Node → Prop} {ext : Ext} {cx : Ctx} {base : Frame}
    (hR : ∀ {nm b p m s nm' b' p' m' s'}, R (.file nm b p m s) (.file nm' b' p' m' s') → ∀ {x}, preFile ext cx base p s = .ok x →
      ∃ x', preFile ext cx base p' s' = .ok x' ∧ R (.file nm b x m s) (.file nm' b' x' m' s'))
    {cs cs' : List Node} (h : PairAll R cs cs') :
    ∀ {os}, preNodes ext cx base cs = .ok os → ∃ os', preNodes ext cx base cs' = .ok os' ∧ PairAll R os os' := by
  induction h with
  | nil => intro os h; cases h; exact ⟨[], rfl, .nil⟩
  | file _ _ _ _ _ _ _ _ _ _ hr _ ih =>
    intro os h
    obtain ⟨o, os1, h1, h2, rfl⟩ := preNodes_cons_ok.1 h
    obtain ⟨x, h3, rfl⟩ := preNode_file_ok.1 h1
    obtain ⟨x', k1, k2⟩ := hR hr h3
    obtain ⟨os', k3, k4⟩ := ih h2
    exact ⟨_, preNodes_cons_ok.2 ⟨_, _, preNode_file_ok.2 ⟨x', k1, rfl⟩, k3, rfl⟩, .file _ _ _ _ _ _ _ _ _ _ k2 k4⟩
  | dir _ _ _ _ i1 i2 =>
    intro os h
    obtain ⟨o, os1, h1, h2, rfl⟩ := preNodes_cons_ok.1 h
    obtain ⟨x, h3, rfl⟩ := preNode_dir_ok.1 h1
    obtain ⟨x', k1, k2⟩ := i1 h3
    obtain ⟨os', k3, k4⟩ := i2 h2
    exact ⟨_, preNodes_cons_ok.2 ⟨_, _, preNode_dir_ok.2 ⟨x', k1, rfl⟩, k3, rfl⟩, .dir _ _ k2 k4⟩

theorem processFile_ok {b : Builder} {env : Env} {nm : Str} {c : Bytes} {p : Parsed} {s : Str} {o : Node} :
    processFile b env nm c p s = .ok o ↔ ∃ out, processParsed b env nm s p = .ok out ∧
      o = .file (out.newName.getD nm) (out.newContents.getD c) .none (if b.cfg.saveMetadata then p.toJson else none) s := by
  rw [processFile]
  constructor
  · intro h
    obtain ⟨out, h1, h2⟩ := Res.bind_eq_ok.1 h
    cases h2
    exact ⟨out, h1, rfl⟩
  · rintro ⟨out, h1, rfl⟩
    rw [h1]; rfl

theorem build_pairs {R R' : Node → Node → Prop} {b : Builder}
    (hR : ∀ {nm c p m s nm' c' p' m' s'}, R (.file nm c p m s) (.file nm' c' p' m' s') → ∀ {env out}, processParsed b env nm s p = .ok out →
      ∃ out', processParsed b env nm' s' p' = .ok out' ∧
        R' (.file (out.newName.getD nm) (out.newContents.getD c) .none (if b.cfg.saveMetadata then p.toJson else none) s)
          (.file (out'.newName.getD nm') (out'.newContents.getD c') .none (if b.cfg.saveMetadata then p'.toJson else none) s'))
    (hE : ∀ {cs cs' : List Node}, PairAll R cs cs' → ∀ env, updateEnv env cs = updateEnv env cs')
    {cs cs' : List Node} (h : PairAll R cs cs') :
    ∀ {env os}, buildNodes b env cs = .ok os → ∃ os', buildNodes b env cs' = .ok os' ∧ PairAll R' os os' := by
  induction h with
  | nil => intro env os h; cases h; exact ⟨[], rfl, .nil⟩
  | file _ _ _ _ _ _ _ _ _ _ hr _ ih =>
    intro env os h
    obtain ⟨o, os1, h1, h2, rfl⟩ := buildNodes_cons_ok.1 h
    rw [buildNode] at h1
    obtain ⟨out, h3, rfl⟩ := processFile_ok.1 h1
    obtain ⟨out', k1, k2⟩ := hR hr h3
    obtain ⟨os', k3, k4⟩ := ih h2
    refine ⟨_, buildNodes_cons_ok.2 ⟨_, _, ?_, k3, rfl⟩, .file _ _ _ _ _ _ _ _ _ _ k2 k4⟩
    rw [buildNode]
    exact processFile_ok.2 ⟨out', k1, rfl⟩
  | dir _ _ hd _ i1 i2 =>
    intro env os h
    obtain ⟨o, os1, h1, h2, rfl⟩ := buildNodes_cons_ok.1 h
    obtain ⟨x, h3, rfl⟩ := buildNode_dir_ok.1 h1
    obtain ⟨x', k1, k2⟩ := i1 h3
    obtain ⟨os', k3, k4⟩ := i2 h2
    rw [hE hd] at k1
    exact ⟨_, buildNodes_cons_ok.2 ⟨_, _, buildNode_dir_ok.2 ⟨x', k1, rfl⟩, k3, rfl⟩, .dir _ _ k2 k4⟩

mutual
theorem buildNode_same_data {n m : Node} (h : dataOf n = dataOf m) (df base cfg) : ∀ (t : Node) (env : Env),
    buildNode ⟨⟨n, df⟩, base, cfg⟩ env t = buildNode ⟨⟨m, df⟩, base, cfg⟩ env t
  | .file .., env => by rw [buildNode, buildNode, processFile_same_data h]
  | .dir _ cs _, env => by rw [buildNode, buildNode, buildNodes_same_data h df base cfg cs]
theorem buildNodes_same_data {n m : Node} (h : dataOf n = dataOf m) (df base cfg) : ∀ (t : List Node) (env : Env),
    buildNodes ⟨⟨n, df⟩, base, cfg⟩ env t = buildNodes ⟨⟨m, df⟩, base, cfg⟩ env t
  | [], env => rfl
  | c :: cs, env => by rw [buildNodes, buildNodes, buildNode_same_data h df base cfg c, buildNodes_same_data h df base cfg cs]
end

/-- Building trees that correspond. -/
theorem buildTree_pairs {R R' : Node → Node → Prop} {ext : Ext} {df : Str → Str → Option Str} {cfg : Config}
    {vars : List (Str × Str)} {mode : Str}
    (hD : ∀ {cs cs' : List Node}, PairAll R cs cs' → datasOf cs = datasOf cs')
    (hE : ∀ {cs cs' : List Node}, PairAll R cs cs' → ∀ env, updateEnv env cs = updateEnv env cs')
    (hP : ∀ {cx nm b p m s nm' b' p' m' s'}, R (.file nm b p m s) (.file nm' b' p' m' s') → ∀ {x},
      preFile ext cx (baseFrame vars mode) p s = .ok x →
      ∃ x', preFile ext cx (baseFrame vars mode) p' s' = .ok x' ∧ R (.file nm b x m s) (.file nm' b' x' m' s'))
    (hB : ∀ {b : Builder}, b.cfg = cfg → ∀ {nm c p m s nm' c' p' m' s'}, R (.file nm c p m s) (.file nm' c' p' m' s') →
      ∀ {env out}, processParsed b env nm s p = .ok out →
      ∃ out', processParsed b env nm' s' p' = .ok out' ∧
        R' (.file (out.newName.getD nm) (out.newContents.getD c) .none (if b.cfg.saveMetadata then p.toJson else none) s)
          (.file (out'.newName.getD nm') (out'.newContents.getD c') .none (if b.cfg.saveMetadata then p'.toJson else none) s'))
    {nm s : Str} {cs cs' : List Node} (h : PairAll R cs cs') {out : Node}
    (ho : buildTree ext df cfg vars mode (.dir nm cs s) = .ok out) :
    ∃ os os', out = .dir nm os s ∧ buildTree ext df cfg vars mode (.dir nm cs' s) = .ok (.dir nm os' s) ∧ PairAll R' os os' := by
  obtain ⟨mid, h1, h2⟩ := buildTree_ok ho
  obtain ⟨ms, h3, rfl⟩ := preNode_dir_ok.1 h1
  have hd : dataOf (.dir nm cs s) = dataOf (.dir nm cs' s) := by rw [dataOf, dataOf, hD h]
  obtain ⟨ms', k1, k2⟩ := pre_pairs hP h h3
  rw [preNodes_same_data hd] at k1
  have hpre' : preNode ext ⟨.dir nm cs' s, df⟩ (baseFrame vars mode) (.dir nm cs' s) = .ok (.dir nm ms' s) :=
    preNode_dir_ok.2 ⟨_, k1, rfl⟩
  obtain ⟨os, h4, rfl⟩ := buildNode_dir_ok.1 h2
  have hd' : dataOf (.dir nm ms s) = dataOf (.dir nm ms' s) := by rw [dataOf, dataOf, hD k2]
  obtain ⟨os', k3, k4⟩ := build_pairs (hB rfl) hE k2 h4
  rw [buildNodes_same_data hd'] at k3
  refine ⟨os, os', rfl, ?_, k4⟩
  unfold buildTree
  refine Res.bind_eq_ok.2 ⟨_, hpre', (buildTree_env _ _).trans (buildNode_dir_ok.2 ⟨os', ?_, rfl⟩)⟩
  rw [← hE k2]
  exact k3

/-- A file built without the new plugin and with it. -/
inductive OutR (ps : List Plugin) (P : Plugin) : Node → Node → Prop
  | same (n) : OutR ps P n n
  | new (nm b s d nm' b' m') : Taken ps P nm → s = pathStr (d ++ [nm]) → '/' ∉ nm →
      OutR ps P (.file nm b .none none s) (.file nm' b' .none m' s)

theorem readTree_dir_ok {S : Sys} {parse : Bool} {plugins : List Plugin} {disk : Entry} {p : Path} {n : Node} :
    readTree S parse plugins disk p = .ok n ↔ ∃ l cs nm, disk.at p = some (.dir l) ∧ readEntries S parse plugins p l = .ok cs ∧
      p.getLast? = some nm ∧ n = .dir nm cs (pathStr p) := by
  unfold readTree
  constructor
  · intro h
    split at h
    · rename_i l hl
      obtain ⟨cs, h1, h2⟩ := Res.bind_eq_ok.1 h
      obtain ⟨nm, h3, h4⟩ := Res.bind_eq_ok.1 h2
      cases h4
      refine ⟨l, cs, nm, hl, h1, ?_, rfl⟩
      cases hp : p.getLast? with
      | none => rw [hp] at h3; cases h3
      | some n => rw [hp] at h3; cases h3; rfl
    · cases h
  · rintro ⟨l, cs, nm, h1, h2, h3, rfl⟩
    rw [h1]
    simp only [h2, h3, Res.bind_ok]
    rfl

theorem below_proper {disk : Entry} (hd : ProperDisk disk) {p : Path} {l : List (Str × Entry)} (h : disk.at p = some (.dir l)) :
    ProperDisk (.dir l) := by
  intro q l' hq
  refine hd (p ++ q) l' ?_
  rw [at_append, h]; exact hq

theorem allFiles_plain {l : List (Str × Entry)} (hd : ProperDisk (.dir l)) (p : Path) : AllFilesIn (fun _ nm _ => '/' ∉ nm) p l := by
  have := allFiles_of (Q := fun _ nm _ => '/' ∉ nm) (p := p) (nm := []) hd (fun b hb => by cases hb) (by
    intro ds n b hb
    rw [at_append] at hb
    cases he : (Entry.dir l).at ds with
    | none => rw [he] at hb; cases hb
    | some e =>
      rw [he] at hb
      replace hb : e.at [n] = some (.file b) := hb
      cases e with
      | dir m =>
        rw [Entry.at] at hb
        cases hf : findEntry n m with
        | none => rw [hf] at hb; cases hb
        | some x => exact ((hd ds m he).2 (n, x) ((findEntry_mem (hd ds m he).1).1 hf)).2.2.2
      | file => cases hb
      | special => cases hb)
  rwa [AllFiles] at this

theorem readBuild_back (hf : P.fns.functions = []) {disk : Entry} {mode : Str} {s : Project} {out' : Node} (hd : ProperDisk disk)
    (h : readBuild S disk mode { s with plugins := s.plugins ++ [P] } = .ok out') :
    ∃ nm src os os', out' = .dir nm os' src ∧ readBuild S disk mode s = .ok (.dir nm os src) ∧ PairAll (OutR s.plugins P) os os' := by
  unfold readBuild at h ⊢
  obtain ⟨n, h1, h2⟩ := Res.bind_eq_ok.1 h
  obtain ⟨l, cs', nm, h3, h4, h5, rfl⟩ := readTree_dir_ok.1 h1
  obtain ⟨cs, k1, k2⟩ := readEntries_back hf (allFiles_plain (below_proper hd h3) _) h4
  have hr : readTree S true s.plugins disk s.dir = .ok (.dir nm cs (pathStr s.dir)) := readTree_dir_ok.2 ⟨l, cs, nm, h3, k1, h5, rfl⟩
  obtain ⟨os', os, rfl, k3, k4⟩ := buildTree_pairs (R' := fun a b => OutR s.plugins P b a) (fun h => (pairs_data h.flip).symm)
    (fun h env => (pairs_env h.flip env).symm)
    (by
      intro cx nm b p m s nm' b' p' m' s' hr x hx
      cases hr with
      | same => exact ⟨x, hx, .same _ _ _ _⟩
      | new _ _ _ d c ht hs hk => cases hx; exact ⟨_, rfl, .new _ _ _ d _ ht hs hk⟩)
    (by
      intro b _ nm c p m s nm' c' p' m' s' hr env out ho
      cases hr with
      | same => exact ⟨out, ho, .same _⟩
      | new _ _ _ d c ht hs hk =>
        refine ⟨{}, by simp [processParsed], ?_⟩
        simp only [Option.getD_none, Parsed.toJson, ite_self]
        exact .new _ _ _ d _ _ _ ht hs hk)
    k2.flip h2
  exact ⟨nm, _, os, os', rfl, by rw [hr]; exact k3, k4.flip⟩

theorem readBuild_forth (hf : P.fns.functions = []) {disk : Entry} {mode : Str} {s : Project} (hd : ProperDisk disk) {out : Node}
    (hm : ∀ ds nm b, disk.at (s.dir ++ ds ++ [nm]) = some (.file b) →
      Manages (fun _ c => ∀ root md, ∃ out, c.process root md = .ok out) s.plugins P (s.dir ++ ds ++ [nm]) nm b)
    (h : readBuild S disk mode s = .ok out) :
    ∃ out', readBuild S disk mode { s with plugins := s.plugins ++ [P] } = .ok out' := by
  unfold readBuild at h ⊢
  obtain ⟨n, h1, h2⟩ := Res.bind_eq_ok.1 h
  obtain ⟨l, cs, nm, h3, h4, h5, rfl⟩ := readTree_dir_ok.1 h1
  have hd' : ProperDisk (.dir l) := by
    intro q l' hq
    refine hd (s.dir ++ q) l' ?_
    rw [at_append, h3]; exact hq
  have hall : AllFiles (Manages (fun _ c => ∀ root md, ∃ out, c.process root md = .ok out) s.plugins P) s.dir nm (.dir l) := by
    refine allFiles_of hd' (fun b hb => by cases hb) ?_
    intro ds n b hb
    refine hm ds n b ?_
    rw [List.append_assoc, at_append, h3]; exact hb
  rw [AllFiles] at hall
  obtain ⟨cs', k1, k2⟩ := readEntries_forth hf hall h4
  have hr : readTree S true (s.plugins ++ [P]) disk s.dir = .ok (.dir nm cs' (pathStr s.dir)) :=
    readTree_dir_ok.2 ⟨l, cs', nm, h3, k1, h5, rfl⟩
  obtain ⟨os', os, _, k3, _⟩ := buildTree_pairs (R' := fun _ _ => True) (fun h => pairs_data h)
    (fun h env => pairs_env h env)
    (by
      intro cx nm b p m s nm' b' p' m' s' hr x hx
      cases hr with
      | same => exact ⟨x, hx, .same _ _ _ _⟩
      | new _ _ _ d c ht hs hk => cases hx; exact ⟨_, rfl, .new _ _ _ d _ ht hs hk⟩)
    (by
      intro b _ nm c p m s nm' c' p' m' s' hr env out ho
      cases hr with
      | same => exact ⟨out, ho, trivial⟩
      | new _ _ _ d c ht hs hk =>
        unfold processParsed
        split
        · obtain ⟨o, ho⟩ := hk env.root env.md
          exact ⟨o, by simp only [ho]; rfl, trivial⟩
        · exact ⟨{}, rfl, trivial⟩)
    k2 h2
  exact ⟨_, by simp only [hr, Res.bind_ok]; exact k3⟩

theorem last_unique {a b x y : Str} (hx : '/' ∉ x) (hy : '/' ∉ y) (h : a ++ '/' :: x = b ++ '/' :: y) : x = y := by
  induction a generalizing b with
  | nil =>
    cases b with
    | nil => simpa using h
    | cons c b =>
      simp only [List.nil_append, List.cons_append, List.cons.injEq] at h
      exact absurd (h.2 ▸ List.mem_append_right _ (List.mem_cons_self ..)) hx
  | cons c a ih =>
    cases b with
    | nil =>
      simp only [List.nil_append, List.cons_append, List.cons.injEq] at h
      exact absurd (h.2 ▸ List.mem_append_right _ (List.mem_cons_self ..)) hy
    | cons d b =>
      simp only [List.cons_append, List.cons.injEq] at h
      exact ih h.2

theorem lastName_pathStr {d : Path} {nm orig : Str} (hn : '/' ∉ nm) (h : LastName (pathStr (d ++ [nm])) orig) : orig = nm := by
  obtain ⟨ho, e, he⟩ := h
  refine last_unique (a := e) (b := pathStr d) ho hn ?_
  rw [← he]
  simp [pathStr, List.flatMap_append]

theorem pathStr_snoc {d : Path} {x y : Str} (h : pathStr (d ++ [x]) = pathStr (d ++ [y])) : x = y := by
  simpa [pathStr, List.flatMap_append] using h

/-! ### What becomes of each file -/

theorem preNodes_pairs {ext : Ext} {cx : Ctx} {base : Frame} : ∀ {cs os : List Node}, preNodes ext cx base cs = .ok os →
    PairAll (fun n o => preNode ext cx base n = .ok o) cs os
  | [], os, h => by cases h; exact .nil
  | .file .. :: cs, os, h => by
    obtain ⟨o, os1, h1, h2, rfl⟩ := preNodes_cons_ok.1 h
    obtain ⟨x, h3, rfl⟩ := preNode_file_ok.1 h1
    exact .file _ _ _ _ _ _ _ _ _ _ h1 (preNodes_pairs h2)
  | .dir _ ds _ :: cs, os, h => by
    obtain ⟨o, os1, h1, h2, rfl⟩ := preNodes_cons_ok.1 h
    obtain ⟨x, h3, rfl⟩ := preNode_dir_ok.1 h1
    exact .dir _ _ (preNodes_pairs h3) (preNodes_pairs h2)

theorem buildNodes_pairs {b : Builder} : ∀ {cs os : List Node} {env : Env}, buildNodes b env cs = .ok os →
    PairAll (fun n o => ∃ env, buildNode b env n = .ok o) cs os
  | [], os, env, h => by cases h; exact .nil
  | .file .. :: cs, os, env, h => by
    obtain ⟨o, os1, h1, h2, rfl⟩ := buildNodes_cons_ok.1 h
    have h1' := h1
    rw [buildNode] at h1
    obtain ⟨x, h3, rfl⟩ := processFile_ok.1 h1
    exact .file _ _ _ _ _ _ _ _ _ _ ⟨env, h1'⟩ (buildNodes_pairs h2)
  | .dir _ ds _ :: cs, os, env, h => by
    obtain ⟨o, os1, h1, h2, rfl⟩ := buildNodes_cons_ok.1 h
    obtain ⟨x, h3, rfl⟩ := buildNode_dir_ok.1 h1
    exact .dir _ _ (buildNodes_pairs h3) (buildNodes_pairs h2)

/-- From the content directory to the output. -/
theorem readBuild_steps {disk : Entry} {mode : Str} {s : Project} {out : Node} (h : readBuild S disk mode s = .ok out) :
    ∃ nm cs ms os cx b, readTree S true s.plugins disk s.dir = .ok (.dir nm cs (pathStr s.dir)) ∧ b.cfg = s.config ∧
      PairAll (fun n o => preNode S.ext cx (baseFrame S.vars mode) n = .ok o) cs ms ∧
      PairAll (fun n o => ∃ env, buildNode b env n = .ok o) ms os ∧ out = .dir nm os (pathStr s.dir) := by
  unfold readBuild at h
  obtain ⟨n, h1, h2⟩ := Res.bind_eq_ok.1 h
  obtain ⟨l, cs, nm, h3, h4, h5, rfl⟩ := readTree_dir_ok.1 h1
  obtain ⟨mid, k1, k2⟩ := buildTree_ok h2
  obtain ⟨ms, k3, rfl⟩ := preNode_dir_ok.1 k1
  obtain ⟨os, k4, rfl⟩ := buildNode_dir_ok.1 k2
  exact ⟨nm, cs, ms, os, _, _, h1, rfl, preNodes_pairs k3, buildNodes_pairs k4, rfl⟩

/-- The files that custom contents become. -/
theorem built_custom {cx : Ctx} {base : Frame} {ext : Ext} {b : Builder} {cs ms os : List Node}
    (h1 : PairAll (fun n o => preNode ext cx base n = .ok o) cs ms)
    (h2 : PairAll (fun n o => ∃ env, buildNode b env n = .ok o) ms os)
    {ds : List Str} {nm src : Str} {by' : Bytes} {c : Custom} (hn : nm ≠ str!"root.html" ∧ nm ≠ str!"md.html")
    (h : Holds cs ds (.file nm by' (.custom c) none src)) :
    ∃ root md out, c.process root md = .ok out ∧ Holds os ds (.file (out.newName.getD nm) (out.newContents.getD by') .none
      (if b.cfg.saveMetadata then some c.toJson else none) src) := by
  obtain ⟨nm1, b1, p1, m1, s1, k1, k2⟩ := h1.holds_file h
  cases k1
  obtain ⟨nm2, b2, p2, m2, s2, ⟨env, k3⟩, k4⟩ := h2.holds_file k2
  rw [buildNode] at k3
  obtain ⟨out, k5, k6⟩ := processFile_ok.1 k3
  rw [k6] at k4
  simp only [processParsed, bne_iff_ne, ne_eq, hn.1, hn.2, not_false_eq_true, and_self, if_true, Bool.and_eq_true, Res.mapErr_eq_ok] at k5
  exact ⟨env.root, env.md, out, k5, k4⟩

/-- Where a file of the output comes from. -/
theorem built_from {cx : Ctx} {base : Frame} {ext : Ext} {b : Builder} {cs ms os : List Node}
    (h1 : PairAll (fun n o => preNode ext cx base n = .ok o) cs ms)
    (h2 : PairAll (fun n o => ∃ env, buildNode b env n = .ok o) ms os)
    {ds : List Str} {nm' src : Str} {b' : Bytes} {p' : Parsed} {m' : Option Value} (h : Holds os ds (.file nm' b' p' m' src)) :
    ∃ nm by' p m, Holds cs ds (.file nm by' p m src) ∧ ∀ c, p = .custom c → nm ≠ str!"root.html" → nm ≠ str!"md.html" →
      ∃ root md out, c.process root md = .ok out ∧ nm' = out.newName.getD nm ∧ b' = out.newContents.getD by' ∧ p' = .none ∧
        m' = (if b.cfg.saveMetadata then some c.toJson else none) := by
  obtain ⟨nm1, b1, p1, m1, s1, ⟨env, k1⟩, k2⟩ := h2.flip.holds_file h
  obtain ⟨nm2, b2, p2, m2, s2, k3, k4⟩ := h1.flip.holds_file k2
  obtain ⟨x, k5, k6⟩ := preNode_file_ok.1 k3
  cases k6
  rw [buildNode] at k1
  obtain ⟨out, k7, k8⟩ := processFile_ok.1 k1
  simp only [Node.file.injEq] at k8
  obtain ⟨e1, e2, e3, e4, e5⟩ := k8
  subst e5
  refine ⟨nm1, b1, p2, m1, k4, ?_⟩
  rintro c rfl n1 n2
  cases k5
  simp only [processParsed, bne_iff_ne, ne_eq, n1, n2, not_false_eq_true, and_self, if_true, Bool.and_eq_true, Res.mapErr_eq_ok] at k7
  exact ⟨env.root, env.md, out, k7, e1, e2, e3, e4⟩

end Stuart
