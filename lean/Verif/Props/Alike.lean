import Verif.Proof.Probe
import Verif.Props.Fields
/-
C113. What templates see of data.
-/
namespace Stuart
open Spec

section
variable (cx : Ctx) (vars : List (Str × Str)) (mode : Str)

/-- C113. The page of a markdown file with one value or another that is alike: the same, or the same error. -/
theorem C113_page (toks root : List LTok) (ht : PluginFree toks) (hr : PluginFree root) (src : Str) (v v' : Value) (hv : SeenAlike v v') :
    renderOn cx ((baseFrame vars mode).addVar str!"self" v) (baseFrame vars mode) src toks root =
      renderOn cx ((baseFrame vars mode).addVar str!"self" v') (baseFrame vars mode) src toks root :=
  renderOn_but (ctx_refl alikeTell cx) vars mode (silent_pluginFree ht) (silent_pluginFree hr) src
    ((FrameBut.refl _).addVar _ (show alikeTell.E v v' from hv))

/-- C113. And values that are not alike are told apart by some template: what `SeenAlike` says is just what templates see. -/
theorem C113_tells (src : Str) (v v' : Value) (hf : Fits v)
    (h : ∀ toks, PluginFree toks →
      renderOn cx ((baseFrame vars mode).addVar str!"self" v) (baseFrame vars mode) src toks [] =
        renderOn cx ((baseFrame vars mode).addVar str!"self" v') (baseFrame vars mode) src toks []) : SeenAlike v v' := by
  have hu : Unprobed cx vars mode src v v' := by
    refine ⟨fun is _ => h _ ?_, fun is x _ => h _ ?_, fun is n _ => h _ ?_⟩
    · intro t ht f e
      simp only [probeVar, List.mem_singleton] at ht
      rw [ht] at e; cases e
    · intro t ht f e
      simp only [probeEq, List.mem_cons, List.not_mem_nil, or_false] at ht
      rcases ht with rfl | rfl | rfl <;> cases e
    · intro t ht f e
      simp only [probeFor, List.mem_cons, List.not_mem_nil, or_false] at ht
      rcases ht with rfl | rfl <;> cases e
  exact hu.alike (fun is l hl => hf is l (by rw [← getValue_follow]; exact hl)) _ [] (by simp) (Nat.le_refl _)

/-- Both. -/
theorem C113_iff (src : Str) (v v' : Value) (hf : Fits v) :
    SeenAlike v v' ↔ ∀ toks root, PluginFree toks → PluginFree root →
      renderOn cx ((baseFrame vars mode).addVar str!"self" v) (baseFrame vars mode) src toks root =
        renderOn cx ((baseFrame vars mode).addVar str!"self" v') (baseFrame vars mode) src toks root :=
  ⟨fun h toks root ht hr => C113_page cx vars mode toks root ht hr src v v' h,
    fun h => C113_tells cx vars mode src v v' hf fun toks ht => h toks [] ht (by simp [PluginFree])⟩
end

section
variable (M : Machine) (L : Loader) (cwd : Path) (manifest output : Str) (s s1 s' s1' : Host) (p : Path) (raw : RawConfig)
  (plugins : List Plugin)

/-- C113. Two projects that are the same but for data files and frontmatter that are alike; data files and metadata are not published, and no
template calls a plugin. `stuart build` ends in the same way, with the same error if there is one, and leaves the same everywhere but in the
content; whatever mishaps there are. -/
theorem C113_build (h : Simple L cwd manifest s s1 p raw plugins) (h' : Simple L cwd manifest s' s1' p raw plugins)
    (hm : raw.toConfig.saveMetadata = false) (hj : raw.toConfig.saveDataFiles = false)
    (hd : ChangedDisks M.sys plugins FileAlike (p.dropLast ++ [str!"content"]) s1.world.disk s1'.world.disk)
    (hf : s1.world.faults = s1'.world.faults) :
    (cmdBuild M L cwd manifest output s).2 = (cmdBuild M L cwd manifest output s').2 ∧
    ∀ q, ¬ p.dropLast ++ [str!"content"] <+: q →
      look (cmdBuild M L cwd manifest output s).1.world.disk q = look (cmdBuild M L cwd manifest output s').1.world.disk q := by
  obtain ⟨c, h1, h2, h3, h4, h5, h6, h7, h8, h9⟩ := simple_start L cwd manifest output s h str!"production"
  obtain ⟨c', h1', h2', h3', h4', h5', h6', h7', h8', h9'⟩ := simple_start L cwd manifest output s' h' str!"production"
  have hcc : c = c' := simple_context L cwd manifest output s s1 s' s1' p raw plugins h h' h1 h1'
  subst hcc
  have hr : cmdBuild M L cwd manifest output s = ((c.build M s1).2.1, (c.build M s1).2.2) := by simp only [cmdBuild, h1]
  have hr' : cmdBuild M L cwd manifest output s' = ((c.build M s1').2.1, (c.build M s1').2.2) := by simp only [cmdBuild, h1']
  rw [hr, hr']
  obtain ⟨k1, k2⟩ := contextBuild_but FileAlike.tell (M := M) h8 h9 (by rw [h5, h4]) (by rw [h2]; exact hm) (by rw [h2]; exact hj)
    (s := s1) (s' := s1') (by rw [h3, h5]; exact hd) hf
  refine ⟨k2, fun q hq => look_but k1.disk ?_⟩
  rw [h5]
  exact hq
end

/-! ### Cases -/

theorem part_absent {l : List (Str × Value)} {k : Str} (h : k ∉ l.map fun e => e.1) : part (.obj l) k = .null := by
  simp only [part]
  cases hf : l.find? fun e => e.1 == k with
  | none => rfl
  | some e =>
    have h1 := List.mem_of_find?_eq_some hf
    have h2 := List.find?_some hf
    exact absurd (List.mem_map.2 ⟨e, h1, by simpa using h2⟩) h

/-- It is enough to look at the keys there are. -/
theorem objects_alike {l l' : List (Str × Value)}
    (h : ∀ k ∈ (l.map fun e => e.1) ++ l'.map fun e => e.1, '.' ∉ k → SeenAlike (part (.obj l) k) (part (.obj l') k)) :
    SeenAlike (.obj l) (.obj l') := by
  refine .thing trivial trivial fun k hk => ?_
  by_cases hm : k ∈ (l.map fun e => e.1) ++ l'.map fun e => e.1
  · exact h k hm hk
  · rw [List.mem_append, not_or] at hm
    rw [part_absent hm.1, part_absent hm.2]
    exact .null

/-- Data: `{"list": [{"name": "x", "rank": "2", "on": true}, {"name": "y", "rank": "1", "on": {}}], "n": 2, "z": null}`, -/
def alikeData : Value := .obj [
  (str!"list", .arr [.obj [(str!"name", .str str!"x"), (str!"rank", .str str!"2"), (str!"on", .bool true)],
    .obj [(str!"name", .str str!"y"), (str!"rank", .str str!"1"), (str!"on", .obj [])]]),
  (str!"n", .num (.fin 2)), (str!"z", .null)]

/-- and the same to templates: other orders, another truth value, another fraction, nothing for null, a second field of the same name, and a field
with a point in its name. -/
def alikeData' : Value := .obj [
  (str!"n", .num (.fin (5 / 2))),
  (str!"list", .arr [.obj [(str!"rank", .str str!"2"), (str!"name", .str str!"x"), (str!"on", .bool false)],
    .obj [(str!"on", .bool true), (str!"name", .str str!"y"), (str!"name", .str str!"no"), (str!"rank", .str str!"1")]]),
  (str!"a.b", .str str!"c")]

theorem alikeData_alike : SeenAlike alikeData alikeData' := by
  unfold alikeData alikeData'
  refine objects_alike ?_
  intro k hk hd
  simp only [List.map_cons, List.map_nil, List.cons_append, List.nil_append, List.mem_cons, List.not_mem_nil, or_false] at hk
  have hlist : SeenAlike (.arr [.obj [(str!"name", .str str!"x"), (str!"rank", .str str!"2"), (str!"on", .bool true)],
      .obj [(str!"name", .str str!"y"), (str!"rank", .str str!"1"), (str!"on", .obj [])]])
      (.arr [.obj [(str!"rank", .str str!"2"), (str!"name", .str str!"x"), (str!"on", .bool false)],
      .obj [(str!"on", .bool true), (str!"name", .str str!"y"), (str!"name", .str str!"no"), (str!"rank", .str str!"1")]]) := by
    refine .arr rfl fun i v v' hv hv' => ?_
    match i, hv, hv' with
    | 0, hv, hv' =>
      cases hv; cases hv'
      refine objects_alike fun k hk _ => ?_
      simp only [List.map_cons, List.map_nil, List.cons_append, List.nil_append, List.mem_cons, List.not_mem_nil, or_false] at hk
      rcases hk with rfl | rfl | rfl | rfl | rfl | rfl <;> first | exact .str _ | exact .thing trivial trivial fun _ _ => .null
    | 1, hv, hv' =>
      cases hv; cases hv'
      refine objects_alike fun k hk _ => ?_
      simp only [List.map_cons, List.map_nil, List.cons_append, List.nil_append, List.mem_cons, List.not_mem_nil, or_false] at hk
      rcases hk with rfl | rfl | rfl | rfl | rfl | rfl | rfl <;> first | exact .str _ | exact .thing trivial trivial fun _ _ => .null
    | n + 2, hv, _ => cases hv
  have hnum : SeenAlike (.num (.fin 2)) (.num (.fin (5 / 2))) := .num (by decide +kernel)
  rcases hk with rfl | rfl | rfl | rfl | rfl | rfl
  · exact hlist
  · exact hnum
  · exact .null
  · exact hnum
  · exact hlist
  · exact absurd hd (by decide)

theorem fits_small {v : Value} (h : sizeOf v ≤ 2 ^ 64) : Fits v := by
  have hn : ∀ v : Value, 0 < sizeOf v := by intro v; cases v <;> simp <;> omega
  have hs : ∀ (is : List Str) (v : Value), sizeOf (getValue is v) ≤ sizeOf v := by
    intro is
    induction is with
    | nil => intro v; exact Nat.le_refl _
    | cons i is ih =>
      intro v
      by_cases ha : ∃ l, v = .arr l
      · obtain ⟨l, rfl⟩ := ha
        rw [getValue_item]
        refine Nat.le_trans (ih _) ?_
        cases (parseUsize i) with
        | none => have := hn (.arr l); simp only [Option.bind_none, Option.getD_none, Value.null.sizeOf_spec]; omega
        | some n =>
          simp only [Option.bind_some]
          cases hg : l[n]? with
          | none => have := hn (.arr l); simp only [Option.getD_none, Value.null.sizeOf_spec]; omega
          | some w =>
            have := List.sizeOf_lt_of_mem (List.mem_of_getElem? hg)
            simp only [Option.getD_some, Value.arr.sizeOf_spec]; omega
      · have ha : ∀ l, v ≠ .arr l := fun l e => ha ⟨l, e⟩
        rw [getValue_part ha]
        refine Nat.le_trans (ih _) ?_
        cases v with
        | obj l => exact Nat.le_of_lt part_size
        | arr l => exact absurd rfl (ha l)
        | _ => simp [part]
  have hl : ∀ l : List Value, l.length ≤ sizeOf l := by
    intro l
    induction l with
    | nil => simp
    | cons a l ih => simp; omega
  intro is l e
  rw [← getValue_follow] at e
  have h1 := hs is v
  rw [e] at h1
  have h2 := hl l
  simp only [Value.arr.sizeOf_spec] at h1
  omega

def alikeCx : Ctx := ⟨.dir str!"c" [] str!"/c", fun _ _ => none⟩

def pluginFreeCheck (toks : List LTok) : Bool := toks.all fun t => match t.inner with | .func (.plugin _) => false | _ => true

theorem pluginFreeCheck_ok {toks : List LTok} (h : pluginFreeCheck toks = true) : PluginFree toks := by
  simp only [pluginFreeCheck, List.all_eq_true] at h
  intro t ht f hf
  have := h t ht
  rw [hf] at this
  cases this

example := C113_page alikeCx [] str!"m" fieldToks fieldToks (pluginFreeCheck_ok (by decide)) (pluginFreeCheck_ok (by decide)) str!"a" _ _ alikeData_alike

/-- Three and two are told apart, and so are the two orders of a list, a text and a number, and null and an empty object; -/
example (v v' : Value) (h : (v = .num (.fin 3) ∧ v' = .num (.fin 2)) ∨ (v = .arr [.str str!"a", .str str!"b"] ∧ v' = .arr [.str str!"b", .str str!"a"]) ∨
    (v = .str str!"1" ∧ v' = .num (.fin 1)) ∨ (v = .null ∧ v' = .obj [])) : ¬ SeenAlike v v' := by
  rcases h with ⟨rfl, rfl⟩ | ⟨rfl, rfl⟩ | ⟨rfl, rfl⟩ | ⟨rfl, rfl⟩ <;> intro hn
  · cases hn with
    | num h => exact absurd h (by decide +kernel)
    | thing h => exact h
  · cases hn with
    | arr _ h => have := h 0 _ _ rfl rfl; cases this with | thing h => exact h
    | thing h => exact h
  · cases hn with | thing h => exact h
  · cases hn with | thing h => exact h

/-- so there are templates that do. -/
example : ∃ toks, PluginFree toks ∧ renderOn alikeCx ((baseFrame [] str!"m").addVar str!"self" (.num (.fin 3))) (baseFrame [] str!"m") str!"a" toks [] ≠
    renderOn alikeCx ((baseFrame [] str!"m").addVar str!"self" (.num (.fin 2))) (baseFrame [] str!"m") str!"a" toks [] := by
  apply Classical.byContradiction
  intro hn
  have := C113_tells alikeCx [] str!"m" str!"a" (.num (.fin 3)) (.num (.fin 2)) (by
    intro path l h
    cases path with
    | nil => cases h
    | cons k ks => cases h) (fun toks ht => Classical.byContradiction fun hne => hn ⟨toks, ht, hne⟩)
  cases this with
  | num h => exact absurd h (by decide +kernel)
  | thing h => exact h

/-- Two projects: the data files, and frontmatter in another order, with another field of the same name behind it and one with a point in its name. -/
def alikeMachine : Machine :=
  { idleMachine with sys := { demoSys with parseJson := fun s => if s = str!"0" then some alikeData else if s = str!"1" then some alikeData' else none } }

def alikeFront : Str := str!"note: \"n\"\ntag: \"t\"\n"
def alikeFront' : Str := str!"tag: \"t\"\na.b: \"q\"\nnote: \"n\"\ntitle: \"no\"\n"

def alikeBuilt (data page front : Str) : Host × Res CliErr Unit :=
  cmdBuild alikeMachine shortLoader [str!"p"] str!"stuart.toml" str!"dist" (fieldHost data page front)

def alikeParsed (nm : Str) (s : Str) : Res SErr Parsed :=
  parseContents alikeMachine.sys [] nm (pathStr [str!"p", str!"content", nm]) (bytesOf s)

theorem alike_file {S : Sys} {p : Path} {nm : Str} {b : Bytes}
    (h1 : isHtml (parseContents S [] nm (pathStr (p ++ [nm])) b) = true)
    (h2 : pluginFreeCheck (htmlOf (parseContents S [] nm (pathStr (p ++ [nm])) b)) = true) : Changed S [] FileAlike p nm (.file b) (.file b) := by
  cases h : parseContents S [] nm (pathStr (p ++ [nm])) b with
  | ok c =>
    rw [h] at h1 h2
    cases c with
    | html toks => exact .file (parseContents_ok.1 h) (parseContents_ok.1 h) (.html (pluginFreeCheck_ok h2))
    | _ => cases h1
  | _ => rw [h] at h1; cases h1

theorem alike_front (k : Str) (hk : '.' ∉ k) : frontOf (mdOf (alikeParsed str!"x.md" (fieldPost alikeFront))).frontmatter k =
    frontOf (mdOf (alikeParsed str!"x.md" (fieldPost alikeFront'))).frontmatter k := by
  have h : (mdOf (alikeParsed str!"x.md" (fieldPost alikeFront))).frontmatter =
      [(str!"title", str!"T"), (str!"note", str!"n"), (str!"tag", str!"t")] := by decide +kernel
  have h' : (mdOf (alikeParsed str!"x.md" (fieldPost alikeFront'))).frontmatter =
      [(str!"title", str!"T"), (str!"tag", str!"t"), (str!"a.b", str!"q"), (str!"note", str!"n"), (str!"title", str!"no")] := by decide +kernel
  rw [h, h']
  by_cases h1 : k = str!"title"
  · subst h1; decide
  by_cases h2 : k = str!"tag"
  · subst h2; decide
  by_cases h3 : k = str!"note"
  · subst h3; decide
  by_cases h4 : k = str!"a.b"
  · subst h4; exact absurd hk (by decide)
  have n1 : (str!"title" == k) = false := by simpa using fun e => h1 e.symm
  have n2 : (str!"tag" == k) = false := by simpa using fun e => h2 e.symm
  have n3 : (str!"note" == k) = false := by simpa using fun e => h3 e.symm
  have n4 : (str!"a.b" == k) = false := by simpa using fun e => h4 e.symm
  simp only [frontOf, List.find?, n1, n2, n3, n4]

theorem alike_twins : ChangedDisks alikeMachine.sys [] FileAlike [str!"p", str!"content"] (fieldDisk str!"0" [] alikeFront)
    (fieldDisk str!"1" [] alikeFront') where
  alike := .dir (.cons (.dir (.cons (.file (.inl rfl)) (.cons (.dir (.cons (.file (.inr (by decide)))
    (.cons (.file (.inl rfl)) (.cons (.file (.inl rfl)) (.cons (.file (.inl rfl)) (.cons (.file (.inr (by decide))) .nil)))))) .nil))) .nil)
  content := ⟨_, _, rfl, rfl,
    .cons (.file (c := .json alikeData) (c' := .json alikeData') (parseContents_ok.1 rfl) (parseContents_ok.1 rfl)
      (.data alikeData_alike)) (.cons (alike_file (by decide +kernel) (by decide +kernel))
    (.cons (alike_file (by decide +kernel) (by decide +kernel))
    (.cons (alike_file (by decide +kernel) (by decide +kernel))
    (.cons (.file (c := .markdown (mdOf (alikeParsed str!"x.md" (fieldPost alikeFront))))
      (c' := .markdown (mdOf (alikeParsed str!"x.md" (fieldPost alikeFront'))))
      (parseContents_ok.1 (mdOf_eq (by decide +kernel))) (parseContents_ok.1 (mdOf_eq (by decide +kernel)))
      (.markdown alike_front (by decide +kernel) (by decide +kernel) rfl (pluginFreeCheck_ok (by decide +kernel)))) .nil))))⟩

theorem alike_same {data page front data' page' front' : Str}
    (h : ChangedDisks alikeMachine.sys [] FileAlike [str!"p", str!"content"] (fieldDisk data page front) (fieldDisk data' page' front'))
    (q : Path) (hq : ¬ [str!"p", str!"content"] <+: q) :
    look (alikeBuilt data page front).1.world.disk q = look (alikeBuilt data' page' front').1.world.disk q :=
  (C113_build alikeMachine shortLoader [str!"p"] str!"stuart.toml" str!"dist" (fieldHost data page front) _
    (fieldHost data' page' front') _ _ _ [] (fieldHost_simple _ _ _) (fieldHost_simple _ _ _) rfl rfl h rfl).2 q hq

/-- The pages are the same. -/
example : look (alikeBuilt str!"1" [] alikeFront').1.world.disk [str!"p", str!"dist", str!"a", str!"index.html"] =
      some (.file (bytesOf str!"<y;x;>")) ∧
    look (alikeBuilt str!"1" [] alikeFront').1.world.disk [str!"p", str!"dist", str!"x", str!"index.html"] =
      some (.file (bytesOf str!"<T: <body>>")) :=
  ⟨(alike_same alike_twins _ (by decide)).symm.trans (by decide +kernel), (alike_same alike_twins _ (by decide)).symm.trans (by decide +kernel)⟩

end Stuart
