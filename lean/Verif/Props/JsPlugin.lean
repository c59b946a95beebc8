import Verif.Spec.JsPlugin
import Verif.Props.Js
import Verif.Props.Plugins
import Verif.Props.Parse
/-
Property C102: JavaScript plugins are what their files export.
-/
namespace Stuart
open Spec

theorem find_unique {l : List (Str × JsExport)} {k : Str} {x : JsExport} (hn : (l.map Prod.fst).Nodup) (hm : (k, x) ∈ l) :
    l.find? (fun e => e.1 == k) = some (k, x) := by
  induction l with
  | nil => cases hm
  | cons e l ih =>
    rw [List.map_cons, List.nodup_cons] at hn
    rw [List.find?_cons]
    rcases List.mem_cons.1 hm with rfl | hm
    · simp
    · have : e.1 ≠ k := fun h => hn.1 (h ▸ List.mem_map.2 ⟨_, hm, rfl⟩)
      rw [show (e.1 == k) = false by simpa using this]
      exact ih hn.2 hm

theorem Spec.HasProp.get {v x : JsExport} {name : Str} (h : HasProp v name x) : v.get name = x := by
  obtain ⟨l, rfl, h1, h2⟩ := h
  unfold JsExport.get
  simp only
  rw [find_unique h1 h2]
  rfl

theorem Spec.HasProp.isThing {v x : JsExport} {name : Str} (h : HasProp v name x) : v.isThing = true := by
  obtain ⟨l, rfl, _⟩ := h
  rfl

theorem isThing_iff {v : JsExport} : v.isThing = true ↔ Something v := by
  cases v <;> simp [JsExport.isThing, Something]

theorem Spec.Each.append {α β : Type} {R : α → β → Prop} {as as' : List α} {bs bs' : List β} (h : Each R as bs) (h' : Each R as' bs') :
    Each R (as ++ as') (bs ++ bs') := by
  induction h with
  | nil => exact h'
  | cons h1 _ ih => exact .cons h1 ih

theorem Spec.Each.reverse {α β : Type} {R : α → β → Prop} {as : List α} {bs : List β} (h : Each R as bs) :
    Each R as.reverse bs.reverse := by
  induction h with
  | nil => exact .nil
  | cons h1 _ ih =>
    rw [List.reverse_cons, List.reverse_cons]
    exact ih.append (.cons h1 .nil)

variable (E : JsEngine)

/-- Functions that are listed as they should be are taken as they are. -/
theorem jsFunctionsFrom_lists (l : List JsExport) (fns : List (Str × (List JsVal → JsRun))) (done : List JsExport)
    (h : Each ListsFn l fns) :
    ∃ fs : List (Str × JsExport), jsFunctionsFrom E (.arr (done ++ l)) done.length l.length = .ok fs ∧
      Each (fun e f => e.1 = f.1 ∧ ∃ n params, e.2 = .fn n params f.2) fs fns := by
  induction h generalizing done with
  | nil => exact ⟨[], rfl, .nil⟩
  | @cons v f l fns hv _ ih =>
    obtain ⟨fs, h1, h2⟩ := ih (done ++ [v])
    have hi : (JsExport.arr (done ++ v :: l)).index done.length = v := by
      simp [JsExport.index]
    obtain ⟨k1, n, params, k2⟩ := hv
    refine ⟨(f.1, .fn n params f.2) :: fs, ?_, .cons ⟨rfl, n, params, rfl⟩ h2⟩
    rw [List.length_cons, jsFunctionsFrom, hi, k1.isThing, if_pos rfl, k1.get, k2.get]
    rw [List.append_assoc, List.singleton_append, List.length_append] at h1
    rw [show done.length + 1 = done.length + [v].length from rfl, h1]
    rfl

/-- What is called under a name is the last function of this name. -/
theorem jsGlobal_last {fs : List (Str × JsExport)} {fns : List (Str × (List JsVal → JsRun))} (name : Str)
    (h : Each (fun e f => e.1 = f.1 ∧ ∃ n params, e.2 = .fn n params f.2) fs fns) :
    jsGlobal fs name = (fns.reverse.find? fun f => f.1 == name).map Prod.snd := by
  unfold jsGlobal
  have hr : ∀ {fs : List (Str × JsExport)} {fns : List (Str × (List JsVal → JsRun))},
      Each (fun e f => e.1 = f.1 ∧ ∃ n params, e.2 = .fn n params f.2) fs fns →
      (match fs.find? fun e => e.1 == name with
        | some (_, .fn _ _ run) => some run
        | _ => none) = (fns.find? fun f => f.1 == name).map Prod.snd := by
    intro fs fns h
    induction h with
    | nil => rfl
    | @cons e f fs fns he _ ih =>
      obtain ⟨k1, n, params, k2⟩ := he
      rw [List.find?_cons, List.find?_cons, k1]
      cases f.1 == name with
      | true =>
        obtain ⟨a, b⟩ := e
        simp only at k2
        subst k2
        rfl
      | false => exact ih
  exact hr h.reverse

theorem uint32Of_nat {n : Nat} (h : n < 4294967296) : E.uint32Of (.num (.fin (n : Rat))) = some n := by
  have h1 : ((n : Rat)).den = 1 := Rat.den_natCast n
  have h2 : ((n : Rat)).num = (n : Int) := Rat.num_natCast n
  unfold JsEngine.uint32Of
  simp only
  rw [h1, h2, if_pos ⟨rfl, by omega, by omega⟩]
  simp

/-- C102. A file whose module exports a name and a list of functions is loaded as the plugin of this name with functions of
these names in this order and no types of files; what is run under a name is the last function listed with it. -/
theorem C102_loads (source name : Str) (v : JsExport) (fns : List (Str × (List JsVal → JsRun)))
    (hv : E.evaluate source = some v) (hx : Exports v name fns) :
    loadJs E (bytesOf source) = .ok ⟨⟨name, fns.map fun f => jsParser f.1 ((fns.reverse.find? fun g => g.1 == f.1).map Prod.snd)⟩, []⟩ := by
  obtain ⟨l, h1, h2, h3⟩ := hx.lists
  obtain ⟨fs, k1, k2⟩ := jsFunctionsFrom_lists E l fns [] h3
  unfold loadJs
  rw [fromUtf8_bytesOf]
  simp only
  rw [hv]
  simp only
  rw [hx.named.isThing, if_pos rfl, h1.get, hx.named.get]
  rw [show (JsExport.arr l).isThing = true from rfl, if_pos rfl]
  rw [show (JsExport.arr l).get str!"length" = .num (.fin l.length) from rfl, uint32Of_nat E h2]
  rw [List.nil_append, List.length_nil] at k1
  simp only [Res.unwrap, Res.bind]
  rw [k1]
  simp only [JsEngine.textOf]
  congr 3
  have hmap : ∀ {fs : List (Str × JsExport)} {gs : List (Str × (List JsVal → JsRun))},
      Each (fun e f => e.1 = f.1 ∧ ∃ n params, e.2 = .fn n params f.2) fs gs →
      ∀ F : Str → PluginFnParser, (fs.map fun e => F e.1) = gs.map fun f => F f.1 := by
    intro fs gs h F
    induction h with
    | nil => rfl
    | cons h1 _ ih => rw [List.map_cons, List.map_cons, h1.1, ih]
  rw [hmap k2 fun n => jsParser n (jsGlobal fs n)]
  apply List.map_congr_left
  intro f _
  rw [jsGlobal_last f.1 k2]

/-- C102. If the names are distinct, each function runs the code listed with its name. -/
theorem C102_distinct (source name : Str) (v : JsExport) (fns : List (Str × (List JsVal → JsRun)))
    (hv : E.evaluate source = some v) (hx : Exports v name fns) (hn : (fns.map Prod.fst).Nodup) :
    loadJs E (bytesOf source) = .ok ⟨⟨name, fns.map fun f => jsParser f.1 (some f.2)⟩, []⟩ := by
  rw [C102_loads E source name v fns hv hx]
  congr 3
  apply List.map_congr_left
  intro f hf
  congr 1
  have huniq : ∀ l : List (Str × (List JsVal → JsRun)), (l.map Prod.fst).Nodup → f ∈ l →
      l.find? (fun g => g.1 == f.1) = some f := by
    intro l
    induction l with
    | nil => intro _ h; cases h
    | cons e l ih =>
      intro hn hm
      rw [List.map_cons, List.nodup_cons] at hn
      rw [List.find?_cons]
      rcases List.mem_cons.1 hm with rfl | hm
      · simp
      · have : e.1 ≠ f.1 := fun h => hn.1 (h ▸ List.mem_map.2 ⟨_, hm, rfl⟩)
        rw [show (e.1 == f.1) = false by simpa using this]
        exact ih hn.2 hm
  rw [huniq fns.reverse (by rw [List.map_reverse]; unfold List.Nodup at hn ⊢; exact List.pairwise_reverse.2 (hn.imp Ne.symm)) (List.mem_reverse.2 hf)]
  rfl

/-! ### When a file is refused -/

/-- All functions are there, from this index on. -/
theorem jsFunctionsFrom_ok_iff (fns : JsExport) : ∀ n i,
    ((∃ l, jsFunctionsFrom E fns i n = .ok l) ↔ ∀ k, k < n → Something (fns.index (i + k))) ∧
    ∀ e, jsFunctionsFrom E fns i n = .err e ↔
      ∃ k, k < n ∧ e = .noFunction (i + k) ∧ ¬ Something (fns.index (i + k)) ∧ ∀ j, j < k → Something (fns.index (i + j))
  | 0, i => ⟨⟨fun _ _ h => absurd h (Nat.not_lt_zero _), fun _ => ⟨[], rfl⟩⟩, fun e =>
      ⟨fun h => (by cases h), fun ⟨k, h, _⟩ => absurd h (Nat.not_lt_zero _)⟩⟩
  | n + 1, i => by
    obtain ⟨ih1, ih2⟩ := jsFunctionsFrom_ok_iff fns n (i + 1)
    rw [jsFunctionsFrom]
    by_cases ht : (fns.index i).isThing = true
    · have h0 := isThing_iff.1 ht
      rw [if_pos ht]
      constructor
      · constructor
        · rintro ⟨l, hl⟩ k hk
          cases hr : jsFunctionsFrom E fns (i + 1) n with
          | ok l' =>
            cases k with
            | zero => exact h0
            | succ k =>
              have := ih1.1 ⟨l', hr⟩ k (by omega)
              rwa [show i + 1 + k = i + (k + 1) by omega] at this
          | err e => rw [hr] at hl; cases hl
          | panic e => rw [hr] at hl; cases hl
        · intro h
          obtain ⟨l, hl⟩ := ih1.2 fun k hk => by
            have := h (k + 1) (by omega)
            rwa [show i + (k + 1) = i + 1 + k by omega] at this
          exact ⟨_, by rw [hl]; rfl⟩
      · intro e
        constructor
        · intro h
          have he : jsFunctionsFrom E fns (i + 1) n = .err e := by
            cases hr : jsFunctionsFrom E fns (i + 1) n with
            | ok l' => rw [hr] at h; cases h
            | err e' => rw [hr] at h; cases h; rfl
            | panic e' => rw [hr] at h; cases h
          obtain ⟨k, k1, k2, k3, k4⟩ := (ih2 e).1 he
          refine ⟨k + 1, by omega, by rw [k2]; congr 1; omega, by rwa [show i + (k + 1) = i + 1 + k by omega], fun j hj => ?_⟩
          cases j with
          | zero => exact h0
          | succ j =>
            have := k4 j (by omega)
            rwa [show i + 1 + j = i + (j + 1) by omega] at this
        · rintro ⟨k, k1, k2, k3, k4⟩
          cases k with
          | zero => exact absurd h0 k3
          | succ k =>
            have he := (ih2 e).2 ⟨k, by omega, by rw [k2]; congr 1; omega, by rwa [show i + 1 + k = i + (k + 1) by omega], fun j hj => by
              have := k4 (j + 1) (by omega)
              rwa [show i + (j + 1) = i + 1 + j by omega] at this⟩
            rw [he]
            rfl
    · have h0 : ¬ Something (fns.index i) := fun h => ht (isThing_iff.2 h)
      rw [if_neg ht]
      constructor
      · constructor
        · rintro ⟨l, hl⟩; cases hl
        · intro h; exact absurd (h 0 (by omega)) h0
      · intro e
        constructor
        · intro h
          cases h
          exact ⟨0, by omega, rfl, h0, fun j hj => absurd hj (Nat.not_lt_zero _)⟩
        · rintro ⟨k, k1, k2, k3, k4⟩
          cases k with
          | zero => rw [k2]; rfl
          | succ k => exact absurd (k4 0 (by omega)) h0

/-- C102. A file is refused exactly when it is no plugin, and for the first of the reasons. -/
theorem C102_refused (b : Bytes) (e : JsErr) : loadJs E b = .err e ↔ NoPlugin E b e := by
  unfold loadJs
  cases hb : fromUtf8 b with
  | none =>
    have hno : ¬ ∃ s, b = bytesOf s := by
      rintro ⟨s, rfl⟩
      rw [fromUtf8_bytesOf] at hb
      cases hb
    simp only
    constructor
    · intro h; cases h; exact .text hno
    · intro h
      cases h with
      | text _ => rfl
      | module h1 _ => exact absurd ⟨_, h1⟩ hno
      | nothing h1 => exact absurd ⟨_, h1⟩ hno
      | noList h1 => exact absurd ⟨_, h1⟩ hno
      | noEntry h1 => exact absurd ⟨_, h1⟩ hno
  | some s =>
    have hs : b = bytesOf s := fromUtf8_sound hb
    have hone : ∀ {t : Str}, b = bytesOf t → t = s := by
      intro t ht
      rw [ht, fromUtf8_bytesOf] at hb
      exact Option.some.inj hb
    simp only
    cases hv : E.evaluate s with
    | none =>
      simp only
      constructor
      · intro h; cases h; exact .module hs hv
      · intro h
        cases h with
        | text h1 => exact absurd ⟨_, hs⟩ h1
        | module h1 _ => rfl
        | nothing h1 h2 => rw [hone h1, hv] at h2; cases h2
        | noList h1 h2 => rw [hone h1, hv] at h2; cases h2
        | noEntry h1 h2 => rw [hone h1, hv] at h2; cases h2
    | some v =>
      simp only
      by_cases ht : v.isThing = true
      · have hsome := isThing_iff.1 ht
        rw [if_pos ht]
        by_cases hf : (v.get str!"functions").isThing = true
        · have hfsome := isThing_iff.1 hf
          rw [if_pos hf]
          have hother : NoPlugin E b e ↔ ∃ n k, E.uint32Of ((v.get str!"functions").get str!"length") = some n ∧ k < n ∧
              e = .noFunction k ∧ ¬ Something ((v.get str!"functions").index k) ∧
              ∀ j, j < k → Something ((v.get str!"functions").index j) := by
            constructor
            · intro h
              cases h with
              | text h1 => exact absurd ⟨_, hs⟩ h1
              | module h1 h2 => rw [hone h1, hv] at h2; cases h2
              | nothing h1 h2 h3 => rw [hone h1, hv] at h2; cases h2; exact absurd hsome h3
              | noList h1 h2 h3 h4 h5 => rw [hone h1, hv] at h2; cases h2; cases h4; exact absurd hfsome h5
              | noEntry h1 h2 h3 h4 h5 h6 h7 h8 h9 h10 =>
                rw [hone h1, hv] at h2
                cases h2
                cases h4
                cases h6
                exact ⟨_, _, h7, h8, rfl, h9, h10⟩
            · rintro ⟨n, k, h1, h2, rfl, h3, h4⟩
              exact .noEntry hs hv hsome rfl hfsome rfl h1 h2 h3 h4
          rw [hother]
          cases hu : E.uint32Of ((v.get str!"functions").get str!"length") with
          | none => exact ⟨fun h => (by cases h), fun ⟨n, k, h, _⟩ => (by cases h)⟩
          | some n =>
            simp only [Res.unwrap, Res.bind]
            have hk := (jsFunctionsFrom_ok_iff E (v.get str!"functions") n 0).2
            simp only [Nat.zero_add] at hk
            constructor
            · intro h
              cases hr : jsFunctionsFrom E (v.get str!"functions") 0 n with
              | ok l => rw [hr] at h; cases h
              | panic p => rw [hr] at h; cases h
              | err e' =>
                rw [hr] at h
                cases h
                obtain ⟨k, k1, k2, k3, k4⟩ := (hk e).1 hr
                exact ⟨n, k, rfl, k1, k2, k3, k4⟩
            · rintro ⟨n', k, h1, k1, k2, k3, k4⟩
              cases h1
              rw [(hk e).2 ⟨k, k1, k2, k3, k4⟩]
        · have hfno : ¬ Something (v.get str!"functions") := fun h => hf (isThing_iff.2 h)
          rw [if_neg hf]
          constructor
          · intro h; cases h; exact .noList hs hv hsome rfl hfno
          · intro h
            cases h with
            | text h1 => exact absurd ⟨_, hs⟩ h1
            | module h1 h2 => rw [hone h1, hv] at h2; cases h2
            | nothing h1 h2 h3 => rw [hone h1, hv] at h2; cases h2; exact absurd hsome h3
            | noList h1 h2 h3 h4 h5 => rfl
            | noEntry h1 h2 h3 h4 h5 => rw [hone h1, hv] at h2; cases h2; cases h4; exact absurd h5 hfno
      · have hno : ¬ Something v := fun h => ht (isThing_iff.2 h)
        rw [if_neg ht]
        constructor
        · intro h; cases h; exact .nothing hs hv hno
        · intro h
          cases h with
          | text h1 => exact absurd ⟨_, hs⟩ h1
          | module h1 h2 => rw [hone h1, hv] at h2; cases h2
          | nothing => rfl
          | noList h1 h2 h3 => rw [hone h1, hv] at h2; cases h2; exact absurd h3 hno
          | noEntry h1 h2 h3 => rw [hone h1, hv] at h2; cases h2; exact absurd h3 hno

/-! ### From the file to the call -/

/-- C102. A source that is a JavaScript file is loaded as the plugin that the file exports. Its name is the one the file
gives, whatever the manifest calls it. -/
theorem C102_source (O : Outside) (root : Path) (hO : O.openJs = fun _ => E.open) (hj : O.js = true) (name src file : Str)
    (s : LoadSt) (hf : EndsIn src file) (hx : HasExt file str!"js" ∨ HasExt file str!"mjs")
    (source own : Str) (hb : look s.world.disk (joinPath root src) = some (.file (bytesOf source))) (v : JsExport)
    (fns : List (Str × (List JsVal → JsRun))) (hv : E.evaluate source = some v)
    (he : Exports v own fns) (hn : (fns.map Prod.fst).Nodup) :
    (loadFromSource O root name src s).2 = .ok [⟨⟨own, fns.map fun f => jsParser f.1 (some f.2)⟩, []⟩] := by
  rw [C64_script name src s file _ hf hb hj hx, hO]
  have hat : s.world.disk.at (joinPath root src) = some (.file (bytesOf source)) := by
    rw [look] at hb
    obtain ⟨x, h1, h2⟩ := Option.map_eq_some_iff.1 hb
    cases x <;> simp [kind] at h2
    rw [h1, h2]
  simp only [JsEngine.open, hat, C102_distinct E source own v fns hv he hn]

/-- C102. A call in a template under the name of such a function, or that name after the name of the plugin and `::`, that is
no built-in and of no plugin before, is a call of the code listed with the name, with the positional arguments. -/
theorem C102_call (U : Unicode) (path : Str) (before after : List PluginFns) (own : Str) (fns : List (Str × (List JsVal → JsRun)))
    (hn : (fns.map Prod.fst).Nodup) (f : Str × (List JsVal → JsRun)) (hf : f ∈ fns) (t : Text) (ht : t.WF) (hg : Glue t)
    (w w' : Str) (hw : Blank w) (hw' : Blank w') (c : Call) (hc : c.WF U) (hb : c.name ∉ builtinNames)
    (hfirst : ∀ p ∈ before, ∀ g ∈ p.functions, c.name ≠ g.name ∧ c.name ≠ p.name ++ str!"::" ++ g.name)
    (hname : (c.name = f.1 ∧ ∀ g ∈ fns, c.name ≠ own ++ str!"::" ++ g.1) ∨
      (c.name = own ++ str!"::" ++ f.1 ∧ ∀ g ∈ fns, c.name ≠ g.1)) :
    ∃ toks, parseHtml U path (before ++ ⟨own, fns.map fun f => jsParser f.1 (some f.2)⟩ :: after) (callFile t w c w') = .ok toks ∧
      toks.map (fun t => t.inner) = textTok t.val ++ [.func (.plugin (jsFunction (some f.2) c.raw.pos))] := by
  obtain ⟨fpre, fpost, hsplit⟩ := List.append_of_mem hf
  have hp : FirstPlugin (before ++ ⟨own, fns.map fun f => jsParser f.1 (some f.2)⟩ :: after) c.name (jsParser f.1 (some f.2)) := by
    refine ⟨before, _, after, fpre.map fun f => jsParser f.1 (some f.2), fpost.map fun f => jsParser f.1 (some f.2), rfl,
      by rw [hsplit, List.map_append, List.map_cons], ?_, hfirst, ?_⟩
    · rcases hname with h | h
      · exact .inl h.1
      · exact .inr h.1
    · intro g hg
      obtain ⟨e, he, rfl⟩ := List.mem_map.1 hg
      have hmem : e ∈ fns := by rw [hsplit]; exact List.mem_append_left _ he
      have hne : e.1 ≠ f.1 := by
        intro h
        rw [hsplit, List.map_append, List.map_cons] at hn
        unfold List.Nodup at hn
        exact (List.pairwise_append.1 hn).2.2 e.1 (List.mem_map.2 ⟨_, he, rfl⟩) f.1 (List.mem_cons_self ..) h
      rcases hname with ⟨h1, h2⟩ | ⟨h1, h2⟩
      · exact ⟨fun h => hne ((h1.symm.trans h).symm), h2 e hmem⟩
      · refine ⟨h2 e hmem, fun h => hne ?_⟩
        exact (List.append_cancel_left (h1.symm.trans h)).symm
  exact (C05_first_plugin U path _ t ht hg w w' hw hw' c hc hb _ hp).1 _ rfl

/-! ### Counterexamples and cases -/

/-- Code that returns a text. -/
def says (s : Str) : List JsVal → JsRun := fun _ => .ret (some s)

/-- An entry of the list of functions. -/
def entry (name : Str) (run : List JsVal → JsRun) : JsExport := .obj [(str!"name", .str name), (str!"fn", .fn str!"fn" 0 run)]

/-- An engine that knows a few sources. -/
def toyEngine : JsEngine where
  evaluate s :=
    if s = str!"hello" then
      some (.obj [(str!"name", .str str!"greet"), (str!"version", .str str!"1.0"),
        (str!"functions", .arr [entry str!"hi" (says str!"Hi!"), entry str!"bye" (says str!"Bye.")])])
    else if s = str!"twice" then
      some (.obj [(str!"name", .str str!"greet"), (str!"functions", .arr [entry str!"hi" (says str!"a"), entry str!"hi" (says str!"b")])])
    else if s = str!"nameless" then some (.obj [(str!"functions", .arr [.obj [(str!"fn", .num (.fin 1))]])])
    else if s = str!"number" then some (.obj [(str!"name", .str str!"greet"), (str!"functions", .num (.fin 5))])
    else if s = str!"hole" then some (.obj [(str!"functions", .arr [entry str!"hi" (says str!"a"), .null])])
    else if s = str!"empty" then some .undefined
    else if s = str!"like" then
      some (.obj [(str!"name", .str str!"greet"), (str!"functions", .obj [(str!"1", .null), (str!"length", .num (.fin 1)),
        (str!"0", entry str!"hi" (says str!"Hi!"))])])
    else if s = str!"function" then some (.obj [(str!"functions", .fn str!"f" 2 (says []))])
    else if s = str!"bare" then some (.obj [(str!"name", .str str!"greet"), (str!"functions", .arr [.fn str!"hi" 0 (says str!"Hi!")])])
    else none
  text _ := []
  uint32 _ := none

theorem hello_exports : Exports (.obj [(str!"name", .str str!"greet"), (str!"version", .str str!"1.0"),
        (str!"functions", .arr [entry str!"hi" (says str!"Hi!"), entry str!"bye" (says str!"Bye.")])]) str!"greet"
    [(str!"hi", says str!"Hi!"), (str!"bye", says str!"Bye.")] where
  named := ⟨_, rfl, by decide, .head _⟩
  lists := ⟨_, ⟨_, rfl, by decide, .tail _ (.tail _ (.head _))⟩, by decide,
    .cons ⟨⟨_, rfl, by decide, .head _⟩, _, _, _, rfl, by decide, .tail _ (.head _)⟩
      (.cons ⟨⟨_, rfl, by decide, .head _⟩, _, _, _, rfl, by decide, .tail _ (.head _)⟩ .nil)⟩

/-- C102. That a plugin or a function has no name is not noticed: it is called `undefined`. That it is no function is noticed
when it is called, by a panic. -/
theorem C102_counterexample_nameless :
    loadJs toyEngine (bytesOf str!"nameless") = .ok ⟨⟨str!"undefined", [jsParser str!"undefined" none]⟩, []⟩ ∧
    (jsFunction none []).exec [[]] = .panic .plugin := ⟨rfl, rfl⟩

/-- C102. Functions that are listed themselves, without an object for each, are there under their own names, and to call one is a panic. -/
theorem C102_counterexample_bare :
    loadJs toyEngine (bytesOf str!"bare") = .ok ⟨⟨str!"greet", [jsParser str!"hi" none]⟩, []⟩ ∧
    (jsFunction none []).exec [[]] = .panic .plugin := ⟨rfl, rfl⟩

/-- C102. Of two functions with the same name in a plugin, the calls, which find the first, run the second. -/
theorem C102_counterexample_twice : ∃ p first second, loadJs toyEngine (bytesOf str!"twice") = .ok p ∧
    p.fns.functions = [first, second] ∧
    ∃ f, first.parse ⟨str!"hi", [], []⟩ = .ok f ∧ f.exec [[]] = .ok ([], bytesOf str!"b") :=
  ⟨_, _, _, rfl, rfl, _, rfl, rfl⟩

/-- C102. A list of functions can be any object with a length and numbered parts; a function is one of its own length, of which there is no first. -/
theorem C102_counterexample_listlike :
    loadJs toyEngine (bytesOf str!"like") = .ok ⟨⟨str!"greet", [jsParser str!"hi" (some (says str!"Hi!"))]⟩, []⟩ ∧
    loadJs toyEngine (bytesOf str!"function") = .err (.noFunction 0) := ⟨rfl, rfl⟩

/-- Lengths from 2^32 on are left to the engine. -/
theorem uint32Of_large {n : Nat} (h : 4294967296 ≤ n) : E.uint32Of (.num (.fin (n : Rat))) = E.uint32 (.num (.fin (n : Rat))) := by
  have h1 : ((n : Rat)).den = 1 := Rat.den_natCast n
  have h2 : ((n : Rat)).num = (n : Int) := Rat.num_natCast n
  unfold JsEngine.uint32Of
  simp only
  rw [h1, h2, if_neg (by omega)]

/-- C102. A list of functions that is no list makes a plugin without functions. -/
theorem C102_counterexample_list : loadJs toyEngine (bytesOf str!"number") = .ok ⟨⟨str!"greet", []⟩, []⟩ := rfl

example := C102_distinct toyEngine str!"hello" str!"greet" _ _ rfl hello_exports (by decide)
example := C102_loads toyEngine str!"hello" str!"greet" _ _ rfl hello_exports
example : loadJs toyEngine (bytesOf str!"hole") = .err (.noFunction 1) := rfl
example := (C102_refused toyEngine (bytesOf str!"hole") (.noFunction 1)).1 rfl
example : loadJs toyEngine (bytesOf str!"empty") = .err .noDefault := rfl
example : loadJs toyEngine (bytesOf str!"?") = .err .module := rfl
example : loadJs toyEngine [255] = .err .read := rfl

/-- A build of the program with JavaScript. -/
def jsOutside : Outside := { plainOutside with js := true, openJs := fun _ => toyEngine.open }

/-- The manifest calls the plugin `g`, the plugin itself `greet`. -/
example := C102_source toyEngine jsOutside [str!"p"] rfl rfl str!"g" str!"lib/g.mjs" str!"g.mjs"
  ⟨⟨.dir [(str!"p", .dir [(str!"lib", .dir [(str!"g.mjs", .file (bytesOf str!"hello"))])])], []⟩, 0⟩
  ⟨str!"lib/", rfl, .inr ⟨str!"lib", rfl⟩, by decide⟩ (.inr (extension_iff.1 rfl)) str!"hello" str!"greet" rfl _ _ rfl hello_exports (by decide)

example := C102_call Unicode.asciiOnly str!"p" [⟨str!"a", []⟩] [] str!"greet" [(str!"bye", says str!"Bye."), (str!"hi", says str!"Hi!")]
  (by decide) (str!"hi", says str!"Hi!") (.tail _ (.head _)) (Text.plain []) plain_wf (by unfold Glue; decide) [' '] []
  (by unfold Blank; decide) (by simp [Blank]) (exCall str!"hi") exCall_wf (by decide) (by simp) (.inl ⟨rfl, by simp; decide⟩)

/-- The call runs the code. -/
example : ∃ toks, parseHtml Unicode.asciiOnly str!"p" [⟨str!"greet", [jsParser str!"hi" (some (says str!"Hi!"))]⟩]
    str!"{{ greet::hi(\"x\") }}" = .ok toks ∧
    toks.map (fun t => t.inner) = [.func (.plugin (jsFunction (some (says str!"Hi!")) [.str str!"x"]))] ∧
    (jsFunction (some (says str!"Hi!")) [.str str!"x"]).exec [[]] = .ok ([], bytesOf str!"Hi!") := ⟨_, rfl, rfl, rfl⟩

end Stuart
