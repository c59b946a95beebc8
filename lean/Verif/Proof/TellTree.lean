import Verif.Proof.Tell
import Verif.Spec.Changed
import Verif.Proof.RenameRun
/-
Lemmas: building content with values that no look-up of a template can tell apart makes the same.
-/
namespace Stuart
open Spec

section
variable {T : Tell}

/-- What two files are read as, with their contents: templates and markdown bodies are the same and look up only some variables. -/
inductive FileTell (T : Tell) : Bytes → Bytes → Parsed → Parsed → Prop
  | html {b b' : Bytes} {toks : List LTok} : (∀ t ∈ toks, SilentTok T t) → FileTell T b b' (.html toks) (.html toks)
  | markdown {b b' : Bytes} {md md' : ParsedMd} :
      (∀ h m : Str, T.E ((md.fmValue.setKey str!"content" (.str h)).setKey str!"markdown" (.str m))
        ((md'.fmValue.setKey str!"content" (.str h)).setKey str!"markdown" (.str m))) → md.markdownString = md'.markdownString →
      md.html = md'.html → md.markdown = md'.markdown → (∀ t ∈ md.markdown, SilentTok T t) → FileTell T b b' (.markdown md) (.markdown md')
  | data {b b' : Bytes} {v v' : Value} : T.E v v' → FileTell T b b' (.json v) (.json v')
  | other {b : Bytes} : FileTell T b b .none .none

mutual
/-- Two trees of such files. -/
inductive NodeBut (T : Tell) : Node → Node → Prop
  | file {nm : Str} {b b' : Bytes} {c c' : Parsed} {m : Option Value} {src : Str} : FileTell T b b' c c' →
      ((∃ v, c = .json v) → str!".json" <:+ nm) → NodeBut T (.file nm b c m src) (.file nm b' c' m src)
  | dir {nm src : Str} {cs cs' : List Node} : NodesBut T cs cs' → NodeBut T (.dir nm cs src) (.dir nm cs' src)
inductive NodesBut (T : Tell) : List Node → List Node → Prop
  | nil : NodesBut T [] []
  | cons {n n' : Node} {cs cs' : List Node} : NodeBut T n n' → NodesBut T cs cs' → NodesBut T (n :: cs) (n' :: cs')
end

theorem NodeBut.name {n n' : Node} (h : NodeBut T n n') : n.name = n'.name := by cases h <;> rfl

theorem toValue_tell {md md' : ParsedMd} {ε : Type} (h1 : ∀ h m : Str, T.E ((md.fmValue.setKey str!"content" (.str h)).setKey str!"markdown" (.str m))
      ((md'.fmValue.setKey str!"content" (.str h)).setKey str!"markdown" (.str m)))
    (h2 : md.markdownString = md'.markdownString) (h3 : md.html = md'.html) : ResLike (Eq : ε → ε → Prop) T.E (md.toValue) (md'.toValue) := by
  simp only [ParsedMd.toValue, h3, h2]
  cases md'.html with
  | none => exact .panic _
  | some t => exact .ok (h1 _ _)

theorem mdValues_but {cs cs' : List Node} : NodesBut T cs cs' → ResLike Eq (Rows T.E) (mdValues cs) (mdValues cs') := by
  induction cs generalizing cs' with
  | nil => intro h; cases h; exact .ok .nil
  | cons n cs ih =>
    intro h
    cases h with
    | cons h hs =>
      have hs := ih hs
      simp only [mdValues]
      cases h with
      | dir => exact hs
      | file h _ =>
        cases h with
        | html => exact hs
        | markdown h1 h2 h3 h4 _ =>
          exact (toValue_tell h1 h2 h3).bind fun a a' k => hs.bind fun b b' j => .ok (.cons k j)
        | data => exact hs
        | other => exact hs

/-- What is found in two trees. -/
inductive FoundBut (T : Tell) : Option Node → Option Node → Prop
  | none : FoundBut T none none
  | some {n n' : Node} : NodeBut T n n' → FoundBut T (some n) (some n')

theorem findNode_but {cs cs' : List Node} (h : NodesBut T cs cs') (c : Str) :
    FoundBut T (cs.find? fun m => m.name == c) (cs'.find? fun m => m.name == c) := by
  induction cs generalizing cs' with
  | nil => cases h; exact .none
  | cons n cs ih =>
    cases h with
    | cons h hs =>
      simp only [List.find?, ← h.name]
      cases n.name == c with
      | true => exact .some h
      | false => exact ih hs

theorem getComps_but : ∀ (comps : List Comp) {n n' : Node}, NodeBut T n n' → FoundBut T (getComps n comps) (getComps n' comps)
  | [], n, n', h => by simp only [getComps]; exact .some h
  | .normal c :: comps, n, n', h => by
    simp only [getComps]
    cases h with
    | file => exact .none
    | dir h =>
      simp only [Node.children, Option.bind_some]
      have := findNode_but h c
      rename_i cs cs'
      generalize cs.find? (fun m => m.name == c) = o at this
      generalize cs'.find? (fun m => m.name == c) = o' at this
      cases this with
      | none => exact .none
      | some h => exact getComps_but comps h
  | .curDir :: comps, n, n', h => by simp only [getComps]; exact getComps_but comps h
  | .rootDir :: comps, n, n', h => by simp only [getComps]; exact .none
  | .parentDir :: comps, n, n', h => by simp only [getComps]; exact .none

theorem ctx_but {n n' : Node} (h : NodeBut T n n') (df : Str → Str → Option Str) : CtxBut T ⟨n, df⟩ ⟨n', df⟩ := by
  refine ⟨rfl, fun path => ?_⟩
  have := getComps_but (components path) h
  simp only [Node.getAtPath]
  generalize getComps n (components path) = o at this
  generalize getComps n' (components path) = o' at this
  cases this with
  | none => exact .nothing
  | some h =>
    cases h with
    | dir h => exact .dir (mdValues_but h)
    | file h _ =>
      cases h with
      | data h => exact .data h
      | html => exact .text
      | markdown => exact .text
      | other => exact .text

theorem rows_refl : ∀ l : List Value, Rows T.E l l
  | [] => .nil
  | v :: l => .cons (T.refl v) (rows_refl l)

theorem ctx_refl (T : Tell) (cx : Ctx) : CtxBut T cx cx := by
  refine ⟨rfl, fun path => ?_⟩
  generalize seen (cx.input.getAtPath path) = x
  cases x with
  | nothing => exact .nothing
  | data v => exact .data (T.refl v)
  | text => exact .text
  | dir r =>
    refine .dir ?_
    cases r with
    | ok l => exact .ok (rows_refl l)
    | err e => exact .err rfl
    | panic p => exact .panic p

/-! ### Reading -/

section
variable {S : Sys} {plugins : List Plugin} {F : Bytes → Bytes → Parsed → Parsed → Prop} (hF : ∀ {b b' c c'}, F b b' c c' → FileTell T b b' c c')

theorem readAs_json {nm src : Str} {b : Bytes} {c : Parsed} (h : ReadAs S plugins nm src b c) : (∃ v, c = .json v) → str!".json" <:+ nm := by
  rintro ⟨v, rfl⟩
  cases h with
  | json h _ _ =>
    obtain ⟨stem, _, rfl, _⟩ := h
    exact ⟨stem, rfl⟩

include hF
mutual
theorem changed_entry {p : Path} {nm : Str} {e e' : Entry} : Changed S plugins F p nm e e' →
    ∃ n n', readEntry S true plugins (p ++ [nm]) nm e = .ok n ∧ readEntry S true plugins (p ++ [nm]) nm e' = .ok n' ∧ NodeBut T n n'
  | .file h h' hl => by
    simp only [readEntry, readFile, if_true, parseContents_ok.2 h, parseContents_ok.2 h', Res.bind_ok]
    exact ⟨_, _, rfl, rfl, .file (hF hl) (readAs_json h)⟩
  | .dir h => by
    obtain ⟨cs, cs', h1, h2, h3⟩ := changed_entries h
    simp only [readEntry, h1, h2, Res.bind_ok]
    exact ⟨_, _, rfl, rfl, .dir h3⟩
theorem changed_entries {p : Path} {l l' : List (Str × Entry)} : ChangedList S plugins F p l l' →
    ∃ cs cs', readEntries S true plugins p l = .ok cs ∧ readEntries S true plugins p l' = .ok cs' ∧ NodesBut T cs cs'
  | .nil => ⟨[], [], by rw [readEntries], by rw [readEntries], .nil⟩
  | .cons h hs => by
    obtain ⟨n, n', h1, h2, h3⟩ := changed_entry h
    obtain ⟨cs, cs', k1, k2, k3⟩ := changed_entries hs
    simp only [readEntries, h1, h2, k1, k2, Res.bind_ok]
    exact ⟨_, _, rfl, rfl, .cons h3 k3⟩
end

theorem readTree_but {d d' : Entry} {p : Path}
    (h : ∃ l l', d.at p = some (.dir l) ∧ d'.at p = some (.dir l') ∧ ChangedList S plugins F p l l') :
    ResLike Eq (NodeBut T) (readTree S true plugins d p) (readTree S true plugins d' p) := by
  obtain ⟨l, l', h1, h2, h3⟩ := h
  obtain ⟨cs, cs', k1, k2, k3⟩ := changed_entries hF h3
  simp only [readTree, h1, h2, k1, k2, Res.bind_ok]
  cases p.getLast? with
  | none => exact .panic _
  | some nm => exact .ok (.dir k3)
end

/-! ### Building -/

section
variable {cx cx' : Ctx} (hcx : CtxBut T cx cx') (vars : List (Str × Str)) (mode : Str)
include hcx

theorem preprocessMd_but (ext : Ext) (src : Str) (b b' : Bytes) {md md' : ParsedMd} (h1 : ∀ h m : Str, T.E ((md.fmValue.setKey str!"content" (.str h)).setKey str!"markdown" (.str m))
      ((md'.fmValue.setKey str!"content" (.str h)).setKey str!"markdown" (.str m)))
    (h2 : md.markdownString = md'.markdownString) (h4 : md.markdown = md'.markdown) (h5 : ∀ t ∈ md.markdown, SilentTok T t) :
    ResLike Eq (fun m m' => FileTell T b b' (.markdown m) (.markdown m')) (preprocessMd ext cx (baseFrame vars mode) src md)
      (preprocessMd ext cx' (baseFrame vars mode) src md') := by
  have hr := runToks_but hcx h5 (st := ⟨[baseFrame vars mode], []⟩) (st' := ⟨[baseFrame vars mode], []⟩)
    ⟨.cons (.refl _) .nil, rfl⟩
  simp only [preprocessMd, ← h4]
  generalize runToks cx md.markdown ⟨[baseFrame vars mode], []⟩ = r at hr
  generalize runToks cx' md.markdown ⟨[baseFrame vars mode], []⟩ = r' at hr
  cases hr with
  | err h => exact .err h
  | panic p => exact .panic p
  | @ok st st' hst =>
    simp only [Res.bind_ok]
    obtain ⟨stk, secs⟩ := st
    obtain ⟨stk', secs'⟩ := st'
    obtain ⟨hs, _⟩ := hst
    cases hs with
    | nil => exact .err rfl
    | cons hf _ =>
      simp only [hf.name, hf.out]
      split
      · split
        · exact .err rfl
        · exact .ok (.markdown h1 h2 rfl rfl h5)
      · exact .err rfl

mutual
theorem preNode_but (ext : Ext) : ∀ {n n' : Node}, NodeBut T n n' →
    ResLike (Eq : SErr → SErr → Prop) (NodeBut T) (preNode ext cx (baseFrame vars mode) n) (preNode ext cx' (baseFrame vars mode) n')
  | _, _, .file h hj => by
    cases h with
    | html h => simp only [preNode]; exact .ok (.file (.html h) hj)
    | data v => simp only [preNode]; exact .ok (.file (.data v) hj)
    | other => simp only [preNode]; exact .ok (.file .other hj)
    | markdown h1 h2 h3 h4 h5 =>
      simp only [preNode]
      exact ((preprocessMd_but hcx vars mode ext _ _ _ h1 h2 h4 h5).mapErr (D := Eq)
        (fun e e' k => by rw [k])).bind fun a a' k => .ok (.file k nofun)
  | _, _, .dir h => by
    simp only [preNode]
    exact (preNodes_but ext h).bind fun a a' k => .ok (.dir k)
theorem preNodes_but (ext : Ext) : ∀ {cs cs' : List Node}, NodesBut T cs cs' →
    ResLike (Eq : SErr → SErr → Prop) (NodesBut T) (preNodes ext cx (baseFrame vars mode) cs) (preNodes ext cx' (baseFrame vars mode) cs')
  | _, _, .nil => by simp only [preNodes]; exact .ok .nil
  | _, _, .cons h hs => by
    simp only [preNodes]
    exact (preNode_but ext h).bind fun a a' k => (preNodes_but ext hs).bind fun b b' j => .ok (.cons k j)
end

theorem renderOn_but {toks root : List LTok} (ht : ∀ t ∈ toks, SilentTok T t) (hr : ∀ t ∈ root, SilentTok T t) (src : Str) {first first' : Frame}
    (hf : FrameBut T first first') :
    renderOn cx first (baseFrame vars mode) src toks root = renderOn cx' first' (baseFrame vars mode) src toks root := by
  have h1 := runToks_but hcx ht (st := ⟨[first], []⟩) (st' := ⟨[first'], []⟩) ⟨.cons hf .nil, rfl⟩
  simp only [renderOn]
  cases hx : runToks cx toks ⟨[first], []⟩ with
  | err e =>
    rw [hx] at h1
    generalize runToks cx' toks ⟨[first'], []⟩ = y at h1
    cases h1 with
    | err h => rw [h]; rfl
  | panic p =>
    rw [hx] at h1
    generalize runToks cx' toks ⟨[first'], []⟩ = y at h1
    cases h1 with
    | panic p => rfl
  | ok st =>
    have hone := fun f fs => base_left hx (f := f) (fs := fs)
    rw [hx] at h1
    generalize runToks cx' toks ⟨[first'], []⟩ = y at h1
    cases h1 with
    | @ok _ st' hst =>
      simp only [Res.bind_ok]
      obtain ⟨stk, secs⟩ := st
      obtain ⟨stk', secs'⟩ := st'
      obtain ⟨hs, hse⟩ := hst
      cases hs with
      | nil => rfl
      | @cons f f' fs fs' hfl hfs =>
        simp only at hse
        subst hse
        simp only [hfl.name]
        split
        · rename_i hbase
          have hnil : fs = [] := hone f fs rfl (by rw [hfl.name]; exact hbase)
          subst hnil
          cases hfs
          have h2 := runToks_but hcx hr (st := ⟨[baseFrame vars mode], secs⟩) (st' := ⟨[baseFrame vars mode], secs⟩)
            ⟨.cons (.refl _) .nil, rfl⟩
          generalize runToks cx root ⟨[baseFrame vars mode], secs⟩ = r at h2
          generalize runToks cx' root ⟨[baseFrame vars mode], secs⟩ = r' at h2
          cases h2 with
          | err h => rw [h]
          | panic p => rfl
          | @ok a a' h =>
            simp only [Res.bind_ok]
            obtain ⟨stk, s1⟩ := a
            obtain ⟨stk', s1'⟩ := a'
            obtain ⟨h, _⟩ := h
            cases h with
            | nil => rfl
            | cons h _ => simp only [h.out]
        · rfl

/-- The templates in force, which are silent. -/
structure EnvBut (T : Tell) (e e' : Env) : Prop where
  same : e = e'
  root : ∀ t, e.root = some t → ∀ u ∈ t, SilentTok T u
  md : ∀ t, e.md = some t → ∀ u ∈ t, SilentTok T u

omit hcx in
theorem templateToks_but {n n' : Node} (h : NodeBut T n n') :
    templateToks n.parsed = templateToks n'.parsed ∧ ∀ t, templateToks n.parsed = some t → ∀ u ∈ t, SilentTok T u := by
  cases h with
  | dir => exact ⟨rfl, nofun⟩
  | file h _ =>
    cases h with
    | html h => exact ⟨rfl, fun t k => by cases k; exact h⟩
    | markdown => exact ⟨rfl, nofun⟩
    | data => exact ⟨rfl, nofun⟩
    | other => exact ⟨rfl, nofun⟩

omit hcx in
theorem updateEnv_but {cs cs' : List Node} {e e' : Env} (he : EnvBut T e e') (h : NodesBut T cs cs') : EnvBut T (updateEnv e cs) (updateEnv e' cs') := by
  induction cs generalizing cs' e e' with
  | nil => cases h; exact he
  | cons n cs ih =>
    cases h with
    | cons h hs =>
      obtain ⟨h1, h2⟩ := templateToks_but h
      simp only [updateEnv, ← h.name]
      refine ih ?_ hs
      split
      · exact ⟨by rw [h1, he.same], h2, he.md⟩
      · split
        · exact ⟨by rw [h1, he.same], he.root, h2⟩
        · exact he

theorem processFile_but {cfg : Config} (hm : cfg.saveMetadata = false) {e e' : Env} (he : EnvBut T e e') (nm src : Str) {b b' : Bytes} {c c' : Parsed}
    (h : FileTell T b b' c c') (hj : (∃ v, c = .json v) → str!".json" <:+ nm) :
    ResLike Eq (OutLike True) (processFile ⟨cx, baseFrame vars mode, cfg⟩ e nm b c src) (processFile ⟨cx', baseFrame vars mode, cfg⟩ e' nm b' c' src) := by
  obtain ⟨he, hroot, hmd⟩ := he
  subst he
  by_cases ht : nm = str!"root.html" ∨ nm = str!"md.html"
  · have hp : ∀ (cx : Ctx) e b c, processFile ⟨cx, baseFrame vars mode, cfg⟩ e nm b c src = .ok (.file nm b .none none src) := by
      intro cx e b c
      have : processFile ⟨cx, baseFrame vars mode, cfg⟩ e nm b c src =
          .ok (.file nm b .none (if cfg.saveMetadata then c.toJson else none) src) := by
        rcases ht with rfl | rfl <;> rfl
      rw [this, hm]
      rfl
    rw [hp, hp]
    exact .ok (.template _ _ _ _ _ ht)
  · have hif : (nm != str!"root.html" && nm != str!"md.html") = true := by simpa using not_or.1 ht
    unfold processFile processParsed
    simp only [if_pos hif, hm]
    cases h with
    | data v => exact .ok (.data _ _ _ _ _ (by exact trivial) (hj ⟨_, rfl⟩))
    | other => exact .ok (.file ..)
    | html h =>
      simp only [processHtml]
      cases hr : e.root with
      | none => exact .err rfl
      | some t =>
        simp only [renderOn_but hcx vars mode h (hroot t hr) src (.refl (baseFrame vars mode))]
        cases renderOn cx' (baseFrame vars mode) (baseFrame vars mode) src _ t with
        | ok x => exact .ok (.file ..)
        | err x => exact .err rfl
        | panic x => exact .panic _
    | markdown h1 h2 h3 h4 h5 =>
      rename_i md md'
      simp only [processMd]
      cases hr : e.root with
      | none => exact .err rfl
      | some t =>
        cases hu : e.md with
        | none => exact .err rfl
        | some u =>
          have hv := toValue_tell (ε := PErr) h1 h2 h3
          simp only
          generalize (md.toValue : Res PErr Value) = x at hv
          generalize (md'.toValue : Res PErr Value) = x' at hv
          cases hv with
          | err k => exact .err (by rw [k])
          | panic p => exact .panic p
          | @ok v v' hv =>
            simp only [Res.bind_ok, renderOn_but hcx vars mode (hmd u hu) (hroot t hr) src ((FrameBut.refl (baseFrame vars mode)).addVar str!"self" hv)]
            cases renderOn cx' ((baseFrame vars mode).addVar str!"self" v') (baseFrame vars mode) src u t with
            | ok x =>
              simp only [Res.bind_ok]
              cases stripSuffix str!".md" nm with
              | none => exact .panic _
              | some stem => exact .ok (.file ..)
            | err x => exact .err rfl
            | panic x => exact .panic _

mutual
theorem buildNode_but {cfg : Config} (hm : cfg.saveMetadata = false) : ∀ {n n' : Node} {e e' : Env}, EnvBut T e e' → NodeBut T n n' →
    ResLike Eq (OutLike True) (buildNode ⟨cx, baseFrame vars mode, cfg⟩ e n) (buildNode ⟨cx', baseFrame vars mode, cfg⟩ e' n')
  | _, _, _, _, he, .file h hj => by
    simp only [buildNode]
    exact processFile_but hcx vars mode hm he _ _ h hj
  | _, _, _, _, he, .dir h => by
    simp only [buildNode]
    exact (buildNodes_but hm (updateEnv_but he h) h).bind fun a a' k => .ok (.dir _ _ k)
theorem buildNodes_but {cfg : Config} (hm : cfg.saveMetadata = false) : ∀ {cs cs' : List Node} {e e' : Env}, EnvBut T e e' → NodesBut T cs cs' →
    ResLike Eq (OutsLike True) (buildNodes ⟨cx, baseFrame vars mode, cfg⟩ e cs) (buildNodes ⟨cx', baseFrame vars mode, cfg⟩ e' cs')
  | _, _, _, _, _, .nil => by simp only [buildNodes]; exact .ok .nil
  | _, _, _, _, he, .cons h hs => by
    simp only [buildNodes]
    exact (buildNode_but hm he h).bind fun a a' k => (buildNodes_but hm he hs).bind fun b b' j => .ok (.cons k j)
end
end

variable {F : Bytes → Bytes → Parsed → Parsed → Prop} (hF : ∀ {b b' c c'}, F b b' c c' → FileTell T b b' c c')
include hF

theorem projectBuild_but {S : Sys} {d d' : Entry} {s : Project} (hm : s.config.saveMetadata = false)
    (h : ∃ l l', d.at s.dir = some (.dir l) ∧ d'.at s.dir = some (.dir l') ∧ ChangedList S s.plugins F s.dir l l') (mode : Str) :
    ((∃ s1 s1', s.build S d mode = (s1, .ok ()) ∧ s.build S d' mode = (s1', .ok ()) ∧ ProjectLike True s1 s1') ∨
      ∃ s1 s1' r, s.build S d mode = (s1, r) ∧ s.build S d' mode = (s1', r) ∧ ∀ u, r ≠ .ok u) := by
  have hr := readTree_but hF h
  unfold Project.build
  generalize readTree S true s.plugins d s.dir = x at hr
  generalize readTree S true s.plugins d' s.dir = x' at hr
  cases hr with
  | err e => subst e; exact .inr ⟨_, _, _, rfl, rfl, nofun⟩
  | panic p => exact .inr ⟨_, _, _, rfl, rfl, nofun⟩
  | @ok n n' hn =>
    simp only
    have hp := preNode_but (ctx_but hn S.dateFmt) S.vars mode S.ext hn
    generalize preNode S.ext ⟨n, S.dateFmt⟩ _ n = y at hp
    generalize preNode S.ext ⟨n', S.dateFmt⟩ _ n' = y' at hp
    cases hp with
    | err e => subst e; exact .inr ⟨_, _, _, rfl, rfl, nofun⟩
    | panic p => exact .inr ⟨_, _, _, rfl, rfl, nofun⟩
    | @ok m m' hmm =>
      simp only
      have henv : EnvBut T (updateEnv ⟨none, none⟩ (m.children.getD [])) (updateEnv ⟨none, none⟩ (m'.children.getD [])) := by
        cases hmm with
        | file => exact ⟨rfl, nofun, nofun⟩
        | dir h => exact updateEnv_but ⟨rfl, nofun, nofun⟩ h
      have hb := buildNode_but (ctx_but hmm S.dateFmt) S.vars mode (cfg := s.config) hm henv hmm
      generalize buildNode _ _ m = z at hb
      generalize buildNode _ _ m' = z' at hb
      cases hb with
      | err e => subst e; exact .inr ⟨_, _, _, rfl, rfl, nofun⟩
      | panic p => exact .inr ⟨_, _, _, rfl, rfl, nofun⟩
      | ok h => exact .inl ⟨_, _, rfl, rfl, rfl, rfl, .inr ⟨_, _, rfl, rfl, h⟩⟩

/-- A whole build. -/
theorem contextBuild_but {M : Machine} {c : Context} (hpre : c.pre = []) (hpost : c.post = []) (hdir : c.stuart.dir = c.dir ++ [str!"content"])
    (hm : c.stuart.config.saveMetadata = false) (hj : c.stuart.config.saveDataFiles = false) {s s' : Host}
    (hd : ChangedDisks M.sys c.stuart.plugins F c.stuart.dir s.world.disk s'.world.disk) (hf : s.world.faults = s'.world.faults) :
    WorldBut c.stuart.dir (c.build M s).2.1.world (c.build M s').2.1.world ∧ (c.build M s).2.2 = (c.build M s').2.2 := by
  refine contextBuild_alike (J := True) hpre hpost hdir hd.alike hf (Q := Eq) (fun _ => rfl) (fun _ => hj) ?_
  rcases projectBuild_but hF hm hd.content c.mode with ⟨s1, s1', k1, k2, k3⟩ | ⟨s1, s1', r, k1, k2, k3⟩
  · exact .inl ⟨s1, s1', k1, k2, projectBuild_config k1, k3⟩
  · exact .inr ⟨s1, s1', r, r, k1, k2, k3, k3, rfl⟩
end

end Stuart
