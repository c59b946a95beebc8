import Verif.Proof.Rename
import Verif.Proof.Refers
/-
Lemmas: building content that says the same makes the same.
-/
namespace Stuart
open Spec

/-! ### Trees -/

mutual
/-- Two trees of files that say the same. -/
inductive NodeLike : Node → Node → Prop
  | file {nm : Str} {b b' : Bytes} {c c' : Parsed} {m : Option Value} {src : Str} : FileLike b b' c c' →
      NodeLike (.file nm b c m src) (.file nm b' c' m src)
  | dir {nm src : Str} {cs cs' : List Node} : NodesLike cs cs' → NodeLike (.dir nm cs src) (.dir nm cs' src)
inductive NodesLike : List Node → List Node → Prop
  | nil : NodesLike [] []
  | cons {n n' : Node} {cs cs' : List Node} : NodeLike n n' → NodesLike cs cs' → NodesLike (n :: cs) (n' :: cs')
end

theorem NodeLike.name {n n' : Node} (h : NodeLike n n') : n.name = n'.name := by cases h <;> rfl

theorem Spec.FileLike.value {b b' : Bytes} {md md' : ParsedMd} {ε : Type} (h : FileLike b b' (.markdown md) (.markdown md')) :
    (md.toValue : Res ε Value) = md'.toValue := by
  cases h with
  | markdown h1 h2 h3 _ => simp only [ParsedMd.toValue, ParsedMd.fmValue, h1, h2, h3]

theorem mdValues_named {cs cs' : List Node} : NodesLike cs cs' → mdValues cs = mdValues cs' := by
  induction cs generalizing cs' with
  | nil => intro h; cases h; rfl
  | cons n cs ih =>
    intro h
    cases h with
    | cons h hs =>
      simp only [mdValues, ih hs]
      cases h with
      | dir => rfl
      | file h =>
        cases h with
        | html => rfl
        | markdown h1 h2 h3 h4 =>
          have := FileLike.value (ε := ProcErr) (.markdown (b := []) (b' := []) h1 h2 h3 h4)
          simp only [Node.parsed, this]
        | data => rfl
        | other => rfl

/-- What is found in two trees. -/
inductive FoundLike : Option Node → Option Node → Prop
  | none : FoundLike none none
  | some {n n' : Node} : NodeLike n n' → FoundLike (some n) (some n')

theorem findNode_named {cs cs' : List Node} (h : NodesLike cs cs') (c : Str) :
    FoundLike (cs.find? fun m => m.name == c) (cs'.find? fun m => m.name == c) := by
  induction cs generalizing cs' with
  | nil => cases h; exact .none
  | cons n cs ih =>
    cases h with
    | cons h hs =>
      simp only [List.find?, ← h.name]
      cases n.name == c with
      | true => exact .some h
      | false => exact ih hs

theorem getComps_named : ∀ (comps : List Comp) {n n' : Node}, NodeLike n n' → FoundLike (getComps n comps) (getComps n' comps)
  | [], n, n', h => by simp only [getComps]; exact .some h
  | .normal c :: comps, n, n', h => by
    simp only [getComps]
    cases h with
    | file => exact .none
    | dir h =>
      simp only [Node.children, Option.bind_some]
      have := findNode_named h c
      rename_i cs cs'
      generalize cs.find? (fun m => m.name == c) = o at this
      generalize cs'.find? (fun m => m.name == c) = o' at this
      cases this with
      | none => exact .none
      | some h => exact getComps_named comps h
  | .curDir :: comps, n, n', h => by simp only [getComps]; exact getComps_named comps h
  | .rootDir :: comps, n, n', h => by simp only [getComps]; exact .none
  | .parentDir :: comps, n, n', h => by simp only [getComps]; exact .none

theorem ctx_like {n n' : Node} (h : NodeLike n n') (df : Str → Str → Option Str) : CtxLike ⟨n, df⟩ ⟨n', df⟩ := by
  refine ⟨rfl, fun path => ?_⟩
  have := getComps_named (components path) h
  simp only [Node.getAtPath]
  generalize getComps n (components path) = o at this
  generalize getComps n' (components path) = o' at this
  cases this with
  | none => rfl
  | some h =>
    cases h with
    | dir h => simp only [seen, mdValues_named h]
    | file h => cases h <;> rfl

/-! ### Reading -/

section
variable {S : Sys} {plugins : List Plugin}

mutual
theorem retold_entry {p : Path} {nm : Str} {e e' : Entry} : Retold S plugins p nm e e' →
    ∃ n n', readEntry S true plugins (p ++ [nm]) nm e = .ok n ∧ readEntry S true plugins (p ++ [nm]) nm e' = .ok n' ∧ NodeLike n n'
  | .file h h' hl => by
    simp only [readEntry, readFile, if_true, parseContents_ok.2 h, parseContents_ok.2 h', Res.bind_ok]
    exact ⟨_, _, rfl, rfl, .file hl⟩
  | .dir h => by
    obtain ⟨cs, cs', h1, h2, h3⟩ := retold_entries h
    simp only [readEntry, h1, h2, Res.bind_ok]
    exact ⟨_, _, rfl, rfl, .dir h3⟩
theorem retold_entries {p : Path} {l l' : List (Str × Entry)} : RetoldList S plugins p l l' →
    ∃ cs cs', readEntries S true plugins p l = .ok cs ∧ readEntries S true plugins p l' = .ok cs' ∧ NodesLike cs cs'
  | .nil => ⟨[], [], by rw [readEntries], by rw [readEntries], .nil⟩
  | .cons h hs => by
    obtain ⟨n, n', h1, h2, h3⟩ := retold_entry h
    obtain ⟨cs, cs', k1, k2, k3⟩ := retold_entries hs
    simp only [readEntries, h1, h2, k1, k2, Res.bind_ok]
    exact ⟨_, _, rfl, rfl, .cons h3 k3⟩
end

theorem readTree_named {d d' : Entry} {p : Path} (h : RetoldAt S plugins d d' p) :
    ResLike Eq NodeLike (readTree S true plugins d p) (readTree S true plugins d' p) := by
  obtain ⟨l, l', h1, h2, h3⟩ := h
  obtain ⟨cs, cs', k1, k2, k3⟩ := retold_entries h3
  simp only [readTree, h1, h2, k1, k2, Res.bind_ok]
  cases p.getLast? with
  | none => exact .panic _
  | some nm => exact .ok (.dir k3)
end

/-! ### Building -/

/-- Errors of a build about the same. -/
inductive SErrLike : SErr → SErr → Prop
  | same (e : SErr) : SErrLike e e
  | process {N : Str → Str → Prop} {e e' : PErr} : Renames N → PErrLike N e e' → SErrLike (.process e) (.process e')

/-- Results of rendering, under whatever names. -/
def RenderLike {α β : Type} (Q : α → β → Prop) : Res PErr α → Res PErr β → Prop :=
  ResLike (fun e e' => ∃ N, Renames N ∧ PErrLike N e e') Q

theorem base_left {cx : Ctx} {toks : List LTok} {first : Frame} {st : St} (h : runToks cx toks ⟨[first], []⟩ = .ok st) {f : Frame} {fs : List Frame}
    (hs : st.stack = f :: fs) (hb : (f.name == str!"base") = true) : fs = [] := by
  have h1 := (runToks_inv (I := OpenedAbove) (fun s s' hne hi hstep => hi.step hne hstep) _ _ _ _ (Nat.le_refl _) (by simp) (by intro f hf; simp at hf) h).2
  cases fs with
  | nil => rfl
  | cons g gs =>
    have := h1 f (by rw [hs]; simp)
    exact absurd (by simpa using hb) this.ne_base

theorem noPos_like (src : Str) (e : ProcErr) : ∃ N, Renames N ∧ PErrLike N (noPos src e) (noPos src e) := by
  refine ⟨fun a b => a = b ∧ '.' ∉ a, ⟨?_, ?_, ?_, ?_⟩, rfl, .same _⟩
  · rintro a b a' b' ⟨rfl, _⟩ ⟨rfl, _⟩; exact Iff.rfl
  · rintro a b ⟨rfl, h⟩; exact ⟨h, h⟩
  · exact ⟨rfl, by decide⟩
  · exact ⟨rfl, by decide⟩

theorem base_like {N : Str → Str → Prop} (h : Renames N) (vars : List (Str × Str)) (mode : Str) : FrameLike N (baseFrame vars mode) (baseFrame vars mode) :=
  ⟨.same _, .cons (.name h.env) .nil, rfl⟩

theorem self_like {N : Str → Str → Prop} (h : Renames N) (vars : List (Str × Str)) (mode : Str) (v : Value) :
    FrameLike N ((baseFrame vars mode).addVar str!"self" v) ((baseFrame vars mode).addVar str!"self" v) :=
  (base_like h vars mode).addVar (.name h.self) v

section
variable {cx cx' : Ctx} (hcx : CtxLike cx cx') (vars : List (Str × Str)) (mode : Str)
include hcx

theorem preprocessMd_like (ext : Ext) (src : Str) {b b' : Bytes} {md md' : ParsedMd} (h : FileLike b b' (.markdown md) (.markdown md')) :
    RenderLike (fun m m' => FileLike b b' (.markdown m) (.markdown m')) (preprocessMd ext cx (baseFrame vars mode) src md)
      (preprocessMd ext cx' (baseFrame vars mode) src md') := by
  cases h with
  | markdown h1 h2 h3 h4 =>
    obtain ⟨N, hN, ht⟩ := h4
    have hr := runToks_like hN hcx ht (st := ⟨[baseFrame vars mode], []⟩) (st' := ⟨[baseFrame vars mode], []⟩)
      ⟨.cons (base_like hN vars mode) .nil, rfl⟩
    simp only [preprocessMd]
    generalize runToks cx md.markdown ⟨[baseFrame vars mode], []⟩ = r at hr
    generalize runToks cx' md'.markdown ⟨[baseFrame vars mode], []⟩ = r' at hr
    cases hr with
    | err h => exact .err ⟨N, hN, h⟩
    | panic p => exact .panic p
    | @ok st st' hst =>
      simp only [Res.bind_ok]
      obtain ⟨stk, secs⟩ := st
      obtain ⟨stk', secs'⟩ := st'
      obtain ⟨hs, _⟩ := hst
      cases hs with
      | nil => exact .err (noPos_like _ _)
      | cons hf _ =>
        simp only [hf.name.base, hf.out]
        split
        · split
          · exact .err (noPos_like _ _)
          · exact .ok (.markdown h1 h2 rfl ⟨N, hN, ht⟩)
        · exact .err (noPos_like _ _)

mutual
theorem preNode_named (ext : Ext) : ∀ {n n' : Node}, NodeLike n n' →
    ResLike SErrLike NodeLike (preNode ext cx (baseFrame vars mode) n) (preNode ext cx' (baseFrame vars mode) n')
  | _, _, .file h => by
    cases h with
    | html h => simp only [preNode]; exact .ok (.file (.html h))
    | data v => simp only [preNode]; exact .ok (.file (.data v))
    | other => simp only [preNode]; exact .ok (.file .other)
    | markdown h1 h2 h3 h4 =>
      simp only [preNode]
      exact ((preprocessMd_like hcx vars mode ext _ (.markdown h1 h2 h3 h4)).mapErr (D := SErrLike)
        (fun e e' ⟨N, hN, k⟩ => .process hN k)).bind fun a a' k => .ok (.file k)
  | _, _, .dir h => by
    simp only [preNode]
    exact (preNodes_named ext h).bind fun a a' k => .ok (.dir k)
theorem preNodes_named (ext : Ext) : ∀ {cs cs' : List Node}, NodesLike cs cs' →
    ResLike SErrLike NodesLike (preNodes ext cx (baseFrame vars mode) cs) (preNodes ext cx' (baseFrame vars mode) cs')
  | _, _, .nil => by simp only [preNodes]; exact .ok .nil
  | _, _, .cons h hs => by
    simp only [preNodes]
    exact (preNode_named ext h).bind fun a a' k => (preNodes_named ext hs).bind fun b b' j => .ok (.cons k j)
end

theorem renderOn_like {toks toks' root root' : List LTok} (ht : Reworded toks toks') (hr : Reworded root root') (src : Str) {first : Frame}
    (hf : ∀ N, Renames N → FrameLike N first first) :
    RenderLike Eq (renderOn cx first (baseFrame vars mode) src toks root) (renderOn cx' first (baseFrame vars mode) src toks' root') := by
  obtain ⟨N, hN, ht⟩ := ht
  obtain ⟨N', hN', hr⟩ := hr
  have h1 := runToks_like hN hcx ht (st := ⟨[first], []⟩) (st' := ⟨[first], []⟩) ⟨.cons (hf N hN) .nil, rfl⟩
  simp only [renderOn]
  cases hx : runToks cx toks ⟨[first], []⟩ with
  | err e =>
    rw [hx] at h1
    generalize runToks cx' toks' ⟨[first], []⟩ = y at h1
    cases h1 with
    | err h => exact .err ⟨N, hN, h⟩
  | panic p =>
    rw [hx] at h1
    generalize runToks cx' toks' ⟨[first], []⟩ = y at h1
    cases h1 with
    | panic p => exact .panic p
  | ok st =>
    have hone := fun f fs => base_left hx (f := f) (fs := fs)
    rw [hx] at h1
    generalize runToks cx' toks' ⟨[first], []⟩ = y at h1
    cases h1 with
    | @ok _ st' hst =>
      simp only [Res.bind_ok]
      obtain ⟨stk, secs⟩ := st
      obtain ⟨stk', secs'⟩ := st'
      obtain ⟨hs, hse⟩ := hst
      cases hs with
      | nil => exact .err (noPos_like _ _)
      | @cons f f' fs fs' hfl hfs =>
        simp only at hse
        subst hse
        simp only [hfl.name.base]
        split
        · rename_i hbase
          have hnil : fs = [] := hone f fs rfl (by rw [hfl.name.base]; exact hbase)
          subst hnil
          cases hfs
          have h2 := runToks_like hN' hcx hr (st := ⟨[baseFrame vars mode], secs⟩) (st' := ⟨[baseFrame vars mode], secs⟩)
            ⟨.cons (base_like hN' vars mode) .nil, rfl⟩
          generalize runToks cx root ⟨[baseFrame vars mode], secs⟩ = r at h2
          generalize runToks cx' root' ⟨[baseFrame vars mode], secs⟩ = r' at h2
          cases h2 with
          | err h => exact .err ⟨N', hN', h⟩
          | panic p => exact .panic p
          | @ok a a' h =>
            simp only [Res.bind_ok]
            obtain ⟨stk, s1⟩ := a
            obtain ⟨stk', s1'⟩ := a'
            obtain ⟨h, _⟩ := h
            cases h with
            | nil => exact .panic _
            | cons h _ => exact .ok h.out
        · exact .err (noPos_like _ _)

/-- The templates in force. -/
structure EnvLike (e e' : Env) : Prop where
  root : (e.root = none ∧ e'.root = none) ∨ ∃ t t', e.root = some t ∧ e'.root = some t' ∧ Reworded t t'
  md : (e.md = none ∧ e'.md = none) ∨ ∃ t t', e.md = some t ∧ e'.md = some t' ∧ Reworded t t'

omit hcx in
theorem templateToks_like {n n' : Node} (h : NodeLike n n') :
    (templateToks n.parsed = none ∧ templateToks n'.parsed = none) ∨ ∃ t t', templateToks n.parsed = some t ∧ templateToks n'.parsed = some t' ∧ Reworded t t' := by
  cases h with
  | dir => exact .inl ⟨rfl, rfl⟩
  | file h =>
    cases h with
    | html h => exact .inr ⟨_, _, rfl, rfl, h⟩
    | markdown => exact .inl ⟨rfl, rfl⟩
    | data => exact .inl ⟨rfl, rfl⟩
    | other => exact .inl ⟨rfl, rfl⟩

omit hcx in
theorem updateEnv_named {cs cs' : List Node} {e e' : Env} (he : EnvLike e e') (h : NodesLike cs cs') : EnvLike (updateEnv e cs) (updateEnv e' cs') := by
  induction cs generalizing cs' e e' with
  | nil => cases h; exact he
  | cons n cs ih =>
    cases h with
    | cons h hs =>
      simp only [updateEnv, ← h.name]
      refine ih ?_ hs
      split
      · exact ⟨templateToks_like h, he.md⟩
      · split
        · exact ⟨he.root, templateToks_like h⟩
        · exact he

mutual
/-- Two trees to publish: the same, but for templates, and for data if it is not published. -/
inductive OutLike (J : Prop) : Node → Node → Prop
  | file (nm : Str) (b : Bytes) (c : Parsed) (m : Option Value) (src : Str) : OutLike J (.file nm b c m src) (.file nm b c m src)
  | template {nm : Str} (b b' : Bytes) (c : Parsed) (m : Option Value) (src : Str) : nm = str!"root.html" ∨ nm = str!"md.html" →
      OutLike J (.file nm b c m src) (.file nm b' c m src)
  | data {nm : Str} (b b' : Bytes) (c : Parsed) (m : Option Value) (src : Str) : J → str!".json" <:+ nm →
      OutLike J (.file nm b c m src) (.file nm b' c m src)
  | dir (nm src : Str) {cs cs' : List Node} : OutsLike J cs cs' → OutLike J (.dir nm cs src) (.dir nm cs' src)
inductive OutsLike (J : Prop) : List Node → List Node → Prop
  | nil : OutsLike J [] []
  | cons {n n' : Node} {cs cs' : List Node} : OutLike J n n' → OutsLike J cs cs' → OutsLike J (n :: cs) (n' :: cs')
end

omit hcx in
theorem toJson_named {b b' : Bytes} {c c' : Parsed} (h : FileLike b b' c c') : c.toJson = c'.toJson := by
  cases h with
  | html => rfl
  | markdown h1 _ _ _ => simp only [Parsed.toJson, ParsedMd.fmValue, h1]
  | data => rfl
  | other => rfl

theorem processFile_named {cfg : Config} {e e' : Env} (he : EnvLike e e') (nm src : Str) {b b' : Bytes} {c c' : Parsed} (h : FileLike b b' c c') :
    ResLike SErrLike (OutLike False) (processFile ⟨cx, baseFrame vars mode, cfg⟩ e nm b c src) (processFile ⟨cx', baseFrame vars mode, cfg⟩ e' nm b' c' src) := by
  have hj := toJson_named h
  by_cases ht : nm = str!"root.html" ∨ nm = str!"md.html"
  · have hp : ∀ (cx : Ctx) e b c, processFile ⟨cx, baseFrame vars mode, cfg⟩ e nm b c src =
        .ok (.file nm b .none (if cfg.saveMetadata then c.toJson else none) src) := by
      intro cx e b c
      rcases ht with rfl | rfl <;> rfl
    rw [hp, hp, hj]
    exact .ok (.template _ _ _ _ _ ht)
  · have hif : (nm != str!"root.html" && nm != str!"md.html") = true := by simpa using not_or.1 ht
    unfold processFile processParsed
    simp only [if_pos hif, hj]
    cases h with
    | data v => exact .ok (.file ..)
    | other => exact .ok (.file ..)
    | html h =>
      simp only [processHtml]
      rcases he.root with ⟨k1, k2⟩ | ⟨t, t', k1, k2, k3⟩
      · rw [k1, k2]; exact .err (.same _)
      · rw [k1, k2]
        have := (renderOn_like hcx vars mode h k3 src fun N hN => base_like hN vars mode).mapErr (D := SErrLike) (f := SErr.process) (f' := SErr.process)
          (fun e e' ⟨N, hN, k⟩ => .process hN k)
        simp only
        generalize renderOn cx _ _ src _ t = r at this
        generalize renderOn cx' _ _ src _ t' = r' at this
        cases r <;> cases r' <;> simp only [Res.mapErr] at this <;> cases this
        · rename_i h; subst h; exact .ok (.file ..)
        · rename_i h; exact .err h
        · exact .panic _
    | markdown h1 h2 h3 h4 =>
      rename_i md md'
      simp only [processMd]
      rcases he.root with ⟨k1, k2⟩ | ⟨t, t', k1, k2, k3⟩
      · rw [k1, k2]; exact .err (.same _)
      · rw [k1, k2]
        rcases he.md with ⟨j1, j2⟩ | ⟨u, u', j1, j2, j3⟩
        · rw [j1, j2]; exact .err (.same _)
        · rw [j1, j2]
          have hv := FileLike.value (ε := PErr) (.markdown (b := []) (b' := []) h1 h2 h3 h4)
          simp only [hv]
          cases md'.toValue with
          | err e => exact .err (.same _)
          | panic p => exact .panic p
          | ok v =>
            have := (renderOn_like hcx vars mode j3 k3 src fun N hN => self_like hN vars mode v).mapErr (D := SErrLike) (f := SErr.process) (f' := SErr.process)
              (fun e e' ⟨N, hN, k⟩ => .process hN k)
            simp only [Res.bind_ok]
            generalize renderOn cx _ _ src u t = r at this
            generalize renderOn cx' _ _ src u' t' = r' at this
            cases r <;> cases r' <;> simp only [Res.mapErr] at this <;> cases this
            · rename_i h
              subst h
              simp only [Res.bind_ok]
              cases stripSuffix str!".md" nm with
              | none => exact .panic _
              | some stem => exact .ok (.file ..)
            · rename_i h; exact .err h
            · exact .panic _

mutual
theorem buildNode_named {cfg : Config} : ∀ {n n' : Node} {e e' : Env}, EnvLike e e' → NodeLike n n' →
    ResLike SErrLike (OutLike False) (buildNode ⟨cx, baseFrame vars mode, cfg⟩ e n) (buildNode ⟨cx', baseFrame vars mode, cfg⟩ e' n')
  | _, _, _, _, he, .file h => by
    simp only [buildNode]
    exact processFile_named hcx vars mode he _ _ h
  | _, _, _, _, he, .dir h => by
    simp only [buildNode]
    exact (buildNodes_named (updateEnv_named he h) h).bind fun a a' k => .ok (.dir _ _ k)
theorem buildNodes_named {cfg : Config} : ∀ {cs cs' : List Node} {e e' : Env}, EnvLike e e' → NodesLike cs cs' →
    ResLike SErrLike (OutsLike False) (buildNodes ⟨cx, baseFrame vars mode, cfg⟩ e cs) (buildNodes ⟨cx', baseFrame vars mode, cfg⟩ e' cs')
  | _, _, _, _, _, .nil => by simp only [buildNodes]; exact .ok .nil
  | _, _, _, _, he, .cons h hs => by
    simp only [buildNodes]
    exact (buildNode_named he h).bind fun a a' k => (buildNodes_named he hs).bind fun b b' j => .ok (.cons k j)
end
end

end Stuart
