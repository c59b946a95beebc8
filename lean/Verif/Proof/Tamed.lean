import Verif.Proof.Single
/-
If a template without loops within loops renders, then in its run no loop was empty and no branch that was not taken held a block.
-/
namespace Stuart
open Spec

/-- What closes the blocks of a template. -/
def Tpl.closers : Tpl → List Closer
  | .nil => []
  | .leaf _ _ next => closers next
  | .section_ _ _ l body next => .sec l :: (closers body ++ closers next)
  | .loop _ _ _ body next => .word str!"for" :: (closers body ++ closers next)
  | .if_ _ _ test thn next => .word test.word :: (closers thn ++ closers next)
  | .ifElse _ _ _ test thn els next => .word test.word :: (closers thn ++ closers els ++ closers next)

/-- None of the blocks of a template closes the frame. -/
def Shut (n : Str) (tpl : Tpl) : Prop := ∀ c ∈ Tpl.closers tpl, ¬ Fits n c

theorem fits_colon {n : Str} (h : ':' ∉ n) (c : Closer) : ¬ Fits n c := by
  intro hf
  cases c with
  | sec l => exact h (by rw [hf]; simp)
  | word w =>
    obtain ⟨t, rfl⟩ := List.isPrefixOf_iff_prefix.1 hf
    exact h (by simp)

theorem for_not_begin (v l : Str) : ¬ Fits (str!"for:" ++ v) (.sec l) := by simp [Fits]

theorem for_not_if (v : Str) (t : Test) : ¬ Fits (str!"for:" ++ v) (.word t.word) := by
  cases t with
  | defined => simp [Fits, Test.word, List.isPrefixOf]
  | cmp op => cases op <;> simp [Fits, Test.word, List.isPrefixOf]

theorem shut_for (v : Str) : ∀ tpl : Tpl, tpl.NoLoops → Shut (str!"for:" ++ v) tpl
  | .nil, _ => nofun
  | .leaf _ _ next, h => shut_for v next h
  | .section_ _ _ l body next, h => by
    intro c hc
    simp only [Tpl.closers, List.mem_cons, List.mem_append] at hc
    rcases hc with rfl | hc | hc
    · exact for_not_begin v l
    · exact shut_for v body h.1 c hc
    · exact shut_for v next h.2 c hc
  | .loop .., h => h.elim
  | .if_ _ _ t thn next, h => by
    intro c hc
    simp only [Tpl.closers, List.mem_cons, List.mem_append] at hc
    rcases hc with rfl | hc | hc
    · exact for_not_if v t
    · exact shut_for v thn h.1 c hc
    · exact shut_for v next h.2 c hc
  | .ifElse _ _ _ t thn els next, h => by
    intro c hc
    simp only [Tpl.closers, List.mem_cons, List.mem_append] at hc
    rcases hc with rfl | (hc | hc) | hc
    · exact for_not_if v t
    · exact shut_for v thn h.1 c hc
    · exact shut_for v els h.2.1 c hc
    · exact shut_for v next h.2.2 c hc

theorem noLoops_single : ∀ tpl : Tpl, tpl.NoLoops → tpl.Single
  | .nil, _ => trivial
  | .leaf _ _ next, h => noLoops_single next h
  | .section_ _ _ _ body next, h => ⟨noLoops_single body h.1, noLoops_single next h.2⟩
  | .loop .., h => h.elim
  | .if_ _ _ _ thn next, h => ⟨noLoops_single thn h.1, noLoops_single next h.2⟩
  | .ifElse _ _ _ _ thn els next, h => ⟨noLoops_single thn h.1, noLoops_single els h.2.1, noLoops_single next h.2.2⟩

theorem pending_tpl {n : Str} : ∀ tpl : Tpl, tpl.WF → Shut n tpl → ∀ {rest L}, Pending n rest L → Pending n (tpl.toks ++ rest) L
  | .nil, _, _, _, _, h => h
  | .leaf _ _ next, hw, hs, _, _, h => .leaf hw.1 (pending_tpl next hw.2 hs h)
  | .section_ o c l body next, hw, hs, rest, L, h => by
    have e : (Tpl.section_ o c l body next).toks ++ rest = o.tok (.func (.begin_ l true)) ::
        (body.toks ++ (c.tok (.func (.end_ l true)) :: (next.toks ++ rest))) := by simp [Tpl.toks]
    rw [e]
    exact .open_ (.sec l) (hs _ (by simp [Tpl.closers])) (pending_tpl body hw.1 (fun x hx => hs x (by simp [Tpl.closers, hx]))
      (.close rfl (pending_tpl next hw.2 (fun x hx => hs x (by simp [Tpl.closers, hx])) h)))
  | .loop o c fn body next, hw, hs, rest, L, h => by
    have e : (Tpl.loop o c fn body next).toks ++ rest = o.tok (.func (.for_ fn)) ::
        (body.toks ++ (c.tok (.func (.end_ str!"for" false)) :: (next.toks ++ rest))) := by simp [Tpl.toks]
    rw [e]
    exact .open_ (.loop fn) (hs _ (by simp [Tpl.closers])) (pending_tpl body hw.1 (fun x hx => hs x (by simp [Tpl.closers, hx]))
      (.close rfl (pending_tpl next hw.2 (fun x hx => hs x (by simp [Tpl.closers, hx])) h)))
  | .if_ o c test thn next, hw, hs, rest, L, h => by
    have e : (Tpl.if_ o c test thn next).toks ++ rest = o.tok (.func test.fn) ::
        (thn.toks ++ (c.tok (.func (.end_ test.word false)) :: (next.toks ++ rest))) := by simp [Tpl.toks]
    rw [e]
    exact .open_ (.test test) (hs _ (by simp [Tpl.closers])) (pending_tpl thn hw.1 (fun x hx => hs x (by simp [Tpl.closers, hx]))
      (.close rfl (pending_tpl next hw.2 (fun x hx => hs x (by simp [Tpl.closers, hx])) h)))
  | .ifElse o m c test thn els next, hw, hs, rest, L, h => by
    have e : (Tpl.ifElse o m c test thn els next).toks ++ rest = o.tok (.func test.fn) ::
        (thn.toks ++ (m.tok (.func .else_) :: (els.toks ++
          (c.tok (.func (.end_ test.word false)) :: (next.toks ++ rest))))) := by simp [Tpl.toks]
    rw [e]
    exact .open_ (.test test) (hs _ (by simp [Tpl.closers])) (pending_tpl thn hw.1 (fun x hx => hs x (by simp [Tpl.closers, hx]))
      (.else_ rfl (pending_tpl els hw.2.1 (fun x hx => hs x (by simp [Tpl.closers, hx]))
        (.close rfl (pending_tpl next hw.2.2 (fun x hx => hs x (by simp [Tpl.closers, hx])) h)))))

/-- The frames above these are sections. -/
def SectionsOver (us : List Str) (st : St) : Prop := ∃ bs, st.names = bs ++ us ∧ ∀ b ∈ bs, str!"begin:" <+: b

theorem SectionsOver.inBranch {us : List Str} {st : St} (h : SectionsOver us st) : InBranch (us.length - 1) true st := by
  obtain ⟨bs, h1, h2⟩ := h
  exact ⟨bs, us, h1, by omega, h2, nofun⟩

theorem SectionsOver.names {us : List Str} {st st' : St} (h : SectionsOver us st) (hn : st'.names = st.names) : SectionsOver us st' := by
  obtain ⟨bs, h1, h2⟩ := h
  exact ⟨bs, hn.trans h1, h2⟩

/-- The names after a conditional. -/
theorem branch_names {cx : Ctx} {eof : PErr} {c : Bool} {rest r : List LTok} {st st' : St} {up ms : List Str} {m : Str}
    (hn : st.names = up ++ m :: ms) (he : branch cx eof (ms.length + 1) c rest st = .ok (r, st')) : st'.names = m :: ms := by
  obtain ⟨stk, secs⟩ := st
  simp only [St.names] at hn
  obtain ⟨u, v, rfl, h1, h2⟩ := List.map_eq_append_iff.1 hn
  obtain ⟨g, gs, rfl, h3, h4⟩ := List.map_eq_cons_iff.1 h2
  subst h4
  rw [List.length_map] at he
  obtain ⟨o, ss, rfl⟩ := ifLoop_above (exec_steps cx) eof g gs secs _ _ _ _ _ _ ⟨u, [], [], by simp [Frame.emit], by simp⟩ he
  simp [St.names, Frame.emit, ← h3]

/-- A branch that is not taken and holds a block. -/
theorem skip_short {cx : Ctx} {n : Str} {ns : List Str} (eof : PErr) : ∀ tpl : Tpl, tpl.WF → Shut n tpl → ¬ tpl.Flat → ∀ rest st r st' Ns L,
    st.names = Ns ++ n :: ns → AllFit Ns L → Pending n rest L → (∀ c ∈ L, ¬ Fits n c) → st.stack ≠ [] →
    branch cx eof (st.stack.length - 1) false (tpl.toks ++ rest) st = .ok (r, st') → Short n ns r st' := by
  have step : ∀ (t : LTok) (ts : List LTok) (st : St) (m : Option Str), tokName t = .ok m → m ≠ some str!"else" → m ≠ some str!"end" →
      st.stack ≠ [] → branch cx eof (st.stack.length - 1) false (t :: ts) st = branch cx eof (st.stack.length - 1) false ts st := by
    intro t ts st m h1 h2 h3 h4
    have hl : 0 < st.stack.length := List.length_pos_iff.2 h4
    rw [branch_eq, if_neg (by omega)]
    have e1 : (m == some str!"else") = false := by simpa using h2
    have e2 : (m == some str!"end") = false := by simpa using h3
    simp only [h1, Res.bind_ok, e1, e2, Bool.false_or, Bool.or_false, Bool.false_and, Bool.and_false, Bool.false_eq_true, if_false]
  have opener : ∀ (t : LTok) (c : Closer) (ts : List LTok) (st : St) r st' Ns L, OpensFor t.inner c → ¬ Fits n c → Pending n ts (c :: L) →
      st.names = Ns ++ n :: ns → AllFit Ns L → (∀ c ∈ L, ¬ Fits n c) → st.stack ≠ [] →
      branch cx eof (st.stack.length - 1) false (t :: ts) st = .ok (r, st') → Short n ns r st' := by
    intro t c ts st r st' Ns L ho hf hp hn ha hL hne he
    obtain ⟨m, h1, h2, h3⟩ := opens_name ho
    rw [step t ts st m h1 h2 h3 hne] at he
    have hl : 0 < st.stack.length := List.length_pos_iff.2 hne
    refine branch_short (exec_short cx _) eof _ _ _ _ _ _ _ (Nat.le_refl _) (Nat.le_refl _)
      ⟨[], _, rfl, by simp only [St.names, List.length_map]; omega, nofun, fun _ => rfl⟩
      ⟨Ns, L, c :: L, hn, ha, List.sublist_cons_self _ _, by simp, hp, fun x hx => ?_⟩ he
    rcases List.mem_cons.1 hx with rfl | hx
    · exact hf
    · exact hL x hx
  intro tpl
  induction tpl with
  | nil => intro _ _ hf; exact absurd trivial hf
  | leaf a t next ih =>
    intro hw hs hf rest st r st' Ns L hn ha hp hL hne he
    obtain ⟨m, h1, h2, h3⟩ := plain_name (t := a.tok t) hw.1
    rw [Tpl.toks, List.cons_append, step _ _ _ m h1 h2 h3 hne] at he
    exact ih hw.2 hs hf rest st r st' Ns L hn ha hp hL hne he
  | section_ o c l body next _ _ =>
    intro hw hs hf rest st r st' Ns L hn ha hp hL hne he
    have e : (Tpl.section_ o c l body next).toks ++ rest = o.tok (.func (.begin_ l true)) ::
        (body.toks ++ (c.tok (.func (.end_ l true)) :: (next.toks ++ rest))) := by simp [Tpl.toks]
    rw [e] at he
    exact opener _ _ _ _ _ _ Ns L (.sec l) (hs _ (by simp [Tpl.closers])) (pending_tpl body hw.1 (fun x hx => hs x (by simp [Tpl.closers, hx]))
      (.close rfl (pending_tpl next hw.2 (fun x hx => hs x (by simp [Tpl.closers, hx])) hp))) hn ha hL hne he
  | loop o c fn body next _ _ =>
    intro hw hs hf rest st r st' Ns L hn ha hp hL hne he
    have e : (Tpl.loop o c fn body next).toks ++ rest = o.tok (.func (.for_ fn)) ::
        (body.toks ++ (c.tok (.func (.end_ str!"for" false)) :: (next.toks ++ rest))) := by simp [Tpl.toks]
    rw [e] at he
    exact opener _ _ _ _ _ _ Ns L (.loop fn) (hs _ (by simp [Tpl.closers])) (pending_tpl body hw.1 (fun x hx => hs x (by simp [Tpl.closers, hx]))
      (.close rfl (pending_tpl next hw.2 (fun x hx => hs x (by simp [Tpl.closers, hx])) hp))) hn ha hL hne he
  | if_ o c test thn next _ _ =>
    intro hw hs hf rest st r st' Ns L hn ha hp hL hne he
    have e : (Tpl.if_ o c test thn next).toks ++ rest = o.tok (.func test.fn) ::
        (thn.toks ++ (c.tok (.func (.end_ test.word false)) :: (next.toks ++ rest))) := by simp [Tpl.toks]
    rw [e] at he
    exact opener _ _ _ _ _ _ Ns L (.test test) (hs _ (by simp [Tpl.closers])) (pending_tpl thn hw.1 (fun x hx => hs x (by simp [Tpl.closers, hx]))
      (.close rfl (pending_tpl next hw.2 (fun x hx => hs x (by simp [Tpl.closers, hx])) hp))) hn ha hL hne he
  | ifElse o m c test thn els next _ _ _ =>
    intro hw hs hf rest st r st' Ns L hn ha hp hL hne he
    have e : (Tpl.ifElse o m c test thn els next).toks ++ rest = o.tok (.func test.fn) ::
        (thn.toks ++ (m.tok (.func .else_) :: (els.toks ++
          (c.tok (.func (.end_ test.word false)) :: (next.toks ++ rest))))) := by simp [Tpl.toks]
    rw [e] at he
    exact opener _ _ _ _ _ _ Ns L (.test test) (hs _ (by simp [Tpl.closers])) (pending_tpl thn hw.1 (fun x hx => hs x (by simp [Tpl.closers, hx]))
      (.else_ rfl (pending_tpl els hw.2.1 (fun x hx => hs x (by simp [Tpl.closers, hx]))
        (.close rfl (pending_tpl next hw.2.2 (fun x hx => hs x (by simp [Tpl.closers, hx])) hp))))) hn ha hL hne he

/-- What a template needs to be in order to be `Tame`. -/
def Tamed (cx : Ctx) (tpl : Tpl) : Prop :=
  ∀ (n : Str) (ns : List Str), Shut n tpl → ∀ (α : Type) (h : Nat) (K : List LTok → St → Res PErr α), Consumes cx h K →
    ∀ us : List Str, us.length = h + 1 → (∀ rest st a, Short n ns rest st → SectionsOver us st → K rest st ≠ .ok a) →
    ∀ (f : Frame) (fs : List Frame) secs rest Ns L a, SectionsOver us ⟨f :: fs, secs⟩ → (f :: fs).map (·.name) = Ns ++ n :: ns → AllFit Ns L →
      Pending n rest L → (∀ c ∈ L, ¬ Fits n c) → K (tpl.toks ++ rest) ⟨f :: fs, secs⟩ = .ok a →
      tpl.Tame cx (f.vars :: fs.map (·.vars)) secs

theorem sectionsOver_height {us : List Str} {h : Nat} {f : Frame} {fs : List Frame} {secs : Sections} (hu : us.length = h + 1)
    (hb : SectionsOver us ⟨f :: fs, secs⟩) : h ≤ fs.length := by
  obtain ⟨bs, h1, _⟩ := hb
  have := congrArg List.length h1
  simp only [St.names, List.map_cons, List.length_cons, List.length_map, List.length_append, hu] at this
  omega

/-- A conditional that is being read, and what comes after it. -/
def behind {α : Type} (cx : Ctx) (eof : PErr) (h : Nat) (K : List LTok → St → Res PErr α) (ts : List LTok) (st : St) : Res PErr α :=
  (branch cx eof h true ts st).bind fun r => K r.1 r.2

theorem behind_consumes {α : Type} (cx : Ctx) (eof : PErr) (h : Nat) (K : List LTok → St → Res PErr α) :
    Consumes cx h (behind cx eof h K) := by
  intro t ts st n hh h1 h2
  unfold behind
  rw [branch_consumes cx eof h t ts st n hh h1 h2, Res.bind_bind]

theorem behind_doomed {α : Type} {cx : Ctx} {eof : PErr} {n : Str} {ns : List Str} {K : List LTok → St → Res PErr α} {us : List Str}
    (hd : ∀ rest st a, Short n ns rest st → SectionsOver us st → K rest st ≠ .ok a) {w : Str} {f : Frame} {fs : List Frame} {secs : Sections}
    (hb : SectionsOver us ⟨f :: fs, secs⟩) :
    ∀ rest st a, Short n ns rest st → SectionsOver (w :: (f :: fs).map (·.name)) st → behind cx eof (fs.length + 1) K rest st ≠ .ok a := by
  intro rest st a hs hu he
  obtain ⟨⟨r, s⟩, h1, h2⟩ := Res.bind_eq_ok.1 he
  refine hd _ _ _ (branch_short (exec_short cx _) eof _ _ _ _ _ _ _ (Nat.le_refl _) (Nat.le_refl _) ?_ hs h1) ?_ h2
  · have := hu.inBranch
    simpa using this
  · obtain ⟨bs, k1, _⟩ := hu
    refine hb.names ?_
    refine branch_names (m := f.name) (ms := fs.map (·.name)) (up := bs ++ [w]) ?_ (by rw [List.length_map]; exact h1)
    rw [k1]
    simp

/-- Every iteration of a loop that is read is `Tame`. -/
theorem iter_tamed {cx : Ctx} {body : Tpl} (hw : body.WF) (hl : body.NoLoops) (ih : Tamed cx body) (eof : PErr) (c : At) (var : Str)
    (R : List LTok) (fs : List Frame) : ∀ (its : List Value) (f : Frame) (secs : Sections) (rest : List LTok) a,
      iter cx eof var (body.toks ++ c.tok (.func (.end_ str!"for" false)) :: R) its rest ⟨f :: fs, secs⟩ = .ok a →
      eachTame (body.eval cx) (body.Tame cx) var (f.vars :: fs.map (·.vars)) its secs
  | [], _, _, _, _, _ => trivial
  | v :: vs, f, secs, rest, a, he => by
    rw [iter_cons] at he
    obtain ⟨⟨r1, s1⟩, h1, h2⟩ := Res.bind_eq_ok.1 he
    simp only [List.length_cons] at h1
    have ht : body.Tame cx ([(var, v)] :: f.vars :: fs.map (·.vars)) secs :=
      ih (str!"for:" ++ var) ((f :: fs).map (·.name)) (shut_for var body hl) _ (fs.length + 1) _ (loop_consumes cx eof (fs.length + 1))
        ((str!"for:" ++ var) :: (f :: fs).map (·.name)) (by simp)
        (fun rest st a hs _ => by
          have := loop_doomed cx eof rest st hs a
          simpa using this)
        ((Frame.new (str!"for:" ++ var)).addVar var v) (f :: fs) secs _ [] [] _ ⟨[], rfl, nofun⟩ rfl .nil .any nofun h1
    refine ⟨ht, fun r hr => ?_⟩
    have hb := tpl_means cx body hw _ (fs.length + 1) _ (loop_consumes cx eof (fs.length + 1))
      ((Frame.new (str!"for:" ++ var)).addVar var v) (f :: fs) secs
      (c.tok (.func (.end_ str!"for" false)) :: R) (by simp) ht
    rw [hb] at h1
    have hv : ((Frame.new (str!"for:" ++ var)).addVar var v).vars = [(var, v)] := rfl
    rw [hv, List.map_cons, hr, Res.bind_ok] at h1
    have hn : startsWith (str!"for" ++ [':'])
        (grown ((Frame.new (str!"for:" ++ var)).addVar var v) r.vars r.out).name = true :=
      isPrefixOf_append_self str!"for:" var
    rw [loop_eq, if_neg (by simp)] at h1
    simp only at h1
    rw [exec_end cx c _ R _ f fs _ hn] at h1
    simp only [Res.bind_ok] at h1
    rw [loop_eq, if_pos (by simp)] at h1
    simp only [Res.ok.injEq, Prod.mk.injEq] at h1
    have ho : (grown ((Frame.new (str!"for:" ++ var)).addVar var v) r.vars r.out).out = r.out := by
      simp [grown, Frame.addVar, Frame.new]
    rw [ho, emit_grown] at h1
    obtain ⟨rfl, rfl⟩ := h1
    have := iter_tamed hw hl ih eof c var R fs vs (grown f [] r.out) (secs ++ r.secs) R a h2
    simpa [grown] using this

theorem grown_names (f : Frame) (fs : List Frame) (vs : List (Str × Value)) (b : Bytes) (secs secs' : Sections) :
    St.names ⟨grown f vs b :: fs, secs⟩ = St.names ⟨f :: fs, secs'⟩ := rfl

theorem grown_vars (f : Frame) (b : Bytes) : (grown f [] b).vars = f.vars := by simp [grown]

theorem tpl_tamed (cx : Ctx) : ∀ tpl : Tpl, tpl.WF → tpl.Single → Tamed cx tpl
  | .nil, _, _ => fun _ _ _ _ _ _ _ _ _ _ _ _ _ _ _ _ _ _ _ _ _ _ _ => trivial
  | .leaf a t next, hw, hs => by
    intro n ns hsh α h K hK us hu hd f fs secs rest Ns L x hb hn ha hp hL he r hr
    obtain ⟨m, h1, h2, _⟩ := plain_name (t := a.tok t) hw.1
    have hl := sectionsOver_height hu hb
    rw [Tpl.toks, List.cons_append, hK _ _ _ m (by simp; omega) h1 h2, leaf_exec cx _ hw.1] at he
    have hr' : yields cx (f.vars :: fs.map (·.vars)) secs (a.tok t).inner = .ok r := hr
    rw [hr'] at he
    simp only [Res.mapErr_ok, Res.bind_ok] at he
    have := tpl_tamed cx next hw.2 hs n ns hsh α h K hK us hu hd (grown f r.vars r.out) fs secs rest Ns L x (hb.names rfl) hn ha hp hL he
    rw [leaf_secs hr, List.append_nil]
    exact this
  | .section_ o c l body next, hw, hs => by
    intro n ns hsh α h K hK us hu hd f fs secs rest Ns L x hb hn ha hp hL he
    have hl := sectionsOver_height hu hb
    have e : (Tpl.section_ o c l body next).toks ++ rest = o.tok (.func (.begin_ l true)) ::
        (body.toks ++ (c.tok (.func (.end_ l true)) :: (next.toks ++ rest))) := by simp [Tpl.toks]
    have sB : Shut n body := fun x hx => hsh x (by simp [Tpl.closers, hx])
    have sN : Shut n next := fun x hx => hsh x (by simp [Tpl.closers, hx])
    have sC : ¬ Fits n (.sec l) := hsh _ (by simp [Tpl.closers])
    rw [e, hK _ _ _ (some str!"begin") (by simp; omega) rfl (by simp), begin_exec cx _ _ rfl, Res.bind_ok] at he
    have ht : body.Tame cx ([] :: f.vars :: fs.map (·.vars)) secs := by
      refine tpl_tamed cx body hw.1 hs.1 n ns sB α h K hK us hu hd (Frame.new (str!"begin:" ++ l)) (f :: fs) secs _
        ((str!"begin:" ++ l) :: Ns) (.sec l :: L) x ?_ ?_ (.cons rfl ha) (.close rfl (pending_tpl next hw.2 sN hp)) ?_ he
      · obtain ⟨bs, k1, k2⟩ := hb
        refine ⟨(str!"begin:" ++ l) :: bs, ?_, fun b hb => ?_⟩
        · show _ :: St.names ⟨f :: fs, secs⟩ = _
          rw [k1]; rfl
        · rcases List.mem_cons.1 hb with rfl | hb
          · exact List.prefix_append _ _
          · exact k2 b hb
      · show _ :: (f :: fs).map (·.name) = _
        rw [hn]; rfl
      · intro y hy
        rcases List.mem_cons.1 hy with rfl | hy
        · exact sC
        · exact hL y hy
    refine ⟨ht, fun r hr => ?_⟩
    rw [tpl_means cx body hw.1 _ h K hK (Frame.new (str!"begin:" ++ l)) (f :: fs) secs _ (by simp; omega) ht] at he
    have hr' : body.eval cx ((Frame.new (str!"begin:" ++ l)).vars :: (f :: fs).map (·.vars)) secs = .ok r := hr
    rw [hr', Res.bind_ok, hK _ _ _ (some str!"end") (by simp; omega) rfl (by simp), exec_endSection cx c l _ _ f fs _ rfl] at he
    simp only [Res.bind_ok] at he
    have ho : (grown (Frame.new (str!"begin:" ++ l)) r.vars r.out).out = r.out := by simp [grown, Frame.new]
    rw [ho, emit_grown, List.append_assoc] at he
    have := tpl_tamed cx next hw.2 hs.2 n ns sN α h K hK us hu hd (grown f [] r.out) fs _ rest Ns L x (hb.names rfl) hn ha hp hL he
    rw [grown_vars] at this
    exact this
  | .loop o c fn body next, hw, hs => by
    intro n ns hsh α h K hK us hu hd f fs secs rest Ns L x hb hn ha hp hL he its hits
    have hl := sectionsOver_height hu hb
    have e : (Tpl.loop o c fn body next).toks ++ rest = o.tok (.func (.for_ fn)) ::
        (body.toks ++ (c.tok (.func (.end_ str!"for" false)) :: (next.toks ++ rest))) := by simp [Tpl.toks]
    have sB : Shut n body := fun x hx => hsh x (by simp [Tpl.closers, hx])
    have sN : Shut n next := fun x hx => hsh x (by simp [Tpl.closers, hx])
    have sC : ¬ Fits n (.word str!"for") := hsh _ (by simp [Tpl.closers])
    have sL : ∀ y ∈ Closer.word str!"for" :: L, ¬ Fits n y := by
      intro y hy
      rcases List.mem_cons.1 hy with rfl | hy
      · exact sC
      · exact hL y hy
    rw [e, hK _ _ _ (some str!"for") (by simp; omega) rfl (by simp), exec_for cx _ _ _ fn rfl] at he
    have hi := items_arrange cx fn (f :: fs)
    rw [List.map_cons, hits] at hi
    simp only at he
    cases hf : forItems cx fn (f :: fs) with
    | err e => rw [hf] at hi; cases hi
    | panic p => rw [hf] at hi; cases hi
    | ok l =>
      rw [hf] at hi he
      simp only [Res.bind_ok, Res.ok.injEq] at hi
      subst hi
      simp only [Res.mapErr_ok, Res.bind_ok] at he
      obtain ⟨⟨r1, s1⟩, h1, h2⟩ := Res.bind_eq_ok.1 he
      have hne : arrange fn l ≠ [] := by
        intro hnil
        rw [hnil, iter_nil] at h1
        simp only [Res.ok.injEq, Prod.mk.injEq] at h1
        obtain ⟨rfl, rfl⟩ := h1
        exact hd _ ⟨f :: fs, secs⟩ _ ⟨Ns, L, .word str!"for" :: L, hn, ha, List.sublist_cons_self _ _, by simp,
          pending_tpl body hw.1 sB (.close rfl (pending_tpl next hw.2 sN hp)), sL⟩ hb h2
      have ht := iter_tamed hw.1 hs.1 (tpl_tamed cx body hw.1 (noLoops_single _ hs.1)) _ c fn.var _ fs _ f secs _ _ h1
      refine ⟨hne, ht, fun r hr => ?_⟩
      rw [iter_means (tpl_means cx body hw.1) _ c fn.var _ fs _ f secs _ ht, hr, Res.bind_ok, if_neg hne] at h1
      simp only [Res.ok.injEq, Prod.mk.injEq] at h1
      obtain ⟨rfl, rfl⟩ := h1
      have := tpl_tamed cx next hw.2 hs.2 n ns sN α h K hK us hu hd (grown f [] r.1) fs _ rest Ns L x (hb.names rfl) hn ha hp hL h2
      rw [grown_vars] at this
      exact this
  | .if_ o c test thn next, hw, hs => by
    intro n ns hsh α h K hK us hu hd f fs secs rest Ns L x hb hn ha hp hL he
    have hl := sectionsOver_height hu hb
    have e : (Tpl.if_ o c test thn next).toks ++ rest = o.tok (.func test.fn) ::
        (thn.toks ++ (c.tok (.func (.end_ test.word false)) :: (next.toks ++ rest))) := by simp [Tpl.toks]
    have sB : Shut n thn := fun x hx => hsh x (by simp [Tpl.closers, hx])
    have sN : Shut n next := fun x hx => hsh x (by simp [Tpl.closers, hx])
    have sC : ¬ Fits n (.word test.word) := hsh _ (by simp [Tpl.closers])
    have sL : ∀ y ∈ Closer.word test.word :: L, ¬ Fits n y := by
      intro y hy
      rcases List.mem_cons.1 hy with rfl | hy
      · exact sC
      · exact hL y hy
    have hn' : (Frame.new (testFrame test) :: f :: fs).map (·.name) = testFrame test :: Ns ++ n :: ns := by
      show _ :: (f :: fs).map (·.name) = _
      rw [hn]; rfl
    have pC : Pending n (c.tok (.func (.end_ test.word false)) :: (next.toks ++ rest)) (.word test.word :: L) :=
      .close rfl (pending_tpl next hw.2 sN hp)
    have hword := testFrame_word test
    have hfit : AllFit (testFrame test :: Ns) (.word test.word :: L) := .cons hword ha
    obtain ⟨m, hm1, hm2⟩ := test_name o test
    rw [e, hK _ _ _ m (by simp; omega) hm1 hm2, exec_test] at he
    simp only [List.map_cons, List.length_cons] at he
    constructor
    · intro hb1
      rw [hb1] at he
      simp only [Res.bind_ok, Res.mapErr_ok] at he
      have ht : thn.Tame cx ([] :: f.vars :: fs.map (·.vars)) secs :=
        tpl_tamed cx thn hw.1 hs.1 n ns sB α (fs.length + 1) _ (behind_consumes cx _ _ K) (testFrame test :: (f :: fs).map (·.name)) (by simp)
          (behind_doomed hd hb) (Frame.new (testFrame test)) (f :: fs) secs _ _ _ x ⟨[], rfl, nofun⟩ hn' hfit pC sL he
      refine ⟨ht, fun r hr => ?_⟩
      rw [tpl_means cx thn hw.1 _ (fs.length + 1) _ (branch_consumes cx _ _) (Frame.new (testFrame test)) (f :: fs)
          secs _ (by simp) ht] at he
      have hr' : thn.eval cx ((Frame.new (testFrame test)).vars :: (f :: fs).map (·.vars)) secs = .ok r := hr
      rw [hr', Res.bind_ok, branch_end cx _ true c _ _ _ f fs _ (by exact hword)] at he
      simp only [Res.bind_ok] at he
      have ho : (grown (Frame.new (testFrame test)) r.vars r.out).out = r.out := by simp [grown, Frame.new]
      rw [ho, emit_grown] at he
      have := tpl_tamed cx next hw.2 hs.2 n ns sN α h K hK us hu hd (grown f [] r.out) fs _ rest Ns L x (hb.names rfl) hn ha hp hL he
      rw [grown_vars] at this
      exact this
    · intro hb1
      rw [hb1] at he
      simp only [Res.bind_ok, Res.mapErr_ok] at he
      have hflat : thn.Flat := by
        apply Classical.byContradiction
        intro hnf
        obtain ⟨⟨r1, s1⟩, h1, h2⟩ := Res.bind_eq_ok.1 he
        have hS := skip_short _ thn hw.1 sB hnf _ ⟨Frame.new (testFrame test) :: f :: fs, secs⟩ r1 s1 _ _ hn' hfit pC sL
          (by simp) h1
        refine hd _ _ _ hS (hb.names ?_) h2
        exact branch_names (up := [testFrame test]) (m := f.name) (ms := fs.map (·.name)) rfl (by rw [List.length_map]; exact h1)
      refine ⟨hflat, ?_⟩
      rw [branch_skip cx _ _ thn hw.1 hflat _ _ (by simp), branch_end cx _ false c _ _ _ f fs _ (by exact hword)] at he
      simp only [Res.bind_ok] at he
      rw [emit_grown] at he
      have := tpl_tamed cx next hw.2 hs.2 n ns sN α h K hK us hu hd (grown f [] _) fs _ rest Ns L x (hb.names rfl) hn ha hp hL he
      rw [grown_vars] at this
      exact this
  | .ifElse o m c test thn els next, hw, hs => by
    intro n ns hsh α h K hK us hu hd f fs secs rest Ns L x hb hn ha hp hL he
    have hl := sectionsOver_height hu hb
    have e : (Tpl.ifElse o m c test thn els next).toks ++ rest = o.tok (.func test.fn) ::
        (thn.toks ++ (m.tok (.func .else_) :: (els.toks ++
          (c.tok (.func (.end_ test.word false)) :: (next.toks ++ rest))))) := by simp [Tpl.toks]
    have sB : Shut n thn := fun x hx => hsh x (by simp [Tpl.closers, hx])
    have sE : Shut n els := fun x hx => hsh x (by simp [Tpl.closers, hx])
    have sN : Shut n next := fun x hx => hsh x (by simp [Tpl.closers, hx])
    have sC : ¬ Fits n (.word test.word) := hsh _ (by simp [Tpl.closers])
    have sL : ∀ y ∈ Closer.word test.word :: L, ¬ Fits n y := by
      intro y hy
      rcases List.mem_cons.1 hy with rfl | hy
      · exact sC
      · exact hL y hy
    have hn' : (Frame.new (testFrame test) :: f :: fs).map (·.name) = testFrame test :: Ns ++ n :: ns := by
      show _ :: (f :: fs).map (·.name) = _
      rw [hn]; rfl
    have pC : Pending n (c.tok (.func (.end_ test.word false)) :: (next.toks ++ rest)) (.word test.word :: L) :=
      .close rfl (pending_tpl next hw.2.2 sN hp)
    have pE : Pending n (m.tok (.func .else_) :: (els.toks ++ (c.tok (.func (.end_ test.word false)) :: (next.toks ++ rest))))
      (.word test.word :: L) := .else_ rfl (pending_tpl els hw.2.1 sE pC)
    have hword := testFrame_word test
    have hfit : AllFit (testFrame test :: Ns) (.word test.word :: L) := .cons hword ha
    have hif := testFrame_if test
    obtain ⟨m', hm1, hm2⟩ := test_name o test
    rw [e, hK _ _ _ m' (by simp; omega) hm1 hm2, exec_test] at he
    simp only [List.map_cons, List.length_cons] at he
    constructor
    · intro hb1
      rw [hb1] at he
      simp only [Res.bind_ok, Res.mapErr_ok] at he
      have ht : thn.Tame cx ([] :: f.vars :: fs.map (·.vars)) secs :=
        tpl_tamed cx thn hw.1 hs.1 n ns sB α (fs.length + 1) _ (behind_consumes cx _ _ K) (testFrame test :: (f :: fs).map (·.name)) (by simp)
          (behind_doomed hd hb) (Frame.new (testFrame test)) (f :: fs) secs _ _ _ x ⟨[], rfl, nofun⟩ hn' hfit pE sL he
      rw [tpl_means cx thn hw.1 _ (fs.length + 1) _ (branch_consumes cx _ _) (Frame.new (testFrame test)) (f :: fs)
          secs _ (by simp) ht] at he
      have hr0 : ∃ r, thn.eval cx ([] :: f.vars :: fs.map (·.vars)) secs = .ok r := by
        obtain ⟨_, k1, _⟩ := Res.bind_eq_ok.1 he
        obtain ⟨r, k1, _⟩ := Res.bind_eq_ok.1 k1
        exact ⟨r, k1⟩
      obtain ⟨r, hr⟩ := hr0
      have hr' : thn.eval cx ((Frame.new (testFrame test)).vars :: (f :: fs).map (·.vars)) secs = .ok r := hr
      rw [hr', Res.bind_ok, branch_else cx _ true m _ _ f fs _ (by exact hif), Bool.not_true] at he
      have hflat : els.Flat := by
        apply Classical.byContradiction
        intro hnf
        obtain ⟨⟨r1, s1⟩, h1, h2⟩ := Res.bind_eq_ok.1 he
        have hS := skip_short _ els hw.2.1 sE hnf _ ⟨grown (Frame.new (testFrame test)) r.vars r.out :: f :: fs, _⟩ r1 s1 _ _ hn'
          hfit pC sL (by simp) h1
        refine hd _ _ _ hS (hb.names ?_) h2
        exact branch_names (up := [testFrame test]) (m := f.name) (ms := fs.map (·.name)) rfl (by rw [List.length_map]; exact h1)
      refine ⟨hflat, ht, fun r2 hr2 => ?_⟩
      rw [hr] at hr2
      cases hr2
      rw [branch_skip cx _ _ els hw.2.1 hflat _ _ (by simp), branch_end cx _ false c _ _ _ f fs _ (by exact hword)] at he
      simp only [Res.bind_ok] at he
      have ho : (grown (Frame.new (testFrame test)) r.vars r.out).out = r.out := by simp [grown, Frame.new]
      rw [ho, emit_grown] at he
      have := tpl_tamed cx next hw.2.2 hs.2.2 n ns sN α h K hK us hu hd (grown f [] r.out) fs _ rest Ns L x (hb.names rfl) hn ha hp hL he
      rw [grown_vars] at this
      exact this
    · intro hb1
      rw [hb1] at he
      simp only [Res.bind_ok, Res.mapErr_ok] at he
      have hflat : thn.Flat := by
        apply Classical.byContradiction
        intro hnf
        obtain ⟨⟨r1, s1⟩, h1, h2⟩ := Res.bind_eq_ok.1 he
        have hS := skip_short _ thn hw.1 sB hnf _ ⟨Frame.new (testFrame test) :: f :: fs, secs⟩ r1 s1 _ _ hn' hfit pE sL
          (by simp) h1
        refine hd _ _ _ hS (hb.names ?_) h2
        exact branch_names (up := [testFrame test]) (m := f.name) (ms := fs.map (·.name)) rfl (by rw [List.length_map]; exact h1)
      rw [branch_skip cx _ _ thn hw.1 hflat _ _ (by simp), branch_else cx _ false m _ _ f fs _ (by exact hif), Bool.not_false] at he
      have ht : els.Tame cx ([] :: f.vars :: fs.map (·.vars)) secs :=
        tpl_tamed cx els hw.2.1 hs.2.1 n ns sE α (fs.length + 1) _ (behind_consumes cx _ _ K) (testFrame test :: (f :: fs).map (·.name)) (by simp)
          (behind_doomed hd hb) (Frame.new (testFrame test)) (f :: fs) secs _ _ _ x ⟨[], rfl, nofun⟩ hn' hfit pC sL he
      refine ⟨hflat, ht, fun r hr => ?_⟩
      rw [tpl_means cx els hw.2.1 _ (fs.length + 1) _ (branch_consumes cx _ _) (Frame.new (testFrame test)) (f :: fs)
          secs _ (by simp) ht] at he
      have hr' : els.eval cx ((Frame.new (testFrame test)).vars :: (f :: fs).map (·.vars)) secs = .ok r := hr
      rw [hr', Res.bind_ok, branch_end cx _ true c _ _ _ f fs _ (by exact hword)] at he
      simp only [Res.bind_ok] at he
      have ho : (grown (Frame.new (testFrame test)) r.vars r.out).out = r.out := by simp [grown, Frame.new]
      rw [ho, emit_grown] at he
      have := tpl_tamed cx next hw.2.2 hs.2.2 n ns sN α h K hK us hu hd (grown f [] r.out) fs _ rest Ns L x (hb.names rfl) hn ha hp hL he
      rw [grown_vars] at this
      exact this

end Stuart
