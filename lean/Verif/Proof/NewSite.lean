import Verif.Proof.New
import Verif.Proof.Publish
import Verif.Model.Plugins
/-
Lemmas for C72 to C74: creating a site.
-/
namespace Stuart
open Spec

theorem newManifest_eq (G : GitTool) (name : Str) : newManifest G name = manifestText name (authorOf G) := by
  unfold newManifest manifestText authorOf
  cases G.userName <;> cases G.userEmail <;> simp

theorem basicString_length {a v : Str} (h : BasicString a v) : v.length ≤ a.length ∧ (v.length = a.length → a = v ∧ Ordinary a) := by
  induction h with
  | nil => exact ⟨Nat.le_refl _, fun _ => ⟨rfl, by intro c h; cases h⟩⟩
  | plain hc _ ih =>
    refine ⟨Nat.succ_le_succ ih.1, fun h => ?_⟩
    obtain ⟨rfl, k⟩ := ih.2 (Nat.succ.inj h)
    exact ⟨rfl, List.forall_mem_cons.2 ⟨hc, k⟩⟩
  | escape _ _ ih =>
    have := ih.1
    simp only [List.length_cons]
    exact ⟨by omega, fun h => by omega⟩
  | unicode _ _ _ ih =>
    have := ih.1
    simp only [List.length_cons, List.length_append]
    exact ⟨by omega, fun h => by omega⟩

theorem basicString_self {a : Str} : BasicString a a ↔ Ordinary a := by
  constructor
  · intro h; exact ((basicString_length h).2 rfl).2
  · intro h
    induction a with
    | nil => exact .nil
    | cons c a ih =>
      obtain ⟨h1, h2⟩ := List.forall_mem_cons.1 h
      exact .plain h1 (ih h2)

theorem manifest_iff (name : Str) (author : Option Str) :
    ManifestOf (manifestText name author) name author ↔ Ordinary name ∧ ∀ a, author = some a → Ordinary a := by
  constructor
  · intro h
    generalize ht : manifestText name author = t at h
    cases h with
    | name h =>
      rename_i a
      simp only [manifestText, List.append_cancel_right_eq, List.append_cancel_left_eq] at ht
      subst ht
      exact ⟨basicString_self.1 h, fun a k => by cases k⟩
    | author h1 h2 =>
      rename_i a b m
      have l1 := basicString_length h1
      have l2 := basicString_length h2
      have hl := congrArg List.length ht
      simp only [manifestText, List.append_assoc, List.append_cancel_left_eq] at ht
      simp only [manifestText, List.length_append] at hl
      have e1 : name.length = a.length := by have := l1.1; have := l2.1; omega
      have e2 : m.length = b.length := by have := l1.1; have := l2.1; omega
      refine ⟨(l1.2 e1).1 ▸ (l1.2 e1).2, fun x k => ?_⟩
      cases k
      exact (l2.2 e2).1 ▸ (l2.2 e2).2
  · rintro ⟨h1, h2⟩
    cases author with
    | none => exact .name (basicString_self.2 h1)
    | some a => exact .author (basicString_self.2 h1) (basicString_self.2 (h2 a rfl))

theorem hex_unique {s : Str} {n m : Nat} (h1 : Hex s n) (h2 : Hex s m) : n = m := by
  induction h1 generalizing m with
  | nil =>
    generalize hs : ([] : Str) = s at h2
    cases h2 with
    | nil => rfl
    | snoc => simp at hs
  | snoc h hd ih =>
    rename_i s n d c
    generalize hs : s ++ [c] = t at h2
    cases h2 with
    | nil => simp at hs
    | snoc k kd =>
      obtain ⟨rfl, hc⟩ := List.append_inj' hs rfl
      cases hc
      rw [hd] at kd
      cases kd
      rw [ih k]

theorem basicString_unique {a b n m x y : Str} (h1 : BasicString a n) (h2 : BasicString b m)
    (h : a ++ '"' :: x = b ++ '"' :: y) : n = m ∧ x = y := by
  induction h1 generalizing b m with
  | nil =>
    cases h2 with
    | nil => simp only [List.nil_append, List.cons.injEq, true_and] at h; exact ⟨rfl, h⟩
    | plain hc _ => simp only [List.nil_append, List.cons_append, List.cons.injEq] at h; exact absurd h.1.symm hc.1
    | escape _ _ => simp only [List.nil_append, List.cons_append, List.cons.injEq] at h; exact absurd h.1 (by decide)
    | unicode _ _ _ => simp only [List.nil_append, List.cons_append, List.cons.injEq] at h; exact absurd h.1 (by decide)
  | plain hc _ ih =>
    cases h2 with
    | nil => simp only [List.nil_append, List.cons_append, List.cons.injEq] at h; exact absurd h.1 hc.1
    | plain _ k =>
      simp only [List.cons_append, List.cons.injEq] at h
      obtain ⟨rfl, h'⟩ := h
      obtain ⟨rfl, hk⟩ := ih k h'
      exact ⟨rfl, hk⟩
    | escape _ _ => simp only [List.cons_append, List.cons.injEq] at h; exact absurd h.1 hc.2.1
    | unicode _ _ _ => simp only [List.cons_append, List.cons.injEq] at h; exact absurd h.1 hc.2.1
  | escape he _ ih =>
    cases h2 with
    | nil => simp only [List.nil_append, List.cons_append, List.cons.injEq] at h; exact absurd h.1 (by decide)
    | plain hc k => simp only [List.cons_append, List.cons.injEq] at h; exact absurd h.1.symm hc.2.1
    | escape he' k =>
      simp only [List.cons_append, List.cons.injEq, true_and] at h
      obtain ⟨rfl, h'⟩ := h
      obtain ⟨rfl, hk⟩ := ih k h'
      simp only [tomlEscapes, List.mem_cons, Prod.mk.injEq, List.not_mem_nil, or_false] at he he'
      refine ⟨?_, hk⟩
      rw [List.cons.injEq]
      refine ⟨?_, rfl⟩
      rcases he with he | he | he | he | he | he | he <;> obtain ⟨rfl, rfl⟩ := he <;> (simp at he'; exact he'.symm)
    | unicode hu _ _ =>
      simp only [List.cons_append, List.cons.injEq, true_and] at h
      obtain ⟨rfl, h'⟩ := h
      rcases hu with ⟨rfl, _⟩ | ⟨rfl, _⟩ <;> simp [tomlEscapes] at he
  | unicode hu hx _ ih =>
    cases h2 with
    | nil => simp only [List.nil_append, List.cons_append, List.cons.injEq] at h; exact absurd h.1 (by decide)
    | plain hc k => simp only [List.cons_append, List.cons.injEq] at h; exact absurd h.1.symm hc.2.1
    | escape he _ =>
      simp only [List.cons_append, List.cons.injEq, true_and] at h
      obtain ⟨rfl, h'⟩ := h
      rcases hu with ⟨rfl, _⟩ | ⟨rfl, _⟩ <;> simp [tomlEscapes] at he
    | unicode hu' hx' k =>
      simp only [List.cons_append, List.cons.injEq, true_and, List.append_assoc] at h
      obtain ⟨rfl, h'⟩ := h
      have hl := hu
      have hl' := hu'
      obtain ⟨rfl, h''⟩ := List.append_inj h' (by
        rcases hl with ⟨rfl, hl⟩ | ⟨rfl, hl⟩ <;> rcases hl' with ⟨e, hl'⟩ | ⟨e, hl'⟩ <;> first | omega | exact absurd e (by decide))
      obtain ⟨rfl, hk⟩ := ih k h''
      have := hex_unique hx hx'
      exact ⟨by rw [Char.toNat_inj.1 this], hk⟩

theorem manifestOf_unique {t n m : Str} {a b : Option Str} (h1 : ManifestOf t n a) (h2 : ManifestOf t m b) : n = m ∧ a = b := by
  have key : ∀ {t t' n m : Str} {a b : Option Str}, ManifestOf t n a → ManifestOf t' m b → t = t' → n = m ∧ a = b := by
    intro t t' n m a b h1 h2 ht
    cases h1 with
    | name k1 =>
      cases h2 with
      | name k2 =>
        simp only [List.append_assoc, List.append_cancel_left_eq] at ht
        exact ⟨(basicString_unique k1 k2 ht).1, rfl⟩
      | author k2 _ =>
        simp only [List.append_assoc, List.append_cancel_left_eq] at ht
        have := (basicString_unique k1 k2 ht).2
        simp at this
    | author k1 k1' =>
      cases h2 with
      | name k2 =>
        simp only [List.append_assoc, List.append_cancel_left_eq] at ht
        have := (basicString_unique k1 k2 ht).2
        simp at this
      | author k2 k2' =>
        simp only [List.append_assoc, List.append_cancel_left_eq] at ht
        obtain ⟨rfl, hx⟩ := basicString_unique k1 k2 ht
        have hx := List.append_cancel_left (as := str!"\nauthor = \"") hx
        obtain ⟨rfl, _⟩ := basicString_unique k1' k2' hx
        exact ⟨rfl, rfl⟩
  exact key h1 h2 rfl

theorem newOps_target (G : GitTool) (png : Bytes) (p : Path) (name : Str) : ∀ o ∈ newOps G png p name, p <+: o.target := by
  rw [newOps_under]
  intro o ho
  rcases List.mem_cons.1 ho with rfl | ho
  · exact List.prefix_rfl
  · obtain ⟨o', _, rfl⟩ := List.mem_map.1 ho
    rw [Op.under_target]
    exact List.prefix_append _ _

/-- The disk after `stuart new`, below its names. -/
theorem cmdNew_run (G : GitTool) (png : Bytes) {cwd : Path} {name : Str} {d : Entry} (hn : PlainName name)
    (h1 : look d cwd = some .dir) (h2 : look d (cwd ++ [name]) = none) (noGit : Bool)
    (hg : noGit = false → GitKeeps G (cwd ++ [name])) :
    ∃ d', cmdNew G png cwd name noGit ⟨d, []⟩ = (⟨d', []⟩, .ok ()) ∧
      (∀ x r, x ≠ str!".git" → x ≠ str!".gitignore" →
        d'.at (cwd ++ [name] ++ x :: r) = (newSite (bytesOf (manifestText name (authorOf G))) png).at (x :: r)) ∧
      (noGit = true → d' = d.put (cwd ++ [name]) (some (newSite (bytesOf (manifestText name (authorOf G))) png))) ∧
      (noGit = false → ∀ r, look d' (cwd ++ [name] ++ str!".gitignore" :: r) = look (.file (bytesOf newGitignore)) r) ∧
      look d' (cwd ++ [name]) = some .dir ∧
      (∀ q, ¬ (cwd ++ [name]) <+: q → look d' q = look d q) := by
  have hp : cwd ++ [name] ≠ [] := by simp
  have hr := newOps_run G png name (p := cwd ++ [name]) hp (by rw [List.dropLast_concat]; exact h1) h2
  rw [newManifest_eq] at hr
  generalize hs : newSite (bytesOf (manifestText name (authorOf G))) png = site at hr ⊢
  have hsd : kind site = .dir := by rw [← hs]; rfl
  have hd : d.isDirAt (cwd ++ [name]).dropLast = true := by rw [List.dropLast_concat]; exact isDirAt_iff.2 h1
  have ha : ∀ q, (d.put (cwd ++ [name]) (some site)).at (cwd ++ [name] ++ q) = site.at q := fun q => at_put_below q hd hp
  unfold cmdNew
  rw [joinPath_plain hn, joinPath_dot hn]
  simp only [hr]
  cases noGit with
  | true =>
    refine ⟨_, rfl, fun x r _ _ => ha _, fun _ => rfl, (fun h => by cases h), ?_, fun q hq => look_put_outside hq⟩
    have := ha []
    rw [List.append_nil] at this
    rw [look, this, Entry.at]
    simp [hsd]
  | false =>
    have hdir : look (d.put (cwd ++ [name]) (some site)) (cwd ++ [name]) = some .dir := by
      have := ha []
      rw [List.append_nil] at this
      rw [look, this, Entry.at]
      simp [hsd]
    obtain ⟨g1, g2⟩ := hg rfl _ hdir
    have gi := g2 (cwd ++ [name]) List.prefix_rfl
    generalize hdg : G.init (cwd ++ [name]) (d.put (cwd ++ [name]) (some site)) = dg at g1 g2 gi
    have hnone : dg.at (cwd ++ [name] ++ [str!".gitignore"]) = none := by
      rw [g1 _ (by simp) (by intro h; have := h.length_le; simp at this), ha, ← hs]
      rfl
    have hstep : runOps [.write (cwd ++ [name] ++ [str!".gitignore"]) (bytesOf newGitignore)] ⟨dg, []⟩ =
        (⟨dg.put (cwd ++ [name] ++ [str!".gitignore"]) (some (.file (bytesOf newGitignore))), []⟩, .ok ()) := by
      have : World.step ⟨dg, []⟩ (.write (cwd ++ [name] ++ [str!".gitignore"]) (bytesOf newGitignore)) =
          (⟨dg.put (cwd ++ [name] ++ [str!".gitignore"]) (some (.file (bytesOf newGitignore))), []⟩, true) := by
        have : dg.isDirAt (cwd ++ [name] ++ [str!".gitignore"]).dropLast = true := by
          rw [List.dropLast_concat]; exact isDirAt_iff.2 gi
        simp only [World.step, Op.apply, hnone, this, if_true, List.tail_nil]
      rw [runOps, this, if_pos rfl, runOps]
    have hif : (if false = true then ((⟨d.put (cwd ++ [name]) (some site), []⟩ : World), (Res.ok () : Res CliErr Unit))
      else (((runOps [.write (cwd ++ [name] ++ [str!".gitignore"]) (bytesOf newGitignore)] ⟨dg, []⟩).1,
        (runOps [.write (cwd ++ [name] ++ [str!".gitignore"]) (bytesOf newGitignore)] ⟨dg, []⟩).2.mapErr .core))) =
      (⟨dg.put (cwd ++ [name] ++ [str!".gitignore"]) (some (.file (bytesOf newGitignore))), []⟩, .ok ()) := by
      rw [hstep]; rfl
    rw [hif]
    refine ⟨_, rfl, fun x r k1 k2 => ?_, (fun h => by cases h), fun _ r => ?_, ?_, fun q hq => ?_⟩
    · have e1 : ¬ (cwd ++ [name] ++ [str!".git"]) <+: cwd ++ [name] ++ x :: r := by
        rw [List.prefix_append_right_inj, List.cons_prefix_cons]; exact fun h => k1 h.1.symm
      have e2 : ¬ (cwd ++ [name] ++ [str!".gitignore"]) <+: cwd ++ [name] ++ x :: r := by
        rw [List.prefix_append_right_inj, List.cons_prefix_cons]; exact fun h => k2 h.1.symm
      have e3 : ¬ cwd ++ [name] ++ x :: r <+: cwd ++ [name] ++ [str!".gitignore"] := by
        rw [List.prefix_append_right_inj, List.cons_prefix_cons]; exact fun h => k2 h.1
      rw [at_put_apart ⟨e2, e3⟩, g1 _ e1 (by intro h; have := h.length_le; simp at this), ha]
    · rw [show cwd ++ [name] ++ str!".gitignore" :: r = cwd ++ [name] ++ [str!".gitignore"] ++ r by simp]
      exact look_put_inside (p := cwd ++ [name] ++ [str!".gitignore"]) (by simp) r (by rw [List.dropLast_concat]; exact gi)
    · rw [look_put_outside (by intro h; have := h.length_le; simp at this)]; exact gi
    · have hq' : ¬ (cwd ++ [name] ++ [str!".gitignore"]) <+: q := fun h => hq ((List.prefix_append _ _).trans h)
      have hq2 : ¬ (cwd ++ [name] ++ [str!".git"]) <+: q := fun h => hq ((List.prefix_append _ _).trans h)
      rw [look_put_outside hq']
      by_cases hb : q <+: cwd ++ [name]
      · rw [g2 q hb]
        rcases List.prefix_concat_iff.1 hb with rfl | hb
        · exact absurd List.prefix_rfl hq
        · obtain ⟨t, rfl⟩ := hb
          by_cases ht : t = []
          · subst ht; rw [List.append_nil] at h1; exact h1.symm
          · exact (look_above ht (by rw [h1]; nofun)).symm
      · rw [look, g1 q hq2 hb]
        exact look_put_outside hq

end Stuart
