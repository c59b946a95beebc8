import Verif.Spec.Content
import Verif.Proof.Whole
/-
Reading and converting the content, in order.
-/
namespace Stuart
open Spec

section
variable {S : Sys} {plugins : List Plugin}

/-- What `readFile` does to the contents. -/
def readsAs (S : Sys) (parse : Bool) (plugins : List Plugin) : Str → Str → Bytes → Parsed → Prop :=
  if parse then ReadAs S plugins else Unparsed

theorem readFile_iff {parse : Bool} {p : Path} {nm : Str} {b : Bytes} {n : Node} :
    readFile S parse plugins p nm b = .ok n ↔
      ∃ c, readsAs S parse plugins nm (pathStr p) b c ∧ n = .file nm b c none (pathStr p) := by
  rw [readFile, Res.bind_eq_ok]
  cases parse with
  | true =>
    simp only [if_true, parseContents_ok, readsAs]
    constructor
    · rintro ⟨c, k1, k2⟩; cases k2; exact ⟨c, k1, rfl⟩
    · rintro ⟨c, k1, rfl⟩; exact ⟨c, k1, rfl⟩
  | false =>
    constructor
    · rintro ⟨c, k1, k2⟩; cases k1; cases k2; exact ⟨_, rfl, rfl⟩
    · rintro ⟨c, k1, rfl⟩; exact ⟨c, by rw [show c = .ignored from k1]; rfl, rfl⟩

mutual
theorem readEntry_iff {parse : Bool} : ∀ (e : Entry) (p : Path) (nm : Str) (n : Node),
    readEntry S parse plugins (p ++ [nm]) nm e = .ok n ↔ ReadNode (readsAs S parse plugins) p nm e n
  | .file b, p, nm, n => by
    rw [readEntry, readFile_iff]
    constructor
    · rintro ⟨c, h, rfl⟩; exact .file h
    · intro h
      cases h with
      | file h => exact ⟨_, h, rfl⟩
  | .dir l, p, nm, n => by
    rw [readEntry, Res.bind_eq_ok]
    constructor
    · rintro ⟨cs, h, k⟩; cases k; exact .dir ((readEntries_iff l _ cs).1 h)
    · intro h
      cases h with
      | dir h => exact ⟨_, (readEntries_iff l _ _).2 h, rfl⟩
  | .special, p, nm, n => by
    rw [readEntry]
    constructor <;> intro h <;> cases h
theorem readEntries_iff {parse : Bool} : ∀ (l : List (Str × Entry)) (p : Path) (cs : List Node),
    readEntries S parse plugins p l = .ok cs ↔ ReadList (readsAs S parse plugins) p l cs
  | [], p, cs => by
    rw [readEntries]
    constructor
    · intro h; cases h; exact .nil
    · intro h; cases h; rfl
  | (nm, e) :: l, p, cs => by
    rw [readEntries, Res.bind_eq_ok]
    constructor
    · rintro ⟨c, h1, h2⟩
      obtain ⟨cs', h3, h4⟩ := Res.bind_eq_ok.1 h2
      cases h4
      exact .cons ((readEntry_iff e p nm c).1 h1) ((readEntries_iff l p cs').1 h3)
    · intro h
      cases h with
      | cons h1 h2 =>
        refine ⟨_, (readEntry_iff e p nm _).2 h1, ?_⟩
        rw [(readEntries_iff l p _).2 h2]; rfl
end

theorem readTree_iff {parse : Bool} {d : Entry} {p : Path} {n : Node} :
    readTree S parse plugins d p = .ok n ↔ ∃ name l cs, p.getLast? = some name ∧ d.at p = some (.dir l) ∧
      ReadList (readsAs S parse plugins) p l cs ∧ n = .dir name cs (pathStr p) := by
  unfold readTree
  constructor
  · intro h
    split at h
    · rename_i l hl
      obtain ⟨cs, h1, h2⟩ := Res.bind_eq_ok.1 h
      obtain ⟨name, h3, h4⟩ := Res.bind_eq_ok.1 h2
      cases h4
      refine ⟨name, l, cs, ?_, hl, (readEntries_iff l p cs).1 h1, rfl⟩
      cases hp : p.getLast? with
      | none => rw [hp] at h3; cases h3
      | some n => rw [hp] at h3; cases h3; rfl
    · cases h
  · rintro ⟨name, l, cs, h1, h2, h3, rfl⟩
    rw [h2]
    simp only [(readEntries_iff l p cs).2 h3, Res.bind_ok, h1, Res.unwrap]

end

mutual
theorem preNode_iff {ext : Ext} {cx : Ctx} {base : Frame} (hb : base.name = str!"base") : ∀ (n o : Node),
    preNode ext cx base n = .ok o ↔ UsedAs ext cx base n o
  | .file nm b c m src, o => by
    rw [preNode_file_ok]
    constructor
    · rintro ⟨c', h, rfl⟩; exact .file ((converted_iff hb).1 h)
    · intro h
      cases h with
      | file h => exact ⟨_, (converted_iff hb).2 h, rfl⟩
  | .dir nm cs src, o => by
    rw [preNode_dir_ok]
    constructor
    · rintro ⟨ts, h, rfl⟩; exact .dir ((preNodes_iff hb cs ts).1 h)
    · intro h
      cases h with
      | dir h => exact ⟨_, (preNodes_iff hb cs _).2 h, rfl⟩
theorem preNodes_iff {ext : Ext} {cx : Ctx} {base : Frame} (hb : base.name = str!"base") : ∀ (ns os : List Node),
    preNodes ext cx base ns = .ok os ↔ UsedList ext cx base ns os
  | [], os => by
    rw [preNodes]
    constructor
    · intro h; cases h; exact .nil
    · intro h; cases h; rfl
  | n :: ns, os => by
    rw [preNodes_cons_ok]
    constructor
    · rintro ⟨o, os', h1, h2, rfl⟩
      exact .cons ((preNode_iff hb n o).1 h1) ((preNodes_iff hb ns os').1 h2)
    · intro h
      cases h with
      | cons h1 h2 => exact ⟨_, _, (preNode_iff hb n _).2 h1, (preNodes_iff hb ns _).2 h2, rfl⟩
end

theorem content_iff {S : Sys} {plugins : List Plugin} {d : Entry} {p : Path} {base : Frame} (hb : base.name = str!"base")
    {name : Str} {cs ts : List Node} : Content S plugins d p base name cs ts ↔
      readTree S true plugins d p = .ok (.dir name cs (pathStr p)) ∧
      preNodes S.ext ⟨.dir name cs (pathStr p), S.dateFmt⟩ base cs = .ok ts := by
  rw [readTree_iff, preNodes_iff hb]
  constructor
  · rintro ⟨h1, ⟨l, h2, h3⟩, h4⟩
    exact ⟨⟨name, l, cs, h1, h2, h3, rfl⟩, h4⟩
  · rintro ⟨⟨name', l, cs', h1, h2, h3, h4⟩, h5⟩
    cases h4
    exact ⟨h1, ⟨l, h2, h3⟩, h5⟩

/-! ### When every file can be built -/

mutual
theorem buildNode_total {b : Builder} : ∀ (n : Node) (env : Env),
    (∀ d l src, n = .dir d l src → ∀ ds e l' x, Under (updateEnv env l) l ds e l' → x ∈ l' → x.isDir = false → ∃ o, buildNode b e x = .ok o) →
    (n.isDir = false → ∃ o, buildNode b env n = .ok o) → ∃ o, buildNode b env n = .ok o
  | .file .., env, _, h => h rfl
  | .dir d l src, env, h, _ => by
    obtain ⟨os, ho⟩ := buildNodes_total l (updateEnv env l) (h d l src rfl)
    exact ⟨_, buildNode_dir_ok.2 ⟨os, ho, rfl⟩⟩
theorem buildNodes_total {b : Builder} : ∀ (cs : List Node) (env : Env),
    (∀ ds e l x, Under env cs ds e l → x ∈ l → x.isDir = false → ∃ o, buildNode b e x = .ok o) →
    ∃ os, buildNodes b env cs = .ok os
  | [], env, _ => ⟨[], by rw [buildNodes]⟩
  | c :: cs, env, h => by
    obtain ⟨o, ho⟩ := buildNode_total c env
      (fun d l src hc ds e l' x hu hx hf => by
        subst hc; exact h (d :: ds) e l' x (.down (.head _) hu) hx hf)
      (fun hf => h [] env (c :: cs) c .here (.head _) hf)
    obtain ⟨os, hos⟩ := buildNodes_total cs env fun ds e l x hu hx hf => by
      cases hu with
      | here => exact h [] env _ x .here (.tail _ hx) hf
      | down hc hu => exact h _ e l x (.down (.tail _ hc) hu) hx hf
    exact ⟨o :: os, by rw [buildNodes, ho, hos]; rfl⟩
end

/-- What the builder makes of a file of the content, in the environment of its directory. -/
theorem used_made {S : Sys} {plugins : List Plugin} {d : Entry} {p : Path} {name : Str} {base : Frame} (hb : base.name = str!"base")
    {input : Node} {cs ts : List Node} (hr : AsRead S plugins d p name cs) (hu : AsUsed S base input cs ts) {cx : Ctx}
    {cfg : Config} {ds : List Str} {e : Env} {l : List Node} (hun : Under (updateEnv ⟨none, none⟩ ts) ts ds e l)
    {nm : Str} {b : Bytes} {c : Parsed} {m : Option Value} {src : Str} (hm : .file nm b c m src ∈ l) {nm' : Str} {b' : Bytes} :
    Made S plugins d p cx base ds nm b c nm' b' ↔
      ∃ m, processFile ⟨cx, base, cfg⟩ e nm b c src = .ok (.file nm' b' .none m src) := by
  obtain ⟨_, _, _, c0, hc, hcv⟩ := (shown_file hr hu).1 (under_holds hun hm)
  exact made_iff hb (fun k => (readAs_not_ignored hc).1 ((converted_kind hcv).1 k))
    (fun md k => by
      obtain ⟨md', k'⟩ := (converted_kind hcv).2 md k
      obtain ⟨stem, _, k⟩ := (readAs_not_ignored hc).2 md' k'
      exact ⟨stem, k⟩)
    (template_iff hr hu (sel := Env.root) updateEnv_root hun rfl) (template_iff hr hu (sel := Env.md) updateEnv_md hun rfl)

end Stuart
