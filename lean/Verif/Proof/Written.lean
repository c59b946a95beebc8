import Verif.Proof.Terminal
/-
What is written by a list of things to say.
-/
namespace Stuart
open Spec

/-- Only lines of the logger, whose verbs are short, and reports. -/
def Plain (l : List Say) : Prop :=
  ∀ x ∈ l, (∃ v m, x = .log v m ∧ v.length < 12) ∨ ∃ t, x = .report t ∧ str!"error: " <+: t ∧ str!"\n" <:+ t

theorem Plain.nil : Plain [] := fun _ h => by cases h

theorem Plain.append {l l' : List Say} (h : Plain l) (h' : Plain l') : Plain (l ++ l') := by
  intro x hx
  rcases List.mem_append.1 hx with hx | hx
  · exact h x hx
  · exact h' x hx

theorem Plain.cons {v m : Str} {l : List Say} (hv : v.length < 12) (h : Plain l) : Plain (.log v m :: l) := by
  intro x hx
  rcases List.mem_cons.1 hx with rfl | hx
  · exact .inl ⟨v, m, rfl, hv⟩
  · exact h x hx

theorem Plain.report {t : Str} {l : List Say} (h : Plain l) : Plain (.report (str!"error: " ++ t ++ str!"\n") :: l) := by
  intro x hx
  rcases List.mem_cons.1 hx with rfl | hx
  · exact .inr ⟨_, rfl, by rw [List.append_assoc]; exact List.prefix_append _ _, List.suffix_append _ _⟩
  · exact h x hx

variable {M : Machine} {env : List (Str × Str)} {c : Context} {s : Host} {times : Times}

theorem scriptsSay_plain {ps : List Path} : Plain (scriptsSay M env ps s) := by
  induction ps generalizing s with
  | nil => exact .nil
  | cons p ps ih =>
    rw [scriptsSay]
    apply Plain.cons (by decide)
    split
    · exact ih
    · exact .nil

theorem publishSay_plain : Plain (publishSay M c s) := by
  unfold publishSay
  simp only
  split
  · split
    · split
      · exact .cons (by decide) .nil
      · exact .nil
    · exact .nil
  · exact .nil

theorem buildSay_plain : Plain (buildSay M times c s) := by
  unfold buildSay
  apply scriptsSay_plain.append
  split
  · apply Plain.cons (by decide)
    simp only
    split
    · apply publishSay_plain.append
      split
      · apply scriptsSay_plain.append
        split
        · exact .cons (by decide) .nil
        · exact .nil
      · exact .nil
    · exact .nil
  · exact .nil

variable {O : Outside} {root : Path} {name : Str} {unkept : LoadErr → Str}

theorem gitSay_plain {src : Str} {t : LoadSt} : Plain (gitSay O root name src t) := by
  unfold gitSay sourceLine
  simp only
  apply Plain.cons (by split <;> decide)
  split
  · split
    · exact .nil
    · exact .cons (by decide) .nil
  · exact .nil

theorem sourceSay_plain {src : Str} {t : LoadSt} : Plain (sourceSay O root name src t) := by
  unfold sourceSay sourceLine
  simp only
  split
  · exact .cons (by decide) .nil
  · split
    · exact .cons (by decide) .nil
    · split
      · exact gitSay_plain
      · split
        · exact .cons (by decide) .nil
        · exact .nil

theorem sourcesSay_plain {failed : Bool} {srcs : List Str} {t : LoadSt} : Plain (sourcesSay unkept O root name failed srcs t) := by
  induction srcs generalizing failed t with
  | nil => exact .nil
  | cons src srcs ih =>
    rw [sourcesSay]
    split
    · exact .cons (by decide) ih
    · apply sourceSay_plain.append
      split
      · split
        · exact ih
        · exact .report ih
      · exact .nil

theorem pluginsSay_plain {deps : List (Str × Str)} {t : LoadSt} : Plain (pluginsSay unkept O root deps t) := by
  induction deps generalizing t with
  | nil => exact .nil
  | cons d deps ih =>
    obtain ⟨name, src⟩ := d
    rw [pluginsSay]
    apply sourcesSay_plain.append
    split
    · exact ih
    · exact .nil

theorem loadSay_plain {micros : Nat} {deps : List (Str × Str)} {t : LoadSt} : Plain (loadSay unkept micros O root deps t) := by
  unfold loadSay
  apply pluginsSay_plain.append
  split
  · exact .nil
  · exact .cons (by decide) .nil
  · exact .nil

theorem initSay_plain {K : Clock} {parseToml : Str → Except TomlErr RawConfig} {cwd : Path} {manifest : Str} :
    Plain (initSay K O parseToml cwd manifest s) := by
  unfold initSay
  split
  · exact .nil
  · split
    · split
      · exact loadSay_plain
      · exact .nil
    · exact .nil

/-- All but benchmarks write only lines and reports. -/
theorem Command.say_plain {S : Site} {K : Clock} {cmd : Command} (h : ∀ n, cmd ≠ .bench n) : Plain (cmd.say S K s) := by
  cases cmd with
  | bench n => exact absurd rfl (h n)
  | clean => exact .nil
  | new n g =>
    rw [Command.say]
    split
    · exact .cons (by decide) .nil
    · exact .nil
  | build m o =>
    rw [Command.say]
    apply initSay_plain.append
    split
    · exact buildSay_plain
    · exact .nil

/-! ### The terminal -/

variable {t : Term} {l : List Say}

theorem Term.says_nil : t.says [] = t := rfl
theorem Term.says_cons {x : Say} : t.says (x :: l) = (t.say x).says l := rfl
theorem Term.says_append {l' : List Say} : t.says (l ++ l') = (t.says l).says l' := List.foldl_append

/-- The line of the logger. -/
def logLine (v m : Str) : Str := padLeft 12 v ++ str!" " ++ m ++ str!"\n"

/-- What is written at the normal level. -/
def lineOf : Say → Stream × Str
  | .log v m => (.err, logLine v m)
  | .report t => (.err, t)
  | .bar a b c => (.err, barText a b c)
  | _ => (.out, str!"\n")

def isLog : Say → Bool
  | .log _ _ => true
  | _ => false

theorem logLine_not_report {v m : Str} (h : v.length < 12) : ¬ IsReport (.err, logLine v m) := by
  rintro ⟨_, r, hr⟩
  unfold logLine padLeft at hr
  obtain ⟨n, hn⟩ : ∃ n, 12 - v.length = n + 1 := ⟨11 - v.length, by omega⟩
  rw [hn, List.replicate_succ] at hr
  simp at hr

theorem blank_not_report : ¬ IsReport (.out, str!"\n") := fun h => by cases h.1

theorem filter_report {x : Stream × Str} {xs : List (Stream × Str)} (h : IsReport x) :
    (x :: xs).filter IsReport = x :: xs.filter IsReport := by simp [h]

theorem filter_other {x : Stream × Str} {xs : List (Stream × Str)} (h : ¬ IsReport x) :
    (x :: xs).filter IsReport = xs.filter IsReport := by simp [h]

/-- At other levels than `quiet` all is written. -/
theorem Term.says_loud (hl : Plain l) (h : t.level ≠ .quiet) (he : t.enabled = true) :
    t.says l = { t with hasLogged := t.hasLogged || l.any isLog, written := t.written ++ l.map lineOf } := by
  induction l generalizing t with
  | nil => simp [Term.says_nil]
  | cons x l ih =>
    rw [Term.says_cons]
    have hx := hl x (by simp)
    have hl' : Plain l := fun y hy => hl y (by simp [hy])
    rcases hx with ⟨v, m, rfl, _⟩ | ⟨r, rfl, _⟩
    · have e : t.say (.log v m) = { t with hasLogged := true, written := t.written ++ [(.err, logLine v m)] } := by
        rw [Term.say, if_pos (by simp [h, he])]; rfl
      rw [e, ih hl' (by exact h) (by exact he)]
      simp [isLog, lineOf]
    · rw [Term.say, ih hl' (by exact h) (by exact he)]
      simp [isLog, lineOf]

/-- At the level `quiet` only reports are written. -/
theorem Term.says_quiet (hl : Plain l) (h : t.level = .quiet) :
    t.says l = { t with written := t.written ++ (l.map lineOf).filter IsReport } := by
  induction l generalizing t with
  | nil => simp [Term.says_nil]
  | cons x l ih =>
    rw [Term.says_cons]
    have hx := hl x (by simp)
    have hl' : Plain l := fun y hy => hl y (by simp [hy])
    rcases hx with ⟨v, m, rfl, hv⟩ | ⟨r, rfl, hr, _⟩
    · have e : t.say (.log v m) = t := by
        rw [Term.say, if_neg (by simp [h])]
      rw [e, ih hl' h, List.map_cons, filter_other (by exact logLine_not_report hv)]
    · rw [Term.say, ih hl' (by exact h), List.map_cons, filter_report (x := lineOf (.report r)) (by exact ⟨rfl, hr⟩)]
      simp [lineOf]

/-- Whole lines. -/
theorem Plain.ends (hl : Plain l) : ∀ x ∈ l.map lineOf, str!"\n" <:+ x.2 := by
  intro x hx
  obtain ⟨y, hy, rfl⟩ := List.mem_map.1 hx
  rcases hl y hy with ⟨v, m, rfl, _⟩ | ⟨r, rfl, _, hr⟩
  · exact List.suffix_append _ _
  · exact hr

end Stuart
