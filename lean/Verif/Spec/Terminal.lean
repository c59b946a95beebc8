import Verif.Model.Terminal
/-
What the lines on the terminal should be.
-/
namespace Stuart.Spec

/-- The line about a script. -/
def executing (script : Path) : Say := .log str!"Executing" (str!"script `" ++ script.getLast?.getD [] ++ str!"`")

/-- The line with which the content begins to be built. -/
def building (c : Context) : Say := .log str!"Building" (c.stuart.config.name ++ str!" (" ++ dirStr c.dir ++ str!")")

/-- The line about the metadata. -/
def exporting : Say := .log str!"Exporting" str!"metadata to `metadata.json`"

/-- All the lines of a build that succeeds. -/
def buildLines (c : Context) (last : Str) : List Say :=
  c.pre.map executing ++ [building c] ++ (if c.stuart.config.saveMetadata then [exporting] else []) ++ c.post.map executing ++
    [.log str!"Finished" last]

/-- Lines with this verb. -/
def hasVerb (v : Str) : Say → Bool
  | .log w _ => v == w
  | _ => false

/-- The progress shown by a thing that is written. -/
def progress : Say → Option (Nat × Nat)
  | .bar _ k n => some (k, n)
  | _ => none

/-- The scripts before the build succeed, the content is built, and the site is saved with the static files. -/
def Saved (M : Machine) (c : Context) (s : Host) : Prop :=
  ∃ s1 p, runScripts M c.env c.pre s = (s1, .ok ()) ∧ (c.stuart.build M.sys s1.world.disk c.mode).2 = .ok () ∧
    mergeDirs M s1.world.disk c.dir [str!"static", str!"temp"] (c.stuart.build M.sys s1.world.disk c.mode).1 = (p, .ok ()) ∧
    (p.save (joinPath c.dir c.output) (s1.world.step (.clear (c.dir ++ [str!"temp"]))).1).2 = .ok ()

/-- A number of tenths of milliseconds, in writing. -/
inductive Tenths : Nat → Str → Prop where
  | whole (n : Nat) : Tenths (10 * n) (Nat.toDigits 10 n)
  | part (n d : Nat) (hd : 0 < d) (hd' : d < 10) : Tenths (10 * n + d) (Nat.toDigits 10 n ++ '.' :: Nat.toDigits 10 d)

/-- The report of an error. -/
def IsReport (x : Stream × Str) : Prop := x.1 = .err ∧ str!"error: " <+: x.2

instance : DecidablePred IsReport := fun x => inferInstanceAs (Decidable (x.1 = .err ∧ str!"error: " <+: x.2))

/-- The cursor is at the beginning of a line after all this has been written. -/
def AtLineStart (w : List (Stream × Str)) : Prop :=
  (w.map Prod.snd).flatten = [] ∨ str!"\n" <:+ (w.map Prod.snd).flatten

end Stuart.Spec
