import Verif.Spec.Terminal
/-
The terminal after a command, text by text.
-/
namespace Stuart.Spec

/-- A line of the logger: the verb is set to the right of twelve columns. -/
def screenLine (verb msg : Str) : Stream × Str :=
  (.err, List.replicate (12 - verb.length) ' ' ++ verb ++ [' '] ++ msg ++ ['\n'])

/-- An empty line. -/
def emptyLine : Stream × Str := (.out, str!"\n")

/-- What a thing to say looks like. -/
def onScreen : Say → List (Stream × Str)
  | .log v m => [screenLine v m]
  | .blank => [emptyLine]
  | .report t => [(.err, t)]
  | .bar name k n => [(.err, barText name k n)]
  | .enable _ => []

/-- The line about a script. -/
def scriptShown (p : Path) : Stream × Str := screenLine str!"Executing" (str!"script `" ++ p.getLast?.getD [] ++ str!"`")

/-- A build that succeeds, from the first script to the last line. -/
def buildShown (c : Context) (times : Times) : List (Stream × Str) :=
  c.pre.map scriptShown ++
  [screenLine str!"Building" (c.stuart.config.name ++ str!" (" ++ dirStr c.dir ++ str!")")] ++
  (if c.stuart.config.saveMetadata then [screenLine str!"Exporting" str!"metadata to `metadata.json`"] else []) ++
  c.post.map scriptShown ++
  [screenLine str!"Finished" (finishedMsg times)]

/-- The manifest that is read. -/
def ManifestIs (S : Site) (s : Host) (manifest : Str) (path : Path) (raw : RawConfig) : Prop :=
  canonicalize s.world.disk S.cwd manifest = some path ∧
  ∃ b text, s.world.disk.at path = some (.file b) ∧ fromUtf8 b = some text ∧ S.parseToml text = .ok raw

/-- What is written about plugins while they are loaded. -/
def pluginsShown (S : Site) (K : Clock) (s : Host) (path : Path) (raw : RawConfig) : List (Stream × Str) :=
  (loadSay K.unkept K.load S.O path.dropLast (raw.dependencies.getD []) ⟨s.world, 0⟩).flatMap onScreen

/-- `m / 2^s` is the number of 53 binary digits that is nearest to `a / b`, the even one of two. -/
structure Nearest (a b m s : Nat) : Prop where
  low : 2 ^ 52 ≤ m
  high : m ≤ 2 ^ 53
  above : 2 * (m * b) ≤ 2 * (a * 2 ^ s) + b
  below : 2 * (a * 2 ^ s) ≤ 2 * (m * b) + b
  even : 2 * (m * b) = 2 * (a * 2 ^ s) + b ∨ 2 * (a * 2 ^ s) = 2 * (m * b) + b → m % 2 = 0

/-- How long the first `n` builds took, in microseconds: altogether, for the content, for the scripts, and for saving. -/
def tookTotal (K : Clock) (n : Nat) : List Nat :=
  (List.range n).map fun k => (K.times k).pre + (K.times k).build + (K.times k).save + (K.times k).post

def tookBuild (K : Clock) (n : Nat) : List Nat := (List.range n).map fun k => (K.times k).build

def tookScripts (K : Clock) (n : Nat) : List Nat := (List.range n).map fun k => (K.times k).pre + (K.times k).post

def tookFiles (K : Clock) (n : Nat) : List Nat := (List.range n).map fun k => (K.times k).save

/-- A number of hundredths, in writing. -/
inductive Hundredths : Nat → Str → Prop where
  | mk (n d e : Nat) (hd : d < 10) (he : e < 10) :
    Hundredths (100 * n + 10 * d + e) (Nat.toDigits 10 n ++ '.' :: (Nat.toDigits 10 d ++ Nat.toDigits 10 e))

/-- `q` hundredths of milliseconds are the mean of these times in microseconds, each cut to tenths of milliseconds, up to
0.00505 ms. -/
def IsMean (micros : List Nat) (q : Nat) : Prop :=
  200 * (q * micros.length) ≤ 2000 * (micros.map (· / 100)).sum + 101 * micros.length ∧
  2000 * (micros.map (· / 100)).sum ≤ 200 * (q * micros.length) + 101 * micros.length

end Stuart.Spec
