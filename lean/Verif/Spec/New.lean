import Verif.Model.New
import Verif.Spec.Disk
/-
What a new site is: its files, its manifest, and the page that comes of it.
-/
namespace Stuart.Spec

/-! ### Strings in TOML (https://toml.io/en/v1.0.0#string) -/

/-- Characters that stand for themselves in a basic string. -/
def TomlPlain (c : Char) : Prop := c ≠ '"' ∧ c ≠ '\\' ∧ (c = '\t' ∨ (32 ≤ c.toNat ∧ c.toNat ≠ 127))

/-- The escapes of one letter. -/
def tomlEscapes : List (Char × Char) :=
  [('b', Char.ofNat 8), ('t', '\t'), ('n', '\n'), ('f', Char.ofNat 12), ('r', '\r'), ('"', '"'), ('\\', '\\')]

/-- The value of a hexadecimal digit. -/
def hexDigit (c : Char) : Option Nat :=
  if '0' ≤ c ∧ c ≤ '9' then some (c.toNat - '0'.toNat)
  else if 'a' ≤ c ∧ c ≤ 'f' then some (c.toNat - 'a'.toNat + 10)
  else if 'A' ≤ c ∧ c ≤ 'F' then some (c.toNat - 'A'.toNat + 10)
  else none

/-- These hexadecimal digits have this value. -/
inductive Hex : Str → Nat → Prop
  | nil : Hex [] 0
  | snoc {s : Str} {n d : Nat} {c : Char} : Hex s n → hexDigit c = some d → Hex (s ++ [c]) (16 * n + d)

/-- What stands between the quotes of a basic string, and the string meant. -/
inductive BasicString : Str → Str → Prop
  | nil : BasicString [] []
  | plain {s v : Str} {c : Char} : TomlPlain c → BasicString s v → BasicString (c :: s) (c :: v)
  | escape {s v : Str} {e c : Char} : (e, c) ∈ tomlEscapes → BasicString s v → BasicString ('\\' :: e :: s) (c :: v)
  | unicode {s v ds : Str} {u c : Char} : (u = 'u' ∧ ds.length = 4) ∨ (u = 'U' ∧ ds.length = 8) → Hex ds c.toNat →
      BasicString s v → BasicString ('\\' :: u :: (ds ++ s)) (c :: v)

/-- A string that needs no escapes. -/
def Ordinary (s : Str) : Prop := ∀ c ∈ s, TomlPlain c

/-- The text of a manifest that gives the name of a site and perhaps its author, one to a line. -/
inductive ManifestOf : Str → Str → Option Str → Prop
  | name {a n : Str} : BasicString a n → ManifestOf (str!"[site]\nname = \"" ++ a ++ str!"\"\n") n none
  | author {a n b m : Str} : BasicString a n → BasicString b m →
      ManifestOf (str!"[site]\nname = \"" ++ a ++ str!"\"\nauthor = \"" ++ b ++ str!"\"\n") n (some m)

/-- The author according to Git: `name <address>`, if both are known. -/
def authorOf (G : GitTool) : Option Str :=
  G.userName.bind fun n => G.userEmail.map fun e => n ++ str!" <" ++ e ++ str!">"

/-- The text of a manifest that gives the name of a site and perhaps its author as they are. -/
def manifestText (name : Str) : Option Str → Str
  | none => str!"[site]\nname = \"" ++ name ++ str!"\"\n"
  | some a => str!"[site]\nname = \"" ++ name ++ str!"\"\nauthor = \"" ++ a ++ str!"\"\n"

/-! ### Files -/

/-- The files of a new site. -/
def newSite (manifest png : Bytes) : Entry :=
  .dir [
    (str!"content", .dir [
      (str!"index.html", .file (bytesOf defaultIndex)),
      (str!"root.html", .file (bytesOf defaultRoot))]),
    (str!"static", .dir [
      (str!"lightning.png", .file png),
      (str!"style.css", .file (bytesOf defaultStyle))]),
    (str!"stuart.toml", .file manifest)]

/-- Git, asked for a repository in this directory, makes nothing but its own directory there. -/
def GitKeeps (G : GitTool) (p : Path) : Prop :=
  ∀ d, look d p = some .dir →
    (∀ q, ¬ (p ++ [str!".git"]) <+: q → ¬ q <+: p → (G.init p d).at q = d.at q) ∧
    (∀ q, q <+: p → look (G.init p d) q = some .dir)

/-- Git, asked for a repository in this directory, changes nothing outside. -/
def GitStays (G : GitTool) (p : Path) : Prop := ∀ d q, ¬ p <+: q → look (G.init p d) q = look d q

/-- The page of a new site. -/
def newPage : Str :=
  str!"<html lang=\"en\">\n" ++
  str!"  \n" ++
  str!"<head>\n" ++
  str!"  <meta charset=\"UTF-8\">\n" ++
  str!"  <meta http-equiv=\"X-UA-Compatible\" content=\"IE=edge\">\n" ++
  str!"  <meta name=\"viewport\" content=\"width=device-width, initial-scale=1.0\">\n" ++
  str!"  <link rel=\"stylesheet\" href=\"style.css\">\n" ++
  str!"  \n" ++
  str!"  \n" ++
  str!"<title>Stuart</title>\n" ++
  str!"\n" ++
  str!"</head>\n" ++
  str!"\n" ++
  str!"<body>\n" ++
  str!"  <main>\n" ++
  str!"    \n" ++
  str!"<img src=\"/lightning.png\" width=250>\n" ++
  str!"\n" ++
  str!"<h2>Welcome to Stuart!</h2>\n" ++
  str!"\n" ++
  str!"<p>\n" ++
  str!"  Edit <code>content/index.html</code> and save to reload.\n" ++
  str!"</p>\n" ++
  str!"\n" ++
  str!"  </main>\n" ++
  str!"</body>\n" ++
  str!"\n" ++
  str!"</html>"

/-- The site built from a new site. -/
def newOutput (png : Bytes) : Entry :=
  .dir [
    (str!"index.html", .file (bytesOf newPage)),
    (str!"lightning.png", .file png),
    (str!"style.css", .file (bytesOf defaultStyle))]

end Stuart.Spec
