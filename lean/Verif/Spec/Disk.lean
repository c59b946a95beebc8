import Verif.Model.Disk
import Verif.Model.Build
/-
What is seen on a disk, and where the files of a site belong.
-/
namespace Stuart.Spec

/-- What is seen at a path without opening a directory. -/
inductive Kind where
  | file (b : Bytes)
  | dir
  | special
deriving DecidableEq

/-- What an entry is seen as. -/
def kind : Entry → Kind
  | .file b => .file b
  | .dir _ => .dir
  | .special => .special

/-- What is seen at a path. -/
def look (d : Entry) (p : Path) : Option Kind := (d.at p).map kind

/-- These nodes have, below the directories with these names, this node. -/
inductive Holds : List Node → List Str → Node → Prop
  | here {cs : List Node} {n : Node} : n ∈ cs → Holds cs [] n
  | down {cs cs' : List Node} {d src : Str} {ds : List Str} {n : Node} :
      .dir d cs' src ∈ cs → Holds cs' ds n → Holds cs (d :: ds) n

/-- A name a file or directory can have. -/
def PlainName (n : Str) : Prop := n ≠ [] ∧ n ≠ str!"." ∧ n ≠ str!".." ∧ '/' ∉ n

/-- A disk as there are: no directory has two entries of the same name, and names are plain. -/
def ProperDisk (d : Entry) : Prop :=
  ∀ p l, d.at p = some (.dir l) → (l.map Prod.fst).Nodup ∧ ∀ e ∈ l, PlainName e.1

/-- The file of this name is published. -/
def Published (cfg : Config) (name : Str) : Prop :=
  name ≠ str!"root.html" ∧ name ≠ str!"md.html" ∧ (cfg.saveDataFiles = true ∨ ¬ str!".json" <:+ name)

/-- The file of this name is a page that gets its own directory, named by the stem. -/
def OwnDir (cfg : Config) (name stem : Str) (p : Parsed) : Prop :=
  cfg.stripExtensions = true ∧ name = stem ++ str!".html" ∧ name ≠ str!"index.html" ∧ p ≠ .ignored

/-- The directory named by a stem, which may be empty or a dot. -/
def stemDir (stem : Str) : List Str := if stem = [] ∨ stem = str!"." then [] else [stem]

/-- Where the files of a site go, relative to the output directory. -/
inductive Goes (cfg : Config) (cs : List Node) : Path → Bytes → Prop
  | plain {ds : List Str} {name : Str} {b : Bytes} {p : Parsed} {m : Option Value} {src : Str} :
      Holds cs ds (.file name b p m src) → Published cfg name → (∀ stem, ¬ OwnDir cfg name stem p) →
      Goes cfg cs (ds ++ [name]) b
  | page {ds : List Str} {name stem : Str} {b : Bytes} {p : Parsed} {m : Option Value} {src : Str} :
      Holds cs ds (.file name b p m src) → Published cfg name → OwnDir cfg name stem p →
      Goes cfg cs (ds ++ stemDir stem ++ [str!"index.html"]) b

mutual
/-- The files of a node, in the order in which they are saved, each with the directories it is in. -/
def listing (ds : List Str) : Node → List (List Str × Node)
  | .file name b p m src => [(ds, .file name b p m src)]
  | .dir name cs _ => listingAll (ds ++ [name]) cs
/-- The same for several nodes. -/
def listingAll (ds : List Str) : List Node → List (List Str × Node)
  | [] => []
  | c :: cs => listing ds c ++ listingAll ds cs
end

/-- Where a file in these directories goes, and its contents. -/
def Lands (cfg : Config) (ds : List Str) : Node → Path → Bytes → Prop
  | .file name b p _ _, r, b' => b' = b ∧ Published cfg name ∧
      (((∀ stem, ¬ OwnDir cfg name stem p) ∧ r = ds ++ [name]) ∨
        ∃ stem, OwnDir cfg name stem p ∧ r = ds ++ stemDir stem ++ [str!"index.html"])
  | .dir .., _, _ => False

/-- The last of these files to go there has these contents. -/
def LandsLast (cfg : Config) (fs : List (List Str × Node)) (r : Path) (b : Bytes) : Prop :=
  ∃ pre f post, fs = pre ++ f :: post ∧ Lands cfg f.1 f.2 r b ∧ ∀ g ∈ post, ∀ b', ¬ Lands cfg g.1 g.2 r b'

/-- The directories of a site, relative to the output directory. -/
inductive GoesDir (cfg : Config) (cs : List Node) : Path → Prop
  | dir {ds : List Str} {d : Str} {cs' : List Node} {src : Str} :
      Holds cs ds (.dir d cs' src) → GoesDir cfg cs (ds ++ [d])
  | page {ds : List Str} {name stem : Str} {b : Bytes} {p : Parsed} {m : Option Value} {src : Str} :
      Holds cs ds (.file name b p m src) → Published cfg name → OwnDir cfg name stem p →
      GoesDir cfg cs (ds ++ stemDir stem)

/-- The names of a site are plain, and so are the directories its pages get. The one name ruled out besides is
`...html`, whose page would get the directory `..`. -/
def PlainNames (cfg : Config) (cs : List Node) : Prop :=
  ∀ ds n, Holds cs ds n → PlainName n.name ∧ (cfg.stripExtensions = true → n.name ≠ str!"...html")

end Stuart.Spec
