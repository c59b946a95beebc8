import Verif.Spec.Whole
/-
The content as it is read and used, in order.
-/
namespace Stuart.Spec

mutual
/-- The entry of this name in the directory `p` is read as this node; `reads` says what a file of a name, a path and
contents is read as. -/
inductive ReadNode (reads : Str → Str → Bytes → Parsed → Prop) : Path → Str → Entry → Node → Prop
  | file {p : Path} {nm : Str} {b : Bytes} {c : Parsed} : reads nm (pathStr (p ++ [nm])) b c →
      ReadNode reads p nm (.file b) (.file nm b c none (pathStr (p ++ [nm])))
  | dir {p : Path} {nm : Str} {l : List (Str × Entry)} {cs : List Node} : ReadList reads (p ++ [nm]) l cs →
      ReadNode reads p nm (.dir l) (.dir nm cs (pathStr (p ++ [nm])))
/-- The entries of the directory `p` are read as these nodes, one for each, in the order in which the directory lists
them. -/
inductive ReadList (reads : Str → Str → Bytes → Parsed → Prop) : Path → List (Str × Entry) → List Node → Prop
  | nil {p : Path} : ReadList reads p [] []
  | cons {p : Path} {nm : Str} {e : Entry} {l : List (Str × Entry)} {c : Node} {cs : List Node} :
      ReadNode reads p nm e c → ReadList reads p l cs → ReadList reads p ((nm, e) :: l) (c :: cs)
end

/-- Without parsing every file is marked as ignored. -/
def Unparsed (_ _ : Str) (_ : Bytes) (c : Parsed) : Prop := c = .ignored

mutual
/-- A node with its markdown converted. -/
inductive UsedAs (ext : Ext) (cx : Ctx) (base : Frame) : Node → Node → Prop
  | file {nm : Str} {b : Bytes} {c c' : Parsed} {m : Option Value} {src : Str} : Converted ext cx base c c' →
      UsedAs ext cx base (.file nm b c m src) (.file nm b c' m src)
  | dir {nm src : Str} {cs ts : List Node} : UsedList ext cx base cs ts → UsedAs ext cx base (.dir nm cs src) (.dir nm ts src)
/-- Nodes with their markdown converted, in the same order. -/
inductive UsedList (ext : Ext) (cx : Ctx) (base : Frame) : List Node → List Node → Prop
  | nil : UsedList ext cx base [] []
  | cons {c t : Node} {cs ts : List Node} : UsedAs ext cx base c t → UsedList ext cx base cs ts →
      UsedList ext cx base (c :: cs) (t :: ts)
end

/-- The content in the directory `p`: its name, the nodes it is read as, and the same with the markdown converted. -/
structure Content (S : Sys) (plugins : List Plugin) (d : Entry) (p : Path) (base : Frame) (name : Str) (cs ts : List Node) :
    Prop where
  named : p.getLast? = some name
  read : ∃ l, d.at p = some (.dir l) ∧ ReadList (ReadAs S plugins) p l cs
  used : UsedList S.ext ⟨.dir name cs (pathStr p), S.dateFmt⟩ base cs ts

end Stuart.Spec
