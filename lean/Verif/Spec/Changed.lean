import Verif.Spec.Rename
/-
Projects whose content differs in certain ways.
-/
namespace Stuart.Spec

section
/- `F` says which contents may stand for which, given what they are read as. -/
variable (S : Sys) (plugins : List Plugin) (F : Bytes → Bytes → Parsed → Parsed → Prop)

mutual
/-- The entry of this name in the directory `p`, in both projects. -/
inductive Changed : Path → Str → Entry → Entry → Prop
  | file {p : Path} {nm : Str} {b b' : Bytes} {c c' : Parsed} : ReadAs S plugins nm (pathStr (p ++ [nm])) b c →
      ReadAs S plugins nm (pathStr (p ++ [nm])) b' c' → F b b' c c' → Changed p nm (.file b) (.file b')
  | dir {p : Path} {nm : Str} {l l' : List (Str × Entry)} : ChangedList (p ++ [nm]) l l' → Changed p nm (.dir l) (.dir l')
/-- The entries of the directory `p`. -/
inductive ChangedList : Path → List (Str × Entry) → List (Str × Entry) → Prop
  | nil {p : Path} : ChangedList p [] []
  | cons {p : Path} {nm : Str} {e e' : Entry} {l l' : List (Str × Entry)} : Changed p nm e e' → ChangedList p l l' →
      ChangedList p ((nm, e) :: l) ((nm, e') :: l')
end

/-- Two disks that are the same but for the content of a project, where files may differ in this way. -/
structure ChangedDisks (content : Path) (d d' : Entry) : Prop where
  alike : SameBut content [] d d'
  content : ∃ l l', d.at content = some (.dir l) ∧ d'.at content = some (.dir l') ∧ ChangedList S plugins F content l l'
end

end Stuart.Spec
