import Verif.Spec.Fields
import Verif.Spec.Scope
/-
Values that templates cannot tell apart.
-/
namespace Stuart.Spec

/-- What a value has under this key: nothing there is as good as null. -/
def part : Value → Str → Value
  | .obj l, k => match l.find? fun e => e.1 == k with
    | some e => e.2
    | none => .null
  | _, _ => .null

/-- Neither text nor number nor list nor null: an object or a truth value. -/
def IsThing : Value → Prop
  | .bool _ => True
  | .obj _ => True
  | _ => False

/-- SeenAlike: the same text; the same integral part; lists alike element by element; objects (or truth values, which have no parts) alike under every
key without a point in it; null. So truth values are all alike, it does not matter in which order the fields of an object are, nor
whether one is null or not there, and a second one of the same name is not seen. -/
inductive SeenAlike : Value → Value → Prop
  | null : SeenAlike .null .null
  | num {n n' : Num} : n.toI32 = n'.toI32 → SeenAlike (.num n) (.num n')
  | str (s : Str) : SeenAlike (.str s) (.str s)
  | arr {l l' : List Value} : l.length = l'.length → (∀ (i : Nat) (v v' : Value), l[i]? = some v → l'[i]? = some v' → SeenAlike v v') →
      SeenAlike (.arr l) (.arr l')
  | thing {v v' : Value} : IsThing v → IsThing v' → (∀ k : Str, '.' ∉ k → SeenAlike (part v k) (part v' k)) → SeenAlike v v'

/-- No list in the value has more than 2^64 elements. -/
def Fits (v : Value) : Prop := ∀ (path : List Str) (l : List Value), follow path v = .arr l → l.length ≤ 2 ^ 64

/-- The first value of this name in frontmatter. -/
def frontOf (l : List (Str × Str)) (k : Str) : Option Str := (l.find? fun e => e.1 == k).map fun e => e.2

/-- A template without functions of plugins. -/
def PluginFree (toks : List LTok) : Prop := ∀ t ∈ toks, ∀ f, t.inner ≠ .func (.plugin f)

/-- What two files are read as, with their contents: the same template; markdown with the same body, and frontmatter that is the same under each name
without a point; data that is alike; or other contents, the same. -/
inductive FileAlike : Bytes → Bytes → Parsed → Parsed → Prop
  | html {b b' : Bytes} {toks : List LTok} : PluginFree toks → FileAlike b b' (.html toks) (.html toks)
  | markdown {b b' : Bytes} {md md' : ParsedMd} : (∀ k, '.' ∉ k → frontOf md.frontmatter k = frontOf md'.frontmatter k) →
      md.markdownString = md'.markdownString → md.html = md'.html → md.markdown = md'.markdown → PluginFree md.markdown →
      FileAlike b b' (.markdown md) (.markdown md')
  | data {b b' : Bytes} {v v' : Value} : SeenAlike v v' → FileAlike b b' (.json v) (.json v')
  | other {b : Bytes} : FileAlike b b .none .none

end Stuart.Spec
