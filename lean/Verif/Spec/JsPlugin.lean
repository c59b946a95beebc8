import Verif.Model.JsLoad
/-
What a JavaScript plugin should export.
-/
namespace Stuart.Spec

/-- An object with this property. -/
def HasProp (v : JsExport) (name : Str) (x : JsExport) : Prop :=
  ∃ l, v = .obj l ∧ (l.map Prod.fst).Nodup ∧ (name, x) ∈ l

/-- A function as a plugin lists it: `{ name: "…", fn: … }`. -/
def ListsFn (v : JsExport) (f : Str × (List JsVal → JsRun)) : Prop :=
  HasProp v str!"name" (.str f.1) ∧ ∃ n params, HasProp v str!"fn" (.fn n params f.2)

/-- Two lists whose members correspond one to one. -/
inductive Each {α β : Type} (R : α → β → Prop) : List α → List β → Prop
  | nil : Each R [] []
  | cons {a : α} {b : β} {as : List α} {bs : List β} : R a b → Each R as bs → Each R (a :: as) (b :: bs)

/-- A plugin as a module exports it: `{ name: "…", functions: [ … ] }`. -/
structure Exports (v : JsExport) (name : Str) (fns : List (Str × (List JsVal → JsRun))) : Prop where
  named : HasProp v str!"name" (.str name)
  lists : ∃ l, HasProp v str!"functions" (.arr l) ∧ l.length < 4294967296 ∧ Each ListsFn l fns

/-- Neither `undefined` nor `null`. -/
def Something (v : JsExport) : Prop := v ≠ .undefined ∧ v ≠ .null

/-- The value a thing has under a name; `undefined` if it has none. -/
def Under (v : JsExport) (name : Str) (x : JsExport) : Prop := v.get name = x

/-- Why a file is no plugin: it is not text, no module, exports nothing, lists no functions, or one place in the list is
empty. -/
inductive NoPlugin (E : JsEngine) (b : Bytes) : JsErr → Prop
  | text : (¬ ∃ s, b = bytesOf s) → NoPlugin E b .read
  | module {s : Str} : b = bytesOf s → E.evaluate s = none → NoPlugin E b .module
  | nothing {s : Str} {v : JsExport} : b = bytesOf s → E.evaluate s = some v → ¬ Something v → NoPlugin E b .noDefault
  | noList {s : Str} {v fns : JsExport} : b = bytesOf s → E.evaluate s = some v → Something v → Under v str!"functions" fns →
      ¬ Something fns → NoPlugin E b .noFunctions
  | noEntry {s : Str} {v fns len : JsExport} {n k : Nat} : b = bytesOf s → E.evaluate s = some v → Something v →
      Under v str!"functions" fns → Something fns → Under fns str!"length" len → E.uint32Of len = some n → k < n →
      ¬ Something (fns.index k) → (∀ j, j < k → Something (fns.index j)) → NoPlugin E b (.noFunction k)

end Stuart.Spec
