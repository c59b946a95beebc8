import Verif.Model.Report
import Verif.Proof.Errors
import Verif.Spec.Grammar
/-
Where the tokens of a file stand in it.
-/
namespace Stuart
open Spec

/-- A token that is no text comes from a tag of the file, and carries the place where the tag begins. -/
theorem parses_tag {U : Unicode} {path : Str} {plugins : List PluginFns} {pre rest : Str} {toks : List LTok}
    (h : Parses U path plugins pre rest toks) (hp : Tags U plugins pre) {t : LTok} (ht : t ∈ toks) (hr : ∀ s, t.inner ≠ .raw s) :
    ∃ pre' txt ws body rest', Tags U plugins pre' ∧ OpensAfter txt ∧ Blank ws ∧ TagText U plugins t.inner body ∧
      pre ++ rest = pre' ++ txt ++ str!"{{" ++ ws ++ body ++ str!"}}" ++ rest' ∧ t.path = path ∧
      t.line = lineAt (pre' ++ txt ++ str!"{{" ++ ws) ∧ t.col = colAt (pre' ++ txt ++ str!"{{" ++ ws) := by
  have raw : ∀ {pre s : Str}, t ∉ rawAt path pre s := by
    intro pre s h
    unfold rawAt at h
    split at h
    · simp at h
    · simp only [List.mem_singleton] at h
      exact hr s (by rw [h])
  induction h with
  | last pre rest _ => exact absurd ht raw
  | tag pre txt ws body rest toks u h1 h2 h3 h4 ih =>
    rcases List.mem_append.1 ht with ht | ht
    · exact absurd ht raw
    · rcases List.mem_cons.1 ht with rfl | ht
      · exact ⟨pre, txt, ws, body, rest, hp, h1, h2, h3, by simp, rfl, rfl, rfl⟩
      · obtain ⟨pre', txt', ws', body', rest', g1, g2, g3, g4, g5, g6⟩ := ih (.tag hp h1 h2 h3) ht
        exact ⟨pre', txt', ws', body', rest', g1, g2, g3, g4, by rw [← g5]; simp, g6⟩

theorem Raises.not_raw {I : St → Prop} {cx : Ctx} {t : LTok} {k : ProcErr} (h : Raises I cx t k) (s : Str) : t.inner ≠ .raw s := by
  cases h <;> simp_all

theorem runToks_tag {cx : Ctx} {toks : List LTok} {st : St} (hst : st.stack ≠ []) {e : PErr}
    (h : runToks cx toks st = .err e) :
    ∃ t ∈ toks, (∀ s, t.inner ≠ .raw s) ∧ e.path = t.path ∧ e.line = t.line ∧ e.col = t.col := by
  obtain ⟨t, k, ht, rfl, hr⟩ := runToks_errs (I := fun s => s.stack ≠ []) (Q := (· ∈ toks))
    ⟨fun _ h => h, fun _ _ _ hs => hs.ne_nil⟩ toks.length toks st e (Nat.le_refl _) (fun _ h => h) hst h
  exact ⟨t, ht, hr.not_raw, rfl, rfl, rfl⟩

end Stuart
