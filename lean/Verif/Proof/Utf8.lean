import Verif.Model.Build
/-
UTF-8 encoding and decoding are inverse.
-/
namespace Stuart

theorem bytesOf_append (a b : Str) : bytesOf (a ++ b) = bytesOf a ++ bytesOf b := by simp [bytesOf]

theorem bytesOf_cons (c : Char) (cs : Str) : bytesOf (c :: cs) = String.utf8EncodeChar c ++ bytesOf cs := rfl

theorem toByteArray_append (a b : Bytes) : (a ++ b).toByteArray = a.toByteArray ++ b.toByteArray := by
  ext1
  simp [List.data_toByteArray]

theorem decodeGo_bytesOf : ∀ (s : Str) (f : Nat), (bytesOf s).length ≤ f → decodeGo f (bytesOf s) = some s := by
  intro s
  induction s with
  | nil => intro f _; cases f <;> rfl
  | cons c cs ih =>
    intro f hf
    rw [bytesOf_cons] at hf ⊢
    have hlen : (String.utf8EncodeChar c).length = c.utf8Size := String.length_utf8EncodeChar c
    have hpos := c.utf8Size_pos
    cases f with
    | zero => simp [hlen] at hf; omega
    | succ f =>
      cases hb : String.utf8EncodeChar c ++ bytesOf cs with
      | nil =>
        have := congrArg List.length hb
        simp [hlen] at this; omega
      | cons b bs =>
        unfold decodeGo
        have h4 : (String.utf8EncodeChar c).length ≤ 4 := by rw [hlen]; exact c.utf8Size_le_four
        rw [← hb, List.take_append, List.take_of_length_le h4, toByteArray_append, ByteArray.utf8DecodeChar?_utf8EncodeChar_append]
        simp only
        rw [← hlen, List.drop_left, ih f (by simp [hlen] at hf; omega)]
        rfl

theorem fromUtf8_bytesOf (s : Str) : fromUtf8 (bytesOf s) = some s := decodeGo_bytesOf s _ (Nat.le_refl _)

theorem decodeGo_sound : ∀ (f : Nat) (b : Bytes) (s : Str), decodeGo f b = some s → b = bytesOf s := by
  intro f
  induction f with
  | zero =>
    intro b s h
    cases b with
    | nil => simp only [decodeGo, Option.some.injEq] at h; subst h; rfl
    | cons => simp [decodeGo] at h
  | succ f ih =>
    intro b s h
    cases b with
    | nil => simp only [decodeGo, Option.some.injEq] at h; subst h; rfl
    | cons b bs =>
      unfold decodeGo at h
      split at h
      · simp at h
      · rename_i c hc
        obtain ⟨l, hl⟩ := ByteArray.exists_of_utf8DecodeChar?_eq_some hc
        have h4 : (b :: bs).take 4 = String.utf8EncodeChar c ++ l.data.toList := by
          have := congrArg (fun x => x.data.toList) hl
          simpa [List.data_toByteArray] using this
        have hl' : b :: bs = String.utf8EncodeChar c ++ (l.data.toList ++ (b :: bs).drop 4) := by
          rw [← List.append_assoc, ← h4, List.take_append_drop]
        rw [Option.map_eq_some_iff] at h
        obtain ⟨cs, h1, h2⟩ := h
        subst h2
        rw [hl'] at h1 ⊢
        rw [← String.length_utf8EncodeChar c, List.drop_left] at h1
        rw [bytesOf_cons, ← ih _ _ h1]

theorem fromUtf8_sound {b : Bytes} {s : Str} (h : fromUtf8 b = some s) : b = bytesOf s := decodeGo_sound _ _ _ h

end Stuart
