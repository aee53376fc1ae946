import Verif.Model.StackBuffer
/-!
# One write to a fixed buffer
-/
namespace Iris

theorem zipCopy_eq (dst : Bytes) : ∀ src : Bytes,
    zipCopy dst src = src.take dst.length ++ dst.drop src.length := by
  induction dst with
  | nil => intro src; cases src <;> simp [zipCopy]
  | cons d dst ih =>
    intro src
    cases src with
    | nil => simp [zipCopy]
    | cons b src => simp [zipCopy, ih src]

/-- A buffer of N bytes holding a text: its first N - 1 bytes, then only NULs. -/
def Holds (b : StackBuffer) (n : Nat) (text : Bytes) : Prop :=
  b.buf = text.take (n - 1) ++ List.replicate (n - min (n - 1) text.length) 0 ∧
  b.used = min (n - 1) text.length

theorem writeStr_holds (b : StackBuffer) (n : Nat) (hn : 0 < n) (text s : Bytes)
    (h : Holds b n text) : ∃ b', b.writeStr s = some b' ∧ Holds b' n (text ++ s) := by
  obtain ⟨h1, h2⟩ := h
  have hl : b.buf.length = n := by
    rw [h1, List.length_append, List.length_take, List.length_replicate]
    omega
  have hu : b.used ≤ b.buf.length - 1 := by omega
  rw [StackBuffer.writeStr, if_neg (by omega)]
  simp only [if_pos hu]
  refine ⟨_, rfl, ?_, ?_⟩
  · simp only
    rw [zipCopy_eq, List.length_drop, List.length_take, hl, h2, h1]
    have e1 : List.take (min (n - 1) text.length)
        (List.take (n - 1) text ++ List.replicate (n - min (n - 1) text.length) 0) =
        List.take (n - 1) text := by
      rw [List.take_append_of_le_length (by simp), List.take_of_length_le (by simp)]
    have e2 : List.drop (min (n - 1) text.length) (List.take (n - 1)
        (List.take (n - 1) text ++ List.replicate (n - min (n - 1) text.length) 0)) =
        List.replicate (n - 1 - min (n - 1) text.length) (0 : UInt8) := by
      rw [List.take_append, List.drop_append, List.take_of_length_le (by simp; omega),
        List.length_take, Nat.sub_self, List.drop_zero, List.drop_of_length_le (by simp), List.nil_append,
        List.take_replicate]
      congr 1
      omega
    have e3 : List.drop (n - 1) (List.take (n - 1) text ++
        List.replicate (n - min (n - 1) text.length) 0) = [(0 : UInt8)] := by
      rw [List.drop_append, List.drop_of_length_le (by simp; omega), List.nil_append, List.length_take,
        List.drop_replicate]
      have : n - min (n - 1) text.length - (n - 1 - min (n - 1) text.length) = 1 := by omega
      rw [this]
      rfl
    rw [e1, e2, e3]
    rw [List.take_append, List.drop_replicate, List.append_assoc, List.append_assoc, List.append_assoc]
    congr 1
    have e4 : min (n - 1) n - min (n - 1) text.length = n - 1 - text.length := by omega
    rw [e4]
    congr 1
    rw [show [(0 : UInt8)] = List.replicate 1 0 from rfl, List.replicate_append_replicate,
      List.length_append]
    congr 1
    omega
  · simp only [List.length_append]
    omega

end Iris
