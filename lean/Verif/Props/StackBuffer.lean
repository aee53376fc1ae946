import Verif.Lemmas.StackBuffer
/-!
# C54: text in fixed buffers
-/
namespace Iris

/-- C54. For every size N ≥ 1 and every sequence of writes: nothing panics, the buffer contains
exactly the first N - 1 bytes of the concatenated text followed by a NUL (and only NULs up to its
end), and that text without the NUL is what is read back. -/
theorem C54_stack_buffer (n : Nat) (hn : 0 < n) (writes : List Bytes) :
    ∃ b pad, (StackBuffer.default n).writeAll writes = some b ∧
      b.buf = writes.flatten.take (n - 1) ++ 0 :: pad ∧ (∀ x ∈ pad, x = 0) ∧ b.buf.length = n ∧
      b.asBytes = some (writes.flatten.take (n - 1)) := by
  have hgen : ∀ (writes : List Bytes) (b : StackBuffer) (text : Bytes), Holds b n text →
      ∃ b', b.writeAll writes = some b' ∧ Holds b' n (text ++ writes.flatten) := by
    intro writes
    induction writes with
    | nil => intro b text h; exact ⟨b, rfl, by simpa using h⟩
    | cons s ss ih =>
      intro b text h
      obtain ⟨b1, e1, h1⟩ := writeStr_holds b n hn text s h
      obtain ⟨b2, e2, h2⟩ := ih b1 _ h1
      refine ⟨b2, ?_, ?_⟩
      · simp only [StackBuffer.writeAll, e1, e2]
      · rw [List.flatten_cons, ← List.append_assoc]; exact h2
  obtain ⟨b, e, h1, h2⟩ := hgen writes (.default n) [] ⟨by simp [StackBuffer.default], by
    simp [StackBuffer.default]⟩
  rw [List.nil_append] at h1 h2
  have hl : b.buf.length = n := by
    rw [h1, List.length_append, List.length_take, List.length_replicate]
    omega
  obtain ⟨j, hj⟩ : ∃ j, n - min (n - 1) writes.flatten.length = j + 1 :=
    ⟨n - min (n - 1) writes.flatten.length - 1, by omega⟩
  refine ⟨b, List.replicate j 0, e, ?_, ?_, hl, ?_⟩
  · rw [h1, hj, List.replicate_succ]
  · intro x hx
    exact (List.mem_replicate.mp hx).2
  · rw [StackBuffer.asBytes, if_pos (by omega), h2, h1, List.take_append_of_le_length (by simp),
      List.take_of_length_le (by simp)]

/-- Eight bytes, three writes, the second truncated and the third ignored. -/
example : ((StackBuffer.default 8).writeAll [[65, 66, 67], [68, 69, 70, 71, 72], [73]]) =
    some ⟨[65, 66, 67, 68, 69, 70, 71, 0], 7⟩ := by decide

/-- The hypothesis is needed: a buffer of no bytes panics on any write. -/
example : (StackBuffer.default 0).writeStr [] = none := by decide

end Iris
