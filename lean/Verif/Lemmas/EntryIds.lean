import Verif.Spec.EntryIds
import Verif.Lemmas.LogText
import Verif.Lemmas.WinPipe
/-!
# Lemmas for C120
-/
namespace Iris
open Spec

/-- The byte of a digit, and its value. -/
theorem digit_byte : ∀ d : Fin 10, ∃ b, utf8 [Nat.digitChar d.val] = [b] ∧ kIsDigit b = true ∧ b.toNat - 48 = d.val := by
  have key : ∀ d : Fin 10, utf8 [Nat.digitChar d.val] = [UInt8.ofNat (48 + d.val)] ∧
      kIsDigit (UInt8.ofNat (48 + d.val)) = true ∧ (UInt8.ofNat (48 + d.val)).toNat - 48 = d.val := by
    decide +kernel
  exact fun d => ⟨_, key d⟩

/-- A number is written with digits, and reads back. -/
theorem dec_bytes (n : Nat) : (∀ b ∈ utf8 (dec n), kIsDigit b = true) ∧ utf8 (dec n) ≠ [] ∧
    (utf8 (dec n)).foldl (fun n b => n * 10 + (b.toNat - 48)) 0 = n := by
  induction n using Nat.strongRecOn with
  | ind n ih =>
    by_cases h : n < 10
    · rw [dec, Nat.toDigits_of_lt_base h]
      obtain ⟨b, h1, h2, h3⟩ := digit_byte ⟨n, h⟩
      rw [show utf8 [Nat.digitChar n] = [b] from h1]
      refine ⟨by simpa using h2, by simp, by simpa using h3⟩
    · obtain ⟨i1, -, i3⟩ := ih (n / 10) (by omega)
      rw [dec] at i1 i3
      rw [dec, Nat.toDigits_of_base_le (by omega) (by omega), utf8_append]
      obtain ⟨b, h1, h2, h3⟩ := digit_byte ⟨n % 10, by omega⟩
      rw [show utf8 [Nat.digitChar (n % 10)] = [b] from h1]
      refine ⟨?_, by simp, ?_⟩
      · intro x hx
        rcases List.mem_append.1 hx with hx | hx
        · exact i1 x hx
        · simp at hx; subst hx; exact h2
      · rw [List.foldl_append, i3]
        simp only [List.foldl_cons, List.foldl_nil]
        have h3 : b.toNat - 48 = n % 10 := h3
        rw [h3]; omega

/-- A number followed by something else than a digit is read, and what follows is left. -/
theorem kNumber_dec (n : Nat) (h : n < 2 ^ 32) (b : UInt8) (r : Bytes) (hb : kIsDigit b = false) :
    kNumber (utf8 (dec n) ++ b :: r) = (n, b :: r) := by
  obtain ⟨h1, -, h3⟩ := dec_bytes n
  rw [kNumber, List.takeWhile_append_of_pos h1, List.dropWhile_append_of_pos h1]
  simp only [List.takeWhile_cons, hb, List.dropWhile_cons]
  simp only [Bool.false_eq_true, if_false, List.append_nil, h3]
  rw [Nat.mod_eq_of_lt h]

theorem kDigit_space {b : UInt8} (h : kIsDigit b = true) : kIsSpace b = false ∧ b ≠ 10 ∧ b ≠ 0 := by
  simp only [kIsDigit, Bool.and_eq_true, decide_eq_true_eq, UInt8.le_iff_toNat_le] at h
  have h1 : (48 : UInt8).toNat = 48 := rfl
  have h2 : (57 : UInt8).toNat = 57 := rfl
  rw [h1, h2] at h
  refine ⟨?_, ?_, ?_⟩
  · simp only [kIsSpace, Bool.or_eq_false_iff, decide_eq_false_iff_not, Bool.and_eq_false_iff, UInt8.le_iff_toNat_le]
    have h9 : (9 : UInt8).toNat = 9 := rfl
    have h13 : (13 : UInt8).toNat = 13 := rfl
    rw [h9, h13]
    refine ⟨⟨?_, by omega⟩, ?_⟩
    · rintro rfl; exact absurd h.1 (by decide)
    · rintro rfl; exact absurd h.2 (by decide)
  · rintro rfl; exact absurd h.1 (by decide)
  · rintro rfl; exact absurd h.1 (by decide)

/-- Spaces are skipped up to a number. -/
theorem kSkip_dec (n : Nat) (r : Bytes) : kSkip (utf8 (dec n) ++ r) = utf8 (dec n) ++ r := by
  obtain ⟨h1, h2, -⟩ := dec_bytes n
  cases he : utf8 (dec n) with
  | nil => exact absurd he h2
  | cons b l =>
    rw [he] at h1
    rw [kSkip, List.cons_append, List.dropWhile_cons]
    rw [(kDigit_space (h1 b (by simp))).1]
    simp

theorem kLines_free : ∀ (b cur : Bytes), (10 : UInt8) ∉ b → kLines cur (b ++ [10]) = [cur.reverse ++ b]
  | [], cur, _ => by simp [kLines]
  | x :: b, cur, h => by
    have hx : x ≠ 10 := fun e => h (by simp [e])
    rw [List.cons_append, kLines, if_neg hx, kLines_free b (x :: cur) (fun e => h (by simp [e]))]
    simp

/-- The line of a map without its end. -/
theorem idMap_eq (n : Nat) : idMap n = (utf8 (dec n) ++ 32 :: (utf8 (dec n) ++ [32, 49])) ++ [10] := by
  rw [idMap, utf8_append, utf8_append, show utf8 c!" 1\n" = [32, 49, 10] from by decide +kernel]
  rw [show utf8 (' ' :: dec n) = 32 :: utf8 (dec n) from by
    rw [show (' ' :: dec n) = [' '] ++ dec n from rfl, utf8_append, show utf8 [' '] = [32] from by decide +kernel]; rfl]
  simp

theorem idMap_pos (n : Nat) : 0 < (idMap n).length := by
  rw [idMap_eq, List.length_append, List.length_singleton]; omega

/-- What the broker writes to a map is one line, for its own identifier. -/
theorem kParseMap_idMap (n : Nat) (h : n < 2 ^ 32 - 1) : kParseMap (idMap n) = some [⟨n, n, 1⟩] := by
  obtain ⟨h1, h2, -⟩ := dec_bytes n
  have hl : (utf8 (dec n)).length ≤ 10 := by
    rw [(utf8_plain _ (dec_plain n)).1]; exact dec_length n (by omega)
  have hm : ∀ b ∈ utf8 (dec n) ++ 32 :: (utf8 (dec n) ++ [32, 49]), b ≠ 10 ∧ b ≠ 0 := by
    intro b hb
    simp only [List.mem_append, List.mem_cons, List.not_mem_nil, or_false] at hb
    rcases hb with hb | rfl | hb | rfl | rfl
    · exact ⟨(kDigit_space (h1 b hb)).2.1, (kDigit_space (h1 b hb)).2.2⟩
    · decide
    · exact ⟨(kDigit_space (h1 b hb)).2.1, (kDigit_space (h1 b hb)).2.2⟩
    · decide
    · decide
  have hlen : ¬ 4096 ≤ (idMap n).length := by rw [idMap_eq]; simp; omega
  rw [kParseMap, if_neg hlen]
  have ht : (idMap n).takeWhile (· ≠ 0) = idMap n := by
    rw [idMap_eq]
    conv => lhs; rw [← List.append_nil (_ ++ _)]
    rw [List.takeWhile_append_of_pos]
    · simp
    intro b hb
    simp only [decide_eq_true_eq]
    rcases List.mem_append.1 hb with hb | hb
    · exact (hm b hb).2
    · simp at hb; subst hb; decide
  rw [ht, idMap_eq, kLines_free _ _ (fun e => (hm _ e).1 rfl)]
  have he : kExtent (utf8 (dec n) ++ 32 :: (utf8 (dec n) ++ [32, 49])) = some ⟨n, n, 1⟩ := by
    have s1 : ∀ r, kSkip (32 :: r) = kSkip r := fun r => by rw [kSkip, List.dropWhile_cons]; rfl
    have e1 : kNumber (kSkip [32, 49]) = (1, []) := by decide +kernel
    rw [kExtent, kSkip_dec, kNumber_dec n (by omega) 32 _ (by decide)]
    simp only [s1, kSkip_dec]
    rw [show utf8 (dec n) ++ [32, 49] = utf8 (dec n) ++ 32 :: [49] from rfl, kNumber_dec n (by omega) 32 _ (by decide)]
    simp only [e1]
    have a1 : ¬ (n = 2 ^ 32 - 1 ∨ n = 2 ^ 32 - 1) := by omega
    have a2 : ¬ (1 = 0 ∨ 2 ^ 32 ≤ n + 1 ∨ 2 ^ 32 ≤ n + 1) := by omega
    rw [if_neg a1, if_neg a2]
    rfl
  simp [kExtents, he]

theorem is_single (n : Nat) : OnlyItself [⟨n, n, 1⟩] n := by
  intro i o
  simp only [Is, List.mem_singleton, exists_eq_left]
  omega

theorem nobody_nil : Nobody [] := by rintro i o ⟨e, he, -⟩; simp at he

end Iris
