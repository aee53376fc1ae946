import Verif.Model.Postcard
import Verif.Spec.Sizes
/-! # Lemmas on the sizes of messages -/
namespace Iris
open Spec

theorem sevenBits_eq (n : Nat) : (encVarint n).length = sevenBits n := by
  induction n using Nat.strongRecOn with
  | ind n ih =>
    unfold encVarint sevenBits
    split
    · rfl
    · rw [List.length_cons, ih (n / 128) (by omega)]

theorem unsigned32_eq (v : BitVec 32) : (zigzag v).toNat = unsigned v := by
  unfold zigzag unsigned
  have hlt := v.isLt
  by_cases h : v.msb = true
  · have h1 : v.sshiftRight (32 - 1) = BitVec.allOnes 32 := by
      apply BitVec.eq_of_getLsbD_eq
      intro i hi
      rw [BitVec.getLsbD_sshiftRight]
      simp only [BitVec.getLsbD_allOnes]
      have : decide (32 ≤ i) = false := by simp; omega
      simp only [this, h, hi, decide_true, Bool.not_false, Bool.true_and]
      split
      · have : i = 0 := by omega
        subst this
        rw [BitVec.msb_eq_getLsbD_last] at h
        exact h
      · rfl
    have hge := BitVec.msb_eq_true_iff_two_mul_ge.1 h
    rw [h1, BitVec.xor_allOnes, BitVec.toNat_not, BitVec.toNat_shiftLeft, Nat.shiftLeft_eq, BitVec.toInt_eq_msb_cond, if_pos h]
    rw [if_neg (by omega)]
    omega
  · have h0 : v.msb = false := by simpa using h
    have h1 : v.sshiftRight (32 - 1) = 0#32 := by
      apply BitVec.eq_of_getLsbD_eq
      intro i hi
      rw [BitVec.getLsbD_sshiftRight]
      have : decide (32 ≤ i) = false := by simp; omega
      simp only [this, h0, Bool.not_false, Bool.true_and, BitVec.getLsbD_zero]
      split
      · have : i = 0 := by omega
        subst this
        rw [BitVec.msb_eq_getLsbD_last] at h0
        exact h0
      · rfl
    have hge := BitVec.msb_eq_false_iff_two_mul_lt.1 h0
    rw [h1, BitVec.xor_zero, BitVec.toNat_shiftLeft, Nat.shiftLeft_eq, BitVec.toInt_eq_msb_cond, if_neg h, if_pos (by omega)]
    omega

theorem unsigned64_eq (v : BitVec 64) : (zigzag v).toNat = unsigned v := by
  unfold zigzag unsigned
  have hlt := v.isLt
  by_cases h : v.msb = true
  · have h1 : v.sshiftRight (64 - 1) = BitVec.allOnes 64 := by
      apply BitVec.eq_of_getLsbD_eq
      intro i hi
      rw [BitVec.getLsbD_sshiftRight]
      simp only [BitVec.getLsbD_allOnes]
      have : decide (64 ≤ i) = false := by simp; omega
      simp only [this, h, hi, decide_true, Bool.not_false, Bool.true_and]
      split
      · have : i = 0 := by omega
        subst this
        rw [BitVec.msb_eq_getLsbD_last] at h
        exact h
      · rfl
    have hge := BitVec.msb_eq_true_iff_two_mul_ge.1 h
    rw [h1, BitVec.xor_allOnes, BitVec.toNat_not, BitVec.toNat_shiftLeft, Nat.shiftLeft_eq, BitVec.toInt_eq_msb_cond, if_pos h]
    rw [if_neg (by omega)]
    omega
  · have h0 : v.msb = false := by simpa using h
    have h1 : v.sshiftRight (64 - 1) = 0#64 := by
      apply BitVec.eq_of_getLsbD_eq
      intro i hi
      rw [BitVec.getLsbD_sshiftRight]
      have : decide (64 ≤ i) = false := by simp; omega
      simp only [this, h0, Bool.not_false, Bool.true_and, BitVec.getLsbD_zero]
      split
      · have : i = 0 := by omega
        subst this
        rw [BitVec.msb_eq_getLsbD_last] at h0
        exact h0
      · rfl
    have hge := BitVec.msb_eq_false_iff_two_mul_lt.1 h0
    rw [h1, BitVec.xor_zero, BitVec.toNat_shiftLeft, Nat.shiftLeft_eq, BitVec.toInt_eq_msb_cond, if_neg h, if_pos (by omega)]
    omega

end Iris
