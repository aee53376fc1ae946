import Verif.Spec.Asm
/-!
# Reading what was written
-/
namespace Iris.Asm

theorem readNat_of {w : Nat} (m : Mem w) (n : Nat) : ∀ (a : BitVec w) (v : Nat),
    (∀ i, i < n → (m (a + BitVec.ofNat w i)).toNat = v / 256 ^ i % 256) →
    readNat m n a = v % 256 ^ n := by
  induction n with
  | zero => intro a v _; simp [readNat, Nat.mod_one]
  | succ n ih =>
    intro a v h
    have h0 := h 0 (by omega)
    simp only [Nat.pow_zero, Nat.div_one, BitVec.add_zero] at h0
    rw [readNat, h0, ih (a + 1) (v / 256)]
    · rw [Nat.pow_succ', Nat.mod_mul]
    · intro i hi
      have h1 := h (i + 1) (by omega)
      rw [Nat.div_div_eq_div_mul, ← Nat.pow_succ', ← h1]
      congr 2
      rw [BitVec.add_assoc]
      congr 1
      apply BitVec.eq_of_toNat_eq
      simp [BitVec.toNat_add, Nat.add_comm]

theorem readNat_congr {w : Nat} (m m' : Mem w) (n : Nat) : ∀ (a : BitVec w),
    (∀ i, i < n → m (a + BitVec.ofNat w i) = m' (a + BitVec.ofNat w i)) →
    readNat m n a = readNat m' n a := by
  induction n with
  | zero => intro a _; rfl
  | succ n ih =>
    intro a h
    have h0 := h 0 (by omega)
    simp only [BitVec.add_zero] at h0
    rw [readNat, readNat, h0, ih (a + 1)]
    intro i hi
    have h1 := h (i + 1) (by omega)
    have e : a + 1 + BitVec.ofNat w i = a + BitVec.ofNat w (i + 1) := by
      rw [BitVec.add_assoc]
      congr 1
      apply BitVec.eq_of_toNat_eq
      simp [BitVec.toNat_add, Nat.add_comm]
    rw [e]
    exact h1

theorem add_sub_self {w : Nat} (a b : BitVec w) : a + b - a = b := by
  rw [BitVec.add_comm, BitVec.add_sub_cancel]

theorem add_sub_add {w : Nat} (r a b : BitVec w) : r + b - (r + a) = b - a := by
  grind

theorem read_write_same {w : Nat} (hw : 256 ^ (w / 8) = 2 ^ w) (hl : w / 8 < 2 ^ w) (m : Mem w)
    (a v : BitVec w) : read (write m a v) a = v := by
  rw [read, readNat_of _ _ a v.toNat, hw, Nat.mod_eq_of_lt v.isLt, BitVec.ofNat_toNat,
    BitVec.setWidth_eq]
  intro i hi
  have h1 : (a + BitVec.ofNat w i - a).toNat = i := by
    rw [add_sub_self, BitVec.toNat_ofNat, Nat.mod_eq_of_lt (by omega)]
  simp only [write, h1, if_pos hi, BitVec.toNat_ofNat]

theorem read_congr {w : Nat} (hl : w / 8 < 2 ^ w) (m m' : Mem w) (a : BitVec w)
    (h : ∀ x, Spec.InRange a (w / 8) x → m x = m' x) : read m a = read m' a := by
  rw [read, read, readNat_congr m m']
  intro i hi
  apply h
  rw [Spec.InRange, add_sub_self, BitVec.toNat_ofNat, Nat.mod_eq_of_lt (by omega)]
  exact hi

theorem write_other {w : Nat} (m : Mem w) (a v x : BitVec w) (h : ¬ Spec.InRange a (w / 8) x) :
    write m a v x = m x := by
  rw [Spec.InRange] at h
  simp only [write, if_neg h]

theorem read_write_other {w : Nat} (hl : w / 8 < 2 ^ w) (m : Mem w) (r v : BitVec w) (i j : BitVec w)
    (h1 : w / 8 ≤ (j - i).toNat) (h2 : (j - i).toNat + w / 8 ≤ 2 ^ w) :
    read (write m (r + i) v) (r + j) = read m (r + j) := by
  apply read_congr hl
  intro x hx
  apply write_other
  rw [Spec.InRange] at hx ⊢
  have e : (x - (r + i)) = (x - (r + j)) + (j - i) := by
    clear hx h1 h2 hl
    grind
  rw [e, BitVec.toNat_add, Nat.mod_eq_of_lt (by omega)]
  omega

theorem rw64_same (m : Mem 64) (a v : BitVec 64) : read (write m a v) a = v :=
  read_write_same (by decide) (by decide) m a v
theorem rw32_same (m : Mem 32) (a v : BitVec 32) : read (write m a v) a = v :=
  read_write_same (by decide) (by decide) m a v
theorem rw64_other (m : Mem 64) (r v i j : BitVec 64)
    (h : 8 ≤ (j - i).toNat ∧ (j - i).toNat ≤ 0xFFFFFFFFFFFFFFF8) :
    read (write m (r + i) v) (r + j) = read m (r + j) :=
  read_write_other (by decide) m r v i j h.1 (by have := h.2; omega)
theorem rw32_other (m : Mem 32) (r v i j : BitVec 32)
    (h : 4 ≤ (j - i).toNat ∧ (j - i).toNat ≤ 0xFFFFFFFC) :
    read (write m (r + i) v) (r + j) = read m (r + j) :=
  read_write_other (by decide) m r v i j h.1 (by have := h.2; omega)


open Spec

theorem six_eta {α : Type} (a : Fin 6 → α) : six (a 0) (a 1) (a 2) (a 3) (a 4) (a 5) = a := by
  funext i
  match i with
  | 0 => rfl | 1 => rfl | 2 => rfl | 3 => rfl | 4 => rfl | 5 => rfl

/-- The memory the kernel sees from the 64-bit stub: everything was spilled to the stack. -/
def callMem64 (m : Mem 64) (r nb : BitVec 64) (a : Fin 6 → BitVec 64) : Mem 64 :=
  write (write (write (write (write (write (write (write (write (write m
    (r + 0#64) (a 4)) (r + 8#64) (a 2)) (r + 16#64) (a 1)) (r + 24#64) (a 0))
    (r + 40#64) nb) (r + 48#64) (a 0)) (r + 56#64) (a 1)) (r + 64#64) (a 2)) (r + 72#64) (a 3))
    (r + 80#64) (a 4)

theorem run64_aux (k : Kernel 64) (s : St Reg64 64) (nb : BitVec 64) (a : Fin 6 → BitVec 64)
    (hc : CCall64 s nb a) (r : BitVec 64) (hr : s.regs .rsp = r + 88#64) :
    ∃ x, run cpu64 k rerun64 s = some x ∧
      x.2 = [⟨nb, a, s.ip + BitVec.ofNat 64 asmOffset64⟩] ∧
      x.1.regs .rax = (k ⟨nb, a, s.ip + BitVec.ofNat 64 asmOffset64⟩ (callMem64 s.mem r nb a)).result ∧
      x.1.mem = write (k ⟨nb, a, s.ip + BitVec.ofNat 64 asmOffset64⟩ (callMem64 s.mem r nb a)).mem
        (r + 32#64)
        (k ⟨nb, a, s.ip + BitVec.ofNat 64 asmOffset64⟩ (callMem64 s.mem r nb a)).result ∧
      x.1.ip = read (k ⟨nb, a, s.ip + BitVec.ofNat 64 asmOffset64⟩ (callMem64 s.mem r nb a)).mem
        (r + 88#64) ∧
      x.1.regs .rsp = r + 88#64 + 8#64 ∧
      ∀ q ∈ preserved64, x.1.regs q = s.regs q := by
  obtain ⟨h1, h2, h3, h4, h5, h6, h7⟩ := hc
  rw [hr, BitVec.add_assoc] at h7
  have h7 : read s.mem (r + 96#64) = a 5 := h7
  simp only [rerun64, run, step, cpu64, upd, reduceCtorEq, ite_true, ite_false, hr, h1, h2, h3, h4, h5, h6, Option.map_some,
    BitVec.add_sub_cancel, Option.some.injEq, exists_eq_left', rw64_same, List.nil_append, List.append_nil]
  have hr9 : read (write (write (write (write s.mem (r + 0#64) (a 4)) (r + 8#64) (a 2)) (r + 16#64) (a 1))
      (r + 24#64) (a 0)) (r + 96#64) = a 5 := by
    rw [rw64_other, rw64_other, rw64_other, rw64_other, h7] <;> decide
  rw [hr9]
  simp only [six_eta, BitVec.add_assoc s.ip]
  refine ⟨rfl, rfl, rfl, ?_, trivial, ?_⟩
  · rw [rw64_other _ _ _ _ _ (by decide)]
    rfl
  · intro q hq
    simp only [preserved64, List.mem_cons, List.not_mem_nil, or_false] at hq
    rcases hq with rfl | rfl | rfl | rfl | rfl | rfl <;> rfl

/-- The memory the kernel sees from the 32-bit stub: the saved registers are on the stack. -/
def callMem32 (m : Mem 32) (r ebp ebx esi edi : BitVec 32) : Mem 32 :=
  write (write (write (write m (r + 12#32) ebp) (r + 8#32) ebx) (r + 4#32) esi) (r + 0#32) edi

theorem run32_aux (k : Kernel 32) (s : St Reg32 32) (nb : BitVec 32) (a : Fin 6 → BitVec 32)
    (hc : CCall32 s nb a) (r : BitVec 32) (hr : s.regs .esp = r + 16#32) (call : Call 32)
    (hcall : call = ⟨nb, a, s.ip + BitVec.ofNat 32 asmOffset32⟩) :
    ∃ x, run cpu32 k rerun32 s = some x ∧
      x.2 = [call] ∧
      x.1.regs .eax = (k call (callMem32 s.mem r (s.regs .ebp) (s.regs .ebx) (s.regs .esi) (s.regs .edi))).result ∧
      x.1.mem = (k call (callMem32 s.mem r (s.regs .ebp) (s.regs .ebx) (s.regs .esi) (s.regs .edi))).mem ∧
      x.1.ip = read x.1.mem (r + 16#32) ∧
      x.1.regs .esp = r + 16#32 + 4#32 ∧
      x.1.regs .ebp = read x.1.mem (r + 12#32) ∧
      x.1.regs .ebx = read x.1.mem (r + 8#32) ∧
      x.1.regs .esi = read x.1.mem (r + 4#32) ∧
      x.1.regs .edi = read x.1.mem (r + 0#32) := by
  obtain ⟨h1, h2, h3, h4, h5, h6, h7⟩ := hc
  rw [hr, BitVec.add_assoc] at h1 h2 h3 h4 h5 h6 h7
  have d1 : r + 16#32 - BitVec.ofNat 32 (32 / 8) = r + 12#32 := by grind
  have d2 : r + 12#32 - BitVec.ofNat 32 (32 / 8) = r + 8#32 := by grind
  have d3 : r + 8#32 - BitVec.ofNat 32 (32 / 8) = r + 4#32 := by grind
  have d4 : r + 4#32 - BitVec.ofNat 32 (32 / 8) = r + 0#32 := by grind
  have u1 : r + 0#32 + BitVec.ofNat 32 (32 / 8) = r + 4#32 := by grind
  have u2 : r + 4#32 + BitVec.ofNat 32 (32 / 8) = r + 8#32 := by grind
  have u3 : r + 8#32 + BitVec.ofNat 32 (32 / 8) = r + 12#32 := by grind
  have u4 : r + 12#32 + BitVec.ofNat 32 (32 / 8) = r + 16#32 := by grind
  have hm : ∀ i : BitVec 32, 16 ≤ i.toNat → i.toNat ≤ 64 →
      read (callMem32 s.mem r (s.regs .ebp) (s.regs .ebx) (s.regs .esi) (s.regs .edi)) (r + i) =
        read s.mem (r + i) := by
    intro i h1 h2
    rw [callMem32, rw32_other, rw32_other, rw32_other, rw32_other]
    all_goals
      rw [BitVec.toNat_sub]
      simp only [BitVec.toNat_ofNat]
      omega
  have e1 := hm (12#32 + 8#32) (by decide) (by decide)
  have e2 := hm (12#32 + 12#32) (by decide) (by decide)
  have e3 := hm (12#32 + 16#32) (by decide) (by decide)
  have e4 := hm (12#32 + 20#32) (by decide) (by decide)
  have e5 := hm (12#32 + 24#32) (by decide) (by decide)
  have e6 := hm (12#32 + 28#32) (by decide) (by decide)
  have e7 := hm (12#32 + 32#32) (by decide) (by decide)
  replace e1 := e1.trans h1
  replace e2 := e2.trans h2
  replace e3 := e3.trans h3
  replace e4 := e4.trans h4
  replace e5 := e5.trans h5
  replace e6 := e6.trans h6
  replace e7 := e7.trans h7
  rw [← BitVec.add_assoc] at e1 e2 e3 e4 e5 e6 e7
  have hM : write (write (write (write s.mem (r + 12#32) (s.regs .ebp)) (r + 8#32) (s.regs .ebx))
      (r + 4#32) (s.regs .esi)) (r + 0#32) (s.regs .edi) =
      callMem32 s.mem r (s.regs .ebp) (s.regs .ebx) (s.regs .esi) (s.regs .edi) := rfl
  simp only [rerun32, run, step, cpu32, upd, reduceCtorEq, ite_true, ite_false, hr, Option.map_some,
    Option.some.injEq, exists_eq_left', List.nil_append, List.append_nil, d1, d2, d3, d4, u1, u2, u3,
    u4, hM, e1, e2, e3, e4, e5, e6, e7, six_eta, BitVec.add_assoc s.ip]
  subst hcall
  refine ⟨?_, ?_, ?_, ?_, ?_, ?_, ?_, ?_, ?_⟩ <;> first | rfl | trivial

theorem inRange_of_add {w : Nat} (r i x : BitVec w) (n N : Nat) (h : Spec.InRange (r + i) n x)
    (hN : i.toNat + n ≤ N) (hw : N ≤ 2 ^ w) : Spec.InRange r N x := by
  rw [Spec.InRange] at h ⊢
  have e : x - r = (x - (r + i)) + i := by
    clear h
    grind
  rw [e, BitVec.toNat_add, Nat.mod_eq_of_lt (by omega)]
  omega

theorem callMem64_outside (m : Mem 64) (r nb : BitVec 64) (a : Fin 6 → BitVec 64) (x : BitVec 64)
    (h : ¬ Spec.InRange r 88 x) : callMem64 m r nb a x = m x := by
  have hi : ∀ i : BitVec 64, i.toNat ≤ 80 → ¬ Spec.InRange (r + i) (64 / 8) x := fun i hi hx =>
    h (inRange_of_add r i x _ _ hx (by omega) (by decide))
  rw [callMem64]
  rw [write_other, write_other, write_other, write_other, write_other, write_other, write_other,
    write_other, write_other, write_other]
  all_goals exact hi _ (by decide)

theorem callMem32_outside (m : Mem 32) (r b1 b2 b3 b4 x : BitVec 32) (h : ¬ Spec.InRange r 16 x) :
    callMem32 m r b1 b2 b3 b4 x = m x := by
  have hi : ∀ i : BitVec 32, i.toNat ≤ 12 → ¬ Spec.InRange (r + i) (32 / 8) x := fun i hi hx =>
    h (inRange_of_add r i x _ _ hx (by omega) (by decide))
  rw [callMem32]
  rw [write_other, write_other, write_other, write_other]
  all_goals exact hi _ (by decide)

end Iris.Asm
