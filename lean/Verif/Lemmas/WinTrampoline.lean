import Verif.Model.WinTrampoline
import Verif.Lemmas.Asm
/-! Helper lemmas about the trampolines. -/
namespace Iris.Asm
open Spec

theorem leBytes_get (n : Nat) : ∀ v i, (leBytes n v)[i]? = if i < n then some (BitVec.ofNat 8 (v / 256 ^ i)) else none := by
  induction n with
  | zero => intro v i; simp [leBytes]
  | succ n ih =>
    intro v i
    cases i with
    | zero => simp [leBytes]
    | succ i => simp [leBytes, ih, Nat.div_div_eq_div_mul, Nat.pow_succ']

theorem leBytes_length (n v : Nat) : (leBytes n v).length = n := by
  induction n generalizing v with
  | zero => rfl
  | succ n ih => simp [leBytes, ih]

/-- The bytes at an address. -/
def Holds {w : Nat} (m : Mem w) (a : BitVec w) (bytes : List (BitVec 8)) : Prop :=
  ∀ i b, bytes[i]? = some b → m (a + BitVec.ofNat w i) = b

theorem copyTo_holds {w : Nat} (m : Mem w) (a : BitVec w) (bytes : List (BitVec 8)) (h : bytes.length ≤ 2 ^ w) :
    Holds (copyTo m a bytes) a bytes := by
  intro i b hb
  have hi : i < bytes.length := by
    rcases List.getElem?_eq_some_iff.1 hb with ⟨h, _⟩; exact h
  simp only [copyTo, add_sub_self, BitVec.toNat_ofNat, Nat.mod_eq_of_lt (Nat.lt_of_lt_of_le hi h), hb]

theorem copyTo_other {w : Nat} (m : Mem w) (a x : BitVec w) (bytes : List (BitVec 8))
    (h : ¬ InRange a bytes.length x) : copyTo m a bytes x = m x := by
  simp only [InRange, Nat.not_lt] at h
  simp only [copyTo, List.getElem?_eq_none h]

theorem Holds.append {w : Nat} {m : Mem w} {a : BitVec w} {b c : List (BitVec 8)} (h : Holds m a (b ++ c)) :
    Holds m a b ∧ Holds m (a + BitVec.ofNat w b.length) c := by
  constructor
  · intro i x hx
    have hi : i < b.length := by
      rcases List.getElem?_eq_some_iff.1 hx with ⟨h, _⟩; exact h
    exact h i x (by rw [List.getElem?_append_left hi]; exact hx)
  · intro i x hx
    have := h (b.length + i) x (by rw [List.getElem?_append_right (by omega)]; simpa using hx)
    rw [← this, BitVec.add_assoc]
    congr 2
    apply BitVec.eq_of_toNat_eq
    simp [BitVec.toNat_add]

theorem Holds.head {w : Nat} {m : Mem w} {a : BitVec w} {x : BitVec 8} {l : List (BitVec 8)}
    (h : Holds m a (x :: l)) : m a = x ∧ Holds m (a + 1) l := by
  have := Holds.append (b := [x]) (c := l) h
  refine ⟨?_, this.2⟩
  have h0 := h 0 x rfl
  simpa using h0

theorem readNat_holds {w : Nat} {m : Mem w} {a : BitVec w} {n v : Nat} (h : Holds m a (leBytes n v)) :
    readNat m n a = v % 256 ^ n := by
  apply readNat_of
  intro i hi
  rw [h i _ (by rw [leBytes_get, if_pos hi]), BitVec.toNat_ofNat]

theorem Holds.congr {w : Nat} {m m' : Mem w} {a : BitVec w} {l : List (BitVec 8)} (h : Holds m a l)
    (hm : ∀ i, i < l.length → m' (a + BitVec.ofNat w i) = m (a + BitVec.ofNat w i)) : Holds m' a l := by
  intro i b hb
  have hi : i < l.length := by
    rcases List.getElem?_eq_some_iff.1 hb with ⟨h, _⟩; exact h
  rw [hm i hi, h i b hb]

theorem exec_trampoline64 (s : St Reg64 64) (target : BitVec 64) (hp : Holds s.mem s.ip (patch64 target))
    (hd : ∀ x, InRange (s.regs .rsp - 8) 8 x → ¬ InRange s.ip 14 x) :
    ∃ s', execs exec64 3 s = some s' ∧ s'.ip = target ∧ s'.regs = s.regs ∧
      ∀ x, ¬ InRange (s.regs .rsp - 8) 8 x → s'.mem x = s.mem x := by
  obtain ⟨regs, mem, ip⟩ := s
  simp only at hp hd ⊢
  generalize hlow : (target.truncate 32 : BitVec 32) = low at *
  generalize hhigh : ((target >>> 32).truncate 32 : BitVec 32) = high at *
  have hpatch : patch64 target = 0x68 :: (leBytes 4 low.toNat ++
      (0xC7 :: 0x44 :: 0x24 :: 0x04 :: (leBytes 4 high.toNat ++ [0xC3]))) := by
    simp only [patch64, hlow, hhigh]; simp
  rw [hpatch] at hp
  have hlen : (0x68 :: (leBytes 4 low.toNat ++
      (0xC7 :: 0x44 :: 0x24 :: 0x04 :: (leBytes 4 high.toNat ++ [0xC3]))) : List (BitVec 8)).length = 14 := by
    simp [leBytes_length]
  generalize hr : regs .rsp - 8 = r at *
  have hrsp : regs .rsp = r + 8 := by rw [← hr]; grind
  obtain ⟨m1, hm1⟩ : ∃ m1, m1 = write mem r (imm32 mem (ip + 1)) := ⟨_, rfl⟩
  have hp1 : Holds m1 ip _ := hp.congr (m' := m1) (by
    intro i hi
    rw [hm1]
    apply write_other
    intro hin
    refine hd _ hin ?_
    rw [hlen] at hi
    rw [InRange, add_sub_self, BitVec.toNat_ofNat, Nat.mod_eq_of_lt (by omega)]
    exact hi)
  obtain ⟨a1, a2⟩ := hp.head
  obtain ⟨a3, _⟩ := a2.append
  obtain ⟨_, b2⟩ := hp1.head
  obtain ⟨_, b3⟩ := b2.append
  rw [leBytes_length] at b3
  have e5 : ip + 1 + BitVec.ofNat 64 4 = ip + 5 := by grind
  rw [e5] at b3
  obtain ⟨c1, b4⟩ := b3.head
  obtain ⟨c2, b5⟩ := b4.head
  obtain ⟨c3, b6⟩ := b5.head
  obtain ⟨c4, b7⟩ := b6.head
  obtain ⟨c5, b8⟩ := b7.append
  rw [leBytes_length] at b8
  obtain ⟨m2, hm2⟩ : ∃ m2, m2 = copyTo m1 (r + 4) (leBytes 4 high.toNat) := ⟨_, rfl⟩
  have hin4 : ∀ x, InRange (r + 4) 4 x → InRange r 8 x := by
    intro x hx
    rw [InRange] at *
    have e : x - r = (x - (r + 4)) + 4 := by grind
    rw [e, BitVec.toNat_add]
    have : (4 : BitVec 64).toNat = 4 := rfl
    omega
  have hout : ∀ x, ¬ InRange r 8 x → m2 x = mem x := by
    intro x hx
    rw [hm2, copyTo_other, hm1, write_other _ _ _ _ hx]
    rw [leBytes_length]
    exact fun h => hx (hin4 x h)
  have hc3 : m2 (ip + 13) = 0xC3 := by
    have h13 := hp 13 0xC3 (by simp [leBytes])
    rw [hout]
    · exact h13
    intro hin
    refine hd _ hin ?_
    rw [InRange, add_sub_self]
    decide
  have hi1 : imm32 mem (ip + 1) = low.signExtend 64 := by
    rw [imm32, readNat_holds a3]
    congr 1
    apply BitVec.eq_of_toNat_eq
    have := low.isLt
    simp only [BitVec.toNat_ofNat]
    omega
  have hi2 : readNat m1 4 (ip + 9) = high.toNat := by
    have e9 : ip + 5 + 1 + 1 + 1 + 1 = ip + 9 := by grind
    rw [e9] at c5
    rw [readNat_holds c5]
    have := high.isLt
    omega
  have hread : read m2 r = target := by
    rw [read, readNat_of _ _ r target.toNat]
    · have := target.isLt
      apply BitVec.eq_of_toNat_eq
      simp only [BitVec.toNat_ofNat]
      omega
    · intro i hi
      have hlt : target.toNat % 2 ^ 32 = low.toNat := by rw [← hlow]; simp
      have hhi : target.toNat / 2 ^ 32 = high.toNat := by
        rw [← hhigh]
        have := target.isLt
        simp only [BitVec.truncate_eq_setWidth, BitVec.toNat_setWidth, BitVec.toNat_ushiftRight, Nat.shiftRight_eq_div_pow]
        omega
      have hrx : r + BitVec.ofNat 64 i - r = BitVec.ofNat 64 i := add_sub_self _ _
      by_cases h4 : i < 4
      · have hn : ¬ InRange (r + 4) (leBytes 4 high.toNat).length (r + BitVec.ofNat 64 i) := by
          rw [leBytes_length, InRange]
          have e : r + BitVec.ofNat 64 i - (r + 4) = BitVec.ofNat 64 i - 4 := by grind
          rw [e, BitVec.toNat_sub]
          have : (4 : BitVec 64).toNat = 4 := rfl
          simp only [BitVec.toNat_ofNat, this]
          omega
        rw [hm2, copyTo_other _ _ _ _ hn, hm1, write]
        rw [hrx, BitVec.toNat_ofNat, Nat.mod_eq_of_lt (by omega), if_pos (by omega), hi1]
        have hse : (low.signExtend 64).toNat % 2 ^ 32 = low.toNat := by
          have : ((low.signExtend 64).setWidth 32).toNat = low.toNat := by
            congr 1
            apply BitVec.eq_of_getLsbD_eq
            intro j hj
            simp [BitVec.getLsbD_signExtend, hj]
            omega
          simpa using this
        simp only [BitVec.toNat_ofNat]
        have : i = 0 ∨ i = 1 ∨ i = 2 ∨ i = 3 := by omega
        rcases this with rfl | rfl | rfl | rfl <;> simp only [Nat.reducePow] at * <;> omega
      · have e : r + BitVec.ofNat 64 i - (r + 4) = BitVec.ofNat 64 (i - 4) := by
          apply BitVec.eq_of_toNat_eq
          have e : r + BitVec.ofNat 64 i - (r + 4) = BitVec.ofNat 64 i - 4 := by grind
          rw [e, BitVec.toNat_sub]
          have : (4 : BitVec 64).toNat = 4 := rfl
          simp only [BitVec.toNat_ofNat, this]
          omega
        rw [hm2, copyTo, e, BitVec.toNat_ofNat, Nat.mod_eq_of_lt (by omega), leBytes_get, if_pos (by omega)]
        simp only [BitVec.toNat_ofNat]
        have : i = 4 ∨ i = 5 ∨ i = 6 ∨ i = 7 := by omega
        rcases this with rfl | rfl | rfl | rfl <;> simp only [Nat.reducePow, Nat.reduceSub] at * <;> omega
  refine ⟨⟨upd (upd regs .rsp r) .rsp (r + 8), m2, read m2 r⟩, ?_, hread, ?_, hout⟩
  · have s1 : exec64 ⟨regs, mem, ip⟩ = some ⟨upd regs .rsp r, m1, ip + 5⟩ := by
      simp only [exec64, a1, hr, ← hm1]; rfl
    have hsp : upd regs .rsp r .rsp = r := by simp [upd]
    have e6 : ip + 5 + 1 = ip + 6 := by grind
    have e7 : ip + 5 + 2 = ip + 5 + 1 + 1 := by grind
    have e8 : ip + 5 + 3 = ip + 5 + 1 + 1 + 1 := by grind
    have e9 : ip + 5 + 4 = ip + 9 := by grind
    have s2 : exec64 ⟨upd regs .rsp r, m1, ip + 5⟩ = some ⟨upd regs .rsp r, m2, ip + 13⟩ := by
      have hd4 : BitVec.signExtend 64 (0x04 : BitVec 8) = 4#64 := by decide
      have e13 : ip + 5 + 8 = ip + 13 := by grind
      simp only [exec64, c1, c2, e7, c3, e8, c4, e9, hi2, hsp, hd4, e13, and_self, if_true]
      rw [hm2]; rfl
    have s3 : exec64 ⟨upd regs .rsp r, m2, ip + 13⟩ =
        some ⟨upd (upd regs .rsp r) .rsp (r + 8), m2, read m2 r⟩ := by
      simp only [exec64, hc3, hsp]; rfl
    simp only [execs, s1, s2, s3, Option.bind_some]
  · funext q
    simp only [upd]
    split
    · rename_i h; rw [h, hrsp]
    · rfl

theorem exec_trampoline32 (s : St Reg32 32) (target : BitVec 32) (hp : Holds s.mem s.ip (patch32 s.ip target)) :
    execs exec32 1 s = some ⟨s.regs, s.mem, target⟩ := by
  obtain ⟨h1, h2⟩ := Holds.head (x := 0xE9) (l := leBytes 4 (target - (s.ip + 5)).toNat) hp
  have hi : imm32 s.mem (s.ip + 1) = target - (s.ip + 5) := by
    rw [imm32, readNat_holds h2]
    have := (target - (s.ip + 5)).isLt
    rw [Nat.mod_eq_of_lt (by omega), BitVec.ofNat_toNat]
    simp
  have he : exec32 s = some ⟨s.regs, s.mem, s.ip + 5 + imm32 s.mem (s.ip + 1)⟩ := by
    simp only [exec32, h1]; rfl
  have ht : s.ip + 5 + (target - (s.ip + 5)) = target := by grind
  simp only [execs, he, Option.bind_some, hi, ht]

end Iris.Asm
