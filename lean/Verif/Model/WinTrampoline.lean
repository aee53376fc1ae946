import Verif.Model.Asm
/-!
# Trampolines of the Windows worker

Models `write_trampoline` of worker/src/windows/lockdown.rs, and the processor that executes the bytes it
writes: it fetches them from memory, decodes them and executes them, one at a time. The machine is part of
the trusted base: it follows the processor's manuals for the four instructions used. Flags are not modelled
(none of the four reads or writes them), nor is memory protection.
-/
namespace Iris.Asm

/-- The `n` low bytes of a number, little endian. -/
def leBytes : Nat → Nat → List (BitVec 8)
  | 0, _ => []
  | n + 1, v => BitVec.ofNat 8 v :: leBytes n (v / 256)

/-- Memory after bytes were copied to an address. -/
def copyTo {w : Nat} (m : Mem w) (a : BitVec w) (bytes : List (BitVec 8)) : Mem w := fun x =>
  match bytes[(x - a).toNat]? with
  | some b => b
  | none => m x

/-- worker/src/windows/lockdown.rs:425-436, for x86_64: `push low`, `mov dword ptr [rsp + 4], high`, `ret`. -/
def patch64 (target : BitVec 64) : List (BitVec 8) :=
  let high : BitVec 32 := (target >>> 32).truncate 32
  let low : BitVec 32 := target.truncate 32
  [0x68] ++ leBytes 4 low.toNat ++ [0xC7, 0x44, 0x24, 0x04] ++ leBytes 4 high.toNat ++ [0xC3]

/-- worker/src/windows/lockdown.rs:423-442 `write_trampoline` for x86_64. -/
def writeTrampoline64 (m : Mem 64) (location target : BitVec 64) : Mem 64 := copyTo m location (patch64 target)

/-- worker/src/windows/lockdown.rs:406-415, for 32-bit x86: `jmp target`. The offset is relative to the next
instruction. `offset_from` gives an `isize`, which is an `i32` on this target: `try_into` cannot fail. (Rust
leaves the difference of pointers to different objects undefined; it is taken here for the difference of the
addresses, as compiled.) -/
def patch32 (location target : BitVec 32) : List (BitVec 8) :=
  let offset : BitVec 32 := target - (location + 5)
  [0xE9] ++ leBytes 4 offset.toNat

/-- worker/src/windows/lockdown.rs:404-421 `write_trampoline` for 32-bit x86. -/
def writeTrampoline32 (m : Mem 32) (location target : BitVec 32) : Mem 32 :=
  copyTo m location (patch32 location target)

/-- The 32-bit constant at an address, sign-extended to the width of the machine. -/
def imm32 {w : Nat} (m : Mem w) (a : BitVec w) : BitVec w := (BitVec.ofNat 32 (readNat m 4 a)).signExtend w

/-- The instruction at the instruction pointer is fetched and executed, on x86_64. `none` for all the
instructions that are not modelled. -/
def exec64 (s : St Reg64 64) : Option (St Reg64 64) :=
  let rsp := s.regs .rsp
  match (s.mem s.ip).toNat with
  -- push imm32: 8 bytes are pushed
  | 0x68 => some ⟨upd s.regs .rsp (rsp - 8), write s.mem (rsp - 8) (imm32 s.mem (s.ip + 1)), s.ip + 5⟩
  -- mov r/m32, imm32; only the operand [rsp + disp8]
  | 0xC7 =>
    if s.mem (s.ip + 1) = 0x44 ∧ s.mem (s.ip + 2) = 0x24 then
      let a := rsp + (s.mem (s.ip + 3)).signExtend 64
      some ⟨s.regs, copyTo s.mem a (leBytes 4 (readNat s.mem 4 (s.ip + 4))), s.ip + 8⟩
    else none
  -- ret
  | 0xC3 => some ⟨upd s.regs .rsp (rsp + 8), s.mem, read s.mem rsp⟩
  | _ => none

/-- The same on 32-bit x86. Only `jmp rel32`. -/
def exec32 (s : St Reg32 32) : Option (St Reg32 32) :=
  match (s.mem s.ip).toNat with
  | 0xE9 => some ⟨s.regs, s.mem, s.ip + 5 + imm32 s.mem (s.ip + 1)⟩
  | _ => none

/-- `n` instructions. -/
def execs {S : Type} (step : S → Option S) : Nat → S → Option S
  | 0, s => some s
  | n + 1, s => (step s).bind (execs step n)

end Iris.Asm
