import Verif.Model.Postcard
/-!
# The stub that re-issues a system call

Models `rerun_syscall` of worker/src/linux/arch/x86_64/seccomp.rs and
worker/src/linux/arch/i686/seccomp.rs, instruction by instruction, on a small machine: registers,
byte-addressed memory, the instruction pointer, and a kernel that can answer anything.
The machine is part of the trusted base: it follows the processor's manuals for the eight
instructions used. Flags, segments and vector registers are not modelled (no instruction of the
stubs other than the system call reads them).
-/
namespace Iris.Asm

/-- Memory: a byte at each address. -/
abbrev Mem (w : Nat) := BitVec w → BitVec 8

/-- The number stored (little endian) in the `n` bytes at an address. -/
def readNat {w : Nat} (m : Mem w) : Nat → BitVec w → Nat
  | 0, _ => 0
  | n + 1, a => (m a).toNat + 256 * readNat m n (a + 1)

/-- The word (of `w / 8` bytes) at an address. -/
def read {w : Nat} (m : Mem w) (a : BitVec w) : BitVec w := BitVec.ofNat w (readNat m (w / 8) a)

/-- Memory after a word was stored. Addresses wrap around. -/
def write {w : Nat} (m : Mem w) (a v : BitVec w) : Mem w := fun x =>
  if (x - a).toNat < w / 8 then BitVec.ofNat 8 (v.toNat / 256 ^ (x - a).toNat) else m x

/-- The instructions used, over the registers `R`. Displacements and constants are below 128, and
encoded on one byte. -/
inductive Op (R : Type)
  /-- `mov d, s` -/
  | mov (d s : R)
  /-- `mov d, [b + disp]` -/
  | load (d b : R) (disp : Nat)
  /-- `mov [b + disp], s` -/
  | store (b : R) (disp : Nat) (s : R)
  | push (r : R)
  | pop (r : R)
  /-- `sub r, imm` -/
  | sub (r : R) (imm : Nat)
  /-- `add r, imm` -/
  | add (r : R) (imm : Nat)
  /-- `syscall`, or `int 0x80` -/
  | trap
  | ret

/-- What the kernel is asked: the number and the arguments, and from where (the address of the
instruction that follows, as `seccomp_data.instruction_pointer`). -/
structure Call (w : Nat) where
  nr : BitVec w
  args : Fin 6 → BitVec w
  ip : BitVec w

/-- What the kernel does: the result, the memory it leaves, and the flags register. -/
structure Answer (w : Nat) where
  result : BitVec w
  mem : Mem w
  flags : BitVec w

abbrev Kernel (w : Nat) := Call w → Mem w → Answer w

structure St (R : Type) (w : Nat) where
  regs : R → BitVec w
  mem : Mem w
  ip : BitVec w

/-- A register file with one register changed. -/
def upd {R : Type} [DecidableEq R] {w : Nat} (f : R → BitVec w) (r : R) (v : BitVec w) : R → BitVec w :=
  fun x => if x = r then v else f x

/-- Six arguments. -/
def six {α : Type} (a0 a1 a2 a3 a4 a5 : α) : Fin 6 → α
  | 0 => a0 | 1 => a1 | 2 => a2 | 3 => a3 | 4 => a4 | 5 => a5

/-- What is particular to a processor. -/
structure Cpu (R : Type) (w : Nat) where
  /-- the stack pointer -/
  sp : R
  /-- the machine code of an instruction -/
  enc : Op R → Bytes
  /-- where the kernel takes the number and the arguments from -/
  nr : R
  args : (R → BitVec w) → Fin 6 → BitVec w
  /-- the registers after a system call, given the next address and the answer's flags and
  result -/
  after : (R → BitVec w) → BitVec w → BitVec w → BitVec w → R → BitVec w

variable {R : Type} [DecidableEq R] {w : Nat}

/-- One instruction. The second component is the system call made, if it is one. `none` is a
`ret`: see `run`. -/
def step (cpu : Cpu R w) (k : Kernel w) (op : Op R) (s : St R w) : Option (St R w × List (Call w)) :=
  let next := s.ip + BitVec.ofNat w (cpu.enc op).length
  match op with
  | .mov d x => some (⟨upd s.regs d (s.regs x), s.mem, next⟩, [])
  | .load d b disp =>
    some (⟨upd s.regs d (read s.mem (s.regs b + BitVec.ofNat w disp)), s.mem, next⟩, [])
  | .store b disp x =>
    some (⟨s.regs, write s.mem (s.regs b + BitVec.ofNat w disp) (s.regs x), next⟩, [])
  | .push r =>
    let top := s.regs cpu.sp - BitVec.ofNat w (w / 8)
    some (⟨upd s.regs cpu.sp top, write s.mem top (s.regs r), next⟩, [])
  | .pop r =>
    let top := s.regs cpu.sp
    some (⟨upd (upd s.regs cpu.sp (top + BitVec.ofNat w (w / 8))) r (read s.mem top), s.mem, next⟩, [])
  | .sub r imm => some (⟨upd s.regs r (s.regs r - BitVec.ofNat w imm), s.mem, next⟩, [])
  | .add r imm => some (⟨upd s.regs r (s.regs r + BitVec.ofNat w imm), s.mem, next⟩, [])
  | .trap =>
    let call : Call w := ⟨s.regs cpu.nr, cpu.args s.regs, next⟩
    let ans := k call s.mem
    some (⟨cpu.after s.regs next ans.flags ans.result, ans.mem, next⟩, [call])
  | .ret => none

/-- A straight-line routine, until its `ret`: the state of the caller, and the system calls made.
`none` if the end of the code is reached without a `ret`. -/
def run (cpu : Cpu R w) (k : Kernel w) : List (Op R) → St R w → Option (St R w × List (Call w))
  | [], _ => none
  | .ret :: _, s =>
    some (⟨upd s.regs cpu.sp (s.regs cpu.sp + BitVec.ofNat w (w / 8)), s.mem,
      read s.mem (s.regs cpu.sp)⟩, [])
  | op :: ops, s =>
    match step cpu k op s with
    | none => none
    | some (s, calls) => (run cpu k ops s).map fun r => (r.1, calls ++ r.2)

/-! ## x86_64 -/

inductive Reg64
  | rax | rcx | rdx | rbx | rsp | rbp | rsi | rdi
  | r8 | r9 | r10 | r11 | r12 | r13 | r14 | r15
deriving DecidableEq, Repr

/-- Register numbers, as encoded. -/
def Reg64.num : Reg64 → Nat
  | .rax => 0 | .rcx => 1 | .rdx => 2 | .rbx => 3 | .rsp => 4 | .rbp => 5 | .rsi => 6 | .rdi => 7
  | .r8 => 8 | .r9 => 9 | .r10 => 10 | .r11 => 11 | .r12 => 12 | .r13 => 13 | .r14 => 14 | .r15 => 15

/-- The ModRM byte. -/
def modrm (md reg rm : Nat) : UInt8 := UInt8.ofNat (64 * md + 8 * (reg % 8) + rm % 8)

/-- A memory operand [b + disp]: ModRM, the SIB byte that `rsp` as a base requires, and the
displacement (none if zero, except for `rbp`). -/
def memOperand (reg b disp : Nat) : Bytes :=
  if disp = 0 ∧ b % 8 ≠ 5 then
    [modrm 0 reg b] ++ (if b % 8 = 4 then [0x24] else [])
  else [modrm 1 reg b] ++ (if b % 8 = 4 then [0x24] else []) ++ [UInt8.ofNat disp]

/-- REX prefix for 64-bit operands. -/
def rex (reg rm : Nat) : UInt8 := UInt8.ofNat (0x48 + 4 * (reg / 8) + rm / 8)

/-- Machine code for x86_64 (what assemblers choose: the shortest encoding). -/
def enc64 : Op Reg64 → Bytes
  | .mov d s => [rex s.num d.num, 0x89, modrm 3 s.num d.num]
  | .load d b disp => [rex d.num b.num, 0x8B] ++ memOperand d.num b.num disp
  | .store b disp s => [rex s.num b.num, 0x89] ++ memOperand s.num b.num disp
  | .push r => (if 8 ≤ r.num then [0x41] else []) ++ [UInt8.ofNat (0x50 + r.num % 8)]
  | .pop r => (if 8 ≤ r.num then [0x41] else []) ++ [UInt8.ofNat (0x58 + r.num % 8)]
  | .sub r imm => [rex 0 r.num, 0x83, modrm 3 5 r.num, UInt8.ofNat imm]
  | .add r imm => [rex 0 r.num, 0x83, modrm 3 0 r.num, UInt8.ofNat imm]
  | .trap => [0x0F, 0x05]
  | .ret => [0xC3]

/-- x86_64 Linux: the number in rax, the arguments in rdi, rsi, rdx, r10, r8, r9, the result in
rax; `syscall` itself overwrites rcx with the return address and r11 with the flags. -/
def cpu64 : Cpu Reg64 64 where
  sp := .rsp
  enc := enc64
  nr := .rax
  args := fun regs => six (regs .rdi) (regs .rsi) (regs .rdx) (regs .r10) (regs .r8) (regs .r9)
  after := fun regs next flags result => upd (upd (upd regs .rcx next) .r11 flags) .rax result

open Reg64 in
/-- worker/src/linux/arch/x86_64/seccomp.rs:13-37 `rerun_syscall`. -/
def rerun64 : List (Op Reg64) :=
  [.sub rsp 0x58,
   .store rsp 0 r9,
   .mov r10 r8,
   .load r8 rsp 0,
   .store rsp 0x8 rcx,
   .mov rax rdx,
   .load rdx rsp 0x8,
   .store rsp 0x10 rax,
   .mov rax rsi,
   .load rsi rsp 0x10,
   .store rsp 0x18 rax,
   .mov rax rdi,
   .load rdi rsp 0x18,
   .load r9 rsp 0x60,
   .store rsp 0x28 rax,
   .store rsp 0x30 rdi,
   .store rsp 0x38 rsi,
   .store rsp 0x40 rdx,
   .store rsp 0x48 r10,
   .store rsp 0x50 r8,
   .trap,
   .store rsp 0x20 rax,
   .load rax rsp 0x20,
   .add rsp 0x58,
   .ret]

/-- worker/src/linux/arch/x86_64/seccomp.rs:3 `SYSCALL_ASM_OFFSET`. -/
def asmOffset64 : Nat := 91

/-- worker/src/linux/arch/x86_64/seccomp.rs:41-47: where the handler finds the number and the
arguments of the call that trapped. -/
def contextNr64 : Reg64 := .rax
def contextArg64 : Fin 6 → Reg64
  | 0 => .rdi | 1 => .rsi | 2 => .rdx | 3 => .r10 | 4 => .r8 | 5 => .r9

/-- worker/src/linux/arch/x86_64/seccomp.rs:49: where the handler puts the result. -/
def contextRet64 : Reg64 := .rax

/-! ## i686 -/

inductive Reg32
  | eax | ecx | edx | ebx | esp | ebp | esi | edi
deriving DecidableEq, Repr

def Reg32.num : Reg32 → Nat
  | .eax => 0 | .ecx => 1 | .edx => 2 | .ebx => 3 | .esp => 4 | .ebp => 5 | .esi => 6 | .edi => 7

/-- Machine code for 32-bit x86. -/
def enc32 : Op Reg32 → Bytes
  | .mov d s => [0x89, modrm 3 s.num d.num]
  | .load d b disp => [0x8B] ++ memOperand d.num b.num disp
  | .store b disp s => [0x89] ++ memOperand s.num b.num disp
  | .push r => [UInt8.ofNat (0x50 + r.num)]
  | .pop r => [UInt8.ofNat (0x58 + r.num)]
  | .sub r imm => [0x83, modrm 3 5 r.num, UInt8.ofNat imm]
  | .add r imm => [0x83, modrm 3 0 r.num, UInt8.ofNat imm]
  | .trap => [0xCD, 0x80]
  | .ret => [0xC3]

/-- 32-bit x86 Linux: the number in eax, the arguments in ebx, ecx, edx, esi, edi, ebp, the
result in eax; `int 0x80` changes no other register. -/
def cpu32 : Cpu Reg32 32 where
  sp := .esp
  enc := enc32
  nr := .eax
  args := fun regs => six (regs .ebx) (regs .ecx) (regs .edx) (regs .esi) (regs .edi) (regs .ebp)
  after := fun regs _ _ result => upd regs .eax result

open Reg32 in
/-- worker/src/linux/arch/i686/seccomp.rs:9-26 `rerun_syscall`. -/
def rerun32 : List (Op Reg32) :=
  [.push ebp,
   .mov ebp esp,
   .push ebx,
   .push esi,
   .push edi,
   .load eax ebp 8,
   .load ebx ebp 12,
   .load ecx ebp 16,
   .load edx ebp 20,
   .load esi ebp 24,
   .load edi ebp 28,
   .load ebp ebp 32,
   .trap,
   .pop edi,
   .pop esi,
   .pop ebx,
   .pop ebp,
   .ret]

/-- worker/src/linux/arch/i686/seccomp.rs:3 `SYSCALL_ASM_OFFSET`. -/
def asmOffset32 : Nat := 29

/-- worker/src/linux/arch/i686/seccomp.rs:30-36, 38. -/
def contextNr32 : Reg32 := .eax
def contextArg32 : Fin 6 → Reg32
  | 0 => .ebx | 1 => .ecx | 2 => .edx | 3 => .esi | 4 => .edi | 5 => .ebp
def contextRet32 : Reg32 := .eax

end Iris.Asm
