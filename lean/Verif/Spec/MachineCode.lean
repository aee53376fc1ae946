import Verif.Model.Asm
/-!
# Machine code of x86, as processors read it

Only the instructions of `Op`, with the operand size of the machine and displacements and constants of one byte below
128. From the tables of the Intel manual (volume 2, chapter 2 and appendix A).
-/
namespace Iris.Spec
open Iris.Asm

/-- What follows the opcode byte of an instruction with a ModRM byte: bits 7-6 are the mode, bits 5-3 a register (or a
part of the opcode), bits 2-0 another register or the base of a memory operand. `r` and `b` (0 or 1) extend the two
numbers. -/
def decodeModrm {R : Type} (reg : Nat → Option R) (r b opcode : Nat) : Bytes → Option (Op R × Bytes)
  | [] => none
  | m :: rest =>
    let mode := m.toNat / 64
    let number := 8 * r + m.toNat / 8 % 8
    let low := m.toNat % 8
    match reg (8 * b + low) with
    | none => none
    | some base =>
    if mode = 3 then
      if opcode = 0x89 then (reg number).map fun s => (.mov base s, rest)
      else if opcode = 0x83 then match rest with
        | [] => none
        | imm :: rest =>
          if imm.toNat < 128 then
            if number = 5 then some (.sub base imm.toNat, rest)
            else if number = 0 then some (.add base imm.toNat, rest)
            else none
          else none
      else none
    else if opcode = 0x89 ∨ opcode = 0x8B then
      -- a base of 4 stands for another byte, where 0x24 is that base without an index
      let afterSib := if low = 4 then (match rest with | [] => none | s :: rest => if s.toNat = 0x24 then some rest else none)
        else some rest
      let withDisp : Option (Nat × Bytes) := afterSib.bind fun rest =>
        if mode = 0 then (if low = 5 then none else some (0, rest))
        else if mode = 1 then (match rest with
          | [] => none
          | d :: rest => if d.toNat < 128 then some (d.toNat, rest) else none)
        else none
      withDisp.bind fun x => (reg number).map fun v =>
        (if opcode = 0x89 then .store base x.1 v else .load v base x.1, x.2)
    else none

/-- The numbers of the registers of x86_64. -/
def reg64 (n : Nat) : Option Reg64 :=
  [.rax, .rcx, .rdx, .rbx, .rsp, .rbp, .rsi, .rdi, .r8, .r9, .r10, .r11, .r12, .r13, .r14, .r15][n]?

/-- The next instruction on x86_64, and what follows it. -/
def decode64 : Bytes → Option (Op Reg64 × Bytes)
  | [] => none
  | c :: rest =>
    let c := c.toNat
    if c = 0xC3 then some (.ret, rest)
    else if c = 0x0F then match rest with
      | [] => none
      | d :: rest => if d.toNat = 5 then some (.trap, rest) else none
    else if 0x50 ≤ c ∧ c < 0x58 then (reg64 (c - 0x50)).map fun r => (.push r, rest)
    else if 0x58 ≤ c ∧ c < 0x60 then (reg64 (c - 0x58)).map fun r => (.pop r, rest)
    -- a prefix that extends the register
    else if c = 0x41 then match rest with
      | [] => none
      | d :: rest =>
        if 0x50 ≤ d.toNat ∧ d.toNat < 0x58 then (reg64 (8 + (d.toNat - 0x50))).map fun r => (.push r, rest)
        else if 0x58 ≤ d.toNat ∧ d.toNat < 0x60 then (reg64 (8 + (d.toNat - 0x58))).map fun r => (.pop r, rest)
        else none
    -- the prefix of 64-bit operands: bit 2 extends the first register, bit 0 the second one (bit 1 an index)
    else if 0x48 ≤ c ∧ c < 0x50 then
      if c / 2 % 2 = 0 then match rest with
        | [] => none
        | d :: rest => decodeModrm reg64 (c / 4 % 2) (c % 2) d.toNat rest
      else none
    else none

/-- The numbers of the registers of 32-bit x86. -/
def reg32 (n : Nat) : Option Reg32 := [.eax, .ecx, .edx, .ebx, .esp, .ebp, .esi, .edi][n]?

/-- The next instruction on 32-bit x86, and what follows it. -/
def decode32 : Bytes → Option (Op Reg32 × Bytes)
  | [] => none
  | c :: rest =>
    let c := c.toNat
    if c = 0xC3 then some (.ret, rest)
    else if c = 0xCD then match rest with
      | [] => none
      | d :: rest => if d.toNat = 0x80 then some (.trap, rest) else none
    else if 0x50 ≤ c ∧ c < 0x58 then (reg32 (c - 0x50)).map fun r => (.push r, rest)
    else if 0x58 ≤ c ∧ c < 0x60 then (reg32 (c - 0x58)).map fun r => (.pop r, rest)
    else decodeModrm reg32 0 0 c rest

/-- The displacement or constant of an instruction fits. -/
def Small {R : Type} : Op R → Prop
  | .load _ _ d | .store _ d _ | .sub _ d | .add _ d => d < 128
  | _ => True

/-- A processor that starts at the first byte reads these instructions, up to the last byte. -/
inductive Reads {R : Type} (decode : Bytes → Option (Op R × Bytes)) : Bytes → List (Op R) → Prop
  | done : Reads decode [] []
  | next {code rest : Bytes} {op : Op R} {ops : List (Op R)} (h : decode code = some (op, rest))
      (more : Reads decode rest ops) : Reads decode code (op :: ops)

end Iris.Spec
