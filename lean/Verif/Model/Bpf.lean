import Verif.Model.Postcard
/-!
# Classic BPF as run by seccomp

Not code from /repo: the kernel's documented semantics of the programs the broker
generates (broker/src/linux/seccomp.rs:205-268) and the worker loads
(worker/src/linux/lockdown.rs:150-175). Part of the trusted base, see DESIGN.md.
Instruction codes outside the set the kernel accepts for seccomp make `run` return
`none` (the kernel refuses to load the program).
-/
namespace Iris.Bpf

/-- `struct sock_filter`. -/
structure Insn where
  code : BitVec 16
  jt : BitVec 8
  jf : BitVec 8
  k : BitVec 32
deriving DecidableEq, Repr

/-- `struct seccomp_data`: what a filter can see of a system call. -/
structure Data where
  nr : BitVec 32
  arch : BitVec 32
  /-- address of the instruction following the system call instruction -/
  ip : BitVec 64
  /-- the six arguments (index 0 to 5) -/
  args : Fin 6 → BitVec 64

/-- Low and high halves of a 64-bit word. -/
def lo (v : BitVec 64) : BitVec 32 := v.extractLsb' 0 32
def hi (v : BitVec 64) : BitVec 32 := v.extractLsb' 32 32

/-- The 32-bit word at a byte offset of `seccomp_data` (64 bytes, little endian);
the offset must be a multiple of 4 inside the structure. -/
def Data.word (d : Data) : Nat → Option (BitVec 32)
  | 0 => some d.nr
  | 4 => some d.arch
  | 8 => some (lo d.ip)
  | 12 => some (hi d.ip)
  | 16 => some (lo (d.args 0)) | 20 => some (hi (d.args 0))
  | 24 => some (lo (d.args 1)) | 28 => some (hi (d.args 1))
  | 32 => some (lo (d.args 2)) | 36 => some (hi (d.args 2))
  | 40 => some (lo (d.args 3)) | 44 => some (hi (d.args 3))
  | 48 => some (lo (d.args 4)) | 52 => some (hi (d.args 4))
  | 56 => some (lo (d.args 5)) | 60 => some (hi (d.args 5))
  | _ => none

/-- Registers and scratch memory. -/
structure St where
  a : BitVec 32
  x : BitVec 32
  mem : Nat → BitVec 32

/-- What a program starts with. -/
def St.init : St := ⟨0#32, 0#32, fun _ => 0#32⟩

/-- What one instruction does: continue after skipping some instructions, return a
value, or nothing valid. -/
inductive Next
  | go (skip : Nat) (s : St)
  | ret (v : BitVec 32)
  | bad

/-- A load into A or into X. -/
def setA (s : St) : Option (BitVec 32) → Next
  | some v => .go 0 { s with a := v }
  | none => .bad
def setX (s : St) : Option (BitVec 32) → Next
  | some v => .go 0 { s with x := v }
  | none => .bad

/-- A conditional jump. -/
def branch (i : Insn) (s : St) (b : Bool) : Next := .go (if b then i.jt.toNat else i.jf.toNat) s

/-- One instruction (linux/filter.h codes accepted by seccomp). -/
def exec (d : Data) (i : Insn) (s : St) : Next :=
  match i.code.toNat with
  | 0x20 => setA s (d.word i.k.toNat)                         -- LD W ABS
  | 0x00 => setA s (some i.k)                                 -- LD IMM
  | 0x01 => setX s (some i.k)                                 -- LDX IMM
  | 0x80 => setA s (some 64#32)                               -- LD W LEN
  | 0x81 => setX s (some 64#32)                               -- LDX W LEN
  | 0x60 => if i.k.toNat < 16 then setA s (some (s.mem i.k.toNat)) else .bad  -- LD MEM
  | 0x61 => if i.k.toNat < 16 then setX s (some (s.mem i.k.toNat)) else .bad  -- LDX MEM
  | 0x02 => if i.k.toNat < 16 then                                            -- ST
      .go 0 { s with mem := fun n => if n = i.k.toNat then s.a else s.mem n } else .bad
  | 0x03 => if i.k.toNat < 16 then                                            -- STX
      .go 0 { s with mem := fun n => if n = i.k.toNat then s.x else s.mem n } else .bad
  | 0x04 => setA s (some (s.a + i.k))                         -- ADD
  | 0x0c => setA s (some (s.a + s.x))
  | 0x14 => setA s (some (s.a - i.k))                         -- SUB
  | 0x1c => setA s (some (s.a - s.x))
  | 0x24 => setA s (some (s.a * i.k))                         -- MUL
  | 0x2c => setA s (some (s.a * s.x))
  | 0x34 => if i.k = 0#32 then .bad else setA s (some (s.a / i.k))        -- DIV
  | 0x3c => if s.x = 0#32 then .ret 0#32 else setA s (some (s.a / s.x))
  | 0x44 => setA s (some (s.a ||| i.k))                       -- OR
  | 0x4c => setA s (some (s.a ||| s.x))
  | 0x54 => setA s (some (s.a &&& i.k))                       -- AND
  | 0x5c => setA s (some (s.a &&& s.x))
  | 0x64 => if i.k.toNat < 32 then setA s (some (s.a <<< i.k.toNat)) else .bad   -- LSH
  | 0x6c => setA s (some (s.a <<< (s.x.toNat % 32)))
  | 0x74 => if i.k.toNat < 32 then setA s (some (s.a >>> i.k.toNat)) else .bad   -- RSH
  | 0x7c => setA s (some (s.a >>> (s.x.toNat % 32)))
  | 0x84 => setA s (some (-s.a))                              -- NEG
  | 0xa4 => setA s (some (s.a ^^^ i.k))                       -- XOR
  | 0xac => setA s (some (s.a ^^^ s.x))
  | 0x07 => setX s (some s.a)                                 -- TAX
  | 0x87 => setA s (some s.x)                                 -- TXA
  | 0x05 => .go i.k.toNat s                                   -- JA
  | 0x15 => branch i s (s.a == i.k)                           -- JEQ
  | 0x1d => branch i s (s.a == s.x)
  | 0x25 => branch i s (i.k.ult s.a)                          -- JGT
  | 0x2d => branch i s (s.x.ult s.a)
  | 0x35 => branch i s (i.k.ule s.a)                          -- JGE
  | 0x3d => branch i s (s.x.ule s.a)
  | 0x45 => branch i s (s.a &&& i.k != 0#32)                  -- JSET
  | 0x4d => branch i s (s.a &&& s.x != 0#32)
  | 0x06 => .ret i.k                                          -- RET K
  | 0x16 => .ret s.a                                          -- RET A
  | _ => .bad

/-- Run a program after skipping some instructions; all jumps are forward. `none`
is running past the end or meeting an invalid instruction. -/
def runFrom (d : Data) : List Insn → Nat → St → Option (BitVec 32)
  | [], _, _ => none
  | _ :: p, n + 1, s => runFrom d p n s
  | i :: p, 0, s =>
    match exec d i s with
    | .go n s => runFrom d p n s
    | .ret v => some v
    | .bad => none

/-- The filter's return value for a system call. -/
def run (p : List Insn) (d : Data) : Option (BitVec 32) := runFrom d p 0 St.init

/-- Return values (linux/seccomp.h). -/
def RET_ALLOW : BitVec 32 := 0x7fff0000#32
def RET_TRAP : BitVec 32 := 0x00030000#32
def RET_KILL : BitVec 32 := 0x00000000#32

/-- The bytes of a little-endian number (x86). -/
def le16 (v : BitVec 16) : Bytes := [⟨v.extractLsb' 0 8⟩, ⟨v.extractLsb' 8 8⟩]
def le32 (v : BitVec 32) : Bytes :=
  [⟨v.extractLsb' 0 8⟩, ⟨v.extractLsb' 8 8⟩, ⟨v.extractLsb' 16 8⟩, ⟨v.extractLsb' 24 8⟩]

/-- `struct sock_filter` in memory. -/
def Insn.bytes (i : Insn) : Bytes := le16 i.code ++ [⟨i.jt⟩, ⟨i.jf⟩] ++ le32 i.k

/-- A program in memory. -/
def encode (p : List Insn) : Bytes := p.flatMap Insn.bytes

/-- What the kernel reads at the address of a program: as many whole instructions as
announced. `none` if the buffer is shorter. -/
def decode : Nat → Bytes → Option (List Insn)
  | 0, _ => some []
  | n + 1, c0 :: c1 :: t :: f :: k0 :: k1 :: k2 :: k3 :: rest =>
    (decode n rest).map
      (⟨c1.toBitVec ++ c0.toBitVec, t.toBitVec, f.toBitVec,
        k3.toBitVec ++ k2.toBitVec ++ k1.toBitVec ++ k0.toBitVec⟩ :: ·)
  | _ + 1, _ => none

end Iris.Bpf
