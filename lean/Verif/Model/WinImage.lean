import Verif.Model.WinHook
/-!
# Redirecting functions, in the memory of a Windows worker

Models the same code as Model/WinHook.lean, `hook_function` of worker/src/windows/lockdown.rs in a 64-bit worker,
but on the bytes of its memory: the tables of a module are found by following its headers, and its entries
are overwritten where they are. Pages have a protection, which is changed and changed back, and which the
processor enforces. All the states the memory goes through are kept: other threads run meanwhile.

Simplified: the name of a module is not read (lines 207-213 log it); other threads do not change memory; what
the worker's own code, stack and heap need of memory is not modelled (the code goes on to run even if its pages
are not executable any more). On memory mapped from a file Windows replaces `PAGE_READWRITE` by
`PAGE_WRITECOPY` until the first write: not modelled.
-/
namespace Iris
open Asm

/-- The protections of pages (`PAGE_NOACCESS` and so on). Guard pages and caching are not modelled. -/
inductive Prot
  | noAccess | readOnly | readWrite | writeCopy
  | execute | executeRead | executeReadWrite | executeWriteCopy
deriving DecidableEq, Repr

def Prot.readable : Prot → Bool
  | .noAccess | .execute => false
  | _ => true

def Prot.writable : Prot → Bool
  | .readWrite | .writeCopy | .executeReadWrite | .executeWriteCopy => true
  | _ => false

/-- The number of the page an address is on: pages have 4096 bytes. -/
def pageOf (a : BitVec 64) : Nat := a.toNat / 4096

/-- The memory of a process. A page without protection is free. `calls` counts the system calls. -/
structure PState where
  mem : Mem 64
  prot : Nat → Option Prot
  calls : Nat

/-- What the system answers: which of its calls fail, the size `VirtualQuery` reports for a region, and the
allocation granularity (`GetSystemInfo`). -/
structure PageOs where
  granularity : Nat
  fails : Nat → Bool
  region : PState → BitVec 64 → Nat

/-- A part of the code: from a state, the states it goes through (oldest first) and, if it does not panic, fault
or go on forever, its result and the state it ends in. -/
def Hooking (α : Type) := PState → List PState × Option (α × PState)

instance : Monad Hooking where
  pure a := fun s => ([], some (a, s))
  bind x f := fun s =>
    match x s with
    | (t, none) => (t, none)
    | (t, some (a, s')) => (t ++ (f a s').1, (f a s').2)

/-- A panic, or a fault. -/
def Hooking.fail {α : Type} : Hooking α := fun _ => ([], none)

def Hooking.get : Hooking PState := fun s => ([], some (s, s))

def Hooking.put (s : PState) : Hooking Unit := fun _ => ([s], some ((), s))

open Hooking

/-- The bytes at an address can all be accessed, as far as their protection says. -/
def PState.permits (s : PState) (ok : Prot → Bool) (a : BitVec 64) (n : Nat) : Bool :=
  (List.range n).all fun i => ((s.prot (pageOf (a + BitVec.ofNat 64 i))).map ok).getD false

/-- Dereference a pointer to a number of `n` bytes. -/
def loadNat (n : Nat) (a : BitVec 64) : Hooking Nat := do
  let s ← get
  if s.permits Prot.readable a n then pure (readNat s.mem n a) else fail

/-- Write bytes through a pointer. -/
def store (a : BitVec 64) (bytes : List (BitVec 8)) : Hooking Unit := do
  let s ← get
  if s.permits Prot.writable a bytes.length then put { s with mem := copyTo s.mem a bytes } else fail

/-- A system call: whether it succeeds. -/
def systemCall (os : PageOs) : Hooking Bool := do
  let s ← get
  put { s with calls := s.calls + 1 }
  pure (!os.fails s.calls)

/-- The page has bytes among the `size` bytes (at least one) at the address. -/
def touches (a : BitVec 64) (size p : Nat) : Bool :=
  decide (a.toNat / 4096 ≤ p) && decide (p ≤ (a.toNat + size - 1) / 4096)

/-- The pages which have bytes among the `size` bytes at the address. -/
def pagesOf (a : BitVec 64) (size : Nat) : List Nat :=
  (List.range ((a.toNat + size - 1) / 4096 - a.toNat / 4096 + 1)).map (a.toNat / 4096 + ·)

/-- `VirtualProtect`: all the pages that have bytes in the range get the protection, if none is free; the old
one of the first is returned. `none` if it fails. -/
def virtualProtect (os : PageOs) (a : BitVec 64) (size : Nat) (new : Prot) : Hooking (Option Prot) := do
  let ok ← systemCall os
  let s ← get
  if ok && (pagesOf a size).all (fun p => (s.prot p).isSome) then
    put { s with prot := fun p => if touches a size p then some new else s.prot p }
    pure (s.prot (pageOf a))
  else pure none

/-- `VirtualAlloc` at an address, with `MEM_COMMIT | MEM_RESERVE`: the pages must be free; they are filled with
zeros. Whether it succeeded. -/
def virtualAlloc (os : PageOs) (a : BitVec 64) (size : Nat) (new : Prot) : Hooking Bool := do
  let ok ← systemCall os
  let s ← get
  if ok && (pagesOf a size).all (fun p => (s.prot p).isNone) then
    put { s with
      mem := fun x => if touches a size (pageOf x) then 0 else s.mem x
      prot := fun p => if touches a size p then some new else s.prot p }
    pure true
  else pure false

/-- worker/src/windows/lockdown.rs:458-489 `unprotect_memory_area`. -/
def unprotectMemoryArea (os : PageOs) (location : BitVec 64) (size : Nat) : Hooking Prot := do
  let ok ← systemCall os
  if ok then
    match ← virtualProtect os location size .readWrite with
    | some old => pure old
    | none => fail
  else fail

/-- worker/src/windows/lockdown.rs:491-508 `reprotect_memory_area`. -/
def reprotectMemoryArea (os : PageOs) (location : BitVec 64) (size : Nat) (old : Prot) : Hooking Unit := do
  match ← virtualProtect os location size old with
  | some _ => pure ()
  | none => fail

/-- worker/src/windows/lockdown.rs:444-456 `hotpatch_u32` (`size` is 4) and `hotpatch_u64` (`size` is 8). The store
is atomic, which Rust only defines if the location is aligned; the processor does it anyway, and not atomically
if it spans two cache lines. -/
def hotpatch (os : PageOs) (size : Nat) (value : Nat) (location : BitVec 64) : Hooking Unit := do
  let old ← unprotectMemoryArea os location size
  store location (leBytes size value)
  reprotectMemoryArea os location size old

/-- worker/src/windows/lockdown.rs:269-331: a trampoline is made at a free place. `VirtualFree` (lines 303 and 321) is
given a size, with `MEM_RELEASE`: this fails, always. The code panics next in any case. -/
def makeTrampoline (os : PageOs) (candidate hook : BitVec 64) : Hooking Unit := do
  let ok ← virtualAlloc os candidate os.granularity .readWrite
  if ok then
    store candidate (patch64 hook)
    match ← virtualProtect os candidate os.granularity .executeRead with
    | some _ =>
      let ok ← systemCall os
      if ok then pure () else fail
    | none => fail
  else fail

/-- worker/src/windows/lockdown.rs:241-332: the first free place from an address on. Past the end of the address
space `add` is undefined: `fail`. The first parameter bounds the number of steps. -/
def findTrampoline (os : PageOs) (hook : BitVec 64) : Nat → Nat → Hooking (BitVec 64)
  | 0, _ => fail
  | fuel + 1, candidate =>
    if candidate < 2 ^ 64 then do
      let ok ← systemCall os
      if ok then
        let s ← get
        let a := BitVec.ofNat 64 candidate
        if s.prot (pageOf a) = none then
          makeTrampoline os a hook
          pure a
        else findTrampoline os hook fuel (alignUp os.granularity (candidate + os.region s a))
      else fail
    else fail

/-- worker/src/windows/lockdown.rs:219-345: the entries of a table of exports, from number `i` on, of which `n`
are left. `tramp` is `trampoline_addr`. -/
def hookExportsAt (os : PageOs) (fuel : Nat) (base orig hook table : BitVec 64) :
    Nat → Nat → Option (BitVec 64) → Hooking Unit
  | 0, _, _ => pure ()
  | n + 1, i, tramp => do
    let location := table + BitVec.ofNat 64 (4 * i)
    let rva ← loadNat 4 location
    if base + BitVec.ofNat 64 rva = orig then
      if base.toNat < hook.toNat ∧ hook.toNat - base.toNat < 2 ^ 32 then
        hotpatch os 4 (hook.toNat - base.toNat) location
        hookExportsAt os fuel base orig hook table n (i + 1) tramp
      else
        let a ← match tramp with
          | some a => pure a
          | none => findTrampoline os hook fuel (alignUp os.granularity base.toNat)
        hotpatch os 4 ((a - base).toNat % 2 ^ 32) location
        hookExportsAt os fuel base orig hook table n (i + 1) (some a)
    else hookExportsAt os fuel base orig hook table n (i + 1) tramp

/-- worker/src/windows/lockdown.rs:369-397: the addresses imported from one module, from number `k` on. `size` is that
of an address, which depends on the architecture; in a 32-bit module the hook's address must fit. The first
parameter bounds the number of steps. -/
def hookThunksAt (os : PageOs) (orig hook thunks : BitVec 64) (size : Nat) : Nat → Nat → Hooking Unit
  | 0, _ => fail
  | fuel + 1, k => do
    let location := thunks + BitVec.ofNat 64 (size * k)
    let thunk ← loadNat size location
    if thunk = 0 then pure ()
    else if thunk = orig.toNat then
      if hook.toNat < 256 ^ size then
        hotpatch os size hook.toNat location
        hookThunksAt os orig hook thunks size fuel (k + 1)
      else fail
    else hookThunksAt os orig hook thunks size fuel (k + 1)

/-- worker/src/windows/lockdown.rs:356-398: the import descriptors (of 20 bytes, `Name` is at 12 and `FirstThunk` at
16), from number `j` on. The first parameter bounds the number of steps. -/
def hookImportsAt (os : PageOs) (fuel : Nat) (base orig hook descriptors : BitVec 64) (size : Nat) :
    Nat → Nat → Hooking Unit
  | 0, _ => fail
  | steps + 1, j => do
    let descriptor := descriptors + BitVec.ofNat 64 (20 * j)
    let firstThunk ← loadNat 4 (descriptor + 16)
    let name ← loadNat 4 (descriptor + 12)
    if firstThunk = 0 ∨ name = 0 then pure ()
    else
      hookThunksAt os orig hook (base + BitVec.ofNat 64 firstThunk) size fuel 0
      hookImportsAt os fuel base orig hook descriptors size steps (j + 1)

/-- worker/src/windows/lockdown.rs:166-192: the headers of a module. `e_lfanew` is at 0x3C of the DOS header; the machine
is at 4 of the NT headers and the data directories at 120 or, in a 64-bit module, 136. The size of an address in
the module, and where the data directories are. -/
def readHeaders (base : BitVec 64) : Hooking (Nat × BitVec 64) := do
  let magic ← loadNat 2 base
  if magic = 0x5A4D then
    let lfanew ← loadNat 4 (base + 0x3C)
    let nt := base + (BitVec.ofNat 32 lfanew).signExtend 64
    let magic ← loadNat 4 nt
    if magic = 0x4550 then
      let machine ← loadNat 2 (nt + 4)
      if machine = 0x8664 then pure (8, nt + 136)
      else if machine = 0x14c then pure (4, nt + 120)
      else fail
    else fail
  else fail

/-- worker/src/windows/lockdown.rs:194-346: the exports of a module, if it has any. In the export directory
`NumberOfFunctions` is at 20 and `AddressOfFunctions` at 28. -/
def hookExportsOf (os : PageOs) (fuel : Nat) (base orig hook directories : BitVec 64) : Hooking Unit := do
  let address ← loadNat 4 directories
  let size ← loadNat 4 (directories + 4)
  if address ≠ 0 ∧ size ≠ 0 then
    let directory := base + BitVec.ofNat 64 address
    let count ← loadNat 4 (directory + 20)
    let functions ← loadNat 4 (directory + 28)
    hookExportsAt os fuel base orig hook (base + BitVec.ofNat 64 functions) count 0 none
  else pure ()

/-- worker/src/windows/lockdown.rs:348-399: the imports of a module, if it has any. -/
def hookImportsOf (os : PageOs) (fuel : Nat) (base orig hook directories : BitVec 64) (size : Nat) : Hooking Unit := do
  let address ← loadNat 4 (directories + 8)
  let bytes ← loadNat 4 (directories + 12)
  if address ≠ 0 ∧ bytes ≠ 0 then
    hookImportsAt os fuel base orig hook (base + BitVec.ofNat 64 address) size fuel 0
  else pure ()

/-- worker/src/windows/lockdown.rs:160-399: one module. -/
def hookModuleAt (os : PageOs) (fuel : Nat) (base orig hook : BitVec 64) : Hooking Unit := do
  let (size, directories) ← readHeaders base
  hookExportsOf os fuel base orig hook directories
  hookImportsOf os fuel base orig hook directories size

/-- worker/src/windows/lockdown.rs:159-401: the modules of the loader's list, from an entry on, until its head. In an entry
`Flink` is at 0 and `DllBase` at 32. The first parameter bounds the number of steps. -/
def hookModulesFrom (os : PageOs) (fuel : Nat) (orig hook head : BitVec 64) : Nat → BitVec 64 → Hooking Unit
  | 0, _ => fail
  | steps + 1, pos =>
    if pos = head then pure ()
    else do
      let base ← loadNat 8 (pos + 32)
      hookModuleAt os fuel (BitVec.ofNat 64 base) orig hook
      let next ← loadNat 8 pos
      hookModulesFrom os fuel orig hook head steps (BitVec.ofNat 64 next)

/-- A function to hook: the base address of its module, the address of its entry in the table of exports, at which
`GetProcAddress` finds it (names are not modelled, nor are functions forwarded to another module), and the address of
what replaces it. -/
structure HookRequest where
  dll : BitVec 64
  location : BitVec 64
  hook : BitVec 64
deriving DecidableEq

/-- worker/src/windows/lockdown.rs:108-402 `hook_function`, in a process whose PEB is at an address (`Ldr` is at 24 of it,
`InMemoryOrderModuleList` at 32 of that). `LoadLibraryA`, `GetProcAddress` and `NtQueryInformationProcess` may
fail. -/
def hookFunctionAt (os : PageOs) (fuel : Nat) (peb : BitVec 64) (r : HookRequest) : Hooking Unit := do
  let ok ← systemCall os
  if ok then
    let rva ← loadNat 4 r.location
    let ok ← systemCall os
    let ok' ← systemCall os
    if ok && ok' then
      let ldr ← loadNat 8 (peb + 24)
      let head := BitVec.ofNat 64 ldr + 32
      let first ← loadNat 8 head
      hookModulesFrom os fuel (r.dll + BitVec.ofNat 64 rva) r.hook head fuel (BitVec.ofNat 64 first)
    else fail
  else fail

/-- worker/src/windows/lockdown.rs:763-769: the functions hooked, one after the other. -/
def hookAllAt (os : PageOs) (fuel : Nat) (peb : BitVec 64) : List HookRequest → Hooking Unit
  | [] => pure ()
  | r :: rest => do
    hookFunctionAt os fuel peb r
    hookAllAt os fuel peb rest

end Iris
