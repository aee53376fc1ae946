import Verif.Model.WinTrampoline
/-!
# Redirecting the functions of a Windows worker

Models `hook_function` and the calls to it, from worker/src/windows/lockdown.rs, in a 64-bit worker.
Simplified: a module is its base address, its architecture and its two tables (lines 160-203, 348-355 find them
by following the headers and panic if these are not those of a module); all tables are in different places;
`hotpatch_u32` and `hotpatch_u64` (lines 444-456) store a value, their failures panic and are not modelled, like
the failures before the first module is looked at (lines 110-150). All that is claimed is about executions
that do not panic: `none` is a panic. Model/WinImage.lean is the same code on the bytes of memory.
-/
namespace Iris
open Asm

/-- `IMAGE_FILE_HEADER.Machine`. -/
inductive Machine | amd64 | i386 | other
deriving DecidableEq, Repr

/-- `IMAGE_IMPORT_DESCRIPTOR`, and the addresses that follow from `FirstThunk` on, as far as memory goes. -/
structure ImportDescriptor where
  firstThunk : BitVec 32
  name : BitVec 32
  thunks : List (BitVec 64)
deriving DecidableEq, Repr

/-- A loaded module: `AddressOfFunctions` (no entry if it exports nothing), and the import descriptors in
memory (`none` if it imports nothing). -/
structure WinModule where
  base : BitVec 64
  machine : Machine
  exports : List (BitVec 32)
  imports : Option (List ImportDescriptor)
deriving DecidableEq, Repr

/-- What the system answers, given the addresses of the trampolines that exist already: `VirtualQuery`
(how many bytes from there on are alike, and whether they are free), and whether `VirtualAlloc`,
`VirtualProtect` and `FlushInstructionCache` succeed. -/
structure HookOs where
  granularity : Nat
  query : List (BitVec 64) → BitVec 64 → Option (Nat × Bool)
  alloc : List (BitVec 64) → BitVec 64 → Bool

/-- worker/src/windows/lockdown.rs:104-106 `align_ptr`. -/
def alignUp (a n : Nat) : Nat := if n % a = 0 then n else n + (a - n % a)

theorem le_alignUp (a n : Nat) : n ≤ alignUp a n := by
  simp only [alignUp]; split <;> omega

/-- worker/src/windows/lockdown.rs:245-269: the first free place from an address on. Past the end of the address
space (the code's `add` overflows) and for regions of no size (of which the code's loop never gets out, and
which the system never reports) `none`. The first parameter bounds the number of steps: each goes at least one
byte further, so that `2 ^ 64` of them are always enough (`findFree_enough`). -/
def findFree (os : HookOs) (done : List (BitVec 64)) : Nat → Nat → Option (BitVec 64)
  | 0, _ => none
  | fuel + 1, candidate =>
    if candidate < 2 ^ 64 then
      match os.query done (BitVec.ofNat 64 candidate) with
      | none => none
      | some (size, free) =>
        if free then some (BitVec.ofNat 64 candidate)
        else if size = 0 then none
        else findFree os done fuel (alignUp os.granularity (candidate + size))
    else none

theorem findFree_enough (os : HookOs) (done : List (BitVec 64)) (fuel more candidate : Nat)
    (h : 2 ^ 64 ≤ candidate + fuel) : findFree os done (fuel + more) candidate = findFree os done fuel candidate := by
  induction fuel generalizing candidate with
  | zero =>
    cases more with
    | zero => rfl
    | succ n =>
      have hc : ¬ candidate < 2 ^ 64 := by omega
      rw [show 0 + (n + 1) = n + 1 by omega, findFree.eq_def, findFree.eq_def]
      simp only [if_neg hc]
  | succ fuel ih =>
    rw [show fuel + 1 + more = fuel + more + 1 by omega, findFree.eq_def, findFree.eq_def os done (fuel + 1)]
    simp only
    split
    · split
      · rfl
      · split
        · rfl
        · split
          · rfl
          · rename_i size free _ _ hs
            have := le_alignUp os.granularity (candidate + size)
            exact ih _ (by omega)
    · rfl

/-- The memory of the worker, and the trampolines in it. -/
structure HookState where
  mem : Mem 64
  trampolines : List (BitVec 64)

/-- worker/src/windows/lockdown.rs:231-332: a new trampoline. -/
def newTrampoline (os : HookOs) (base hook : BitVec 64) (s : HookState) : Option (HookState × BitVec 64) :=
  match findFree os s.trampolines (2 ^ 64) (alignUp os.granularity base.toNat) with
  | none => none
  | some a =>
    if os.alloc s.trampolines a then some (⟨writeTrampoline64 s.mem a hook, a :: s.trampolines⟩, a) else none

/-- The address an entry of the table of exports stands for. -/
def resolve (base : BitVec 64) (rva : BitVec 32) : BitVec 64 := base + rva.zeroExtend 64

/-- worker/src/windows/lockdown.rs:219-345: the table of exports of a module. `tramp` is `trampoline_addr`. -/
def hookExports (os : HookOs) (base orig hook : BitVec 64) :
    List (BitVec 32) → HookState → Option (BitVec 64) → Option (HookState × List (BitVec 32))
  | [], s, _ => some (s, [])
  | rva :: rest, s, tramp =>
    if resolve base rva = orig then
      if base.toNat < hook.toNat ∧ hook.toNat - base.toNat < 2 ^ 32 then
        (hookExports os base orig hook rest s tramp).map fun r => (r.1, BitVec.ofNat 32 (hook.toNat - base.toNat) :: r.2)
      else
        match tramp with
        | some a => (hookExports os base orig hook rest s tramp).map fun r => (r.1, (a - base).truncate 32 :: r.2)
        | none =>
          match newTrampoline os base hook s with
          | none => none
          | some (s, a) =>
            (hookExports os base orig hook rest s (some a)).map fun r => (r.1, (a - base).truncate 32 :: r.2)
    else (hookExports os base orig hook rest s tramp).map fun r => (r.1, rva :: r.2)

/-- worker/src/windows/lockdown.rs:369-397: the addresses of one import descriptor, until a zero. In a 32-bit
module the hook's address must fit. Memory that ends before a zero faults. -/
def hookThunks (machine : Machine) (orig hook : BitVec 64) : List (BitVec 64) → Option (List (BitVec 64))
  | [] => none
  | t :: rest =>
    if t = 0 then some (t :: rest)
    else if t = orig then
      match machine with
      | .amd64 => (hookThunks machine orig hook rest).map (hook :: ·)
      | .i386 => if hook.toNat < 2 ^ 32 then (hookThunks machine orig hook rest).map (hook :: ·) else none
      | .other => none
    else (hookThunks machine orig hook rest).map (t :: ·)

/-- worker/src/windows/lockdown.rs:356-398: the import descriptors, until one without addresses or name. -/
def hookImports (machine : Machine) (orig hook : BitVec 64) :
    List ImportDescriptor → Option (List ImportDescriptor)
  | [] => none
  | d :: rest =>
    if d.firstThunk = 0 ∨ d.name = 0 then some (d :: rest)
    else match hookThunks machine orig hook d.thunks with
      | none => none
      | some ts => (hookImports machine orig hook rest).map ({ d with thunks := ts } :: ·)

/-- worker/src/windows/lockdown.rs:161-401: one module; its exports first. -/
def hookModule (os : HookOs) (orig hook : BitVec 64) (s : HookState) (m : WinModule) :
    Option (HookState × WinModule) :=
  if m.machine = .other then none
  else match hookExports os m.base orig hook m.exports s none with
    | none => none
    | some (s, exports) =>
      match m.imports with
      | none => some (s, { m with exports })
      | some l => (hookImports m.machine orig hook l).map fun l => (s, { m with exports, imports := some l })

/-- worker/src/windows/lockdown.rs:108-402 `hook_function`, for the function at `orig`: all the modules. -/
def hookFunction (os : HookOs) (orig hook : BitVec 64) :
    HookState → List WinModule → Option (HookState × List WinModule)
  | s, [] => some (s, [])
  | s, m :: rest =>
    match hookModule os orig hook s m with
    | none => none
    | some (s, m) => (hookFunction os orig hook s rest).map fun r => (r.1, m :: r.2)

/-- `GetProcAddress`: the address of an entry of the exports of module number `dll`. -/
def procAddress (mods : List WinModule) (dll entry : Nat) : Option (BitVec 64) :=
  match mods[dll]? with
  | none => none
  | some m => m.exports[entry]?.map (resolve m.base)

/-- worker/src/windows/lockdown.rs:763-769: the functions hooked, one after the other. Each is the entry of the
exports of module `dll` it is found at, and the address of what replaces it. -/
def hookAll (os : HookOs) (dll : Nat) :
    List (Nat × BitVec 64) → HookState → List WinModule → Option (HookState × List WinModule)
  | [], s, mods => some (s, mods)
  | (entry, hook) :: rest, s, mods =>
    match procAddress mods dll entry with
    | none => none
    | some orig =>
      match hookFunction os orig hook s mods with
      | none => none
      | some (s, mods) => hookAll os dll rest s mods

end Iris
