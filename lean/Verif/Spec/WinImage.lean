import Verif.Model.WinImage
import Verif.Spec.WinHook
/-!
# What the memory of a Windows process holds

The modules that are loaded, as the documentation of the PE format and of the loader's lists describes them; what
protections of pages are for.
-/
namespace Iris.Spec
open Asm

/-- The page can be written to. -/
def PageWritable (s : PState) (p : Nat) : Prop :=
  s.prot p = some .readWrite ∨ s.prot p = some .writeCopy ∨ s.prot p = some .executeReadWrite ∨
  s.prot p = some .executeWriteCopy

/-- What the page holds can be executed. -/
def PageExecutable (s : PState) (p : Nat) : Prop :=
  s.prot p = some .execute ∨ s.prot p = some .executeRead ∨ s.prot p = some .executeReadWrite ∨
  s.prot p = some .executeWriteCopy

/-- No memory can be both written and executed. -/
def WriteXorExecute (s : PState) : Prop := ∀ p, ¬ (PageWritable s p ∧ PageExecutable s p)

/-- The address is on a page that is not free. -/
def InUse (s : PState) (a : BitVec 64) : Prop := s.prot (a.toNat / 4096) ≠ none

/-- The number stored in `n` bytes, little endian. -/
def num (s : PState) (n : Nat) (a : BitVec 64) : Nat := readNat s.mem n a

/-- A loaded module: where it is, where its NT headers are, whether it is a 64-bit one; its export directory, the
table of its exports and their number, if it has any; its first import descriptor and, for each one, where the
addresses imported are and how many, if it has any. -/
structure PeImage where
  base : BitVec 64
  nt : BitVec 64
  wide : Bool
  exports : Option (BitVec 64 × BitVec 64 × Nat)
  imports : Option (BitVec 64 × List (BitVec 64 × Nat))

/-- The size of an address in the module. -/
def PeImage.word (i : PeImage) : Nat := if i.wide then 8 else 4

/-- The data directories: the exports are the first, the imports are the second. -/
def PeImage.directories (i : PeImage) : BitVec 64 := i.nt + if i.wide then 136 else 120

/-- A place that holds the address of a function: an entry of the exports of a module (relative to its base), or of
its imports. -/
inductive Slot
  | exported (base a : BitVec 64)
  | imported (size : Nat) (a : BitVec 64)
deriving DecidableEq

def Slot.addr : Slot → BitVec 64
  | .exported _ a => a
  | .imported _ a => a

def Slot.size : Slot → Nat
  | .exported _ _ => 4
  | .imported n _ => n

/-- The byte is one of the place. -/
def Slot.Has (sl : Slot) (x : BitVec 64) : Prop := InRange sl.addr sl.size x

/-- The address of the function. -/
def Slot.target (s : PState) : Slot → BitVec 64
  | .exported base a => base + BitVec.ofNat 64 (num s 4 a)
  | .imported n a => BitVec.ofNat 64 (num s n a)

/-- The places that hold addresses of functions. -/
def PeImage.slots (i : PeImage) : List Slot :=
  (match i.exports with
    | none => []
    | some (_, table, n) => (List.range' 0 n).map fun k => .exported i.base (table + BitVec.ofNat 64 (4 * k))) ++
  (match i.imports with
    | none => []
    | some (_, l) => l.flatMap fun d =>
      (List.range' 0 d.2).map fun k => .imported i.word (d.1 + BitVec.ofNat 64 (i.word * k)))

/-- The parts of a module which say where its tables are and where they end: addresses and sizes. -/
def PeImage.header (i : PeImage) : List (BitVec 64 × Nat) :=
  [(i.base, 2), (i.base + 0x3C, 4), (i.nt, 4), (i.nt + 4, 2), (i.directories, 4), (i.directories + 4, 4),
   (i.directories + 8, 4), (i.directories + 12, 4)] ++
  (match i.exports with
    | none => []
    | some (d, _, _) => [(d + 20, 4), (d + 28, 4)]) ++
  (match i.imports with
    | none => []
    | some (d, l) =>
      ((List.range (l.length + 1)).flatMap fun j =>
        [(d + BitVec.ofNat 64 (20 * j) + 12, 4), (d + BitVec.ofNat 64 (20 * j) + 16, 4)]) ++
      l.map fun e => (e.1 + BitVec.ofNat 64 (i.word * e.2), i.word))

/-- The module is in memory. -/
structure PeImage.Loaded (s : PState) (i : PeImage) : Prop where
  dos : num s 2 i.base = 0x5A4D
  nt : i.nt = i.base + (BitVec.ofNat 32 (num s 4 (i.base + 0x3C))).signExtend 64
  pe : num s 4 i.nt = 0x4550
  machine : num s 2 (i.nt + 4) = if i.wide then 0x8664 else 0x14c
  exports : match i.exports with
    | none => num s 4 i.directories = 0 ∨ num s 4 (i.directories + 4) = 0
    | some (d, table, n) => num s 4 i.directories ≠ 0 ∧ num s 4 (i.directories + 4) ≠ 0 ∧
      d = i.base + BitVec.ofNat 64 (num s 4 i.directories) ∧
      n = num s 4 (d + 20) ∧ table = i.base + BitVec.ofNat 64 (num s 4 (d + 28))
  imports : match i.imports with
    | none => num s 4 (i.directories + 8) = 0 ∨ num s 4 (i.directories + 12) = 0
    | some (d, l) => num s 4 (i.directories + 8) ≠ 0 ∧ num s 4 (i.directories + 12) ≠ 0 ∧
      d = i.base + BitVec.ofNat 64 (num s 4 (i.directories + 8)) ∧
      (∀ (j : Nat) (table : BitVec 64) (n : Nat), l[j]? = some (table, n) →
        num s 4 (d + BitVec.ofNat 64 (20 * j) + 16) ≠ 0 ∧ num s 4 (d + BitVec.ofNat 64 (20 * j) + 12) ≠ 0 ∧
        table = i.base + BitVec.ofNat 64 (num s 4 (d + BitVec.ofNat 64 (20 * j) + 16)) ∧
        (∀ k, k < n → num s i.word (table + BitVec.ofNat 64 (i.word * k)) ≠ 0) ∧
        num s i.word (table + BitVec.ofNat 64 (i.word * n)) = 0) ∧
      (num s 4 (d + BitVec.ofNat 64 (20 * l.length) + 16) = 0 ∨ num s 4 (d + BitVec.ofNat 64 (20 * l.length) + 12) = 0)

/-- A process: its PEB, the head of the loader's list of modules, and for each module its entry in the list. -/
structure Process where
  peb : BitVec 64
  head : BitVec 64
  modules : List (BitVec 64 × PeImage)

/-- The entries of the loader's list, from an address on. -/
def Linked (s : PState) (head : BitVec 64) : BitVec 64 → List (BitVec 64 × PeImage) → Prop
  | pos, [] => pos = head
  | pos, (entry, i) :: rest =>
    pos = entry ∧ entry ≠ head ∧ num s 8 (entry + 32) = i.base.toNat ∧ i.Loaded s ∧
      Linked s head (BitVec.ofNat 64 (num s 8 entry)) rest

/-- The process is in memory. -/
def Process.Loaded (s : PState) (p : Process) : Prop :=
  p.head = BitVec.ofNat 64 (num s 8 (p.peb + 24)) + 32 ∧
  Linked s p.head (BitVec.ofNat 64 (num s 8 p.head)) p.modules

def Process.slots (p : Process) : List Slot := p.modules.flatMap fun m => m.2.slots

def Process.header (p : Process) : List (BitVec 64 × Nat) :=
  [(p.peb + 24, 8), (p.head, 8)] ++ p.modules.flatMap fun m => [(m.1, 8), (m.1 + 32, 8)] ++ m.2.header

/-- The places that hold addresses of functions have no byte in common, neither with each other nor with what
describes them; all this memory is in use; and the places are aligned. -/
structure Process.Separate (s : PState) (p : Process) : Prop where
  apart : p.slots.Pairwise fun a b => ∀ x, a.Has x → ¬ b.Has x
  described : ∀ sl ∈ p.slots, ∀ r ∈ p.header, ∀ x, sl.Has x → ¬ InRange r.1 r.2 x
  slotsUsed : ∀ sl ∈ p.slots, ∀ x, sl.Has x → InUse s x
  headerUsed : ∀ r ∈ p.header, ∀ x, InRange r.1 r.2 x → InUse s x
  aligned : ∀ sl ∈ p.slots, sl.addr.toNat % sl.size = 0

/-- A call through the place arrives at the function `hook`. -/
def Slot.LeadsTo (s : PState) (hook : BitVec 64) : Slot → Prop
  | .exported base a => Reaches s.mem (Slot.target s (.exported base a)) hook
  | .imported n a => Slot.target s (.imported n a) = hook

/-- The address of a function to hook. -/
def requested (s : PState) (r : HookRequest) : BitVec 64 := Slot.target s (.exported r.dll r.location)

/-- The functions hooked are exported by modules of the process; they are different from each other, and their
code is in memory. What replaces them is none of them. -/
structure Proper (s : PState) (p : Process) (reqs : List HookRequest) : Prop where
  exported : ∀ r ∈ reqs, Slot.exported r.dll r.location ∈ p.slots
  distinct : (reqs.map (requested s)).Nodup
  code : ∀ r ∈ reqs, InUse s (requested s r)
  hook : ∀ r ∈ reqs, r.hook ≠ 0 ∧ ∀ r' ∈ reqs, r.hook ≠ requested s r'

/-- The system gives out memory in units of one or more pages, which divide the address space. -/
structure PageUnits (os : PageOs) : Prop where
  pages : 4096 ∣ os.granularity
  pos : 0 < os.granularity
  space : os.granularity ∣ 2 ^ 64

/-- Places which were free in `s` and are not in `s'` are less than 4 GiB above each module that exports one of
the functions. -/
def WithinReach (s s' : PState) (p : Process) (reqs : List HookRequest) : Prop :=
  ∀ base a, Slot.exported base a ∈ p.slots → (∃ r ∈ reqs, requested s r = Slot.target s (.exported base a)) →
    ∀ t : BitVec 64, ¬ InUse s t → InUse s' t → (t - base).toNat < 2 ^ 32

/-- From `s` to `s'` the functions of the process were redirected, and nothing else was changed in memory that was
in use. -/
structure Redirected (s s' : PState) (p : Process) (reqs : List HookRequest) : Prop where
  hooked : ∀ sl ∈ p.slots, ∀ r ∈ reqs, sl.target s = requested s r → sl.LeadsTo s' r.hook
  others : ∀ x, InUse s x → (∀ sl ∈ p.slots, sl.Has x → ∀ r ∈ reqs, sl.target s ≠ requested s r) → s'.mem x = s.mem x

/-- The page can be read. -/
def PageReadable (s : PState) (p : Nat) : Prop :=
  s.prot p = some .readOnly ∨ s.prot p = some .readWrite ∨ s.prot p = some .writeCopy ∨ s.prot p = some .executeRead ∨
  s.prot p = some .executeReadWrite ∨ s.prot p = some .executeWriteCopy

/-- The tables of the process, and what describes them, can be read. -/
structure Process.Readable (s : PState) (p : Process) : Prop where
  slots : ∀ sl ∈ p.slots, ∀ x, sl.Has x → PageReadable s (x.toNat / 4096)
  header : ∀ r ∈ p.header, ∀ x, InRange r.1 r.2 x → PageReadable s (x.toNat / 4096)

/-- The system does what it is asked to, and tells the truth about memory: what it says to be alike from an address on
is all in use if its beginning is. -/
structure Obliging (os : PageOs) : Prop where
  grants : ∀ n, os.fails n = false
  sized : ∀ (s : PState) (a : BitVec 64), InUse s a → 0 < os.region s a
  honest : ∀ (s : PState) (a : BitVec 64) (p : Nat), InUse s a → a.toNat / 4096 ≤ p → p * 4096 < a.toNat + os.region s a →
    s.prot p ≠ none

/-- Memory is in use by units: a unit whose first page is free is free. At least `n` free units are above all the
modules. -/
structure FreeUnits (os : PageOs) (s : PState) (p : Process) (n : Nat) : Prop where
  whole : ∀ u q, os.granularity ∣ u → u < 2 ^ 64 → s.prot (u / 4096) = none → u ≤ q * 4096 → q * 4096 < u + os.granularity →
    s.prot q = none
  enough : ∃ l : List Nat, l.Nodup ∧ n ≤ l.length ∧ ∀ u ∈ l, os.granularity ∣ u ∧ u < 2 ^ 64 ∧ s.prot (u / 4096) = none ∧
    ∀ m ∈ p.modules, m.2.base.toNat ≤ u

end Iris.Spec
