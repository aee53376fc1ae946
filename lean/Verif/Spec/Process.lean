import Verif.Model.Process
/-! # Specification vocabulary for worker creation -/
namespace Iris.Spec

/-- `name` is the name of the environment entry `v`: all of it, or what comes before its
first `=`. -/
def EnvName (v name : Bytes) : Prop :=
  (61 : UInt8) ∉ name ∧ (v = name ∨ ∃ value, v = name ++ 61 :: value)

/-- The first entry of each name, in order. -/
def firstOfEachName (name : Bytes → Bytes) : List Bytes → List Bytes
  | [] => []
  | v :: vs => v :: (firstOfEachName name vs).filter fun x => name x ≠ name v

/-- Descriptor `fd` is open and is not closed when a program is executed. -/
def Inheritable (t : FdTable) (fd : Nat) : Prop :=
  ∃ e, t.get fd = some e ∧ e.flags.getLsbD 0 = false

/-- The caller asked for the worker to have descriptor `fd`. -/
def Declared (p : Policy) (c : ProcessConfig) (fd : Nat) : Prop :=
  fd ∈ p.inheritedHandles ∨ c.stdin = some fd ∨ c.stdout = some fd ∨ c.stderr = some fd

/-- The broker has descriptors 0, 1 and 2. -/
def HasStdStreams (t : FdTable) : Prop := ∀ n, n ≤ 2 → t.get n ≠ none

/-- What the kernel guarantees of a descriptor table: no two entries have the same
number, numbers are C `int`s, and there are not quite as many entries as `int`s. -/
structure RealTable (t : FdTable) : Prop where
  nodup : (t.map Prod.fst).Nodup
  int : ∀ x ∈ t, x.1 < 2 ^ 31
  small : t.length < 2 ^ 31 - 8

/-- Standard stream `num` of the program is the file the caller redirected it to (`t` is
the caller's descriptor table), or the null device. -/
def StreamIs (t : FdTable) (img : Image) (num : Nat) : Option Nat → Prop
  | some h => ∃ e e', t.get h = some e ∧ img.table.get num = some e' ∧ e'.file = e.file
  | none => ∃ e' flags, img.table.get num = some e' ∧ (e'.file, c!"/dev/null", flags) ∈ img.opened

/-- No capability, in any of the sets that matter to a running program. -/
def NoCapability (c : Caps) : Prop :=
  c.permitted = 0#64 ∧ c.effective = 0#64 ∧ c.inheritable = 0#64 ∧ c.ambient = 0#64

/-- What `write` on an open file does: for the files opened by the entry point, an error
(EBADF) if the access mode is read-only, and nothing at all for the null device
otherwise. -/
inductive WriteResult
  | badFd
  | discarded
  | elsewhere
deriving DecidableEq

def writeTo (img : Image) (fd : Nat) : WriteResult :=
  match img.table.get fd with
  | none => .badFd
  | some e =>
    match img.opened.find? fun x => x.1 == e.file with
    | none => .elsewhere
    | some (_, path, flags) =>
      if flags &&& 3#32 = 0#32 then .badFd
      else if path = c!"/dev/null" then .discarded else .elsewhere

end Iris.Spec
