import Verif.Model.LinuxPolicy
/-!
# What the Linux policy is supposed to mean

Independent of how the code computes it: paths are lists of components, rules
are read off the API calls, flags are read as in open(2).
Only the API types (`FsCall`, `Call`, `Request`) and the flag values are
shared with the model.
-/
namespace Iris.Spec

/-- A component of a canonical path: not empty, no separator, not `.` or `..`. -/
def GoodComponent (c : Str) : Prop :=
  c ≠ [] ∧ '/' ∉ c ∧ c ≠ ['.'] ∧ c ≠ ['.', '.']

/-- `["a", "b"]` is written `/a/b`. -/
def render : List Str → Str
  | [] => []
  | c :: cs => '/' :: c ++ render cs

/-- The string `s` is a canonical absolute path naming the components `cs`,
possibly followed by one separator. -/
def Denotes (s : Str) (cs : List Str) : Prop :=
  cs ≠ [] ∧ (∀ c ∈ cs, GoodComponent c) ∧ (s = render cs ∨ s = render cs ++ ['/'])

/-- `s` is a canonical absolute path. -/
def Canonical (s : Str) : Prop := ∃ cs, Denotes s cs

/-- A rule call gives read access on the file or directory named by `cs`. -/
def GivesRead (c : FsCall) (cs : List Str) : Prop :=
  match c with
  | .fileRead r => Denotes r cs
  | .dirRead r => ∃ ds, Denotes r ds ∧ ds <+: cs
  | _ => False

/-- A rule call gives write access on the file or directory named by `cs`. -/
def GivesWrite (c : FsCall) (cs : List Str) : Prop :=
  match c with
  | .fileWrite r => Denotes r cs
  | .dirWrite r => ∃ ds, Denotes r ds ∧ ds <+: cs
  | _ => False

/-- Some rule in the history gives read access. -/
def ReadAllowed (h : List Call) (cs : List Str) : Prop := ∃ c, .fs c ∈ h ∧ GivesRead c cs
/-- Some rule in the history gives write access. -/
def WriteAllowed (h : List Call) (cs : List Str) : Prop := ∃ c, .fs c ∈ h ∧ GivesWrite c cs

/-- The flag word has this flag. -/
def Has (flags flag : BitVec 32) : Prop := flags &&& flag ≠ 0#32

instance (f g : BitVec 32) : Decidable (Has f g) := inferInstanceAs (Decidable (_ ≠ _))

/-- Flags documented as supported. -/
def Supported [T : Target] (flags : BitVec 32) : Prop :=
  ∀ i, i < 32 → flags.getLsbD i = true →
    i ∈ [0, 1, 6, 7, 9, 10, 16, 19, 21] ∨ T.oLargefile.getLsbD i = true

/-- The program asks to read the file: not a path-only descriptor (`O_PATH`, 0x200000), not write-only
(`O_WRONLY`, 1). -/
def AsksRead (flags : BitVec 32) : Prop := ¬ Has flags 0x200000#32 ∧ ¬ Has flags 1#32

/-- The program asks to change the file: not a path-only descriptor, and one of the
flags that write, create, truncate or append: `O_WRONLY`, `O_RDWR`, `O_TRUNC`, `O_CREAT`, `O_EXCL`, `O_APPEND`. -/
def AsksWrite (flags : BitVec 32) : Prop :=
  ¬ Has flags 0x200000#32 ∧ (Has flags 1#32 ∨ Has flags 2#32 ∨ Has flags 0x200#32 ∨
    Has flags 0x40#32 ∨ Has flags 0x80#32 ∨ Has flags 0x400#32)

/-! ## open(2), as implemented by the kernel -/

/-- `O_ACCMODE`: 0 is read-only, 1 write-only, 2 both. -/
def accMode (flags : BitVec 32) : BitVec 32 := flags &&& 3#32

/-- The descriptor returned can be read from. -/
def KernelReadable (flags : BitVec 32) : Prop :=
  ¬ Has flags 0x200000#32 ∧ (accMode flags = 0#32 ∨ accMode flags = 2#32)
/-- The descriptor returned can be written to. -/
def KernelWritable (flags : BitVec 32) : Prop :=
  ¬ Has flags 0x200000#32 ∧ (accMode flags = 1#32 ∨ accMode flags = 2#32)
/-- The call truncates the file (`O_TRUNC`). -/
def KernelTruncates (flags : BitVec 32) : Prop := ¬ Has flags 0x200000#32 ∧ Has flags 0x200#32
/-- The call may create the file (`O_CREAT`). -/
def KernelCreates (flags : BitVec 32) : Prop := ¬ Has flags 0x200000#32 ∧ Has flags 0x40#32
/-- The `__O_TMPFILE` bit: create an unnamed file in the directory. -/
def KernelTmpfile (flags : BitVec 32) : Prop := Has flags 0x400000#32

end Iris.Spec
