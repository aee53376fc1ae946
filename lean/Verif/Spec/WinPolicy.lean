import Verif.Model.WinPolicy
import Verif.Spec.LinuxPolicy
/-!
# What the Windows policy is supposed to mean

In terms of the text of paths and of the bits documented for `NtCreateFile` and `NtCreateKey`. Shared
with the model: the types of calls and requests, and what the system answers (`WinOs`).
-/
namespace Iris.Spec

/-- The text without one final backslash. -/
def trim (s : Str) : Str := if s.getLast? = some '\\' then s.dropLast else s

/-- `k` is `s` or one of its ancestors: `s` goes on after `k` with a backslash. -/
def AtOrAbove (k s : Str) : Prop := k = s ∨ k ++ ['\\'] <+: s

/-- Two backslashes in a row, which no name of a file or of a key has. -/
def HasEmptyName (s : Str) : Prop := ['\\', '\\'] <:+: s

/-! ## Rules -/

/-- `full r` is the full name of each path, as the system gives it: `GetFullPathNameW` says how many units
are needed, the final zero included, and then writes them; or else it fails, or the name is not Unicode,
and then the path stands for itself. -/
def FullNames (os : WinOs) (full : Str → Str) : Prop :=
  ∀ r, (os.fullPathSize (utf16 r ++ [0]) = 0 ∧ full r = r) ∨
    ∃ units, os.fullPathSize (utf16 r ++ [0]) = units.length + 1 ∧ units ≠ [] ∧
      ((os.fullPathFill (utf16 r ++ [0]) (units.length + 1) = (units.length, units ++ [0]) ∧
          ((units = utf16 (full r)) ∨ ((∀ s, utf16 s ≠ units) ∧ full r = r))) ∨
        ((os.fullPathFill (utf16 r ++ [0]) (units.length + 1)).1 = 0 ∧ full r = r))

/-- A path with a drive letter. -/
def OnDrive (s : Str) : Prop := ∃ letter rest, s = letter :: ':' :: '\\' :: rest ∧ letter.toNat < 128

/-- The name the kernel knows a rule's path by, if it is on a drive. -/
def KernelName (full : Str → Str) (r k : Str) : Prop := OnDrive (full r) ∧ k = trim (c!"\\??\\" ++ full r)

/-- A rule on a file covers that file, a rule on a directory covers all there is in it and itself. -/
def FileCovers (full : Str → Str) (r path : Str) : Prop := KernelName full r (trim path)
def DirCovers (full : Str → Str) (r path : Str) : Prop := ∃ k, KernelName full r k ∧ AtOrAbove k (trim path)

/-- What a file can be asked for. -/
inductive Right | read | write | blockReaders | blockWriters | blockDeleters
deriving DecidableEq

/-- A call gives a right on a path. -/
def Gives (full : Str → Str) (right : Right) (path : Str) : FsCall → Prop
  | .fileRead r => right = .read ∧ FileCovers full r path
  | .fileWrite r => right = .write ∧ FileCovers full r path
  | .dirRead r => right = .read ∧ DirCovers full r path
  | .dirWrite r => right = .write ∧ DirCovers full r path
  | .fileLock r readers writers deleters =>
    (right = .blockReaders ∧ readers = true ∨ right = .blockWriters ∧ writers = true ∨
      right = .blockDeleters ∧ deleters = true) ∧ FileCovers full r path
  | .dirLock r readers writers deleters =>
    (right = .blockReaders ∧ readers = true ∨ right = .blockWriters ∧ writers = true ∨
      right = .blockDeleters ∧ deleters = true) ∧ DirCovers full r path

/-- Some call of the history gives it. -/
def Given (full : Str → Str) (h : List WinCall) (right : Right) (path : Str) : Prop :=
  ∃ c, .fs c ∈ h ∧ Gives full right path c

/-! ## File requests -/

/-- All the bits of a word are among those. -/
def OnlyBits (w : BitVec 32) (bits : List Nat) : Prop := ∀ i, i < 32 → w.getLsbD i = true → i ∈ bits

/-- Reading and writing data, attributes and extended attributes, appending, deleting, reading and changing
the security of the file, changing its owner, waiting, and the generic rights but execution. -/
def SupportedFileAccess (access : BitVec 32) : Prop :=
  OnlyBits access [0, 1, 2, 3, 4, 7, 8, 16, 17, 18, 19, 20, 28, 30, 31]

def SupportedAttributes (attributes : BitVec 32) : Prop := OnlyBits attributes [7, 20, 25, 26, 27, 28, 29, 31]

/-- The request, apart from its path, is of a supported form; links are not followed. -/
def SupportedFileRequest (access attributes disposition options : BitVec 32) : Prop :=
  SupportedFileAccess access ∧ SupportedAttributes attributes ∧ Has options 0x200000 ∧ disposition.toNat ≤ 5

/-- What a request asks for. An existing file is read only if the disposition is to open it (1) or to
open or create it (3): all others replace what it contains or fail. -/
def Asks (access share disposition options : BitVec 32) (ea : Bytes) : Right → Prop
  | .read => (∃ i ∈ [0, 3, 7, 28, 31], access.getLsbD i = true) ∧ (disposition = 1 ∨ disposition = 3)
  | .write => (∃ i ∈ [1, 2, 4, 8, 16, 18, 19, 28, 30], access.getLsbD i = true) ∨ disposition ≠ 1 ∨
      Has options 0x1000 ∨ ea ≠ []
  | .blockReaders => ¬ Has share 1
  | .blockWriters => ¬ Has share 2
  | .blockDeleters => ¬ Has share 4

/-! ## Registry -/

/-- The roots of the registry and what the kernel calls them. -/
def regRoots (sid : Str) : List (Str × Str) :=
  [(c!"HKEY_CURRENT_USER", c!"\\REGISTRY\\USER\\" ++ sid),
   (c!"HKEY_USERS", c!"\\REGISTRY\\USER"),
   (c!"HKEY_LOCAL_MACHINE", c!"\\REGISTRY\\MACHINE"),
   (c!"HKEY_CLASSES_ROOT", c!"\\REGISTRY\\MACHINE\\SOFTWARE\\Classes"),
   (c!"HKEY_CURRENT_CONFIG", c!"\\REGISTRY\\MACHINE\\SYSTEM\\CurrentControlSet\\Hardware Profiles\\Current")]

/-- The key a rule names: its root is replaced, the rest is the same. -/
def RegKeyName (sid r k : Str) : Prop :=
  ∃ root kernel rest, (root, kernel) ∈ regRoots sid ∧ r = root ++ rest ∧ k = trim (kernel ++ rest)

/-- A rule on a key or on one of its ancestors. -/
def RegReadAllowed (sid : Str) (h : List WinCall) (path : Str) : Prop :=
  ∃ r k, .regRead r ∈ h ∧ RegKeyName sid r k ∧ AtOrAbove k (trim path)
def RegWriteAllowed (sid : Str) (h : List WinCall) (path : Str) : Prop :=
  ∃ r k, .regWrite r ∈ h ∧ RegKeyName sid r k ∧ AtOrAbove k (trim path)

/-- Query (0), set (1), create (2), enumerate (3), notify (4), the two views (8, 9), and the standard rights
(16 to 20). -/
def SupportedKeyAccess (access : BitVec 32) : Prop := OnlyBits access [0, 1, 2, 3, 4, 8, 9, 16, 17, 18, 19, 20]

/-- The key may be volatile; there is no other option. -/
def SupportedKeyOptions (options : BitVec 32) : Prop := options = 0 ∨ options = 1

/-- The mask asks to read values or the list of keys. -/
def AsksKeyRead (access : BitVec 32) : Prop := ∃ i ∈ [0, 3], access.getLsbD i = true
/-- The mask asks to change the key, or the key is to be created. -/
def AsksKeyWrite (access : BitVec 32) (create : Bool) : Prop :=
  (∃ i ∈ [1, 2, 16, 18, 19], access.getLsbD i = true) ∨ create = true
/-- The mask has one of the rights the code calls "always granted". -/
def AsksKeyOther (access : BitVec 32) : Prop := ∃ i ∈ [4, 8, 9, 17, 20], access.getLsbD i = true

end Iris.Spec
