import Verif.Model.WinFiles
import Verif.Spec.WinBroker
import Verif.Spec.WinPolicy
/-!
# Which file a Windows path names, and what a worker may have done to files
-/
namespace Iris.Spec

/-- The path is made of these names, each after a backslash; one more backslash can end it. -/
def PathOf (path : Str) (cs : List Str) : Prop :=
  (∀ c ∈ cs, c ≠ [] ∧ '\\' ∉ c) ∧
  (path = cs.flatMap (fun c => '\\' :: c) ∨ path = cs.flatMap (fun c => '\\' :: c) ++ ['\\'])

/-- The names, one after the other, lead from the root to this file, without any reparse point. Names with the same upper
case are the same. -/
inductive NtNamed (up : Str → Str) (fs : NtTree) : List Str → Nat → Prop
  | root : NtNamed up fs [] 0
  | entry (cs : List Str) (d : Nat) (entries : List (Str × Nat)) (n c : Str) (i : Nat) (h : NtNamed up fs cs d)
    (hd : fs[d]? = some (.dir entries)) (hm : (n, i) ∈ entries) (hc : up n = up c) : NtNamed up fs (cs ++ [c]) i

/-- No reparse point is a directory on the way to what the rules allow. What the rules allow can itself be one. -/
def NoReparsePoints (up full : Str → Str) (h : List WinCall) (fs : NtTree) : Prop :=
  ∀ right path cs ds i target, Given full h right path → PathOf path cs → ds <+: cs → ds ≠ cs → NtNamed up fs ds i →
    fs[i]? ≠ some (.link target)

/-- The rules let write to this file. -/
def NtMayWrite (up full : Str → Str) (h : List WinCall) (fs : NtTree) (i : Nat) : Prop :=
  ∃ path cs, Given full h .write path ∧ PathOf path cs ∧ NtNamed up fs cs i

/-- The rules let write to what has this name in this directory. -/
def NtMayEnter (up full : Str → Str) (h : List WinCall) (fs : NtTree) (d : Nat) (c : Str) : Prop :=
  ∃ path cs c', Given full h .write path ∧ PathOf path (cs ++ [c']) ∧ up c' = up c ∧ NtNamed up fs cs d

/-- What a worker may have made of a file: nothing; a regular file with another content, if its rules let it write to this
file; other entries of a directory, if its rules let it write there. Added entries are new files. -/
inductive NtMayBecome (up full : Str → Str) (h : List WinCall) (fs : NtTree) (i : Nat) : NtNode → NtNode → Prop
  | same (n : NtNode) : NtMayBecome up full h fs i n n
  | content (n : NtNode) (b : Bytes) (hn : ∀ e, n ≠ .dir e) (hw : NtMayWrite up full h fs i) :
    NtMayBecome up full h fs i n (.file b)
  | entries (old new : List (Str × Nat))
    (hnew : ∀ c j, (c, j) ∈ new → (c, j) ∈ old ∨ List.length fs ≤ j ∧ NtMayEnter up full h fs i c)
    (hold : ∀ c j, (c, j) ∈ old → (c, j) ∈ new ∨ NtMayEnter up full h fs i c) :
    NtMayBecome up full h fs i (.dir old) (.dir new)

/-- All a worker may have done: the files there were, each as it may have become, and new regular files and directories, with
nothing but new files in these. -/
def NtMayHaveDone (up full : Str → Str) (h : List WinCall) (fs fs' : NtTree) : Prop :=
  (∀ i n, fs[i]? = some n → ∃ n', fs'[i]? = some n' ∧ NtMayBecome up full h fs i n n') ∧
  (∀ i n, List.length fs ≤ i → fs'[i]? = some n →
    (∃ content, n = .file content) ∨ ∃ entries, n = .dir entries ∧ ∀ c j, (c, j) ∈ entries → List.length fs ≤ j)

/-- The worker's requests name files by paths (0x2000 is `FILE_OPEN_BY_FILE_ID`) which are not too long for the broker. -/
def PlainNames (l : List (WinIncoming × WinChoice)) : Prop :=
  ∀ i ∈ l, ∀ access path allocation attributes share disposition options ea,
    winRequest i.1 = some (.ntCreateFile access path allocation attributes share disposition options ea) →
    (utf16 path).length < 32768 ∧ ¬ Has options 0x2000

/-- Data can be read through this handle: `FILE_READ_DATA`, `GENERIC_ALL`, `GENERIC_READ`. -/
def NtReadable (access : BitVec 32) : Prop := ∃ b ∈ [0, 28, 31], access.getLsbD b = true

/-- The file can be changed through this handle: data and attributes written (1, 2, 4, 8), deleted (16), its protection or owner
changed (18, 19), or one of these as a generic right. -/
def NtWritable (access : BitVec 32) : Prop := ∃ b ∈ [1, 2, 4, 8, 16, 18, 19, 28, 30], access.getLsbD b = true

end Iris.Spec
