import Verif.Model.Files
import Verif.Spec.LinuxPolicy
/-!
# Which file a path names, and what a worker may have done to files
-/
namespace Iris.Spec

/-- The names, one after the other, lead from the root directory to this file, without any link. -/
inductive Named (fs : FileTree) : List Str → Nat → Prop
  | root : Named fs [] 0
  | entry (cs : List Str) (d : Nat) (entries : List (Str × Nat)) (parent : Nat) (c : Str) (i : Nat) (h : Named fs cs d)
    (hd : fs[d]? = some (.dir entries parent)) (hc : entries.lookup c = some i) : Named fs (cs ++ [c]) i

/-- Entries of directories refer to files that exist. -/
def SoundTree (fs : FileTree) : Prop :=
  ∀ (d : Nat) entries parent c i, fs[d]? = some (.dir entries parent) → entries.lookup c = some i → i < List.length fs

/-- No symbolic link is on the way to what the rules allow, nor there. -/
def NoLinks (h : List Call) (fs : FileTree) : Prop :=
  ∀ cs ds i target, ReadAllowed h cs ∨ WriteAllowed h cs → ds <+: cs → Named fs ds i → fs[i]? ≠ some (.link target)

/-- The worker was given this file when it was created, opened for writing. -/
def GivenToWrite (own : List (Nat × BitVec 32)) (i : Nat) : Prop := ∃ flags, (i, flags) ∈ own ∧ KernelWritable flags

/-- What a worker may have made of a file: nothing; another content, if its rules let it write to this file or it was given it;
new entries of a directory, if its rules let it write there. -/
inductive MayBecome (h : List Call) (own : List (Nat × BitVec 32)) (fs : FileTree) (i : Nat) : FileNode → FileNode → Prop
  | same (n : FileNode) : MayBecome h own fs i n n
  | content (a b : Bytes) (hw : (∃ cs, Named fs cs i ∧ WriteAllowed h cs) ∨ GivenToWrite own i) :
    MayBecome h own fs i (.file a) (.file b)
  | entries (old new : List (Str × Nat)) (parent : Nat)
    (hnew : ∀ c j, (c, j) ∈ new → List.length fs ≤ j ∧ old.lookup c = none ∧
      ∃ cs, Named fs cs i ∧ WriteAllowed h (cs ++ [c])) :
    MayBecome h own fs i (.dir old parent) (.dir (old ++ new) parent)

/-- All a worker may have done: the files there were, each as it may have become, and new regular files. -/
def MayHaveDone (h : List Call) (own : List (Nat × BitVec 32)) (fs fs' : FileTree) : Prop :=
  (∀ i n, fs[i]? = some n → ∃ n', fs'[i]? = some n' ∧ MayBecome h own fs i n n') ∧
  (∀ i n, List.length fs ≤ i → fs'[i]? = some n → ∃ content, n = .file content)

end Iris.Spec
