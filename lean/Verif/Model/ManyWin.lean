import Verif.Model.WinFiles
import Verif.Model.WinKeys
import Verif.Model.WholeWin
/-!
# The files and registry keys of all workers of a broker on Windows

One set of files (Model/WinFiles.lean) and one registry (Model/WinKeys.lean) are shared by all the workers of a broker process
(Model/WholeWin.lean): what the broker opens for one, or what one does with what it has, happens between what is done for the others, in any
order. Simplifications as in these files. What the thread serving a worker opens is taken to reach this worker, and to stay there, as if
it never closed anything.
-/
namespace Iris

/-- What is shared, and what has been opened for each worker. -/
structure SharedBy (T O : Type) where
  tree : T
  opened : Nat → List O

/-- Something has been done for worker `j` by the thread that serves it (broker/src/windows/ipc_loop.rs:34-99); or worker `j` has done
something with what it has. All files, or keys, are remembered, before and after. -/
inductive SharedEvent (T : Type)
  | did (j : Nat) (a : WinAction) (before after : T)
  | acted (j : Nat) (before after : T)

/-- What happens to files because of worker `j`. -/
def SharedBy.onFiles (st : SharedBy NtTree NtOpened) (j : Nat) (f : NtFileState → NtFileState) : SharedBy NtTree NtOpened :=
  ⟨(f ⟨st.tree, st.opened j⟩).tree, fun k => if k = j then (f ⟨st.tree, st.opened j⟩).opened else st.opened k⟩

/-- What happens to keys because of worker `j`. -/
def SharedBy.onKeys (st : SharedBy KeyTree KeyOpened) (j : Nat) (f : KeyState → KeyState) : SharedBy KeyTree KeyOpened :=
  ⟨(f ⟨st.tree, st.opened j⟩).tree, fun k => if k = j then (f ⟨st.tree, st.opened j⟩).opened else st.opened k⟩

/-- How files change while the threads of a broker act for their workers, in any order: as in `NtFilesRun`, for each
(broker/src/windows/brokered_syscalls.rs:103-117, broker/src/windows/ipc_loop.rs:34-99). -/
inductive ManyNtRun (k : NtKernel) (fs : NtTree) : List (SharedEvent NtTree) → SharedBy NtTree NtOpened → Prop
  | start : ManyNtRun k fs [] ⟨fs, fun _ => []⟩
  | creates (es : List (SharedEvent NtTree)) (st : SharedBy NtTree NtOpened) (j : Nat) (access : BitVec 32) (name : ObjectName)
    (allocation : BitVec 64) (attributes share disposition options : BitVec 32) (ea : Bytes) (r : NtResult)
    (refuse : Option (BitVec 32)) (h : ManyNtRun k fs es st) :
    ManyNtRun k fs
      (es ++ [.did j (.called (.createFile access name allocation attributes share disposition options ea) r) st.tree
        (st.onFiles j (·.create k access name disposition options refuse)).tree])
      (st.onFiles j (·.create k access name disposition options refuse))
  | others (es : List (SharedEvent NtTree)) (st : SharedBy NtTree NtOpened) (j : Nat) (a : WinAction) (h : ManyNtRun k fs es st)
    (ha : ∀ access name allocation attributes share disposition options ea r,
      a ≠ .called (.createFile access name allocation attributes share disposition options ea) r) :
    ManyNtRun k fs (es ++ [.did j a st.tree st.tree]) st
  | writes (es : List (SharedEvent NtTree)) (st : SharedBy NtTree NtOpened) (j : Nat) (o : NtOpened) (content : Bytes)
    (h : ManyNtRun k fs es st) (ho : o ∈ st.opened j) (hw : ∃ b ∈ [1, 2, 28, 30], o.access.getLsbD b = true) :
    ManyNtRun k fs (es ++ [.acted j st.tree (st.onFiles j (·.write o.file content)).tree]) (st.onFiles j (·.write o.file content))
  | removes (es : List (SharedEvent NtTree)) (st : SharedBy NtTree NtOpened) (j : Nat) (o : NtOpened) (h : ManyNtRun k fs es st)
    (ho : o ∈ st.opened j) (hd : (∃ b ∈ [16, 28], o.access.getLsbD b = true) ∨ o.options &&& 0x1000#32 ≠ 0#32) :
    ManyNtRun k fs (es ++ [.acted j st.tree (st.onFiles j (·.remove k o)).tree]) (st.onFiles j (·.remove k o))
  | relinks (es : List (SharedEvent NtTree)) (st : SharedBy NtTree NtOpened) (j : Nat) (o : NtOpened) (target : List Str)
    (h : ManyNtRun k fs es st) (ho : o ∈ st.opened j) (hk : k.linkable = true)
    (hw : ∃ b ∈ [1, 2, 8, 28, 30], o.access.getLsbD b = true) :
    ManyNtRun k fs (es ++ [.acted j st.tree (st.onFiles j (·.relink o.file target)).tree]) (st.onFiles j (·.relink o.file target))

/-- How keys change while the threads of a broker act for their workers, in any order: as in `KeysRun`, for each
(broker/src/windows/brokered_syscalls.rs:176-234, broker/src/windows/ipc_loop.rs:34-99). -/
inductive ManyKeysRun (k : KeyKernel) (t : KeyTree) : List (SharedEvent KeyTree) → SharedBy KeyTree KeyOpened → Prop
  | start : ManyKeysRun k t [] ⟨t, fun _ => []⟩
  | creates (es : List (SharedEvent KeyTree)) (st : SharedBy KeyTree KeyOpened) (j : Nat) (access : BitVec 32) (name : ObjectName)
    (titleIndex : BitVec 32) (cls : Option ObjectName) (options : BitVec 32) (r : NtResult) (refuse : Option (BitVec 32))
    (h : ManyKeysRun k t es st) :
    ManyKeysRun k t
      (es ++ [.did j (.called (.createKey access name titleIndex cls options) r) st.tree
        (st.onKeys j (·.create k access name options refuse)).tree])
      (st.onKeys j (·.create k access name options refuse))
  | opens (es : List (SharedEvent KeyTree)) (st : SharedBy KeyTree KeyOpened) (j : Nat) (access : BitVec 32) (name : ObjectName)
    (r : NtResult) (refuse : Option (BitVec 32)) (h : ManyKeysRun k t es st) :
    ManyKeysRun k t
      (es ++ [.did j (.called (.openKey access name) r) st.tree (st.onKeys j (·.open k access name refuse)).tree])
      (st.onKeys j (·.open k access name refuse))
  | others (es : List (SharedEvent KeyTree)) (st : SharedBy KeyTree KeyOpened) (j : Nat) (a : WinAction) (h : ManyKeysRun k t es st)
    (hc : ∀ access name titleIndex cls options r, a ≠ .called (.createKey access name titleIndex cls options) r)
    (ho : ∀ access name r, a ≠ .called (.openKey access name) r) : ManyKeysRun k t (es ++ [.did j a st.tree st.tree]) st
  | sets (es : List (SharedEvent KeyTree)) (st : SharedBy KeyTree KeyOpened) (j : Nat) (o : KeyOpened) (values : Bytes)
    (h : ManyKeysRun k t es st) (ho : o ∈ st.opened j) (hw : ∃ b ∈ [1, 28, 30], o.access.getLsbD b = true) :
    ManyKeysRun k t (es ++ [.acted j st.tree (st.onKeys j (·.set o.key values)).tree]) (st.onKeys j (·.set o.key values))
  | retargets (es : List (SharedEvent KeyTree)) (st : SharedBy KeyTree KeyOpened) (j : Nat) (o : KeyOpened) (target : List Str)
    (h : ManyKeysRun k t es st) (ho : o ∈ st.opened j) (hw : ∃ b ∈ [1, 28, 30], o.access.getLsbD b = true) :
    ManyKeysRun k t (es ++ [.acted j st.tree (st.onKeys j (·.retarget o.key target)).tree]) (st.onKeys j (·.retarget o.key target))
  | removes (es : List (SharedEvent KeyTree)) (st : SharedBy KeyTree KeyOpened) (j : Nat) (o : KeyOpened)
    (h : ManyKeysRun k t es st) (ho : o ∈ st.opened j) (hw : ∃ b ∈ [16, 28], o.access.getLsbD b = true) :
    ManyKeysRun k t (es ++ [.acted j st.tree (st.onKeys j (·.remove k o)).tree]) (st.onKeys j (·.remove k o))
  | renames (es : List (SharedEvent KeyTree)) (st : SharedBy KeyTree KeyOpened) (j : Nat) (o : KeyOpened) (name : Str)
    (h : ManyKeysRun k t es st) (ho : o ∈ st.opened j) (hk : k.renames = true)
    (hw : ∀ b ∈ [1, 2, 17], o.access.getLsbD b = true) :
    ManyKeysRun k t (es ++ [.acted j st.tree (st.onKeys j (·.rename k o name)).tree]) (st.onKeys j (·.rename k o name))

end Iris
