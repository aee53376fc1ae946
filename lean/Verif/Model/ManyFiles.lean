import Verif.Model.Files
import Verif.Model.WholeBroker
/-!
# The files of all workers of a broker

One set of files (Model/Files.lean) is shared by all the workers of a broker process (Model/WholeBroker.lean): what the broker opens for
one, or what one writes, happens between what is done for the others, in any order. Simplifications as in Model/Files.lean. A worker
keeps all the files it got, as if it never closed any.
-/
namespace Iris

/-- The files, and those each worker has, with the flags they were opened with. -/
structure ManyFiles where
  tree : FileTree
  opened : Nat → List (Nat × BitVec 32)

/-- What happens to files because of worker `j`. -/
def ManyFiles.on (st : ManyFiles) (j : Nat) (f : FileState → FileState) : ManyFiles :=
  ⟨(f ⟨st.tree, st.opened j⟩).tree, fun k => if k = j then (f ⟨st.tree, st.opened j⟩).opened else st.opened k⟩

/-- Something has been done for worker `j` by the thread that serves it (broker/src/linux/ipc_loop.rs:45-74), with the files
which went with a reply besides the one opened; or worker `j` has written to a file. All files are remembered, before and after. -/
inductive FilesEvent
  | did (j : Nat) (a : Action) (extra : List (Nat × BitVec 32)) (before after : FileTree)
  | wrote (j : Nat) (before after : FileTree)

/-- How files change while the threads of a broker act for their workers, in any order (broker/src/linux/brokered_syscalls.rs:20,
broker/src/linux/ipc_loop.rs:45-74). Worker `j` is created with the files `own j`. The broker opens files; the worker
gets them, and with a reply that carries several files the worker also gets the others, which are among `stray`: on x86_64
ipc/src/linux/channel.rs:71-104 always sends descriptor 0 of the broker with a file. Workers write to files
they have. Nothing else changes files. -/
inductive ManyFilesRun (stray : List (Nat × BitVec 32)) (fs : FileTree) (own : Nat → List (Nat × BitVec 32)) :
    List FilesEvent → ManyFiles → Prop
  | start : ManyFilesRun stray fs own [] ⟨fs, own⟩
  | opens (es : List FilesEvent) (st : ManyFiles) (j : Nat) (path : Str) (flags mode : BitVec 32) (refuse : Option Nat)
    (h : ManyFilesRun stray fs own es st) :
    ManyFilesRun stray fs own (es ++ [.did j (.opened path flags mode) [] st.tree (st.on j (·.open path flags refuse)).tree])
      (st.on j (·.open path flags refuse))
  | notifies (es : List FilesEvent) (st : ManyFiles) (j : Nat) (n : Notification Request) (h : ManyFilesRun stray fs own es st) :
    ManyFilesRun stray fs own (es ++ [.did j (.notified n) [] st.tree st.tree]) st
  | sends (es : List FilesEvent) (st : ManyFiles) (j : Nat) (resp : IPCResponse) (files : List Nat)
    (extra : List (Nat × BitVec 32)) (h : ManyFilesRun stray fs own es st) (hl : extra.length ≤ files.length - 1)
    (hx : ∀ f ∈ extra, f ∈ stray) :
    ManyFilesRun stray fs own (es ++ [.did j (.sent resp files) extra st.tree st.tree])
      (st.on j fun s => { s with opened := s.opened ++ extra })
  | writes (es : List FilesEvent) (st : ManyFiles) (j : Nat) (i : Nat) (flags : BitVec 32) (content : Bytes)
    (h : ManyFilesRun stray fs own es st) (ho : (i, flags) ∈ st.opened j) (hp : flags &&& O_PATH = 0#32)
    (hw : flags &&& 3#32 = 1#32 ∨ flags &&& 3#32 = 2#32) :
    ManyFilesRun stray fs own (es ++ [.wrote j st.tree (st.on j (·.write i content)).tree]) (st.on j (·.write i content))

end Iris
