import Verif.Model.WinBroker
/-!
# Files and reparse points

What `NtCreateFile`, as called by broker/src/windows/brokered_syscalls.rs:103-117, does to files: a model of the kernel's side of
this call. The broker passes the path of the worker to the kernel, with `FILE_OPEN_REPARSE_POINT`: a reparse point (a junction or a
symbolic link) in the last place is opened itself, those on the way are followed.

Simplifications: one tree, from the root of the namespace of objects, so that a drive is a directory of `\??`. Reparse points lead to
an absolute path. No streams, short names or devices: a name with a colon is a name as any other. All other
reasons for the kernel to refuse a call (permissions, sharing, memory) are one arbitrary status. Renaming by the worker is left out, as
is all it would do by a name of its own choosing: both need access the worker's own token does not have.
-/
namespace Iris

/-- A directory with its entries, a reparse point, or a regular file. -/
inductive NtNode
  | dir (entries : List (Str × Nat))
  | link (target : List Str)
  | file (content : Bytes)
deriving DecidableEq, Repr

/-- All files, by number. The root is number 0. -/
abbrev NtTree := List NtNode

/-- What depends on the system: which names are the same (those which have the same upper case: the broker passes
`OBJ_CASE_INSENSITIVE`), which file a name stands for when it is not a path but an identifier, and whether the worker is let make
reparse points out of files it may write to. -/
structure NtKernel where
  upcase : Str → Str
  byId : ObjectName → Option Nat
  linkable : Bool

/-- Where the kernel gets: a file, with the directory and name it was found by, if it is not the root. -/
inductive NtWalk
  | found (i : Nat) (place : Option (Nat × Str))
  /-- all but the last name exist -/
  | missing (dir : Nat) (name : Str)
  | failed (status : BitVec 32)
deriving DecidableEq, Repr

/-- The file of that name in a directory. -/
def NtKernel.lookup (k : NtKernel) (entries : List (Str × Nat)) (c : Str) : Option Nat :=
  (entries.find? fun e => k.upcase e.1 = k.upcase c).map (·.2)

/-- The names in a path, and whether it ends with a separator. -/
def ntNames (path : Str) : Option (List Str × Bool) :=
  match split '\\' path with
  | [] :: c :: rest =>
    if (c :: rest).getLast? = some [] then some ((c :: rest).dropLast, true) else some (c :: rest, false)
  | _ => none

/-- From a directory, `place` being how it was found. A name is not empty, and dots have no meaning to the kernel. `again` starts
from the root after a reparse point. -/
def ntWalkWith (k : NtKernel) (fs : NtTree) (follow : Bool) (again : List Str → NtWalk) :
    Nat → Option (Nat × Str) → List Str → NtWalk
  | cur, place, [] => .found cur place
  | cur, _, c :: rest =>
    match fs[cur]? with
    | some (.dir entries) =>
      if c = [] ∨ c = c!"." ∨ c = c!".." then .failed 0xC0000033#32
      else
        match k.lookup entries c with
        | none => if rest = [] then .missing cur c else .failed 0xC000003A#32
        | some i =>
          match fs[i]? with
          | some (.link target) => if rest = [] ∧ follow = false then .found i (some (cur, c)) else again (target ++ rest)
          | some _ => ntWalkWith k fs follow again i (some (cur, c)) rest
          | none => .failed 0xC0000001#32
    | _ => .failed 0xC000003A#32

/-- The kernel follows no more than so many reparse points. -/
def ntWalkLinks (k : NtKernel) (fs : NtTree) (follow : Bool) : Nat → List Str → NtWalk
  | 0 => ntWalkWith k fs follow (fun _ => .failed 0xC0000279#32) 0 none
  | n + 1 => ntWalkWith k fs follow (ntWalkLinks k fs follow n) 0 none

/-- A new file or directory. -/
def NtTree.add (fs : NtTree) (d : Nat) (c : Str) (n : NtNode) : NtTree :=
  match fs[d]? with
  | some (.dir entries) => fs.set d (.dir (entries ++ [(c, List.length fs)])) ++ [n]
  | _ => fs

/-- Opening what exists: dispositions `FILE_OPEN` (1) and `FILE_OPEN_IF` (3) leave it as it is, `FILE_CREATE` (2) fails,
`FILE_SUPERSEDE` (0), `FILE_OVERWRITE` (4) and `FILE_OVERWRITE_IF` (5) empty it. 0x1 is `FILE_DIRECTORY_FILE`, 0x40 is
`FILE_NON_DIRECTORY_FILE`. -/
def ntOpenFound (fs : NtTree) (i : Nat) (place : Option (Nat × Str)) (slash : Bool) (disposition options : BitVec 32) :
    Except (BitVec 32) (Nat × Option (Nat × Str)) × NtTree :=
  let stay := disposition = 1#32 ∨ disposition = 3#32
  if disposition = 2#32 ∨ 5 < disposition.toNat then (.error 0xC0000035#32, fs)
  else
    match fs[i]? with
    | some (.dir _) => if stay ∧ options &&& 0x40#32 = 0#32 then (.ok (i, place), fs) else (.error 0xC00000BA#32, fs)
    | some _ =>
      if slash = true ∨ options &&& 0x1#32 ≠ 0#32 then (.error 0xC0000103#32, fs)
      else if stay then (.ok (i, place), fs) else (.ok (i, place), fs.set i (.file []))
    | none => (.error 0xC0000001#32, fs)

/-- Opening what does not exist: `FILE_OPEN` and `FILE_OVERWRITE` fail, all others create. -/
def ntOpenMissing (fs : NtTree) (d : Nat) (c : Str) (slash : Bool) (disposition options : BitVec 32) :
    Except (BitVec 32) (Nat × Option (Nat × Str)) × NtTree :=
  if disposition = 1#32 ∨ disposition = 4#32 ∨ 5 < disposition.toNat then (.error 0xC0000034#32, fs)
  else if options &&& 0x1#32 ≠ 0#32 then
    if disposition = 2#32 ∨ disposition = 3#32 then (.ok (List.length fs, some (d, c)), fs.add d c (.dir []))
    else (.error 0xC000000D#32, fs)
  else if slash = true then (.error 0xC0000033#32, fs)
  else (.ok (List.length fs, some (d, c)), fs.add d c (.file []))

/-- `NtCreateFile` of broker/src/windows/brokered_syscalls.rs:103-117: an error or the file and how it was found, and all files
afterwards. 0x2000 is `FILE_OPEN_BY_FILE_ID`. -/
def ntCreateFile (k : NtKernel) (fs : NtTree) (name : ObjectName) (disposition options : BitVec 32) (refuse : Option (BitVec 32)) :
    Except (BitVec 32) (Nat × Option (Nat × Str)) × NtTree :=
  match refuse with
  | some e => (.error e, fs)
  | none =>
    if options &&& 0x2000#32 ≠ 0#32 then
      match k.byId name with
      | some i => ntOpenFound fs i none false disposition options
      | none => (.error 0xC000000D#32, fs)
    else
      match (fromUtf16 name).bind ntNames with
      | none => (.error 0xC000003B#32, fs)
      | some (cs, slash) =>
        match ntWalkLinks k fs (decide (options &&& FILE_FLAG_OPEN_REPARSE_POINT = 0#32)) 63 cs with
        | .failed e => (.error e, fs)
        | .missing d c => ntOpenMissing fs d c slash disposition options
        | .found i place => ntOpenFound fs i place slash disposition options

/-- A file the worker has a handle of, and how it was opened. -/
structure NtOpened where
  file : Nat
  place : Option (Nat × Str)
  access : BitVec 32
  disposition : BitVec 32
  options : BitVec 32
deriving DecidableEq, Repr

/-- The files, and those the worker has. -/
structure NtFileState where
  tree : NtTree
  opened : List NtOpened
deriving DecidableEq, Repr

/-- The effect of the broker's call. -/
def NtFileState.create (st : NtFileState) (k : NtKernel) (access : BitVec 32) (name : ObjectName) (disposition options : BitVec 32)
    (refuse : Option (BitVec 32)) : NtFileState :=
  match ntCreateFile k st.tree name disposition options refuse with
  | (.ok (i, place), fs) => ⟨fs, st.opened ++ [⟨i, place, access, disposition, options⟩]⟩
  | (.error _, fs) => ⟨fs, st.opened⟩

/-- The worker writes to a file; the content is then anything. -/
def NtFileState.write (st : NtFileState) (i : Nat) (content : Bytes) : NtFileState :=
  match st.tree[i]? with
  | some (.file _) => { st with tree := st.tree.set i (.file content) }
  | _ => st

/-- A file is deleted, under the name it was opened by. A directory is only if it is empty. -/
def NtFileState.remove (st : NtFileState) (k : NtKernel) (o : NtOpened) : NtFileState :=
  match o.place with
  | none => st
  | some (d, c) =>
    match st.tree[d]?, st.tree[o.file]? with
    | some (.dir _), some (.dir (_ :: _)) => st
    | some (.dir entries), _ =>
      if k.lookup entries c = some o.file then
        { st with tree := st.tree.set d (.dir (entries.filter fun e => k.upcase e.1 ≠ k.upcase c)) }
      else st
    | _, _ => st

/-- The worker makes a reparse point out of a file or of an empty directory. -/
def NtFileState.relink (st : NtFileState) (i : Nat) (target : List Str) : NtFileState :=
  match st.tree[i]? with
  | some (.file _) => { st with tree := st.tree.set i (.link target) }
  | some (.dir []) => { st with tree := st.tree.set i (.link target) }
  | _ => st

/-- How files change while a broker does `acts` for a worker: by the calls of `NtCreateFile` among them, and by what the worker does
with the handles it gets. Data is written with `FILE_WRITE_DATA` (bit 1), `FILE_APPEND_DATA` (2), `GENERIC_ALL` (28) or `GENERIC_WRITE`
(30); a file is deleted with `DELETE` (16), `GENERIC_ALL` or the option `FILE_DELETE_ON_CLOSE` (0x1000); reparse points can be set with the
same rights as data, or with `FILE_WRITE_ATTRIBUTES` (8). -/
inductive NtFilesRun (k : NtKernel) (fs : NtTree) : List WinAction → NtFileState → Prop
  | start : NtFilesRun k fs [] ⟨fs, []⟩
  | creates (acts : List WinAction) (st : NtFileState) (access : BitVec 32) (name : ObjectName) (allocation : BitVec 64)
    (attributes share disposition options : BitVec 32) (ea : Bytes) (r : NtResult) (refuse : Option (BitVec 32))
    (h : NtFilesRun k fs acts st) :
    NtFilesRun k fs (acts ++ [.called (.createFile access name allocation attributes share disposition options ea) r])
      (st.create k access name disposition options refuse)
  | others (acts : List WinAction) (st : NtFileState) (a : WinAction) (h : NtFilesRun k fs acts st)
    (ha : ∀ access name allocation attributes share disposition options ea r,
      a ≠ .called (.createFile access name allocation attributes share disposition options ea) r) : NtFilesRun k fs (acts ++ [a]) st
  | writes (acts : List WinAction) (st : NtFileState) (o : NtOpened) (content : Bytes) (h : NtFilesRun k fs acts st)
    (ho : o ∈ st.opened) (hw : ∃ b ∈ [1, 2, 28, 30], o.access.getLsbD b = true) : NtFilesRun k fs acts (st.write o.file content)
  | removes (acts : List WinAction) (st : NtFileState) (o : NtOpened) (h : NtFilesRun k fs acts st) (ho : o ∈ st.opened)
    (hd : (∃ b ∈ [16, 28], o.access.getLsbD b = true) ∨ o.options &&& 0x1000#32 ≠ 0#32) : NtFilesRun k fs acts (st.remove k o)
  | relinks (acts : List WinAction) (st : NtFileState) (o : NtOpened) (target : List Str) (h : NtFilesRun k fs acts st)
    (ho : o ∈ st.opened) (hk : k.linkable = true) (hw : ∃ b ∈ [1, 2, 8, 28, 30], o.access.getLsbD b = true) :
    NtFilesRun k fs acts (st.relink o.file target)

end Iris
