import Verif.Model.Broker
/-!
# Files and links

What `open` of broker/src/linux/brokered_syscalls.rs:20 does to files: a model of the kernel's side of this call, path_resolution(7)
and open(2). The broker passes the path of the worker and its flags to the kernel, which follows symbolic links
on the way.

Simplifications: no special files (devices, links of /proc), one file system; a directory another file system is mounted on is a
directory. All other reasons for the kernel to refuse a call (permissions, memory) are one arbitrary error. A link whose target
ends with a separator is followed as if it did not.
-/
namespace Iris

/-- A directory with its entries and its parent, a symbolic link, or a regular file. -/
inductive FileNode
  | dir (entries : List (Str × Nat)) (parent : Nat)
  | link (target : Str)
  | file (content : Bytes)
deriving DecidableEq, Repr

/-- All files, by number. The root directory is number 0. A file has as many names as entries refer to it. -/
abbrev FileTree := List FileNode

/-- Where the kernel gets. -/
inductive Walk
  | found (i : Nat)
  /-- all but the last name exist -/
  | missing (dir : Nat) (name : Str)
  | failed (errno : Nat)
deriving DecidableEq, Repr

/-- The names in a path: separators can be repeated. -/
def components (path : Str) : List Str := (split '/' path).filter (fun c => !c.isEmpty)

/-- path_resolution(7), from a directory. `again` goes on from a directory after a link. -/
def walkWith (fs : FileTree) (follow : Bool) (again : Nat → List Str → Walk) : Nat → List Str → Walk
  | cur, [] => .found cur
  | cur, c :: rest =>
    match fs[cur]? with
    | some (.dir entries parent) =>
      if c = c!"." then walkWith fs follow again cur rest
      else if c = c!".." then walkWith fs follow again parent rest
      else
        match entries.lookup c with
        | none => if rest = [] then .missing cur c else .failed 2
        | some i =>
          match fs[i]? with
          | some (.link target) =>
            if rest = [] ∧ follow = false then .found i
            else again (if startsWith '/' target then 0 else cur) (components target ++ rest)
          | some _ => walkWith fs follow again i rest
          | none => .failed 5
    | _ => .failed 20

/-- The kernel follows no more than so many links, then fails with `ELOOP`. -/
def walkLinks (fs : FileTree) (follow : Bool) : Nat → Nat → List Str → Walk
  | 0 => walkWith fs follow fun _ _ => .failed 40
  | n + 1 => walkWith fs follow (walkLinks fs follow n)

/-- An absolute path; 40 links can be followed. -/
def kResolve (fs : FileTree) (follow : Bool) (path : Str) : Walk := walkLinks fs follow 40 0 (components path)

/-- A new, empty file. -/
def FileTree.create (fs : FileTree) (d : Nat) (c : Str) : FileTree :=
  match fs[d]? with
  | some (.dir entries parent) => fs.set d (.dir (entries ++ [(c, List.length fs)]) parent) ++ [.file []]
  | _ => fs

/-- `open(path, flags, mode)`, broker/src/linux/brokered_syscalls.rs:20: an error or the file, and all files afterwards. With
`O_CREAT` and `O_EXCL` a link in the last place is not followed; with `O_PATH` flags which change files are ignored. -/
def kOpen (fs : FileTree) (path : Str) (flags : BitVec 32) (refuse : Option Nat) : Except Nat Nat × FileTree :=
  let has := fun f : BitVec 32 => decide (flags &&& f ≠ 0#32)
  let mustDir := path.getLast? == some '/' || has O_DIRECTORY
  let real := !has O_PATH
  let creat := real && has O_CREAT
  let trunc := real && has O_TRUNC
  let write := real && (has O_WRONLY || has O_RDWR)
  match refuse with
  | some e => (.error e, fs)
  | none =>
    match kResolve fs (!(creat && has O_EXCL)) path with
    | .failed e => (.error e, fs)
    | .missing d c =>
      if creat then if mustDir then (.error 21, fs) else (.ok (List.length fs), fs.create d c) else (.error 2, fs)
    | .found i =>
      if creat && has O_EXCL then (.error 17, fs)
      else
        match fs[i]? with
        | some (.dir _ _) => if creat || trunc || write then (.error 21, fs) else (.ok i, fs)
        | some (.file _) =>
          if mustDir then (.error 20, fs)
          else if trunc then (.ok i, fs.set i (.file [])) else (.ok i, fs)
        | some (.link _) => (.error 40, fs)
        | none => (.error 5, fs)

/-- The files, and those the worker has, with the flags they were opened with. -/
structure FileState where
  tree : FileTree
  opened : List (Nat × BitVec 32)

/-- The effect of the broker's `open`. -/
def FileState.open (st : FileState) (path : Str) (flags : BitVec 32) (refuse : Option Nat) : FileState :=
  match kOpen st.tree path flags refuse with
  | (.ok i, fs) => ⟨fs, st.opened ++ [(i, flags)]⟩
  | (.error _, fs) => ⟨fs, st.opened⟩

/-- The worker writes to a file it has a descriptor of; the content is then anything. -/
def FileState.write (st : FileState) (i : Nat) (content : Bytes) : FileState :=
  match st.tree[i]? with
  | some (.file _) => { st with tree := st.tree.set i (.file content) }
  | _ => st

/-- How files change while a broker does `acts` for a worker which started with `own`, the descriptors it was given when it was
created: by the calls of `open` among them, and by what the worker writes to files it has a descriptor of which was
opened for writing (`O_ACCMODE` is `O_WRONLY` or `O_RDWR`). Nothing else changes files. Simplification: files that go with a reply besides
the one opened (on x86_64, what descriptor 0 of the broker is, see Model/ManyFiles.lean) are to be counted in `own`. -/
inductive FilesRun (fs : FileTree) (own : List (Nat × BitVec 32)) : List Action → FileState → Prop
  | start : FilesRun fs own [] ⟨fs, own⟩
  | opens (acts : List Action) (st : FileState) (path : Str) (flags mode : BitVec 32) (refuse : Option Nat)
    (h : FilesRun fs own acts st) : FilesRun fs own (acts ++ [.opened path flags mode]) (st.open path flags refuse)
  | notifies (acts : List Action) (st : FileState) (n : Notification Request) (h : FilesRun fs own acts st) :
    FilesRun fs own (acts ++ [.notified n]) st
  | sends (acts : List Action) (st : FileState) (resp : IPCResponse) (files : List Nat) (h : FilesRun fs own acts st) :
    FilesRun fs own (acts ++ [.sent resp files]) st
  | writes (acts : List Action) (st : FileState) (i : Nat) (flags : BitVec 32) (content : Bytes)
    (h : FilesRun fs own acts st) (ho : (i, flags) ∈ st.opened) (hp : flags &&& O_PATH = 0#32)
    (hw : flags &&& 3#32 = 1#32 ∨ flags &&& 3#32 = 2#32) : FilesRun fs own acts (st.write i content)

end Iris
