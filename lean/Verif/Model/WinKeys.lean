import Verif.Model.WinBroker
/-!
# Registry keys and registry links

What `NtCreateKey` and `NtOpenKey`, as called by broker/src/windows/brokered_syscalls.rs:176-234, do to the registry: a model of the
kernel's side of these calls. The broker passes the path of the worker to the kernel. A key can be a symbolic link to another key; such
links are followed, also in the last place, unless the option `REG_OPTION_OPEN_LINK` (8) is passed to `NtCreateKey`.

Simplifications: one tree, from the root of the namespace of objects. Links lead to an absolute path. All other reasons for the kernel to
refuse a call (permissions, quotas, memory) are one arbitrary status. All values of a key are one text. What the worker would do by a name
of its own choosing is left out: it needs access the worker's own token does not have.
-/
namespace Iris

/-- A key: the keys in it, its values, and where it leads to if it is a link. -/
structure KeyNode where
  subkeys : List (Str × Nat)
  values : Bytes
  link : Option (List Str)
deriving DecidableEq, Repr

/-- All keys, by number. The root is number 0. -/
abbrev KeyTree := List KeyNode

/-- What depends on the system: which names are the same (those which have the same upper case: the broker passes
`OBJ_CASE_INSENSITIVE`), where a path is taken to by the access asked for (a 32-bit program, or `KEY_WOW64_32KEY`, is led to other keys
on a 64-bit system), and whether a key can be renamed by who has a handle to write to it. -/
structure KeyKernel where
  upcase : Str → Str
  view : BitVec 32 → List Str → List Str
  renames : Bool

/-- Where the kernel gets: a key, with the key and name it was found by, if it is not the root. -/
inductive KeyWalk
  | found (i : Nat) (place : Option (Nat × Str))
  /-- all but the last name exist -/
  | missing (key : Nat) (name : Str)
  | failed (status : BitVec 32)
deriving DecidableEq, Repr

/-- The key of that name in a key. -/
def KeyKernel.lookup (k : KeyKernel) (subkeys : List (Str × Nat)) (c : Str) : Option Nat :=
  (subkeys.find? fun e => k.upcase e.1 = k.upcase c).map (·.2)

/-- The names in an absolute path. Several backslashes in a row are as one. -/
def keyNames (path : Str) : Option (List Str) :=
  match split '\\' path with
  | [] :: c :: rest => some ((c :: rest).filter fun n => decide (n ≠ []))
  | _ => none

/-- From a key, `place` being how it was found. `again` starts from the root after a link. -/
def keyWalkWith (k : KeyKernel) (t : KeyTree) (follow : Bool) (again : List Str → KeyWalk) :
    Nat → Option (Nat × Str) → List Str → KeyWalk
  | cur, place, [] => .found cur place
  | cur, _, c :: rest =>
    match t[cur]? with
    | none => .failed 0xC0000001#32
    | some key =>
      match k.lookup key.subkeys c with
      | none => if rest = [] then .missing cur c else .failed 0xC0000034#32
      | some i =>
        match t[i]? with
        | none => .failed 0xC0000001#32
        | some ⟨_, _, none⟩ => keyWalkWith k t follow again i (some (cur, c)) rest
        | some ⟨_, _, some target⟩ =>
          if rest = [] ∧ follow = false then .found i (some (cur, c))
          else if target = [] then .failed 0xC0000034#32 else again (target ++ rest)

/-- The kernel follows no more than so many links. -/
def keyWalkLinks (k : KeyKernel) (t : KeyTree) (follow : Bool) : Nat → List Str → KeyWalk
  | 0 => keyWalkWith k t follow (fun _ => .failed 0xC000003B#32) 0 none
  | n + 1 => keyWalkWith k t follow (keyWalkLinks k t follow n) 0 none

/-- A new key. -/
def KeyTree.add (t : KeyTree) (d : Nat) (c : Str) (n : KeyNode) : KeyTree :=
  match t[d]? with
  | some key => t.set d { key with subkeys := key.subkeys ++ [(c, List.length t)] } ++ [n]
  | none => t

/-- `NtOpenKey` of broker/src/windows/brokered_syscalls.rs:214-224: an error, or the key and how it was found. -/
def ntOpenKey (k : KeyKernel) (t : KeyTree) (access : BitVec 32) (name : ObjectName) (refuse : Option (BitVec 32)) :
    Except (BitVec 32) (Nat × Option (Nat × Str)) :=
  match refuse with
  | some e => .error e
  | none =>
    match (fromUtf16 name).bind keyNames with
    | none => .error 0xC000003B#32
    | some cs =>
      match keyWalkLinks k t true 63 (k.view access cs) with
      | .failed e => .error e
      | .missing _ _ => .error 0xC0000034#32
      | .found i place => .ok (i, place)

/-- `NtCreateKey` of broker/src/windows/brokered_syscalls.rs:182-204: an error, or the key and how it was found, and all keys afterwards.
A key which exists is opened. Option 2 is `REG_OPTION_CREATE_LINK`, a link which leads nowhere yet, and 8 is `REG_OPTION_OPEN_LINK`. -/
def ntCreateKey (k : KeyKernel) (t : KeyTree) (access : BitVec 32) (name : ObjectName) (options : BitVec 32)
    (refuse : Option (BitVec 32)) : Except (BitVec 32) (Nat × Option (Nat × Str)) × KeyTree :=
  match refuse with
  | some e => (.error e, t)
  | none =>
    match (fromUtf16 name).bind keyNames with
    | none => (.error 0xC000003B#32, t)
    | some cs =>
      match keyWalkLinks k t (decide (options &&& 8#32 = 0#32)) 63 (k.view access cs) with
      | .failed e => (.error e, t)
      | .found i place => if options &&& 2#32 = 0#32 then (.ok (i, place), t) else (.error 0xC0000035#32, t)
      | .missing d c =>
        (.ok (List.length t, some (d, c)), t.add d c ⟨[], [], if options &&& 2#32 = 0#32 then none else some []⟩)

/-- A key the worker has a handle of, how it was opened, and whether it would have been made. -/
structure KeyOpened where
  key : Nat
  place : Option (Nat × Str)
  access : BitVec 32
  create : Bool
deriving DecidableEq, Repr

/-- The keys, and those the worker has. -/
structure KeyState where
  tree : KeyTree
  opened : List KeyOpened
deriving DecidableEq, Repr

/-- The effect of the broker's call of `NtCreateKey`. -/
def KeyState.create (st : KeyState) (k : KeyKernel) (access : BitVec 32) (name : ObjectName) (options : BitVec 32)
    (refuse : Option (BitVec 32)) : KeyState :=
  match ntCreateKey k st.tree access name options refuse with
  | (.ok (i, place), t) => ⟨t, st.opened ++ [⟨i, place, access, true⟩]⟩
  | (.error _, t) => ⟨t, st.opened⟩

/-- The effect of the broker's call of `NtOpenKey`. -/
def KeyState.open (st : KeyState) (k : KeyKernel) (access : BitVec 32) (name : ObjectName) (refuse : Option (BitVec 32)) : KeyState :=
  match ntOpenKey k st.tree access name refuse with
  | .ok (i, place) => { st with opened := st.opened ++ [⟨i, place, access, false⟩] }
  | .error _ => st

/-- The worker sets values; they are then anything. -/
def KeyState.set (st : KeyState) (i : Nat) (values : Bytes) : KeyState :=
  match st.tree[i]? with
  | some key => { st with tree := st.tree.set i { key with values := values } }
  | none => st

/-- The worker sets where a link leads to. -/
def KeyState.retarget (st : KeyState) (i : Nat) (target : List Str) : KeyState :=
  match st.tree[i]? with
  | some ⟨subkeys, values, some _⟩ => { st with tree := st.tree.set i ⟨subkeys, values, some target⟩ }
  | _ => st

/-- A key is deleted, if no key is in it. -/
def KeyState.remove (st : KeyState) (k : KeyKernel) (o : KeyOpened) : KeyState :=
  match o.place with
  | none => st
  | some (d, c) =>
    match st.tree[d]?, st.tree[o.key]? with
    | some key, some ⟨[], _, _⟩ =>
      if k.lookup key.subkeys c = some o.key then
        { st with tree := st.tree.set d { key with subkeys := key.subkeys.filter fun e => k.upcase e.1 ≠ k.upcase c } }
      else st
    | _, _ => st

/-- A key is given another name in the key it is in, if that name is free. -/
def KeyState.rename (st : KeyState) (k : KeyKernel) (o : KeyOpened) (name : Str) : KeyState :=
  match o.place with
  | none => st
  | some (d, _) =>
    match st.tree[d]? with
    | some key =>
      if k.lookup key.subkeys name = none then
        { st with tree := st.tree.set d { key with subkeys := key.subkeys.map fun e => if e.2 = o.key then (name, e.2) else e } }
      else st
    | none => st

/-- How keys change while a broker does `acts` for a worker: by the calls of `NtCreateKey` among them, and by what the worker does with
the handles it gets. Values, and where a link leads to, are set with `KEY_SET_VALUE` (bit 1), `GENERIC_ALL` (28) or `GENERIC_WRITE` (30);
a key is deleted with `DELETE` (16) or `GENERIC_ALL`, and renamed with `KEY_WRITE` (bits 1, 2 and 17), if at all. -/
inductive KeysRun (k : KeyKernel) (t : KeyTree) : List WinAction → KeyState → Prop
  | start : KeysRun k t [] ⟨t, []⟩
  | creates (acts : List WinAction) (st : KeyState) (access : BitVec 32) (name : ObjectName) (titleIndex : BitVec 32)
    (cls : Option ObjectName) (options : BitVec 32) (r : NtResult) (refuse : Option (BitVec 32)) (h : KeysRun k t acts st) :
    KeysRun k t (acts ++ [.called (.createKey access name titleIndex cls options) r]) (st.create k access name options refuse)
  | opens (acts : List WinAction) (st : KeyState) (access : BitVec 32) (name : ObjectName) (r : NtResult)
    (refuse : Option (BitVec 32)) (h : KeysRun k t acts st) :
    KeysRun k t (acts ++ [.called (.openKey access name) r]) (st.open k access name refuse)
  | others (acts : List WinAction) (st : KeyState) (a : WinAction) (h : KeysRun k t acts st)
    (hc : ∀ access name titleIndex cls options r, a ≠ .called (.createKey access name titleIndex cls options) r)
    (ho : ∀ access name r, a ≠ .called (.openKey access name) r) : KeysRun k t (acts ++ [a]) st
  | sets (acts : List WinAction) (st : KeyState) (o : KeyOpened) (values : Bytes) (h : KeysRun k t acts st)
    (ho : o ∈ st.opened) (hw : ∃ b ∈ [1, 28, 30], o.access.getLsbD b = true) : KeysRun k t acts (st.set o.key values)
  | retargets (acts : List WinAction) (st : KeyState) (o : KeyOpened) (target : List Str) (h : KeysRun k t acts st)
    (ho : o ∈ st.opened) (hw : ∃ b ∈ [1, 28, 30], o.access.getLsbD b = true) : KeysRun k t acts (st.retarget o.key target)
  | removes (acts : List WinAction) (st : KeyState) (o : KeyOpened) (h : KeysRun k t acts st) (ho : o ∈ st.opened)
    (hw : ∃ b ∈ [16, 28], o.access.getLsbD b = true) : KeysRun k t acts (st.remove k o)
  | renames (acts : List WinAction) (st : KeyState) (o : KeyOpened) (name : Str) (h : KeysRun k t acts st) (ho : o ∈ st.opened)
    (hk : k.renames = true) (hw : ∀ b ∈ [1, 2, 17], o.access.getLsbD b = true) : KeysRun k t acts (st.rename k o name)

end Iris
