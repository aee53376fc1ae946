import Verif.Model.Process
/-!
# Users and groups of a worker

Models what linux-entrypoint/src/entry.rs:43-97 writes to /proc/self/setgroups, /proc/self/uid_map and
/proc/self/gid_map, and what Linux does with it (kernel/user_namespace.c, `map_write`, `new_idmap_permitted` and
`proc_setgroups_write`).
-/
namespace Iris

/-- Kernel: one line of a map: `count` identifiers from `inside` on, in the namespace, are those from `outside` on
in the parent namespace. -/
structure Extent where
  inside : Nat
  outside : Nat
  count : Nat
deriving DecidableEq, Repr

/-- Kernel: the state of a user namespace. A map that was not written yet has no line. -/
structure UserNs where
  uidMap : List Extent
  gidMap : List Extent
  setgroupsDenied : Bool
deriving DecidableEq, Repr

/-- Kernel: who writes: its effective user and group in the parent namespace, and whether it may give itself any
identifier there (CAP_SETUID, CAP_SETGID). -/
structure Creds where
  euid : Nat
  egid : Nat
  setuid : Bool
  setgid : Bool
deriving DecidableEq, Repr

/-- Kernel: `isspace`. -/
def kIsSpace (b : UInt8) : Bool := b = 32 || (9 ≤ b && b ≤ 13) || b = 160

/-- Kernel: `skip_spaces`. -/
def kSkip (s : Bytes) : Bytes := s.dropWhile kIsSpace

/-- Kernel: a decimal digit. -/
def kIsDigit (b : UInt8) : Bool := 48 ≤ b && b ≤ 57

/-- Kernel: `simple_strtoul`, base 10, stored in 32 bits. Nothing is read where there is no digit. -/
def kNumber (s : Bytes) : Nat × Bytes :=
  ((s.takeWhile kIsDigit).foldl (fun n b => n * 10 + (b.toNat - 48)) 0 % 2 ^ 32, s.dropWhile kIsDigit)

/-- Kernel: lines end with a line feed, the last one may not. -/
def kLines (cur : Bytes) : Bytes → List Bytes
  | [] => [cur.reverse]
  | b :: r =>
    if b = 10 then if r = [] then [cur.reverse] else cur.reverse :: kLines [] r
    else kLines (b :: cur) r

/-- Kernel: one line: three numbers. The largest number stands for no identifier. -/
def kExtent (line : Bytes) : Option Extent :=
  let (a, r) := kNumber (kSkip line)
  if (r.head?.map kIsSpace).getD false = false then none
  else
    let (b, r) := kNumber (kSkip r)
    if (r.head?.map kIsSpace).getD false = false then none
    else
      let (c, r) := kNumber (kSkip r)
      if (r.head?.map kIsSpace).getD true = false then none
      else if kSkip r ≠ [] then none
      else if a = 2 ^ 32 - 1 ∨ b = 2 ^ 32 - 1 then none
      else if c = 0 ∨ 2 ^ 32 ≤ a + c ∨ 2 ^ 32 ≤ b + c then none
      else some ⟨a, b, c⟩

/-- Kernel: `mappings_overlap`. -/
def Extent.overlaps (x y : Extent) : Bool :=
  (x.inside < y.inside + y.count && y.inside < x.inside + x.count)
    || (x.outside < y.outside + y.count && y.outside < x.outside + x.count)

/-- Kernel: all lines, each one compared with those before. -/
def kExtents : List Extent → List Bytes → Option (List Extent)
  | acc, [] => some acc
  | acc, l :: ls =>
    match kExtent l with
    | none => none
    | some e => if acc.any e.overlaps then none else kExtents (acc ++ [e]) ls

/-- Kernel: `map_write`, the text of a map: less than a page, up to a zero byte, at most 340 lines. -/
def kParseMap (b : Bytes) : Option (List Extent) :=
  if 4096 ≤ b.length then none
  else (kExtents [] (kLines [] (b.takeWhile (· ≠ 0)))).bind fun l => if l.length ≤ 340 then some l else none

/-- Kernel: `map_write` and `new_idmap_permitted` for /proc/self/uid_map. A map is written once. Without privileges,
only one identifier can be mapped, that of the writer. `none` is an error. -/
def sysWriteUidMap (cr : Creds) (ns : UserNs) (b : Bytes) : Option UserNs :=
  if ns.uidMap ≠ [] then none
  else match kParseMap b with
    | none => none
    | some l =>
      if cr.setuid ∨ l.map (fun e => (e.outside, e.count)) = [(cr.euid, 1)] then some { ns with uidMap := l }
      else none

/-- Kernel: the same for /proc/self/gid_map. Without privileges, `setgroups` must have been denied. -/
def sysWriteGidMap (cr : Creds) (ns : UserNs) (b : Bytes) : Option UserNs :=
  if ns.gidMap ≠ [] then none
  else match kParseMap b with
    | none => none
    | some l =>
      if cr.setgid ∨ (ns.setgroupsDenied ∧ l.map (fun e => (e.outside, e.count)) = [(cr.egid, 1)]) then
        some { ns with gidMap := l }
      else none

/-- Kernel: `proc_setgroups_write` of `deny`: refused once groups are mapped. Other texts are not modelled: an error. -/
def sysWriteSetgroups (ns : UserNs) (b : Bytes) : Option UserNs :=
  if b = utf8 c!"deny" then
    if ns.setgroupsDenied then some ns
    else if ns.gidMap ≠ [] then none else some { ns with setgroupsDenied := true }
  else none

/-- linux-entrypoint/src/entry.rs:47-62, 67-80 and 83-96: the file is opened and written, and a failure only
logged. `os.written` is false if the system fails for another reason than `kernel` knows. -/
def writeProc (os : WriteOs) (kernel : UserNs → Option UserNs) (ns : UserNs) : UserNs :=
  match os.open with
  | .error _ => ns
  | .ok _ => if os.written then (kernel ns).getD ns else ns

/-- linux-entrypoint/src/entry.rs:43-97, in this order. -/
def writeIds (os : EntryOs) (p : EntryParams) (cr : Creds) (ns : UserNs) : UserNs :=
  let ns := writeProc os.setgroups (sysWriteSetgroups · (utf8 c!"deny")) ns
  let ns := if 0 < p.uidMap.length then writeProc os.uidMap (sysWriteUidMap cr · p.uidMap) ns else ns
  if 0 < p.gidMap.length then writeProc os.gidMap (sysWriteGidMap cr · p.gidMap) ns else ns

/-- The user namespace in which the entry point starts: a new one if `clone` was asked for one and did it
(broker/src/linux/process.rs:104-106), else that of the broker. -/
def startNs (os : ProcOs) (broker : UserNs) : UserNs :=
  match tryClone os with
  | .ok (_, true, _) => ⟨[], [], false⟩
  | _ => broker

/-- The user namespace of a worker, once the entry point has written its maps. -/
def workerNs (p : Policy) (c : ProcessConfig) (os : ProcOs) (childPipe : Nat) (cr : Creds) (broker : UserNs) : UserNs :=
  writeIds os.entry (entryParams p c os childPipe) cr (startNs os broker)

end Iris
