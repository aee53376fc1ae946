import Verif.Model.RustStd
/-!
# Platform independent policy code

Models policy/src/policy.rs, policy/src/lib.rs and policy/src/error.rs.
-/
namespace Iris

/-- policy/src/policy.rs:28-29, the value tuple
`(read, write, block_readers, block_writers, block_deleters)`. -/
structure Acc where
  read : Bool
  write : Bool
  blockR : Bool
  blockW : Bool
  blockD : Bool
deriving DecidableEq, Repr

/-- policy/src/policy.rs:121, the default tuple. -/
def Acc.none : Acc := ⟨false, false, false, false, false⟩

/-- policy/src/policy.rs:124-130 and 202-206, component-wise `|`. -/
def Acc.or (a b : Acc) : Acc :=
  ⟨a.read || b.read, a.write || b.write, a.blockR || b.blockR,
   a.blockW || b.blockW, a.blockD || b.blockD⟩

/-- policy/src/policy.rs:209-213, negation of the loop condition. -/
def Acc.all (a : Acc) : Bool := a.read && a.write && a.blockR && a.blockW && a.blockD

/-- policy/src/error.rs:4-10. `description` strings are kept; they never
contain caller data. -/
inductive PolicyError
  | invalidHandleValue (raw : Nat)
  | handleNotInheritable (raw : Nat)
  | unsupportedFilesystemPath (path : Str)
  | unsupportedRegistryPath (path : Str)
  | internalOsOperationFailed (description : Str) (osCode : Nat)
deriving DecidableEq, Repr

/-- policy/src/policy.rs:13-18. -/
inductive Verdict
  | granted
  | deniedByPolicy (why : Str)
  | delegationNotSupported (why : Str)
  | invalidRequestParameters (argName why : Str)
deriving DecidableEq, Repr

/-- policy/src/policy.rs:23-32. Callbacks are identified by a number;
`inherit_handles` is the list of raw values of the referenced handles
(`Handle`'s `Eq`/`Hash` compare raw values, ipc/src/linux/handle.rs). -/
structure Policy where
  callbacks : List Nat
  inherit : List Nat
  files : AMap Acc
  dirs : AMap Acc
  regkeys : AMap (Bool × Bool)
  auditOnly : Bool
deriving DecidableEq, Repr

/-- policy/src/policy.rs:35-44 `Policy::nothing_allowed`. -/
def Policy.nothingAllowed : Policy := ⟨[], [], [], [], [], false⟩

/-- policy/src/policy.rs:46-50 `Policy::unsafe_testing_audit_only`. -/
def Policy.auditOnlyPolicy : Policy := { Policy.nothingAllowed with auditOnly := true }

/-- policy/src/policy.rs:52-61 `Policy::get_runtime_policy`. -/
def Policy.runtime (p : Policy) : Policy :=
  { callbacks := p.callbacks, inherit := [], files := p.files, dirs := p.dirs,
    regkeys := p.regkeys, auditOnly := p.auditOnly }

/-- policy/src/policy.rs:71-73 `Policy::add_log_callback`. -/
def Policy.addLogCallback (p : Policy) (cb : Nat) : Policy :=
  { p with callbacks := p.callbacks ++ [cb] }

/-- policy/src/policy.rs:75-88 `Policy::allow_inherit_handle`. The result of
`handle.is_inheritable()` (an OS query) is a parameter. -/
def Policy.allowInheritHandle (p : Policy) (raw : Nat)
    (isInheritable : Except PolicyError Bool) : Except PolicyError Unit × Policy :=
  match isInheritable with
  | .error e => (.error e, p)
  | .ok false => (.error (.handleNotInheritable raw), p)
  | .ok true => (.ok (), { p with inherit := setInsert p.inherit raw })

/-- policy/src/policy.rs:90-92 `Policy::get_inherited_handles`. -/
def Policy.inheritedHandles (p : Policy) : List Nat := p.inherit

/-- The operating-system dependent part of path handling: the separator
(`OS_PATH_SEPARATOR`) and `derive_all_file_paths_from_path`. -/
structure PathOs where
  sep : Char
  derive : Str → Except PolicyError (List Str)

/-- policy/src/policy.rs:103-106: remove one trailing separator if there is one. -/
def stripTrailing (sep : Char) (s : Str) : Str := (stripSuffix sep s).getD s

/-- policy/src/policy.rs:103-131, one iteration of the loop: merge `acc` into
the entry of one derived path. -/
def mergeAccess (sep : Char) (m : AMap Acc) (path : Str) (acc : Acc) : AMap Acc :=
  let key := stripTrailing sep path
  let prev := (AMap.get m key).getD Acc.none
  AMap.insert m key (prev.or acc)

/-- policy/src/policy.rs:94-134 `Policy::allow_file_access`. -/
def Policy.allowFileAccess (os : PathOs) (p : Policy) (path : Str) (dir : Bool) (acc : Acc) :
    Except PolicyError Unit × Policy :=
  match os.derive path with
  | .error e => (.error e, p)
  | .ok paths =>
    (.ok (), paths.foldl (fun p d =>
      if dir then { p with dirs := mergeAccess os.sep p.dirs d acc }
      else { p with files := mergeAccess os.sep p.files d acc }) p)

/-- The public file rule functions, policy/src/policy.rs:136-190. -/
inductive FsCall
  | fileRead (path : Str)
  | fileWrite (path : Str)
  | fileLock (path : Str) (r w d : Bool)
  | dirRead (path : Str)
  | dirWrite (path : Str)
  | dirLock (path : Str) (r w d : Bool)
deriving DecidableEq, Repr

/-- policy/src/policy.rs:136-190, what each public function passes to
`allow_file_access`. -/
def Policy.fsCall (os : PathOs) (p : Policy) : FsCall → Except PolicyError Unit × Policy
  | .fileRead path => p.allowFileAccess os path false ⟨true, false, false, false, false⟩
  | .fileWrite path => p.allowFileAccess os path false ⟨false, true, false, false, false⟩
  | .fileLock path r w d => p.allowFileAccess os path false ⟨false, false, r, w, d⟩
  | .dirRead path => p.allowFileAccess os path true ⟨true, false, false, false, false⟩
  | .dirWrite path => p.allowFileAccess os path true ⟨false, true, false, false, false⟩
  | .dirLock path r w d => p.allowFileAccess os path true ⟨false, false, r, w, d⟩

/-- policy/src/lib.rs:21-36 `strip_one_component`. -/
def stripOneComponent (path : Str) (sep : Char) : Option Str :=
  let path := match stripSuffix sep path with
    | some s => s
    | none => path
  match rsplitOnce sep path with
  | some (rest, _) => if rest.isEmpty then none else some rest
  | none => none

theorem rsplitOnce_length {c : Char} {s a b : Str} (h : rsplitOnce c s = some (a, b)) :
    a.length < s.length := by
  induction s generalizing a b with
  | nil => simp [rsplitOnce] at h
  | cons x xs ih =>
    simp only [rsplitOnce] at h
    split at h
    · rename_i a' b' h'
      simp only [Option.some.injEq, Prod.mk.injEq] at h
      have := ih h'
      rw [← h.1]; simp; omega
    · split at h
      · simp only [Option.some.injEq, Prod.mk.injEq] at h
        rw [← h.1]; simp
      · cases h

theorem stripOneComponent_length {s r : Str} {sep : Char}
    (h : stripOneComponent s sep = some r) : r.length < s.length := by
  simp only [stripOneComponent] at h
  have hstrip : ∀ t, stripSuffix sep s = some t → t.length ≤ s.length := by
    intro t ht
    simp only [stripSuffix] at ht
    split at ht
    · cases ht; simp
    · cases ht
  split at h
  · rename_i rest x hr
    split at h
    · cases h
    · cases h
      have := rsplitOnce_length hr
      split at this
      · rename_i t ht
        have := hstrip _ ht; omega
      · exact this
  · cases h

/-- policy/src/policy.rs:208-228, the `while` loop of
`get_filepath_allowed_access`. Also returns the list of keys looked up in
`dir_access`, most recent last (instrumentation only). -/
def walk (sep : Char) (dirs : AMap Acc) (acc : Acc) (cur : Str) : Acc × List Str :=
  if acc.all then (acc, [])
  else
    let acc := match AMap.get dirs cur with
      | some a => acc.or a
      | none => acc
    match _h : stripOneComponent cur sep with
    | some parent =>
      let r := walk sep dirs acc parent
      (r.1, cur :: r.2)
    | none => (acc, [cur])
termination_by cur.length
decreasing_by exact stripOneComponent_length _h

/-- policy/src/policy.rs:192-236 `get_filepath_allowed_access`, with the keys
looked up in `dir_access`. -/
def Policy.lookupTraced (sep : Char) (p : Policy) (path : Str) : Acc × List Str :=
  let path := (stripSuffix sep path).getD path
  let acc := match AMap.get p.files path with
    | some a => Acc.none.or a
    | none => Acc.none
  walk sep p.dirs acc path

/-- policy/src/policy.rs:192-236 `get_filepath_allowed_access`. -/
def Policy.allowedAccess (sep : Char) (p : Policy) (path : Str) : Acc :=
  (p.lookupTraced sep path).1

/-- policy/src/policy.rs:324-349 `impl PartialEq for Policy`: everything but the
callbacks. -/
def Policy.eq (a b : Policy) : Bool :=
  setEq a.inherit b.inherit && AMap.eq a.files b.files && AMap.eq a.dirs b.dirs
    && AMap.eq a.regkeys b.regkeys && (a.auditOnly == b.auditOnly)

end Iris
