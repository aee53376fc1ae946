import Verif.Model.Policy
/-!
# How a policy is printed

Models `impl Debug for Policy` (policy/src/policy.rs:268-321). Hash maps and sets are iterated in an order
that nothing depends on: any order is possible.
-/
namespace Iris

/-- `format!("{h:?}")` (the derived `Debug` of ipc/src/linux/handle.rs:8-11 and ipc/src/windows/handle.rs:14-17,
for a handle that is not closed). -/
def handleDebug (h : Nat) : Str := c!"Handle { val: Some(" ++ dec h ++ c!") }"

/-- policy/src/policy.rs:290-294 and 302-306: what follows the path of a rule. All three kinds of locks are
printed in the same way. -/
def accWords (a : Acc) : Str :=
  (if a.read then c!" read" else []) ++ (if a.write then c!" write" else [])
    ++ (if a.blockR then c!" block_readers" else []) ++ (if a.blockW then c!" block_readers" else [])
    ++ (if a.blockD then c!" block_readers" else [])

/-- What a policy is made of, one item for each line. -/
inductive PrintedItem
  | handle (h : Nat)
  | file (path : Str) (a : Acc)
  | dir (path : Str) (a : Acc)
  | regKey (path : Str) (a : Bool × Bool)
deriving DecidableEq

/-- policy/src/policy.rs:283-317: the line of each item. -/
def PrintedItem.line : PrintedItem → Str
  | .handle h => c!"    Inherit handle " ++ handleDebug h
  | .file path a => c!"    " ++ path ++ c!" file" ++ accWords a
  | .dir path a => c!"    " ++ path ++ c!" directory" ++ accWords a
  | .regKey path a => c!"    " ++ path ++ c!" registry key" ++ (if a.1 then c!" read" else [])
      ++ (if a.2 then c!" write" else [])

/-- Each line followed by a line feed (`writeln!`). -/
def unlines : List Str → Str
  | [] => []
  | l :: ls => l ++ '\n' :: unlines ls

/-- policy/src/policy.rs:278-282. -/
def printHeader (auditOnly : Bool) : Str :=
  if auditOnly then c!"Policy [/!\\ audit mode, nothing will be blocked] {" else c!"Policy {"

/-- policy/src/policy.rs:268-321: `text` is what `format!("{:?}")` can give, `handles`, `files`, `dirs` and
`regKeys` being the contents of the tables in the order of iteration. -/
def Policy.Prints (p : Policy) (text : Str) : Prop :=
  ∃ (handles : List Nat) (files dirs : List (Str × Acc)) (regKeys : List (Str × (Bool × Bool))),
    handles.Perm p.inherit ∧ files.Perm p.files ∧ dirs.Perm p.dirs ∧ regKeys.Perm p.regkeys ∧
    text = unlines ([printHeader p.auditOnly]
      ++ (handles.map PrintedItem.handle ++ files.map (fun e => PrintedItem.file e.1 e.2)
        ++ dirs.map (fun e => PrintedItem.dir e.1 e.2) ++ regKeys.map (fun e => PrintedItem.regKey e.1 e.2)).map PrintedItem.line
      ++ [c!"}"])

end Iris
