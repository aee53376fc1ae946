import Verif.Model.PolicyText
/-!
# What a reader of a printed policy may rely on (C119)
-/
namespace Iris.Spec

/-- No rule is about a path with a line break. -/
def OneLineRules (p : Policy) : Prop :=
  (∀ e ∈ p.files, '\n' ∉ e.1) ∧ (∀ e ∈ p.dirs, '\n' ∉ e.1) ∧ (∀ e ∈ p.regkeys, '\n' ∉ e.1)

/-- How many kinds of programs a rule allows to keep out. -/
def lockKinds (a : Acc) : Nat := a.blockR.toNat + a.blockW.toNat + a.blockD.toNat

/-- Two rules say the same, except for which kinds of locks are allowed: only their number is the same. -/
def AlmostSame : Option Acc → Option Acc → Prop
  | none, none => True
  | some a, some b => a.read = b.read ∧ a.write = b.write ∧ lockKinds a = lockKinds b
  | _, _ => False

/-- A call about locks. -/
def IsLock : FsCall → Prop
  | .fileLock _ _ _ _ | .dirLock _ _ _ _ => True
  | _ => False

end Iris.Spec
