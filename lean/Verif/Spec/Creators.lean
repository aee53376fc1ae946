import Verif.Spec.Process
import Verif.Model.Creators
/-! # Specification vocabulary for workers created by several threads at once -/
namespace Iris.Spec

/-- The descriptors call `j` has opened and not closed, going only by what each of its system calls
did to the descriptor table. -/
def HoldsFd (j : Nat) (ls : List CreateEvent) : Nat → Prop :=
  ls.foldl (fun h l => match l with
    | .step k before after =>
      if k = j then fun fd => after.get fd ≠ none ∧ (h fd ∨ before.get fd = none) else h
    | .made _ _ _ _ _ _ => h) fun _ => False

/-- At first there are no calls. -/
structure NoCalls (w : Creators) : Prop where
  calls : ∀ j, w.calls j = none
  nodup : (w.table.map Prod.fst).Nodup

/-- What a program started by a call made with configuration `c` and policy `p` must have, `t`
being the descriptor table of the broker when the call was made and `b` the open file of the
worker's end of the channel: its end of the channel, which was not one of the descriptors
declared, and the descriptors declared that are inheritable. -/
def StartedRight (t : FdTable) (c : ProcessConfig) (p : Policy) (b : Nat) (img : Image) : Prop :=
  ∃ chan, ¬ Declared p c chan ∧
    img.envp = c.envp ++ [utf8 (c!"SANDBOX_IPC_HANDLE=" ++ (toString chan).toList)] ∧
    ∀ fd e, 2 < fd → (img.table.get fd = some e ↔
      (fd = chan ∧ e = ⟨b, 0#32⟩) ∨ (Declared p c fd ∧ Inheritable t fd ∧ t.get fd = some e))

end Iris.Spec
