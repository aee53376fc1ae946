import Verif.Spec.WholeBroker
/-! # Specification vocabulary for what workers cost a broker -/
namespace Iris.Spec

/-- No more than `n` of them satisfy `P`. -/
def AtMost {α : Type} (n : Nat) (P : α → Prop) : Prop := ∃ l : List α, l.length ≤ n ∧ ∀ fd, P fd → fd ∈ l

/-- How many steps the thread serving worker `j` made, not counting `recvmsg`. -/
def servesOf (j : Nat) (ls : List BrokerEvent) : Nat :=
  (ls.filter fun l => match l with | .serve k _ _ => k == j | _ => false).length

/-- How many system calls were made to create worker `j`. -/
def createsOf (j : Nat) (ls : List BrokerEvent) : Nat :=
  (ls.filter fun l => match l with | .step k _ _ => k == j | _ => false).length

/-- The workers some thread wanted to create. -/
def madeIn (ls : List BrokerEvent) : List Nat :=
  ls.filterMap fun l => match l with | .made j _ _ _ _ _ => some j | _ => none

/-- The creation of worker `j` has failed, or its session has ended. -/
def IsOver (w : WholeBroker) (j : Nat) : Prop :=
  (∃ x err, w.calls j = some x ∧ x.phase = .failed err) ∨ ∃ th why, w.threads j = some th ∧ th.phase = .gone why

/-- C144 for workers that are over: nothing is left open for them. -/
def LeavesNothing [Target] (abi : Abi) : Prop :=
  ∀ (w w' : WholeBroker) (ls : List BrokerEvent) (j : Nat), NothingYet w → WholeExec abi Bounded Declared w ls w' →
    IsOver w' j → ∀ fd, ¬ HeldFor j ls fd

end Iris.Spec
