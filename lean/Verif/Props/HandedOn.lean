import Verif.Lemmas.HandedOn
/-!
# C151: which handles other programs get, on Windows

The broker of Windows is a library in a process which may create other processes from other threads, with
`bInheritHandles` and without a list of handles: these get every handle that is inheritable at that time.
-/
namespace Iris
open Iris.Spec

/-- C151. The code does not satisfy the full property: the worker's end of a channel is inheritable from
`SetHandleInformation` (broker/src/worker.rs:33) until it is closed (worker.rs:79), and a process that another thread
creates meanwhile gets it. -/
theorem C151_violated : ¬ NothingHandedOn := by
  intro h
  refine h noWinCalls _ _ noWinCalls_ok
    (wturns_exec (winSchedule.take 8) _ (twoWinCalls_exec winGoodRound winGoodRound)) 0 8 ?_ ⟨by decide +kernel, by decide +kernel⟩
  rw [← holdsHandle_iff]
  decide +kernel

/-- C151. A handle which a creation of a worker opens is not inheritable at that time. -/
theorem C151_opened (w w' : WinCreators) (ls : List WinCreateEvent) (h : NoWinCalls w)
    (hx : WinCreatorsExec DeclaredHandle w ls w') (j : Nat) (before after : WinWorld) (hm : .step j before after ∈ ls)
    (n : BitVec 64) (hb : before.pw.handles.get n = none) : ¬ HandedOn after n := by
  rintro ⟨_, hi⟩
  obtain ⟨x, _, h1, h2, _, _, rfl⟩ := wexec_steps h hx j before after hm
  rcases wgo_inheritable before x n hi with h3 | ⟨e, h3, rfl⟩
  · exact h1.inheritable n h3 hb
  · refine h2.present e.theirs ?_ hb
    unfold WCreation.owned
    rw [h3]
    exact List.mem_cons_self

/-- C151. As long as it has not failed, the only handle of a creation that another process gets is that of the worker's end of
its channel: the creation holds the other end of the same pipe. Missing: that handle (`C151_violated`), and a
creation which is failing (`C151_one_partial`). -/
theorem C151_end_partial (w w' : WinCreators) (ls : List WinCreateEvent) (h : NoWinCalls w)
    (hx : WinCreatorsExec DeclaredHandle w ls w') (j : Nat) (x : WCreation) (hj : w'.calls j = some x)
    (ho : x.phase.over = false) (hf : ∀ err left, x.phase ≠ .failing err left) (n : BitVec 64) (hh : HoldsHandle j ls n)
    (hn : HandedOn w'.world n) :
    ∃ i ∈ w'.world.pw.pipes, ∃ mine client, HoldsHandle j ls mine ∧ mine ≠ n ∧
      w'.world.pw.handles.get mine = some i.server ∧ i.client = some client ∧ w'.world.pw.handles.get n = some client := by
  have hi := wexec_inv h hx
  have hg : x.phase.gaveUp = false := by
    cases hp : x.phase <;> first | rfl | exact absurd hp (hf _ _) | (rw [hp] at ho; cases ho)
  obtain ⟨t, h1, h2⟩ := wexec_marks h hx j x hj
  have hm := hi.only j x hj (.inr hg) n hh
  rw [holds_of_not_over ho] at hm
  have ht := h2 n hm hn.2
  rw [h1 hg] at ht
  obtain ⟨e, rfl, h3, i, h4, c, h5, h6, h7, h8, _⟩ := marked_joined (hi.ok j x hj) ht
  refine ⟨i, h4, e.mine, c, hi.holds j x hj _ (owned_sub_holds x _ h3), ?_, h5, h6, h7⟩
  intro he
  rw [he, h7] at h5
  cases h5
  exact h8 rfl

/-- C151. Of the handles of a creation in progress, other processes get at most one. Missing: that one
(`C151_violated`), and creations that go on although `GetProcessId` has failed, which leave the handle of the process
(`C132_leak_violated`). -/
theorem C151_one_partial (w w' : WinCreators) (ls : List WinCreateEvent) (h : NoWinCalls w)
    (hx : WinCreatorsExec DeclaredHandle w ls w') (j : Nat) (x : WCreation) (hj : w'.calls j = some x)
    (ho : x.phase.over = false) (hp : ∀ k, (x.os.rounds k).pid ≠ 0) (m n : BitVec 64) (hm : HoldsHandle j ls m)
    (hn : HoldsHandle j ls n) (hm' : HandedOn w'.world m) (hn' : HandedOn w'.world n) : m = n := by
  have hi := wexec_inv h hx
  obtain ⟨t, _, h2⟩ := wexec_marks h hx j x hj
  have h3 := hi.only j x hj (.inl hp) m hm
  have h4 := hi.only j x hj (.inl hp) n hn
  rw [holds_of_not_over ho] at h3 h4
  have e1 := h2 m h3 hm'.2
  have e2 := h2 n h4 hn'.2
  rw [e1] at e2
  cases e2
  rfl

/-- C151. When the creation of a worker has succeeded, other processes get none of the handles it leaves open: neither the
broker's end of the channel nor the handles of the worker's process. -/
theorem C151_returned (w w' : WinCreators) (ls : List WinCreateEvent) (h : NoWinCalls w) (j : Nat) (before after : WinWorld)
    (hx : WinCreatorsExec DeclaredHandle w (ls ++ [.step j before after]) w') (x : WCreation) (hj : w'.calls j = some x)
    (q : WinProcess) (mine remote : BitVec 64) (hf : x.phase = .served q mine remote) (n : BitVec 64)
    (hh : HoldsHandle j (ls ++ [.step j before after]) n) : ¬ HandedOn after n := by
  rintro ⟨_, hn⟩
  obtain ⟨y, h1, ⟨t, h2, h3⟩, _⟩ := wexec_last h hx ls j before after rfl
  rw [hj] at h1
  cases h1
  have hg : x.phase.gaveUp = false := by rw [hf]; rfl
  have hm := (wexec_inv h hx).only j x hj (.inr hg) n hh
  have ht := h3 n hm hn
  rw [h2 hg] at ht
  unfold WCreation.marked at ht
  rw [hf] at ht
  cases ht

/-! ## They apply -/

/-- In the execution of C132 the first creation holds 4 and 8 after 8 system calls, of which only 8 is inheritable; it has not
failed, and is not over. -/
example : holdsHandle 0 ((winSchedule.take 8).foldl WinCreators.turn (twoWinCalls winGoodRound winGoodRound)).1 4 = true ∧
    holdsHandle 0 ((winSchedule.take 8).foldl WinCreators.turn (twoWinCalls winGoodRound winGoodRound)).1 8 = true ∧
    ((winSchedule.take 8).foldl WinCreators.turn (twoWinCalls winGoodRound winGoodRound)).2.world.inheritable = [8, 16] ∧
    (((winSchedule.take 8).foldl WinCreators.turn (twoWinCalls winGoodRound winGoodRound)).2.calls 0).map
      (fun x => (x.phase.over, x.phase.gaveUp)) = some (false, false) := by
  decide +kernel

/-- An execution whose last event is a system call that ends a creation well: there the first creation holds 4, 20 and 24, and
only 16 and 32, which are not among these, are inheritable. -/
example : (winSchedule.take 30).getLast? = some 0 ∧
    (((winSchedule.take 29).foldl WinCreators.turn (twoWinCalls winGoodRound winGoodRound)).2.calls 0).map (·.phase.over) =
      some false ∧
    (((winSchedule.take 30).foldl WinCreators.turn (twoWinCalls winGoodRound winGoodRound)).2.calls 0).map (·.phase.over) =
      some true ∧
    [4, 20, 24].all (holdsHandle 0 ((winSchedule.take 30).foldl WinCreators.turn (twoWinCalls winGoodRound winGoodRound)).1) =
      true ∧
    ((winSchedule.take 30).foldl WinCreators.turn (twoWinCalls winGoodRound winGoodRound)).2.world.inheritable = [32, 16] := by
  decide +kernel

/-- The first system call opens handle 4, which was free. -/
example : (((winSchedule.take 1).foldl WinCreators.turn (twoWinCalls winGoodRound winGoodRound)).1.getLast?.map fun
    | .step j b a => (j, b.pw.handles.get 4, a.pw.handles.get 4)
    | .made _ _ _ _ _ => (9, none, none)) = some (0, none, some 2) := by
  decide +kernel

end Iris
