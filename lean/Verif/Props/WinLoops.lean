import Verif.Lemmas.WinLoops
import Verif.Props.WinBroker
/-!
# C134 Windows workers served at the same time do not disturb each other

An execution is `WinLoopsExec debug w ls w'` (`Verif/Model/WinLoops.lean`): system calls of the threads serving workers in any order,
new workers, and whatever else the broker does with other handles. The full property is false: a worker can have the broker
close any of its handles by naming it in a message. What is proved about handles is under the hypothesis that
no worker has done that (`NoHandleNamed`), and its theorems have the suffix `_partial`.
-/
namespace Iris
open Spec

/-- All that the thread of a worker does is what serving this worker alone with its own policy comes to: the policy is sent,
then for each of its requests, in order, there are the log callbacks, the system call if the policy grants it, and the
reply. When the thread waits for the next message all requests have been answered.
What is missing: workers that name handles of the broker. -/
theorem C134_transcript_partial (debug : Bool) (w w' : WinLoops) (ls : List WinLoopEvent) (j : Nat) (p : Policy)
    (pipe process : BitVec 64) (po qo : Nat) (th : WinLoop) (hw : ∀ j, w.threads j = none)
    (he : WinLoopsExec debug w ls w') (hn : NoHandleNamed ls) (hs : .spawned j p pipe process po qo ∈ ls)
    (hj : w'.threads j = some th) :
    (th.trace = [] ∨ ∃ done cut, WinFollows debug p (winHeard j ls) th.trace done cut) ∧
    (th.phase = .idle → ∃ done, WinFollows debug p (winHeard j ls) th.trace done none ∧
      done.length + 1 = (winHeard j ls).length) := by
  obtain ⟨th', hj', ht⟩ := (winLoops_inv debug hw he hn).thread j p pipe process po qo hs
  rw [hj] at hj'; cases hj'
  have h := ht.track
  have all : WinAll debug p (winHeard j ls) th.trace →
      (th.trace = [] ∨ ∃ done cut, WinFollows debug p (winHeard j ls) th.trace done cut) := fun h => by
    obtain ⟨done, h, _⟩ := h.follows
    exact .inr ⟨done, none, h⟩
  unfold WinTrack at h
  cases hp : th.phase with
  | greeting => rw [hp] at h; exact ⟨.inl h.2, by simp⟩
  | idle => rw [hp] at h; exact ⟨all h, fun _ => h.follows⟩
  | received first inc os =>
    rw [hp] at h
    refine ⟨?_, by simp⟩
    cases first with
    | true => exact .inl h.2
    | false =>
      obtain ⟨l, hl, h⟩ := h
      rw [hl]
      exact h.over _
  | giving os resp k =>
    rw [hp] at h
    obtain ⟨r, res, h, _⟩ := h
    exact ⟨h.over, by simp⟩
  | writing os resp k given =>
    rw [hp] at h
    refine ⟨?_, by simp⟩
    rcases h with ⟨_, _, _, h, _⟩ | ⟨_, _, _, h, _⟩
    · exact .inl h
    · exact h.over
  | dropping k next =>
    rw [hp] at h
    refine ⟨?_, by simp⟩
    cases next with
    | true => exact all h
    | false => exact h
  | leaving => rw [hp] at h; exact ⟨h, by simp⟩
  | detaching => rw [hp] at h; exact ⟨h, by simp⟩
  | gone => rw [hp] at h; exact ⟨h, by simp⟩

/-- The thread of a worker reads from and writes to the pipe of this worker only. What is missing: as above. -/
theorem C134_own_pipe_partial (debug : Bool) (w w' : WinLoops) (ls : List WinLoopEvent) (j : Nat) (p : Policy)
    (pipe process : BitVec 64) (po qo : Nat) (th : WinLoop) (hw : ∀ j, w.threads j = none)
    (he : WinLoopsExec debug w ls w') (hn : NoHandleNamed ls) (hs : .spawned j p pipe process po qo ∈ ls)
    (hj : w'.threads j = some th) : ∀ e ∈ th.ends, e = some po := by
  obtain ⟨th', hj', ht⟩ := (winLoops_inv debug hw he hn).thread j p pipe process po qo hs
  rw [hj] at hj'; cases hj'
  exact ht.ends

/-- A system call made for a worker leaves the handles of all other processes alone. It adds to those of this worker at most
one, which refers to an object opened for a request of this worker that its policy grants. What is missing: as above. -/
theorem C134_given_partial (debug : Bool) (w w' : WinLoops) (ls : List WinLoopEvent) (j : Nat) (p : Policy)
    (pipe process : BitVec 64) (po qo : Nat) (th : WinLoop) (before after : WinShared) (hw : ∀ j, w.threads j = none)
    (he : WinLoopsExec debug w ls w') (hn : NoHandleNamed ls) (hs : .spawned j p pipe process po qo ∈ ls)
    (hj : w'.threads j = some th) (ha : .step j before after ∈ ls) :
    (∀ k, k ≠ qo → after.workers k = before.workers k) ∧
    (after.workers qo = before.workers qo ∨ ∃ v inc os s r c res,
      after.workers qo = (v, res.object) :: before.workers qo ∧ v ≠ 0#64 ∧ (before.workers qo).get v = none ∧
      .recv j inc os s ∈ ls ∧ winRequest inc = some r ∧ WinGrants debug p r ∧ winCallFor cutName r = some c ∧
      .called c res ∈ th.trace ∧ 0 ≤ res.status.toInt) := by
  obtain ⟨th', hj', ht⟩ := (winLoops_inv debug hw he hn).thread j p pipe process po qo hs
  rw [hj] at hj'; cases hj'
  have h := ht.given before after ha
  refine ⟨fun k hk => (h k).resolve_right fun a => hk a.1, ?_⟩
  rcases h qo with h | ⟨_, v, r, c, res, h1, h2, h3, h4, h5⟩
  · exact .inl h
  · obtain ⟨i, hi, hr⟩ := List.mem_map.1 h4
    obtain ⟨s, hm⟩ := winHeard_mem hi
    exact .inr ⟨v, i.1, i.2, s, r, c, res, h1, h2, h3, hm, hr, h5⟩

/-- A system call made for a worker changes no handle of the broker that is open, except that it may close one of this
worker: that of its pipe, that of its process, or one opened for it. What is missing: as above. -/
theorem C134_closes_own_partial (debug : Bool) (w w' : WinLoops) (ls : List WinLoopEvent) (j : Nat) (p : Policy)
    (pipe process : BitVec 64) (po qo : Nat) (th : WinLoop) (before after : WinShared) (hw : ∀ j, w.threads j = none)
    (he : WinLoopsExec debug w ls w') (hn : NoHandleNamed ls) (hs : .spawned j p pipe process po qo ∈ ls)
    (hj : w'.threads j = some th) (ha : .step j before after ∈ ls) (h : BitVec 64) (o : Nat)
    (ho : before.broker.get h = some o) :
    after.broker.get h = some o ∨ (after.broker.get h = none ∧ (h = pipe ∧ o = po ∨ h = process ∧ o = qo ∨
      ∃ c res, .called c res ∈ th.trace ∧ 0 ≤ res.status.toInt ∧ res.handle = h ∧ res.object = o)) := by
  obtain ⟨th', hj', ht⟩ := (winLoops_inv debug hw he hn).thread j p pipe process po qo hs
  rw [hj] at hj'; cases hj'
  exact ht.closes before after ha h o ho

/-- Whatever happens, a thread that has not left still has the handles of its pipe and of its worker's process, and what it opened
for a request is open until it closes it. What is missing: as above. -/
theorem C134_kept_partial (debug : Bool) (w w' : WinLoops) (ls : List WinLoopEvent) (j : Nat) (p : Policy)
    (pipe process : BitVec 64) (po qo : Nat) (th : WinLoop) (hw : ∀ j, w.threads j = none)
    (he : WinLoopsExec debug w ls w') (hn : NoHandleNamed ls) (hs : .spawned j p pipe process po qo ∈ ls)
    (hj : w'.threads j = some th) :
    (th.phase ≠ .detaching → th.phase ≠ .gone → w'.shared.broker.get pipe = some po) ∧
    (th.phase ≠ .gone → w'.shared.broker.get process = some qo) ∧
    (∀ c res, .called c res ∈ th.trace → 0 ≤ res.status.toInt →
      w'.shared.broker.get res.handle = some res.object ∨
      ∃ before after, .step j before after ∈ ls ∧ before.broker.get res.handle = some res.object ∧
        after.broker.get res.handle = none) := by
  obtain ⟨th', hj', ht⟩ := (winLoops_inv debug hw he hn).thread j p pipe process po qo hs
  rw [hj] at hj'; cases hj'
  refine ⟨fun a b => ht.pipeEq ▸ ht.holds.pipe (by simp [WinLoop.hasPipe, a, b]),
    fun a => ht.processEq ▸ ht.holds.process (by simp [WinLoop.hasProcess, a]), fun c res hc hr => ?_⟩
  rcases ht.closed c res hc hr with ⟨_, a⟩ | a
  · exact .inl a
  · exact .inr a

/-- Nothing is left open: a thread that waits for a message, or is gone, has closed all it opened, and when it is gone also
its pipe and the handle of the process. What is missing: as above. -/
theorem C134_closed_partial (debug : Bool) (w w' : WinLoops) (ls : List WinLoopEvent) (j : Nat) (p : Policy)
    (pipe process : BitVec 64) (po qo : Nat) (th : WinLoop) (hw : ∀ j, w.threads j = none)
    (he : WinLoopsExec debug w ls w') (hn : NoHandleNamed ls) (hs : .spawned j p pipe process po qo ∈ ls)
    (hj : w'.threads j = some th) (hp : th.phase = .idle ∨ th.phase = .gone) :
    (∀ c res, .called c res ∈ th.trace → 0 ≤ res.status.toInt → ∃ before after, .step j before after ∈ ls ∧
      before.broker.get res.handle = some res.object ∧ after.broker.get res.handle = none) ∧
    (th.phase = .gone → ∀ h o, (h = pipe ∧ o = po) ∨ (h = process ∧ o = qo) → ∃ before after,
      .step j before after ∈ ls ∧ before.broker.get h = some o ∧ after.broker.get h = none) := by
  obtain ⟨th', hj', ht⟩ := (winLoops_inv debug hw he hn).thread j p pipe process po qo hs
  rw [hj] at hj'; cases hj'
  refine ⟨fun c res hc hr => (ht.closed c res hc hr).resolve_left ?_, ?_⟩
  · rcases hp with hp | hp <;> simp [WinLoop.held, hp]
  · rintro hg h o (⟨rfl, rfl⟩ | ⟨rfl, rfl⟩)
    · exact ht.closedPipe (by simp [WinLoop.hasPipe, hg])
    · exact ht.closedProcess (by simp [WinLoop.hasProcess, hg])

/-! ### Without hypotheses on messages -/

theorem winLoop_go_trace (debug : Bool) (s : WinShared) (th : WinLoop) :
    (th.go debug s).2.policy = th.policy ∧
    (∀ f inc os, (th.go debug s).2.phase = .received f inc os → th.phase = .received f inc os) ∧
    ∃ acts, (th.go debug s).2.trace = th.trace ++ acts ∧ ∀ c res, .called c res ∈ acts →
      ∃ f inc os r, th.phase = .received f inc os ∧ winRequest inc = some r ∧ WinGrants debug th.policy r ∧
        winCallFor cutName r = some c := by
  cases hp : th.phase with
  | greeting => simp [WinLoop.go, hp]
  | idle => simp [WinLoop.go, hp]
  | gone => simp [WinLoop.go, hp]
  | leaving => simp only [WinLoop.go, hp]; exact ⟨rfl, fun _ _ _ h => (by cases h), ⟨[], by simp [WinLoop.at], by simp⟩⟩
  | detaching => simp only [WinLoop.go, hp]; exact ⟨rfl, fun _ _ _ h => (by cases h), ⟨[], by simp [WinLoop.at], by simp⟩⟩
  | dropping k next =>
    simp only [WinLoop.go, hp]
    exact ⟨rfl, fun _ _ _ h => (by cases next <;> cases h), ⟨[], by simp [WinLoop.at], by simp⟩⟩
  | giving os resp k =>
    simp only [WinLoop.go, hp]
    split
    · exact ⟨rfl, fun _ _ _ h => (by cases h), ⟨[], by simp [WinLoop.at], by simp⟩⟩
    · split
      · exact ⟨rfl, fun _ _ _ h => (by cases h), ⟨[], by simp [WinLoop.at], by simp⟩⟩
      · exact ⟨rfl, fun _ _ _ h => (by cases h), ⟨[], by simp [WinLoop.at], by simp⟩⟩
  | writing os resp k given =>
    have ha : ∀ b f inc os, afterSend k b ≠ .received f inc os := by
      intro b f inc os
      cases k <;> cases b <;> simp [afterSend]
    simp only [WinLoop.go, hp]
    split
    · split
      · exact ⟨rfl, fun _ _ _ h => absurd h (ha _ _ _ _), ⟨_, rfl, by simp⟩⟩
      · exact ⟨rfl, fun _ _ _ h => absurd h (ha _ _ _ _), ⟨[], by simp, by simp⟩⟩
    · exact ⟨rfl, fun _ _ _ h => absurd h (ha _ _ _ _), ⟨[], by simp [WinLoop.at], by simp⟩⟩
  | received first inc os =>
    have other : ∀ ph, (∀ f inc os, ph ≠ .received f inc os) → (th.at ph).policy = th.policy ∧
        (∀ f i o, (th.at ph).phase = .received f i o → WinLoopPhase.received first inc os = .received f i o) ∧
        ∃ acts, (th.at ph).trace = th.trace ++ acts ∧ ∀ c res, .called c res ∈ acts →
          ∃ f i o r, WinLoopPhase.received first inc os = .received f i o ∧ winRequest i = some r ∧
            WinGrants debug th.policy r ∧ winCallFor cutName r = some c :=
      fun ph h => ⟨rfl, fun f i o e => absurd e (h f i o), ⟨[], by simp [WinLoop.at], by simp⟩⟩
    simp only [WinLoop.go, hp]
    cases hr : winRecv inc with
    | ended => exact other _ (by simp)
    | error => exact other _ (by simp)
    | request r v =>
      cases v with
      | some v => exact other _ (by simp)
      | none =>
        have hreq := (winNamed_eq inc r none hr).2 rfl
        simp only []
        split
        · split
          · exact other _ (by simp)
          · exact other _ (by simp)
        · by_cases e : r = .initialization
          · subst e; exact other _ (by simp)
          · rw [winServe_eq debug th.policy _ os r e]
            simp only []
            refine ⟨trivial, ?_, ⟨_, rfl, ?_⟩⟩
            · intro f i o h
              split at h <;> cases h
            · intro c res hc
              have hc : ∃ res', .called c res ∈ winWork cutName debug th.policy r res' := by
                split at hc
                · exact ⟨_, hc⟩
                · exact ⟨_, hc⟩
              obtain ⟨res', hc⟩ := hc
              exact ⟨first, inc, os, r, rfl, hreq, (called_of_work hc).1, (called_of_work hc).2.1⟩

theorem winLoops_calls (debug : Bool) {w w' : WinLoops} {ls : List WinLoopEvent} (hw : ∀ j, w.threads j = none)
    (he : WinLoopsExec debug w ls w') :
    (∀ j p pipe process po qo, .spawned j p pipe process po qo ∈ ls → ∃ th, w'.threads j = some th ∧ th.policy = p) ∧
    ∀ j th, w'.threads j = some th →
      (∀ f inc os, th.phase = .received f inc os → inc = .failed 6 ∨ ∃ s, .recv j inc os s ∈ ls) ∧
      ∀ c res, .called c res ∈ th.trace → ∃ inc os s r, .recv j inc os s ∈ ls ∧ winRequest inc = some r ∧
        WinGrants debug th.policy r ∧ winCallFor cutName r = some c := by
  induction he with
  | start => exact ⟨by simp, fun j th h => (by rw [hw j] at h; cases h)⟩
  | spawn ls w1 j p pipe process po qo he hj _ _ _ _ ih =>
    refine ⟨?_, ?_⟩
    · intro k p' a b po' qo' hm
      simp only [WinLoops.put]
      rcases List.mem_append.1 hm with hm | hm
      · obtain ⟨th, hk, ht⟩ := ih.1 k p' a b po' qo' hm
        exact ⟨th, by rw [if_neg (by rintro rfl; rw [hj] at hk; cases hk)]; exact hk, ht⟩
      · simp only [List.mem_singleton, WinLoopEvent.spawned.injEq] at hm
        exact ⟨_, if_pos hm.1, hm.2.1.symm⟩
    · intro k th hk
      simp only [WinLoops.put] at hk
      split at hk
      · cases hk
        exact ⟨by simp, by simp⟩
      · obtain ⟨a, b⟩ := ih.2 k th hk
        refine ⟨fun f inc os h => (a f inc os h).imp_right fun ⟨s, h⟩ => ⟨s, List.mem_append_left _ h⟩, fun c res h => ?_⟩
        obtain ⟨inc, os, s, r, h1, h2⟩ := b c res h
        exact ⟨inc, os, s, r, List.mem_append_left _ h1, h2⟩
  | recv ls w1 j th inc os he hj _ ih =>
    refine ⟨?_, ?_⟩
    · intro k p' a b po' qo' hm
      obtain ⟨th', hk, ht⟩ := ih.1 k p' a b po' qo' (by simpa using hm)
      simp only [WinLoops.put]
      by_cases e : k = j
      · subst e
        rw [hj] at hk; cases hk
        exact ⟨_, if_pos rfl, ht⟩
      · exact ⟨th', by rw [if_neg e]; exact hk, ht⟩
    · intro k th' hk
      simp only [WinLoops.put] at hk
      split at hk
      · rename_i e
        subst e
        cases hk
        obtain ⟨a, b⟩ := ih.2 k th hj
        refine ⟨?_, fun c res h => ?_⟩
        · intro f inc' os' h
          simp only [WinLoop.receive, WinLoopPhase.received.injEq] at h
          obtain ⟨_, h, rfl⟩ := h
          split at h
          · exact .inl h.symm
          · exact .inr ⟨_, by rw [← h]; exact List.mem_append_right _ (List.mem_singleton.2 rfl)⟩
        · obtain ⟨inc, os, s, r, h1, h2⟩ := b c res h
          exact ⟨inc, os, s, r, List.mem_append_left _ h1, h2⟩
      · obtain ⟨a, b⟩ := ih.2 k th' hk
        refine ⟨fun f inc os h => (a f inc os h).imp_right fun ⟨s, h⟩ => ⟨s, List.mem_append_left _ h⟩, fun c res h => ?_⟩
        obtain ⟨inc, os, s, r, h1, h2⟩ := b c res h
        exact ⟨inc, os, s, r, List.mem_append_left _ h1, h2⟩
  | step ls w1 j th he hj ih =>
    obtain ⟨g1, g2, acts, g3, g4⟩ := winLoop_go_trace debug w1.shared th
    refine ⟨?_, ?_⟩
    · intro k p' a b po' qo' hm
      obtain ⟨th', hk, ht⟩ := ih.1 k p' a b po' qo' (by simpa using hm)
      simp only [WinLoops.put]
      by_cases e : k = j
      · subst e
        rw [hj] at hk; cases hk
        exact ⟨_, if_pos rfl, by rw [g1]; exact ht⟩
      · exact ⟨th', by rw [if_neg e]; exact hk, ht⟩
    · intro k th' hk
      simp only [WinLoops.put] at hk
      split at hk
      · rename_i e
        subst e
        cases hk
        obtain ⟨a, b⟩ := ih.2 k th hj
        refine ⟨fun f inc os h => (a f inc os (g2 f inc os h)).imp_right fun ⟨s, h⟩ => ⟨s, List.mem_append_left _ h⟩,
          fun c res h => ?_⟩
        rw [g3] at h
        rw [g1]
        rcases List.mem_append.1 h with h | h
        · obtain ⟨inc, os, s, r, h1, h2⟩ := b c res h
          exact ⟨inc, os, s, r, List.mem_append_left _ h1, h2⟩
        · obtain ⟨f, inc, os, r, h1, h2, h3⟩ := g4 c res h
          rcases a f inc os h1 with rfl | ⟨s, hm⟩
          · cases h2
          · exact ⟨inc, os, s, r, List.mem_append_left _ hm, h2, h3⟩
      · obtain ⟨a, b⟩ := ih.2 k th' hk
        refine ⟨fun f inc os h => (a f inc os h).imp_right fun ⟨s, h⟩ => ⟨s, List.mem_append_left _ h⟩, fun c res h => ?_⟩
        obtain ⟨inc, os, s, r, h1, h2⟩ := b c res h
        exact ⟨inc, os, s, r, List.mem_append_left _ h1, h2⟩
  | other ls w1 s he _ ih => exact ih

/-- Whatever workers send: each system call a thread makes carries out a request this thread has received, and which the policy given
for this worker grants. -/
theorem C134_calls (debug : Bool) (w w' : WinLoops) (ls : List WinLoopEvent) (j : Nat) (p : Policy)
    (pipe process : BitVec 64) (po qo : Nat) (th : WinLoop) (c : NtCall) (res : NtResult) (hw : ∀ j, w.threads j = none)
    (he : WinLoopsExec debug w ls w') (hs : .spawned j p pipe process po qo ∈ ls) (hj : w'.threads j = some th)
    (hc : .called c res ∈ th.trace) :
    ∃ inc os s r, .recv j inc os s ∈ ls ∧ winRequest inc = some r ∧ WinGrants debug p r ∧
      winCallFor cutName r = some c := by
  obtain ⟨h1, h2⟩ := winLoops_calls debug hw he
  obtain ⟨th', hj', rfl⟩ := h1 j p pipe process po qo hs
  rw [hj] at hj'; cases hj'
  exact (h2 j th hj).2 c res hc

/-- How many system calls are left at most. -/
def winLoopRank : WinLoopPhase → Nat
  | .greeting | .idle | .gone => 0
  | .detaching => 1
  | .leaving => 2
  | .dropping _ _ => 3
  | .writing _ _ _ _ => 4
  | .giving _ _ _ => 5
  | .received _ _ _ => 6

theorem winLoopRank_go (debug : Bool) (s : WinShared) (th : WinLoop) :
    winLoopRank (th.go debug s).2.phase ≤ winLoopRank th.phase - 1 := by
  have ha : ∀ k b, winLoopRank (afterSend k b) ≤ 3 := by
    intro k b; cases k <;> cases b <;> simp [afterSend, winLoopRank]
  cases hp : th.phase with
  | writing os resp k given =>
    simp only [WinLoop.go, hp]
    split
    · split <;> exact ha _ _
    · exact ha _ _
  | giving os resp k =>
    simp only [WinLoop.go, hp]
    split
    · exact (by decide : 3 ≤ 4)
    · split
      · exact (by decide : 3 ≤ 4)
      · exact Nat.le_refl 4
  | dropping k next => cases next <;> simp [WinLoop.go, hp, winLoopRank, WinLoop.at]
  | received first inc os =>
    simp only [WinLoop.go, hp]
    split
    · split
      · split
        · exact (by decide : 4 ≤ 5)
        · exact (by decide : 2 ≤ 5)
      · split
        · exact (by decide : 2 ≤ 5)
        · dsimp only
          split
          · exact Nat.le_refl 5
          · exact (by decide : 4 ≤ 5)
    · exact (by decide : 3 ≤ 5)
    · exact (by decide : 2 ≤ 5)
    · exact (by decide : 2 ≤ 5)
  | _ => simp [WinLoop.go, hp, winLoopRank, WinLoop.at]

/-- Whatever the others do in between, a thread that has received something is done with it after six system calls at most: it
waits for the next message, or is gone. -/
theorem C134_steps (debug : Bool) (th : WinLoop) (l : List WinShared) (hl : 6 ≤ l.length) :
    let th' := l.foldl (fun th s => (th.go debug s).2) th
    th'.phase = .greeting ∨ th'.phase = .idle ∨ th'.phase = .gone := by
  have h : ∀ (l : List WinShared) (th : WinLoop),
      winLoopRank (l.foldl (fun th s => (th.go debug s).2) th).phase ≤ winLoopRank th.phase - l.length := by
    intro l
    induction l with
    | nil => intro th; simp
    | cons s l ih =>
      intro th
      have h1 := ih (th.go debug s).2
      have h2 := winLoopRank_go debug s th
      simp only [List.foldl_cons, List.length_cons]
      omega
  have h6 : winLoopRank th.phase ≤ 6 := by cases th.phase <;> simp [winLoopRank]
  have h0 := h l th
  intro th'
  have h0 : winLoopRank th'.phase = 0 := by simp only [th']; omega
  revert h0
  cases th'.phase <;> simp [winLoopRank]

/-! ### A thread that is not interrupted -/

theorem ntEffect_broker (b w : HTable) (r : NtResult) :
    ntEffect ⟨b, w⟩ r = (⟨(ntEffect ⟨b, []⟩ r).1.broker, w⟩, (ntEffect ⟨b, []⟩ r).2) := by
  simp only [ntEffect]
  split
  · split <;> rfl
  · rfl

/-- The next `n` system calls of a thread, with nothing in between. -/
def winAlone (debug : Bool) : Nat → WinShared × WinLoop → WinShared × WinLoop
  | 0, x => x
  | n + 1, x => winAlone debug n (x.2.go debug x.1)

theorem winAlone_rest (debug : Bool) (n : Nat) (s : WinShared) (th : WinLoop)
    (h : th.phase = .greeting ∨ th.phase = .idle ∨ th.phase = .gone) : winAlone debug n (s, th) = (s, th) := by
  induction n with
  | zero => rfl
  | succ n ih =>
    rw [winAlone]
    have : th.go debug s = (s, th) := by
      rcases h with h | h | h <;> simp only [WinLoop.go, h]
    rw [this]; exact ih

theorem winAlone_leave (debug : Bool) (n : Nat) (s : WinShared) (th : WinLoop) :
    winAlone debug (n + 2) (s, th.at .leaving) =
      ({ s with broker := (s.broker.close th.pipe).close th.process }, th.at .gone) := by
  simp only [winAlone, WinLoop.go, WinLoop.at]
  exact winAlone_rest _ _ _ _ (.inr (.inr rfl))

theorem winAlone_drop (debug : Bool) (n : Nat) (s : WinShared) (th : WinLoop) (h : BitVec 64) (next : Bool) :
    winAlone debug (n + 3) (s, th.at (.dropping h next)) =
      if next then ({ s with broker := s.broker.close h }, th.at .idle)
      else ({ s with broker := ((s.broker.close h).close th.pipe).close th.process }, th.at .gone) := by
  rw [winAlone]
  simp only [WinLoop.go, WinLoop.at]
  cases next with
  | true => exact winAlone_rest _ _ _ _ (.inr (.inl rfl))
  | false => exact winAlone_leave debug n _ { th with phase := .leaving }

/-- The state of one worker, as in C64 to C90. -/
def winOne (s : WinShared) (th : WinLoop) (target : Nat) : WinBroker :=
  ⟨⟨s.broker, s.workers target⟩, th.pipe, th.process, true, th.trace⟩

/-- The thread ended up as `b` says. -/
def WinSame (s : WinShared) (target : Nat) (b : WinBroker) (x : WinShared × WinLoop) : Prop :=
  x.1.broker = b.tables.broker ∧ (∀ k, x.1.workers k = if k = target then b.tables.worker else s.workers k) ∧
  x.2.trace = b.trace ∧ x.2.phase = if b.running then .idle else .gone

theorem winSame_leave (debug : Bool) (n : Nat) (s : WinShared) (th : WinLoop) (target : Nat) :
    WinSame s target (winOne s th target).leave (winAlone debug (n + 2) (s, th.at .leaving)) := by
  rw [winAlone_leave]
  refine ⟨rfl, fun k => ?_, rfl, rfl⟩
  simp only [winOne, WinBroker.leave]
  split
  · rename_i h; rw [h]
  · rfl

theorem winSame_drop (debug : Bool) (n : Nat) (s : WinShared) (th : WinLoop) (target : Nat) (h : BitVec 64) :
    WinSame s target ((winOne s th target).dropReceived (some h)).leave
      (winAlone debug (n + 3) (s, th.at (.dropping h false))) := by
  rw [winAlone_drop, if_neg (by simp)]
  refine ⟨rfl, fun k => ?_, rfl, rfl⟩
  simp only [winOne, WinBroker.leave, WinBroker.dropReceived]
  split
  · rename_i h; rw [h]
  · rfl

theorem workers_same (s : WinShared) (target : Nat) :
    ∀ k, s.workers k = if k = target then s.workers target else s.workers k := by
  intro k
  split
  · rename_i h; rw [h]
  · rfl

/-- A message without a handle is written. -/
theorem winAlone_write (debug : Bool) (n : Nat) (s : WinShared) (y : WinLoop) (os : WinChoice) (resp : WinIPCResponse)
    (po : Nat) (hpo : s.broker.get y.pipe = some po) :
    ∃ es, winAlone debug (n + 3) (s, y.at (.writing os resp none none)) =
      if (winWrap (encWinResponse resp) none).isSome = true ∧ os.writeOk = true then
        (s, { y with phase := .idle, trace := y.trace ++ [.sent resp none], ends := y.ends ++ es })
      else ({ s with broker := (s.broker.close y.pipe).close y.process }, { y with phase := .gone, ends := y.ends ++ es }) := by
  rw [winAlone]
  have hgo : (y.at (.writing os resp none none)).go debug s =
      match winWrap (encWinResponse resp) none with
      | some _ => if os.writeOk then
          (s, { y with phase := .idle, trace := y.trace ++ [.sent resp none], ends := y.ends ++ [some po] })
        else (s, { y with phase := .leaving, ends := y.ends ++ [some po] })
      | none => (s, { y with phase := .leaving }) := by
    simp only [WinLoop.go, WinLoop.at, hpo, Option.map_none, afterSend]
    cases winWrap (encWinResponse resp) none <;> rfl
  simp only [hgo]
  cases winWrap (encWinResponse resp) none with
  | none =>
    refine ⟨[], ?_⟩
    simp only [Option.isSome_none, Bool.false_eq_true, false_and, if_false, List.append_nil]
    exact winAlone_leave debug n s y
  | some bs =>
    refine ⟨[some po], ?_⟩
    cases os.writeOk with
    | true =>
      simp only [Option.isSome_some, and_self, if_true]
      exact winAlone_rest _ _ _ _ (.inr (.inl rfl))
    | false =>
      simp only [Bool.false_eq_true, and_false, if_false]
      exact winAlone_leave debug n s { y with ends := y.ends ++ [some po] }

theorem winServe_worker (debug : Bool) (p : Policy) (b w : HTable) (os : WinChoice) (r : WinIPCRequest) :
    winServe debug p ⟨b, w⟩ os r = (winServe debug p ⟨b, []⟩ os r).map fun x => { x with tables := ⟨x.tables.broker, w⟩ } := by
  by_cases e : r = .initialization
  · subst e; rfl
  · rw [winServe_eq debug p _ os r e, winServe_eq debug p _ os r e]
    split
    · rw [ntEffect_broker b w]; rfl
    · rfl

/-- What serving leaves to do. -/
theorem winServe_handle (debug : Bool) (p : Policy) (b : HTable) (os : WinChoice) (r : WinIPCRequest) (x : WinServed)
    (h : winServe debug p ⟨b, []⟩ os r = some x) :
    (∀ q, x.resp ≠ .initialization q) ∧ ((x.handle = none ∧ x.tables.broker = b) ∨
      ∃ k o, x.handle = some k ∧ b.get k = none ∧ x.tables.broker = (k, o) :: b) := by
  by_cases e : r = .initialization
  · subst e; cases h
  · rw [winServe_eq debug p _ os r e, Option.some.injEq] at h
    subst h
    split
    · refine ⟨by intro q; cases r <;> simp [winAnswer], ?_⟩
      by_cases hf : (ntEffect ⟨b, []⟩ os.nt).2.status.toInt < 0
      · exact .inl ⟨if_pos hf, by rw [ntEffect_failed hf]⟩
      · obtain ⟨h1, h2⟩ := ntEffect_ok hf
        exact .inr ⟨_, _, if_neg hf, h1, by rw [h2]⟩
    · exact ⟨by simp, .inl ⟨rfl, rfl⟩⟩

/-- The rest of an iteration, without a handle -/
theorem winSame_quiet (debug : Bool) (s : WinShared) (y : WinLoop) (os : WinChoice) (target po : Nat) (resp : WinIPCResponse)
    (acts : List WinAction) (hq : ∀ q, resp ≠ .initialization q) (hpo : s.broker.get y.pipe = some po) :
    WinSame s target ((winOne s y target).finish os ⟨⟨s.broker, s.workers target⟩, resp, none, acts⟩)
      (winAlone debug 5 (s, { y with phase := .writing os resp none none, trace := y.trace ++ acts })) := by
  obtain ⟨es, he⟩ := winAlone_write debug 2 s { y with trace := y.trace ++ acts } os resp po hpo
  simp only [WinLoop.at] at he
  rw [he]
  obtain ⟨bs, hbs⟩ := winWrap_small resp none hq
  simp only [hbs, Option.isSome_some, true_and]
  simp only [WinBroker.finish, winSend_small _ _ _ _ hq]
  cases os.writeOk with
  | true => exact ⟨rfl, workers_same s target, rfl, rfl⟩
  | false => exact ⟨rfl, workers_same s target, by simp [WinBroker.leave, winOne], rfl⟩

/-- and with one. -/
theorem winSame_given (debug : Bool) (s : WinShared) (y : WinLoop) (os : WinChoice) (target po : Nat) (resp : WinIPCResponse)
    (acts : List WinAction) (k : BitVec 64) (o : Nat) (hq : ∀ q, resp ≠ .initialization q) (hk : s.broker.get k = none)
    (hpo : s.broker.get y.pipe = some po) (hpr : s.broker.get y.process = some target) :
    WinSame s target ((winOne s y target).finish os ⟨⟨(k, o) :: s.broker, s.workers target⟩, resp, some k, acts⟩)
      (winAlone debug 5 ({ s with broker := (k, o) :: s.broker },
        { y with phase := .giving os resp k, trace := y.trace ++ acts })) := by
  have n1 : y.pipe ≠ k := by intro e; rw [e, hk] at hpo; cases hpo
  have n2 : y.process ≠ k := by intro e; rw [e, hk] at hpr; cases hpr
  rw [winAlone]
  have fail : WinSame s target (WinBroker.leave ⟨⟨HTable.drop? ((k, o) :: s.broker) (some k),
        s.workers target⟩, y.pipe, y.process, true, y.trace ++ acts ++ []⟩)
      (winAlone debug 4 ({ s with broker := (k, o) :: s.broker },
        ({ y with trace := y.trace ++ acts } : WinLoop).at (.dropping k false))) := by
    rw [winAlone_drop, if_neg (by simp)]
    exact ⟨rfl, workers_same s target, by simp [WinBroker.leave, WinLoop.at], rfl⟩
  simp only [WinBroker.finish, winSend_small _ _ _ _ hq, WinLoop.go, HTable.get_cons_if, if_neg n2, hpr, winDuplicate, if_true]
  cases os.dup with
  | none => exact fail
  | some v =>
    simp only []
    by_cases hfv : (s.workers target).free v = true
    · simp only [if_pos hfv]
      obtain ⟨bs, hbs⟩ := winWrap_small resp (some v) hq
      rw [winAlone]
      simp only [WinLoop.go, WinLoop.at, Option.map_some, hbs, HTable.get_cons_if, if_neg n1, hpo]
      cases os.writeOk with
      | true => exact ⟨rfl, fun k => rfl, rfl, rfl⟩
      | false => exact ⟨rfl, fun k => rfl, by simp [WinBroker.leave, winOne, winAlone, WinLoop.go, afterSend, WinLoop.at], rfl⟩
    · simp only [if_neg hfv]; exact fail

/-- A thread that has received a message and is not interrupted does what the model of one worker (C64, C65, C86-C90) says. -/
theorem C134_alone (debug : Bool) (s : WinShared) (th : WinLoop) (inc : WinIncoming) (os : WinChoice) (target : Nat)
    (hp : th.phase = .idle) (h1 : s.broker.get th.pipe ≠ none) (h2 : s.broker.get th.process = some target) :
    let b := (winOne s th target).step debug th.policy (inc, os)
    let x := winAlone debug 6 (s, th.receive s inc os)
    x.1.broker = b.tables.broker ∧ (∀ k, x.1.workers k = if k = target then b.tables.worker else s.workers k) ∧
    x.2.trace = b.trace ∧ x.2.phase = if b.running then .idle else .gone := by
  show WinSame s target ((winOne s th target).step debug th.policy (inc, os))
    (winAlone debug 5 ((th.receive s inc os).go debug s))
  obtain ⟨po, hpo⟩ := Option.ne_none_iff_exists'.1 h1
  have hph : (th.receive s inc os).phase = .received false inc os := by simp [WinLoop.receive, hp, h1]
  have hone : winOne s th target = winOne s (th.receive s inc os) target := rfl
  have hpol : th.policy = (th.receive s inc os).policy := rfl
  have hpo : s.broker.get (th.receive s inc os).pipe = some po := hpo
  have h2 : s.broker.get (th.receive s inc os).process = some target := h2
  rw [hone, hpol]
  generalize th.receive s inc os = y at hph hpo h2
  simp only [WinBroker.step]
  rw [if_neg (by simp [winOne])]
  simp only [WinLoop.go, hph]
  cases winRecv inc with
  | ended => exact winSame_leave debug 3 s y target
  | error => exact winSame_leave debug 3 s y target
  | request r v =>
    cases v with
    | some v => exact winSame_drop debug 2 s y target v
    | none =>
      simp only [Bool.false_eq_true, if_false]
      have hw : winServe debug y.policy (winOne s y target).tables os r =
          (winServe debug y.policy ⟨s.broker, []⟩ os r).map fun x => { x with tables := ⟨x.tables.broker, s.workers target⟩ } :=
        winServe_worker debug y.policy s.broker (s.workers target) os r
      rw [hw]
      cases hx : winServe debug y.policy ⟨s.broker, []⟩ os r with
      | none => exact winSame_leave debug 3 s y target
      | some x =>
        obtain ⟨hq, hcase⟩ := winServe_handle debug y.policy s.broker os r x hx
        obtain ⟨t, resp, handle, acts⟩ := x
        simp only [Option.map_some] at hq hcase ⊢
        rcases hcase with ⟨rfl, ht⟩ | ⟨k, o, rfl, hk, ht⟩
        · simp only [ht]; exact winSame_quiet debug s y os target po resp acts hq hpo
        · simp only [ht]; exact winSame_given debug s y os target po resp acts k o hq hk hpo h2

/-- The same for the first message. -/
theorem C134_alone_first (debug : Bool) (s : WinShared) (th : WinLoop) (inc : WinIncoming) (os : WinChoice) (target : Nat)
    (hp : th.phase = .greeting) (h1 : s.broker.get th.pipe ≠ none) :
    let b := (winOne s th target).handshake th.policy (inc, os)
    let x := winAlone debug 6 (s, th.receive s inc os)
    x.1.broker = b.tables.broker ∧ (∀ k, x.1.workers k = if k = target then b.tables.worker else s.workers k) ∧
    x.2.trace = b.trace ∧ x.2.phase = if b.running then .idle else .gone := by
  show WinSame s target ((winOne s th target).handshake th.policy (inc, os))
    (winAlone debug 5 ((th.receive s inc os).go debug s))
  obtain ⟨po, hpo⟩ := Option.ne_none_iff_exists'.1 h1
  have hph : (th.receive s inc os).phase = .received true inc os := by simp [WinLoop.receive, hp, h1]
  have hone : winOne s th target = winOne s (th.receive s inc os) target := rfl
  have hpol : th.policy = (th.receive s inc os).policy := rfl
  have hpo : s.broker.get (th.receive s inc os).pipe = some po := hpo
  rw [hone, hpol]
  generalize th.receive s inc os = y at hph hpo
  simp only [WinBroker.handshake]
  simp only [WinLoop.go, hph]
  cases winRecv inc with
  | ended => exact winSame_leave debug 3 s y target
  | error => exact winSame_leave debug 3 s y target
  | request r v =>
    cases v with
    | some v => cases r <;> exact winSame_drop debug 2 s y target v
    | none =>
      cases r with
      | initialization =>
        simp only [if_true]
        obtain ⟨es, he⟩ := winAlone_write debug 2 s y os (.initialization y.policy) po hpo
        rw [he]
        simp only [winSend]
        cases winWrap (encWinResponse (.initialization y.policy)) none with
        | none => exact ⟨rfl, workers_same s target, rfl, rfl⟩
        | some bs =>
          cases os.writeOk with
          | true => exact ⟨rfl, workers_same s target, rfl, rfl⟩
          | false => exact ⟨rfl, workers_same s target, rfl, rfl⟩
      | ntCreateFile => exact winSame_leave debug 3 s y target
      | ntCreateKey => exact winSame_leave debug 3 s y target

/-! ### Executions that meet the hypotheses -/

/-- Who is next. -/
inductive WinTurn
  | spawn (j : Nat) (p : Policy) (pipe process : BitVec 64) (po qo : Nat)
  | recv (j : Nat) (inc : WinIncoming) (os : WinChoice)
  | step (j : Nat)

def newObjects (po qo : Nat) (ls : List WinLoopEvent) : Bool :=
  ls.all fun
    | .spawned _ _ _ _ a b => a != po && b != qo
    | _ => true

/-- Turns that are not possible are skipped. -/
def winTurn (debug : Bool) (x : List WinLoopEvent × WinLoops) : WinTurn → List WinLoopEvent × WinLoops
  | .spawn j p pipe process po qo =>
    if (x.2.threads j).isNone && x.2.shared.broker.free pipe && x.2.shared.broker.free process && pipe != process &&
        newObjects po qo x.1 then
      (x.1 ++ [.spawned j p pipe process po qo],
       x.2.put j ({ x.2.shared with broker := (pipe, po) :: (process, qo) :: x.2.shared.broker },
        ⟨p, pipe, process, .greeting, [], []⟩))
    else x
  | .recv j inc os =>
    match x.2.threads j with
    | none => x
    | some th =>
      if th.phase = .greeting ∨ th.phase = .idle then
        (x.1 ++ [.recv j inc os x.2.shared], x.2.put j (x.2.shared, th.receive x.2.shared inc os))
      else x
  | .step j =>
    match x.2.threads j with
    | none => x
    | some th => (x.1 ++ [.step j x.2.shared (th.go debug x.2.shared).1], x.2.put j (th.go debug x.2.shared))

theorem winTurns_exec (debug : Bool) (w : WinLoops) (l : List WinTurn) :
    ∀ x : List WinLoopEvent × WinLoops, WinLoopsExec debug w x.1 x.2 →
      WinLoopsExec debug w (l.foldl (winTurn debug) x).1 (l.foldl (winTurn debug) x).2 := by
  induction l with
  | nil => exact fun x h => h
  | cons a l ih =>
    intro x h
    apply ih
    cases a with
    | spawn j p pipe process po qo =>
      simp only [winTurn]
      split
      · rename_i hc
        simp only [Bool.and_eq_true, Option.isNone_iff_eq_none, bne_iff_ne, ne_eq] at hc
        obtain ⟨⟨⟨⟨h1, h2⟩, h3⟩, h4⟩, h5⟩ := hc
        refine .spawn _ _ j p pipe process po qo h h1 ((HTable.free_iff _ _).1 h2).2 ((HTable.free_iff _ _).1 h3).2 h4 fun k p' a b po' qo' hm => ?_
        have := List.all_eq_true.1 h5 _ hm
        simpa using this
      · exact h
    | recv j inc os =>
      simp only [winTurn]
      split
      · exact h
      · rename_i th hj
        split
        · rename_i hp; exact .recv _ _ j th inc os h hj hp
        · exact h
    | step j =>
      simp only [winTurn]
      split
      · exact h
      · rename_i th hj; exact .step _ _ j th h hj

def noLoops : WinLoops := ⟨⟨[(40, 1)], fun _ => [(4, 5)]⟩, fun _ => none⟩

/-- Worker `j` greets, or asks for something. -/
def winGreetingOf (j : Nat) : WinTurn := .recv j (.message [0, 0]) ⟨⟨0, 0, 0, 0, 0⟩, none, true⟩
def winAsking (j : Nat) (r : WinIPCRequest) (object : Nat) : WinTurn :=
  .recv j (.message (winDemoBytes r none)) ⟨⟨0, 1, 0, 24 + 4 * BitVec.ofNat 64 j, object⟩, some 0x20, true⟩

/-- Two workers, with different policies. Both ask for the same file at the same time, then the second one ends. -/
def winLoopsDemo : List WinLoopEvent × WinLoops :=
  [WinTurn.spawn 0 .nothingAllowed 4 8 100 101, .spawn 1 winDemoPolicy 12 16 110 111,
    winGreetingOf 0, winGreetingOf 1, .step 1, .step 0, .step 0, .step 1,
    winAsking 0 winDemoRead 70, winAsking 1 winDemoRead 71, .step 1, .step 0, .step 1, .step 0, .step 1, .step 1,
    .recv 1 .broken ⟨⟨0, 0, 0, 0, 0⟩, none, true⟩, .step 1, .step 1, .step 1].foldl (winTurn false) ([], noLoops)

theorem winLoopsDemo_exec : (∀ j, noLoops.threads j = none) ∧ WinLoopsExec false noLoops winLoopsDemo.1 winLoopsDemo.2 :=
  ⟨fun _ => rfl, winTurns_exec false noLoops _ _ .start⟩

/-- The events that name a handle. -/
def namesHandle : WinLoopEvent → Bool
  | .recv _ inc _ _ => (winNamed inc).isSome
  | _ => false

theorem noHandleNamed_of {ls : List WinLoopEvent} (h : ls.any namesHandle = false) : NoHandleNamed ls := by
  intro j inc os s hm
  have := List.any_eq_false.1 h _ hm
  simpa [namesHandle] using this

/-- C134: no handle is named, -/
example : NoHandleNamed winLoopsDemo.1 := noHandleNamed_of (by decide +kernel)

/-- the first worker is refused, the second gets the file, in its own process; -/
example : (winLoopsDemo.2.threads 0).map (·.trace) =
      some [.sent (.initialization .nothingAllowed) none, .sent (.syscallResult 0xC0000022) none] ∧
    (winLoopsDemo.2.threads 1).map (·.trace) =
      some [.sent (.initialization winDemoPolicy) none,
        .called (.createFile 1 (utf16 c!"\\??\\C:\\d\\f") 0 0x80 7 1 0x200000 []) ⟨0, 1, 0, 28, 71⟩,
        .sent (.ntCreateFile 1 0) (some (0x20, 71))] ∧
    winLoopsDemo.2.shared.workers 111 = [(0x20, 71), (4, 5)] ∧ winLoopsDemo.2.shared.workers 101 = [(4, 5)] := by
  decide +kernel

/-- the first thread waits, the second is gone, and its handles are closed. -/
example : (winLoopsDemo.2.threads 0).map (·.phase) = some .idle ∧ (winLoopsDemo.2.threads 1).map (·.phase) = some .gone ∧
    winLoopsDemo.2.shared.broker = [(4, 100), (8, 101), (40, 1)] ∧
    (winLoopsDemo.2.threads 0).map (·.ends) = some [some 100, some 100, some 100, some 100] := by
  decide +kernel

/-- C134_alone, C134_alone_first: the hypotheses. -/
example : (winLoopsDemo.2.threads 0).map (fun th => (th.phase, winLoopsDemo.2.shared.broker.get th.pipe,
    winLoopsDemo.2.shared.broker.get th.process)) = some (.idle, some 100, some 101) := by
  decide +kernel

/-- Worker 1 asks for something. Meanwhile worker 0 sends a message which names handle 12, and worker 2 is created. -/
def winLoopsBad : List WinLoopEvent × WinLoops :=
  [WinTurn.spawn 0 .nothingAllowed 4 8 100 101, .spawn 1 winDemoPolicy 12 16 110 111,
    winGreetingOf 0, winGreetingOf 1, .step 0, .step 0, .step 1, .step 1,
    winAsking 1 winDemoOther 71,
    .recv 0 (.message (winDemoBytes winDemoRead (some 12))) ⟨⟨0, 0, 0, 0, 0⟩, none, true⟩, .step 0, .step 0,
    .spawn 2 .nothingAllowed 12 20 120 121, .step 1, .step 1,
    winAsking 1 winDemoRead 72, .step 1, .step 1, .step 1, .step 1].foldl (winTurn false) ([], noLoops)

/-- What happened to the thread of worker 1. -/
theorem winLoopsBad_thread : (winLoopsBad.2.threads 1).map (fun th => (th.trace, th.ends)) =
    some ([.sent (.initialization winDemoPolicy) none, .sent (.syscallResult 0xC0000022) none,
      .called (.createFile 1 (utf16 c!"\\??\\C:\\d\\f") 0 0x80 7 1 0x200000 []) ⟨0, 1, 0, 28, 72⟩,
      .sent (.ntCreateFile 1 0) (some (0x20, 72))],
      [some 110, some 110, some 110, some 120, some 120, some 120]) := by
  decide +kernel

/-- The events of received requests, with the pipe read. -/
def winReadFrom (j : Nat) (pipe : BitVec 64) (object : Nat) (data : Bytes) : WinLoopEvent → Bool
  | .recv k inc _ s => k == j && inc == .message data && s.broker.get pipe == some object
  | _ => false

def isSpawned (j : Nat) (p : Policy) (pipe process : BitVec 64) (po qo : Nat) : WinLoopEvent → Bool
  | .spawned k p' a b c d => k == j && p' == p && a == pipe && b == process && c == po && d == qo
  | _ => false

theorem spawned_of {ls : List WinLoopEvent} {j : Nat} {p : Policy} {pipe process : BitVec 64} {po qo : Nat}
    (h : ls.any (isSpawned j p pipe process po qo) = true) : .spawned j p pipe process po qo ∈ ls := by
  obtain ⟨e, he, h⟩ := List.any_eq_true.1 h
  cases e with
  | spawned k p' a b c d =>
    simp only [isSpawned, Bool.and_eq_true, beq_iff_eq] at h
    obtain ⟨⟨⟨⟨⟨rfl, rfl⟩, rfl⟩, rfl⟩, rfl⟩, rfl⟩ := h
    exact he
  | recv => cases h
  | step => cases h

theorem winGrants_read : ¬ WinGrants false .nothingAllowed winDemoRead := by decide +kernel

/-- C134 is false: worker 0 has the broker close the pipe of worker 1. The thread of worker 1 then goes on with the pipe of a new
worker 2, and opens for it a file which the policy of worker 2 does not grant. -/
theorem C134_violated : ∃ (w w' : WinLoops) (ls : List WinLoopEvent) (th : WinLoop) (p1 p2 : Policy)
    (pipe process process' : BitVec 64) (po po' qo qo' : Nat) (inc : WinIncoming) (os : WinChoice) (s : WinShared)
    (r : WinIPCRequest) (c : NtCall) (res : NtResult), (∀ j, w.threads j = none) ∧ WinLoopsExec false w ls w' ∧
    .spawned 1 p1 pipe process po qo ∈ ls ∧ .spawned 2 p2 pipe process' po' qo' ∈ ls ∧ po ≠ po' ∧
    w'.threads 1 = some th ∧ .recv 1 inc os s ∈ ls ∧ s.broker.get pipe = some po' ∧ some po' ∈ th.ends ∧
    winRequest inc = some r ∧ ¬ WinGrants false p2 r ∧ winCallFor cutName r = some c ∧ .called c res ∈ th.trace ∧
    0 ≤ res.status.toInt := by
  obtain ⟨th, h1, h2⟩ := Option.map_eq_some_iff.1 winLoopsBad_thread
  have hr : winLoopsBad.1.any (winReadFrom 1 12 120 (winDemoBytes winDemoRead none)) = true := by decide +kernel
  obtain ⟨e, he, hr⟩ := List.any_eq_true.1 hr
  cases e with
  | spawned => cases hr
  | step => cases hr
  | recv k inc os s =>
    simp only [winReadFrom, Bool.and_eq_true, beq_iff_eq] at hr
    obtain ⟨⟨rfl, rfl⟩, hs⟩ := hr
    refine ⟨noLoops, winLoopsBad.2, winLoopsBad.1, th, winDemoPolicy, .nothingAllowed, 12, 16, 20, 110, 120, 111, 121,
      _, os, s, winDemoRead, _, ⟨0, 1, 0, 28, 72⟩, fun _ => rfl, winTurns_exec false noLoops _ _ .start, ?_, ?_, by decide, h1, he, hs,
      ?_, by decide +kernel, winGrants_read, rfl, ?_, by decide⟩
    · exact spawned_of (by decide +kernel)
    · exact spawned_of (by decide +kernel)
    · rw [show th.ends = _ from congrArg Prod.snd h2]; decide
    · rw [show th.trace = _ from congrArg Prod.fst h2]; decide +kernel

end Iris
