import Verif.Props.WinCreators
import Verif.Spec.HandedOn
/-! # Lemmas on the handles that are inheritable -/
namespace Iris
open Iris.Spec

/-- The handle the call has made inheritable. -/
def WCreation.marked (x : WCreation) : Option (BitVec 64) :=
  match x.phase with
  | .checking e _ _ | .identifying e _ _ | .attaching e _ | .handing e _ _ => some e.theirs
  | .locating j | .listing j _ _ | .numbering j _ _ | .profiling j _ _ _ | .deleting j _ _ _ | .recreating j _ _ _
  | .creating j _ _ _ _ => some j.ends.theirs
  | _ => none

/-- What a system call makes inheritable. -/
theorem wgo_inheritable (w : WinWorld) (x : WCreation) (h : BitVec 64) (hh : h ∈ (x.go w).1.inheritable) :
    h ∈ w.inheritable ∨ ∃ e, x.phase = .marking e ∧ h = e.theirs := by
  obtain ⟨c, p, os, ph, chd⟩ := x
  cases ph with
  | marking e =>
    simp only [WCreation.go] at hh
    split at hh
    · rcases List.mem_cons.1 hh with h1 | h1
      · exact .inr ⟨e, rfl, h1⟩
      · exact .inl h1
    · exact .inl hh
  | checking e p left =>
    refine .inl ?_
    cases left <;> simp only [WCreation.go] at hh
    · exact hh
    · split at hh <;> exact hh
  | attaching e q =>
    refine .inl ?_
    simp only [WCreation.go] at hh
    split at hh
    · exact hh
    · rename_i h0
      unfold WinWorld.openProcess at h0
      split at h0
      · split at h0
        · cases h0; exact hh
        · cases h0
      · cases h0
  | handing e q r =>
    simp only [WCreation.go, WinWorld.close] at hh
    exact .inl (List.mem_filter.1 hh).1
  | failing err left =>
    refine .inl ?_
    cases left with
    | nil => exact hh
    | cons l left =>
      cases l with
      | handle k =>
        simp only [WCreation.go, WinWorld.dropLeft, WinWorld.close] at hh
        exact (List.mem_filter.1 hh).1
      | profile id => exact hh
  | _ =>
    refine .inl ?_
    simp only [WCreation.go] at hh
    repeat' split at hh
    all_goals exact hh

theorem failEnds_gaveUp (err : Option BrokerError) (e : WEnds) : (WPhase.failEnds err e).gaveUp = true := rfl

theorem marked_afterCaps (x : WCreation) (j : WJob) (k : Nat) (f : WinFlags) (r : WinRound) (a : List ProcAttr)
    (pr : Option Nat) : (x.at (winAfterCaps j k f r a pr)).marked = some j.ends.theirs := by
  unfold winAfterCaps
  repeat' split
  all_goals rfl

theorem marked_afterProfile (x : WCreation) (j : WJob) (k : Nat) (f : WinFlags) (r : WinRound) (id : Nat) :
    (x.at (winAfterProfile j k f r id)).marked = some j.ends.theirs := by
  unfold winAfterProfile
  repeat' split
  all_goals first | rfl | exact marked_afterCaps _ _ _ _ _ _ _

theorem marked_afterChecks (x : WCreation) (c : ProcessConfig) (e : WEnds) (p : Policy)
    (hg : (winAfterChecks c e p).gaveUp = false) : (x.at (winAfterChecks c e p)).marked = some e.theirs := by
  unfold winAfterChecks at hg ⊢
  repeat' split at hg
  all_goals first | rfl | (rw [failEnds_gaveUp] at hg; cases hg) | skip
  all_goals simp_all [WCreation.at, WCreation.marked]

/-- All but two system calls leave it. -/
theorem wgo_marked (w : WinWorld) (x : WCreation) (h1 : ∀ e, x.phase ≠ .marking e) (h2 : ∀ e q r, x.phase ≠ .handing e q r)
    (hg : (x.go w).2.phase.gaveUp = false) : (x.go w).2.marked = x.marked := by
  obtain ⟨c, p, os, ph, chd⟩ := x
  cases ph with
  | marking e => exact absurd rfl (h1 e)
  | handing e q r => exact absurd rfl (h2 e q r)
  | checking e p left =>
    cases left with
    | nil => exact marked_afterChecks _ _ _ _ hg
    | cons a l =>
      simp only [WCreation.go] at hg ⊢
      split at hg
      · cases hg
      · simp only [*]; rfl
  | failing err left =>
    have := wgo_gaveUp w _ hg
    cases this
  | _ =>
    simp only [WCreation.go] at hg ⊢
    repeat' split
    all_goals first
      | rfl
      | exact marked_afterCaps _ _ _ _ _ _ _
      | exact marked_afterProfile _ _ _ _ _ _
      | (simp_all [WCreation.at, failEnds_gaveUp]; done)
      | (simp_all [WCreation.at, fail_gaveUp]; done)
      | (simp_all [WCreation.at, WPhase.gaveUp]; done)

/-- Of these handles only `t` is inheritable. -/
def OnlyMarked (w : WinWorld) (o : List (BitVec 64)) (t : Option (BitVec 64)) : Prop := ∀ h ∈ o, h ∈ w.inheritable → t = some h

/-- Of the handles of the call, at most one is inheritable; as long as the call has not failed, it is the worker's end. -/
def MarksOk (w : WinWorld) (x : WCreation) (o : List (BitVec 64)) : Prop :=
  ∃ t, (x.phase.gaveUp = false → t = x.marked) ∧ OnlyMarked w o t

theorem wgo_marks {w : WinWorld} {x : WCreation} (hx : x.phase.over = false) (hw : WinWf w) (ho : OwnOk w x.owned)
    (hok : WPhaseOk w x) (hm : MarksOk w x x.owned) : MarksOk (x.go w).1 (x.go w).2 (x.go w).2.holding := by
  have hgo := wgo_ok hx hw ho hok
  obtain ⟨t, h1, h2⟩ := hm
  by_cases hk : ∃ e, x.phase = .marking e
  · obtain ⟨e, he⟩ := hk
    have ht := h1 (by rw [he]; rfl)
    have hn : x.marked = none := by unfold WCreation.marked; rw [he]
    rw [hn] at ht
    subst ht
    refine ⟨some e.theirs, ?_, ?_⟩
    · intro hg
      unfold WCreation.go at hg ⊢
      rw [he] at hg ⊢
      simp only at hg ⊢
      split at hg
      · simp only [*, if_true]; rfl
      · rw [show (x.at (WPhase.failEnds none e)).phase = .failEnds none e from rfl, failEnds_gaveUp] at hg; cases hg
    · intro h hh hi
      rcases wgo_inheritable w x h hi with h3 | ⟨e', h3, h4⟩
      · rcases hgo.moves.fresh h hh with h5 | h5
        · exact absurd (h2 h h5 h3) (by simp)
        · exact absurd h5 (hw.inheritable h h3)
      · rw [he] at h3; cases h3; rw [h4]
  · have hsub : ∀ h ∈ (x.go w).2.holding, h ∈ (x.go w).1.inheritable → t = some h := by
      intro h hh hi
      rcases wgo_inheritable w x h hi with h3 | ⟨e', h3, _⟩
      · rcases hgo.moves.fresh h hh with h5 | h5
        · exact h2 h h5 h3
        · exact absurd h5 (hw.inheritable h h3)
      · exact absurd ⟨e', h3⟩ hk
    by_cases hd : ∃ e q r, x.phase = .handing e q r
    · obtain ⟨e, q, r, he⟩ := hd
      have ht := h1 (by rw [he]; rfl)
      have hn : x.marked = some e.theirs := by unfold WCreation.marked; rw [he]
      rw [hn] at ht
      subst ht
      refine ⟨none, ?_, ?_⟩
      · intro _
        unfold WCreation.go
        rw [he]
        rfl
      · intro h hh hi
        have := hsub h hh hi
        unfold WCreation.go at hi
        rw [he] at hi
        simp only [WinWorld.close] at hi
        have h6 := (List.mem_filter.1 hi).2
        cases this
        simp at h6
    · refine ⟨t, ?_, hsub⟩
      intro hg
      rw [wgo_marked w x (fun e he => hk ⟨e, he⟩) (fun e q r he => hd ⟨e, q, r, he⟩) hg]
      exact h1 (wgo_gaveUp w x hg)

theorem MarksOk.congr {w w' : WinWorld} {x : WCreation} {o : List (BitVec 64)} (h : MarksOk w x o)
    (hs : ∀ k ∈ o, k ∈ w'.inheritable → k ∈ w.inheritable) : MarksOk w' x o := by
  obtain ⟨t, h1, h2⟩ := h
  exact ⟨t, h1, fun k hk hi => h2 k hk (hs k hk hi)⟩

/-- At any time. -/
theorem wexec_marks {w w' : WinCreators} {ls : List WinCreateEvent} (h : NoWinCalls w)
    (he : WinCreatorsExec DeclaredHandle w ls w') : ∀ j x, w'.calls j = some x → MarksOk w'.world x x.owned := by
  induction he with
  | start => intro j x hj; rw [h.calls] at hj; cases hj
  | call ls w1 j c p os _ hj hb ih =>
    intro k y hk
    rcases wput_cases k y hk with ⟨_, rfl⟩ | ⟨_, hk⟩
    · exact ⟨none, fun _ => rfl, fun n hn => by cases hn⟩
    · exact ih k y hk
  | go ls w1 j x he hj hx ih =>
    have hi := wexec_inv h he
    have hg := wgo_ok hx hi.wf (hi.own j x hj) (hi.ok j x hj)
    intro k y hk
    rcases wput_cases k y hk with ⟨_, rfl⟩ | ⟨hne, hk⟩
    · obtain ⟨t, h1, h2⟩ := wgo_marks hx hi.wf (hi.own j x hj) (hi.ok j x hj) (ih j x hj)
      exact ⟨t, h1, fun n hn => h2 n (owned_sub_holds _ n hn)⟩
    · refine (ih k y hk).congr fun n hn hi' => ?_
      exact (hg.moves.keep n ((hi.own k y hk).present n hn) (hi.apart k j y x hne hk hj n hn)).2.1 hi'
  | other ls w1 w2 he ho ih =>
    intro k y hk
    exact (ih k y hk).congr fun n hn hi' => (ho.kept n (.inl ⟨k, y, hk, hn⟩)).2.1 hi'

/-- The handle a call has made inheritable is the other end of its pipe. -/
theorem marked_joined {w : WinWorld} {x : WCreation} (hok : WPhaseOk w x) {t : BitVec 64} (ht : x.marked = some t) :
    ∃ e : WEnds, e.theirs = t ∧ e.mine ∈ x.owned ∧ JoinedIs w e := by
  obtain ⟨c, p, os, ph, chd⟩ := x
  cases ph with
  | checking e p l => cases ht; exact ⟨e, rfl, by simp [WCreation.owned], hok.1⟩
  | identifying e k p => cases ht; exact ⟨e, rfl, by simp [WCreation.owned], hok.1⟩
  | attaching e q => cases ht; exact ⟨e, rfl, by simp [WCreation.owned], hok.1⟩
  | handing e q r => cases ht; exact ⟨e, rfl, by simp [WCreation.owned], hok.1⟩
  | creating j k f a pr => cases ht; exact ⟨j.ends, rfl, by simp [WCreation.owned], hok.1.joined⟩
  | locating j => cases ht; exact ⟨j.ends, rfl, by simp [WCreation.owned], hok.joined⟩
  | listing j => cases ht; exact ⟨j.ends, rfl, by simp [WCreation.owned], hok.joined⟩
  | numbering j => cases ht; exact ⟨j.ends, rfl, by simp [WCreation.owned], hok.joined⟩
  | profiling j => cases ht; exact ⟨j.ends, rfl, by simp [WCreation.owned], hok.joined⟩
  | deleting j => cases ht; exact ⟨j.ends, rfl, by simp [WCreation.owned], hok.joined⟩
  | recreating j => cases ht; exact ⟨j.ends, rfl, by simp [WCreation.owned], hok.joined⟩
  | _ => cases ht

/-- What is true of each system call of an execution. -/
theorem wexec_steps {w w' : WinCreators} {ls : List WinCreateEvent} (h : NoWinCalls w)
    (he : WinCreatorsExec DeclaredHandle w ls w') : ∀ j before after, .step j before after ∈ ls →
    ∃ x, x.phase.over = false ∧ WinWf before ∧ OwnOk before x.owned ∧ WPhaseOk before x ∧ MarksOk before x x.owned ∧
      after = (x.go before).1 := by
  induction he with
  | start => intro j b a hm; cases hm
  | call ls w1 j c p os _ hj hb ih =>
    intro k b a hm
    simp only [List.mem_append, List.mem_singleton, reduceCtorEq, or_false] at hm
    exact ih k b a hm
  | go ls w1 j x he hj hx ih =>
    intro k b a hm
    simp only [List.mem_append, List.mem_singleton, WinCreateEvent.step.injEq] at hm
    rcases hm with hm | ⟨rfl, rfl, rfl⟩
    · exact ih k b a hm
    · have hi := wexec_inv h he
      exact ⟨x, hx, hi.wf, hi.own _ x hj, hi.ok _ x hj, wexec_marks h he _ x hj, rfl⟩
  | other ls w1 w2 he ho ih => exact ih

/-- The last system call of an execution. -/
theorem wexec_last {w w' : WinCreators} {l : List WinCreateEvent} (h : NoWinCalls w)
    (he : WinCreatorsExec DeclaredHandle w l w') : ∀ ls j before after, l = ls ++ [.step j before after] →
    ∃ x, w'.calls j = some x ∧ MarksOk after x x.holding ∧ ∀ k ∈ x.holding, HoldsHandle j l k := by
  intro ls j b a hl
  have hi := wexec_inv h he
  suffices h2 : ∃ x, w'.calls j = some x ∧ MarksOk a x x.holding by
    obtain ⟨x, h1, h3⟩ := h2
    exact ⟨x, h1, h3, hi.holds j x h1⟩
  clear hi
  induction he with
  | start => cases ls <;> cases hl
  | call ls' w1 k c p os _ hj hb ih =>
    have := List.append_inj_right' hl rfl
    cases this
  | go ls' w1 k x he hj hx ih =>
    have := List.append_inj_right' hl rfl
    simp only [List.cons.injEq, WinCreateEvent.step.injEq, and_true] at this
    obtain ⟨rfl, rfl, rfl⟩ := this
    have hi := wexec_inv h he
    exact ⟨_, wput_self _ _ _, wgo_marks hx hi.wf (hi.own _ x hj) (hi.ok _ x hj) (wexec_marks h he _ x hj)⟩
  | other ls' w1 w2 he ho ih => exact ih hl

end Iris
