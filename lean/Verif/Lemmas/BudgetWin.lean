import Verif.Spec.Budget
import Verif.Lemmas.WholeWin
import Verif.Props.WholeWin
/-! # Lemmas about what workers cost a Windows broker -/
namespace Iris
open Spec

local notation w "⟪" h "⟫" => HTable.get (PipeWorld.handles (WinWorld.pw w)) h

/-- The call may have left the handle of the process it created. -/
def WCreation.Keeps (x : WCreation) : Prop :=
  (x.phase.gaveUp = true ∧ ∃ k, (x.os.rounds k).pid = 0) ∨ ∃ q m r, x.phase = .served q m r

def WCreation.Small (x : WCreation) : Prop := x.phase.gaveUp = true → x.owned.length ≤ 3

/-- What a system call of a creation does to the handles of the call. -/
structure WCost (w : WinWorld) (x : WCreation) (w' : WinWorld) (x' : WCreation) : Prop where
  held : ∀ h, w'⟪h⟫ ≠ none → h ∈ x.owned ∨ w⟪h⟫ = none →
    h ∈ x'.owned ∨ (∃ th, x.thread = some th ∧ h ∈ th.owned) ∨ (h = x.os.hProcess ∧ x'.Keeps)
  keeps : x.Keeps → x'.Keeps
  small : x.Small → x'.Small

theorem not_keeps {x : WCreation} (h1 : x.phase.gaveUp = false) (h2 : x.phase.over = false) : ¬ x.Keeps := by
  rintro (⟨h, _⟩ | ⟨q, m, r, h⟩)
  · rw [h1] at h; cases h
  · rw [h] at h2; cases h2

theorem WCost.stay {w w' : WinWorld} {x x' : WCreation} (h1 : x.phase.gaveUp = false) (h2 : x.phase.over = false)
    (ht : w'.pw.handles = w.pw.handles) (ho : ∀ h ∈ x.owned, h ∈ x'.owned) (hs : x'.owned.length ≤ 3) : WCost w x w' x' := by
  refine ⟨fun h hp hh => .inl ?_, fun hk => (not_keeps h1 h2 hk).elim, fun _ _ => hs⟩
  rw [ht] at hp
  rcases hh with hh | hh
  · exact ho h hh
  · exact absurd hh hp

theorem WCost.add {w w' : WinWorld} {x x' : WCreation} {k : BitVec 64} {o : Nat} (h1 : x.phase.gaveUp = false)
    (h2 : x.phase.over = false) (ht : w'.pw.handles = (k, o) :: w.pw.handles) (ho : ∀ h ∈ x.owned, h ∈ x'.owned)
    (hk : k ∈ x'.owned) (hs : x'.phase.gaveUp = false) : WCost w x w' x' := by
  refine ⟨fun h hp hh => .inl ?_, fun hk => (not_keeps h1 h2 hk).elim, fun _ hg => by rw [hs] at hg; cases hg⟩
  rw [ht, HTable.get_cons_if] at hp
  by_cases e : h = k
  · exact e ▸ hk
  · rw [if_neg e] at hp
    rcases hh with hh | hh
    · exact ho h hh
    · exact absurd hh hp

theorem fail_wowned (x : WCreation) (err : Option BrokerError) (l : List WLeft) :
    (x.at (.fail err l)).owned = leftHandles l := by
  cases l <;> rfl

theorem afterCaps_owned (x : WCreation) (j : WJob) (k : Nat) (f : WinFlags) (r : WinRound) (a : List ProcAttr)
    (p : Option Nat) : (x.at (winAfterCaps j k f r a p)).owned = [j.ends.theirs, j.ends.mine] := by
  unfold winAfterCaps
  repeat' split
  all_goals rfl

theorem afterProfile_owned (x : WCreation) (j : WJob) (k : Nat) (f : WinFlags) (r : WinRound) (id : Nat) :
    (x.at (winAfterProfile j k f r id)).owned = [j.ends.theirs, j.ends.mine] := by
  unfold winAfterProfile
  repeat' split
  all_goals first | rfl | exact afterCaps_owned ..

theorem afterChecks_owned (x : WCreation) (c : ProcessConfig) (e : WEnds) (p : Policy) :
    (x.at (winAfterChecks c e p)).owned = [e.theirs, e.mine] := by
  unfold winAfterChecks
  repeat' split
  all_goals rfl

/-- A system call that leaves the handles alone, and after which the call has those it had. -/
theorem WCost.same {w w' : WinWorld} {x x' : WCreation} (h1 : x.phase.gaveUp = false) (h2 : x.phase.over = false)
    (ht : w'.pw.handles = w.pw.handles) (ho : x'.owned = x.owned) (hs : x.owned.length ≤ 3) : WCost w x w' x' :=
  .stay h1 h2 ht (fun _ hm => ho ▸ hm) (ho ▸ hs)

theorem leftHandles_append (a b : List WLeft) : leftHandles (a ++ b) = leftHandles a ++ leftHandles b :=
  List.filterMap_append

theorem createPipe_handles (w : PipeWorld) (name : Bytes) (res : Except (BitVec 32) (BitVec 64)) :
    (∃ e, createNamedPipe w name res = (.error e, w)) ∨
    ∃ h w' o, createNamedPipe w name res = (.ok h, w') ∧ w'.handles = (h, o) :: w.handles := by
  unfold createNamedPipe
  repeat' split
  all_goals first | exact .inl ⟨_, rfl⟩ | exact .inr ⟨_, _, _, rfl, rfl⟩

theorem openPipe_handles (w : PipeWorld) (name : Bytes) (res : Except (BitVec 32) (BitVec 64 × Nat)) :
    (∃ e, openPipe w name res = (.error e, w)) ∨
    ∃ h w' o, openPipe w name res = (.ok h, w') ∧ w'.handles = (h, o) :: w.handles := by
  unfold openPipe
  repeat' split
  all_goals first | exact .inl ⟨_, rfl⟩ | exact .inr ⟨_, _, _, rfl, rfl⟩

theorem wcall_cost (w : WinWorld) (x : WCreation) (hx : x.phase.over = false) :
    WCost w x (x.go w).1 (x.go w).2 := by
  obtain ⟨c, p, os, ph, chd⟩ := x
  cases ph with
  | naming k id =>
    simp only [WCreation.go]
    split
    · exact .same rfl rfl rfl rfl (by simp [WCreation.owned])
    · rename_i name _
      rcases createPipe_handles w.pw name (os.pipes k).create with ⟨e, he⟩ | ⟨n, w2, o, he, h2⟩
      · rw [he]
        simp only
        split <;> exact .same rfl rfl rfl rfl (by simp [WCreation.owned])
      · rw [he]
        exact .add rfl rfl h2 (by intro h hm; cases hm) (List.mem_singleton_self _) rfl
  | opening k name m =>
    simp only [WCreation.go]
    rcases openPipe_handles w.pw name (os.pipes k).open_ with ⟨e, he⟩ | ⟨n, w2, o, he, h2⟩
    · rw [he]
      exact .same rfl rfl rfl rfl (by simp [WCreation.owned])
    · rw [he]
      exact .add rfl rfl h2 (fun h hm => List.mem_cons_of_mem _ hm) (List.mem_cons_self ..) rfl
  | connecting k e =>
    simp only [WCreation.go]
    repeat' split
    all_goals exact .same rfl rfl rfl rfl (by simp [WCreation.owned])
  | moding k e =>
    simp only [WCreation.go]
    repeat' split
    all_goals exact .same rfl rfl rfl rfl (by simp [WCreation.owned])
  | marking e =>
    simp only [WCreation.go]
    repeat' split
    all_goals exact .same rfl rfl rfl rfl (by simp [WCreation.owned])
  | checking e p left =>
    cases left with
    | nil => exact .same rfl rfl rfl (afterChecks_owned ..) (by simp [WCreation.owned])
    | cons raw left =>
      simp only [WCreation.go]
      split
      all_goals exact .same rfl rfl rfl rfl (by simp [WCreation.owned])
  | locating j =>
    simp only [WCreation.go]
    split
    all_goals exact .same rfl rfl rfl rfl (by simp [WCreation.owned])
  | listing j k f =>
    simp only [WCreation.go]
    repeat' split
    all_goals first
      | exact .same rfl rfl rfl rfl (by simp [WCreation.owned])
      | exact .same rfl rfl rfl (afterCaps_owned ..) (by simp [WCreation.owned])
  | numbering j k f => exact .same rfl rfl rfl rfl (by simp [WCreation.owned])
  | profiling j k f id =>
    simp only [WCreation.go]
    repeat' split
    all_goals first
      | exact .same rfl rfl rfl rfl (by simp [WCreation.owned])
      | exact .same rfl rfl rfl (afterProfile_owned ..) (by simp [WCreation.owned])
  | deleting j k f id => exact .same rfl rfl rfl rfl (by simp [WCreation.owned])
  | recreating j k f id =>
    simp only [WCreation.go]
    repeat' split
    all_goals first
      | exact .same rfl rfl rfl rfl (by simp [WCreation.owned])
      | exact .same rfl rfl rfl (afterProfile_owned ..) (by simp [WCreation.owned])
  | creating j k f a prof =>
    simp only [WCreation.go]
    repeat' split
    all_goals first
      | exact .same rfl rfl rfl rfl (by simp [WCreation.owned])
      | exact .add rfl rfl rfl (fun h hm => List.mem_cons_of_mem _ hm) (List.mem_cons_self ..) rfl
  | identifying e k prof =>
    simp only [WCreation.go]
    split
    · rename_i h0
      refine ⟨fun h hp hh => ?_, fun hk => (not_keeps rfl rfl hk).elim, fun _ _ => by simp [WPhase.failEnds, fail_wowned, leftHandles]⟩
      rcases hh with hh | hh
      · rcases List.mem_cons.1 hh with rfl | hh
        · exact .inr (.inr ⟨rfl, .inl ⟨rfl, k, h0⟩⟩)
        · exact .inl hh
      · exact absurd hh hp
    · exact .same rfl rfl rfl rfl (by simp [WCreation.owned])
  | attaching e q =>
    simp only [WCreation.go]
    split
    · refine .same rfl rfl rfl ?_ (by simp [WCreation.owned])
      rw [fail_wowned, leftHandles_drops]
      rfl
    · rename_i h w1 heq
      simp only [WinWorld.openProcess] at heq
      repeat' split at heq
      all_goals first
        | cases heq; done
        | (cases heq
           exact .add rfl rfl rfl (fun h hm => List.mem_cons_of_mem _ hm) (List.mem_cons_self ..) rfl)
  | handing e q remote =>
    refine ⟨fun h hp hh => .inl ?_, fun hk => (not_keeps rfl rfl hk).elim, fun _ hg => by cases hg⟩
    simp only [WCreation.go, close_get] at hp
    by_cases he : h = e.theirs
    · rw [if_pos he] at hp; exact absurd rfl hp
    · rw [if_neg he] at hp
      rcases hh with hh | hh
      · simp only [WCreation.owned, List.mem_cons, List.not_mem_nil, or_false, he, false_or] at hh
        simp only [WCreation.go, WCreation.at, WCreation.owned, List.mem_cons, List.not_mem_nil, or_false]
        rcases hh with h1 | h1 | h1
        · exact .inr (.inl h1)
        · exact .inr (.inr h1)
        · exact .inl h1
      · exact absurd hh hp
  | spawning m q remote =>
    simp only [WCreation.go]
    split
    · rename_i hs
      refine ⟨fun h hp hh => .inr ?_, fun hk => (not_keeps rfl rfl hk).elim, fun _ hg => by cases hg⟩
      rcases hh with hh | hh
      · simp only [WCreation.owned, List.mem_cons, List.not_mem_nil, or_false] at hh
        rcases hh with h1 | h1 | h1
        · exact .inl ⟨⟨p.runtime, m, remote, .greeting, [], []⟩, by simp only [WCreation.thread, if_pos hs], by simp [WinLoop.owned, h1]⟩
        · exact .inl ⟨⟨p.runtime, m, remote, .greeting, [], []⟩, by simp only [WCreation.thread, if_pos hs], by simp [WinLoop.owned, h1]⟩
        · exact .inr ⟨h1, .inr ⟨_, _, _, rfl⟩⟩
      · exact absurd hh hp
    · refine .same rfl rfl rfl ?_ (by simp [WCreation.owned])
      rw [fail_wowned]
      have := leftHandles_drops os q []
      rw [List.append_nil] at this
      show m :: remote :: leftHandles (dropsOf os q) = _
      rw [this]
      rfl
  | failing err l =>
    cases l with
    | nil =>
      refine ⟨fun h hp hh => ?_, fun hk => ?_, fun _ _ => Nat.zero_le _⟩
      · rcases hh with hh | hh
        · cases hh
        · exact absurd hh hp
      · rcases hk with ⟨_, hk⟩ | ⟨_, _, _, hk⟩
        · exact .inl ⟨rfl, hk⟩
        · cases hk
    | cons a l =>
      have ho : ((WCreation.go w ⟨c, p, os, .failing err (a :: l), chd⟩).2).owned = leftHandles l := fail_wowned ..
      refine ⟨fun h hp hh => .inl ?_, fun hk => ?_, fun hs _ => ?_⟩
      · rw [ho]
        cases a with
        | handle k =>
          simp only [WCreation.go, WinWorld.dropLeft, close_get] at hp
          by_cases he : h = k
          · rw [if_pos he] at hp; exact absurd rfl hp
          · rw [if_neg he] at hp
            rcases hh with hh | hh
            · rcases List.mem_cons.1 (show h ∈ k :: leftHandles l from hh) with h1 | h1
              · exact absurd h1 he
              · exact h1
            · exact absurd hh hp
        | profile id =>
          rcases hh with hh | hh
          · exact hh
          · exact absurd hh hp
      · rcases hk with ⟨_, hk⟩ | ⟨_, _, _, hk⟩
        · exact .inl ⟨fail_gaveUp _ _, hk⟩
        · cases hk
      · rw [ho]
        have := hs rfl
        cases a with
        | handle k =>
          have : (k :: leftHandles l).length ≤ 3 := this
          rw [List.length_cons] at this; omega
        | profile id => exact this
  | failed err => cases hx
  | panicked => cases hx
  | served q m r => cases hx

/-- What a system call of a thread does to the handles of the thread. -/
theorem winLoop_cost (debug : Bool) (s : WinShared) (th : WinLoop) (h : BitVec 64)
    (hp : (th.go debug s).1.broker.get h ≠ none) (hh : h ∈ th.owned ∨ s.broker.get h = none) :
    h ∈ (th.go debug s).2.owned := by
  obtain ⟨pol, pipe, process, ph, tr, ends⟩ := th
  cases ph with
  | greeting => exact hh.resolve_right fun e => hp e
  | idle => exact hh.resolve_right fun e => hp e
  | gone => exact hh.resolve_right fun e => hp e
  | received first inc os =>
    simp only [WinLoop.go] at hp ⊢
    cases hr : winRecv inc with
    | ended => rw [hr] at hp; exact hh.resolve_right fun e => hp e
    | error => rw [hr] at hp; exact hh.resolve_right fun e => hp e
    | request r k =>
      cases k with
      | some k => rw [hr] at hp; exact List.mem_cons_of_mem _ (hh.resolve_right fun e => hp e)
      | none =>
        rw [hr] at hp
        simp only at hp ⊢
        by_cases hf : first = true
        · simp only [if_pos hf] at hp ⊢
          by_cases hi : r = .initialization
          · simp only [if_pos hi] at hp ⊢
            exact hh.resolve_right fun e => hp e
          · simp only [if_neg hi] at hp ⊢
            exact hh.resolve_right fun e => hp e
        · simp only [if_neg hf] at hp ⊢
          cases hv : winServe debug pol ⟨s.broker, []⟩ os r with
          | none =>
            rw [hv] at hp
            exact hh.resolve_right fun e => hp e
          | some x =>
            rw [hv] at hp
            simp only at hp ⊢
            obtain ⟨_, hx⟩ := winServe_handle debug pol s.broker os r x hv
            rcases hx with ⟨h1, h2⟩ | ⟨k, o, h1, h2, h3⟩
            · rw [h2] at hp
              have hm := hh.resolve_right fun e => hp e
              simpa [h1, WinLoop.owned] using hm
            · rw [h3, HTable.get_cons_if] at hp
              by_cases e : h = k
              · simp [h1, WinLoop.owned, e]
              · rw [if_neg e] at hp
                have hm := hh.resolve_right fun e => hp e
                simp only [h1, WinLoop.owned]
                exact List.mem_cons_of_mem _ hm
  | giving os resp k =>
    have : (WinLoop.go debug s ⟨pol, pipe, process, .giving os resp k, tr, ends⟩).1.broker = s.broker := by
      simp only [WinLoop.go]
      repeat' split
      all_goals rfl
    rw [this] at hp
    have hm := hh.resolve_right fun e => hp e
    simp only [WinLoop.go]
    repeat' split
    all_goals simpa [WinLoop.owned, WinLoop.at] using hm
  | writing os resp k g =>
    have : (WinLoop.go debug s ⟨pol, pipe, process, .writing os resp k g, tr, ends⟩).1.broker = s.broker := by
      simp only [WinLoop.go]
      repeat' split
      all_goals rfl
    rw [this] at hp
    have hm := hh.resolve_right fun e => hp e
    simp only [WinLoop.go]
    repeat' split
    all_goals cases k <;> simpa [WinLoop.owned, WinLoop.at, afterSend] using hm
  | dropping k next =>
    simp only [WinLoop.go, HTable.get_close_if] at hp
    by_cases e : h = k
    · rw [if_pos e] at hp; exact absurd rfl hp
    · rw [if_neg e] at hp
      have hm := hh.resolve_right fun e => hp e
      simp only [WinLoop.go]
      cases next <;> simpa [WinLoop.owned, WinLoop.at, e] using hm
  | leaving =>
    simp only [WinLoop.go, HTable.get_close_if] at hp
    by_cases e : h = pipe
    · rw [if_pos e] at hp; exact absurd rfl hp
    · rw [if_neg e] at hp
      have hm := hh.resolve_right fun e => hp e
      simpa [WinLoop.go, WinLoop.owned, WinLoop.at, e] using hm
  | detaching =>
    simp only [WinLoop.go, HTable.get_close_if] at hp
    by_cases e : h = process
    · rw [if_pos e] at hp; exact absurd rfl hp
    · rw [if_neg e] at hp
      have hm := hh.resolve_right fun e => hp e
      simp [WinLoop.owned, e] at hm

theorem winOwned_le (th : WinLoop) : th.owned.length ≤ 3 := by
  unfold WinLoop.owned
  split <;> first | simp | (rename_i h _ _; cases h <;> simp)

theorem callOwned_le {x : WCreation} (h : x.Small) : x.owned.length ≤ 4 := by
  obtain ⟨c, p, os, ph, chd⟩ := x
  cases ph <;> first | (simp [WCreation.owned]; done) | exact Nat.le_succ_of_le (h rfl)

/-- What is known of the handles of a worker, whatever workers send. -/
structure CostWin (j : Nat) (ls : List WholeWinEvent) (w : WholeWin) : Prop where
  held : ∀ h, HandleFor j ls h → ∃ x, w.calls j = some x ∧
    (h ∈ x.owned ∨ (∃ th, w.threads j = some th ∧ h ∈ th.owned) ∨ (h = x.os.hProcess ∧ x.Keeps))
  small : ∀ x, w.calls j = some x → x.Small

theorem costWin_exec {debug : Bool} {borrowed : Policy → ProcessConfig → BitVec 64 → Prop} {w w' : WholeWin} {ls : List WholeWinEvent}
    (h : NoWinWorkers w) (he : WholeWinExec debug borrowed w ls w') (j : Nat) : CostWin j ls w' := by
  induction he with
  | start =>
    refine ⟨fun n hn => ?_, fun x hx => ?_⟩
    · cases hn
    · have : w.calls j = none := h.calls.calls j
      rw [hx] at this; cases this
  | call ls w1 k c p os he1 hk hb ih =>
    by_cases e : j = k
    · subst e
      refine ⟨fun n hn => ?_, fun x hx => ?_⟩
      · rw [handleFor_made] at hn
        obtain ⟨x, hx, _⟩ := ih.held n hn
        rw [hk] at hx; cases hx
      · have : x = .make c p os := by simpa [WholeWin.made, eq_comm] using hx
        subst this
        intro hg; cases hg
    · have e1 : (w1.made k (.make c p os)).calls j = w1.calls j := by simp [WholeWin.made, e]
      refine ⟨fun n hn => ?_, fun x hx => ?_⟩
      · rw [handleFor_made] at hn
        rw [e1]; exact ih.held n hn
      · rw [e1] at hx; exact ih.small x hx
  | go ls w1 k y he1 hk hy ih =>
    by_cases e : k = j
    · subst e
      have hc := wcall_cost w1.world y hy
      have e1 : (w1.create k y).calls k = some (y.go w1.world).2 := by simp [WholeWin.create]
      have e2 : (w1.create k y).threads k = y.thread := by simp [WholeWin.create]
      have hnt : w1.threads k = none := by
        cases ht : w1.threads k with
        | none => rfl
        | some th =>
          obtain ⟨x, q, h1, h2, _⟩ := (wholeWin_base h he1).call k th ht
          rw [hk] at h1; cases h1
          rw [h2] at hy; cases hy
      refine ⟨fun n hn => ⟨_, e1, ?_⟩, fun x hx => ?_⟩
      · rw [handleFor_step, if_pos rfl] at hn
        rw [e2, (wgo_args w1.world y).2.2]
        obtain ⟨hp, hn⟩ := hn
        rcases hn with hn | hn
        · obtain ⟨x, hx, hcase⟩ := ih.held n hn
          rw [hk] at hx; cases hx
          rcases hcase with h1 | ⟨th, h1, _⟩ | ⟨h1, h2⟩
          · exact hc.held n hp (.inl h1)
          · rw [hnt] at h1; cases h1
          · exact .inr (.inr ⟨h1, hc.keeps h2⟩)
        · exact hc.held n hp (.inr hn)
      · rw [e1] at hx; cases hx
        exact hc.small (ih.small y hk)
    · have e1 : (w1.create k y).calls j = w1.calls j := by simp [WholeWin.create, Ne.symm e]
      have e2 : (w1.create k y).threads j = w1.threads j := by simp [WholeWin.create, Ne.symm e]
      refine ⟨fun n hn => ?_, fun x hx => ?_⟩
      · rw [handleFor_step, if_neg e] at hn
        rw [e1, e2]; exact ih.held n hn
      · rw [e1] at hx; exact ih.small x hx
  | recv ls w1 k th inc os he1 hk hp ih =>
    refine ⟨fun n hn => ?_, ih.small⟩
    rw [handleFor_recv] at hn
    obtain ⟨x, hx, hcase⟩ := ih.held n hn
    refine ⟨x, hx, ?_⟩
    rcases hcase with h1 | ⟨th', h1, h2⟩ | h1
    · exact .inl h1
    · refine .inr (.inl ?_)
      by_cases e : j = k
      · subst e
        rw [hk] at h1; cases h1
        exact ⟨th.receive w1.shared inc os, by simp [WholeWin.received], by rw [receive_owned th _ _ _ hp]; exact h2⟩
      · exact ⟨th', by simpa [WholeWin.received, e] using h1, h2⟩
    · exact .inr (.inr h1)
  | serve ls w1 k th he1 hk hf ih =>
    refine ⟨fun n hn => ?_, ih.small⟩
    rw [handleFor_serve] at hn
    by_cases e : k = j
    · subst e
      rw [if_pos rfl] at hn
      obtain ⟨hp, hn⟩ := hn
      have e2 : (w1.served k (th.go debug w1.shared)).threads k = some (th.go debug w1.shared).2 := by simp [WholeWin.served]
      obtain ⟨x, q, h1, h2, _⟩ := (wholeWin_base h he1).call k th hk
      refine ⟨x, h1, ?_⟩
      rcases hn with hn | hn
      · obtain ⟨y, hy, hcase⟩ := ih.held n hn
        rw [h1] at hy; cases hy
        rcases hcase with g1 | ⟨th', g1, g2⟩ | g1
        · rw [WCreation.owned, h2] at g1; cases g1
        · rw [hk] at g1; cases g1
          exact .inr (.inl ⟨_, e2, winLoop_cost debug _ th n hp (.inl g2)⟩)
        · exact .inr (.inr g1)
      · exact .inr (.inl ⟨_, e2, winLoop_cost debug _ th n hp (.inr hn)⟩)
    · rw [if_neg e] at hn
      have e2 : (w1.served k (th.go debug w1.shared)).threads j = w1.threads j := by simp [WholeWin.served, Ne.symm e]
      rw [e2]
      exact ih.held n hn
  | other ls w1 w2 workers he1 ho ht ih => exact ⟨ih.held, ih.small⟩

/-- How many steps a thread can be from waiting, or from its end. -/
def WinLoopPhase.rank : WinLoopPhase → Nat
  | .greeting | .idle | .gone => 0
  | .detaching => 1
  | .leaving => 2
  | .dropping _ _ => 3
  | .writing _ _ _ _ => 4
  | .giving _ _ _ => 5
  | .received _ _ _ => 6

theorem winRank_go (debug : Bool) (s : WinShared) (th : WinLoop) :
    (th.go debug s).2.phase.rank ≤ th.phase.rank - 1 := by
  obtain ⟨pol, pipe, process, ph, tr, ends⟩ := th
  cases ph with
  | writing os resp k g =>
    simp only [WinLoop.go]
    repeat' split
    all_goals cases k <;> simp [WinLoop.at, afterSend, WinLoopPhase.rank]
  | dropping k next => cases next <;> simp [WinLoop.go, WinLoop.at, WinLoopPhase.rank]
  | received first inc os =>
    simp only [WinLoop.go]
    repeat' split
    all_goals first
      | (simp [WinLoop.at, WinLoopPhase.rank]; done)
      | (rename_i x _; cases x.handle <;> simp [WinLoopPhase.rank])
  | _ =>
    simp only [WinLoop.go]
    repeat' split
    all_goals simp [WinLoop.at, WinLoopPhase.rank]

theorem winGo_greeting (debug : Bool) (s : WinShared) (th : WinLoop) (h : th.phase ≠ .greeting) :
    (th.go debug s).2.phase ≠ .greeting := by
  obtain ⟨pol, pipe, process, ph, tr, ends⟩ := th
  cases ph with
  | greeting => exact absurd rfl h
  | writing os resp k g =>
    simp only [WinLoop.go]
    repeat' split
    all_goals cases k <;> simp [WinLoop.at, afterSend]
  | dropping k next => cases next <;> simp [WinLoop.go, WinLoop.at]
  | received first inc os =>
    simp only [WinLoop.go]
    repeat' split
    all_goals first
      | (simp [WinLoop.at]; done)
      | (rename_i x _; cases x.handle <;> simp)
  | _ =>
    simp only [WinLoop.go]
    repeat' split
    all_goals simp [WinLoop.at]

end Iris
