import Verif.Lemmas.Children
import Verif.Lemmas.WorkerNew
import Verif.Props.Process
/-! # C149: the processes a Linux broker has created -/
namespace Iris
open Spec

/-- The number in a `Worker` is that of the process created. -/
theorem C149_number (c : NewCall) (pid : Nat) (s : Broker) (h : c.run.result = .ok (pid, s)) :
    ∃ ch, c.run.child = some ch ∧ ch.pid = pid := by
  cases hch : c.run.child with
  | none =>
    exfalso
    simp only [NewCall.run] at h hch
    rw [workerNew_eq] at h hch
    split at h
    · cases h
    · rename_i a b hs
      simp only [hs] at hch
      split at h
      · cases h
      · rename_i p' c' hp
        simp only [hp] at hch
        split at h
        · cases h
        · rename_i pid' hr
          simp only [hr] at hch
          have hn : (newProcess p' c' (chanTable c.table a b) c.caps c.os.proc).child = none := by
            revert hch
            split <;> exact id
          obtain ⟨e, he⟩ := newProcess_no_child hn
          rw [he] at hr
          cases hr
  | some ch =>
    refine ⟨ch, rfl, ?_⟩
    obtain ⟨a, b, r, w, p', hc, h1, h2⟩ := workerNew_child (h := hch)
    simp only [NewCall.run] at h
    cases hr : readErrno c.os.proc w ch.pid ch.ending with
    | error e => rw [h1 e hr] at h; cases h
    | ok pid' =>
      have hp : pid' = ch.pid := by
        unfold readErrno at hr
        split at hr
        · cases hr; rfl
        · simp only at hr
          split at hr
          · cases hr
          · cases hr; rfl
      subst hp
      rw [h2 hr] at h
      split at h
      · cases h
      · cases h; rfl

/-- A call of `Worker::new` changes nothing for the children the broker already has, and adds at most one: the process it created, if
it got that far. -/
theorem C149_adds (k : Kids) (c : NewCall) (hf : ∀ ch, c.run.child = some ch → ¬ IsChild k ch.pid) :
    (∀ x ∈ k.list, (∀ y ∈ k.list, y.pid = x.pid → y = x) → x ∈ (k.step (.create c)).list) ∧
    ∀ pid, IsChild (k.step (.create c)) pid ↔ IsChild k pid ∨ ∃ ch, c.run.child = some ch ∧ ch.pid = pid := by
  refine ⟨fun x hx hy => (create_at ⟨hx, hy⟩ hf).1, fun pid => ⟨create_others, ?_⟩⟩
  rintro (⟨x, hx, rfl⟩ | ⟨ch, hch, rfl⟩)
  · cases hch : c.run.child with
    | none => simp only [Kids.step, hch, Kids.create]; exact ⟨x, hx, rfl⟩
    | some ch =>
      have hne : ch.pid ≠ x.pid := fun hc => hf ch hch ⟨x, hx, hc.symm⟩
      have hmem : x ∈ (k.clone (cloneFlags c.os.proc) ch.pid).list := List.mem_cons_of_mem _ hx
      refine ⟨x, ?_, rfl⟩
      simp only [Kids.step, hch, Kids.create]
      split
      · exact List.mem_map.2 ⟨x, hmem, if_neg fun hc => hne hc.1.symm⟩
      · exact List.mem_filterMap.2 ⟨x, hmem, if_neg fun hc => hne hc.1.symm⟩
      · exact List.mem_filterMap.2 ⟨x, hmem, if_neg fun hc => hne hc.1.symm⟩
  · simp only [Kids.step, hch]
    cases he : endStatus ch.ending with
    | some st => exact at_isChild (create_ended (hf ch hch) he)
    | none =>
      cases hs : ch.ending with
      | started img => exact at_isChild (create_started (hf ch hch) hs)
      | execFailed e w => rw [hs] at he; cases he
      | gaveUp => rw [hs] at he; cases he

/-- A program that was started is a child of the broker like any other: it runs until it ends by itself, whatever workers are created or
dropped meanwhile; no `waitpid` says before that it has ended, and one for its number goes on waiting. When it ends
with status `st`, it is gone at once if the program ignores SIGCHLD. If not, it stays until `waitpid` has told its
status, once. -/
theorem C149_waited (k : Kids) (c : NewCall) (ch : Child) (img : Image) (l1 l2 : List KidEvent) (st : Nat)
    (flags : BitVec 32) (hch : c.run.child = some ch) (hs : ch.ending = .started img)
    (hf : FreshNumbers k (.create c :: l1 ++ .ended ch.pid st :: l2)) (hl : ∀ st, .ended ch.pid st ∉ l1)
    (h30 : flags.getLsbD 30 = false) (h31 : flags.getLsbD 31 = false) :
    let k1 := (k.step (.create c)).run l1
    let k2 := k1.step (.ended ch.pid st)
    RunsProgram k1 ch.pid ∧ NotCollected ch.pid (k.step (.create c)) l1 ∧ k1.wait (some ch.pid) flags = (.notYet, k1) ∧
    (k1.ignores = true → ¬ IsChild k2 ch.pid ∧ k2.wait (some ch.pid) flags = (.failed 10, k2)) ∧
    (k1.ignores = false → NotCollected ch.pid k2 l2 →
      let k3 := (k2.run l2).wait (some ch.pid) flags
      k3.1 = .child ch.pid st ∧ ¬ IsChild k3.2 ch.pid ∧ k3.2.wait (some ch.pid) flags = (.failed 10, k3.2)) := by
  have fresh_append : ∀ (l : List KidEvent) (l' : List KidEvent) (k : Kids), FreshNumbers k (l ++ l') →
      FreshNumbers k l ∧ FreshNumbers (k.run l) l' := by
    intro l
    induction l with
    | nil => exact fun l' k h => ⟨trivial, h⟩
    | cons e l ih =>
      intro l' k h
      obtain ⟨h1, h2⟩ := ih l' (k.step e) h.2
      exact ⟨⟨h.1, h1⟩, h2⟩
  have gone : ∀ (k : Kids), ¬ IsChild k ch.pid → k.wait (some ch.pid) flags = (.failed 10, k) := by
    intro k hk
    have hn : ∀ x ∈ k.list, x.eligible (some ch.pid) flags = false := by
      intro x hx
      cases hb : x.eligible (some ch.pid) flags with
      | false => rfl
      | true =>
        have := ((eligible_usual x _ h30 h31).1 hb).1
        simp only [reduceCtorEq, Option.some.injEq, false_or] at this
        exact absurd ⟨x, hx, this.symm⟩ hk
    have hr : k.ready (some ch.pid) flags = none := by
      simp only [Kids.ready, List.find?_eq_none]
      intro x hx
      rw [hn x hx]
      simp
    have ha : (k.list.any fun x => x.eligible (some ch.pid) flags) = false := by
      simp only [List.any_eq_false]
      intro x hx
      rw [hn x hx]
      simp
    simp only [Kids.wait, hr, ha]
    rfl
  obtain ⟨hf1, hf2⟩ := hf
  obtain ⟨hfl, hfr⟩ := fresh_append l1 _ _ hf2
  have h0 : KidAt (k.step (.create c)) ⟨ch.pid, SIGCHLD, true, none⟩ := by
    simp only [Kids.step, hch]
    exact create_started (hf1 c ch rfl hch) hs
  have hnc := running_notCollected rfl l1 h0 hfl hl
  have h1 := run_at l1 h0 hfl (fun _ => hl) hnc
  intro k1 k2
  have helig : ∀ x : Kid, x.pid = ch.pid → x.exitSignal = SIGCHLD → x.eligible (some ch.pid) flags = true :=
    fun x hp hs => (eligible_usual x _ h30 h31).2 ⟨.inr (by rw [hp]), hs⟩
  refine ⟨⟨_, h1.1, rfl, rfl, rfl⟩, hnc, ?_, ?_, ?_⟩
  · have hr : k1.ready (some ch.pid) flags = none := by
      cases hr : k1.ready (some ch.pid) flags with
      | none => rfl
      | some y =>
        exfalso
        obtain ⟨hy1, hy2, hy3⟩ := ready_some hr
        have := ((eligible_usual y _ h30 h31).1 hy2).1
        simp only [reduceCtorEq, Option.some.injEq, false_or] at this
        have := h1.2 y hy1 this.symm
        subst this
        exact hy3 rfl
    have ha : (k1.list.any fun x => x.eligible (some ch.pid) flags) = true :=
      List.any_eq_true.2 ⟨_, h1.1, helig _ rfl rfl⟩
    simp only [Kids.wait, hr, ha]
    rfl
  · intro hi
    have hg : ¬ IsChild k2 ch.pid := by
      rintro ⟨y, hy, hyp⟩
      simp only [k2, Kids.step, Kids.exit, List.mem_filterMap] at hy
      obtain ⟨z, hz, hzy⟩ := hy
      have hzp : z.pid = ch.pid := by
        split at hzy
        · rename_i hc; exact hc.1
        · cases hzy; exact hyp
      have := h1.2 z hz hzp
      subst this
      rw [if_pos ⟨rfl, rfl⟩, if_pos ⟨rfl, hi⟩] at hzy
      cases hzy
    exact ⟨hg, gone _ hg⟩
  · intro hi hn2
    have h2 : KidAt k2 ⟨ch.pid, SIGCHLD, true, some st⟩ := by
      refine ⟨?_, ?_⟩
      · simp only [k2, Kids.step, Kids.exit, List.mem_filterMap]
        exact ⟨_, h1.1, by rw [if_pos ⟨rfl, rfl⟩, if_neg (fun hc => by rw [hi] at hc; exact absurd hc.2 (by simp))]⟩
      · intro y hy hyp
        simp only [k2, Kids.step, Kids.exit, List.mem_filterMap] at hy
        obtain ⟨z, hz, hzy⟩ := hy
        have hzp : z.pid = ch.pid := by
          split at hzy
          · rename_i hc; exact hc.1
          · cases hzy; exact hyp
        have := h1.2 z hz hzp
        subst this
        rw [if_pos ⟨rfl, rfl⟩, if_neg (fun hc => by rw [hi] at hc; exact absurd hc.2 (by simp))] at hzy
        exact (Option.some.inj hzy).symm
    have h3 := run_at l2 h2 hfr.2 (fun hc => by cases hc) hn2
    have hr : (k2.run l2).ready (some ch.pid) flags = some ⟨ch.pid, SIGCHLD, true, some st⟩ := by
      cases hr : (k2.run l2).ready (some ch.pid) flags with
      | none =>
        exfalso
        simp only [Kids.ready, List.find?_eq_none] at hr
        have := hr _ h3.1
        rw [helig _ rfl rfl] at this
        simp at this
      | some y =>
        obtain ⟨hy1, hy2, hy3⟩ := ready_some hr
        have := ((eligible_usual y _ h30 h31).1 hy2).1
        simp only [reduceCtorEq, Option.some.injEq, false_or] at this
        rw [h3.2 y hy1 this.symm]
    intro k3
    have hk3 : k3 = (.child ch.pid st, { (k2.run l2) with list := (k2.run l2).list.filter fun y => y.pid ≠ ch.pid }) := by
      simp only [k3, Kids.wait, hr, Option.getD_some]
    have hg : ¬ IsChild k3.2 ch.pid := by
      rw [hk3]
      rintro ⟨y, hy, hyp⟩
      have := (List.mem_filter.1 hy).2
      simp [hyp] at this
    exact ⟨by rw [hk3], hg, gone _ hg⟩

/-- C149 is false: a process that could not execute its program, or gave up before, is never waited for by the broker, and `waitpid` as
one uses it for children does not see it, nor does it go away if SIGCHLD is ignored. For `clone` is given
no exit signal. It is there for as long as the broker runs. -/
theorem C149_violated_stays (k : Kids) (c : NewCall) (ch : Child) (l : List KidEvent) (hch : c.run.child = some ch)
    (hs : ∀ img, ch.ending ≠ .started img) (hf : FreshNumbers k (.create c :: l)) (hw : WaitsAsUsual l) :
    let k0 := k.step (.create c)
    NotCollected ch.pid k0 l ∧ IsChild (k0.run l) ch.pid ∧ ¬ RunsProgram (k0.run l) ch.pid ∧
    ∀ flags : BitVec 32, flags.getLsbD 30 = false → flags.getLsbD 31 = false →
      ((k0.run l).wait (some ch.pid) flags).1 = .failed 10 := by
  obtain ⟨st, hst⟩ : ∃ st, endStatus ch.ending = some st := by
    cases he : ch.ending with
    | started img => exact absurd he (hs img)
    | execFailed e w => exact ⟨_, rfl⟩
    | gaveUp => exact ⟨_, rfl⟩
  have h0 : KidAt (k.step (.create c)) ⟨ch.pid, 0#32, false, some st⟩ := by
    simp only [Kids.step, hch]
    exact create_ended (hf.1 c ch rfl hch) hst
  have hsig : (⟨ch.pid, 0#32, false, some st⟩ : Kid).exitSignal ≠ SIGCHLD := by show (0#32) ≠ SIGCHLD; decide
  have hnc := clone_notCollected hsig (by simp) l h0 hf.2 hw
  have h1 := run_at l h0 hf.2 (fun hc => by cases hc) hnc
  refine ⟨hnc, at_isChild h1, ?_, ?_⟩
  · rintro ⟨y, hy, hyp, hprog, _⟩
    rw [h1.2 y hy hyp] at hprog
    cases hprog
  · intro flags h30 h31
    have hn : ∀ x ∈ ((k.step (.create c)).run l).list, x.eligible (some ch.pid) flags = false := by
      intro x hx
      cases hb : x.eligible (some ch.pid) flags with
      | false => rfl
      | true =>
        exfalso
        obtain ⟨hb1, hb2⟩ := (eligible_usual x _ h30 h31).1 hb
        simp only [reduceCtorEq, Option.some.injEq, false_or] at hb1
        rw [h1.2 x hx hb1.symm] at hb2
        exact absurd hb2 (by show ¬ (0#32) = SIGCHLD; decide)
    have hr : ((k.step (.create c)).run l).ready (some ch.pid) flags = none := by
      simp only [Kids.ready, List.find?_eq_none]
      intro x hx
      rw [hn x hx]
      simp
    have ha : (((k.step (.create c)).run l).list.any fun x => x.eligible (some ch.pid) flags) = false := by
      simp only [List.any_eq_false]
      intro x hx
      rw [hn x hx]
      simp
    simp only [Kids.wait, hr, ha]
    rfl

/-- They pile up: after any number of calls each of them is a process more. -/
theorem C149_violated_piles_up (k : Kids) (l : List KidEvent) (hf : FreshNumbers k l) (hw : WaitsAsUsual l) :
    (neverStarted l).Nodup ∧ (∀ pid ∈ neverStarted l, IsChild (k.run l) pid) ∧
    (neverStarted l).length ≤ (k.run l).list.length := by
  have key : ∀ (l : List KidEvent) (k : Kids), FreshNumbers k l → WaitsAsUsual l →
      (neverStarted l).Nodup ∧ (∀ pid ∈ neverStarted l, IsChild (k.run l) pid) ∧
      ∀ x, KidAt k x → x.exitSignal ≠ SIGCHLD → x.ended ≠ none → x.pid ∉ neverStarted l := by
    intro l
    induction l with
    | nil => exact fun k _ _ => ⟨List.nodup_nil, by simp [neverStarted], by simp [neverStarted]⟩
    | cons e l ih =>
      intro k hf hw
      have hw' : WaitsAsUsual l := fun w f hm => hw w f (List.mem_cons_of_mem _ hm)
      obtain ⟨i1, i2, i3⟩ := ih (k.step e) hf.2 hw'
      have hkeep : ∀ x, KidAt k x → x.exitSignal ≠ SIGCHLD → x.ended ≠ none → KidAt (k.step e) x := by
        intro x hx h1 h2
        refine step_at hx e hf.1 (fun _ _ => h2) ?_
        exact (clone_notCollected h1 h2 (e :: l) hx hf hw).1
      cases e with
      | create c =>
        have hnew : ∀ ch st, c.run.child = some ch → endStatus ch.ending = some st →
            KidAt (k.step (.create c)) ⟨ch.pid, 0#32, false, some st⟩ ∧
            (∀ img, ch.ending ≠ .started img) := by
          intro ch st hch hst
          refine ⟨?_, fun img hc => by rw [hc] at hst; cases hst⟩
          simp only [Kids.step, hch]
          exact create_ended (hf.1 c ch rfl hch) hst
        have hadd : ∀ ch st, c.run.child = some ch → endStatus ch.ending = some st →
            (ch.pid :: neverStarted l).Nodup ∧
            (∀ pid ∈ ch.pid :: neverStarted l, IsChild (k.run (.create c :: l)) pid) ∧
            ∀ x, KidAt k x → x.exitSignal ≠ SIGCHLD → x.ended ≠ none → x.pid ∉ ch.pid :: neverStarted l := by
          intro ch st hch hst
          obtain ⟨hat, hns⟩ := hnew ch st hch hst
          refine ⟨List.nodup_cons.2 ⟨i3 _ hat (by show (0#32) ≠ SIGCHLD; decide) (by simp), i1⟩, ?_, ?_⟩
          · intro pid hp
            rcases List.mem_cons.1 hp with rfl | hp
            · exact (C149_violated_stays k c ch l hch hns hf hw').2.1
            · exact i2 pid hp
          · intro x hx h1 h2 hm
            rcases List.mem_cons.1 hm with hc | hm
            · exact hf.1 c ch rfl hch (hc ▸ at_isChild hx)
            · exact i3 x (hkeep x hx h1 h2) h1 h2 hm
        simp only [neverStarted]
        split
        · rename_i pid ns e w hch
          exact hadd _ _ hch rfl
        · rename_i pid ns hch
          exact hadd _ _ hch rfl
        · exact ⟨i1, i2, fun x hx h1 h2 => i3 x (hkeep x hx h1 h2) h1 h2⟩
      | freed pid => exact ⟨i1, i2, fun x hx h1 h2 => i3 x (hkeep x hx h1 h2) h1 h2⟩
      | ended pid st => exact ⟨i1, i2, fun x hx h1 h2 => i3 x (hkeep x hx h1 h2) h1 h2⟩
      | wait w f => exact ⟨i1, i2, fun x hx h1 h2 => i3 x (hkeep x hx h1 h2) h1 h2⟩
      | ignore b => exact ⟨i1, i2, fun x hx h1 h2 => i3 x (hkeep x hx h1 h2) h1 h2⟩
  obtain ⟨h1, h2, _⟩ := key l k hf hw
  refine ⟨h1, h2, ?_⟩
  have hsub : ∀ pid ∈ neverStarted l, pid ∈ (k.run l).list.map Kid.pid := by
    intro pid hp
    obtain ⟨x, hx, hxp⟩ := h2 pid hp
    exact List.mem_map.2 ⟨x, hx, hxp⟩
  have := List.Nodup.length_le_of_subset h1 hsub
  simpa using this

/-- The program of a creation that fails after it was started goes on running, for as long as it likes, though nobody serves it and
the caller is not told its number. -/
theorem C149_violated_runs_on (k : Kids) (c : NewCall) (ch : Child) (img : Image) (e : BrokerError) (l : List KidEvent)
    (_he : c.run.result = .error e) (hch : c.run.child = some ch) (hs : ch.ending = .started img)
    (hf : FreshNumbers k (.create c :: l)) (hl : ∀ st, .ended ch.pid st ∉ l) :
    RunsProgram ((k.step (.create c)).run l) ch.pid := by
  have h0 : KidAt (k.step (.create c)) ⟨ch.pid, SIGCHLD, true, none⟩ := by
    simp only [Kids.step, hch]
    exact create_started (hf.1 c ch rfl hch) hs
  have h1 := run_at l h0 hf.2 (fun _ => hl) (running_notCollected rfl l h0 hf.2 hl)
  exact ⟨_, h1.1, rfl, rfl, rfl⟩

/-- A creation that works, with a program which runs. -/
def kidCall : NewCall := ⟨.lp64, brokerTable, fullCaps, someConfig, tmpPolicy, goodOs⟩

/-- The program does not exist (ENOENT). -/
def missingProgram : NewCall :=
  let entry := { goodEntry with execve := some 2 }
  let proc := { goodOs.proc with clone2 := .ok 5000, entry := entry }
  { kidCall with os := { goodOs with proc := proc, first := .eof } }

/-- The program does not introduce itself: it sends something else. -/
def rudeProgram : NewCall :=
  { kidCall with os := { goodOs with proc := { goodOs.proc with clone2 := .ok 6000 }, first := .datagram ⟨[7, 7], []⟩ } }

/-- C149 is false: a program that does not exist leaves a process behind, and so does one that starts but does not
introduce itself. -/
theorem C149_violated : ¬ NothingLeft ∧
    missingProgram.run.result = .error (.internalOsOperationFailed c!"execve()" 2) ∧
    (missingProgram.run.child.map fun ch => decide (ch.ending ≠ .gaveUp) && (endStatus ch.ending).isSome) = some true ∧
    rudeProgram.run.result = .error .workerCommunicationError ∧
    (rudeProgram.run.child.map fun ch => (endStatus ch.ending).isNone) = some true := by
  refine ⟨?_, by decide +kernel, by decide +kernel, by decide +kernel, by decide +kernel⟩
  intro h
  have hch : missingProgram.run.child.map Child.pid = some 5000 := by decide +kernel
  obtain ⟨ch, hc, hp⟩ := Option.map_eq_some_iff.1 hch
  have hf : ∀ ch, missingProgram.run.child = some ch → ¬ IsChild ⟨[], false⟩ ch.pid := by
    rintro ch - ⟨x, hx, -⟩
    cases hx
  have hr : missingProgram.run.result = .error (.internalOsOperationFailed c!"execve()" 2) := by decide +kernel
  obtain ⟨x, hx, -⟩ := h ⟨[], false⟩ missingProgram _ hf hr ch.pid (((C149_adds _ _ hf).2 _).2 (.inr ⟨ch, hc, rfl⟩))
  cases hx

/-- A history: a worker is created and runs, another program does not exist, a third one is rude. The first ends with status 3 and is waited
for; of the second, nothing is ever seen but that it is still there. -/
def kidHistory : List KidEvent :=
  [.create kidCall, .create missingProgram, .freed 4321, .create rudeProgram, .wait none 1#32, .ended 4321 768,
    .wait none 1#32, .wait none 1#32, .ignore true]

example : (Kids.run ⟨[], false⟩ kidHistory) =
    ⟨[⟨6000, SIGCHLD, true, none⟩, ⟨5000, 0#32, false, some 512⟩], true⟩ := by decide +kernel

example : ((Kids.run ⟨[], false⟩ (kidHistory.take 4)).wait none 1#32).1 = .notYet ∧
    ((Kids.run ⟨[], false⟩ (kidHistory.take 6)).wait none 1#32).1 = .child 4321 768 ∧
    ((Kids.run ⟨[], false⟩ kidHistory).wait none 1#32).1 = .notYet ∧
    ((Kids.run ⟨[], false⟩ kidHistory).wait (some 5000) 0#32).1 = .failed 10 ∧
    ((Kids.run ⟨[], false⟩ kidHistory).wait none 0x40000000#32).1 = .child 5000 512 := by decide +kernel

example : WaitsAsUsual kidHistory ∧ neverStarted kidHistory = [5000] := by
  refine ⟨?_, by decide +kernel⟩
  intro which flags hm
  simp only [kidHistory, List.mem_cons, reduceCtorEq, KidEvent.wait.injEq, List.not_mem_nil, false_or, or_false] at hm
  rcases hm with ⟨-, rfl⟩ | ⟨-, rfl⟩ | ⟨-, rfl⟩ <;> decide

/-- The numbers are new ones. -/
example : FreshNumbers ⟨[], false⟩ kidHistory := by
  have n1 : kidCall.run.child.map Child.pid = some 4321 := by decide +kernel
  have n2 : missingProgram.run.child.map Child.pid = some 5000 := by decide +kernel
  have n3 : rudeProgram.run.child.map Child.pid = some 6000 := by decide +kernel
  have pick : ∀ (k : Kids) (c0 : NewCall) (n : Nat), c0.run.child.map Child.pid = some n → (k.list.all fun x => x.pid ≠ n) = true →
      ∀ c ch, KidEvent.create c0 = .create c → c.run.child = some ch → ¬ IsChild k ch.pid := by
    intro k c0 n hn ha c ch hc hch
    cases hc
    rw [hch] at hn
    cases hn
    rintro ⟨x, hx, hxp⟩
    have := List.all_eq_true.1 ha x hx
    simp [hxp] at this
  refine ⟨pick _ _ _ n1 (by decide +kernel), pick _ _ _ n2 (by decide +kernel), (fun _ _ hc => by cases hc),
    pick _ _ _ n3 (by decide +kernel), (fun _ _ hc => by cases hc), (fun _ _ hc => by cases hc),
    (fun _ _ hc => by cases hc), (fun _ _ hc => by cases hc), (fun _ _ hc => by cases hc), trivial⟩

end Iris
