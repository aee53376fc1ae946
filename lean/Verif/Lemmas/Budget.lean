import Verif.Lemmas.WholeBroker
import Verif.Props.Creators
/-! # Lemmas for C144: how many descriptors a worker costs, and how many steps -/
namespace Iris
open Spec

/-- How many descriptors may come with a message without ever being closed. -/
def Abi.extra (abi : Abi) : Nat := maxFds abi (CMSG_SIZE abi) - 1

theorem extra_le (abi : Abi) : abi.extra ≤ 1 := by cases abi <;> decide

theorem maxFds_eq (abi : Abi) : maxFds abi (CMSG_SIZE abi) = abi.extra + 1 := by cases abi <;> decide

/-- The descriptors that came with a message, in a thread which has just received it. -/
def Loop.arrived (th : Loop) : List Nat :=
  match th.phase with
  | .received _ (.ok r) => r.cmsgs.flatMap (·.fds)
  | _ => []

def CreatePhase.arrived : CreatePhase → List Nat
  | .greeted _ _ _ (.ok r) => r.cmsgs.flatMap (·.fds)
  | _ => []

/-- Threads which are about to end. -/
def LoopPhase.dying : LoopPhase → Bool
  | .closing _ next => decide (next ≠ .running)
  | .leaving _ | .gone _ => true
  | _ => false

def CreatePhase.dying : CreatePhase → Bool
  | .failing _ _ | .failed _ => true
  | _ => false

theorem startRecv_arrived (abi : Abi) (t : FdTable) (os : OsChoice) (inc : Incoming) (r : RecvMsg)
    (h : (startRecv abi t os inc).2 = .ok r) : (r.cmsgs.flatMap (·.fds)).length ≤ abi.extra + 1 := by
  cases inc with
  | error e => cases h
  | eof => cases h; exact Nat.zero_le _
  | datagram d =>
    cases h
    have h2 := (installAll_spec (d.files.take (min os.canInstall (maxFds abi (CMSG_SIZE abi)))) t).2.1
    simp only [sysRecvmsg, rights_fds, h2, List.length_take, ← maxFds_eq]
    omega

theorem receive_arrived (abi : Abi) (t : FdTable) (th : Loop) (inc : Incoming) (os : OsChoice) :
    (th.receive abi t inc os).2.arrived.length ≤ abi.extra + 1 := by
  simp only [Loop.arrived, Loop.receive]
  split
  · rename_i os' r h
    cases h' : (startRecv abi t os inc).2 with
    | error e => rw [h'] at h; cases h
    | ok r' =>
      rw [h'] at h
      cases h
      exact startRecv_arrived abi t os inc r h'
  · exact Nat.zero_le _

/-- What a thread leaves open and forgets in a step. -/
theorem loop_lost [Target] (abi : Abi) (t : FdTable) (th : Loop) (hn : th.owned.Nodup) (hwf : th.Wf)
    (hp : ∀ fd ∈ th.owned, t.get fd ≠ none) (hw : t.WF) :
    (∀ fd ∈ th.owned, (th.go abi t).1.get fd ≠ none → fd ∈ (th.go abi t).2.owned ++ th.arrived.drop 1) ∧
    (th.arrived.drop 1 ≠ [] → (th.go abi t).2.phase.dying = true) ∧ (th.go abi t).2.arrived = [] ∧
    (th.phase.dying = true → (th.go abi t).2.phase.dying = true) := by
  by_cases hr : ∃ os r, th.phase = .received os (.ok r)
  · obtain ⟨os, r, hr⟩ := hr
    obtain ⟨p, chan, phase, trace, socks⟩ := th
    cases hr
    obtain ⟨fds, hfds⟩ := hwf os r rfl
    have hown : Loop.owned ⟨p, chan, .received os (.ok r), trace, socks⟩ = chan :: fds := by
      simp only [Loop.owned, hfds, rights_fds]
    have harr : Loop.arrived ⟨p, chan, .received os (.ok r), trace, socks⟩ = fds := by
      simp only [Loop.arrived, hfds, rights_fds]
    have hzero : ∀ x tr so, Loop.arrived ⟨p, chan, afterRecv os x, tr, so⟩ = [] := by
      intro x tr so
      unfold afterRecv
      split <;> rfl
    rw [hown, harr]
    simp only [Loop.go]
    refine ⟨?_, ?_, hzero _ _ _, fun h => by cases h⟩
    · rcases recvFinish_table decRequest t r fds hfds with ⟨m, he⟩ | ⟨h1, h2⟩
      · rw [he]
        intro fd hfd _
        cases fds with
        | nil => simpa [Loop.owned, afterRecv] using hfd
        | cons n rest => simpa [Loop.owned, afterRecv] using hfd
      · rw [h1]
        intro fd hfd h'
        cases fds with
        | nil => 
          simp only [List.mem_cons, List.not_mem_nil, or_false] at hfd
          subst hfd
          unfold afterRecv Loop.owned
          split <;> simp_all
        | cons n rest =>
          simp only [List.mem_cons] at hfd
          rcases hfd with e | e | e
          · subst e
            apply List.mem_append_left
            unfold afterRecv Loop.owned
            split <;> simp_all
          · subst e
            exact absurd (by simp [dropHandle, FdTable.get_erase]) h'
          · exact List.mem_append_right _ (by simpa using e)
    · intro hne
      rcases recvFinish_table decRequest t r fds hfds with ⟨m, he⟩ | ⟨h1, h2⟩
      · rw [he]
        cases fds with
        | nil => exact absurd rfl hne
        | cons n rest => rfl
      · generalize (recvFinish decRequest t r).2 = x at h2
        unfold afterRecv
        split
        · exact absurd rfl (h2 _ _)
        · exact absurd rfl (h2 _ _)
        · rfl
  · have harr : th.arrived = [] := by
      unfold Loop.arrived
      split
      · rename_i os r h; exact absurd ⟨os, r, h⟩ hr
      · rfl
    have hc : th.came ≤ 1 := by
      unfold Loop.came
      split
      · rename_i os r h; exact absurd ⟨os, r, h⟩ hr
      · exact Nat.zero_le _
    obtain ⟨_, h2, h3⟩ := go_moves abi t th hn hwf hp hw
    rw [harr]
    refine ⟨fun fd h h' => List.mem_append_left _ (h2 hc fd h h'), fun h => absurd rfl h, ?_, ?_⟩
    · unfold Loop.came at h3
      unfold Loop.arrived
      split
      · rename_i os r h
        rw [h] at h3
        exact List.eq_nil_of_length_eq_zero h3
      · rfl
    · obtain ⟨p, chan, phase, trace, socks⟩ := th
      intro hd
      cases phase <;> simp only [LoopPhase.dying, Bool.false_eq_true] at hd
      · rename_i h next
        simp only [decide_eq_true_eq] at hd
        simp [Loop.go, LoopPhase.dying, hd]
      · rfl
      · rfl

/-- The number of steps a thread needs, at most, to be at rest. -/
def LoopPhase.rank : LoopPhase → Nat
  | .idle | .gone _ => 0
  | .leaving _ => 1
  | .closing _ _ => 2
  | .replying _ _ _ => 3
  | .serving _ _ => 4
  | .received _ _ => 5

theorem rank_go [Target] (abi : Abi) (t : FdTable) (th : Loop) : (th.go abi t).2.phase.rank ≤ th.phase.rank - 1 := by
  obtain ⟨p, chan, phase, trace, socks⟩ := th
  cases phase with
  | idle => exact Nat.le_refl 0
  | gone why => exact Nat.le_refl 0
  | leaving why => exact Nat.le_refl 0
  | closing h next => by_cases hx : next = .running <;> simp [Loop.go, LoopPhase.rank, hx]
  | replying os resp h => simp only [Loop.go]; split <;> exact Nat.le_refl 2
  | serving os m =>
    simp only [Loop.go]
    split
    · show 1 ≤ 3; omega
    · exact Nat.le_refl 3
  | received os r =>
    cases r with
    | error e => show 1 ≤ 4; omega
    | ok r =>
      simp only [Loop.go]
      unfold afterRecv
      split <;> simp [LoopPhase.rank]

theorem rank_rest {th : Loop} (h : th.phase.rank = 0) : AtRest th := by
  unfold AtRest
  cases hp : th.phase <;> rw [hp] at h <;> first | exact .inl rfl | exact .inr ⟨_, rfl⟩ | cases h

/-- The call with an empty first message, which does not matter but to `recvmsg`. -/
def Creation.quiet (x : Creation) : Creation := { x with os := { x.os with first := .eof } }

theorem go_quiet (abi : Abi) (t : FdTable) (x : Creation) (h : ∀ m p pid, x.phase ≠ .greeting m p pid) :
    x.quiet.go abi t = ((x.go abi t).1, (x.go abi t).2.quiet) := by
  obtain ⟨c, p, caps, os, ph, chd⟩ := x
  cases ph with
  | greeting m p' pid => exact absurd rfl (h m p' pid)
  | checking e p' left =>
    cases left with
    | nil => rfl
    | cons fd left => simp only [Creation.go, Creation.quiet]; split <;> rfl
  | failing err left => cases left <;> rfl
  | greeted m p' pid r => cases r <;> rfl
  | _ => first | rfl | (simp only [Creation.go, Creation.quiet]; split <;> rfl)

theorem quiet_ok {t : FdTable} {x : Creation} (h : PhaseOk t x) (ha : x.phase.arrived = []) : PhaseOk t x.quiet := by
  obtain ⟨c, p, caps, os, ph, chd⟩ := x
  cases ph with
  | greeted m p' pid r =>
    refine ⟨h.1, h.2.1, fun r' e => ?_⟩
    obtain ⟨fds, h1, h2⟩ := h.2.2 r' e
    refine ⟨fds, h1, ?_⟩
    cases e
    have : fds = [] := by simpa [CreatePhase.arrived, h1, rights_fds] using ha
    rw [this]
    exact Nat.zero_le _
  | _ => exact h

/-- What a call leaves open and forgets in a step. -/
theorem call_lost (abi : Abi) (t : FdTable) (x : Creation) (hx : x.phase.over = false) (hw : t.WF)
    (hn : x.phase.owned.Nodup) (hp : ∀ fd ∈ x.phase.owned, t.get fd ≠ none) (ho : PhaseOk t x) :
    (∀ fd ∈ x.phase.owned, (x.go abi t).1.get fd ≠ none → fd ∈ (x.go abi t).2.phase.holding ++ x.phase.arrived.drop 1) ∧
    (x.phase.arrived.drop 1 ≠ [] → (x.go abi t).2.phase.dying = true) ∧
    ((x.go abi t).2.phase.arrived.length ≤ abi.extra + 1) ∧
    (x.phase.dying = true → (x.go abi t).2.phase.dying = true ∧ (x.go abi t).2.phase.owned.length ≤ x.phase.owned.length) := by
  have fail_dying : ∀ err l, (CreatePhase.fail err l).dying = true := by intro err l; cases l <;> rfl
  have fail_arrived : ∀ err l, (CreatePhase.fail err l).arrived = [] := by intro err l; cases l <;> rfl
  have hfourth : x.phase.dying = true →
      (x.go abi t).2.phase.dying = true ∧ (x.go abi t).2.phase.owned.length ≤ x.phase.owned.length := by
    intro hd
    obtain ⟨c, p, caps, os, ph, chd⟩ := x
    cases ph <;> simp only [CreatePhase.dying, Bool.false_eq_true] at hd
    · rename_i err left
      cases left with
      | nil => exact ⟨rfl, Nat.le_refl _⟩
      | cons fd left =>
        refine ⟨fail_dying _ _, ?_⟩
        show (CreatePhase.fail err left).owned.length ≤ _
        rw [fail_owned]
        exact Nat.le_succ _
    · cases hx
  refine ⟨?_, ?_, ?_, hfourth⟩
  · by_cases hg : ∃ m p' pid, x.phase = .greeting m p' pid
    · obtain ⟨m, p', pid, hg⟩ := hg
      obtain ⟨c, p, caps, os, ph, chd⟩ := x
      cases hg
      intro fd hfd _
      have : fd = m := by simpa [CreatePhase.owned] using hfd
      subst this
      simp only [Creation.go]
      apply List.mem_append_left
      cases (startRecv abi t os.osFirst os.first).2 <;> simp [CreatePhase.holding, CreatePhase.owned]
    · have hg' : ∀ m p pid, x.phase ≠ .greeting m p pid := fun m p' pid h => hg ⟨m, p', pid, h⟩
      by_cases ha : x.phase.arrived = []
      · have h := (go_ok abi t x.quiet hx hw hn hp (quiet_ok ho ha)).drops (Nat.zero_le _)
        rw [go_quiet abi t x hg'] at h
        exact fun fd h1 h2 => List.mem_append_left _ (h fd h1 h2)
      · obtain ⟨c, p, caps, os, ph, chd⟩ := x
        cases ph with
        | greeted m p' pid r =>
          cases r with
          | error e => exact absurd rfl ha
          | ok r =>
            obtain ⟨fds, hc, _⟩ := ho.2.2 r rfl
            have harr : (CreatePhase.greeted m p' pid (.ok r)).arrived = fds := by
              simp only [CreatePhase.arrived, hc, rights_fds]
            have hown : (CreatePhase.greeted m p' pid (.ok r)).owned = fds ++ [m] := by
              simp only [CreatePhase.owned, hc, rights_fds]
            rw [harr, hown]
            rw [harr] at ha
            cases fds with
            | nil => exact absurd rfl ha
            | cons n rest =>
              intro fd hfd h'
              simp only [Creation.go] at h' ⊢
              rcases recvFinish_table decRequest t r (n :: rest) hc with ⟨q, he⟩ | ⟨h1, h2⟩
              · rw [he]
                have : afterGreeting m p' pid (.ok (some (q, (n :: rest).head?))) =
                    .fail .unexpectedWorkerMessage [n, m] := by cases q <;> rfl
                simp only [this, fail_holding, List.drop_succ_cons, List.drop_zero]
                simp only [List.mem_append, List.mem_cons, List.not_mem_nil, or_false] at hfd ⊢
                rcases hfd with (h | h) | h
                · exact .inl (.inl h)
                · exact .inr h
                · exact .inl (.inr h)
              · rw [h1] at h'
                have hm : fd ≠ n := by
                  rintro rfl
                  exact absurd (by simp [dropHandle, FdTable.get_erase]) h'
                have key : ∃ err, afterGreeting m p' pid (recvFinish decRequest t r).2 = .fail err [m] := by
                  generalize (recvFinish decRequest t r).2 = y at h2
                  unfold afterGreeting
                  split
                  · exact absurd rfl (h2 _ _)
                  · exact absurd rfl (h2 _ _)
                  · exact ⟨_, rfl⟩
                  · exact ⟨_, rfl⟩
                obtain ⟨err, he⟩ := key
                rw [he, fail_holding]
                simp only [List.drop_succ_cons, List.drop_zero]
                simp only [List.mem_append, List.mem_cons, List.not_mem_nil, or_false] at hfd ⊢
                rcases hfd with (h | h) | h
                · exact absurd h hm
                · exact .inr h
                · exact .inl h
        | _ => exact absurd rfl ha
  · intro hne
    obtain ⟨c, p, caps, os, ph, chd⟩ := x
    cases ph with
    | greeted m p' pid r =>
      cases r with
      | error e => exact absurd rfl hne
      | ok r =>
        obtain ⟨fds, hc, _⟩ := ho.2.2 r rfl
        have harr : (CreatePhase.greeted m p' pid (.ok r)).arrived = fds := by
          simp only [CreatePhase.arrived, hc, rights_fds]
        rw [harr] at hne
        simp only [Creation.go]
        rcases recvFinish_table decRequest t r fds hc with ⟨q, he⟩ | ⟨h1, h2⟩
        · rw [he]
          cases fds with
          | nil => exact absurd rfl hne
          | cons n rest => cases q <;> rfl
        · generalize (recvFinish decRequest t r).2 = y at h2
          unfold afterGreeting
          split
          · exact absurd rfl (h2 _ _)
          · exact absurd rfl (h2 _ _)
          · exact fail_dying _ _
          · exact fail_dying _ _
    | _ => exact absurd rfl hne
  · by_cases hg : ∃ m p' pid, x.phase = .greeting m p' pid
    · obtain ⟨m, p', pid, hg⟩ := hg
      obtain ⟨c, p, caps, os, ph, chd⟩ := x
      cases hg
      simp only [Creation.go]
      cases h : (startRecv abi t os.osFirst os.first).2 with
      | error e => exact Nat.zero_le _
      | ok r => exact startRecv_arrived abi t os.osFirst os.first r h
    · suffices h : (x.go abi t).2.phase.arrived = [] by rw [h]; exact Nat.zero_le _
      obtain ⟨c, p, caps, os, ph, chd⟩ := x
      cases ph with
      | greeting m p' pid => exact absurd ⟨m, p', pid, rfl⟩ hg
      | checking e p' left =>
        cases left with
        | nil =>
          simp only [Creation.go, afterChecks]
          split
          · exact fail_arrived _ _
          · split
            · exact fail_arrived _ _
            · rfl
        | cons fd left => simp only [Creation.go]; split <;> first | rfl | exact fail_arrived _ _
      | failing err left =>
        cases left with
        | nil => rfl
        | cons fd left => exact fail_arrived _ _
      | read e p' rd r => cases r <;> first | rfl | exact fail_arrived _ _
      | spawning m p' pid => simp only [Creation.go]; cases os.spawnOk <;> first | rfl | exact fail_arrived _ _
      | greeted m p' pid r =>
        cases r with
        | error e => rfl
        | ok r =>
          simp only [Creation.go, afterGreeting]
          split <;> first | rfl | exact fail_arrived _ _
      | _ => first | rfl | (simp only [Creation.go]; split <;> first | rfl | exact fail_arrived _ _)

theorem call_size (abi : Abi) (t : FdTable) (x : Creation) (ho : PhaseOk t x) (h4 : x.phase.owned.length ≤ 4)
    (ha : x.phase.arrived.length ≤ 2) :
    (x.go abi t).2.phase.owned.length + (x.phase.arrived.drop 1).length ≤ 4 := by
  by_cases hg : ∃ m p' pid r, x.phase = .greeted m p' pid (.ok r)
  · obtain ⟨m, p', pid, r, hg⟩ := hg
    obtain ⟨c, p, caps, os, ph, chd⟩ := x
    cases hg
    obtain ⟨fds, hc, _⟩ := ho.2.2 r rfl
    have harr : (CreatePhase.greeted m p' pid (.ok r)).arrived = fds := by
      simp only [CreatePhase.arrived, hc, rights_fds]
    rw [harr] at ha ⊢
    have h2 : (Creation.go abi t ⟨c, p, caps, os, .greeted m p' pid (.ok r), chd⟩).2.phase.owned.length ≤ 2 := by
      simp only [Creation.go, afterGreeting]
      split
      · show 1 ≤ 2; omega
      · rename_i h _ _
        rw [fail_owned]
        cases h <;> simp
      · rw [fail_owned]; show 1 ≤ 2; omega
      · rw [fail_owned]; show 1 ≤ 2; omega
    have h3 : (fds.drop 1).length ≤ 1 := by rw [List.length_drop]; omega
    omega
  · have harr : x.phase.arrived = [] := by
      unfold CreatePhase.arrived
      split
      · rename_i m p' pid r h; exact absurd ⟨m, p', pid, r, h⟩ hg
      · rfl
    rw [harr]
    show (x.go abi t).2.phase.owned.length ≤ 4
    obtain ⟨c, p, caps, os, ph, chd⟩ := x
    cases ph with
    | greeting m p' pid =>
      simp only [Creation.go]
      cases h : (startRecv abi t os.osFirst os.first).2 with
      | error e => show 1 ≤ 4; omega
      | ok r =>
        have := startRecv_arrived abi t os.osFirst os.first r h
        have := extra_le abi
        simp only [CreatePhase.owned, List.length_append, List.length_singleton]
        omega
    | checking e p' left =>
      cases left with
      | nil =>
        simp only [Creation.go, afterChecks]
        split
        · rw [fail_owned]; show 2 ≤ 4; omega
        · split
          · rw [fail_owned]; show 2 ≤ 4; omega
          · show 2 ≤ 4; omega
      | cons fd left =>
        simp only [Creation.go]
        split
        · rw [fail_owned]; show 2 ≤ 4; omega
        · show 2 ≤ 4; omega
    | failing err left =>
      cases left with
      | nil => exact Nat.zero_le _
      | cons fd left =>
        show (CreatePhase.fail err left).owned.length ≤ 4
        rw [fail_owned]
        have : (fd :: left).length ≤ 4 := h4
        simp only [List.length_cons] at this
        omega
    | greeted m p' pid r =>
      cases r with
      | error e => show 1 ≤ 4; omega
      | ok r => exact absurd ⟨m, p', pid, r, rfl⟩ hg
    | read e p' rd r => cases r <;> (show 2 ≤ 4; omega)
    | spawning m p' pid =>
      simp only [Creation.go]
      cases os.spawnOk
      · show 1 ≤ 4; omega
      · exact Nat.zero_le _
    | _ =>
      first
      | (simp only [Creation.go]; split <;> first | (rw [fail_owned]; simp) | simp [CreatePhase.owned])
      | simp [Creation.go, CreatePhase.owned]

/-! ## The whole process -/

/-- What may be held for worker `j`: what the model says it owns, and what it has lost. -/
structure CostOk (abi : Abi) (ls : List BrokerEvent) (w : WholeBroker) (j : Nat) (lost : List Nat) : Prop where
  few : lost.length ≤ abi.extra
  held : ∀ fd, HeldFor j ls fd → fd ∈ w.fds j ++ lost
  absent : w.calls j = none → lost = []
  call : ∀ x, w.calls j = some x → w.threads j = none → (lost ≠ [] → x.phase.dying = true) ∧
    x.phase.owned.length + lost.length ≤ 4 ∧ x.phase.arrived.length ≤ abi.extra + 1
  thread : ∀ th, w.threads j = some th → (lost ≠ [] → th.phase.dying = true) ∧ th.arrived.length ≤ abi.extra + 1

theorem held_after {j : Nat} {ls : List BrokerEvent} {l : BrokerEvent} {t t' : FdTable} {o o' lost new : List Nat}
    (hl : StepOf j l t t') (hh : ∀ fd, HeldFor j ls fd → fd ∈ o ++ lost) (hm : Moves t o t' o')
    (hd : ∀ fd ∈ o, t'.get fd ≠ none → fd ∈ o' ++ new) :
    ∀ fd, HeldFor j (ls ++ [l]) fd → fd ∈ o' ++ (lost ++ new) := by
  intro fd h
  rw [heldFor_step j j ls l t t' fd hl, if_pos rfl] at h
  obtain ⟨h1, h2⟩ := h
  rcases h2 with h2 | h2
  · rcases List.mem_append.1 (hh fd h2) with h3 | h3
    · rcases List.mem_append.1 (hd fd h3 h1) with h4 | h4
      · exact List.mem_append_left _ h4
      · exact List.mem_append_right _ (List.mem_append_right _ h4)
    · exact List.mem_append_right _ (List.mem_append_left _ h3)
  · exact List.mem_append_left _ (hm.gain fd h2 h1)

theorem lost_new {α : Type} {lost : List α} {arrived : List α} {dying : Bool} {n : Nat} (h1 : lost.length ≤ n)
    (h2 : lost ≠ [] → dying = true) (h3 : arrived.length ≤ n + 1) (h4 : dying = true → arrived = []) :
    (lost ++ arrived.drop 1).length ≤ n := by
  by_cases h : lost = []
  · rw [h, List.nil_append, List.length_drop]; omega
  · rw [h4 (h2 h)]
    simpa using h1

theorem call_dying_arrived {ph : CreatePhase} (h : ph.dying = true) : ph.arrived = [] := by
  cases ph <;> first | rfl | cases h

theorem loop_dying_arrived {th : Loop} (h : th.phase.dying = true) : th.arrived = [] := by
  unfold Loop.arrived
  split
  · rename_i h'; rw [h'] at h; cases h
  · rfl

theorem cost_exec [Target] {abi : Abi} {ok : FdTable → Prop} {w w' : WholeBroker} {ls : List BrokerEvent}
    (h : NothingYet w) (he : WholeExec abi ok Declared w ls w') (j : Nat) : ∃ lost, CostOk abi ls w' j lost := by
  have hno : NoCalls ⟨w.table, w.calls⟩ := ⟨h.calls, h.nodup⟩
  induction he with
  | start _ =>
    refine ⟨[], Nat.zero_le _, fun fd hf => absurd hf (by simp [HeldFor]), fun _ => rfl, ?_, ?_⟩
    · intro x hx; rw [h.calls] at hx; cases hx
    · intro th ht; rw [h.threads] at ht; cases ht
  | call ls w1 k c p caps os he1 hk hb ih =>
    obtain ⟨lost, hc⟩ := ih
    have hi := (whole_exec h he1).2
    by_cases e : j = k
    · subst e
      have hnt : w1.threads j = none := by
        cases ht : w1.threads j with
        | none => rfl
        | some th => obtain ⟨y, _, h1, _⟩ := hi.served j th ht; rw [hk] at h1; cases h1
      have hl := hc.absent hk
      subst hl
      refine ⟨[], Nat.zero_le _, ?_, fun _ => rfl, ?_, ?_⟩
      · intro fd hf
        rw [heldFor_made] at hf
        have := hc.held fd hf
        rw [fds_none hk hnt] at this
        cases this
      · intro x hx _
        simp only [WholeBroker.made, if_pos] at hx
        cases hx
        exact ⟨fun h => absurd rfl h, Nat.zero_le _, Nat.zero_le _⟩
      · intro th ht
        have ht' : w1.threads j = some th := ht
        rw [hnt] at ht'; cases ht'
    · have e1 : (w1.made k (.make c p caps os)).calls j = w1.calls j := by simp [WholeBroker.made, e]
      have e2 : (w1.made k (.make c p caps os)).threads j = w1.threads j := rfl
      have e3 : (w1.made k (.make c p caps os)).fds j = w1.fds j := by simp only [WholeBroker.fds, e1, e2]
      refine ⟨lost, hc.few, ?_, ?_, ?_, ?_⟩
      · intro fd hf
        rw [heldFor_made] at hf
        rw [e3]; exact hc.held fd hf
      · rw [e1]; exact hc.absent
      · rw [e1, e2]; exact hc.call
      · rw [e2]; exact hc.thread
  | go ls w1 k x he1 hk hx hokt ih =>
    obtain ⟨lost, hc⟩ := ih
    obtain ⟨hcr, hi⟩ := whole_exec h he1
    by_cases e : j = k
    · subst e
      have hnt : w1.threads j = none := by
        cases ht : w1.threads j with
        | none => rfl
        | some th =>
          obtain ⟨y, pid, h1, h2, _⟩ := hi.served j th ht
          rw [hk] at h1; cases h1
          rw [h2] at hx; cases hx
      have hok := (exec_creators_inv hno hcr).ok j x hk
      have hbef := fds_call hk hnt
      have hn' := hi.fd.nodup j
      have hp' := hi.fd.present j
      rw [hbef] at hn' hp'
      have hg := go_ok abi w1.table x hx hi.fd.tab hn' hp' hok
      obtain ⟨l1, l2, l3, l4⟩ := call_lost abi w1.table x hx hi.fd.tab hn' hp' hok
      obtain ⟨c1, c2, c3⟩ := hc.call x hk hnt
      have hself : (w1.create abi j x).calls j = some (x.go abi w1.table).2 := by simp [WholeBroker.create]
      have htself : (w1.create abi j x).threads j = x.thread := by simp [WholeBroker.create]
      have haft : (w1.create abi j x).fds j = (x.go abi w1.table).2.phase.holding := by
        cases ht : x.thread with
        | none =>
          rw [holding_owned (thread_none abi w1.table x hx ht)]
          exact fds_call hself (htself.trans ht)
        | some th =>
          obtain ⟨m, p, pid, _, h2, h3, _⟩ := thread_some abi w1.table x th ht
          rw [fds_thread hself h3 (htself.trans ht), h3, h2]
          rfl
      have hex := extra_le abi
      have hdy : lost ++ x.phase.arrived.drop 1 ≠ [] → (x.go abi w1.table).2.phase.dying = true := by
        intro hne
        by_cases hl : lost = []
        · rw [hl, List.nil_append] at hne; exact l2 hne
        · exact (l4 (c1 hl)).1
      refine ⟨lost ++ x.phase.arrived.drop 1, lost_new hc.few c1 c3 call_dying_arrived, ?_, ?_, ?_, ?_⟩
      · rw [haft]
        have hh := hc.held
        rw [hbef] at hh
        exact held_after (.inl rfl) hh hg.moves l1
      · intro hnone; rw [hself] at hnone; cases hnone
      · intro y hy _
        rw [hself] at hy; cases hy
        refine ⟨hdy, ?_, l3⟩
        rw [List.length_append]
        by_cases hl : lost = []
        · rw [hl]
          have := call_size abi w1.table x hok (by omega) (by omega)
          simp only [List.length_nil]; omega
        · have h5 := (l4 (c1 hl)).2
          rw [call_dying_arrived (c1 hl)]
          simp only [List.drop_nil, List.length_nil]
          omega
      · intro th ht
        rw [htself] at ht
        obtain ⟨m, p, pid, h1, h2, h3, _⟩ := thread_some abi w1.table x th ht
        refine ⟨fun hne => ?_, by rw [h2]; exact Nat.zero_le _⟩
        have := hdy hne
        rw [h3] at this; cases this
    · have e1 : (w1.create abi k x).calls j = w1.calls j := by simp [WholeBroker.create, e]
      have e2 : (w1.create abi k x).threads j = w1.threads j := by simp [WholeBroker.create, e]
      have e3 : (w1.create abi k x).fds j = w1.fds j := by simp only [WholeBroker.fds, e1, e2]
      refine ⟨lost, hc.few, ?_, ?_, ?_, ?_⟩
      · intro fd hf
        rw [heldFor_step j k ls _ _ _ fd (.inl rfl), if_neg (Ne.symm e)] at hf
        rw [e3]; exact hc.held fd hf
      · rw [e1]; exact hc.absent
      · rw [e1, e2]; exact hc.call
      · rw [e2]; exact hc.thread
  | recv ls w1 k th inc os he1 hk hidle hokt ih =>
    obtain ⟨lost, hc⟩ := ih
    have hi := (whole_exec h he1).2
    obtain ⟨x, pid, h1, h2, h3⟩ := hi.served k th hk
    by_cases e : j = k
    · subst e
      have hb := fds_thread h1 h2 hk
      have hp := hi.fd.present j
      rw [hb] at hp
      obtain ⟨m1, m2, m3⟩ := receive_moves abi w1.table th inc os hidle hp hi.fd.tab
      have hself : (w1.served j (th.receive abi w1.table inc os)).threads j = some (th.receive abi w1.table inc os).2 := by
        simp [WholeBroker.served]
      have haft : (w1.served j (th.receive abi w1.table inc os)).fds j = (th.receive abi w1.table inc os).2.owned :=
        fds_thread h1 h2 hself
      have hl : lost = [] := by
        apply Classical.byContradiction
        intro hl
        have := (hc.thread th hk).1 hl
        rw [hidle] at this; cases this
      subst hl
      refine ⟨[], Nat.zero_le _, ?_, fun _ => rfl, ?_, ?_⟩
      · rw [haft]
        have hh := hc.held
        rw [hb] at hh
        have := held_after (new := []) (.inr (.inl ⟨inc, os, rfl⟩)) hh m1
          (fun fd h h' => List.mem_append_left _ (m2 fd h h'))
        exact this
      · intro y _ hn; rw [hself] at hn; cases hn
      · intro th' ht
        rw [hself] at ht; cases ht
        exact ⟨fun h => absurd rfl h, receive_arrived abi w1.table th inc os⟩
    · have e2 : (w1.served k (th.receive abi w1.table inc os)).threads j = w1.threads j := by simp [WholeBroker.served, e]
      have e3 : (w1.served k (th.receive abi w1.table inc os)).fds j = w1.fds j := by
        simp only [WholeBroker.fds, e2]; rfl
      refine ⟨lost, hc.few, ?_, hc.absent, ?_, ?_⟩
      · intro fd hf
        rw [heldFor_step j k ls _ _ _ fd (.inr (.inl ⟨inc, os, rfl⟩)), if_neg (Ne.symm e)] at hf
        rw [e3]; exact hc.held fd hf
      · rw [e2]; exact hc.call
      · rw [e2]; exact hc.thread
  | serve ls w1 k th he1 hk hokt ih =>
    obtain ⟨lost, hc⟩ := ih
    have hi := (whole_exec h he1).2
    obtain ⟨x, pid, h1, h2, h3⟩ := hi.served k th hk
    by_cases e : j = k
    · subst e
      have hb := fds_thread h1 h2 hk
      have hp := hi.fd.present j
      have hnd := hi.fd.nodup j
      rw [hb] at hp hnd
      obtain ⟨m1, _, _⟩ := go_moves abi w1.table th hnd (hi.wf j th hk) hp hi.fd.tab
      obtain ⟨l1, l2, l3, l4⟩ := loop_lost abi w1.table th hnd (hi.wf j th hk) hp hi.fd.tab
      have hself : (w1.served j (th.go abi w1.table)).threads j = some (th.go abi w1.table).2 := by
        simp [WholeBroker.served]
      have haft : (w1.served j (th.go abi w1.table)).fds j = (th.go abi w1.table).2.owned :=
        fds_thread h1 h2 hself
      obtain ⟨c1, c2⟩ := hc.thread th hk
      refine ⟨lost ++ th.arrived.drop 1, lost_new hc.few c1 c2 loop_dying_arrived, ?_, ?_, ?_, ?_⟩
      · rw [haft]
        have hh := hc.held
        rw [hb] at hh
        exact held_after (.inr (.inr rfl)) hh m1 l1
      · intro hn
        have hn' : w1.calls j = none := hn
        rw [h1] at hn'; cases hn'
      · intro y _ hn; rw [hself] at hn; cases hn
      · intro th' ht
        rw [hself] at ht; cases ht
        refine ⟨fun hne => ?_, by rw [l3]; exact Nat.zero_le _⟩
        by_cases hl : lost = []
        · rw [hl, List.nil_append] at hne; exact l2 hne
        · exact l4 (c1 hl)
    · have e2 : (w1.served k (th.go abi w1.table)).threads j = w1.threads j := by simp [WholeBroker.served, e]
      have e3 : (w1.served k (th.go abi w1.table)).fds j = w1.fds j := by
        simp only [WholeBroker.fds, e2]; rfl
      refine ⟨lost, hc.few, ?_, hc.absent, ?_, ?_⟩
      · intro fd hf
        rw [heldFor_step j k ls _ _ _ fd (.inr (.inr rfl)), if_neg (Ne.symm e)] at hf
        rw [e3]; exact hc.held fd hf
      · rw [e2]; exact hc.call
      · rw [e2]; exact hc.thread
  | other ls w1 t he1 hn ho ht hb hokt ih =>
    obtain ⟨lost, hc⟩ := ih
    exact ⟨lost, hc.few, hc.held, hc.absent, hc.call, hc.thread⟩

end Iris
