import Verif.Spec.WholeBroker
import Verif.Lemmas.Concurrent
import Verif.Lemmas.ChannelPair
import Verif.Props.Creators
/-! Helper lemmas about a whole broker process. -/
namespace Iris
open Spec

/-! ## The threads, as the calls -/

theorem WF_erase {t : FdTable} (h : t.WF) (n : Nat) : (t.erase n).WF := by
  have hs : ((t.erase n).map Prod.fst).Sublist (t.map Prod.fst) := by
    unfold FdTable.erase
    exact (List.filter_sublist).map _
  exact hs.nodup h

theorem WF_drop {t : FdTable} (h : t.WF) (o : Option Nat) : (dropHandle t o).WF := by
  cases o with
  | none => exact h
  | some n => exact WF_erase h n

theorem drop_none {t : FdTable} (o : Option Nat) (fd : Nat) (h : t.get fd = none) : (dropHandle t o).get fd = none := by
  cases o with
  | none => exact h
  | some n => exact erase_none h

/-- The number of descriptors a thread has just received. -/
def Loop.came (th : Loop) : Nat :=
  match th.phase with
  | .received _ (.ok r) => (r.cmsgs.flatMap (·.fds)).length
  | _ => 0

theorem receive_moves (abi : Abi) (t : FdTable) (th : Loop) (inc : Incoming) (os : OsChoice)
    (hi : th.phase = .idle) (hp : ∀ fd ∈ th.owned, t.get fd ≠ none) (hw : t.WF) :
    Moves t th.owned (th.receive abi t inc os).1 (th.receive abi t inc os).2.owned ∧
    Drops (th.receive abi t inc os).1 th.owned (th.receive abi t inc os).2.owned ∧
    (FewFiles inc → (th.receive abi t inc os).2.came ≤ 1) := by
  have hf := receive_frame abi t th inc os hi hp
  have hown : th.owned = [th.chan] := by simp [Loop.owned, hi]
  have hd : Drops (th.receive abi t inc os).1 th.owned (th.receive abi t inc os).2.owned := by
    rw [hown]
    intro fd h _
    rw [List.mem_singleton.1 h]
    cases inc <;> simp [Loop.receive, startRecv, Loop.owned]
  refine ⟨⟨hf.keep, hf.fresh, hf.present, hf.nodup, ?_, ?_⟩, hd, ?_⟩
  · intro fd h h'
    cases inc with
    | error e => exact absurd h h'
    | eof => exact absurd h h'
    | datagram d =>
      have := (installAll_gain (d.files.take (min os.canInstall (maxFds abi (CMSG_SIZE abi)))) t hw).2 fd h h'
      simp only [Loop.receive, startRecv, Loop.owned, sysRecvmsg, rights_fds]
      exact List.mem_cons_of_mem _ this
  · cases inc with
    | error e => exact hw
    | eof => exact hw
    | datagram d => exact (installAll_gain (d.files.take (min os.canInstall (maxFds abi (CMSG_SIZE abi)))) t hw).1
  · intro hfew
    cases inc with
    | error e => exact Nat.zero_le _
    | eof => exact Nat.zero_le _
    | datagram d =>
      have h2 := (installAll_spec (d.files.take (min os.canInstall (maxFds abi (CMSG_SIZE abi)))) t).2.1
      have := hfew d rfl
      simp only [Loop.came, Loop.receive, startRecv, sysRecvmsg, rights_fds, h2, List.length_take]
      omega

theorem go_moves [Target] (abi : Abi) (t : FdTable) (th : Loop) (hn : th.owned.Nodup) (hwf : th.Wf)
    (hp : ∀ fd ∈ th.owned, t.get fd ≠ none) (hw : t.WF) :
    Moves t th.owned (th.go abi t).1 (th.go abi t).2.owned ∧
    (th.came ≤ 1 → Drops (th.go abi t).1 th.owned (th.go abi t).2.owned) ∧ (th.go abi t).2.came = 0 := by
  have hf := go_frame abi t th hn hwf hp
  suffices h : (th.go abi t).1.WF ∧ (∀ fd, t.get fd = none → (th.go abi t).1.get fd ≠ none → fd ∈ (th.go abi t).2.owned) ∧
      (th.came ≤ 1 → Drops (th.go abi t).1 th.owned (th.go abi t).2.owned) ∧ (th.go abi t).2.came = 0 from
    ⟨⟨hf.keep, hf.fresh, hf.present, hf.nodup, h.2.1, h.1⟩, h.2.2⟩
  clear hf
  obtain ⟨p, chan, phase, trace, socks⟩ := th
  cases phase with
  | idle => exact ⟨hw, fun fd h h' => absurd h h', fun _ fd h _ => h, rfl⟩
  | gone why => exact ⟨hw, fun fd h h' => absurd h h', fun _ fd h _ => h, rfl⟩
  | leaving why =>
    refine ⟨WF_erase hw _, fun fd h h' => absurd (erase_none h) h', fun _ fd h h' => ?_, rfl⟩
    have : fd = chan := by simpa [Loop.owned] using h
    subst this
    exact absurd (by simp [Loop.go, FdTable.get_erase]) h'
  | closing h next =>
    refine ⟨WF_drop hw _, fun fd h h' => absurd (drop_none _ _ h) h', fun _ fd hfd h' => ?_, ?_⟩
    · have hc : (Loop.go abi t ⟨p, chan, .closing h next, trace, socks⟩).2.owned = [chan] := by
        by_cases hx : next = .running <;> simp [Loop.go, Loop.owned, hx]
      rw [hc]
      have hfd' : fd = chan ∨ fd ∈ h.toList := by simpa [Loop.owned] using hfd
      rcases hfd' with e | e
      · exact List.mem_singleton.2 e
      · have e' : h = some fd := by simpa using e
        subst e'
        exact absurd (by simp [Loop.go, dropHandle, FdTable.get_erase]) h'
    · by_cases hx : next = .running <;> simp [Loop.go, Loop.came, hx]
  | replying os resp h =>
    simp only [Loop.go]
    split <;> exact ⟨hw, fun fd h h' => absurd h h', fun _ fd h _ => h, rfl⟩
  | received os r =>
    cases r with
    | error e => exact ⟨hw, fun fd h h' => absurd h h', fun _ fd h _ => h, rfl⟩
    | ok r =>
      obtain ⟨fds, hfds⟩ := hwf os r rfl
      have hown : Loop.owned ⟨p, chan, .received os (.ok r), trace, socks⟩ = chan :: fds := by
        simp only [Loop.owned, hfds, rights_fds]
      have hcame : Loop.came ⟨p, chan, .received os (.ok r), trace, socks⟩ = fds.length := by
        simp only [Loop.came, hfds, rights_fds]
      have hzero : ∀ x tr so, Loop.came ⟨p, chan, afterRecv os x, tr, so⟩ = 0 := by
        intro x tr so
        unfold afterRecv
        split <;> rfl
      rw [hown, hcame]
      simp only [Loop.go]
      rcases recvFinish_table decRequest t r fds hfds with ⟨m, he⟩ | ⟨h1, h2⟩
      · rw [he]
        refine ⟨hw, fun fd h h' => absurd h h', fun hl fd hfd _ => ?_, hzero _ _ _⟩
        match fds, hl with
        | [], _ => simpa [Loop.owned, afterRecv] using hfd
        | [n], _ => simpa [Loop.owned, afterRecv] using hfd
      · rw [h1]
        refine ⟨WF_drop hw _, fun fd h h' => absurd (drop_none _ _ h) h', fun hl fd hfd h' => ?_, hzero _ _ _⟩
        have hleave : afterRecv os (recvFinish decRequest t r).2 = .leaving .ended := by
          generalize (recvFinish decRequest t r).2 = x at h2
          unfold afterRecv
          split
          · exact absurd rfl (h2 _ _)
          · exact absurd rfl (h2 _ _)
          · rfl
        rw [hleave]
        match fds, hl with
        | [], _ => simpa [Loop.owned] using hfd
        | [n], _ =>
          have hfd' : fd = chan ∨ fd = n := by simpa using hfd
          rcases hfd' with e | e
          · simp [Loop.owned, e]
          · subst e
            exact absurd (by simp [dropHandle, FdTable.get_erase]) h'
  | serving os m =>
    simp only [Loop.go]
    cases m with
    | initialization => exact ⟨hw, fun fd h h' => absurd h h', fun _ fd h _ => h, rfl⟩
    | syscall nb args ip => exact ⟨hw, fun fd h h' => absurd h h', fun _ fd h _ => h, rfl⟩
    | openFile path flags =>
      simp only [serveRequest, proxiedOpenFile]
      by_cases hg : (p.evaluate (.fileOpen path flags)).1 ≠ .granted
      · simp only [if_pos hg]
        exact ⟨hw, fun fd h h' => absurd h h', fun _ fd h _ => h, rfl⟩
      · simp only [if_neg hg]
        by_cases hz : '\x00' ∈ path
        · simp only [if_pos hz]
          exact ⟨hw, fun fd h h' => absurd h h', fun _ fd h _ => h, rfl⟩
        · simp only [if_neg hz]
          cases os.openResult with
          | error e => exact ⟨hw, fun fd h h' => absurd h h', fun _ fd h _ => h, rfl⟩
          | ok file =>
            simp only
            refine ⟨hw.alloc _, fun fd h h' => ?_, fun _ fd h _ => ?_, rfl⟩
            · have : fd = t.lowestFree := by
                apply Classical.byContradiction
                intro hne
                rw [FdTable.get_alloc, if_neg hne] at h'
                exact h' h
              subst this
              simp [Loop.owned, FdTable.alloc]
            · have : fd = chan := by simpa [Loop.owned] using h
              simp [Loop.owned, this]

/-! ## The thread a call creates -/

theorem phase_fail_ne (err : BrokerError) (l : List Nat) (m pid : Nat) : CreatePhase.fail err l ≠ .served m pid := by
  cases l <;> simp [CreatePhase.fail]

theorem go_served (abi : Abi) (t : FdTable) (x : Creation) (m pid : Nat) (ho : x.phase.over = false)
    (h : (x.go abi t).2.phase = .served m pid) :
    ∃ p, x.phase = .spawning m p pid ∧ x.os.spawnOk = true := by
  obtain ⟨c, p, caps, os, ph, chd⟩ := x
  cases ph <;> simp only [Creation.go] at h
  case spawning m' p' pid' =>
    cases hs : os.spawnOk with
    | true => rw [hs] at h; cases h; exact ⟨p', rfl, rfl⟩
    | false => rw [hs] at h; first | (cases h; done) | exact (phase_fail_ne _ _ _ _ h).elim
  case checking e p1 left =>
    cases left with
    | nil =>
      simp only [afterChecks] at h
      split at h
      · first | (cases h; done) | exact (phase_fail_ne _ _ _ _ h).elim
      · split at h
        · first | (cases h; done) | exact (phase_fail_ne _ _ _ _ h).elim
        · cases h
    | cons fd left =>
      simp only at h
      split at h
      · first | (cases h; done) | exact (phase_fail_ne _ _ _ _ h).elim
      · first | (cases h; done) | exact (phase_fail_ne _ _ _ _ h).elim
  case read e p1 rd r => cases r <;> first | (cases h; done) | exact (phase_fail_ne _ _ _ _ h).elim
  case greeted m' p1 pid' r =>
    cases r with
    | error e => first | (cases h; done) | exact (phase_fail_ne _ _ _ _ h).elim
    | ok r =>
      simp only [afterGreeting] at h
      split at h <;> first | (cases h; done) | exact (phase_fail_ne _ _ _ _ h).elim
  case failing err l =>
    cases l with
    | nil => cases h
    | cons fd l => first | (cases h; done) | exact (phase_fail_ne _ _ _ _ h).elim
  case failed err => cases ho
  case served m' pid' => cases ho
  all_goals first
    | (cases h; done)
    | (split at h <;> first | (cases h; done) | exact (phase_fail_ne _ _ _ _ h).elim)

theorem thread_some (abi : Abi) (t : FdTable) (x : Creation) (th : Loop) (h : x.thread = some th) :
    ∃ mine p pid, x.phase = .spawning mine p pid ∧ th = ⟨p, mine, .idle, [], []⟩ ∧
      (x.go abi t).2.phase = .served mine pid ∧ (x.go abi t).1 = t := by
  obtain ⟨c, p, caps, os, ph, chd⟩ := x
  cases ph <;> simp only [Creation.thread] at h <;> try (cases h; done)
  case spawning mine p1 pid =>
    split at h
    · rename_i hs
      cases h
      refine ⟨mine, p1, pid, rfl, rfl, ?_, rfl⟩
      simp only [Creation.go, hs, afterSpawn]
    · cases h

theorem thread_none (abi : Abi) (t : FdTable) (x : Creation) (ho : x.phase.over = false) (h : x.thread = none) (m pid : Nat) :
    (x.go abi t).2.phase ≠ .served m pid := by
  intro hs
  obtain ⟨p, hp, hok⟩ := go_served abi t x m pid ho hs
  simp [Creation.thread, hp, hok] at h

/-- The policy of a call, as far as the worker is concerned, is the one it was given. -/
def CreatePhase.KeepsPolicy (q : Policy) : CreatePhase → Prop
  | .checking _ p _ | .piping _ p _ | .piped _ p _ _ | .sealing _ p _ _ _ | .cloning _ p _ _ | .cloned _ p _ _
  | .reading _ p _ _ | .read _ p _ _ | .handing _ p _ => p.runtime = q.runtime
  | .greeting _ p _ | .greeted _ p _ _ | .answering _ p _ | .spawning _ p _ => p = q.runtime
  | _ => True

theorem fail_keeps (q : Policy) (err : BrokerError) (l : List Nat) : (CreatePhase.fail err l).KeepsPolicy q := by
  cases l <;> trivial

theorem allow_keeps {t : FdTable} {p p' : Policy} {fd : Nat} (h : allowHandle t p fd = .ok p') :
    p'.runtime = p.runtime := by
  simp only [allowHandle, Policy.allowInheritHandle] at h
  split at h
  · rename_i q hq
    cases h
    split at hq <;> cases hq <;> rfl
  · cases h

theorem go_keeps (abi : Abi) (t : FdTable) (x : Creation) (h : x.phase.KeepsPolicy x.policy) :
    (x.go abi t).2.phase.KeepsPolicy x.policy := by
  obtain ⟨c, p, caps, os, ph, chd⟩ := x
  cases ph <;> simp only [Creation.go] at h ⊢
  case marking e f =>
    split
    · first | trivial | exact fail_keeps _ _ _
    · exact rfl
  case checking e p1 left =>
    cases left with
    | nil =>
      simp only [afterChecks]
      split
      · first | trivial | exact fail_keeps _ _ _
      · split
        · first | trivial | exact fail_keeps _ _ _
        · exact h
    | cons fd left =>
      simp only
      split
      · first | trivial | exact fail_keeps _ _ _
      · rename_i p2 hp
        exact (allow_keeps hp).trans h
  case read e p1 rd r =>
    cases r with
    | error err => first | trivial | exact fail_keeps _ _ _
    | ok pid => exact h
  case greeted m p1 pid r =>
    cases r with
    | error e => first | trivial | exact fail_keeps _ _ _
    | ok r =>
      simp only [afterGreeting]
      split
      · exact h
      all_goals first | trivial | exact fail_keeps _ _ _
  case spawning m p1 pid => cases os.spawnOk <;> first | trivial | exact fail_keeps _ _ _
  case failing err l =>
    cases l with
    | nil => trivial
    | cons fd l => first | trivial | exact fail_keeps _ _ _
  all_goals first
    | exact h
    | trivial
    | (split <;> first | exact h | trivial | exact fail_keeps _ _ _)

/-! ## Who has which descriptor -/

/-- The descriptors of worker `j`: of the call creating it, or of the thread serving it. -/
def WholeBroker.fds (w : WholeBroker) (j : Nat) : List Nat :=
  (match w.calls j with | some x => x.phase.owned | none => []) ++
  (match w.threads j with | some th => th.owned | none => [])

/-- What happened, as far as the calls are concerned. -/
def creations (ls : List BrokerEvent) : List CreateEvent :=
  ls.filterMap fun l => match l with
    | .made j c p caps os t => some (.made j c p caps os t)
    | .step j a b => some (.step j a b)
    | _ => none

theorem heldFor_step (j k : Nat) (ls : List BrokerEvent) (l : BrokerEvent) (b a : FdTable) (fd : Nat) (hl : StepOf k l b a) :
    HeldFor j (ls ++ [l]) fd ↔
      if k = j then a.get fd ≠ none ∧ (HeldFor j ls fd ∨ b.get fd = none) else HeldFor j ls fd := by
  rcases hl with rfl | ⟨inc, os, rfl⟩ | rfl <;>
  · simp only [HeldFor, List.foldl_append, List.foldl_cons, List.foldl_nil]
    by_cases h : k = j <;> simp [h]

theorem heldFor_made (j k : Nat) (ls : List BrokerEvent) (c p caps os) (b : FdTable) (fd : Nat) :
    HeldFor j (ls ++ [.made k c p caps os b]) fd ↔ HeldFor j ls fd := by
  simp only [HeldFor, List.foldl_append, List.foldl_cons, List.foldl_nil]

theorem split_snoc {ls l1 l2 : List BrokerEvent} {ev ev' : BrokerEvent} (h : ls ++ [ev] = l1 ++ ev' :: l2) :
    (l2 = [] ∧ l1 = ls ∧ ev' = ev) ∨ ∃ l3, ls = l1 ++ ev' :: l3 := by
  rcases List.eq_nil_or_concat l2 with rfl | ⟨l3, z, rfl⟩
  · left
    have := List.append_inj' (s₁ := ls) (s₂ := l1) h rfl
    exact ⟨rfl, this.1.symm, by simpa using this.2.symm⟩
  · right
    refine ⟨l3, ?_⟩
    have h' : ls ++ [ev] = (l1 ++ ev' :: l3) ++ [z] := by simpa using h
    exact (List.append_inj' h' rfl).1

/-- What a step made for worker `j` does to the descriptors. -/
structure FdsStep (ls : List BrokerEvent) (w : WholeBroker) (j : Nat) (l : BrokerEvent) (w' : WholeBroker) : Prop where
  event : StepOf j l w.table w'.table
  moves : Moves w.table (w.fds j) w'.table (w'.fds j)
  others : ∀ k, k ≠ j → w'.fds k = w.fds k
  os : ∀ x, w.calls j = some x → ∃ x', w'.calls j = some x' ∧ x'.os = x.os
  lent : ∀ k x', w'.calls k = some x' → x'.phase.over = false → ∃ x, w.calls k = some x ∧ x.phase.over = false ∧
    x.policy = x'.policy ∧ x.config = x'.config
  drops : (∀ x, w'.calls j = some x → nfiles x.os ≤ 1) → (∀ i ∈ receivedBy j (ls ++ [l]), FewFiles i.1) →
    Drops w'.table (w.fds j) (w'.fds j)

theorem received_mono (j : Nat) (ls : List BrokerEvent) (l : BrokerEvent) :
    ∀ i ∈ receivedBy j ls, i ∈ receivedBy j (ls ++ [l]) := by
  intro i hi
  simp only [receivedBy, List.filterMap_append]
  exact List.mem_append_left _ hi

/-- The part of the invariant about descriptors. -/
structure FdsInv (ls : List BrokerEvent) (w : WholeBroker) : Prop where
  tab : w.table.WF
  nodup : ∀ j, (w.fds j).Nodup
  apart : ∀ j k, j ≠ k → ∀ fd ∈ w.fds j, fd ∉ w.fds k
  present : ∀ j, ∀ fd ∈ w.fds j, w.table.get fd ≠ none
  lent : ∀ j x, w.calls j = some x → x.phase.over = false → ∀ fd, Declared x.policy x.config fd →
    w.table.get fd ≠ none ∧ ∀ k, fd ∉ w.fds k
  holds : ∀ j, ∀ fd ∈ w.fds j, HeldFor j ls fd
  only : ∀ j, (∀ x, w.calls j = some x → nfiles x.os ≤ 1) → (∀ i ∈ receivedBy j ls, FewFiles i.1) →
    ∀ fd, HeldFor j ls fd → fd ∈ w.fds j
  own : ∀ l1 l l2 j before after, ls = l1 ++ l :: l2 → StepOf j l before after → ∀ fd, before.get fd ≠ none →
    after.get fd ≠ before.get fd → HeldFor j l1 fd

theorem stepOf_same {j k : Nat} {l : BrokerEvent} {b a b' a' : FdTable} (h : StepOf j l b a) (h' : StepOf k l b' a') :
    j = k ∧ b = b' ∧ a = a' := by
  rcases h with rfl | ⟨_, _, rfl⟩ | rfl <;> rcases h' with h | ⟨_, _, h⟩ | h <;> cases h <;> exact ⟨rfl, rfl, rfl⟩

theorem fds_step {ls : List BrokerEvent} {w w' : WholeBroker} {j : Nat} {l : BrokerEvent} (hi : FdsInv ls w)
    (hs : FdsStep ls w j l w') (hc : ∀ k, k ≠ j → w'.calls k = w.calls k) : FdsInv (ls ++ [l]) w' := by
  have hnew : ∀ k, k ≠ j → ∀ fd ∈ w'.fds j, fd ∉ w.fds k := by
    intro k hk fd hfd hm
    rcases hs.moves.fresh fd hfd with h | h
    · exact hi.apart j k (Ne.symm hk) fd h hm
    · exact hi.present k fd hm h
  refine ⟨hs.moves.wf, ?_, ?_, ?_, ?_, ?_, ?_, ?_⟩
  · intro k
    by_cases hk : k = j
    · rw [hk]; exact hs.moves.nodup
    · rw [hs.others k hk]; exact hi.nodup k
  · intro a b hab fd ha hb
    by_cases ea : a = j
    · have eb : b ≠ j := fun h => hab (ea.trans h.symm)
      rw [ea] at ha; rw [hs.others b eb] at hb
      exact hnew b eb fd ha hb
    · rw [hs.others a ea] at ha
      by_cases eb : b = j
      · rw [eb] at hb; exact hnew a ea fd hb ha
      · rw [hs.others b eb] at hb; exact hi.apart a b hab fd ha hb
  · intro k fd hfd
    by_cases hk : k = j
    · rw [hk] at hfd; exact hs.moves.present fd hfd
    · rw [hs.others k hk] at hfd
      rw [hs.moves.keep fd (hi.present k fd hfd) (hi.apart k j hk fd hfd)]
      exact hi.present k fd hfd
  · intro k x' hx ho fd hd
    obtain ⟨x, h1, h2, h3, h4⟩ := hs.lent k x' hx ho
    obtain ⟨g1, g2⟩ := hi.lent k x h1 h2 fd (by rw [h3, h4]; exact hd)
    refine ⟨by rw [hs.moves.keep fd g1 (g2 j)]; exact g1, fun m hm => ?_⟩
    by_cases e : m = j
    · rw [e] at hm
      rcases hs.moves.fresh fd hm with h | h
      · exact g2 j h
      · exact g1 h
    · rw [hs.others m e] at hm; exact g2 m hm
  · intro k fd hfd
    rw [heldFor_step k j ls l _ _ fd hs.event]
    split
    · rename_i e
      subst e
      refine ⟨hs.moves.present fd hfd, ?_⟩
      rcases hs.moves.fresh fd hfd with h | h
      · exact .inl (hi.holds j fd h)
      · exact .inr h
    · rename_i e
      rw [hs.others k (Ne.symm e)] at hfd
      exact hi.holds k fd hfd
  · intro k h1 h2 fd hh
    rw [heldFor_step k j ls l _ _ fd hs.event] at hh
    have h2' : ∀ i ∈ receivedBy k ls, FewFiles i.1 := fun i hm => h2 i (received_mono k ls l i hm)
    split at hh
    · rename_i e
      subst e
      obtain ⟨ha, hb⟩ := hh
      have h1' : ∀ x, w.calls j = some x → nfiles x.os ≤ 1 := by
        intro x hx
        obtain ⟨x', hx', e⟩ := hs.os x hx
        rw [← e]; exact h1 x' hx'
      rcases hb with hb | hb
      · exact hs.drops h1 h2 fd (hi.only j h1' h2' fd hb) ha
      · exact hs.moves.gain fd hb ha
    · rename_i e
      have e' : k ≠ j := Ne.symm e
      rw [hs.others k e']
      exact hi.only k (fun x hx => h1 x (by rw [hc k e']; exact hx)) h2' fd hh
  · intro l1 l' l2 k b a h hst fd hb ha
    rcases split_snoc h with ⟨_, e1, e2⟩ | ⟨l3, h⟩
    · subst e2; subst e1
      obtain ⟨e1, e2, e3⟩ := stepOf_same hs.event hst
      subst e1; subst e2; subst e3
      apply Classical.byContradiction
      intro hno
      exact ha (hs.moves.keep fd hb fun hm => hno (hi.holds _ fd hm))
    · exact hi.own l1 l' l3 k b a h hst fd hb ha

structure WholeInv (ls : List BrokerEvent) (w : WholeBroker) : Prop where
  fd : FdsInv ls w
  served : ∀ j th, w.threads j = some th → ∃ x pid, w.calls j = some x ∧ x.phase = .served th.chan pid ∧
    th.policy = x.policy.runtime
  thread : ∀ j x m pid, w.calls j = some x → x.phase = .served m pid → ∃ th, w.threads j = some th
  wf : ∀ j th, w.threads j = some th → th.Wf
  kept : ∀ j x, w.calls j = some x → x.phase.KeepsPolicy x.policy
  came : ∀ j th, w.threads j = some th → (∀ i ∈ receivedBy j ls, FewFiles i.1) → th.came ≤ 1

theorem fds_call {w : WholeBroker} {j : Nat} {x : Creation} (h : w.calls j = some x) (ht : w.threads j = none) :
    w.fds j = x.phase.owned := by
  simp [WholeBroker.fds, h, ht]

theorem fds_thread {w : WholeBroker} {j : Nat} {x : Creation} {th : Loop} {m pid : Nat} (h : w.calls j = some x)
    (hp : x.phase = .served m pid) (ht : w.threads j = some th) : w.fds j = th.owned := by
  simp [WholeBroker.fds, h, ht, hp, CreatePhase.owned]

theorem fds_none {w : WholeBroker} {j : Nat} (h : w.calls j = none) (ht : w.threads j = none) : w.fds j = [] := by
  simp [WholeBroker.fds, h, ht]

theorem holding_owned {ph : CreatePhase} (h : ∀ m pid, ph ≠ .served m pid) : ph.holding = ph.owned := by
  cases ph <;> first | rfl | exact absurd rfl (h _ _)

theorem receivedBy_other (j : Nat) (ls : List BrokerEvent) (l : BrokerEvent)
    (h : ∀ k inc os b a, l ≠ .recv k inc os b a) : receivedBy j (ls ++ [l]) = receivedBy j ls := by
  simp only [receivedBy, List.filterMap_append]
  cases l <;> first | simp; done | exact absurd rfl (h _ _ _ _ _)

theorem receivedBy_recv (j k : Nat) (ls : List BrokerEvent) (inc : Incoming) (os : OsChoice) (b a : FdTable) :
    receivedBy j (ls ++ [.recv k inc os b a]) = receivedBy j ls ++ (if k = j then [(inc, os)] else []) := by
  simp only [receivedBy, List.filterMap_append]
  by_cases h : k = j <;> simp [h]

theorem whole_call {ls : List BrokerEvent} {w : WholeBroker} {j : Nat} {c : ProcessConfig} {p : Policy} {caps : Caps}
    {os : NewOs} (hi : WholeInv ls w) (hj : w.calls j = none)
    (hb : ∀ fd, Declared p c fd → w.table.get fd ≠ none ∧
      (∀ k x, w.calls k = some x → fd ∉ x.phase.owned) ∧ ∀ k th, w.threads k = some th → fd ∉ th.owned) :
    WholeInv (ls ++ [.made j c p caps os w.table]) (w.made j (.make c p caps os)) := by
  have hn : w.threads j = none := by
    cases h : w.threads j with
    | none => rfl
    | some th => obtain ⟨x, _, hx, _⟩ := hi.served j th h; rw [hj] at hx; cases hx
  have hthr : (w.made j (.make c p caps os)).threads = w.threads := rfl
  have hself : (w.made j (.make c p caps os)).calls j = some (.make c p caps os) := by simp [WholeBroker.made]
  have hother : ∀ k, k ≠ j → (w.made j (.make c p caps os)).calls k = w.calls k := fun k hk => by
    simp [WholeBroker.made, hk]
  have hfds : ∀ k, (w.made j (.make c p caps os)).fds k = w.fds k := by
    intro k
    by_cases hk : k = j
    · rw [hk, fds_call hself hn, fds_none hj hn]; rfl
    · simp only [WholeBroker.fds, hother k hk, hthr]
  have hrec : ∀ k, receivedBy k (ls ++ [.made j c p caps os w.table]) = receivedBy k ls := fun k =>
    receivedBy_other k ls _ (by simp)
  have hnot : ∀ l b a k, StepOf k l b a → l ≠ .made j c p caps os w.table := by
    rintro l b a k (rfl | ⟨_, _, rfl⟩ | rfl) <;> simp
  refine ⟨⟨hi.fd.tab, ?_, ?_, ?_, ?_, ?_, ?_, ?_⟩, ?_, ?_, hi.wf, ?_, ?_⟩
  · intro k; rw [hfds]; exact hi.fd.nodup k
  · intro a b hab; rw [hfds, hfds]; exact hi.fd.apart a b hab
  · intro k; rw [hfds]; exact hi.fd.present k
  · intro k x hx ho fd hd
    by_cases hk : k = j
    · rw [hk, hself] at hx
      cases hx
      obtain ⟨g1, g2, g3⟩ := hb fd hd
      refine ⟨g1, fun m => ?_⟩
      rw [hfds]
      simp only [WholeBroker.fds, List.mem_append, not_or]
      constructor
      · cases hm : w.calls m with
        | none => simp
        | some y => exact g2 m y hm
      · cases hm : w.threads m with
        | none => simp
        | some y => exact g3 m y hm
    · rw [hother k hk] at hx
      obtain ⟨g1, g2⟩ := hi.fd.lent k x hx ho fd hd
      exact ⟨g1, fun m => by rw [hfds]; exact g2 m⟩
  · intro k fd hfd
    rw [hfds] at hfd
    rw [heldFor_made]; exact hi.fd.holds k fd hfd
  · intro k h1 h2 fd hh
    rw [heldFor_made] at hh
    rw [hrec] at h2
    rw [hfds]
    refine hi.fd.only k (fun x hx => ?_) h2 fd hh
    have hk : k ≠ j := by rintro rfl; rw [hj] at hx; cases hx
    exact h1 x (by rw [hother k hk]; exact hx)
  · intro l1 l l2 k b a h hst fd hbf haf
    rcases split_snoc h with ⟨_, _, e⟩ | ⟨l3, h⟩
    · exact absurd e (hnot l b a k hst)
    · exact hi.fd.own l1 l l3 k b a h hst fd hbf haf
  · intro k th ht
    obtain ⟨x, pid, h1, h2⟩ := hi.served k th ht
    have hk : k ≠ j := by rintro rfl; rw [hj] at h1; cases h1
    exact ⟨x, pid, by rw [hother k hk]; exact h1, h2⟩
  · intro k x m pid hx hp
    by_cases hk : k = j
    · rw [hk, hself] at hx; cases hx; cases hp
    · rw [hother k hk] at hx; exact hi.thread k x m pid hx hp
  · intro k x hx
    by_cases hk : k = j
    · rw [hk, hself] at hx; cases hx; trivial
    · rw [hother k hk] at hx; exact hi.kept k x hx
  · intro k th ht h2
    rw [hrec] at h2
    exact hi.came k th ht h2

theorem whole_go {abi : Abi} {ls : List BrokerEvent} {w : WholeBroker} {j : Nat} {x : Creation} (hi : WholeInv ls w)
    (hj : w.calls j = some x) (hx : x.phase.over = false) (hok : PhaseOk w.table x) :
    WholeInv (ls ++ [.step j w.table (x.go abi w.table).1]) (w.create abi j x) := by
  have hn : w.threads j = none := by
    cases h : w.threads j with
    | none => rfl
    | some th =>
      obtain ⟨y, pid, h1, h2, _⟩ := hi.served j th h
      rw [hj] at h1; cases h1
      rw [h2] at hx; cases hx
  have hbef := fds_call hj hn
  have hg := go_ok abi w.table x hx hi.fd.tab (hbef ▸ hi.fd.nodup j) (hbef ▸ hi.fd.present j) hok
  have hself : (w.create abi j x).calls j = some (x.go abi w.table).2 := by simp [WholeBroker.create]
  have hother : ∀ k, k ≠ j → (w.create abi j x).calls k = w.calls k := fun k hk => by
    simp [WholeBroker.create, hk]
  have htself : (w.create abi j x).threads j = x.thread := by simp [WholeBroker.create]
  have htother : ∀ k, k ≠ j → (w.create abi j x).threads k = w.threads k := fun k hk => by
    simp [WholeBroker.create, hk]
  have haft : (w.create abi j x).fds j = (x.go abi w.table).2.phase.holding := by
    cases ht : x.thread with
    | none =>
      rw [holding_owned (thread_none abi w.table x hx ht)]
      exact fds_call hself (htself.trans ht)
    | some th =>
      obtain ⟨m, p, pid, _, h2, h3, _⟩ := thread_some abi w.table x th ht
      rw [fds_thread hself h3 (htself.trans ht), h3, h2]
      rfl
  have hev : ∀ k inc os b a, BrokerEvent.step j w.table (x.go abi w.table).1 ≠ .recv k inc os b a := by simp
  have hst : FdsStep ls w j (.step j w.table (x.go abi w.table).1) (w.create abi j x) := by
    refine ⟨.inl rfl, ?_, ?_, ?_, ?_, ?_⟩
    · rw [hbef, haft]; exact hg.moves
    · intro k hk
      simp only [WholeBroker.fds, hother k hk, htother k hk]
    · intro y hy
      rw [hj] at hy; cases hy
      exact ⟨_, hself, hg.os⟩
    · intro k y hy ho
      by_cases hk : k = j
      · rw [hk, hself] at hy; cases hy
        exact ⟨x, by rw [hk]; exact hj, hx, hg.policy.symm, hg.config.symm⟩
      · rw [hother k hk] at hy
        exact ⟨y, hy, ho, rfl, rfl⟩
    · intro h1 _
      rw [hbef, haft]
      refine hg.drops ?_
      rw [← hg.os]
      exact h1 _ hself
  refine ⟨fds_step hi.fd hst hother, ?_, ?_, ?_, ?_, ?_⟩
  · intro k th ht
    by_cases hk : k = j
    · rw [hk, htself] at ht
      obtain ⟨m, p, pid, h1, h2, h3, _⟩ := thread_some abi w.table x th ht
      have hkeep := hi.kept j x hj
      rw [h1] at hkeep
      refine ⟨_, pid, by rw [hk]; exact hself, by rw [h3, h2], ?_⟩
      rw [h2, hg.policy]
      exact hkeep
    · rw [htother k hk] at ht
      rw [hother k hk]
      exact hi.served k th ht
  · intro k y m pid hy hp
    by_cases hk : k = j
    · rw [hk, hself] at hy; cases hy
      rw [hk, htself]
      cases ht : x.thread with
      | none => exact absurd hp (thread_none abi w.table x hx ht m pid)
      | some th => exact ⟨th, rfl⟩
    · rw [hother k hk] at hy
      rw [htother k hk]
      exact hi.thread k y m pid hy hp
  · intro k th ht
    by_cases hk : k = j
    · rw [hk, htself] at ht
      obtain ⟨m, p, pid, h1, h2, h3, _⟩ := thread_some abi w.table x th ht
      rw [h2]
      intro os r e; cases e
    · rw [htother k hk] at ht; exact hi.wf k th ht
  · intro k y hy
    by_cases hk : k = j
    · rw [hk, hself] at hy; cases hy
      rw [hg.policy]
      exact go_keeps abi w.table x (hi.kept j x hj)
    · rw [hother k hk] at hy; exact hi.kept k y hy
  · intro k th ht h2
    rw [receivedBy_other k ls _ hev] at h2
    by_cases hk : k = j
    · rw [hk, htself] at ht
      obtain ⟨m, p, pid, h1, h2, h3, _⟩ := thread_some abi w.table x th ht
      rw [h2]; exact Nat.zero_le _
    · rw [htother k hk] at ht; exact hi.came k th ht h2

/-- A step of a thread. -/
theorem whole_served {ls : List BrokerEvent} {w : WholeBroker} {j : Nat} {th : Loop} {y : FdTable × Loop}
    {l : BrokerEvent} (hi : WholeInv ls w) (hj : w.threads j = some th) (hl : StepOf j l w.table y.1)
    (hm : Moves w.table th.owned y.1 y.2.owned)
    (hd : (∀ i ∈ receivedBy j (ls ++ [l]), FewFiles i.1) → Drops y.1 th.owned y.2.owned ∧ y.2.came ≤ 1)
    (hw : y.2.Wf) (hk : y.2.chan = th.chan ∧ y.2.policy = th.policy) :
    WholeInv (ls ++ [l]) (w.served j y) := by
  obtain ⟨x, pid, h1, h2, h3⟩ := hi.served j th hj
  have hc : (w.served j y).calls = w.calls := rfl
  have htself : (w.served j y).threads j = some y.2 := by simp [WholeBroker.served]
  have htother : ∀ k, k ≠ j → (w.served j y).threads k = w.threads k := fun k hk => by
    simp [WholeBroker.served, hk]
  have hbef := fds_thread h1 h2 hj
  have haft : (w.served j y).fds j = y.2.owned := fds_thread (by rw [hc]; exact h1) h2 htself
  have hst : FdsStep ls w j l (w.served j y) := by
    refine ⟨hl, ?_, ?_, ?_, ?_, ?_⟩
    · rw [hbef, haft]; exact hm
    · intro k hk
      simp only [WholeBroker.fds, hc, htother k hk]
    · intro z hz; exact ⟨z, hz, rfl⟩
    · intro k z hz ho; exact ⟨z, hz, ho, rfl, rfl⟩
    · intro _ h
      rw [hbef, haft]
      exact (hd h).1
  refine ⟨fds_step hi.fd hst fun _ _ => rfl, ?_, ?_, ?_, hi.kept, ?_⟩
  · intro k th' ht
    by_cases e : k = j
    · rw [e, htself] at ht; cases ht
      exact ⟨x, pid, by rw [e]; exact h1, by rw [hk.1]; exact h2, by rw [hk.2]; exact h3⟩
    · rw [htother k e] at ht; exact hi.served k th' ht
  · intro k z m pid' hz hp
    by_cases e : k = j
    · rw [e]; exact ⟨_, htself⟩
    · rw [htother k e]; exact hi.thread k z m pid' hz hp
  · intro k th' ht
    by_cases e : k = j
    · rw [e, htself] at ht; cases ht; exact hw
    · rw [htother k e] at ht; exact hi.wf k th' ht
  · intro k th' ht h
    by_cases e : k = j
    · rw [e, htself] at ht; cases ht
      rw [e] at h
      exact (hd h).2
    · rw [htother k e] at ht
      exact hi.came k th' ht fun i hm => h i (received_mono k ls l i hm)

theorem whole_other {ls : List BrokerEvent} {w : WholeBroker} {t : FdTable} (hi : WholeInv ls w)
    (hn : (t.map Prod.fst).Nodup) (hf : ∀ k, ∀ fd ∈ w.fds k, t.get fd = w.table.get fd)
    (hb : ∀ j x, w.calls j = some x → x.phase.over = false →
      ∀ fd, Declared x.policy x.config fd → t.get fd = w.table.get fd) :
    WholeInv ls { w with table := t } := by
  refine ⟨⟨hn, hi.fd.nodup, hi.fd.apart, ?_, ?_, hi.fd.holds, hi.fd.only, hi.fd.own⟩, hi.served, hi.thread, hi.wf, hi.kept,
    hi.came⟩
  · intro k fd hfd
    show t.get fd ≠ none
    rw [hf k fd hfd]
    exact hi.fd.present k fd hfd
  · intro k x hx ho fd hd
    obtain ⟨g1, g2⟩ := hi.fd.lent k x hx ho fd hd
    refine ⟨?_, g2⟩
    show t.get fd ≠ none
    rw [hb k x hx ho fd hd]
    exact g1

theorem mem_fds_call {w : WholeBroker} {j : Nat} {x : Creation} (h : w.calls j = some x) :
    ∀ fd ∈ x.phase.owned, fd ∈ w.fds j := by
  intro fd hfd
  simp only [WholeBroker.fds, h]
  exact List.mem_append_left _ hfd

theorem mem_fds_thread {w : WholeBroker} {j : Nat} {th : Loop} (h : w.threads j = some th) :
    ∀ fd ∈ th.owned, fd ∈ w.fds j := by
  intro fd hfd
  simp only [WholeBroker.fds, h]
  exact List.mem_append_right _ hfd

theorem fds_cases {w : WholeBroker} {j fd : Nat} (h : fd ∈ w.fds j) :
    (∃ x, w.calls j = some x ∧ fd ∈ x.phase.owned) ∨ ∃ th, w.threads j = some th ∧ fd ∈ th.owned := by
  simp only [WholeBroker.fds, List.mem_append] at h
  rcases h with h | h
  · left
    split at h
    · rename_i x hx; exact ⟨x, hx, h⟩
    · cases h
  · right
    split at h
    · rename_i x hx; exact ⟨x, hx, h⟩
    · cases h

theorem creations_snoc (ls : List BrokerEvent) (l : BrokerEvent) :
    creations (ls ++ [l]) = creations ls ++ creations [l] := by
  simp only [creations, List.filterMap_append]

/-- A step of a thread is, for the calls, something else the process does. -/
theorem served_creators {abi : Abi} {v : Creators} {cs : List CreateEvent} {ls : List BrokerEvent} {w : WholeBroker} {j : Nat}
    {th : Loop} {y : FdTable × Loop} (he : CreatorsExec abi Declared v cs ⟨w.table, w.calls⟩)
    (hi : WholeInv ls w) (hj : w.threads j = some th) (hm : Moves w.table th.owned y.1 y.2.owned) :
    CreatorsExec abi Declared v cs ⟨(w.served j y).table, (w.served j y).calls⟩ := by
  obtain ⟨x, pid, h1, h2, h3⟩ := hi.served j th hj
  refine .other cs ⟨w.table, w.calls⟩ y.1 he hm.wf ?_ ?_
  · intro k z hz fd hfd
    have hin := mem_fds_call hz fd hfd
    refine hm.keep fd (hi.fd.present k fd hin) fun ho => ?_
    have hk : k ≠ j := by
      rintro rfl
      rw [show (⟨w.table, w.calls⟩ : Creators).calls k = w.calls k from rfl, h1] at hz
      cases hz
      rw [h2] at hfd
      cases hfd
    exact hi.fd.apart k j hk fd hin (mem_fds_thread hj fd ho)
  · intro k z hz ho fd hd
    obtain ⟨g1, g2⟩ := hi.fd.lent k z hz ho fd hd
    exact hm.keep fd g1 fun h => g2 j (mem_fds_thread hj fd h)

theorem receive_const (abi : Abi) (t : FdTable) (th : Loop) (inc : Incoming) (os : OsChoice) :
    (th.receive abi t inc os).2.chan = th.chan ∧ (th.receive abi t inc os).2.policy = th.policy := ⟨rfl, rfl⟩

/-- The calls of a whole broker process are those of Model/Creators.lean. -/
theorem whole_exec [Target] {abi : Abi} {ok : FdTable → Prop} {w w' : WholeBroker} {ls : List BrokerEvent}
    (h : NothingYet w) (he : WholeExec abi ok Declared w ls w') :
    CreatorsExec abi Declared ⟨w.table, w.calls⟩ (creations ls) ⟨w'.table, w'.calls⟩ ∧ WholeInv ls w' := by
  have hno : NoCalls ⟨w.table, w.calls⟩ := ⟨h.calls, h.nodup⟩
  induction he with
  | start _ =>
    refine ⟨.start, ?_⟩
    have hfds : ∀ k, w.fds k = [] := fun k => fds_none (h.calls k) (h.threads k)
    refine ⟨⟨h.nodup, ?_, ?_, ?_, ?_, ?_, ?_, ?_⟩, ?_, ?_, ?_, ?_, ?_⟩
    · intro k; rw [hfds]; exact List.nodup_nil
    · intro a b _ fd ha; rw [hfds] at ha; cases ha
    · intro k fd hfd; rw [hfds] at hfd; cases hfd
    · intro k x hx; rw [h.calls] at hx; cases hx
    · intro k fd hfd; rw [hfds] at hfd; cases hfd
    · intro k _ _ fd hf; exact absurd hf (by simp [HeldFor])
    · intro l1 l l2 k b a hl; cases l1 <;> cases hl
    · intro k th ht; rw [h.threads] at ht; cases ht
    · intro k x m pid hx; rw [h.calls] at hx; cases hx
    · intro k th ht; rw [h.threads] at ht; cases ht
    · intro k x hx; rw [h.calls] at hx; cases hx
    · intro k th ht; rw [h.threads] at ht; cases ht
  | call ls w1 j c p caps os _ hj hb ih =>
    refine ⟨?_, whole_call ih.2 hj hb⟩
    rw [creations_snoc]
    exact .call _ ⟨w1.table, w1.calls⟩ j c p caps os ih.1 hj fun fd hd => ⟨(hb fd hd).1, (hb fd hd).2.1⟩
  | go ls w1 j x _ hj hx _ ih =>
    refine ⟨?_, whole_go ih.2 hj hx ((exec_creators_inv hno ih.1).ok j x hj)⟩
    rw [creations_snoc]
    exact .go _ ⟨w1.table, w1.calls⟩ j x ih.1 hj hx
  | recv ls w1 j th inc os _ hj hidle _ ih =>
    obtain ⟨x, pid, h1, h2, h3⟩ := ih.2.served j th hj
    have hb := fds_thread h1 h2 hj
    have hp := ih.2.fd.present j
    rw [hb] at hp
    obtain ⟨m1, m2, m3⟩ := receive_moves abi w1.table th inc os hidle hp ih.2.fd.tab
    have hf := receive_frame abi w1.table th inc os hidle hp
    refine ⟨?_, whole_served ih.2 hj (.inr (.inl ⟨inc, os, rfl⟩)) m1 ?_ hf.wf (receive_const abi w1.table th inc os)⟩
    · rw [creations_snoc]
      simp only [creations, List.filterMap_cons, List.filterMap_nil, List.append_nil]
      exact served_creators ih.1 ih.2 hj m1
    · intro hfew
      refine ⟨m2, m3 (hfew (inc, os) ?_)⟩
      rw [receivedBy_recv]
      simp
  | serve ls w1 j th _ hj _ ih =>
    obtain ⟨x, pid, h1, h2, h3⟩ := ih.2.served j th hj
    have hb := fds_thread h1 h2 hj
    have hp := ih.2.fd.present j
    have hnd := ih.2.fd.nodup j
    rw [hb] at hp hnd
    obtain ⟨m1, m2, m3⟩ := go_moves abi w1.table th hnd (ih.2.wf j th hj) hp ih.2.fd.tab
    have hf := go_frame abi w1.table th hnd (ih.2.wf j th hj) hp
    refine ⟨?_, whole_served ih.2 hj (.inr (.inr rfl)) m1 ?_ hf.wf ?_⟩
    · rw [creations_snoc]
      simp only [creations, List.filterMap_cons, List.filterMap_nil, List.append_nil]
      exact served_creators ih.1 ih.2 hj m1
    · intro hfew
      refine ⟨m2 (ih.2.came j th hj fun i hm => hfew i (received_mono _ _ _ i hm)), ?_⟩
      rw [m3]; exact Nat.zero_le _
    · have := go_const abi w1.table th
      exact ⟨this.2, this.1⟩
  | other ls w1 t _ hn ho ht hb _ ih =>
    refine ⟨.other _ ⟨w1.table, w1.calls⟩ t ih.1 hn ho hb, whole_other ih.2 hn ?_ hb⟩
    intro k fd hfd
    rcases fds_cases hfd with ⟨x, hx, hm⟩ | ⟨th, hth, hm⟩
    · exact ho k x hx fd hm
    · exact ht k th hth fd hm

/-! ## One thread among the others -/

/-- A process in which only one thread exists. -/
def oneLoop (th : Loop) : Nat → Loop :=
  fun k => if k = 0 then th else ⟨Policy.nothingAllowed, 0, .gone .ended, [], []⟩

theorem oneLoop_owned {th : Loop} {k fd : Nat} (h : fd ∈ (oneLoop th k).owned) : fd ∈ th.owned := by
  unfold oneLoop at h
  split at h
  · exact h
  · cases h

theorem oneLoop_put (t : FdTable) (th : Loop) (y : FdTable × Loop) :
    (Loops.put ⟨t, oneLoop th⟩ 0 y) = ⟨y.1, oneLoop y.2⟩ := by
  unfold Loops.put
  congr 1
  funext k
  by_cases h : k = 0 <;> simp [oneLoop, h]

/-- The thread serving worker `j`, from its creation on: the others are to it something else the process
does. -/
structure ThreadRun [Target] (abi : Abi) (ok : FdTable → Prop) (j : Nat) (ls : List BrokerEvent) (w : WholeBroker)
    (th : Loop) (t0 : FdTable) (ms : List LoopStep) : Prop where
  chan : ∃ x a b, w.calls j = some x ∧ x.os.socketpair = .ok (a, b) ∧ t0.get th.chan = some ⟨a, 0#32⟩
  exec : LoopsExec abi ok ⟨t0, oneLoop ⟨th.policy, th.chan, .idle, [], []⟩⟩ ms ⟨w.table, oneLoop th⟩
  inputs : inputsOf 0 ms = receivedBy j ls

theorem thread_run [Target] {abi : Abi} {ok : FdTable → Prop} {w w' : WholeBroker} {ls : List BrokerEvent}
    (h : NothingYet w) (he : WholeExec abi ok Declared w ls w') (j : Nat) :
    (w'.threads j = none → receivedBy j ls = []) ∧
    ∀ th, w'.threads j = some th → ∃ t0 ms, ThreadRun abi ok j ls w' th t0 ms := by
  induction he with
  | start _ => exact ⟨fun _ => rfl, fun th ht => by rw [h.threads] at ht; cases ht⟩
  | call ls w1 k c p caps os he hk hb ih =>
    have hi := (whole_exec h he).2
    have hrec : receivedBy j (ls ++ [.made k c p caps os w1.table]) = receivedBy j ls := receivedBy_other _ _ _ (by simp)
    rw [hrec]
    refine ⟨ih.1, fun th ht => ?_⟩
    obtain ⟨t0, ms, ⟨x, a, b, h1, h2⟩, h3, h4⟩ := ih.2 th ht
    have hjk : j ≠ k := by rintro rfl; rw [hk] at h1; cases h1
    exact ⟨t0, ms, ⟨x, a, b, by simp only [WholeBroker.made, if_neg hjk]; exact h1, h2⟩, h3, by rw [hrec]; exact h4⟩
  | go ls w1 k x he hk hx hokt ih =>
    obtain ⟨hc, hi⟩ := whole_exec h he
    have hno : NoCalls ⟨w.table, w.calls⟩ := ⟨h.calls, h.nodup⟩
    have hok := (exec_creators_inv hno hc).ok k x hk
    have hrec : receivedBy j (ls ++ [.step k w1.table (x.go abi w1.table).1]) = receivedBy j ls :=
      receivedBy_other _ _ _ (by simp)
    have hnk : w1.threads k = none := by
      cases hth : w1.threads k with
      | none => rfl
      | some th =>
        obtain ⟨y, pid, h1, h2, _⟩ := hi.served k th hth
        rw [hk] at h1; cases h1
        rw [h2] at hx; cases hx
    have hbef := fds_call hk hnk
    have hg := go_ok abi w1.table x hx hi.fd.tab (hbef ▸ hi.fd.nodup k) (hbef ▸ hi.fd.present k) hok
    rw [hrec]
    by_cases hjk : j = k
    · subst hjk
      have hnil := ih.1 hnk
      refine ⟨fun _ => hnil, fun th ht => ?_⟩
      have ht' : x.thread = some th := by simpa [WholeBroker.create] using ht
      obtain ⟨m, p, pid, h1, h2, h3, h4⟩ := thread_some abi w1.table x th ht'
      unfold PhaseOk at hok
      rw [h1] at hok
      obtain ⟨⟨a, b, h5, h6⟩, _⟩ := hok
      subst h2
      refine ⟨w1.table, [], ⟨_, a, b, by simp [WholeBroker.create]; rfl, by rw [hg.os]; exact h5, h6⟩, ?_, by
        rw [hrec, hnil]; rfl⟩
      rw [h4] at hokt
      have e : (w1.create abi j x).table = w1.table := h4
      rw [e]
      exact .start hokt
    · have hth : (w1.create abi k x).threads j = w1.threads j := by simp [WholeBroker.create, hjk]
      have hcl : (w1.create abi k x).calls j = w1.calls j := by simp [WholeBroker.create, hjk]
      rw [hth]
      refine ⟨ih.1, fun th ht => ?_⟩
      obtain ⟨t0, ms, h1, h3, h4⟩ := ih.2 th ht
      refine ⟨t0, ms, by rw [hcl]; exact h1, ?_, by rw [hrec]; exact h4⟩
      refine .other ms _ (x.go abi w1.table).1 h3 ?_ hokt
      intro i fd hfd
      have hin := mem_fds_thread ht fd (oneLoop_owned hfd)
      refine hg.moves.keep fd (hi.fd.present j fd hin) fun ho => ?_
      exact hi.fd.apart j k hjk fd hin (mem_fds_call hk fd ho)
  | recv ls w1 k th1 inc os he hk hidle hokt ih =>
    obtain ⟨hc, hi⟩ := whole_exec h he
    obtain ⟨x, pid, g1, g2, g3⟩ := hi.served k th1 hk
    have hb := fds_thread g1 g2 hk
    have hp := hi.fd.present k
    rw [hb] at hp
    obtain ⟨m1, _, _⟩ := receive_moves abi w1.table th1 inc os hidle hp hi.fd.tab
    rw [receivedBy_recv]
    by_cases hjk : k = j
    · subst hjk
      have hth : (w1.served k (th1.receive abi w1.table inc os)).threads k = some (th1.receive abi w1.table inc os).2 := by
        simp [WholeBroker.served]
      refine ⟨fun hn => (by rw [hth] at hn; cases hn), fun th ht => ?_⟩
      rw [hth] at ht
      cases ht
      obtain ⟨t0, ms, h1, h3, h4⟩ := ih.2 th1 hk
      refine ⟨t0, ms ++ [.recv 0 inc os], h1, ?_, ?_⟩
      · have := LoopsExec.recv ms ⟨w1.table, oneLoop th1⟩ 0 inc os h3 hidle hokt
        rw [oneLoop_put] at this
        exact this
      · rw [inputsOf_recv, receivedBy_recv, h4]; simp
    · have hth : (w1.served k (th1.receive abi w1.table inc os)).threads j = w1.threads j := by
        simp [WholeBroker.served, Ne.symm hjk]
      rw [hth, if_neg hjk, List.append_nil]
      refine ⟨ih.1, fun th ht => ?_⟩
      obtain ⟨t0, ms, h1, h3, h4⟩ := ih.2 th ht
      refine ⟨t0, ms, h1, ?_, by rw [receivedBy_recv, if_neg hjk, List.append_nil]; exact h4⟩
      refine .other ms _ (th1.receive abi w1.table inc os).1 h3 ?_ hokt
      intro i fd hfd
      have hin := mem_fds_thread ht fd (oneLoop_owned hfd)
      refine m1.keep fd (hi.fd.present j fd hin) fun ho => ?_
      exact hi.fd.apart j k (Ne.symm hjk) fd hin (mem_fds_thread hk fd ho)
  | serve ls w1 k th1 he hk hokt ih =>
    obtain ⟨hc, hi⟩ := whole_exec h he
    obtain ⟨x, pid, g1, g2, g3⟩ := hi.served k th1 hk
    have hb := fds_thread g1 g2 hk
    have hp := hi.fd.present k
    have hnd := hi.fd.nodup k
    rw [hb] at hp hnd
    obtain ⟨m1, _, _⟩ := go_moves abi w1.table th1 hnd (hi.wf k th1 hk) hp hi.fd.tab
    have hrec : receivedBy j (ls ++ [.serve k w1.table (th1.go abi w1.table).1]) = receivedBy j ls :=
      receivedBy_other _ _ _ (by simp)
    rw [hrec]
    by_cases hjk : k = j
    · subst hjk
      have hth : (w1.served k (th1.go abi w1.table)).threads k = some (th1.go abi w1.table).2 := by
        simp [WholeBroker.served]
      refine ⟨fun hn => (by rw [hth] at hn; cases hn), fun th ht => ?_⟩
      rw [hth] at ht
      cases ht
      obtain ⟨t0, ms, h1, h3, h4⟩ := ih.2 th1 hk
      obtain ⟨e1, e2⟩ := go_const abi w1.table th1
      refine ⟨t0, ms ++ [.go 0], by rw [e2]; exact h1, ?_, ?_⟩
      · have := LoopsExec.go ms ⟨w1.table, oneLoop th1⟩ 0 h3 hokt
        rw [oneLoop_put] at this
        rw [e1, e2]
        exact this
      · rw [inputsOf_go, hrec, h4]
    · have hth : (w1.served k (th1.go abi w1.table)).threads j = w1.threads j := by
        simp [WholeBroker.served, Ne.symm hjk]
      rw [hth]
      refine ⟨ih.1, fun th ht => ?_⟩
      obtain ⟨t0, ms, h1, h3, h4⟩ := ih.2 th ht
      refine ⟨t0, ms, h1, ?_, by rw [hrec]; exact h4⟩
      refine .other ms _ (th1.go abi w1.table).1 h3 ?_ hokt
      intro i fd hfd
      have hin := mem_fds_thread ht fd (oneLoop_owned hfd)
      refine m1.keep fd (hi.fd.present j fd hin) fun ho => ?_
      exact hi.fd.apart j k (Ne.symm hjk) fd hin (mem_fds_thread hk fd ho)
  | other ls w1 t he hn ho ht hb hokt ih =>
    refine ⟨ih.1, fun th hth => ?_⟩
    obtain ⟨t0, ms, h1, h3, h4⟩ := ih.2 th hth
    exact ⟨t0, ms, h1, .other ms _ t h3 (fun i fd hfd => ht j th hth fd (oneLoop_owned hfd)) hokt, h4⟩

theorem oneLoop_fresh {t : FdTable} {p : Policy} {c : Nat} (h : (t.get c).isSome) :
    Fresh ⟨t, oneLoop ⟨p, c, .idle, [], []⟩⟩ := by
  refine ⟨?_, ?_, ?_, ?_, ?_⟩
  · intro k; by_cases hk : k = 0
    · exact .inl (by simp [oneLoop, hk])
    · exact .inr ⟨.ended, by simp [oneLoop, hk]⟩
  · intro k; by_cases hk : k = 0 <;> simp [oneLoop, hk]
  · intro k; by_cases hk : k = 0 <;> simp [oneLoop, hk]
  · intro k; by_cases hk : k = 0
    · intro _; simpa [oneLoop, hk] using h
    · intro e; simp [oneLoop, hk] at e
  · intro a b ha hb hab
    by_cases ea : a = 0
    · by_cases eb : b = 0
      · exact absurd (ea.trans eb.symm) hab
      · simp [oneLoop, eb] at hb
    · simp [oneLoop, ea] at ha

/-! ## What a thread does has been asked for and is granted -/

/-- A granted request to open a file, among what was received. -/
def AskedOpen [Target] (p : Policy) (ins : List (Incoming × OsChoice)) (os : OsChoice) (path : Str) (flags : BitVec 32) :
    Prop :=
  (∃ inc, (inc, os) ∈ ins ∧ classify inc = .request (.openFile path flags)) ∧
    (p.evaluate (.fileOpen path flags)).1 = .granted

structure JustTrace [Target] (abi : Abi) (p : Policy) (ins : List (Incoming × OsChoice)) (tr : List Action) : Prop where
  opened : ∀ path flags mode, Action.opened path flags mode ∈ tr →
    mode = 0o600#32 ∧ ∃ os, AskedOpen p ins os path flags
  sent : ∀ resp files, Action.sent resp files ∈ tr → files = [] ∨
    ∃ os path flags file, AskedOpen p ins os path flags ∧ os.openResult = .ok file ∧ files.head? = some file ∧
      (abi = .ilp32 → files = [file])

def JustPhase [Target] (p : Policy) (ins : List (Incoming × OsChoice)) (t : FdTable) : LoopPhase → Prop
  | .received os r => ∃ inc, (inc, os) ∈ ins ∧ Means inc r
  | .serving os m => ∃ inc, (inc, os) ∈ ins ∧ classify inc = .request m
  | .replying os _ h => ∀ fd, h = some fd → fd < 2 ^ 31 ∧ ∃ path flags file e, AskedOpen p ins os path flags ∧
      os.openResult = .ok file ∧ t.get fd = some e ∧ e.file = file
  | _ => True

theorem AskedOpen.mono [Target] {p : Policy} {ins : List (Incoming × OsChoice)} {os : OsChoice} {path : Str}
    {flags : BitVec 32} (h : AskedOpen p ins os path flags) (i : Incoming × OsChoice) : AskedOpen p (ins ++ [i]) os path flags := by
  obtain ⟨⟨inc, h1, h2⟩, h3⟩ := h
  exact ⟨⟨inc, List.mem_append_left _ h1, h2⟩, h3⟩

theorem JustTrace.mono [Target] {abi : Abi} {p : Policy} {ins : List (Incoming × OsChoice)} {tr : List Action}
    (h : JustTrace abi p ins tr) (i : Incoming × OsChoice) : JustTrace abi p (ins ++ [i]) tr := by
  refine ⟨?_, ?_⟩
  · intro path flags mode hm
    obtain ⟨h1, os, h2⟩ := h.opened path flags mode hm
    exact ⟨h1, os, h2.mono i⟩
  · intro resp files hm
    rcases h.sent resp files hm with h | ⟨os, path, flags, file, h1, h2⟩
    · exact .inl h
    · exact .inr ⟨os, path, flags, file, h1.mono i, h2⟩

theorem JustTrace.notes [Target] {abi : Abi} {p : Policy} {ins : List (Incoming × OsChoice)} {tr : List Action}
    (h : JustTrace abi p ins tr) (l : List (Notification Request)) : JustTrace abi p ins (tr ++ l.map Action.notified) := by
  refine ⟨?_, ?_⟩
  · intro path flags mode hm
    rcases List.mem_append.1 hm with hm | hm
    · exact h.opened path flags mode hm
    · simp at hm
  · intro resp files hm
    rcases List.mem_append.1 hm with hm | hm
    · exact h.sent resp files hm
    · simp at hm

theorem JustTrace.open [Target] {abi : Abi} {p : Policy} {ins : List (Incoming × OsChoice)} {tr : List Action}
    (h : JustTrace abi p ins tr) {os : OsChoice} {path : Str} {flags : BitVec 32} (ha : AskedOpen p ins os path flags) :
    JustTrace abi p ins (tr ++ [.opened path flags 0o600#32]) := by
  refine ⟨?_, ?_⟩
  · intro path' flags' mode hm
    rcases List.mem_append.1 hm with hm | hm
    · exact h.opened path' flags' mode hm
    · rw [List.mem_singleton] at hm
      cases hm
      exact ⟨rfl, os, ha⟩
  · intro resp files hm
    rcases List.mem_append.1 hm with hm | hm
    · exact h.sent resp files hm
    · rw [List.mem_singleton] at hm; cases hm

theorem just_receive [Target] (abi : Abi) (ins : List (Incoming × OsChoice)) (t : FdTable) (th : Loop) (inc : Incoming)
    (os : OsChoice) (h : JustTrace abi th.policy ins th.trace) :
    JustTrace abi th.policy (ins ++ [(inc, os)]) (th.receive abi t inc os).2.trace ∧
    JustPhase th.policy (ins ++ [(inc, os)]) (th.receive abi t inc os).1 (th.receive abi t inc os).2.phase :=
  ⟨h.mono _, inc, List.mem_append_right _ (List.mem_singleton.2 rfl), startRecv_means abi t inc os⟩

theorem just_go [Target] (abi : Abi) (ins : List (Incoming × OsChoice)) (t : FdTable) (th : Loop) (hb : t.length < 2 ^ 31)
    (h : JustTrace abi th.policy ins th.trace) (hp : JustPhase th.policy ins t th.phase) :
    JustTrace abi th.policy ins (th.go abi t).2.trace ∧
    JustPhase th.policy ins (th.go abi t).1 (th.go abi t).2.phase := by
  obtain ⟨p, chan, phase, trace, socks⟩ := th
  cases phase with
  | idle => exact ⟨h, trivial⟩
  | gone why => exact ⟨h, trivial⟩
  | leaving why => exact ⟨h, trivial⟩
  | closing hd next =>
    refine ⟨h, ?_⟩
    simp only [Loop.go]
    split <;> trivial
  | received os r =>
    obtain ⟨inc, h1, h2⟩ := hp
    cases r with
    | error e => exact ⟨h, trivial⟩
    | ok r =>
      refine ⟨h, ?_⟩
      simp only [Loop.go]
      unfold Means at h2
      cases hc : classify inc with
      | request m =>
        rw [hc] at h2
        obtain ⟨r', e, h4⟩ := h2
        cases e
        rw [h4]
        exact ⟨inc, h1, hc⟩
      | hangup =>
        rw [hc] at h2
        have h4 := h2 r rfl t
        generalize (recvFinish decRequest t r) = y at h4
        obtain ⟨t', x⟩ := y
        simp only at h4 ⊢
        unfold afterRecv
        split
        · exact absurd rfl (h4 _)
        · trivial
        · trivial
  | serving os m =>
    obtain ⟨inc, h1, h2⟩ := hp
    simp only [Loop.go]
    cases m with
    | initialization =>
      refine ⟨?_, fun fd e => by cases e⟩
      simpa [serveRequest] using h
    | syscall nb args ip =>
      refine ⟨?_, fun fd e => by cases e⟩
      simp only [serveRequest, proxiedSyscall]
      exact h.notes _
    | openFile path flags =>
      simp only [serveRequest, proxiedOpenFile]
      by_cases hg : (p.evaluate (.fileOpen path flags)).1 = .granted
      · simp only [hg, ne_eq, not_true_eq_false, if_false]
        have hask : AskedOpen p ins os path flags := ⟨⟨inc, h1, h2⟩, hg⟩
        by_cases hn : '\x00' ∈ path
        · simp only [hn, if_true]
          exact ⟨h.notes _, trivial⟩
        · simp only [hn, if_false]
          have htr : JustTrace abi p ins (trace ++ ((p.evaluate (.fileOpen path flags)).2.map Action.notified ++
              [.opened path flags openMode])) := by
            rw [← List.append_assoc]
            exact (h.notes _).open hask
          cases ho : os.openResult with
          | error e => exact ⟨htr, fun fd e => by cases e⟩
          | ok file =>
            refine ⟨htr, ?_⟩
            intro fd e
            cases e
            have hl := t.lowestFree_le
            refine ⟨by simp only [FdTable.alloc]; omega, path, flags, file,
              ⟨file, if flags &&& O_CLOEXEC ≠ 0#32 then FD_CLOEXEC else 0#32⟩, hask, ho, ?_, rfl⟩
            rw [FdTable.get_alloc]
            exact if_pos rfl
      · simp only [hg, ne_eq, not_false_eq_true, if_true]
        exact ⟨h.notes _, fun fd e => by cases e⟩
  | replying os resp hd =>
    simp only [Loop.go]
    split
    · rename_i d hsend
      refine ⟨?_, trivial⟩
      obtain ⟨_, hs, hf, _⟩ := channelSend_ok (fun fd e => (hp fd e).1) hsend
      refine ⟨?_, ?_⟩
      · intro path flags mode hm
        rcases List.mem_append.1 hm with hm | hm
        · exact h.opened path flags mode hm
        · rw [List.mem_singleton] at hm; cases hm
      · intro resp' files hm
        rcases List.mem_append.1 hm with hm | hm
        · exact h.sent resp' files hm
        · rw [List.mem_singleton] at hm
          cases hm
          cases hd with
          | none =>
            left
            simpa using hf
          | some fd =>
            right
            obtain ⟨hl, path, flags, file, e, h1, h2, h3, h4⟩ := hp fd rfl
            refine ⟨os, path, flags, file, h1, h2, ?_, ?_⟩
            · rw [hf]; simp [h3, h4]
            · rintro rfl
              rw [hs] at hsend
              cases hr : sendResponse resp with
              | none => rw [hr] at hsend; simp [channelSend] at hsend
              | some data =>
                rw [hr] at hsend
                simp only [channelSend, sysSendmsg] at hsend
                rw [scmSend_ilp32 _ _ (by omega)] at hsend
                simp only [lookupFds, h3, Except.map, Except.ok.injEq] at hsend
                rw [← hsend, h4]
    · exact ⟨h, trivial⟩

theorem just_frame [Target] {p : Policy} {ins : List (Incoming × OsChoice)} {t t' : FdTable} {th : Loop}
    (h : JustPhase p ins t th.phase) (hk : ∀ fd ∈ th.owned, t'.get fd = t.get fd) : JustPhase p ins t' th.phase := by
  obtain ⟨q, chan, phase, trace, socks⟩ := th
  cases phase with
  | replying os resp hd =>
    intro fd e
    obtain ⟨h1, path, flags, file, e', h2, h3, h4, h5⟩ := h fd e
    refine ⟨h1, path, flags, file, e', h2, h3, ?_, h5⟩
    rw [hk fd (by simp [Loop.owned, e])]
    exact h4
  | _ => exact h

theorem exec_just [Target] (abi : Abi) (ok : FdTable → Prop) (hok : ∀ t, ok t → Bounded t) (w w' : Loops) (ls : List LoopStep)
    (hf : Fresh w) (he : LoopsExec abi ok w ls w') (i : Nat) :
    JustTrace abi (w'.threads i).policy (inputsOf i ls) (w'.threads i).trace ∧
    JustPhase (w'.threads i).policy (inputsOf i ls) w'.table (w'.threads i).phase := by
  induction he with
  | start _ =>
    rw [hf.trace i]
    refine ⟨⟨by simp, by simp⟩, ?_⟩
    rcases hf.phase i with h | ⟨why, h⟩ <;> rw [h] <;> trivial
  | recv ls w1 j inc os he hidle _ ih =>
    have hinv := exec_inv abi ok w w1 ls (inv_fresh w hf) he
    have hfr := receive_frame abi _ _ inc os hidle (hinv.present j)
    rw [inputsOf_recv]
    by_cases hj : j = i
    · subst hj
      have e : ((w1.put j ((w1.threads j).receive abi w1.table inc os)).threads j) = ((w1.threads j).receive abi w1.table inc os).2 := by
        simp [Loops.put]
      rw [e]
      simp only [if_true]
      exact just_receive abi _ _ _ inc os ih.1
    · have e : ((w1.put j ((w1.threads j).receive abi w1.table inc os)).threads i) = w1.threads i := by
        simp [Loops.put, Ne.symm hj]
      rw [e, if_neg hj]
      refine ⟨ih.1, just_frame ih.2 fun fd hfd => ?_⟩
      exact hfr.keep fd (hinv.present i fd hfd) (hinv.apart i j (Ne.symm hj) fd hfd)
  | go ls w1 j he _ ih =>
    have hinv := exec_inv abi ok w w1 ls (inv_fresh w hf) he
    have hfr := go_frame abi _ _ (hinv.nodup j) (hinv.wf j) (hinv.present j)
    rw [inputsOf_go]
    by_cases hj : j = i
    · subst hj
      have e : ((w1.put j ((w1.threads j).go abi w1.table)).threads j) = ((w1.threads j).go abi w1.table).2 := by
        simp [Loops.put]
      rw [e, (go_const abi w1.table (w1.threads j)).1]
      exact just_go abi _ _ _ (hok _ (exec_ok abi ok w w1 ls he)) ih.1 ih.2
    · have e : ((w1.put j ((w1.threads j).go abi w1.table)).threads i) = w1.threads i := by
        simp [Loops.put, Ne.symm hj]
      rw [e]
      refine ⟨ih.1, just_frame ih.2 fun fd hfd => ?_⟩
      exact hfr.keep fd (hinv.present i fd hfd) (hinv.apart i j (Ne.symm hj) fd hfd)
  | other ls w1 t he hfr _ ih => exact ⟨ih.1, just_frame ih.2 (hfr i)⟩

end Iris
