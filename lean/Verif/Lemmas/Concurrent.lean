import Verif.Spec.Concurrent
import Verif.Lemmas.Broker
/-!
# Threads of the broker do not touch each other's descriptors
-/
namespace Iris
open Spec

theorem installAll_spec (fs : List Nat) : ∀ (t : FdTable),
    (installAll t fs).2.Nodup ∧ (installAll t fs).2.length = fs.length ∧
    (∀ fd ∈ (installAll t fs).2, t.get fd = none ∧ (installAll t fs).1.get fd ≠ none) ∧
    (∀ fd, t.get fd ≠ none → (installAll t fs).1.get fd = t.get fd) := by
  induction fs with
  | nil => intro t; simp [installAll]
  | cons f fs ih =>
    intro t
    obtain ⟨h1, h2, h3, h4⟩ := ih (t.alloc ⟨f, FD_CLOEXEC⟩).2
    have hfree := t.lowestFree_spec.1
    have hfd : (t.alloc ⟨f, FD_CLOEXEC⟩).1 = t.lowestFree := rfl
    simp only [installAll]
    have hnew : (t.alloc ⟨f, FD_CLOEXEC⟩).2.get (t.alloc ⟨f, FD_CLOEXEC⟩).1 ≠ none := by
      rw [FdTable.get_alloc, hfd, if_pos rfl]
      simp
    refine ⟨?_, by simp [h2], ?_, ?_⟩
    · rw [List.nodup_cons]
      exact ⟨fun hm => hnew (h3 _ hm).1, h1⟩
    · intro fd hm
      rcases List.mem_cons.1 hm with rfl | hm
      · exact ⟨hfree, by rw [h4 _ hnew]; exact hnew⟩
      · refine ⟨?_, (h3 fd hm).2⟩
        have := (h3 fd hm).1
        rw [FdTable.get_alloc] at this
        split at this
        · cases this
        · exact this
    · intro fd hfd'
      have hne : fd ≠ t.lowestFree := fun h => hfd' (h ▸ hfree)
      have e : (t.alloc ⟨f, FD_CLOEXEC⟩).2.get fd = t.get fd := by
        rw [FdTable.get_alloc, if_neg hne]
      rw [h4 fd (by rw [e]; exact hfd'), e]

theorem recvCmsgs_rights (t : FdTable) (fds : List Nat) :
    recvCmsgs t (.ok none) (rightsCmsg fds) = (t, .ok fds.head?) := by
  cases fds with
  | nil => rfl
  | cons fd fds => simp [rightsCmsg, recvCmsgs, dropHandle]

/-- What `recv` returns does not depend on the table it closes descriptors in. -/
theorem recvFinish_result {α : Type} (dec : Parser α) (t t' : FdTable) (r : RecvMsg) (fds : List Nat)
    (hc : r.cmsgs = rightsCmsg fds) : (recvFinish dec t r).2 = (recvFinish dec t' r).2 := by
  simp only [recvFinish, hc, recvCmsgs_rights]
  split
  · rfl
  split
  · rfl
  cases deserialize dec r.bytes <;> rfl

/-- What it does to the table: it closes at most the first descriptor, and does not if it returns
it. -/
theorem recvFinish_table {α : Type} (dec : Parser α) (t : FdTable) (r : RecvMsg) (fds : List Nat)
    (hc : r.cmsgs = rightsCmsg fds) :
    (∃ m, recvFinish dec t r = (t, .ok (some (m, fds.head?)))) ∨
    ((recvFinish dec t r).1 = dropHandle t fds.head? ∧ ∀ m h, (recvFinish dec t r).2 ≠ .ok (some (m, h))) := by
  simp only [recvFinish, hc, recvCmsgs_rights]
  split
  · exact .inr ⟨rfl, by simp⟩
  split
  · exact .inr ⟨rfl, by simp⟩
  cases deserialize dec r.bytes with
  | none => exact .inr ⟨rfl, by simp⟩
  | some m => exact .inl ⟨m, rfl⟩

/-- The control messages received are as the kernel makes them. -/
def Loop.Wf (th : Loop) : Prop :=
  ∀ os r, th.phase = .received os (.ok r) → ∃ fds, r.cmsgs = rightsCmsg fds

/-- A step of a thread on a table: it changes only what it owns, what it gains is new. -/
structure LoopFrame (t : FdTable) (th : Loop) (t' : FdTable) (th' : Loop) : Prop where
  keep : ∀ fd, t.get fd ≠ none → fd ∉ th.owned → t'.get fd = t.get fd
  fresh : ∀ fd ∈ th'.owned, fd ∈ th.owned ∨ t.get fd = none
  present : ∀ fd ∈ th'.owned, t'.get fd ≠ none
  nodup : th'.owned.Nodup
  wf : th'.Wf

theorem rights_fds (fds : List Nat) : (rightsCmsg fds).flatMap (·.fds) = fds := by
  cases fds <;> simp [rightsCmsg]

/-- Keeping or closing: the new owned descriptors are among the old, and only others of the
old ones are closed. -/
theorem frame_of_erase (t : FdTable) (th th' : Loop) (h : Option Nat)
    (hp : ∀ fd ∈ th.owned, t.get fd ≠ none) (hh : ∀ fd, h = some fd → fd ∈ th.owned)
    (hsub : ∀ fd ∈ th'.owned, fd ∈ th.owned ∧ h ≠ some fd) (hn : th'.owned.Nodup) (hw : th'.Wf) :
    LoopFrame t th (dropHandle t h) th' := by
  refine ⟨?_, fun fd hfd => .inl (hsub fd hfd).1, ?_, hn, hw⟩
  · intro fd _ hno
    cases h with
    | none => rfl
    | some x =>
      simp only [dropHandle]
      rw [FdTable.get_erase, if_neg]
      rintro rfl
      exact hno (hh _ rfl)
  · intro fd hfd
    obtain ⟨h1, h2⟩ := hsub fd hfd
    cases h with
    | none => exact hp fd h1
    | some x =>
      simp only [dropHandle]
      rw [FdTable.get_erase, if_neg]
      · exact hp fd h1
      · rintro rfl
        exact h2 rfl

theorem receive_frame (abi : Abi) (t : FdTable) (th : Loop) (inc : Incoming) (os : OsChoice)
    (hi : th.phase = .idle) (hp : ∀ fd ∈ th.owned, t.get fd ≠ none) :
    LoopFrame t th (th.receive abi t inc os).1 (th.receive abi t inc os).2 := by
  have hown : th.owned = [th.chan] := by simp [Loop.owned, hi]
  have hchan : t.get th.chan ≠ none := hp _ (by rw [hown]; simp)
  cases inc with
  | error e =>
    refine ⟨fun _ _ _ => rfl, ?_, ?_, ?_, ?_⟩
    · intro fd h; left; simpa [Loop.receive, startRecv, Loop.owned, hi] using h
    · intro fd h
      have : fd = th.chan := by simpa [Loop.receive, startRecv, Loop.owned] using h
      rw [this]; exact hchan
    · simp [Loop.receive, startRecv, Loop.owned]
    · intro os' r h; simp [Loop.receive, startRecv] at h
  | eof =>
    refine ⟨fun _ _ _ => rfl, ?_, ?_, ?_, ?_⟩
    · intro fd h; left; simpa [Loop.receive, startRecv, Loop.owned, hi] using h
    · intro fd h
      have : fd = th.chan := by simpa [Loop.receive, startRecv, Loop.owned] using h
      rw [this]; exact hchan
    · simp [Loop.receive, startRecv, Loop.owned]
    · intro os' r h
      simp only [Loop.receive, startRecv, LoopPhase.received.injEq, Except.ok.injEq] at h
      exact ⟨[], by rw [← h.2]; rfl⟩
  | datagram d =>
    obtain ⟨h1, _, h3, h4⟩ := installAll_spec
      (d.files.take (min os.canInstall (maxFds abi (CMSG_SIZE abi)))) t
    have e1 : (th.receive abi t (.datagram d) os).1 =
        (installAll t (d.files.take (min os.canInstall (maxFds abi (CMSG_SIZE abi))))).1 := rfl
    have e2 : (th.receive abi t (.datagram d) os).2.owned = th.chan ::
        (installAll t (d.files.take (min os.canInstall (maxFds abi (CMSG_SIZE abi))))).2 := by
      simp only [Loop.receive, startRecv, Loop.owned, sysRecvmsg, rights_fds]
    rw [e1]
    refine ⟨fun fd h _ => h4 fd h, ?_, ?_, ?_, ?_⟩
    · rw [e2, hown]
      intro fd h
      rcases List.mem_cons.1 h with rfl | h
      · left; simp
      · right; exact (h3 fd h).1
    · rw [e2]
      intro fd h
      rcases List.mem_cons.1 h with rfl | h
      · rw [h4 _ hchan]; exact hchan
      · exact (h3 fd h).2
    · rw [e2, List.nodup_cons]
      exact ⟨fun hm => hchan (h3 _ hm).1, h1⟩
    · intro os' r h
      simp only [Loop.receive, startRecv, LoopPhase.received.injEq, Except.ok.injEq] at h
      exact ⟨_, by rw [← h.2]; rfl⟩

theorem go_frame [Target] (abi : Abi) (t : FdTable) (th : Loop) (hn : th.owned.Nodup) (hw : th.Wf)
    (hp : ∀ fd ∈ th.owned, t.get fd ≠ none) : LoopFrame t th (th.go abi t).1 (th.go abi t).2 := by
  obtain ⟨p, chan, phase, trace, socks⟩ := th
  have stay : ∀ th' : Loop, th'.owned = Loop.owned ⟨p, chan, phase, trace, socks⟩ → th'.Wf →
      LoopFrame t ⟨p, chan, phase, trace, socks⟩ t th' := fun th' e w =>
    frame_of_erase t _ th' none hp (by simp) (by rw [e]; exact fun fd h => ⟨h, by simp⟩)
      (by rw [e]; exact hn) w
  have nowf : ∀ (ph : LoopPhase) (tr so), (∀ os r, ph ≠ .received os (.ok r)) → Loop.Wf ⟨p, chan, ph, tr, so⟩ :=
    fun ph _ _ h os r e => absurd e (h os r)
  cases phase with
  | idle => exact stay _ rfl hw
  | gone why => exact stay _ rfl hw
  | leaving why =>
    exact frame_of_erase t _ _ (some chan) hp (by simp [Loop.owned]) (by simp [Loop.go, Loop.owned])
      (by simp [Loop.go, Loop.owned]) (nowf _ _ _ (by simp))
  | closing h next =>
    refine frame_of_erase t _ _ h hp ?_ ?_ ?_ ?_
    · intro fd e; simp [Loop.owned, e]
    · intro fd hfd
      have : fd = chan := by
        by_cases hx : next = .running <;> simpa [Loop.go, Loop.owned, hx] using hfd
      subst this
      refine ⟨by simp [Loop.owned], ?_⟩
      rintro rfl
      simp [Loop.owned] at hn
    · by_cases hx : next = .running <;> simp [Loop.go, Loop.owned, hx]
    · apply nowf
      intro os r
      by_cases hx : next = .running <;> simp [hx]
  | replying os resp h =>
    simp only [Loop.go]
    split
    · exact stay _ rfl (nowf _ _ _ (by simp))
    · exact stay _ rfl (nowf _ _ _ (by simp))
  | received os r =>
    cases r with
    | error e => exact stay _ rfl (nowf _ _ _ (by simp))
    | ok r =>
      obtain ⟨fds, hfds⟩ := hw os r rfl
      have hown : Loop.owned ⟨p, chan, .received os (.ok r), trace, socks⟩ = chan :: fds := by
        simp only [Loop.owned, hfds, rights_fds]
      simp only [Loop.go]
      have hne : ∀ x, afterRecv os x ≠ .idle := by
        intro x; unfold afterRecv; split <;> simp
      have hwf : ∀ x tr so, Loop.Wf ⟨p, chan, afterRecv os x, tr, so⟩ := by
        intro x tr so
        apply nowf
        intro os' r'
        unfold afterRecv; split <;> simp
      rw [hown] at hn
      rcases recvFinish_table decRequest t r fds hfds with ⟨m, he⟩ | ⟨h1, h2⟩
      · rw [he]
        cases fds with
        | nil =>
          exact frame_of_erase t _ _ none hp (by simp)
            (by simp [Loop.owned, afterRecv, hfds]) (by simp [Loop.owned, afterRecv]) (hwf _ _ _)
        | cons fd fds =>
          refine frame_of_erase t _ _ none hp (by simp) ?_ ?_ (hwf _ _ _)
          · rw [hown]
            intro x hx
            simp only [Loop.owned, afterRecv, List.head?_cons, Option.toList_some, List.mem_cons,
              List.not_mem_nil, or_false] at hx
            refine ⟨?_, by simp⟩
            simp only [List.mem_cons]
            rcases hx with h | h
            · exact .inl h
            · exact .inr (.inl h)
          · simp only [Loop.owned, afterRecv, List.head?_cons, Option.toList_some]
            simp only [List.nodup_cons, List.mem_cons, not_or] at hn
            simp [hn.1.1]
      · rw [h1]
        have hleave : afterRecv os (recvFinish decRequest t r).2 = .leaving .ended := by
          generalize (recvFinish decRequest t r).2 = x at h2
          unfold afterRecv
          split
          · exact absurd rfl (h2 _ _)
          · exact absurd rfl (h2 _ _)
          · rfl
        rw [hleave]
        refine frame_of_erase t _ _ _ hp ?_ ?_ (by simp [Loop.owned]) (nowf _ _ _ (by simp))
        · intro fd e
          rw [hown]
          exact List.mem_cons_of_mem _ (List.mem_of_mem_head? e)
        · intro fd hfd
          have : fd = chan := by simpa [Loop.owned] using hfd
          subst this
          refine ⟨by rw [hown]; simp, fun e => ?_⟩
          rw [List.nodup_cons] at hn
          exact hn.1 (List.mem_of_mem_head? e)
  | serving os m =>
    have hown : Loop.owned ⟨p, chan, .serving os m, trace, socks⟩ = [chan] := rfl
    have hchan : t.get chan ≠ none := hp _ (by rw [hown]; simp)
    simp only [Loop.go]
    cases m with
    | initialization => exact stay _ rfl (nowf _ _ _ (by simp))
    | syscall nb args ip => exact stay _ rfl (nowf _ _ _ (by simp))
    | openFile path flags =>
      simp only [serveRequest, proxiedOpenFile]
      by_cases hg : (p.evaluate (.fileOpen path flags)).1 ≠ .granted
      · simp only [if_pos hg]
        exact stay _ rfl (nowf _ _ _ (by simp))
      · simp only [if_neg hg]
        by_cases hz : '\x00' ∈ path
        · simp only [if_pos hz]
          exact stay _ rfl (nowf _ _ _ (by simp))
        · simp only [if_neg hz]
          cases os.openResult with
          | error e => exact stay _ rfl (nowf _ _ _ (by simp))
          | ok file =>
            simp only
            have hfree := t.lowestFree_spec.1
            have hkeep : ∀ fd, t.get fd ≠ none → (t.alloc ⟨file, if flags &&& O_CLOEXEC ≠ 0#32 then
                FD_CLOEXEC else 0#32⟩).2.get fd = t.get fd := by
              intro fd h
              rw [FdTable.get_alloc, if_neg]
              rintro rfl
              exact h hfree
            refine ⟨fun fd h _ => hkeep fd h, ?_, ?_, ?_, nowf _ _ _ (by simp)⟩
            · intro fd hfd
              simp only [Loop.owned, Option.toList_some, List.mem_cons, List.not_mem_nil, or_false] at hfd
              rcases hfd with rfl | rfl
              · left; rw [hown]; simp
              · right; exact hfree
            · intro fd hfd
              simp only [Loop.owned, Option.toList_some, List.mem_cons, List.not_mem_nil, or_false] at hfd
              rcases hfd with rfl | rfl
              · rw [hkeep _ hchan]; exact hchan
              · rw [FdTable.get_alloc]
                simp [FdTable.alloc]
            · simp only [Loop.owned, Option.toList_some, List.nodup_cons, List.mem_cons,
                List.not_mem_nil, or_false, not_false_eq_true, List.nodup_nil, and_true]
              intro h
              exact hchan (h ▸ hfree)

/-- No descriptor belongs to two threads, and those that belong to one are open. -/
structure Loops.Inv (w : Loops) : Prop where
  nodup : ∀ j, (w.threads j).owned.Nodup
  apart : ∀ j k, j ≠ k → ∀ fd ∈ (w.threads j).owned, fd ∉ (w.threads k).owned
  present : ∀ j, ∀ fd ∈ (w.threads j).owned, w.table.get fd ≠ none
  wf : ∀ j, (w.threads j).Wf

theorem inv_put (w : Loops) (j : Nat) (x : FdTable × Loop) (hi : w.Inv)
    (hf : LoopFrame w.table (w.threads j) x.1 x.2) : (w.put j x).Inv := by
  have hmine : (w.put j x).threads j = x.2 := by simp [Loops.put]
  have hother : ∀ k, k ≠ j → (w.put j x).threads k = w.threads k := fun k hk => by
    simp [Loops.put, hk]
  have hnew : ∀ k, k ≠ j → ∀ fd ∈ x.2.owned, fd ∉ (w.threads k).owned := by
    intro k hk fd hfd hm
    rcases hf.fresh fd hfd with h | h
    · exact hi.apart j k (Ne.symm hk) fd h hm
    · exact hi.present k fd hm h
  refine ⟨?_, ?_, ?_, ?_⟩
  · intro k
    by_cases hk : k = j
    · rw [hk, hmine]; exact hf.nodup
    · rw [hother k hk]; exact hi.nodup k
  · intro a b hab fd hfd
    by_cases ha : a = j
    · rw [ha, hmine] at hfd
      have hb : b ≠ j := fun h => hab (ha.trans h.symm)
      rw [hother b hb]
      exact hnew b hb fd hfd
    · rw [hother a ha] at hfd
      by_cases hb : b = j
      · rw [hb, hmine]
        exact fun h => hnew a ha fd h hfd
      · rw [hother b hb]
        exact hi.apart a b hab fd hfd
  · intro k fd hfd
    by_cases hk : k = j
    · rw [hk, hmine] at hfd
      exact hf.present fd hfd
    · rw [hother k hk] at hfd
      have h1 := hi.present k fd hfd
      have h2 := hf.keep fd h1 (hi.apart k j hk fd hfd)
      show x.1.get fd ≠ none
      rw [h2]; exact h1
  · intro k
    by_cases hk : k = j
    · rw [hk, hmine]; exact hf.wf
    · rw [hother k hk]; exact hi.wf k

theorem inv_fresh (w : Loops) (h : Fresh w) : w.Inv := by
  have hown : ∀ j, (w.threads j).owned = [(w.threads j).chan] ∧ (w.threads j).phase = .idle ∨
      (w.threads j).owned = [] := by
    intro j
    rcases h.phase j with hp | ⟨why, hp⟩
    · left; exact ⟨by simp [Loop.owned, hp], hp⟩
    · right; simp [Loop.owned, hp]
  refine ⟨?_, ?_, ?_, ?_⟩
  · intro j
    rcases hown j with ⟨e, _⟩ | e <;> simp [e]
  · intro a b hab fd ha hb
    rcases hown a with ⟨e, pa⟩ | e
    · rcases hown b with ⟨e', pb⟩ | e'
      · rw [e] at ha; rw [e'] at hb
        simp only [List.mem_cons, List.not_mem_nil, or_false] at ha hb
        exact h.apart a b pa pb hab (ha.symm.trans hb)
      · rw [e'] at hb; simp at hb
    · rw [e] at ha; simp at ha
  · intro j fd hfd
    rcases hown j with ⟨e, pj⟩ | e
    · rw [e] at hfd
      simp only [List.mem_cons, List.not_mem_nil, or_false] at hfd
      rw [hfd]
      exact Option.isSome_iff_ne_none.1 (h.chan j pj)
    · rw [e] at hfd; simp at hfd
  · intro j os r e
    rcases h.phase j with hp | ⟨why, hp⟩ <;> rw [hp] at e <;> cases e

theorem exec_inv [Target] (abi : Abi) (ok : FdTable → Prop) (w w' : Loops) (ls : List LoopStep)
    (h : w.Inv) (he : LoopsExec abi ok w ls w') : w'.Inv := by
  induction he with
  | start _ => exact h
  | recv ls w1 j inc os _ hidle _ ih =>
    exact inv_put _ _ _ ih (receive_frame abi _ _ inc os hidle (ih.present j))
  | go ls w1 j _ _ ih =>
    exact inv_put _ _ _ ih (go_frame abi _ _ (ih.nodup j) (ih.wf j) (ih.present j))
  | other ls w1 t _ hf _ ih =>
    refine ⟨ih.nodup, ih.apart, ?_, ih.wf⟩
    intro j fd hfd
    show t.get fd ≠ none
    rw [hf j fd hfd]
    exact ih.present j fd hfd

/-! ## Each thread does what it would do alone -/

/-- What is assumed of the table at all times: few descriptors, and on LP64 always the same file at
descriptor 0. -/
def Calm (abi : Abi) (f : Nat) (t : FdTable) : Prop := Bounded t ∧ (abi = .lp64 → StdinIs f t)

theorem channelSend_open (abi : Abi) (t t0 : FdTable) (f : Nat) (data : Bytes) (fd : Nat) (e : FdEntry)
    (hlt : fd < 2 ^ 32) (hget : t.get fd = some e) (h : Calm abi f t) (h0 : Calm abi f t0) :
    channelSend abi t (some data) (some fd) none = .ok ⟨data, attached abi t0 e.file⟩ := by
  simp only [channelSend, sysSendmsg]
  cases abi with
  | ilp32 =>
    rw [scmSend_ilp32 _ _ hlt]
    simp [lookupFds, hget, Except.map, attached]
  | lp64 =>
    rw [scmSend_lp64 _ _ hlt]
    have a := h.2 rfl
    have b := h0.2 rfl
    simp only [StdinIs, Option.map_eq_some_iff] at a b
    obtain ⟨x, hx, hxf⟩ := a
    obtain ⟨y, hy, hyf⟩ := b
    simp only [lookupFds, hget, hx, Except.map, attached, hy, hxf, hyf]

/-- The handle of a reply, for the file that is to go with it. -/
def Holding (t : FdTable) : Option Nat → Option Nat → Prop
  | none, h => h = none
  | some file, h => ∃ fd e, h = some fd ∧ fd < 2 ^ 32 ∧ t.get fd = some e ∧ e.file = file

/-- What `recvmsg` returned is what `recv` makes `inc` of, in any table. -/
def Means (inc : Incoming) (r : Except Nat RecvMsg) : Prop :=
  match classify inc with
  | .request m => ∃ r', r = .ok r' ∧ ∀ t, recvFinish decRequest t r' = (t, .ok (some (m, none)))
  | .hangup => ∀ r', r = .ok r' → ∀ t m, (recvFinish decRequest t r').2 ≠ .ok (some (m, none))

theorem startRecv_means (abi : Abi) (t : FdTable) (inc : Incoming) (os : OsChoice) :
    Means inc (startRecv abi t os inc).2 := by
  unfold Means
  have link : ∀ (t : FdTable) (r : RecvMsg), (startRecv abi t os inc).2 = .ok r →
      channelRecv abi decRequest IPC_MESSAGE_MAX_SIZE os.canInstall t inc =
        recvFinish decRequest (startRecv abi t os inc).1 r := by
    intro t r h
    cases inc with
    | error e => simp [startRecv] at h
    | eof => simp only [startRecv, Except.ok.injEq] at h; rw [← h]; rfl
    | datagram d => simp only [startRecv, Except.ok.injEq] at h; rw [← h]; rfl
  have rights : ∀ (r : RecvMsg), (startRecv abi t os inc).2 = .ok r → ∃ fds, r.cmsgs = rightsCmsg fds := by
    intro r h
    cases inc with
    | error e => simp [startRecv] at h
    | eof => simp only [startRecv, Except.ok.injEq] at h; exact ⟨[], by rw [← h]; rfl⟩
    | datagram d => simp only [startRecv, Except.ok.injEq] at h; exact ⟨_, by rw [← h]; rfl⟩
  cases hc : classify inc with
  | request m =>
    match inc, hc with
    | .datagram ⟨data, []⟩, hc =>
      refine ⟨_, rfl, fun t2 => ?_⟩
      have h := recv_request hc abi os.canInstall t2
      rw [link t2 _ rfl] at h
      have e1 : (startRecv abi t2 os (.datagram ⟨data, []⟩)).1 = t2 := by
        simp [startRecv, sysRecvmsg, installAll]
      have e2 : (sysRecvmsg abi os.canInstall t IPC_MESSAGE_MAX_SIZE (CMSG_SIZE abi) ⟨data, []⟩).2 =
          (sysRecvmsg abi os.canInstall t2 IPC_MESSAGE_MAX_SIZE (CMSG_SIZE abi) ⟨data, []⟩).2 := by
        simp [sysRecvmsg, installAll]
      rw [e1] at h
      rw [e2]
      exact h
  | hangup =>
    intro r hr t2 m he
    obtain ⟨fds, hfds⟩ := rights r hr
    have h := recv_hangup hc abi os.canInstall t (recvFinish decRequest (startRecv abi t os inc).1 r).1 m
    rw [link t r hr] at h
    apply h
    rw [recvFinish_result decRequest t2 (startRecv abi t os inc).1 r fds hfds] at he
    rw [← he]

/-- The thread is where it would be if it had been served alone. -/
def Tracks [Target] (abi : Abi) (t0 : FdTable) (ins : List (Incoming × OsChoice)) (t : FdTable)
    (th : Loop) : Prop :=
  match th.phase with
  | .idle => alone abi t0 th ins = ⟨t0, th.chan, .running, th.trace⟩
  | .received os r => ∃ ins' inc, ins = ins' ++ [(inc, os)] ∧
      alone abi t0 th ins' = ⟨t0, th.chan, .running, th.trace⟩ ∧ Means inc r
  | .serving os m => ∃ ins' inc, ins = ins' ++ [(inc, os)] ∧
      alone abi t0 th ins' = ⟨t0, th.chan, .running, th.trace⟩ ∧ classify inc = .request m
  | .replying os resp h => ∃ ins' inc m tr, ins = ins' ++ [(inc, os)] ∧
      alone abi t0 th ins' = ⟨t0, th.chan, .running, tr⟩ ∧ classify inc = .request m ∧
      ¬ Crashes th.policy m ∧ th.trace = tr ++ (notes th.policy m ++ openActs th.policy m) ∧
      resp = .syscallResult (answer th.policy os m).1 ∧ Holding t (answer th.policy os m).2 h
  | .closing _ next => (next = .running ∧ alone abi t0 th ins = ⟨t0, th.chan, .running, th.trace⟩) ∨
      (next ≠ .running ∧ (alone abi t0 th ins).trace = th.trace ∧ (alone abi t0 th ins).status = next)
  | .leaving why => why ≠ .running ∧ (alone abi t0 th ins).trace = th.trace ∧
      (alone abi t0 th ins).status = why
  | .gone why => why ≠ .running ∧ (alone abi t0 th ins).trace = th.trace ∧
      (alone abi t0 th ins).status = why

theorem alone_snoc [Target] (abi : Abi) (t0 : FdTable) (th : Loop) (ins : List (Incoming × OsChoice))
    (inc : Incoming) (os : OsChoice) :
    alone abi t0 th (ins ++ [(inc, os)]) = (alone abi t0 th ins).step abi th.policy inc os := by
  simp only [alone, run_append]; rfl

/-- Changing descriptors that are not the thread's changes nothing for it. -/
theorem tracks_frame [Target] (abi : Abi) (t0 : FdTable) (ins : List (Incoming × OsChoice)) (t t' : FdTable)
    (th : Loop) (h : Tracks abi t0 ins t th) (hk : ∀ fd ∈ th.owned, t'.get fd = t.get fd) :
    Tracks abi t0 ins t' th := by
  obtain ⟨p, chan, phase, trace, socks⟩ := th
  cases phase with
  | replying os resp hd =>
    obtain ⟨ins', inc, m, tr, h1, h2, h3, h4, h5, h6, h7⟩ := h
    refine ⟨ins', inc, m, tr, h1, h2, h3, h4, h5, h6, ?_⟩
    revert h7
    cases (answer p os m).2 with
    | none => exact id
    | some file =>
      rintro ⟨fd, e, rfl, b, c, d⟩
      exact ⟨fd, e, rfl, b, by rw [hk fd (by simp [Loop.owned])]; exact c, d⟩
  | _ => exact h

theorem tracks_receive [Target] (abi : Abi) (t0 : FdTable) (ins : List (Incoming × OsChoice)) (t : FdTable)
    (th : Loop) (inc : Incoming) (os : OsChoice) (hi : th.phase = .idle) (h : Tracks abi t0 ins t th) :
    Tracks abi t0 (ins ++ [(inc, os)]) (th.receive abi t inc os).1 (th.receive abi t inc os).2 := by
  simp only [Tracks, hi] at h
  exact ⟨ins, inc, rfl, h, startRecv_means abi t inc os⟩

theorem tracks_go [Target] (abi : Abi) (t0 : FdTable) (f : Nat) (ins : List (Incoming × OsChoice))
    (t : FdTable) (th : Loop) (h0 : Calm abi f t0) (ht : Calm abi f t) (h : Tracks abi t0 ins t th) :
    Tracks abi t0 ins (th.go abi t).1 (th.go abi t).2 := by
  obtain ⟨p, chan, phase, trace, socks⟩ := th
  have hlen : t0.length < 2 ^ 31 := h0.1
  cases phase with
  | idle => exact h
  | gone why => exact h
  | leaving why => exact h
  | closing hd next =>
    rcases h with ⟨rfl, h⟩ | ⟨hne, h⟩
    · exact h
    · simp only [Loop.go, Tracks, if_neg hne]
      exact ⟨hne, h⟩
  | received os r =>
    obtain ⟨ins', inc, rfl, h2, h3⟩ := h
    unfold Means at h3
    cases hc : classify inc with
    | request m =>
      rw [hc] at h3
      obtain ⟨r', rfl, h4⟩ := h3
      simp only [Loop.go, h4, afterRecv]
      exact ⟨ins', inc, rfl, h2, hc⟩
    | hangup =>
      rw [hc] at h3
      have hend : ∀ (th : Loop), th.policy = p → th.chan = chan → th.trace = trace →
          (alone abi t0 th (ins' ++ [(inc, os)])).trace = th.trace ∧
          (alone abi t0 th (ins' ++ [(inc, os)])).status = .ended := by
        intro th e1 e2 e3
        rw [alone_snoc, e1, e3]
        have e : alone abi t0 th ins' = ⟨t0, chan, .running, trace⟩ := by
          rw [← h2]; simp only [alone, e1, e2]
        rw [e, step_hangup abi p _ inc os rfl hc]
        exact ⟨rfl, rfl⟩
      cases r with
      | error e => exact ⟨by simp, hend _ rfl rfl rfl⟩
      | ok r =>
        have h4 := h3 r rfl t
        simp only [Loop.go]
        generalize recvFinish decRequest t r = y at h4
        obtain ⟨t', x⟩ := y
        simp only at h4 ⊢
        unfold afterRecv
        split
        · exact absurd rfl (h4 _)
        · exact .inr ⟨by simp, hend _ rfl rfl rfl⟩
        · exact ⟨by simp, hend _ rfl rfl rfl⟩
  | serving os m =>
    obtain ⟨ins', inc, rfl, h2, h3⟩ := h
    simp only [Loop.go]
    cases m with
    | initialization =>
      simp only [serveRequest]
      refine ⟨ins', inc, .initialization, trace, rfl, h2, h3, by simp [Crashes], ?_, ?_, ?_⟩
      · simp [notes, openActs, toOpen]
      · simp [answer, negErrno, EINVAL]
      · rfl
    | syscall nb args ip =>
      simp only [serveRequest, proxiedSyscall]
      refine ⟨ins', inc, _, trace, rfl, h2, h3, by simp [Crashes], ?_, ?_, ?_⟩
      · simp [notes, openActs, toOpen]
      · simp [answer, negErrno, ENOSYS]
      · rfl
    | openFile path flags =>
      simp only [serveRequest, proxiedOpenFile]
      by_cases hg : Grants p path flags
      · have hg' : (p.evaluate (.fileOpen path flags)).1 = .granted := hg
        simp only [hg', ne_eq, not_true_eq_false, if_false]
        by_cases hn : '\x00' ∈ path
        · simp only [hn, if_true]
          have hend : ∀ (th : Loop), th.policy = p → th.chan = chan →
              (alone abi t0 th (ins' ++ [(inc, os)])).trace =
                trace ++ (p.evaluate (.fileOpen path flags)).2.map Action.notified ∧
              (alone abi t0 th (ins' ++ [(inc, os)])).status = .panicked := by
            intro th e1 e2
            rw [alone_snoc, e1]
            have e : alone abi t0 th ins' = ⟨t0, chan, .running, trace⟩ := by
              rw [← h2]; simp only [alone, e1, e2]
            rw [e, step_request abi p _ inc os _ rfl hlen h3,
              if_pos (show Crashes p (.openFile path flags) from ⟨hg, hn⟩)]
            exact ⟨rfl, rfl⟩
          exact ⟨by simp, hend _ rfl rfl⟩
        · have hnc : ¬ Crashes p (.openFile path flags) := fun h => hn h.2
          simp only [hn, if_false]
          cases ho : os.openResult with
          | error e =>
            refine ⟨ins', inc, _, trace, rfl, h2, h3, hnc, ?_, ?_, ?_⟩
            · simp [notes, openActs, toOpen, hg]
            · simp [answer, hg, ho, negErrno]
            · simp [answer, hg, ho, Holding]
          | ok file =>
            refine ⟨ins', inc, _, trace, rfl, h2, h3, hnc, ?_, ?_, ?_⟩
            · simp [notes, openActs, toOpen, hg]
            · simp [answer, hg, ho]
            · simp only [answer, hg, ho, if_true, Holding]
              have h1 := t.lowestFree_le
              have h2 : t.length < 2 ^ 31 := ht.1
              exact ⟨_, _, rfl, by simp only [FdTable.alloc]; omega,
                by rw [FdTable.get_alloc]; exact if_pos rfl, rfl⟩
      · have hg' : ¬ (p.evaluate (.fileOpen path flags)).1 = .granted := hg
        have hnc : ¬ Crashes p (.openFile path flags) := fun h => hg h.1
        simp only [hg', ne_eq, not_false_eq_true, if_true]
        refine ⟨ins', inc, _, trace, rfl, h2, h3, hnc, ?_, ?_, ?_⟩
        · simp [notes, openActs, toOpen, hg]
        · simp [answer, hg, negErrno, EACCES]
        · simp [answer, hg, Holding]
  | replying os resp hd =>
    obtain ⟨ins', inc, m, tr, rfl, h2, h3, h4, h5, h6, h7⟩ := h
    simp only at h4 h5 h6 h7
    subst h6
    obtain ⟨data, hdata⟩ := serialize_result (answer p os m).1
    have hstep : ∀ (th : Loop), th.policy = p → th.chan = chan →
        alone abi t0 th (ins' ++ [(inc, os)]) = Broker.step abi p ⟨t0, chan, .running, tr⟩ inc os := by
      intro th e1 e2
      rw [alone_snoc, e1]
      have e : alone abi t0 th ins' = ⟨t0, chan, .running, tr⟩ := by
        rw [← h2]; simp only [alone, e1, e2]
      rw [e]
    rw [step_request abi p ⟨t0, chan, .running, tr⟩ inc os m rfl hlen h3, if_neg h4] at hstep
    simp only [Loop.go]
    cases he : os.sendError with
    | some e =>
      obtain ⟨x, hx⟩ := channelSend_fails abi t (sendResponse (.syscallResult (answer p os m).1)) hd e
      rw [he] at hstep
      simp only [hx]
      refine .inr ⟨by simp, ?_, ?_⟩ <;> rw [hstep _ rfl rfl]
      exact h5.symm
    | none =>
      rw [he] at hstep
      have hsend : channelSend abi t (sendResponse (.syscallResult (answer p os m).1)) hd none =
          .ok ⟨data, replyFiles abi p t0 os m⟩ := by
        rw [hdata]
        unfold replyFiles
        revert h7
        cases (answer p os m).2 with
        | none =>
          rintro h7
          rw [show hd = none from h7]
          exact channelSend_plain abi t data
        | some file =>
          rintro ⟨fd, e, rfl, b, c, rfl⟩
          exact channelSend_open abi t t0 f data fd e b c ht h0
      simp only [hsend]
      refine .inl ⟨rfl, ?_⟩
      rw [hstep _ rfl rfl]
      simp only [h5]

theorem exec_ok [Target] (abi : Abi) (ok : FdTable → Prop) (w w' : Loops) (ls : List LoopStep)
    (he : LoopsExec abi ok w ls w') : ok w'.table := by
  cases he with
  | start h => exact h
  | recv _ _ _ _ _ _ _ h => exact h
  | go _ _ _ _ h => exact h
  | other _ _ _ _ _ h => exact h

theorem exec_start [Target] (abi : Abi) (ok : FdTable → Prop) (w w' : Loops) (ls : List LoopStep)
    (he : LoopsExec abi ok w ls w') : ok w.table := by
  induction he with
  | start h => exact h
  | recv _ _ _ _ _ _ _ _ ih => exact ih
  | go _ _ _ _ _ ih => exact ih
  | other _ _ _ _ _ _ ih => exact ih

theorem go_const [Target] (abi : Abi) (t : FdTable) (th : Loop) :
    (th.go abi t).2.policy = th.policy ∧ (th.go abi t).2.chan = th.chan := by
  unfold Loop.go
  split
  all_goals first
    | exact ⟨rfl, rfl⟩
    | (split <;> exact ⟨rfl, rfl⟩)

theorem exec_const [Target] (abi : Abi) (ok : FdTable → Prop) (w w' : Loops) (ls : List LoopStep)
    (he : LoopsExec abi ok w ls w') (i : Nat) :
    (w'.threads i).policy = (w.threads i).policy ∧ (w'.threads i).chan = (w.threads i).chan := by
  induction he with
  | start _ => exact ⟨rfl, rfl⟩
  | recv ls w1 j inc os _ _ _ ih =>
    simp only [Loops.put]
    split
    · rename_i e; subst e; exact ih
    · exact ih
  | go ls w1 j _ _ ih =>
    simp only [Loops.put]
    split
    · rename_i e; subst e
      exact ⟨(go_const abi _ _).1.trans ih.1, (go_const abi _ _).2.trans ih.2⟩
    · exact ih
  | other _ _ _ _ _ _ ih => exact ih

theorem inputsOf_recv (i j : Nat) (ls : List LoopStep) (inc : Incoming) (os : OsChoice) :
    inputsOf i (ls ++ [.recv j inc os]) = if j = i then inputsOf i ls ++ [(inc, os)] else inputsOf i ls := by
  by_cases h : j = i <;> simp [inputsOf, h]

theorem inputsOf_go (i j : Nat) (ls : List LoopStep) : inputsOf i (ls ++ [.go j]) = inputsOf i ls := by
  simp [inputsOf]

theorem alone_congr [Target] (abi : Abi) (t : FdTable) (th th' : Loop)
    (ins : List (Incoming × OsChoice)) (hp : th'.policy = th.policy) (hc : th'.chan = th.chan) :
    alone abi t th' ins = alone abi t th ins := by
  simp only [alone, hp, hc]

/-- In any execution, every thread that existed at the start is where it would be alone. -/
theorem exec_tracks [Target] (abi : Abi) (f : Nat) (w w' : Loops) (ls : List LoopStep) (hf : Fresh w)
    (he : LoopsExec abi (Calm abi f) w ls w') (i : Nat) (hi : (w.threads i).phase = .idle) :
    Tracks abi w.table (inputsOf i ls) w'.table (w'.threads i) := by
  induction he with
  | start _ =>
    simp only [Tracks, hi, inputsOf, List.filterMap_nil, hf.trace]
    rfl
  | recv ls w1 j inc os he hidle hok ih =>
    have inv := exec_inv abi _ w w1 ls (inv_fresh w hf) he
    rw [inputsOf_recv]
    by_cases hj : j = i
    · subst hj
      simp only [if_true, Loops.put]
      exact tracks_receive abi w.table _ w1.table _ inc os hidle ih
    · have hj' : i ≠ j := fun e => hj e.symm
      simp only [if_neg hj, Loops.put, if_neg hj']
      refine tracks_frame abi _ _ _ _ _ ih fun fd hfd => ?_
      exact (receive_frame abi w1.table (w1.threads j) inc os hidle (inv.present j)).keep fd
        (inv.present i fd hfd) (inv.apart i j hj' fd hfd)
  | go ls w1 j he hok ih =>
    have inv := exec_inv abi _ w w1 ls (inv_fresh w hf) he
    rw [inputsOf_go]
    by_cases hj : i = j
    · subst hj
      simp only [Loops.put, if_true]
      exact tracks_go abi w.table f _ w1.table _ (exec_start abi _ w w1 ls he) (exec_ok abi _ w w1 ls he) ih
    · simp only [Loops.put, if_neg hj]
      refine tracks_frame abi _ _ _ _ _ ih fun fd hfd => ?_
      exact (go_frame abi w1.table (w1.threads j) (inv.nodup j) (inv.wf j) (inv.present j)).keep fd
        (inv.present i fd hfd) (inv.apart i j hj fd hfd)
  | other ls w1 t he hfr hok ih => exact tracks_frame abi _ _ _ _ _ ih fun fd hfd => hfr i fd hfd

theorem get_dropHandle (t : FdTable) (h : Option Nat) (fd : Nat) (hne : h ≠ some fd) :
    (dropHandle t h).get fd = t.get fd := by
  cases h with
  | none => rfl
  | some x =>
    simp only [dropHandle]
    rw [FdTable.get_erase, if_neg]
    rintro rfl
    exact hne rfl

/-- A step does not change what the thread's channel refers to while the thread has it. -/
theorem go_sockets [Target] (abi : Abi) (t : FdTable) (th : Loop) (s : Option Nat) (hn : th.owned.Nodup)
    (hw : th.Wf) (hp : ∀ fd ∈ th.owned, t.get fd ≠ none) (h1 : ∀ x ∈ th.sockets, x = s)
    (h2 : th.chan ∈ th.owned → socketOf t th.chan = s) :
    (∀ x ∈ (th.go abi t).2.sockets, x = s) ∧
    ((th.go abi t).2.chan ∈ (th.go abi t).2.owned → socketOf (th.go abi t).1 (th.go abi t).2.chan = s) := by
  obtain ⟨p, chan, phase, trace, socks⟩ := th
  simp only at h1
  cases phase with
  | idle => exact ⟨h1, h2⟩
  | gone why => exact ⟨h1, h2⟩
  | leaving why => exact ⟨h1, by simp [Loop.go, Loop.owned]⟩
  | closing h next =>
    refine ⟨h1, fun _ => ?_⟩
    rw [← h2 (by simp [Loop.owned])]
    have hne : h ≠ some chan := by
      rintro rfl
      simp [Loop.owned] at hn
    simp only [Loop.go, socketOf, get_dropHandle t h chan hne]
  | replying os resp h =>
    have hs := h2 (by simp [Loop.owned])
    simp only [Loop.go]
    split
    all_goals
      refine ⟨?_, fun _ => hs⟩
      intro x hx
      simp only [List.mem_append, List.mem_cons, List.not_mem_nil, or_false] at hx
      rcases hx with hx | rfl
      · exact h1 x hx
      · exact hs
  | received os r =>
    cases r with
    | error e => exact ⟨h1, fun _ => h2 (by simp [Loop.owned])⟩
    | ok r =>
      obtain ⟨fds, hfds⟩ := hw os r rfl
      have hown : Loop.owned ⟨p, chan, .received os (.ok r), trace, socks⟩ = chan :: fds := by
        simp only [Loop.owned, hfds, rights_fds]
      rw [hown] at hn h2
      rw [List.nodup_cons] at hn
      refine ⟨h1, fun _ => ?_⟩
      rw [← h2 (by simp)]
      simp only [Loop.go]
      rcases recvFinish_table decRequest t r fds hfds with ⟨m, he⟩ | ⟨he, _⟩
      · rw [he]
      · rw [he]
        simp only [socketOf]
        rw [get_dropHandle]
        exact fun e => hn.1 (List.mem_of_mem_head? e)
  | serving os m =>
    have hown : Loop.owned ⟨p, chan, .serving os m, trace, socks⟩ = [chan] := rfl
    have hchan : t.get chan ≠ none := hp _ (by rw [hown]; simp)
    have hs := h2 (by simp [Loop.owned])
    have halloc : ∀ e, socketOf (t.alloc e).2 chan = s := by
      intro e
      rw [← hs]
      simp only [socketOf]
      rw [FdTable.get_alloc, if_neg]
      rintro rfl
      exact hchan t.lowestFree_spec.1
    simp only [Loop.go]
    cases m with
    | initialization => exact ⟨h1, fun _ => hs⟩
    | syscall nb args ip => exact ⟨h1, fun _ => hs⟩
    | openFile path flags =>
      simp only [serveRequest, proxiedOpenFile]
      by_cases hg : (p.evaluate (.fileOpen path flags)).1 ≠ .granted
      · simp only [if_pos hg]; exact ⟨h1, fun _ => hs⟩
      · simp only [if_neg hg]
        by_cases hz : '\x00' ∈ path
        · simp only [if_pos hz]; exact ⟨h1, fun _ => hs⟩
        · simp only [if_neg hz]
          cases os.openResult with
          | error e => exact ⟨h1, fun _ => hs⟩
          | ok file => exact ⟨h1, fun _ => halloc _⟩

/-- Every system call of a thread on its channel is made on the socket it was given. -/
theorem exec_sockets [Target] (abi : Abi) (ok : FdTable → Prop) (w w' : Loops) (ls : List LoopStep)
    (hf : Fresh w) (he : LoopsExec abi ok w ls w') (i : Nat) :
    (∀ s ∈ (w'.threads i).sockets, s = socketOf w.table (w.threads i).chan) ∧
    ((w'.threads i).chan ∈ (w'.threads i).owned →
      socketOf w'.table (w'.threads i).chan = socketOf w.table (w.threads i).chan) := by
  induction he with
  | start _ => exact ⟨by simp [hf.sockets i], fun _ => rfl⟩
  | recv ls w1 j inc os he hidle hok ih =>
    have inv := exec_inv abi _ w w1 ls (inv_fresh w hf) he
    have fr := receive_frame abi w1.table (w1.threads j) inc os hidle (inv.present j)
    by_cases hj : i = j
    · subst hj
      have hown : (w1.threads i).chan ∈ (w1.threads i).owned := by simp [Loop.owned, hidle]
      have hs := ih.2 hown
      simp only [Loops.put, if_true]
      refine ⟨?_, fun _ => ?_⟩
      · intro s hm
        simp only [Loop.receive, List.mem_append, List.mem_cons, List.not_mem_nil, or_false] at hm
        rcases hm with hm | rfl
        · exact ih.1 s hm
        · exact hs
      · rw [← hs]
        show socketOf _ (w1.threads i).chan = _
        have hopen := inv.present i _ hown
        have : ((w1.threads i).receive abi w1.table inc os).1.get (w1.threads i).chan =
            w1.table.get (w1.threads i).chan := by
          cases inc with
          | error e => rfl
          | eof => rfl
          | datagram d => exact (installAll_spec _ _).2.2.2 _ hopen
        simp only [socketOf, this]
    · simp only [Loops.put, if_neg hj]
      refine ⟨ih.1, fun hown => ?_⟩
      rw [← ih.2 hown]
      simp only [socketOf]
      rw [fr.keep _ (inv.present i _ hown) (inv.apart i j hj _ hown)]
  | go ls w1 j he hok ih =>
    have inv := exec_inv abi _ w w1 ls (inv_fresh w hf) he
    have fr := go_frame abi w1.table (w1.threads j) (inv.nodup j) (inv.wf j) (inv.present j)
    by_cases hj : i = j
    · subst hj
      simp only [Loops.put, if_true]
      exact go_sockets abi w1.table _ _ (inv.nodup i) (inv.wf i) (inv.present i) ih.1 ih.2
    · simp only [Loops.put, if_neg hj]
      refine ⟨ih.1, fun hown => ?_⟩
      rw [← ih.2 hown]
      simp only [socketOf]
      rw [fr.keep _ (inv.present i _ hown) (inv.apart i j hj _ hown)]
  | other ls w1 t he hfr hok ih =>
    refine ⟨ih.1, fun hown => ?_⟩
    rw [← ih.2 hown]
    simp only [socketOf]
    rw [hfr i _ hown]

theorem alone_dropLast [Target] (abi : Abi) (t0 : FdTable) (th : Loop)
    (ins : List (Incoming × OsChoice)) :
    (alone abi t0 th ins.dropLast).trace <+: (alone abi t0 th ins).trace := by
  rcases List.eq_nil_or_concat ins with rfl | ⟨ins', x, rfl⟩
  · exact List.prefix_refl _
  · obtain ⟨inc, os⟩ := x
    rw [List.concat_eq_append, List.dropLast_concat, alone_snoc]
    obtain ⟨l, hl⟩ := step_trace abi th.policy (alone abi t0 th ins') inc os
    rw [hl]
    exact List.prefix_append _ _

theorem tracks_same [Target] (abi : Abi) (f : Nat) (t0 : FdTable) (th th' : Loop)
    (ins : List (Incoming × OsChoice)) (t : FdTable) (h0 : Calm abi f t0)
    (hp : th'.policy = th.policy) (hc : th'.chan = th.chan) (h : Tracks abi t0 ins t th') :
    SameAsAlone abi t0 th ins th' := by
  have cong := fun ins => alone_congr abi t0 th th' ins hp hc
  have drop := alone_dropLast abi t0 th ins
  obtain ⟨p, chan, phase, trace, socks⟩ := th'
  have finish : (alone abi t0 th ins).trace = trace →
      ((alone abi t0 th ins.dropLast).trace <+: trace ∧ trace <+: (alone abi t0 th ins).trace) := by
    intro e
    rw [e] at drop ⊢
    exact ⟨drop, List.prefix_refl _⟩
  cases phase with
  | idle =>
    simp only [Tracks, cong] at h
    have e : (alone abi t0 th ins).trace = trace := by rw [h]
    exact ⟨(finish e).1, (finish e).2, fun _ => e.symm, fun _ => by rw [h], by simp⟩
  | received os r =>
    obtain ⟨ins', inc, rfl, h2, _⟩ := h
    rw [cong] at h2
    rw [List.dropLast_concat, h2] at drop
    exact ⟨by rw [List.dropLast_concat, h2]; exact List.prefix_refl _, drop,
      fun h => absurd h (by simp [AtRest]), by simp, by simp⟩
  | serving os m =>
    obtain ⟨ins', inc, rfl, h2, _⟩ := h
    rw [cong] at h2
    rw [List.dropLast_concat, h2] at drop
    exact ⟨by rw [List.dropLast_concat, h2]; exact List.prefix_refl _, drop,
      fun h => absurd h (by simp [AtRest]), by simp, by simp⟩
  | replying os resp hd =>
    obtain ⟨ins', inc, m, tr, rfl, h2, h3, h4, h5, _, _⟩ := h
    rw [cong] at h2
    simp only at h4 h5 hp
    refine ⟨?_, ?_, fun h => absurd h (by simp [AtRest]), by simp, by simp⟩
    · rw [List.dropLast_concat, h2, h5]; exact List.prefix_append _ _
    · rw [alone_snoc, h2, ← hp, step_request abi p ⟨t0, chan, .running, tr⟩ inc os m rfl h0.1 h3, if_neg h4]
      cases os.sendError with
      | none => simp only [h5]; exact List.prefix_append _ _
      | some e => simp only [h5]; exact List.prefix_refl _
  | closing hd next =>
    have e : (alone abi t0 th ins).trace = trace := by
      rcases h with ⟨_, h⟩ | ⟨_, h, _⟩
      · rw [← cong, h]
      · rw [← cong, h]
    exact ⟨(finish e).1, (finish e).2, fun _ => e.symm, by simp, by simp⟩
  | leaving why =>
    obtain ⟨_, h, _⟩ := h
    rw [cong] at h
    exact ⟨(finish h).1, (finish h).2, fun _ => h.symm, by simp, by simp⟩
  | gone why =>
    obtain ⟨_, h, h'⟩ := h
    rw [cong] at h h'
    refine ⟨(finish h).1, (finish h).2, fun _ => h.symm, by simp, ?_⟩
    intro w e
    simp only [LoopPhase.gone.injEq] at e
    rw [← e]; exact h'

theorem attached_calm (abi : Abi) (f : Nat) (t u : FdTable) (ht : Calm abi f t) (hu : Calm abi f u)
    (file : Nat) : attached abi t file = attached abi u file := by
  cases abi with
  | ilp32 => rfl
  | lp64 =>
    have a := ht.2 rfl
    have b := hu.2 rfl
    simp only [StdinIs, Option.map_eq_some_iff] at a b
    obtain ⟨x, hx, hxf⟩ := a
    obtain ⟨y, hy, hyf⟩ := b
    simp only [attached, hx, hy, hxf, hyf]

/-- Alone, what is done depends only on the policy and on what is received. -/
theorem run_calm [Target] (abi : Abi) (f : Nat) (p : Policy) (ins : List (Incoming × OsChoice)) :
    ∀ (s u : Broker), Calm abi f s.table → Calm abi f u.table → s.status = .running → u.status = .running →
      s.trace = u.trace → (s.run abi p ins).trace = (u.run abi p ins).trace := by
  induction ins with
  | nil => intro s u _ _ _ _ h; exact h
  | cons x ins ih =>
    intro s u hs hu rs ru htr
    obtain ⟨inc, os⟩ := x
    rw [run_cons, run_cons]
    simp only
    cases hc : classify inc with
    | hangup =>
      rw [step_hangup abi p s inc os rs hc, step_hangup abi p u inc os ru hc,
        run_stopped _ _ _ _ (by simp), run_stopped _ _ _ _ (by simp)]
      exact htr
    | request m =>
      rw [step_request abi p s inc os m rs hs.1 hc, step_request abi p u inc os m ru hu.1 hc]
      by_cases hcr : Crashes p m
      · rw [if_pos hcr, if_pos hcr, run_stopped _ _ _ _ (by simp), run_stopped _ _ _ _ (by simp), htr]
      · rw [if_neg hcr, if_neg hcr]
        cases os.sendError with
        | some e =>
          simp only
          rw [run_stopped _ _ _ _ (by simp), run_stopped _ _ _ _ (by simp), htr]
        | none =>
          refine ih _ _ hs hu rs ru ?_
          simp only [htr]
          congr 3
          unfold replyFiles
          cases (answer p os m).2 with
          | none => rfl
          | some file => exact attached_calm abi f _ _ hs hu file

theorem no_interference [Target] (abi : Abi) (f : Nat) : NoInterference abi (Calm abi f) := by
  intro w w' v v' ls ms i j hw hv ew ev iw iv hpol hins rw' rv'
  have a := exec_tracks abi f w w' ls hw ew i iw
  have b := exec_tracks abi f v v' ms hv ev j iv
  have ca := exec_const abi _ w w' ls ew i
  have cb := exec_const abi _ v v' ms ev j
  have okw := exec_start abi _ w w' ls ew
  have okv := exec_start abi _ v v' ms ev
  have sa := (tracks_same abi f w.table (w.threads i) _ _ _ okw ca.1 ca.2 a).same rw'
  have sb := (tracks_same abi f v.table (v.threads j) _ _ _ okv cb.1 cb.2 b).same rv'
  rw [sa, sb]
  simp only [alone, hpol, hins]
  exact run_calm abi f _ _ _ _ okw okv rfl rfl rfl

theorem exec_mono [Target] (abi : Abi) (ok ok' : FdTable → Prop) (h : ∀ t, ok t → ok' t) (w w' : Loops)
    (ls : List LoopStep) (he : LoopsExec abi ok w ls w') : LoopsExec abi ok' w ls w' := by
  induction he with
  | start a => exact .start (h _ a)
  | recv ls w1 j inc os _ hi a ih => exact .recv ls w1 j inc os ih hi (h _ a)
  | go ls w1 j _ a ih => exact .go ls w1 j ih (h _ a)
  | other ls w1 t _ hf a ih => exact .other ls w1 t ih hf (h _ a)

/-! ## Making executions -/

/-- Loop `j` does one thing. -/
def Loops.act [Target] (abi : Abi) (w : Loops) : LoopStep → Loops
  | .recv j inc os => w.put j ((w.threads j).receive abi w.table inc os)
  | .go j => w.put j ((w.threads j).go abi w.table)

def LoopPhase.isIdle : LoopPhase → Bool
  | .idle => true
  | _ => false

theorem LoopPhase.of_isIdle (ph : LoopPhase) (h : ph.isIdle = true) : ph = .idle := by
  cases ph with
  | idle => rfl
  | _ => cases h

/-- The labels can happen in this order, with `ok` true all along. -/
def possible [Target] (abi : Abi) (ok : FdTable → Bool) : Loops → List LoopStep → Bool
  | w, [] => ok w.table
  | w, l :: ls =>
    (match l with
      | .recv j _ _ => (w.threads j).phase.isIdle
      | .go _ => true) && ok w.table && possible abi ok (w.act abi l) ls

theorem exec_cons [Target] (abi : Abi) (ok : FdTable → Prop) (w w1 w' : Loops) (l : LoopStep) (ls : List LoopStep)
    (h1 : LoopsExec abi ok w [l] w1) (h2 : LoopsExec abi ok w1 ls w') : LoopsExec abi ok w (l :: ls) w' := by
  induction h2 with
  | start _ => exact h1
  | recv ls w2 j inc os _ hi h ih => exact .recv (l :: ls) w2 j inc os ih hi h
  | go ls w2 j _ h ih => exact .go (l :: ls) w2 j ih h
  | other ls w2 t _ hf h ih => exact .other (l :: ls) w2 t ih hf h

theorem possible_ok [Target] (abi : Abi) (ok : FdTable → Bool) (w : Loops) (ls : List LoopStep)
    (h : possible abi ok w ls = true) : ok w.table = true := by
  cases ls with
  | nil => simpa [possible] using h
  | cons l ls => simp only [possible, Bool.and_eq_true] at h; exact h.1.2

theorem exec_possible [Target] (abi : Abi) (ok : FdTable → Bool) (ls : List LoopStep) : ∀ (w : Loops),
    possible abi ok w ls = true → LoopsExec abi (fun t => ok t = true) w ls (ls.foldl (Loops.act abi) w) := by
  induction ls with
  | nil =>
    intro w h
    exact .start (possible_ok abi ok w [] h)
  | cons l ls ih =>
    intro w h
    have hok := possible_ok abi ok w _ h
    simp only [possible, Bool.and_eq_true] at h
    have hn := possible_ok abi ok _ _ h.2
    refine exec_cons abi _ w (w.act abi l) _ l ls ?_ (ih _ h.2)
    cases l with
    | recv j inc os => exact LoopsExec.recv [] w j inc os (.start hok) (LoopPhase.of_isIdle _ h.1.1) hn
    | go j => exact LoopsExec.go [] w j (.start hok) hn

end Iris
