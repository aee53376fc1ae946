import Verif.Lemmas.Channel
import Verif.Spec.Broker
/-! Helper lemmas about the broker's message loop. -/
namespace Iris
open Spec

/-- The policy's view of a request. -/
def notes [Target] (p : Policy) : IPCRequest → List Action
  | .openFile path flags => (p.evaluate (.fileOpen path flags)).2.map Action.notified
  | .syscall nb args ip => (p.evaluate (.syscall nb args ip)).2.map Action.notified
  | .initialization => []

/-- The `open` calls made for a request. -/
def openActs [Target] (p : Policy) (r : IPCRequest) : List Action :=
  (toOpen p r).toList.map fun x => .opened x.1 x.2 openMode

/-- The files that go with a descriptor for `file`: on x86_64 also what the broker
has at descriptor 0 (which is the new file itself if 0 was free). -/
def attached (abi : Abi) (t : FdTable) (file : Nat) : List Nat :=
  match abi with
  | .ilp32 => [file]
  | .lp64 => [file, match t.get 0 with
    | some e => e.file
    | none => file]

def replyFiles [Target] (abi : Abi) (p : Policy) (t : FdTable) (os : OsChoice) (r : IPCRequest) : List Nat :=
  match (answer p os r).2 with
  | some file => attached abi t file
  | none => []

theorem FdTable.lowestFree_le (t : FdTable) : t.lowestFree ≤ t.length := by
  have h := t.lowestFree_spec.2
  have hsub : List.range t.lowestFree ⊆ t.fds := by
    intro n hn
    have := h n (List.mem_range.1 hn)
    apply Classical.byContradiction
    intro hc
    exact this (FdTable.get_none_iff.2 hc)
  have := List.Nodup.length_le_of_subset List.nodup_range hsub
  simpa [FdTable.fds] using this

theorem serialize_result (code : BitVec 64) : ∃ data, sendResponse (.syscallResult code) = some data := by
  simp only [sendResponse, serialize]
  have : (encResponse (.syscallResult code)).length ≤ IPC_MESSAGE_MAX_SIZE := by
    simp only [encResponse, encI64, encB64, List.length_append, IPC_MESSAGE_MAX_SIZE]
    have h1 := encVarint_length 9 1 (by omega)
    have h2 := encVarint_length 9 (zigzag code).toNat (by have := (zigzag code).isLt; omega)
    omega
  rw [if_pos this]
  exact ⟨_, rfl⟩

theorem recv_request {inc : Incoming} {r : IPCRequest} (h : classify inc = .request r) (abi : Abi)
    (k : Nat) (t : FdTable) :
    channelRecv abi decRequest IPC_MESSAGE_MAX_SIZE k t inc = (t, .ok (some (r, none))) := by
  match inc, h with
  | .datagram ⟨data, []⟩, h =>
    simp only [classify] at h
    split at h
    · rename_i hle
      rw [channelRecv_plain, if_neg (by simp only [IPC_MESSAGE_MAX_SIZE]; omega)]
      have hd : deserialize decRequest data = some r := by
        cases hd : deserialize decRequest data with
        | none => simp [recvRequest, hd] at h
        | some m => simpa [recvRequest, hd] using h
      have hlen : data.length ≠ 0 := by
        intro hl
        rw [List.length_eq_zero_iff] at hl
        subst hl
        cases hd
      rw [if_neg hlen, hd]
    · cases h

theorem channelSend_plain (abi : Abi) (t : FdTable) (data : Bytes) :
    channelSend abi t (some data) none none = .ok ⟨data, []⟩ := by
  simp only [channelSend, sysSendmsg, scmSend, List.length_nil]
  rw [if_pos (by cases abi <;> decide)]
  rfl

theorem channelSend_new (abi : Abi) (t : FdTable) (data : Bytes) (e : FdEntry)
    (hlen : t.length < 2 ^ 31) :
    channelSend abi (t.alloc e).2 (some data) (some (t.alloc e).1) none
      = .ok ⟨data, attached abi t e.file⟩ := by
  have hle := t.lowestFree_le
  have hlt : (t.alloc e).1 < 2 ^ 32 := by simp only [FdTable.alloc]; omega
  have hget : (t.alloc e).2.get (t.alloc e).1 = some e := by
    rw [FdTable.get_alloc]; exact if_pos rfl
  simp only [channelSend, sysSendmsg]
  cases abi with
  | ilp32 =>
    rw [scmSend_ilp32 _ _ hlt]
    simp [lookupFds, hget, Except.map, attached]
  | lp64 =>
    rw [scmSend_lp64 _ _ hlt]
    have h0 : (t.alloc e).2.get 0 = some (match t.get 0 with | some e0 => e0 | none => e) := by
      rw [FdTable.get_alloc]
      by_cases hz : 0 = t.lowestFree
      · rw [if_pos hz, hz, t.lowestFree_spec.1]
      · rw [if_neg hz]
        have := t.lowestFree_spec.2 0 (by omega)
        cases hc : t.get 0 with
        | none => exact absurd hc this
        | some e0 => rfl
    simp only [lookupFds, hget, h0, Except.map, attached]
    cases t.get 0 <;> rfl

theorem channelSend_fails (abi : Abi) (t : FdTable) (enc : Option Bytes) (h : Option Nat) (e : Nat) :
    ∃ x, channelSend abi t enc h (some e) = .error x := by
  cases enc <;> exact ⟨_, rfl⟩

/-- A reply without a descriptor. -/
theorem finish_plain (abi : Abi) (s : Broker) (os : OsChoice) (code : BitVec 64)
    (acts : List Action) :
    Broker.finish abi s os (.reply s.table (.syscallResult code) none acts) =
      match os.sendError with
        | some _ => { s with table := s.table.erase s.chan, status := .ended,
                             trace := s.trace ++ acts }
        | none => { s with trace := s.trace ++ acts ++ [.sent (.syscallResult code) []] } := by
  obtain ⟨data, hd⟩ := serialize_result code
  simp only [Broker.finish]
  cases he : os.sendError with
  | none => simp only [hd, channelSend_plain, dropHandle]
  | some e =>
    obtain ⟨x, hx⟩ := channelSend_fails abi s.table (sendResponse (.syscallResult code)) none e
    simp only [hx, dropHandle]

/-- A reply with a descriptor just opened. -/
theorem finish_handle (abi : Abi) (s : Broker) (os : OsChoice) (e : FdEntry) (acts : List Action)
    (hlen : s.table.length < 2 ^ 31) :
    Broker.finish abi s os
      (.reply (s.table.alloc e).2 (.syscallResult 0#64) (some (s.table.alloc e).1) acts) =
      match os.sendError with
        | some _ => { s with table := s.table.erase s.chan, status := .ended,
                             trace := s.trace ++ acts }
        | none => { s with trace := s.trace ++ acts ++
            [.sent (.syscallResult 0#64) (attached abi s.table e.file)] } := by
  obtain ⟨data, hd⟩ := serialize_result 0#64
  simp only [Broker.finish]
  cases he : os.sendError with
  | none => simp only [hd, channelSend_new _ _ _ _ hlen, dropHandle, FdTable.erase_alloc]
  | some x =>
    obtain ⟨y, hy⟩ := channelSend_fails abi (s.table.alloc e).2 (sendResponse (.syscallResult 0#64))
      (some (s.table.alloc e).1) x
    simp only [hy, dropHandle, FdTable.erase_alloc]

/-- One iteration on an acceptable message. -/
theorem step_request [Target] (abi : Abi) (p : Policy) (s : Broker) (inc : Incoming) (os : OsChoice)
    (r : IPCRequest) (hs : s.status = .running) (hlen : s.table.length < 2 ^ 31)
    (hc : classify inc = .request r) :
    s.step abi p inc os =
      if Crashes p r then
        { s with table := s.table.erase s.chan, status := .panicked, trace := s.trace ++ notes p r }
      else match os.sendError with
        | some _ => { s with table := s.table.erase s.chan, status := .ended,
                             trace := s.trace ++ (notes p r ++ openActs p r) }
        | none => { s with trace := s.trace ++ (notes p r ++ openActs p r) ++
            [Action.sent (.syscallResult (answer p os r).1) (replyFiles abi p s.table os r)] } := by
  unfold Broker.step
  rw [if_neg (by simp [hs]), recv_request hc]
  change Broker.finish abi s os (serveRequest p s.table os r) = _
  have plain := finish_plain abi s os
  cases r with
  | initialization =>
    simp only [serveRequest, Crashes, if_false]
    refine (plain _ _).trans ?_
    simp [notes, openActs, toOpen, replyFiles, answer, negErrno, EINVAL]
  | syscall nb args ip =>
    simp only [serveRequest, proxiedSyscall, Crashes, if_false]
    refine (plain _ _).trans ?_
    simp [notes, openActs, toOpen, replyFiles, answer, negErrno, ENOSYS]
  | openFile path flags =>
    simp only [serveRequest, proxiedOpenFile]
    by_cases hg : Grants p path flags
    · have hg' : (p.evaluate (.fileOpen path flags)).1 = .granted := hg
      simp only [hg', ne_eq, not_true_eq_false, if_false]
      by_cases hn : '\x00' ∈ path
      · rw [if_pos (show Crashes p (.openFile path flags) from ⟨hg, hn⟩)]
        simp only [hn, if_true, notes, Broker.finish]
      · rw [if_neg (show ¬ Crashes p (.openFile path flags) from fun h => hn h.2)]
        simp only [hn, if_false]
        cases ho : os.openResult with
        | error e =>
          refine (plain _ _).trans ?_
          simp [notes, openActs, toOpen, replyFiles, answer, hg, ho, negErrno]
        | ok file =>
          refine (finish_handle abi s os _ _ hlen).trans ?_
          simp [notes, openActs, toOpen, replyFiles, answer, hg, ho]
    · have hg' : ¬ (p.evaluate (.fileOpen path flags)).1 = .granted := hg
      rw [if_neg (show ¬ Crashes p (.openFile path flags) from fun h => hg h.1)]
      simp only [hg', ne_eq, not_false_eq_true, if_true]
      refine (plain _ _).trans ?_
      simp [notes, openActs, toOpen, replyFiles, answer, hg, negErrno, EACCES]

/-- The table after `recv`, once the handle it returned is dropped. -/
def recvDrop {α : Type} (r : FdTable × Except IpcError (Option (α × Option Nat))) : FdTable :=
  match r with
  | (t, .ok (some (_, h))) => dropHandle t h
  | (t, _) => t

theorem recvFinish_drop {α : Type} (dec : Parser α) (t : FdTable) (r : RecvMsg) (fds : List Nat)
    (hc : r.cmsgs = rightsCmsg fds) :
    recvDrop (recvFinish dec t r) = dropHandle t fds.head? := by
  have h : recvCmsgs t (.ok none) r.cmsgs = (t, .ok fds.head?) := by
    rw [hc]
    cases fds with
    | nil => rfl
    | cons fd fds => simp [rightsCmsg, recvCmsgs, dropHandle]
  simp only [recvFinish, h]
  by_cases h1 : (r.ctrunc || r.trunc) = true
  · simp only [h1, if_true, recvDrop]
  · simp only [h1, Bool.false_eq_true, if_false]
    by_cases h2 : r.bytes.length = 0
    · simp only [h2, if_true, recvDrop]
    · simp only [h2, if_false]
      cases deserialize dec r.bytes <;> rfl

/-- What receiving leaves behind: nothing, or one descriptor on x86_64 if at least two
were attached. -/
theorem channelRecv_drop {α : Type} (abi : Abi) (dec : Parser α) (cap k : Nat) (t : FdTable)
    (inc : Incoming) :
    recvDrop (channelRecv abi dec cap k t inc) = t ∨
    (abi = .lp64 ∧ ∃ d n f, inc = .datagram d ∧ 2 ≤ d.files.length ∧ 2 ≤ k ∧ t.get n = none ∧
      recvDrop (channelRecv abi dec cap k t inc) = (n, ⟨f, FD_CLOEXEC⟩) :: t) := by
  cases inc with
  | error e => exact .inl rfl
  | eof => exact .inl (recvFinish_drop dec t ⟨[], [], false, false⟩ [] rfl)
  | datagram d =>
    simp only [channelRecv, sysRecvmsg]
    generalize hl : List.take (min k (maxFds abi (CMSG_SIZE abi))) d.files = l
    rw [recvFinish_drop dec _ _ (installAll t l).2 rfl]
    have hlen : l.length = min (min k (maxFds abi (CMSG_SIZE abi))) d.files.length := by
      rw [← hl, List.length_take]
    match l, hlen with
    | [], _ => exact .inl rfl
    | [f], _ => exact .inl (t.erase_alloc ⟨f, FD_CLOEXEC⟩)
    | [f, g], hlen =>
      refine .inr ?_
      cases abi with
      | ilp32 => rw [maxFds_ilp32] at hlen; simp at hlen; omega
      | lp64 =>
        simp only [maxFds_lp64, List.length_cons, List.length_nil] at hlen
        have hfree := (t.alloc ⟨f, FD_CLOEXEC⟩).2.lowestFree_spec.1
        rw [FdTable.get_alloc] at hfree
        have hnn : (t.alloc ⟨f, FD_CLOEXEC⟩).2.lowestFree ≠ t.lowestFree := by
          intro hc; simp [hc] at hfree
        rw [if_neg hnn] at hfree
        refine ⟨rfl, d, (t.alloc ⟨f, FD_CLOEXEC⟩).2.lowestFree, g, rfl, by omega, by omega, hfree, ?_⟩
        have := t.erase_alloc ⟨f, FD_CLOEXEC⟩
        simp only [FdTable.alloc] at this hnn
        simp only [installAll, FdTable.alloc, List.head?_cons, dropHandle]
        rw [show ∀ (x : Nat × FdEntry) (r : FdTable) m, x.1 ≠ m →
          FdTable.erase (x :: r) m = x :: FdTable.erase r m from fun x r m h => by
            simp [FdTable.erase, h]]
        · rw [this]
        · exact hnn
    | f :: g :: h :: l, hlen =>
      exfalso
      cases abi
      · simp only [maxFds_lp64, List.length_cons] at hlen; omega
      · simp only [maxFds_ilp32, List.length_cons] at hlen; omega

theorem recv_hangup {inc : Incoming} (h : classify inc = .hangup) (abi : Abi)
    (k : Nat) (t t' : FdTable) (m : IPCRequest) :
    channelRecv abi decRequest IPC_MESSAGE_MAX_SIZE k t inc ≠ (t', .ok (some (m, none))) := by
  intro hr
  cases inc with
  | error e => simp [channelRecv] at hr
  | eof => simp [channelRecv, recvFinish, recvCmsgs] at hr
  | datagram d =>
    obtain ⟨data, files⟩ := d
    cases files with
    | nil =>
      rw [channelRecv_plain] at hr
      simp only [classify] at h
      rw [show IPC_MESSAGE_MAX_SIZE = 65536 from rfl] at hr
      by_cases hle : data.length ≤ 65536
      · rw [if_pos hle] at h
        rw [if_neg (show ¬ 65536 < data.length by omega)] at hr
        by_cases h0 : data.length = 0
        · rw [if_pos h0] at hr; simp at hr
        · rw [if_neg h0] at hr
          simp only [recvRequest] at h
          cases hd : deserialize decRequest data with
          | none => rw [hd] at hr; simp at hr
          | some r => rw [hd] at h; cases h
      · rw [if_pos (show 65536 < data.length by omega)] at hr; simp at hr
    | cons f fs =>
      simp only [channelRecv, sysRecvmsg] at hr
      obtain ⟨_, h2, _, _, h5⟩ := recvFinish_some hr
      simp only [decide_eq_false_iff_not, Nat.not_lt] at h2
      generalize installAll t (List.take (min k (maxFds abi (CMSG_SIZE abi))) (f :: fs)) = x at h2 h5
      obtain ⟨t1, fds⟩ := x
      cases fds with
      | nil => simp at h2
      | cons fd fds => simp [rightsCmsg, recvCmsgs] at h5

/-- One iteration on anything else. -/
theorem step_hangup [Target] (abi : Abi) (p : Policy) (s : Broker) (inc : Incoming) (os : OsChoice)
    (hs : s.status = .running) (hc : classify inc = .hangup) :
    s.step abi p inc os =
      { s with
        table := (recvDrop (channelRecv abi decRequest IPC_MESSAGE_MAX_SIZE os.canInstall s.table
          inc)).erase s.chan
        status := .ended } := by
  unfold Broker.step
  rw [if_neg (by simp [hs])]
  have hh := recv_hangup hc abi os.canInstall s.table
  generalize channelRecv abi decRequest IPC_MESSAGE_MAX_SIZE os.canInstall s.table inc = x at hh
  match x, hh with
  | (t, .ok (some (m, none))), hh => exact absurd rfl (hh t m)
  | (t, .ok (some (m, some h))), _ => rfl
  | (t, .ok none), _ => rfl
  | (t, .error _), _ => rfl

theorem step_stopped [Target] (abi : Abi) (p : Policy) (s : Broker) (inc : Incoming) (os : OsChoice)
    (hs : s.status ≠ .running) : s.step abi p inc os = s := by
  unfold Broker.step; rw [if_pos hs]

theorem run_stopped [Target] (abi : Abi) (p : Policy) (s : Broker) (ins : List (Incoming × OsChoice))
    (hs : s.status ≠ .running) : s.run abi p ins = s := by
  induction ins with
  | nil => rfl
  | cons i ins ih => simp only [Broker.run, List.foldl_cons, step_stopped abi p s i.1 i.2 hs]; exact ih

theorem run_cons [Target] (abi : Abi) (p : Policy) (s : Broker) (i : Incoming × OsChoice)
    (ins : List (Incoming × OsChoice)) :
    s.run abi p (i :: ins) = (s.step abi p i.1 i.2).run abi p ins := rfl

theorem run_append [Target] (abi : Abi) (p : Policy) (s : Broker) (xs ys : List (Incoming × OsChoice)) :
    s.run abi p (xs ++ ys) = (s.run abi p xs).run abi p ys := by
  simp [Broker.run, List.foldl_append]

/-- All that is done for a request that is answered. -/
def served [Target] (abi : Abi) (p : Policy) (t : FdTable) (x : IPCRequest × OsChoice) : List Action :=
  notes p x.1 ++ openActs p x.1 ++
    [Action.sent (.syscallResult (answer p x.2 x.1).1) (replyFiles abi p t x.2 x.1)]

/-- A whole session: a prefix of the inputs consists of requests, which are all answered;
then it ends, with a crash, after a request that could not be answered, or because of an
input which is not a request. -/
theorem run_session [Target] (abi : Abi) (p : Policy) (s : Broker) (ins : List (Incoming × OsChoice))
    (hs : s.status = .running) (hlen : s.table.length < 2 ^ 31) :
    ∃ (done : List (IPCRequest × OsChoice)),
      (∀ x ∈ done, ¬ Crashes p x.1 ∧ x.2.sendError = none) ∧
      let tr := s.trace ++ done.flatMap (served abi p s.table)
      ((ins.map fun i => (classify i.1, i.2)) = done.map (fun x => (.request x.1, x.2)) ∧
        s.run abi p ins = { s with trace := tr }) ∨
      ∃ (i : Incoming × OsChoice) (rest : List (Event × OsChoice)), (ins.map fun i => (classify i.1, i.2)) =
          done.map (fun x => (.request x.1, x.2)) ++ (classify i.1, i.2) :: rest ∧
        s.run abi p ins = ({ s with trace := tr } : Broker).step abi p i.1 i.2 ∧
        (s.run abi p ins).status ≠ .running ∧ i ∈ ins := by
  induction ins generalizing s with
  | nil => exact ⟨[], by simp, .inl ⟨rfl, by simp [Broker.run]⟩⟩
  | cons i ins ih =>
    rw [run_cons]
    have stop : (s.step abi p i.1 i.2).status ≠ .running →
        ∃ (done : List (IPCRequest × OsChoice)),
      (∀ x ∈ done, ¬ Crashes p x.1 ∧ x.2.sendError = none) ∧
      let tr := s.trace ++ done.flatMap (served abi p s.table)
      (((i :: ins).map fun i => (classify i.1, i.2)) = done.map (fun x => (.request x.1, x.2)) ∧
        (s.step abi p i.1 i.2).run abi p ins = { s with trace := tr }) ∨
      ∃ (j : Incoming × OsChoice) (rest : List (Event × OsChoice)), ((i :: ins).map fun i => (classify i.1, i.2)) =
          done.map (fun x => (.request x.1, x.2)) ++ (classify j.1, j.2) :: rest ∧
        (s.step abi p i.1 i.2).run abi p ins = ({ s with trace := tr } : Broker).step abi p j.1 j.2 ∧
        ((s.step abi p i.1 i.2).run abi p ins).status ≠ .running ∧ j ∈ i :: ins := by
      intro hst
      refine ⟨[], by simp, .inr ⟨i, _, rfl, ?_, ?_, List.mem_cons_self⟩⟩
      · rw [run_stopped abi p _ ins hst]; simp
      · rw [run_stopped abi p _ ins hst]; exact hst
    cases hc : classify i.1 with
    | hangup => exact stop (by rw [step_hangup abi p s i.1 i.2 hs hc]; simp)
    | request r =>
      have hstep := step_request abi p s i.1 i.2 r hs hlen hc
      by_cases hcr : Crashes p r
      · exact stop (by rw [hstep, if_pos hcr]; simp)
      · rw [if_neg hcr] at hstep
        cases hse : i.2.sendError with
        | some e => exact stop (by rw [hstep, hse]; simp)
        | none =>
          rw [hse] at hstep
          simp only at hstep
          have ih' := ih (s.step abi p i.1 i.2) (by rw [hstep]; exact hs) (by rw [hstep]; exact hlen)
          obtain ⟨done, hd, hcase⟩ := ih'
          refine ⟨(r, i.2) :: done, ?_, ?_⟩
          · intro x hx
            rcases List.mem_cons.1 hx with rfl | hx
            · exact ⟨hcr, hse⟩
            · exact hd x hx
          · rw [hstep] at hcase ⊢
            simp only [List.map_cons, hc, List.flatMap_cons, List.cons_append] at hcase ⊢
            have htr : ∀ l, s.trace ++ (notes p r ++ openActs p r) ++
                [Action.sent (.syscallResult (answer p i.2 r).1) (replyFiles abi p s.table i.2 r)] ++ l
                = s.trace ++ (served abi p s.table (r, i.2) ++ l) := by
              intro l; simp [served]
            rw [htr] at hcase
            rcases hcase with ⟨h1, h2⟩ | ⟨j, rest, h1, h2, h3, h4⟩
            · left; exact ⟨by rw [h1], h2⟩
            · right; exact ⟨j, rest, by rw [h1], h2, h3, List.mem_cons_of_mem _ h4⟩

theorem finish_trace (abi : Abi) (s : Broker) (os : OsChoice) (r : Served) :
    ∃ l, (Broker.finish abi s os r).trace = s.trace ++ l := by
  cases r with
  | panic acts => exact ⟨acts, rfl⟩
  | reply t resp handle acts =>
    simp only [Broker.finish]
    split
    · exact ⟨_, by rw [List.append_assoc]⟩
    · exact ⟨acts, rfl⟩

/-- Nothing done is undone. -/
theorem step_trace [Target] (abi : Abi) (p : Policy) (s : Broker) (inc : Incoming) (os : OsChoice) :
    ∃ l, (s.step abi p inc os).trace = s.trace ++ l := by
  unfold Broker.step
  split
  · exact ⟨[], by simp⟩
  · split
    · exact finish_trace abi { s with table := _ } os _
    · exact ⟨[], by simp⟩
    · exact ⟨[], by simp⟩

end Iris
