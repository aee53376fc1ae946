import Verif.Lemmas.Session
import Verif.Props.Codec
import Verif.Props.Broker
import Verif.Props.LinuxPolicy
import Verif.Spec.Worker
/-! Helper lemmas about a worker's exchange with its broker. -/
namespace Iris
open Spec

/-- `t'` is `t` after receiving `file`, which is now at `h`: everything that was open still
is, and what is new refers to `file` or to `extra`. -/
structure Received (t t' : FdTable) (file : Nat) (extra : List Nat) (h : Nat) : Prop where
  fresh : t.get h = none
  here : t'.get h = some ⟨file, FD_CLOEXEC⟩
  kept : ∀ i, t.get i ≠ none → t'.get i = t.get i
  new : ∀ i e, t.get i = none → t'.get i = some e → i = h ∨ e.file ∈ extra
  small : h ≤ t.length

theorem deserialize_result (code : BitVec 64) :
    deserialize decResponse (encResponse (.syscallResult code)) = some (.syscallResult code) ∧
    (encResponse (.syscallResult code)).length ≤ 65536 ∧
    (encResponse (.syscallResult code)).length ≠ 0 := by
  obtain ⟨bs, h1, h2⟩ := C28_result_round_trip code
  simp only [sendResponse, serialize] at h1
  split at h1
  · rename_i hle
    cases h1
    refine ⟨h2, hle, ?_⟩
    simp [encResponse, encVarint_small]
  · cases h1

theorem recv_reply_plain (abi : Abi) (k : Nat) (t : FdTable) (code : BitVec 64) :
    channelRecv abi decResponse IPC_MESSAGE_MAX_SIZE k t
      (.datagram ⟨encResponse (.syscallResult code), []⟩) =
      (t, .ok (some (.syscallResult code, none))) := by
  obtain ⟨h1, h2, h3⟩ := deserialize_result code
  rw [channelRecv_plain, if_neg (by simp only [IPC_MESSAGE_MAX_SIZE]; omega), if_neg h3, h1]

theorem recv_reply_files (abi : Abi) (k : Nat) (t tb : FdTable) (code : BitVec 64) (file : Nat)
    (hk : 2 ≤ k) :
    ∃ t' extra, channelRecv abi decResponse IPC_MESSAGE_MAX_SIZE k t
      (.datagram ⟨encResponse (.syscallResult code), attached abi tb file⟩) =
      (t', .ok (some (.syscallResult code, some t.lowestFree))) ∧
      Received t t' file extra t.lowestFree ∧ (abi = .ilp32 → extra = []) := by
  obtain ⟨h1, h2, h3⟩ := deserialize_result code
  have htake : (encResponse (.syscallResult code)).take IPC_MESSAGE_MAX_SIZE
      = encResponse (.syscallResult code) := List.take_of_length_le h2
  have hnl : ¬ IPC_MESSAGE_MAX_SIZE < (encResponse (.syscallResult code)).length := by
    simp only [IPC_MESSAGE_MAX_SIZE]; omega
  cases abi with
  | ilp32 =>
    refine ⟨(t.alloc ⟨file, FD_CLOEXEC⟩).2, [], ?_, ⟨t.lowestFree_spec.1, ?_, ?_, ?_, t.lowestFree_le⟩, by simp⟩
    · simp only [channelRecv, sysRecvmsg, maxFds_ilp32, attached]
      have hmin : min k 1 = 1 := Nat.min_eq_right (by omega)
      simp only [hmin, List.take_succ_cons, List.take_zero, installAll, FdTable.alloc, recvFinish,
        rightsCmsg, htake, recvCmsgs, ne_eq, not_true_eq_false, if_false, List.head?_cons,
        dropHandle, List.length_singleton, Nat.lt_irrefl, decide_false, Bool.false_or, hnl,
        Bool.false_eq_true, h3, h1]
    · rw [FdTable.get_alloc, if_pos rfl]
    · intro i hi
      rw [FdTable.get_alloc, if_neg]
      rintro rfl; exact hi t.lowestFree_spec.1
    · intro i e hi he
      rw [FdTable.get_alloc] at he
      by_cases hc : i = t.lowestFree
      · exact .inl hc
      · rw [if_neg hc, hi] at he; cases he
  | lp64 =>
    have hfree := (t.alloc ⟨file, FD_CLOEXEC⟩).2.lowestFree_spec.1
    rw [FdTable.get_alloc] at hfree
    have hnn : (t.alloc ⟨file, FD_CLOEXEC⟩).2.lowestFree ≠ t.lowestFree := by
      intro hc; simp [hc] at hfree
    rw [if_neg hnn] at hfree
    generalize hg : (match tb.get 0 with
      | some e => e.file
      | none => file) = g
    refine ⟨((t.alloc ⟨file, FD_CLOEXEC⟩).2.alloc ⟨g, FD_CLOEXEC⟩).2, [g], ?_,
      ⟨t.lowestFree_spec.1, ?_, ?_, ?_, t.lowestFree_le⟩, by simp⟩
    · simp only [channelRecv, sysRecvmsg, maxFds_lp64, attached, hg]
      have hmin : min k 2 = 2 := Nat.min_eq_right (by omega)
      simp only [hmin, List.take_succ_cons, List.take_zero, installAll, FdTable.alloc, recvFinish,
        rightsCmsg, htake, recvCmsgs, ne_eq, not_true_eq_false, if_false, List.head?_cons,
        dropHandle, List.length_cons, List.length_nil, Nat.lt_irrefl, decide_false, Bool.false_or,
        hnl, Bool.false_eq_true, h3, h1]
      subst hg; rfl
    · rw [FdTable.get_alloc, if_neg (Ne.symm hnn), FdTable.get_alloc, if_pos rfl]
    · intro i hi
      rw [FdTable.get_alloc, if_neg, FdTable.get_alloc, if_neg]
      · rintro rfl; exact hi t.lowestFree_spec.1
      · rintro rfl; exact hi hfree
    · intro i e hi he
      rw [FdTable.get_alloc] at he
      by_cases hc : i = (t.alloc ⟨file, FD_CLOEXEC⟩).2.lowestFree
      · rw [if_pos hc] at he; cases he; right; simp
      · rw [if_neg hc, FdTable.get_alloc] at he
        by_cases hc2 : i = t.lowestFree
        · exact .inl hc2
        · rw [if_neg hc2, hi] at he; cases he

theorem findSome_notes [Target] (p : Policy) (r : IPCRequest) (l : List Action) :
    (notes p r ++ openActs p r ++ l).findSome? replyOf = l.findSome? replyOf := by
  rw [List.append_assoc, List.findSome?_append, List.findSome?_append]
  have h1 : (notes p r).findSome? replyOf = none := by
    rw [List.findSome?_eq_none_iff]
    intro a ha
    cases r <;> simp only [notes, List.mem_map, List.not_mem_nil] at ha
    · obtain ⟨n, _, rfl⟩ := ha; rfl
    · obtain ⟨n, _, rfl⟩ := ha; rfl
  have h2 : (openActs p r).findSome? replyOf = none := by
    rw [List.findSome?_eq_none_iff]
    intro a ha
    simp only [openActs, List.mem_map] at ha
    obtain ⟨n, _, rfl⟩ := ha; rfl
  rw [h1, h2]; rfl

theorem classify_sent {r : IPCRequest} {data : Bytes} (h : sendRequest r = some data) :
    classify (.datagram ⟨data, []⟩) = .request r := by
  have hle : data.length ≤ 65536 := by
    simp only [sendRequest, serialize] at h
    split at h
    · rename_i hle; cases h; exact hle
    · cases h
  simp only [classify, if_pos hle, C27_request_round_trip r data h]

/-- What a serving broker answers, as it reaches the worker. -/
theorem brokerReply_answer [Target] (abi : Abi) (p : Policy) (b : Broker) (os : OsChoice)
    (r : IPCRequest) (data : Bytes) (hd : sendRequest r = some data) (hs : b.status = .running)
    (hlen : b.table.length < 2 ^ 31) (hc : ¬ Crashes p r) (hse : os.sendError = none) :
    brokerReply b (b.step abi p (.datagram ⟨data, []⟩) os) =
      .datagram ⟨encResponse (.syscallResult (answer p os r).1), replyFiles abi p b.table os r⟩ ∧
    b.step abi p (.datagram ⟨data, []⟩) os =
      { b with trace := b.trace ++ served abi p b.table (r, os) } := by
  have hst := step_request abi p b (.datagram ⟨data, []⟩) os r hs hlen (classify_sent hd)
  rw [if_neg hc, hse] at hst
  constructor
  · rw [hst]
    simp only [brokerReply]
    rw [List.append_assoc, List.drop_left, findSome_notes]
    simp [replyOf]
  · rw [hst]
    simp [served]

/-- The worker's side of an exchange with a broker that serves it. -/
theorem sendRecv_served [Target] (abi : Abi) (p : Policy) (tb t : FdTable) (os : OsChoice)
    (r : IPCRequest) (data : Bytes) (hd : sendRequest r = some data) (io : WorkerIo)
    (hio : io.sendError = none) (hk : 2 ≤ io.canInstall)
    (hinc : io.incoming = .datagram ⟨encResponse (.syscallResult (answer p os r).1),
      replyFiles abi p tb os r⟩) :
    match (answer p os r).2 with
    | none => sendRecv abi t r io = (t, some (.syscallResult (answer p os r).1, none))
    | some file => ∃ t' extra, sendRecv abi t r io =
        (t', some (.syscallResult (answer p os r).1, some t.lowestFree)) ∧
        Received t t' file extra t.lowestFree ∧ (abi = .ilp32 → extra = []) := by
  cases ha : (answer p os r).2 with
  | none =>
    simp only
    have : replyFiles abi p tb os r = [] := by simp [replyFiles, ha]
    rw [this] at hinc
    simp only [sendRecv, hd, hio, channelSend_plain, hinc, recv_reply_plain]
  | some file =>
    simp only
    have : replyFiles abi p tb os r = attached abi tb file := by simp [replyFiles, ha]
    rw [this] at hinc
    obtain ⟨t', extra, h1, h2, h3⟩ := recv_reply_files abi io.canInstall t tb (answer p os r).1 file hk
    refine ⟨t', extra, ?_, h2, h3⟩
    simp only [sendRecv, hd, hio, channelSend_plain, hinc, h1]


theorem readString_utf8 (replace : Bytes → Str) {mem : Memory} {ptr : BitVec 64} {path : Str}
    (h : mem ptr = some (utf8 path)) : readString replace mem ptr = some path := by
  simp [readString, h, fromUtf8_utf8]

theorem resolvePath_eq (cwd path : Str) : resolvePath (some cwd) path = absolute cwd path := by
  have hsw : startsWith '/' path = decide (path.head? = some '/') := by
    cases path with
    | nil => rfl
    | cons c r => by_cases h : c = '/' <;> simp [startsWith, stripPrefix, h]
  simp only [resolvePath, absolute, hsw, endsWith, Option.getD_some]
  by_cases h1 : path.head? = some '/' <;> by_cases h2 : cwd.getLast? = some '/' <;> simp [h1, h2]

/-- The request a path call sends. -/
def requestOf (cwd : Str) (path : Str) : Kind → IPCRequest
  | .open flags => .openFile (absolute cwd path) flags
  | .access mode => .openFile path mode
  | .stat => .openFile path O_PATH
  | .chdir => .openFile path O_PATH

/-- The handler of a path call. -/
def handlerOf (abi : Abi) (t : FdTable) (path : Str) (io : WorkerIo) : Kind → Handled
  | .open flags => handleOpenat abi t path flags io
  | .access mode => handleAccess abi t path mode io
  | .stat => handleByPath abi t path io
  | .chdir => handleByPath abi t path io

theorem trap_eq (abi : Abi) (audit : Bool) (replace : Bytes → Str) {mem : Memory} (t : FdTable)
    {r : Regs} (io : WorkerIo) {k : Kind} {path : Str} (h : PathCall mem r k path) :
    handleTrap abi audit replace mem t r io = handlerOf abi t path io k := by
  cases h with
  | «open» _ h1 h2 h3 =>
    simp [handleTrap, handlerOf, h1, SYS_access, SYS_stat, SYS_open, readString_utf8 replace h2]
  | openat _ h1 h2 h3 h4 =>
    simp only [handleTrap, handlerOf, h1, SYS_access, SYS_stat, SYS_open, SYS_openat,
      readString_utf8 replace h2]
    rw [if_neg (by decide), if_neg (by decide), if_neg (by decide), if_pos (by decide)]
    by_cases ha : r.args.a0.setWidth 32 = AT_FDCWD
    · rw [if_pos ha]
    · rw [if_neg ha]
      rcases h4 with h4 | h4
      · exact absurd h4 ha
      · obtain ⟨rest, rfl⟩ : ∃ rest, path = '/' :: rest := by
          cases path with
          | nil => cases h4
          | cons c rest => simp only [List.head?_cons, Option.some.injEq] at h4; exact ⟨rest, by rw [h4]⟩
        have hu : utf8 ('/' :: rest) = 47 :: utf8 rest := rfl
        rw [h2, hu]
        simp
  | access _ h1 h2 h3 =>
    simp [handleTrap, handlerOf, h1, SYS_access, readString_utf8 replace h2]
  | stat _ h1 h2 h3 =>
    simp [handleTrap, handlerOf, h1, SYS_access, SYS_stat, readString_utf8 replace h2]
  | chdir _ h1 h2 h3 =>
    simp [handleTrap, handlerOf, h1, SYS_access, SYS_stat, SYS_open, SYS_openat, SYS_chdir,
      readString_utf8 replace h2]

theorem handlerOf_sent (abi : Abi) (t : FdTable) (path cwd : Str) (io : WorkerIo) (k : Kind)
    (hc : io.cwd = some cwd) : (handlerOf abi t path io k).sent = some (requestOf cwd path k) := by
  cases k <;> simp only [handlerOf, requestOf, handleOpenat, handleAccess, handleByPath, hc,
    resolvePath_eq] <;> repeat' split
  all_goals rfl

theorem requestOf_noNul {mem : Memory} {r : Regs} {k : Kind} {path cwd : Str}
    (h : PathCall mem r k path) (hc : '\x00' ∉ cwd) :
    ∃ q f, requestOf cwd path k = .openFile q f ∧ '\x00' ∉ q := by
  have hp : '\x00' ∉ path := by cases h <;> assumption
  have ha : '\x00' ∉ absolute cwd path := by
    simp only [absolute]
    repeat' split
    all_goals simp [hp, hc]
  cases k <;> exact ⟨_, _, rfl, by assumption⟩

theorem withBroker_served [Target] (abi : Abi) (p : Policy) (b : Broker) (os : OsChoice)
    (handler : Incoming → Handled) (req : IPCRequest) (data : Bytes)
    (h1 : (handler .eof).sent = some req) (hd : sendRequest req = some data)
    (hs : b.status = .running) (hlen : b.table.length < 2 ^ 31) (hc : ¬ Crashes p req)
    (hse : os.sendError = none) :
    withBroker abi p b os handler =
      (handler (.datagram ⟨encResponse (.syscallResult (answer p os req).1),
        replyFiles abi p b.table os req⟩),
       { b with trace := b.trace ++ served abi p b.table (req, os) }) := by
  obtain ⟨h2, h3⟩ := brokerReply_answer abi p b os req data hd hs hlen hc hse
  simp only [withBroker, h1, hd, h2]
  rw [h3]

theorem negErrno_msb (e : Nat) (h1 : 1 ≤ e) (h2 : e ≤ 4095) : (-(BitVec.ofNat 64 e)).msb = true := by
  rw [BitVec.msb_eq_toInt]
  have := (C19_negative_codes e h1 h2).2
  simpa using this

/-- The code of an answer without a file is an error. -/
theorem answer_msb [Target] (p : Policy) (os : OsChoice) (path : Str) (flags : BitVec 32)
    (he : ∀ e, os.openResult = .error e → 1 ≤ e ∧ e ≤ 4095)
    (h : (answer p os (.openFile path flags)).2 = none) :
    (answer p os (.openFile path flags)).1.msb = true := by
  simp only [answer] at h ⊢
  split at h
  · rename_i hg
    rw [if_pos hg]
    cases ho : os.openResult with
    | ok file => simp [ho] at h
    | error e => exact negErrno_msb e (he e ho).1 (he e ho).2
  · rename_i hg
    rw [if_neg hg]
    decide

/-- The four handlers, given the broker's answer. -/
theorem handler_served [Target] (abi : Abi) (p : Policy) (tb t : FdTable) (os : OsChoice)
    (path cwd : Str) (k : Kind) (q : Str) (f : BitVec 32) (hq : requestOf cwd path k = .openFile q f)
    (data : Bytes) (hd : sendRequest (.openFile q f) = some data) (io : WorkerIo)
    (hio : io.sendError = none) (hk : 2 ≤ io.canInstall) (hcwd : io.cwd = some cwd)
    (he : ∀ e, os.openResult = .error e → 1 ≤ e ∧ e ≤ 4095)
    (hinc : io.incoming = .datagram ⟨encResponse (.syscallResult (answer p os (.openFile q f)).1),
      replyFiles abi p tb os (.openFile q f)⟩) :
    match (answer p os (.openFile q f)).2 with
    | none => handlerOf abi t path io k =
        ⟨t, some (.openFile q f), .code (answer p os (.openFile q f)).1, none⟩
    | some file => ∃ t' extra, Received t t' file extra t.lowestFree ∧ (abi = .ilp32 → extra = []) ∧
        handlerOf abi t path io k = match k with
          | .open _ => ⟨t', some (.openFile q f), .code (BitVec.ofNat 64 t.lowestFree), none⟩
          | .access _ => ⟨t'.erase t.lowestFree, some (.openFile q f), .code 0#64, none⟩
          | _ => ⟨t'.erase t.lowestFree, some (.openFile q f),
              .code ((io.onFd t.lowestFree).elim 0#64 negErrno), none⟩ := by
  have h := sendRecv_served abi p tb t os (.openFile q f) data hd io hio hk hinc
  cases ha : (answer p os (.openFile q f)).2 with
  | none =>
    rw [ha] at h
    simp only at h ⊢
    have hm := answer_msb p os q f he ha
    cases k <;> simp only [requestOf, IPCRequest.openFile.injEq] at hq <;> obtain ⟨rfl, rfl⟩ := hq <;>
      simp only [handlerOf, handleOpenat, handleAccess, handleByPath, getFdForPath, hcwd,
        resolvePath_eq, h, hm, if_true]
  | some file =>
    rw [ha] at h
    simp only at h ⊢
    obtain ⟨t', extra, h1, h2, h3⟩ := h
    refine ⟨t', extra, h2, h3, ?_⟩
    cases k <;> simp only [requestOf, IPCRequest.openFile.injEq] at hq <;> obtain ⟨rfl, rfl⟩ := hq <;>
      simp only [handlerOf, handleOpenat, handleAccess, handleByPath, getFdForPath, hcwd,
        resolvePath_eq, h1]
    · cases io.onFd t.lowestFree <;> rfl
    · cases io.onFd t.lowestFree <;> rfl

end Iris
