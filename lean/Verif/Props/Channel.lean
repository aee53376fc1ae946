import Verif.Lemmas.Channel
import Verif.Props.Codec
/-! # C25, C26: messages and handles over a channel -/
namespace Iris

/-- C25, full statement: sending descriptor `fd` of table `ts` with a message makes
the receiver, whose table is `tr`, obtain the message and exactly one new
descriptor, which refers to the same open file. -/
def Spec.TransfersExactly (abi : Abi) : Prop :=
  ∀ {α : Type} (dec : Parser α) (ts tr : FdTable) (fd : Nat) (e : FdEntry) (data : Bytes) (m : α)
    (cap k : Nat), fd < 2 ^ 31 → ts.get fd = some e → data ≠ [] → data.length ≤ cap →
    deserialize dec data = some m → 2 ≤ k →
    ∃ d n tr', channelSend abi ts (some data) (some fd) none = .ok d ∧
      channelRecv abi dec cap k tr (.datagram d) = (tr', .ok (some (m, some n))) ∧
      tr.get n = none ∧ tr'.get n = some ⟨e.file, 1#32⟩ ∧ ∀ i, i ≠ n → tr'.get i = tr.get i

/-- C25 holds of 32-bit builds. -/
theorem C25_exact_on_32_bit : Spec.TransfersExactly .ilp32 := by
  intro α dec ts tr fd e data m cap k hfd hget hne hcap hdec hk
  have hlen : data.length ≠ 0 := by
    intro h; exact hne (List.length_eq_zero_iff.1 h)
  refine ⟨⟨data, [e.file]⟩, tr.lowestFree, (tr.alloc ⟨e.file, FD_CLOEXEC⟩).2, ?_, ?_,
    tr.lowestFree_spec.1, ?_, ?_⟩
  · simp only [channelSend, sysSendmsg]
    rw [scmSend_ilp32 ts fd (by omega)]
    simp [lookupFds, hget, Except.map]
  · simp only [channelRecv, sysRecvmsg, maxFds_ilp32]
    have hmin : min k 1 = 1 := Nat.min_eq_right (by omega)
    simp only [hmin]
    have htake : data.take cap = data := List.take_of_length_le hcap
    simp only [List.take_succ_cons, List.take_zero, installAll, FdTable.alloc, recvFinish,
      rightsCmsg, if_false, htake, recvCmsgs, ne_eq, not_true_eq_false, List.head?_cons,
      dropHandle, List.length_singleton, Nat.lt_irrefl, decide_false, Bool.false_or,
      decide_eq_true_eq, hlen, hdec]
    rw [if_neg (by omega)]
  · rw [FdTable.get_alloc, if_pos rfl]; rfl
  · intro i hi; rw [FdTable.get_alloc, if_neg hi]

/-- C25 is false of x86_64 builds: line 82 sets `cmsg_len` to `CMSG_SPACE(4)`, which
there covers two descriptors, so the sender's descriptor 0 goes along. For every
pair of tables, whatever the handle sent, the receiver obtains two descriptors
and `recv` reports the first only; the second one refers to whatever the sender
has at descriptor 0. -/
theorem C25_violated_second_descriptor {α : Type} (dec : Parser α) (ts tr : FdTable) (fd : Nat)
    (e e0 : FdEntry) (data : Bytes) (m : α) (cap k : Nat) (hfd : fd < 2 ^ 31)
    (hget : ts.get fd = some e) (h0 : ts.get 0 = some e0) (hne : data ≠ [])
    (hcap : data.length ≤ cap) (hdec : deserialize dec data = some m) (hk : 2 ≤ k) :
    ∃ d n n0 tr', channelSend .lp64 ts (some data) (some fd) none = .ok d ∧
      channelRecv .lp64 dec cap k tr (.datagram d) = (tr', .ok (some (m, some n))) ∧
      n ≠ n0 ∧ tr.get n = none ∧ tr.get n0 = none ∧
      tr'.get n = some ⟨e.file, 1#32⟩ ∧ tr'.get n0 = some ⟨e0.file, 1#32⟩ ∧
      ∀ i, i ≠ n → i ≠ n0 → tr'.get i = tr.get i := by
  have hlen : data.length ≠ 0 := by
    intro h; exact hne (List.length_eq_zero_iff.1 h)
  have hfree := (tr.alloc ⟨e.file, FD_CLOEXEC⟩).2.lowestFree_spec.1
  rw [FdTable.get_alloc] at hfree
  have hnn : (tr.alloc ⟨e.file, FD_CLOEXEC⟩).2.lowestFree ≠ tr.lowestFree := by
    intro hc; simp [hc] at hfree
  rw [if_neg hnn] at hfree
  refine ⟨⟨data, [e.file, e0.file]⟩, tr.lowestFree, (tr.alloc ⟨e.file, FD_CLOEXEC⟩).2.lowestFree,
    ((tr.alloc ⟨e.file, FD_CLOEXEC⟩).2.alloc ⟨e0.file, FD_CLOEXEC⟩).2, ?_, ?_,
    Ne.symm hnn, tr.lowestFree_spec.1, hfree, ?_, ?_, ?_⟩
  · simp only [channelSend, sysSendmsg]
    rw [scmSend_lp64 ts fd (by omega)]
    simp [lookupFds, hget, h0, Except.map]
  · simp only [channelRecv, sysRecvmsg, maxFds_lp64]
    have hmin : min k 2 = 2 := Nat.min_eq_right (by omega)
    simp only [hmin]
    have htake : data.take cap = data := List.take_of_length_le hcap
    simp only [List.take_succ_cons, List.take_zero, installAll, FdTable.alloc, recvFinish,
      rightsCmsg, if_false, htake, recvCmsgs, ne_eq, not_true_eq_false, List.head?_cons,
      dropHandle, List.length_cons, List.length_nil, Nat.lt_irrefl, decide_false, Bool.false_or,
      decide_eq_true_eq, hlen, hdec]
    rw [if_neg (by omega)]
  · rw [FdTable.get_alloc, if_neg (Ne.symm hnn), FdTable.get_alloc, if_pos rfl]; rfl
  · rw [FdTable.get_alloc, if_pos rfl]; rfl
  · intro i h1 h2
    rw [FdTable.get_alloc, if_neg h2, FdTable.get_alloc, if_neg h1]

/-- C25 is false of x86_64 builds in a second way: a sender whose descriptor 0 is
closed cannot send any handle. -/
theorem C25_violated_no_stdin (ts : FdTable) (fd : Nat) (data : Bytes) (hfd : fd < 2 ^ 31)
    (h0 : ts.get 0 = none) :
    channelSend .lp64 ts (some data) (some fd) none =
      .error (.internalOsOperationFailed c!"sendmsg() failed" 9) := by
  simp only [channelSend, sysSendmsg]
  rw [scmSend_lp64 ts fd (by omega)]
  cases hget : ts.get fd <;> simp [lookupFds, h0, hget, Except.map, EBADF]

/-- C25: the full statement is false on x86_64. -/
theorem C25_violated : ¬ Spec.TransfersExactly .lp64 := by
  intro h
  obtain ⟨d, n, tr', h1, _⟩ := h (dec := decRequest) [(3, ⟨9, 0#32⟩)] [] 3 ⟨9, 0#32⟩ [0] .initialization
    1 2 (by omega) rfl (by simp) (by simp) (by decide +kernel) (by omega)
  rw [C25_violated_no_stdin _ _ _ (by omega) rfl] at h1
  cases h1

/-- C25, what is left of it on x86_64. Missing from the full statement: nothing
else is transferred, and it works without descriptor 0. The handle returned by
`recv` does refer to the file sent, everything the receiver had is unchanged,
and the only file that can come along is the sender's descriptor 0. -/
theorem C25_transfer_x86_64_partial {α : Type} (dec : Parser α) (ts tr : FdTable) (fd : Nat)
    (e e0 : FdEntry) (data : Bytes) (m : α) (cap k : Nat) (hfd : fd < 2 ^ 31)
    (hget : ts.get fd = some e) (h0 : ts.get 0 = some e0) (hne : data ≠ [])
    (hcap : data.length ≤ cap) (hdec : deserialize dec data = some m) (hk : 2 ≤ k) :
    ∃ d n tr', channelSend .lp64 ts (some data) (some fd) none = .ok d ∧
      channelRecv .lp64 dec cap k tr (.datagram d) = (tr', .ok (some (m, some n))) ∧
      tr.get n = none ∧ tr'.get n = some ⟨e.file, 1#32⟩ ∧
      (∀ i, tr.get i ≠ none → tr'.get i = tr.get i) ∧
      (∀ i x, tr'.get i = some x → tr.get i = none → x.file = e.file ∨ x.file = e0.file) := by
  obtain ⟨d, n, n0, tr', h1, h2, h3, h4, h5, h6, h7, h8⟩ :=
    C25_violated_second_descriptor dec ts tr fd e e0 data m cap k hfd hget h0 hne hcap hdec hk
  refine ⟨d, n, tr', h1, h2, h4, h6, ?_, ?_⟩
  · intro i hi
    apply h8 i
    · rintro rfl; exact hi h4
    · rintro rfl; exact hi h5
  · intro i x hx hi
    by_cases hin : i = n
    · subst hin; rw [h6] at hx; cases hx; exact .inl rfl
    · by_cases hin0 : i = n0
      · subst hin0; rw [h7] at hx; cases hx; exact .inr rfl
      · rw [h8 i hin hin0, hi] at hx; cases hx

/-- C25. A message sent without a handle carries no descriptor. -/
theorem C25_no_handle_no_descriptor (abi : Abi) (ts : FdTable) (data : Bytes) (d : Datagram)
    (h : channelSend abi ts (some data) none none = .ok d) : d = ⟨data, []⟩ := by
  simp only [channelSend, sysSendmsg, scmSend, List.length_nil] at h
  rw [if_pos (by cases abi <;> decide)] at h
  simpa [Except.map] using h.symm

/-- A concrete transfer on each ABI: broker with descriptors 0 and 7, worker with 0-2. -/
example : channelSend .ilp32 [(0, ⟨1, 0⟩), (7, ⟨9, 0⟩)] (some [1, 0]) (some 7) none = .ok ⟨[1, 0], [9]⟩ ∧
    channelSend .lp64 [(0, ⟨1, 0⟩), (7, ⟨9, 0⟩)] (some [1, 0]) (some 7) none = .ok ⟨[1, 0], [9, 1]⟩ := by
  decide +kernel

/-- C26. Over one connection: a sequence of messages is put on the socket, each as
one datagram; the receiver gets exactly this sequence, whole, in order. -/
theorem C26_whole_messages (abi : Abi) (ms : List IPCRequest) (ts tr : FdTable) (k : Nat)
    (ds : List Datagram)
    (hs : ms.map (fun m => channelSend abi ts (sendRequest m) none none) = ds.map .ok) :
    ds.map (fun d => channelRecv abi decRequest IPC_MESSAGE_MAX_SIZE k tr (.datagram d))
      = ms.map fun m => (tr, .ok (some (m, none))) := by
  induction ms generalizing ds with
  | nil =>
    cases ds with
    | nil => rfl
    | cons d ds => simp at hs
  | cons m ms ih =>
    cases ds with
    | nil => simp at hs
    | cons d ds =>
      simp only [List.map_cons, List.cons.injEq] at hs ⊢
      refine ⟨?_, ih ds hs.2⟩
      cases hm : sendRequest m with
      | none => rw [hm] at hs; simp [channelSend] at hs
      | some data =>
        rw [hm] at hs
        have hd := C25_no_handle_no_descriptor abi ts data d hs.1
        subst hd
        rw [channelRecv_plain]
        simp only [sendRequest, serialize] at hm
        split at hm
        · rename_i hle
          simp only [Option.some.injEq] at hm
          subst hm
          have hne : (encRequest m).length ≠ 0 := by
            cases m with
            | initialization => simp [encRequest, encVarint_small]
            | openFile p f => simp [encRequest, encVarint_small]
            | syscall a b c => simp [encRequest, encVarint_small]
          have hf : m.Fits := by
            cases m with
            | openFile path flags =>
              simp only [IPCRequest.Fits]
              simp only [encRequest, encStr, encBytes, List.length_append, IPC_MESSAGE_MAX_SIZE] at hle
              omega
            | _ => trivial
          have hdec := decRequest_enc m [] hf
          simp only [List.append_nil] at hdec
          rw [if_neg (by omega), if_neg hne]
          simp [deserialize, hdec]
        · cases hm

/-- C26. The same in the other direction, for answers of any kind, with the policy in the first one: the
receiver gets as many messages as were sent, each decoded from all the bytes of the one sent, and
none has a descriptor. -/
theorem C26_whole_responses (abi : Abi) (ms : List IPCResponse) (ts tr : FdTable) (k : Nat)
    (ds : List Datagram)
    (hs : ms.map (fun m => channelSend abi ts (sendResponse m) none none) = ds.map .ok) :
    ds.length = ms.length ∧
    ∀ (i : Nat) (m : IPCResponse), ms[i]? = some m → ∃ d bs, ds[i]? = some d ∧ sendResponse m = some bs ∧
      channelRecv abi decResponse IPC_MESSAGE_MAX_SIZE k tr (.datagram d) =
        (tr, match recvResponse bs with
          | some m' => .ok (some (m', none))
          | none => .error (.internalDeserializationError bs)) := by
  refine ⟨by simpa using (congrArg List.length hs).symm, ?_⟩
  intro i m hm
  have hi := congrArg (·[i]?) hs
  simp only [List.getElem?_map, hm, Option.map_some] at hi
  cases hd : ds[i]? with
  | none => rw [hd] at hi; cases hi
  | some d =>
    rw [hd] at hi
    simp only [Option.map_some, Option.some.injEq] at hi
    cases hb : sendResponse m with
    | none => rw [hb] at hi; simp [channelSend] at hi
    | some bs =>
      rw [hb] at hi
      have hd := C25_no_handle_no_descriptor abi ts bs d hi
      subst hd
      refine ⟨_, bs, rfl, rfl, ?_⟩
      simp only [sendResponse, serialize] at hb
      split at hb
      · rename_i hle
        simp only [Option.some.injEq] at hb
        subst hb
        have hne : (encResponse m).length ≠ 0 := by
          cases m <;> simp [encResponse, encVarint_small]
        rw [channelRecv_plain, if_neg (by omega), if_neg hne]
        simp only [recvResponse]
        cases deserialize decResponse (encResponse m) <;> rfl
      · cases hb

/-- C26. So the results of system calls arrive as they were sent. -/
theorem C26_whole_results (abi : Abi) (codes : List (BitVec 64)) (ts tr : FdTable) (k : Nat)
    (ds : List Datagram)
    (hs : codes.map (fun c => channelSend abi ts (sendResponse (.syscallResult c)) none none) = ds.map .ok) :
    ds.map (fun d => channelRecv abi decResponse IPC_MESSAGE_MAX_SIZE k tr (.datagram d))
      = codes.map fun c => (tr, .ok (some (.syscallResult c, none))) := by
  obtain ⟨hl, h⟩ := C26_whole_responses abi (codes.map .syscallResult) ts tr k ds (by
    rw [← hs, List.map_map]; rfl)
  refine List.ext_getElem? fun i => ?_
  rw [List.getElem?_map, List.getElem?_map]
  cases hc : codes[i]? with
  | none =>
    have : ds[i]? = none := by
      rw [List.getElem?_eq_none_iff] at hc ⊢
      simpa [hl] using hc
    rw [this]; rfl
  | some c =>
    obtain ⟨d, bs, hd, hb, hr⟩ := h i (.syscallResult c) (by simp [hc])
    obtain ⟨bs', hb', hdec⟩ := C28_result_round_trip c
    rw [hb] at hb'; cases hb'
    rw [hd, Option.map_some, hr, hdec]; rfl

example : channelSend .lp64 [] (sendResponse (.syscallResult (-13#64))) none none = .ok ⟨[1, 25], []⟩ := by
  decide +kernel

/-- C26. For any datagram, any attached files and any buffer size: a message is
only ever produced from the complete bytes of a non-empty datagram that fits. -/
theorem C26_truncated_never_decoded {α : Type} (abi : Abi) (dec : Parser α) (cap k : Nat)
    (t t' : FdTable) (d : Datagram) (m : α) (h : Option Nat)
    (hr : channelRecv abi dec cap k t (.datagram d) = (t', .ok (some (m, h)))) :
    d.data.length ≤ cap ∧ d.data ≠ [] ∧ deserialize dec d.data = some m := by
  simp only [channelRecv, sysRecvmsg] at hr
  obtain ⟨h1, _, h3, h4, _⟩ := recvFinish_some hr
  simp only [decide_eq_false_iff_not, Nat.not_lt] at h1
  rw [List.take_of_length_le h1] at h3 h4
  exact ⟨h1, h3, h4⟩

/-- C26. A datagram larger than the buffer is an error, and end of stream is told
apart from every message: no encoded message is empty. -/
theorem C26_oversized_is_error {α : Type} (abi : Abi) (dec : Parser α) (cap k : Nat) (t : FdTable)
    (data : Bytes) (h : cap < data.length) :
    (channelRecv abi dec cap k t (.datagram ⟨data, []⟩)).2
      = .error (.payloadTooBigToTransmit (data.take cap)) ∧
    (channelRecv abi dec cap k t .eof).2 = .ok none := by
  rw [channelRecv_plain, if_pos h]
  exact ⟨rfl, rfl⟩

theorem C26_no_empty_message :
    (∀ m bs, sendRequest m = some bs → bs ≠ []) ∧ (∀ m bs, sendResponse m = some bs → bs ≠ []) := by
  constructor
  · intro m bs h
    simp only [sendRequest, serialize] at h
    split at h
    · cases h; cases m <;> simp [encRequest, encVarint_small]
    · cases h
  · intro m bs h
    simp only [sendResponse, serialize] at h
    split at h
    · cases h; cases m <;> simp [encResponse, encVarint_small]
    · cases h

example : (channelRecv .lp64 decRequest 4 2 [] (.datagram ⟨[0, 1, 2, 3, 4], []⟩)).2
    = .error (.payloadTooBigToTransmit [0, 1, 2, 3]) ∧
    (channelRecv .lp64 decRequest 4 2 [] (.datagram ⟨[0, 1, 2, 3], []⟩)).2
    = .ok (some (.initialization, none)) := by
  constructor
  · rw [channelRecv_plain]; rfl
  · rw [channelRecv_plain]; rfl

example : ∃ ds : List Datagram, [IPCRequest.initialization, .initialization].map
    (fun m => channelSend .lp64 [] (sendRequest m) none none) = ds.map .ok :=
  ⟨[⟨[0], []⟩, ⟨[0], []⟩], by
    simp [sendRequest, serialize, encRequest, encVarint_small, IPC_MESSAGE_MAX_SIZE, channelSend,
      sysSendmsg, scmSend, Abi.cmsgHdr, Abi.word, Except.map]⟩

end Iris
