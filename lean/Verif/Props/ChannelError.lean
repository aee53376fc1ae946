import Verif.Spec.ChannelError
import Verif.Props.Channel
/-! # C128: the errors of the Linux channel and of the Linux handles say what failed -/
namespace Iris
open Spec

/-- C128: sending fails exactly for one of the reasons listed, with its error. -/
theorem C128_send (abi : Abi) (t : FdTable) (encoded : Option Bytes) (handle refuses : Option Nat)
    (hfd : ∀ fd, handle = some fd → fd < 2 ^ 31) (e : IpcError) :
    channelSend abi t encoded handle refuses = .error e ↔ NotSent abi t encoded handle refuses e := by
  cases encoded with
  | none =>
    constructor
    · intro h; cases h; exact .tooLong rfl rfl
    · intro h
      cases h with
      | tooLong _ hd => subst hd; rfl
      | refused he => exact absurd rfl he
      | closed he => exact absurd rfl he
      | noStdin he => exact absurd rfl he
  | some data =>
    cases refuses with
    | some code =>
      constructor
      · intro h; cases h; exact .refused (by simp) rfl
      · intro h
        cases h with
        | tooLong h => cases h
        | refused _ h => cases h; rfl
        | closed _ h => cases h
        | noStdin _ h => cases h
    | none =>
      cases handle with
      | none =>
        constructor
        · intro h
          simp only [channelSend, sysSendmsg, scmSend, List.length_nil] at h
          rw [if_pos (by cases abi <;> decide)] at h
          simp [Except.map] at h
        · intro h
          cases h with
          | tooLong h => cases h
          | refused _ h => cases h
          | closed _ _ h => cases h
          | noStdin _ _ h => cases h
      | some fd =>
        have hlt : fd < 2 ^ 32 := by have := hfd fd rfl; omega
        have inv : NotSent abi t (some data) (some fd) none e ↔
            e = .internalOsOperationFailed c!"sendmsg() failed" 9 ∧ (t.get fd = none ∨ abi = .lp64 ∧ t.get 0 = none) := by
          constructor
          · intro h
            cases h with
            | tooLong h => cases h
            | refused _ h => cases h
            | closed _ _ h hc => cases h; exact ⟨rfl, .inl hc⟩
            | noStdin _ _ _ ha hc => exact ⟨rfl, .inr ⟨ha, hc⟩⟩
          · rintro ⟨rfl, h | ⟨ha, h⟩⟩
            · exact .closed (by simp) rfl rfl h
            · exact .noStdin (by simp) rfl rfl ha h
        rw [inv]
        cases abi with
        | lp64 =>
          simp only [channelSend, sysSendmsg, scmSend_lp64 t fd hlt]
          cases hg : t.get fd <;> cases hg0 : t.get 0 <;> simp [lookupFds, hg, hg0, Except.map, EBADF, eq_comm]
        | ilp32 =>
          simp only [channelSend, sysSendmsg, scmSend_ilp32 t fd hlt]
          cases hg : t.get fd <;> simp [lookupFds, hg, Except.map, EBADF, eq_comm]

theorem installAll_length (l : List Nat) : ∀ t, (installAll t l).2.length = l.length := by
  induction l with
  | nil => intro t; rfl
  | cons f l ih => intro t; simp only [installAll, List.length_cons, ih]

/-- Descriptors given by the kernel always make a handle. -/
theorem recvCmsgs_installed (fds : List Nat) (t : FdTable) : ∃ t' h, recvCmsgs t (.ok none) (rightsCmsg fds) = (t', .ok h) := by
  cases fds with
  | nil => exact ⟨_, _, rfl⟩
  | cons fd fds => exact ⟨_, _, rfl⟩

/-- C128: receiving fails exactly for one of the reasons listed, with its error. -/
theorem C128_recv {α : Type} (abi : Abi) (dec : Parser α) (cap canOpen : Nat) (t : FdTable) (i : Incoming) (e : IpcError) :
    (channelRecv abi dec cap canOpen t i).2 = .error e ↔ NotReceived abi dec cap canOpen i e := by
  cases i with
  | error code =>
    constructor
    · intro h; cases h; exact .refused rfl
    · intro h
      cases h with
      | refused h => cases h; rfl
      | cut h => cases h
      | garbled h => cases h
  | eof =>
    constructor
    · intro h; cases h
    · intro h
      cases h with
      | refused h => cases h
      | cut h => cases h
      | garbled h => cases h
  | datagram d =>
    obtain ⟨data, files⟩ := d
    have hroom : min canOpen (maxFds abi (CMSG_SIZE abi)) = roomFor abi canOpen := by cases abi <;> rfl
    rw [channelRecv, sysRecvmsg]
    simp only [hroom]
    have hlen := installAll_length (files.take (roomFor abi canOpen)) t
    generalize installAll t (files.take (roomFor abi canOpen)) = y at hlen ⊢
    obtain ⟨t1, fds⟩ := y
    simp only [List.length_take] at hlen
    obtain ⟨t2, h2, hr⟩ := recvCmsgs_installed fds t1
    simp only [recvFinish, hr]
    by_cases hcut : cap < data.length ∨ roomFor abi canOpen < files.length
    · rw [if_pos (by simp only [Bool.or_eq_true, decide_eq_true_eq]; omega)]
      constructor
      · intro h; cases h; exact .cut rfl hcut
      · intro h
        cases h with
        | refused h => cases h
        | cut h => cases h; rfl
        | garbled h hl hr => cases h; omega
    · rw [if_neg (by simp only [Bool.or_eq_true, decide_eq_true_eq]; omega), List.take_of_length_le (by omega)]
      by_cases h0 : data.length = 0
      · rw [if_pos h0]
        have : data = [] := List.length_eq_zero_iff.1 h0
        subst this
        constructor
        · intro h; cases h
        · intro h
          cases h with
          | refused h => cases h
          | cut h hc => cases h; exact absurd hc hcut
          | garbled h _ _ hd => cases h; exact absurd rfl hd
      · rw [if_neg h0]
        have hne : data ≠ [] := fun h => h0 (by rw [h]; rfl)
        cases hg : deserialize dec data with
        | none =>
          constructor
          · intro h; cases h; exact .garbled rfl (by omega) (by omega) hne hg
          · intro h
            cases h with
            | refused h => cases h
            | cut h hc => cases h; exact absurd hc hcut
            | garbled h => cases h; rfl
        | some m =>
          constructor
          · intro h; cases h
          · intro h
            cases h with
            | refused h => cases h
            | cut h hc => cases h; exact absurd hc hcut
            | garbled h _ _ _ hg' => cases h; rw [hg] at hg'; cases hg'

/-- C128: asking whether a handle is inheritable, or making it so, fails exactly for one which is not open, and the
error has the handle and the code of the system (EBADF); nothing is changed then. -/
theorem C128_handle (t : FdTable) (fd : Nat) (allow : Bool) (e : HandleError) :
    (isInheritable t fd = .error e ↔
      t.get fd = none ∧ e = .internalOsOperationFailed c!"fcntl(F_GETFD) failed" (BitVec.ofNat 64 fd) 9) ∧
    ((setInheritable t fd allow).1 = .error e ↔
      t.get fd = none ∧ e = .internalOsOperationFailed c!"fcntl(F_GETFD) failed" (BitVec.ofNat 64 fd) 9) ∧
    ((setInheritable t fd allow).1 = .error e → (setInheritable t fd allow).2 = t) := by
  cases h : t.get fd with
  | none => simp [isInheritable, setInheritable, sysGetFd, h, EBADF, eq_comm]
  | some x => simp [isInheritable, setInheritable, sysGetFd, sysSetFd, h]

/-- One file too many for 32-bit ARM and x86, a message cut, a handle which is closed. -/
example :
    (channelRecv .ilp32 decRequest 8 5 [] (.datagram ⟨[0], [7, 8]⟩)).2 = .error (.payloadTooBigToTransmit [0]) ∧
    (channelRecv .lp64 decRequest 8 5 [] (.datagram ⟨[0], [7, 8]⟩)).2 = .ok (some (.initialization, some 0)) ∧
    (channelRecv .lp64 decRequest 2 5 [] (.datagram ⟨[9, 9, 9], []⟩)).2 = .error (.payloadTooBigToTransmit [9, 9]) ∧
    (channelRecv .lp64 decRequest 8 5 [] (.datagram ⟨[9, 9, 9], []⟩)).2 = .error (.internalDeserializationError [9, 9, 9]) ∧
    channelSend .ilp32 [(0, ⟨1, 0⟩)] (some [1, 0]) (some 7) none = .error (.internalOsOperationFailed c!"sendmsg() failed" 9) ∧
    channelSend .lp64 [(7, ⟨1, 0⟩)] (some [1, 0]) (some 7) none = .error (.internalOsOperationFailed c!"sendmsg() failed" 9) ∧
    isInheritable [(7, ⟨1, 0⟩)] 8 = .error (.internalOsOperationFailed c!"fcntl(F_GETFD) failed" 8#64 9) := by
  decide +kernel

end Iris
