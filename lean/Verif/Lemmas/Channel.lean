import Verif.Lemmas.Fd
import Verif.Lemmas.Postcard
/-! Helper lemmas about descriptor passing. -/
namespace Iris

theorem leBytes4 (fd : Nat) : leBytes 4 fd = [UInt8.ofNat (fd % 256), UInt8.ofNat (fd / 256 % 256),
    UInt8.ofNat (fd / 256 / 256 % 256), UInt8.ofNat (fd / 256 / 256 / 256 % 256)] := rfl

theorem buildControl_lp64 (fd : Nat) : buildControl .lp64 fd =
    [24, 0, 0, 0, 0, 0, 0, 0, 1, 0, 0, 0, 1, 0, 0, 0] ++ leBytes 4 fd ++ [0, 0, 0, 0] := rfl

theorem buildControl_ilp32 (fd : Nat) : buildControl .ilp32 fd =
    [16, 0, 0, 0, 1, 0, 0, 0, 1, 0, 0, 0] ++ leBytes 4 fd := rfl

theorem scmSend_lp64 (t : FdTable) (fd : Nat) (h : fd < 2 ^ 32) :
    scmSend .lp64 t (buildControl .lp64 fd) = lookupFds t [fd, 0] := by
  rw [buildControl_lp64]
  have h1 : ofLe (leBytes 4 fd) = fd := ofLe_leBytes 4 fd (by omega)
  rw [leBytes4] at h1 ⊢
  simp only [scmSend, Abi.cmsgHdr, Abi.word, List.cons_append, List.nil_append, List.length_cons,
    List.length_nil, List.take, List.drop]
  rw [if_neg (by omega)]
  simp only [show ofLe [24, 0, 0, 0, 0, 0, 0, 0] = 24 from rfl, show ofLe [1, 0, 0, 0] = 1 from rfl,
    SOL_SOCKET, SCM_RIGHTS]
  rw [if_neg (by omega), if_neg (by omega)]
  simp only [show (24 - (8 + 8)) / 4 = 2 from rfl, show 4 * 2 = 8 from rfl, List.take, ints, h1,
    show ofLe [0, 0, 0, 0] = 0 from rfl]

theorem scmSend_ilp32 (t : FdTable) (fd : Nat) (h : fd < 2 ^ 32) :
    scmSend .ilp32 t (buildControl .ilp32 fd) = lookupFds t [fd] := by
  rw [buildControl_ilp32]
  have h1 : ofLe (leBytes 4 fd) = fd := ofLe_leBytes 4 fd (by omega)
  rw [leBytes4] at h1 ⊢
  simp only [scmSend, Abi.cmsgHdr, Abi.word, List.cons_append, List.nil_append, List.length_cons,
    List.length_nil, List.take, List.drop]
  rw [if_neg (by omega)]
  simp only [show ofLe [16, 0, 0, 0] = 16 from rfl, show ofLe [1, 0, 0, 0] = 1 from rfl,
    SOL_SOCKET, SCM_RIGHTS]
  rw [if_neg (by omega), if_neg (by omega)]
  simp only [show (16 - (4 + 8)) / 4 = 1 from rfl, show 4 * 1 = 4 from rfl, List.take, ints, h1]

theorem maxFds_lp64 : maxFds .lp64 (CMSG_SIZE .lp64) = 2 := rfl
theorem maxFds_ilp32 : maxFds .ilp32 (CMSG_SIZE .ilp32) = 1 := rfl

/-- A datagram with nothing attached. -/
theorem channelRecv_plain {α : Type} (abi : Abi) (dec : Parser α) (cap k : Nat) (t : FdTable)
    (data : Bytes) :
    channelRecv abi dec cap k t (.datagram ⟨data, []⟩) =
      if cap < data.length then (t, .error (.payloadTooBigToTransmit (data.take cap)))
      else if data.length = 0 then (t, .ok none)
      else match deserialize dec data with
        | none => (t, .error (.internalDeserializationError data))
        | some m => (t, .ok (some (m, none))) := by
  simp only [channelRecv, sysRecvmsg, List.take_nil, installAll, rightsCmsg, List.length_nil,
    Nat.lt_irrefl, decide_false, recvFinish, recvCmsgs, Bool.false_or, decide_eq_true_eq, dropHandle]
  split
  · rfl
  · rename_i h
    have : data.take cap = data := List.take_of_length_le (by omega)
    rw [this]
    split
    · rfl
    · cases deserialize dec data <;> rfl

theorem recvFinish_some {α : Type} {dec : Parser α} {t t' : FdTable} {r : RecvMsg} {m : α}
    {h : Option Nat} (hr : recvFinish dec t r = (t', .ok (some (m, h)))) :
    r.trunc = false ∧ r.ctrunc = false ∧ r.bytes ≠ [] ∧ deserialize dec r.bytes = some m ∧
      recvCmsgs t (.ok none) r.cmsgs = (t', .ok h) := by
  simp only [recvFinish] at hr
  split at hr
  · simp at hr
  · rename_i t1 h1 heq
    by_cases hflag : (r.ctrunc || r.trunc) = true
    · rw [if_pos hflag] at hr; simp at hr
    · rw [if_neg hflag] at hr
      simp only [Bool.or_eq_true, not_or, Bool.not_eq_true] at hflag
      by_cases hlen : r.bytes.length = 0
      · rw [if_pos hlen] at hr; simp at hr
      · rw [if_neg hlen] at hr
        cases hd : deserialize dec r.bytes with
        | none => simp [hd] at hr
        | some m' =>
          simp only [hd, Prod.mk.injEq, Except.ok.injEq, Option.some.injEq] at hr
          refine ⟨hflag.2, hflag.1, ?_, by rw [hr.2.1], by rw [heq, hr.1, hr.2.2]⟩
          intro hn; simp [hn] at hlen

end Iris
