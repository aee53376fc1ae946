import Verif.Spec.WinWorker
import Verif.Props.WinBroker
import Verif.Lemmas.Utf16
/-! Lemmas about the hooks of the Windows worker. -/
namespace Iris
open Spec

theorem fromUtf16Lossy_of_from (u : List U16) (s : Str) (h : fromUtf16 u = some s) : fromUtf16Lossy u = s := by
  fun_induction fromUtf16 u generalizing s with
  | case1 => cases h; rfl
  | case2 u rest hu ih =>
    simp only [Option.map_eq_some_iff] at h
    obtain ⟨t, ht, rfl⟩ := h
    rw [fromUtf16Lossy.eq_def]
    simp only [if_pos hu, ih t ht]
  | case3 => cases h
  | case4 => cases h
  | case5 u hu hu' v rest hv ih =>
    simp only [Option.map_eq_some_iff] at h
    obtain ⟨t, ht, rfl⟩ := h
    rw [fromUtf16Lossy.eq_def]
    simp only [if_neg hu, if_neg hu', if_pos hv, ih t ht]
  | case6 => cases h

theorem fromUtf16Lossy_utf16 (s : Str) : fromUtf16Lossy (utf16 s) = s :=
  fromUtf16Lossy_of_from _ _ (fromUtf16_utf16 s)

theorem units_of_names {s : NtString} {u : List U16} (h : Names s u) : s.units = some u := by
  obtain ⟨h1, t, h2⟩ := h
  rw [NtString.units, h1, ← h2, if_pos (by simp)]
  simp

theorem names_length {s : NtString} {u : List U16} (h : Names s u) : u.length < 32768 := by
  have := s.length.isLt
  have := h.1
  omega

/-- One request and its reply, between the worker and a broker that can answer. -/
theorem win_exchange (debug : Bool) (p : Policy) (b : WinBroker) (os : WinChoice) (r : WinIPCRequest) (data : Bytes)
    (v0 : BitVec 64) (hb : b.running = true) (hdata : winWrap (encWinRequest r) none = some data)
    (hr : r ≠ .initialization) (hw : os.writeOk = true) (hd : os.dup = some v0) (h0 : v0 ≠ 0#64)
    (hv : ∀ e ∈ b.tables.worker, e.1 ≠ v0) :
    let b' := winAfter debug p b os r
    b'.running = true ∧
    ((WinGrants debug p r ∧ ∃ res v,
        b'.trace = b.trace ++ winNotes debug p r ++ ((winCallFor cutName r).toList.map (.called · res)) ++
          [.sent (winAnswer res r) (if res.status.toInt < 0 then none else some (v, res.object))] ∧
        winSendRecv r (winBrokered debug p b os r) =
          some (winAnswer res r, if res.status.toInt < 0 then none else some v) ∧
        (res.status.toInt < 0 → b'.tables = b.tables) ∧
        (¬ res.status.toInt < 0 → v ≠ 0#64 ∧
          b'.tables = { b.tables with worker := (v, res.object) :: b.tables.worker })) ∨
     (¬ WinGrants debug p r ∧ b'.trace = b.trace ++ winNotes debug p r ++ [.sent (.syscallResult 0xC0000022#32) none] ∧
        winSendRecv r (winBrokered debug p b os r) = some (.syscallResult 0xC0000022#32, none) ∧
        b'.tables = b.tables)) := by
  obtain ⟨hl, hu⟩ := C89_request_round_trip r none data hdata
  have hreq : winRequest (.message data) = some r := by simp [winRequest, hl, hu]
  have hfree : b.tables.worker.free v0 = true := by
    rw [HTable.free_iff]
    refine ⟨h0, ?_⟩
    simp only [HTable.get, Option.map_eq_none_iff, List.find?_eq_none]
    intro e he
    simpa using hv e he
  have hafter : winAfter debug p b os r = b.step debug p (.message data, os) := by simp only [winAfter, hdata]
  intro b'
  have hb' : b' = b.step debug p (.message data, os) := hafter
  obtain ⟨res, v, new, hn, hnew, _, _, h⟩ := win_step_request debug p b (.message data, os) r hb hreq hr
  obtain ⟨_, h1, h2, h3, h4⟩ := h.resolve_right fun h => h.1 ⟨hw, fun _ _ => ⟨v0, hd, hfree⟩⟩
  rw [← hb'] at hn h1 h2 h3
  have htab : b'.tables = ⟨b.tables.broker, new ++ b.tables.worker⟩ := by
    rw [← hn, ← h3]
  -- what the worker reads
  have hread : ∀ resp handle, (∀ q, resp ≠ .initialization q) → winReply debug p r res v = .sent resp handle →
      winSendRecv r (winBrokered debug p b os r) = some (resp, handle.map (·.1)) := by
    intro resp handle hne hrep
    obtain ⟨bs, hbs, hbs'⟩ := C89_reply_round_trip resp (handle.map (·.1)) hne
    have hpiped : winPiped b b' = .message bs := by
      have : (b'.trace.drop b.trace.length).getLast? = some (.sent resp handle) := by
        rw [h2, hrep, List.append_assoc, List.drop_left]
        simp
      simp only [winPiped, this, hbs]
    have hlen : ¬ bs.length > IPC_MESSAGE_MAX_SIZE := by
      have := (winWrap_some hbs).2
      simp only [IPC_MESSAGE_MAX_SIZE] at this ⊢; omega
    simp only [winSendRecv, hdata, winBrokered]
    show (match winPiped b b' with
      | .message data => if data.length > IPC_MESSAGE_MAX_SIZE then none else winUnwrap decWinResponse data
      | .broken => none
      | .failed _ => none) = _
    rw [hpiped]
    simp only [if_neg hlen, hbs']
  refine ⟨h1, ?_⟩
  by_cases hg : WinGrants debug p r
  · refine .inl ⟨hg, res, v, ?_, ?_, ?_, ?_⟩
    · rw [h2]
      simp only [winWork, winReply, if_pos hg, List.append_assoc]
    · rw [hread (winAnswer res r) (if res.status.toInt < 0 then none else some (v, res.object))
        (by intro q; cases r <;> simp [winAnswer]) (by simp only [winReply, if_pos hg])]
      split <;> rfl
    · intro hneg
      rw [htab, h4, if_neg (by simp [hneg])]
      rfl
    · intro hneg
      rw [if_pos ⟨hg, hneg⟩] at h4
      refine ⟨?_, ?_⟩
      · rcases hnew with h5 | ⟨w, h5, _, _, h6, _⟩
        · rw [h4] at h5; cases h5
        · rw [h4] at h5
          simp only [List.cons.injEq, Prod.mk.injEq, and_true] at h5
          rw [h5]; exact h6
      · rw [htab, h4]; rfl
  · refine .inr ⟨hg, ?_, ?_, ?_⟩
    · rw [h2]
      simp only [winWork, winReply, if_neg hg, List.append_assoc, List.nil_append]
    · rw [hread (.syscallResult 0xC0000022#32) none (by simp) (by simp only [winReply, if_neg hg])]
      rfl
    · rw [htab, h4, if_neg (by simp [hg])]
      rfl

end Iris
