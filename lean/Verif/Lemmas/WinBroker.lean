import Verif.Spec.WinBroker
import Verif.Lemmas.Utf16
import Verif.Lemmas.Postcard
/-! Helper lemmas about the Windows broker. -/
namespace Iris
open Spec

theorem unicodeString_eq (s : Str) : unicodeString s = cutName s := by
  simp only [unicodeString, cutName, BitVec.toNat_ofNat]
  congr 1
  omega

theorem ntSuccess_iff (s : BitVec 32) : ntSuccess s = true ↔ ¬ s.toInt < 0 := by
  simp only [ntSuccess, Bool.not_eq_eq_eq_not, Bool.not_true]
  simp [BitVec.msb_eq_toInt]

theorem ntSuccess_if {α : Type} (s : BitVec 32) (a b : α) :
    (if ntSuccess s = true then a else b) = if s.toInt < 0 then b else a := by
  by_cases h : s.toInt < 0
  · rw [if_pos h, if_neg (by rw [ntSuccess_iff]; simp [h])]
  · rw [if_neg h, if_pos ((ntSuccess_iff s).2 h)]

theorem winNamed_eq (inc : WinIncoming) (r : WinIPCRequest) (h : Option (BitVec 64))
    (he : winRecv inc = .request r h) : winNamed inc = h ∧ (h = none → winRequest inc = some r) := by
  cases inc with
  | broken => simp [winRecv] at he
  | failed c => simp [winRecv] at he
  | message data =>
    by_cases hl : data.length > IPC_MESSAGE_MAX_SIZE
    · simp only [winRecv, if_pos hl] at he
      cases he
    · simp only [winRecv, if_neg hl] at he
      simp only [IPC_MESSAGE_MAX_SIZE] at hl
      cases hu : winUnwrap decWinRequest data with
      | none => rw [hu] at he; cases he
      | some x =>
        obtain ⟨r', h'⟩ := x
        rw [hu] at he
        simp only [WinReceived.request.injEq] at he
        obtain ⟨rfl, rfl⟩ := he
        simp only [winNamed, winRequest, if_pos (show data.length ≤ 65536 by omega), hu, Option.bind_some,
          true_and]
        rintro rfl
        rfl

theorem winRecv_request (inc : WinIncoming) (r : WinIPCRequest) (h : winRequest inc = some r) :
    winRecv inc = .request r none := by
  cases inc with
  | broken => simp [winRequest] at h
  | failed c => simp [winRequest] at h
  | message data =>
    simp only [winRequest] at h
    split at h
    · rename_i hl
      have hl' : ¬ data.length > IPC_MESSAGE_MAX_SIZE := by simp only [IPC_MESSAGE_MAX_SIZE]; omega
      simp only [winRecv, if_neg hl']
      split at h
      · rename_i r' hu
        simp only [Option.some.injEq] at h
        subst h
        rw [hu]
      · cases h
    · cases h

theorem winRecv_other (inc : WinIncoming) (h : winRequest inc = none) :
    (∃ r v, winRecv inc = .request r (some v)) ∨ winRecv inc = .ended ∨ winRecv inc = .error := by
  cases he : winRecv inc with
  | ended => simp
  | error => simp
  | request r v =>
    cases v with
    | some v => exact .inl ⟨r, v, rfl⟩
    | none =>
      have := (winNamed_eq inc r none he).2 rfl
      rw [h] at this; cases this

/-! ### Tables -/

theorem HTable.get_none {t : HTable} {h : BitVec 64} (hn : t.get h = none) : ∀ e ∈ t, e.1 ≠ h := by
  intro e he heq
  simp only [HTable.get, Option.map_eq_none_iff, List.find?_eq_none] at hn
  exact hn e he (by simp [heq])

theorem HTable.close_free {t : HTable} {h : BitVec 64} (hn : t.get h = none) : t.close h = t := by
  rw [HTable.close, List.filter_eq_self]
  intro e he
  simpa using HTable.get_none hn e he

theorem HTable.close_cons {t : HTable} {h : BitVec 64} {o : Nat} (hn : t.get h = none) :
    HTable.close ((h, o) :: t) h = t := by
  have := HTable.close_free hn
  simp only [HTable.close] at this ⊢
  rw [List.filter_cons_of_neg (by simp), this]

theorem HTable.get_cons (t : HTable) (h : BitVec 64) (o : Nat) : HTable.get ((h, o) :: t) h = some o := by
  simp [HTable.get]

theorem HTable.free_iff (t : HTable) (h : BitVec 64) : t.free h = true ↔ h ≠ 0#64 ∧ t.get h = none := by
  simp [HTable.free]

/-- The handles a served request may have added to the worker: none, or one for the object opened. -/
def NewHandles (debug : Bool) (p : Policy) (r : WinIPCRequest) (res : NtResult) (old : HTable)
    (new : HTable) : Prop :=
  new = [] ∨ ∃ v, new = [(v, res.object)] ∧ WinGrants debug p r ∧ ¬ res.status.toInt < 0 ∧ v ≠ 0#64 ∧
    old.get v = none

/-- The reply to a request whose call gave `res` fits in a message. -/
theorem winWrap_small (resp : WinIPCResponse) (v : Option (BitVec 64)) (h : ∀ p, resp ≠ .initialization p) :
    ∃ b, winWrap (encWinResponse resp) v = some b := by
  have h32 : ∀ w, (encI32 w).length ≤ 5 := fun w => encVarint_length 4 _ (by have := (zigzag w).isLt; omega)
  have hb32 : ∀ w, (encB32 w).length ≤ 5 := fun w => encVarint_length 4 _ (by have := w.isLt; omega)
  have hb64 : ∀ w, (encB64 w).length ≤ 10 := fun w => encVarint_length 9 _ (by have := w.isLt; omega)
  have hv : (encOption encB64 v).length ≤ 11 := by
    cases v with
    | none => simp [encOption]
    | some w => have := hb64 w; simp only [encOption, List.length_cons]; omega
  refine ⟨encWinResponse resp ++ encOption encB64 v, ?_⟩
  rw [winWrap, serialize, if_pos]
  rw [List.length_append, IPC_MESSAGE_MAX_SIZE]
  cases resp with
  | initialization p => exact absurd rfl (h p)
  | ntCreateFile io code =>
    have := hb64 io; have := h32 code
    simp only [encWinResponse, List.length_append, encVarint_small (show 1 < 128 by omega), List.length_singleton]
    omega
  | ntCreateKey d code =>
    have := hb32 d; have := h32 code
    simp only [encWinResponse, List.length_append, encVarint_small (show 2 < 128 by omega), List.length_singleton]
    omega
  | syscallResult code =>
    have := h32 code
    simp only [encWinResponse, List.length_append, encVarint_small (show 3 < 128 by omega), List.length_singleton]
    omega

theorem winSend_small (t : WinTables) (resp : WinIPCResponse) (handle : Option (BitVec 64)) (os : WinChoice)
    (h : ∀ p, resp ≠ .initialization p) :
    winSend t resp handle os = match handle with
      | none => (t, if os.writeOk then some (.sent resp none) else none)
      | some w => match winDuplicate t w os with
        | none => (t, none)
        | some (t, v, object) => (t, if os.writeOk then some (.sent resp (some (v, object))) else none) := by
  cases handle with
  | none =>
    obtain ⟨b, hb⟩ := winWrap_small resp none h
    simp only [winSend, hb]
  | some w =>
    simp only [winSend]
    cases hd : winDuplicate t w os with
    | none => rfl
    | some x =>
      obtain ⟨t', v, o⟩ := x
      obtain ⟨b, hb⟩ := winWrap_small resp (some v) h
      simp only [hb]

/-- What serving gives, in terms of the specification. -/
theorem winServe_eq (debug : Bool) (p : Policy) (t : WinTables) (os : WinChoice) (r : WinIPCRequest)
    (hr : r ≠ .initialization) :
    winServe debug p t os r = some (if WinGrants debug p r then
      ⟨(ntEffect t os.nt).1, winAnswer (ntEffect t os.nt).2 r,
        if (ntEffect t os.nt).2.status.toInt < 0 then none else some (ntEffect t os.nt).2.handle,
        winWork cutName debug p r (ntEffect t os.nt).2⟩
      else ⟨t, .syscallResult 0xC0000022#32, none, winWork cutName debug p r os.nt⟩) := by
  cases r with
  | initialization => exact absurd rfl hr
  | ntCreateFile access path allocation attributes share disposition options ea =>
    simp only [winServe, proxiedNtCreateFile, Option.some.injEq]
    have hg : WinGrants debug p (.ntCreateFile access path allocation attributes share disposition options ea) ↔
        (p.winEvaluate debug (.fileOpen path access attributes share disposition
          (options ||| FILE_FLAG_OPEN_REPARSE_POINT) ea)).1 = .granted := by
      constructor
      · rintro ⟨q, hq, h⟩
        simp only [winAsked, Option.some.injEq] at hq
        subst hq; exact h
      · intro h; exact ⟨_, rfl, h⟩
    by_cases h : WinGrants debug p (.ntCreateFile access path allocation attributes share disposition options ea)
    · rw [if_neg (by simpa using hg.1 h), if_pos h]
      simp only [winAnswer, winWork, if_pos h, winCallFor, Option.toList_some, List.map_cons, List.map_nil,
        unicodeString_eq, ntSuccess_if, winNotes, winAsked]
      rfl
    · rw [if_pos (by intro hc; exact h (hg.2 hc)), if_neg h]
      simp only [winWork, if_neg h, List.append_nil, winNotes, winAsked]
      rfl
  | ntCreateKey access path titleIndex cls options create =>
    simp only [winServe, proxiedNtCreateKey, Option.some.injEq]
    have hg : WinGrants debug p (.ntCreateKey access path titleIndex cls options create) ↔
        (p.winEvaluate debug (.regKeyOpen path access options create)).1 = .granted := by
      constructor
      · rintro ⟨q, hq, h⟩
        simp only [winAsked, Option.some.injEq] at hq
        subst hq; exact h
      · intro h; exact ⟨_, rfl, h⟩
    by_cases h : WinGrants debug p (.ntCreateKey access path titleIndex cls options create)
    · rw [if_neg (by simpa using hg.1 h), if_pos h]
      cases create with
      | true =>
        simp only [if_true, ntSuccess_if, winAnswer, winWork, if_pos h, winCallFor, Option.toList_some, List.map_cons,
          List.map_nil, unicodeString_eq, winNotes, winAsked]
        have : unicodeString = cutName := funext unicodeString_eq
        rw [this]
        split <;> rfl
      | false =>
        simp only [Bool.false_eq_true, if_false, ntSuccess_if, winAnswer, winWork, if_pos h, winCallFor,
          Option.toList_some, List.map_cons, List.map_nil, unicodeString_eq, winNotes, winAsked]
        split <;> rfl
    · rw [if_pos (by intro hc; exact h (hg.2 hc)), if_neg h]
      simp only [winWork, if_neg h, List.append_nil, winNotes, winAsked]
      rfl

/-! ### One iteration -/

theorem ntEffect_worker (t : WinTables) (r : NtResult) : (ntEffect t r).1.worker = t.worker := by
  simp only [ntEffect]
  split
  · split <;> rfl
  · rfl

theorem ntEffect_failed {t : WinTables} {r : NtResult} (h : (ntEffect t r).2.status.toInt < 0) :
    (ntEffect t r).1 = t := by
  simp only [ntEffect] at h ⊢
  split at h
  · rename_i hs
    split at h
    · exact absurd h ((ntSuccess_iff _).1 hs)
    · rename_i hf; simp only [if_pos hs, if_neg hf]
  · rename_i hs; simp only [if_neg hs]

theorem ntEffect_ok {t : WinTables} {r : NtResult} (h : ¬ (ntEffect t r).2.status.toInt < 0) :
    t.broker.get (ntEffect t r).2.handle = none ∧
    (ntEffect t r).1 = { t with broker := ((ntEffect t r).2.handle, (ntEffect t r).2.object) :: t.broker } := by
  simp only [ntEffect] at h ⊢
  by_cases hs : ntSuccess r.status = true
  · simp only [if_pos hs] at h ⊢
    by_cases hf : t.broker.free r.handle = true
    · simp only [if_pos hf] at h ⊢
      exact ⟨((HTable.free_iff _ _).1 hf).2, trivial⟩
    · simp only [if_neg hf] at h
      exact absurd (by decide) h
  · simp only [if_neg hs] at h
    exact absurd ((ntSuccess_iff _).2 h) hs

/-- The request is answered: the reply is written, and the handle, if any, could be duplicated. -/
def WinAnswered (debug : Bool) (p : Policy) (s : WinBroker) (os : WinChoice) (r : WinIPCRequest) : Prop :=
  os.writeOk = true ∧ (WinGrants debug p r → ¬ (ntEffect s.tables os.nt).2.status.toInt < 0 →
    ∃ v, os.dup = some v ∧ s.tables.worker.free v = true)

theorem win_step_request (debug : Bool) (p : Policy) (s : WinBroker) (i : WinIncoming × WinChoice)
    (r : WinIPCRequest) (hs : s.running = true) (hc : winRequest i.1 = some r) (hr : r ≠ .initialization) :
    ∃ res v new, (s.step debug p i).tables.worker = new ++ s.tables.worker ∧
      NewHandles debug p r res s.tables.worker new ∧
      (s.step debug p i).pipe = s.pipe ∧ (s.step debug p i).process = s.process ∧
      ((WinAnswered debug p s i.2 r ∧ (s.step debug p i).running = true ∧
        (s.step debug p i).trace = s.trace ++ winWork cutName debug p r res ++ [winReply debug p r res v] ∧
        (s.step debug p i).tables.broker = s.tables.broker ∧
        new = (if WinGrants debug p r ∧ ¬ res.status.toInt < 0 then [(v, res.object)] else [])) ∨
       (¬ WinAnswered debug p s i.2 r ∧ (s.step debug p i).running = false ∧
        (s.step debug p i).trace = s.trace ++ winWork cutName debug p r res ∧
        (s.step debug p i).tables.broker = (s.tables.broker.close s.pipe).close s.process)) := by
  obtain ⟨inc, os⟩ := i
  have hstep : s.step debug p (inc, os) = (match winServe debug p s.tables os r with
      | some x => s.finish os x
      | none => s.leave) := by
    simp only [WinBroker.step, hs, Bool.true_eq_false, if_false, winRecv_request inc r hc]
    rfl
  rw [hstep, winServe_eq debug p s.tables os r hr]
  by_cases hg : WinGrants debug p r
  · simp only [if_pos hg]
    generalize hres : (ntEffect s.tables os.nt).2 = res
    have hna : ∀ q, winAnswer res r ≠ .initialization q := by
      intro q; cases r <;> simp [winAnswer]
    by_cases hf : res.status.toInt < 0
    · have hT := ntEffect_failed (t := s.tables) (r := os.nt) (by rw [hres]; exact hf)
      simp only [if_pos hf, WinBroker.finish, hT]
      rw [winSend_small _ _ _ _ hna]
      by_cases hw : os.writeOk = true
      · refine ⟨res, 0, [], ?_, .inl rfl, ?_⟩
        · simp [hw]
        · simp only [hw, if_true, Option.isSome_some, Option.toList_some, HTable.drop?]
          refine ⟨trivial, trivial, .inl ⟨⟨hw, fun _ h => absurd (hres ▸ hf) h⟩, hs, ?_, trivial, by simp [hf]⟩⟩
          simp [winReply, hg, hf]
      · refine ⟨res, 0, [], ?_, .inl rfl, ?_⟩
        · simp [hw, WinBroker.leave]
        · simp only [hw, if_false, Bool.false_eq_true, Option.isSome_none, Option.toList_none, HTable.drop?,
            WinBroker.leave, List.append_nil]
          exact ⟨trivial, trivial, .inr ⟨fun h => hw h.1, trivial, trivial, trivial⟩⟩
    · obtain ⟨hfree, hT⟩ := ntEffect_ok (t := s.tables) (r := os.nt) (by rw [hres]; exact hf)
      rw [hres] at hfree hT
      simp only [if_neg hf, WinBroker.finish, hT]
      rw [winSend_small _ _ _ _ hna]
      simp only [winDuplicate, HTable.get_cons]
      cases hd : os.dup with
      | none =>
        refine ⟨res, 0, [], ?_, .inl rfl, ?_⟩
        · simp [WinBroker.leave]
        · simp only [Option.isSome_none, Option.toList_none, HTable.drop?, Bool.false_eq_true, if_false,
            WinBroker.leave, List.append_nil, HTable.close_cons hfree]
          refine ⟨trivial, trivial, .inr ⟨fun h => ?_, trivial, trivial, trivial⟩⟩
          obtain ⟨v, hv, _⟩ := h.2 hg (by rw [hres]; exact hf)
          rw [hd] at hv; cases hv
      | some v =>
        simp only []
        by_cases hfv : s.tables.worker.free v = true
        · simp only [if_pos hfv]
          have hfv' := (HTable.free_iff _ _).1 hfv
          by_cases hw : os.writeOk = true
          · refine ⟨res, v, [(v, res.object)], ?_, .inr ⟨v, rfl, hg, hf, hfv'⟩, ?_⟩
            · simp [hw]
            · simp only [hw, if_true, Option.isSome_some, Option.toList_some, HTable.drop?,
                HTable.close_cons hfree]
              refine ⟨trivial, trivial, .inl ⟨⟨hw, fun _ _ => ⟨v, hd, hfv⟩⟩, hs, ?_, trivial, by simp [hf, hg]⟩⟩
              simp [winReply, hg, hf]
          · refine ⟨res, v, [(v, res.object)], ?_, .inr ⟨v, rfl, hg, hf, hfv'⟩, ?_⟩
            · simp [hw, WinBroker.leave]
            · simp only [hw, if_false, Bool.false_eq_true, Option.isSome_none, Option.toList_none, HTable.drop?,
                WinBroker.leave, List.append_nil, HTable.close_cons hfree]
              exact ⟨trivial, trivial, .inr ⟨fun h => hw h.1, trivial, trivial, trivial⟩⟩
        · simp only [if_neg hfv]
          refine ⟨res, 0, [], ?_, .inl rfl, ?_⟩
          · simp [WinBroker.leave]
          · simp only [Option.isSome_none, Option.toList_none, HTable.drop?, Bool.false_eq_true, if_false,
              WinBroker.leave, List.append_nil, HTable.close_cons hfree]
            refine ⟨trivial, trivial, .inr ⟨fun h => ?_, trivial, trivial, trivial⟩⟩
            obtain ⟨v', hv, hv'⟩ := h.2 hg (by rw [hres]; exact hf)
            rw [hd] at hv; cases hv; exact hfv hv'
  · simp only [if_neg hg, WinBroker.finish]
    rw [winSend_small _ _ _ _ (by intro q; simp)]
    by_cases hw : os.writeOk = true
    · refine ⟨os.nt, 0, [], ?_, .inl rfl, ?_⟩
      · simp [hw]
      · simp only [hw, if_true, Option.isSome_some, Option.toList_some, HTable.drop?]
        refine ⟨trivial, trivial, .inl ⟨⟨hw, fun h => absurd h hg⟩, hs, ?_, trivial, by simp [hg]⟩⟩
        simp [winReply, hg]
    · refine ⟨os.nt, 0, [], ?_, .inl rfl, ?_⟩
      · simp [hw, WinBroker.leave]
      · simp only [hw, if_false, Bool.false_eq_true, Option.isSome_none, Option.toList_none, HTable.drop?,
          WinBroker.leave, List.append_nil]
        exact ⟨trivial, trivial, .inr ⟨fun h => hw h.1, trivial, trivial, trivial⟩⟩

/-- What ends the session: anything but a request to open something. -/
theorem win_step_other (debug : Bool) (p : Policy) (s : WinBroker) (i : WinIncoming × WinChoice)
    (hs : s.running = true) (hc : winRequest i.1 = none ∨ winRequest i.1 = some .initialization) :
    s.step debug p i = (s.dropReceived (winNamed i.1)).leave := by
  obtain ⟨inc, os⟩ := i
  simp only at hc
  rcases hc with hc | hc
  · rcases winRecv_other inc hc with ⟨r, v, h⟩ | h | h
    · have := (winNamed_eq inc r (some v) h).1
      simp only [WinBroker.step, hs, Bool.true_eq_false, if_false, h, this]
    · have hn : winNamed inc = none := by
        cases inc with
        | message d =>
          simp only [winRecv] at h
          split at h
          · cases h
          · split at h <;> cases h
        | broken => rfl
        | failed c => rfl
      simp only [WinBroker.step, hs, Bool.true_eq_false, if_false, h, hn, WinBroker.dropReceived, HTable.drop?]
      rfl
    · have hn : winNamed inc = none := by
        cases inc with
        | message d =>
          by_cases hl : d.length > IPC_MESSAGE_MAX_SIZE
          · simp only [IPC_MESSAGE_MAX_SIZE] at hl
            simp only [winNamed]
            rw [if_neg (by omega)]
          · simp only [winRecv, if_neg hl] at h
            cases hu : winUnwrap decWinRequest d with
            | none => simp [winNamed, hu]
            | some x => rw [hu] at h; cases h
        | broken => rfl
        | failed c => rfl
      simp only [WinBroker.step, hs, Bool.true_eq_false, if_false, h, hn, WinBroker.dropReceived, HTable.drop?]
      rfl
  · have h := winRecv_request inc _ hc
    have hn := (winNamed_eq inc _ none h).1
    simp only [WinBroker.step, hs, Bool.true_eq_false, if_false, h, winServe, hn, WinBroker.dropReceived, HTable.drop?]
    rfl

theorem win_step_stopped (debug : Bool) (p : Policy) (s : WinBroker) (i : WinIncoming × WinChoice)
    (hs : s.running = false) : s.step debug p i = s := by
  simp only [WinBroker.step, hs, if_true]

theorem win_run_stopped (debug : Bool) (p : Policy) (s : WinBroker) (l : List (WinIncoming × WinChoice))
    (hs : s.running = false) : l.foldl (fun s i => s.step debug p i) s = s := by
  induction l with
  | nil => rfl
  | cons i l ih => rw [List.foldl_cons, win_step_stopped _ _ _ _ hs, ih]

/-! ### A whole session -/

/-- The handles of the worker that a list of exchanges accounts for. -/
def WinAccounted (debug : Bool) (p : Policy) (l : List (WinIPCRequest × NtResult)) (old new : HTable) : Prop :=
  ∀ e ∈ new, e.1 ≠ 0#64 ∧ old.get e.1 = none ∧
    ∃ d ∈ l, WinGrants debug p d.1 ∧ ¬ d.2.status.toInt < 0 ∧ d.2.object = e.2

theorem HTable.get_append_none {a b : HTable} {h : BitVec 64} (hn : HTable.get (a ++ b) h = none) :
    b.get h = none := by
  simp only [HTable.get, Option.map_eq_none_iff, List.find?_eq_none] at hn ⊢
  exact fun e he => hn e (List.mem_append_right _ he)

/-- The loop, from any running state. `cut` is a request for which the session ended before the reply. -/
theorem win_loop (debug : Bool) (p : Policy) (s : WinBroker) (l : List (WinIncoming × WinChoice))
    (hs : s.running = true) :
    ∃ (done : List WinExchange) (cut : Option (WinIPCRequest × NtResult)) (new : HTable)
      (named : Option (BitVec 64)),
      let s' := l.foldl (fun s i => s.step debug p i) s
      (done.map fun e => some e.req) ++ (cut.toList.map fun c => some c.1) <+: l.map (fun i => winRequest i.1) ∧
      (∀ e ∈ done, e.req ≠ .initialization) ∧
      s'.trace = s.trace ++ winTranscript cutName debug p done ++
        cut.toList.flatMap (fun c => winWork cutName debug p c.1 c.2) ∧
      s'.tables.worker = new ++ s.tables.worker ∧
      WinAccounted debug p ((done.map fun e => (e.req, e.res)) ++ cut.toList) s.tables.worker new ∧
      (∀ e ∈ done, WinGrants debug p e.req → ¬ e.res.status.toInt < 0 → (e.value, e.res.object) ∈ new) ∧
      (s'.running = true → cut = none ∧ done.length = l.length ∧ s'.tables.broker = s.tables.broker) ∧
      (s'.running = false →
        s'.tables.broker = ((s.tables.broker.drop? named).close s.pipe).close s.process ∧
        (∀ h, named = some h → ∃ i ∈ l, winNamed i.1 = some h)) := by
  induction l generalizing s with
  | nil =>
    exact ⟨[], none, [], none, by simp, by simp, by simp [winTranscript], by simp, by simp [WinAccounted], by simp,
      by simp, by simp [hs]⟩
  | cons i l ih =>
    by_cases hc : winRequest i.1 = none ∨ winRequest i.1 = some .initialization
    · refine ⟨[], none, [], winNamed i.1, ?_⟩
      simp only [List.foldl_cons]
      have hst := win_step_other debug p s i hs hc
      rw [win_run_stopped _ _ _ _ (by rw [hst]; rfl), hst]
      refine ⟨by simp, by simp, by simp [winTranscript, WinBroker.leave, WinBroker.dropReceived],
        by simp [WinBroker.leave, WinBroker.dropReceived], by simp [WinAccounted], by simp, ?_, ?_⟩
      · intro h; cases h
      · intro _
        exact ⟨rfl, fun h hh => ⟨i, by simp, hh⟩⟩
    · obtain ⟨r, hr⟩ : ∃ r, winRequest i.1 = some r := by
        cases h : winRequest i.1 with
        | none => exact absurd (.inl h) hc
        | some r => exact ⟨r, rfl⟩
      have hri : r ≠ .initialization := by rintro rfl; exact hc (.inr hr)
      obtain ⟨res, v, new, hw, hnew, hp1, hp2, hcase⟩ := win_step_request debug p s i r hs hr hri
      have hacc : WinAccounted debug p [(r, res)] s.tables.worker new := by
        rcases hnew with rfl | ⟨v', rfl, h1, h2, h3, h4⟩
        · simp [WinAccounted]
        · intro e he
          simp only [List.mem_singleton] at he
          subst he
          exact ⟨h3, h4, (r, res), by simp, h1, h2, rfl⟩
      rcases hcase with ⟨_, hrun, htr, hbr, hnv⟩ | ⟨_, hrun, htr, hbr⟩
      · obtain ⟨done, cut, new', named, h1, h2, h3, h4, h5, h6, h7, h8⟩ := ih (s.step debug p i) hrun
        refine ⟨⟨r, res, v⟩ :: done, cut, new' ++ new, named, ?_⟩
        simp only [List.foldl_cons]
        refine ⟨?_, ?_, ?_, ?_, ?_, ?_, ?_, ?_⟩
        · simp only [List.map_cons, List.cons_append, hr]
          exact (List.cons_prefix_cons).2 ⟨rfl, h1⟩
        · intro e he
          rcases List.mem_cons.1 he with rfl | he
          · exact hri
          · exact h2 e he
        · rw [h3, htr]
          simp [winTranscript]
        · rw [h4, hw, List.append_assoc]
        · intro e he
          rcases List.mem_append.1 he with he | he
          · obtain ⟨a1, a2, d, hd, a3⟩ := h5 e he
            rw [hw] at a2
            refine ⟨a1, HTable.get_append_none a2, d, ?_, a3⟩
            simp only [List.map_cons, List.cons_append, List.mem_cons]
            exact .inr hd
          · obtain ⟨a1, a2, d, hd, a3⟩ := hacc e he
            simp only [List.mem_singleton] at hd
            subst hd
            exact ⟨a1, a2, (r, res), by simp, a3⟩
        · intro e he hg hsuc
          rcases List.mem_cons.1 he with rfl | he
          · refine List.mem_append_right _ ?_
            rw [hnv, if_pos ⟨hg, hsuc⟩]
            simp
          · exact List.mem_append_left _ (h6 e he hg hsuc)
        · intro h
          obtain ⟨a, b, c⟩ := h7 h
          exact ⟨a, by simp [b], by rw [c, hbr]⟩
        · intro h
          obtain ⟨a, b⟩ := h8 h
          rw [hbr, hp1, hp2] at a
          exact ⟨a, fun h' hh => by
            obtain ⟨j, hj, hj'⟩ := b h' hh
            exact ⟨j, List.mem_cons_of_mem _ hj, hj'⟩⟩
      · refine ⟨[], some (r, res), new, none, ?_⟩
        simp only [List.foldl_cons]
        rw [win_run_stopped _ _ _ _ hrun]
        refine ⟨?_, by simp, ?_, hw, ?_, by simp, ?_, ?_⟩
        · simp [hr]
        · rw [htr]; simp [winTranscript]
        · simpa using hacc
        · intro h; rw [hrun] at h; cases h
        · intro _
          exact ⟨by rw [hbr]; rfl, by simp⟩

end Iris
