import Verif.Spec.ConfinedWin
import Verif.Props.WinWorker
import Verif.Props.WinPolicy
/-! Lemmas about a confined Windows program and its files. -/
namespace Iris
open Spec

/-! ## The kernel -/

/-- Where following reparse points makes no difference. -/
theorem walkWith_follow (k : NtKernel) (fs : NtTree) (againF againT : List Str → NtWalk)
    (hag : ∀ cs, (∀ i place t, againF cs = .found i place → fs[i]? ≠ some (.link t)) → againT cs = againF cs) :
    ∀ (cs : List Str) (cur : Nat) (place : Option (Nat × Str)),
      (∀ i place' t, ntWalkWith k fs false againF cur place cs = .found i place' → fs[i]? ≠ some (.link t)) →
      ntWalkWith k fs true againT cur place cs = ntWalkWith k fs false againF cur place cs := by
  intro cs
  induction cs with
  | nil => intro cur place _; simp [ntWalkWith]
  | cons c rest ih =>
    intro cur place h
    simp only [ntWalkWith] at h ⊢
    split
    · rename_i entries he
      simp only [he] at h
      split
      · rfl
      · rename_i hc
        simp only [if_neg hc] at h
        split
        · rfl
        · rename_i i hl
          simp only [hl] at h
          split
          · rename_i t ht
            simp only [ht] at h
            simp only [Bool.true_eq_false, and_false, if_false, and_true] at h ⊢
            by_cases hr : rest = []
            · rw [if_pos hr] at h
              exact absurd ht (h i _ t rfl)
            · rw [if_neg hr] at h ⊢
              exact hag _ h
          · rename_i n hn' hn
            refine ih _ _ ?_
            cases n with
            | link t => exact absurd rfl (hn' t)
            | dir e => simp only [hn] at h; exact h
            | file e => simp only [hn] at h; exact h
          · rfl
    · rfl

theorem walkLinks_follow (k : NtKernel) (fs : NtTree) (n : Nat) (cs : List Str)
    (h : ∀ i place t, ntWalkLinks k fs false n cs = .found i place → fs[i]? ≠ some (.link t)) :
    ntWalkLinks k fs true n cs = ntWalkLinks k fs false n cs := by
  induction n generalizing cs with
  | zero => exact walkWith_follow k fs _ _ (fun _ _ => rfl) cs 0 none h
  | succ n ih => exact walkWith_follow k fs _ _ ih cs 0 none h

theorem and_or_flag (o m : BitVec 32) (h : m &&& 0x200000#32 = 0#32) : (o ||| 0x200000#32) &&& m = o &&& m := by
  have : (o ||| 0x200000#32) &&& m = (o &&& m) ||| (m &&& 0x200000#32) := by
    ext i hi
    simp only [BitVec.getElem_and, BitVec.getElem_or]
    cases o[i] <;> cases m[i] <;> simp
  rw [this, h, BitVec.or_zero]

theorem openFound_flag (fs : NtTree) (i : Nat) (place : Option (Nat × Str)) (slash : Bool) (d o : BitVec 32) :
    ntOpenFound fs i place slash d (o ||| 0x200000#32) = ntOpenFound fs i place slash d o := by
  simp only [ntOpenFound, and_or_flag o 0x40#32 (by decide), and_or_flag o 0x1#32 (by decide)]

theorem openMissing_flag (fs : NtTree) (i : Nat) (c : Str) (slash : Bool) (d o : BitVec 32) :
    ntOpenMissing fs i c slash d (o ||| 0x200000#32) = ntOpenMissing fs i c slash d o := by
  simp only [ntOpenMissing, and_or_flag o 0x1#32 (by decide)]

/-- The option the broker adds makes no difference for plain calls. -/
theorem ntCreateFile_flag (k : NtKernel) (fs : NtTree) (q : FileAsk) (refuse : Option (BitVec 32)) (hp : NtPlain k fs q) :
    ntCreateFile k fs (utf16 q.path) q.disposition (q.options ||| 0x200000#32) refuse =
      ntCreateFile k fs (utf16 q.path) q.disposition q.options refuse := by
  unfold ntCreateFile
  cases refuse with
  | some e => rfl
  | none =>
    have hf : decide ((q.options ||| 0x200000#32) &&& FILE_FLAG_OPEN_REPARSE_POINT = 0#32) = false := by
      apply decide_eq_false
      intro h
      have := congrArg (fun v : BitVec 32 => v.getLsbD 21) h
      revert this
      simp [FILE_FLAG_OPEN_REPARSE_POINT]
    simp only [and_or_flag q.options 0x2000#32 (by decide), openFound_flag, openMissing_flag, fromUtf16_utf16, Option.bind_some, hf]
    split
    · rfl
    · cases hn : ntNames q.path with
      | none => rfl
      | some x =>
        obtain ⟨cs, slash⟩ := x
        simp only []
        rcases hp.2 with h | ⟨_, h⟩
        · have : decide (q.options &&& FILE_FLAG_OPEN_REPARSE_POINT = 0#32) = false := decide_eq_false h
          rw [this]
        · by_cases hg : q.options &&& FILE_FLAG_OPEN_REPARSE_POINT = 0#32
          · rw [decide_eq_true hg, walkLinks_follow k fs 63 cs fun i place t h1 h2 => h ⟨cs, slash, i, place, t, hn, h1, h2⟩]
          · rw [decide_eq_false hg]

theorem walkWith_status (k : NtKernel) (fs : NtTree) (follow : Bool) (again : List Str → NtWalk)
    (hag : ∀ cs e, again cs = .failed e → e.msb = true) (cs : List Str) :
    ∀ (cur : Nat) (place : Option (Nat × Str)) (e : BitVec 32), ntWalkWith k fs follow again cur place cs = .failed e → e.msb = true := by
  induction cs with
  | nil => intro cur place e h; simp [ntWalkWith] at h
  | cons c rest ih =>
    intro cur place e h
    simp only [ntWalkWith] at h
    split at h
    · split at h
      · cases h; rfl
      · split at h
        · split at h
          · cases h
          · cases h; rfl
        · split at h
          · split at h
            · cases h
            · exact hag _ _ h
          · exact ih _ _ _ h
          · cases h; rfl
    · cases h; rfl

theorem walkLinks_status (k : NtKernel) (fs : NtTree) (follow : Bool) (n : Nat) (cs : List Str) (e : BitVec 32)
    (h : ntWalkLinks k fs follow n cs = .failed e) : e.msb = true := by
  induction n generalizing cs e with
  | zero => exact walkWith_status k fs follow _ (fun _ _ h => by cases h; rfl) cs 0 none e h
  | succ n ih => exact walkWith_status k fs follow _ (fun cs e h => ih cs e h) cs 0 none e h

/-- The statuses of failures. -/
theorem ntCreateFile_status {k : NtKernel} {fs fs' : NtTree} {name : ObjectName} {d o : BitVec 32} {refuse : Option (BitVec 32)}
    {e : BitVec 32} (hr : ∀ e, refuse = some e → e.msb = true) (h : ntCreateFile k fs name d o refuse = (.error e, fs')) : e.msb = true := by
  have found : ∀ i place slash, ntOpenFound fs i place slash d o = (.error e, fs') → e.msb = true := by
    intro i place slash h
    simp only [ntOpenFound] at h
    split at h
    · cases h; rfl
    · split at h
      · split at h <;> cases h; rfl
      · split at h
        · cases h; rfl
        · split at h <;> cases h
      · cases h; rfl
  have missing : ∀ i c slash, ntOpenMissing fs i c slash d o = (.error e, fs') → e.msb = true := by
    intro i c slash h
    simp only [ntOpenMissing] at h
    split at h
    · cases h; rfl
    · split at h
      · split at h <;> cases h; rfl
      · split at h <;> cases h; rfl
  unfold ntCreateFile at h
  split at h
  · cases h; exact hr _ rfl
  · split at h
    · split at h
      · exact found _ _ _ h
      · cases h; rfl
    · split at h
      · cases h; rfl
      · split at h
        · rename_i hw
          cases h
          exact walkLinks_status _ _ _ _ _ _ hw
        · exact missing _ _ _ h
        · exact found _ _ _ h

/-! ## The hooks and the broker -/

theorem finish_writes (b : WinBroker) (os : WinChoice) (x : WinServed) :
    ∃ rest, (b.finish os x).trace = b.trace ++ (x.acts ++ rest) := by
  refine ⟨(winSend x.tables x.resp x.handle os).2.toList, ?_⟩
  simp only [WinBroker.finish]
  split <;> simp only [WinBroker.leave, List.append_assoc]

/-- The result of the call the broker makes is what the kernel returned. -/
theorem step_called (debug : Bool) (p : Policy) (b : WinBroker) (os : WinChoice) (r : WinIPCRequest) (hb : b.running = true)
    (hr : r ≠ .initialization) (hg : WinGrants debug p r) {data : Bytes} (hdata : winWrap (encWinRequest r) none = some data) :
    ∃ rest, (winAfter debug p b os r).trace = b.trace ++ (winWork cutName debug p r (ntEffect b.tables os.nt).2 ++ rest) := by
  obtain ⟨hl, hu⟩ := C89_request_round_trip r none data hdata
  have hreq : winRequest (.message data) = some r := by simp [winRequest, hl, hu]
  have hstep : winAfter debug p b os r = (match winServe debug p b.tables os r with
      | some x => b.finish os x
      | none => b.leave) := by
    simp only [winAfter, hdata, WinBroker.step, hb, Bool.true_eq_false, if_false, winRecv_request (.message data) r hreq]
    rfl
  rw [hstep, winServe_eq debug p b.tables os r hr]
  simp only [if_pos hg]
  exact finish_writes _ _ _

theorem brokerAfter_eq (debug : Bool) (p : Policy) (b : WinBroker) (os : WinChoice) (h : Hooked) :
    brokerAfter debug p b os h = afterCall debug p b os h := rfl

/-- What the call to the kernel is for a call of a program. -/
theorem carried_ask {debug : Bool} {p : Policy} {b : WinBroker} {c : NtFileCall} {q : FileAsk} (hq : Requests c q)
   
    (hlen : fileMessageSize q.access (utf8 q.path).length q.allocation q.attributes q.share q.disposition q.options ≤ 65536) : ∃ allocation, ∀ os, CanAnswer b os →
    ∃ h, c.hooked (winBrokered debug p b os) = h ∧
    Carried debug p b (brokerAfter debug p b os h)
      (.fileOpen q.path q.access q.attributes q.share q.disposition (q.options ||| 0x200000#32) [])
      (.createFile q.access (utf16 q.path) allocation 0x80#32 q.share q.disposition (q.options ||| 0x200000#32) []) h
      (fun res => h.info = some (res.elim 0#64 (·.info))) ∧
    ∀ res acts rest, (p.winEvaluate debug
        (.fileOpen q.path q.access q.attributes q.share q.disposition (q.options ||| 0x200000#32) [])).1 = .granted →
      (∀ a ∈ acts, a.creates = none) →
      (brokerAfter debug p b os h).trace = b.trace ++ acts ++ [.called (.createFile q.access (utf16 q.path) allocation 0x80#32 q.share
        q.disposition (q.options ||| 0x200000#32) []) res] ++ rest → res = (ntEffect b.tables os.nt).2 := by
  have key : ∀ (allocation : BitVec 64) (os : WinChoice), allocation = q.allocation → CanAnswer b os → (utf16 q.path).length < 32768 → ∀ h : Hooked,
      h.sent = some (.ntCreateFile q.access q.path allocation q.attributes q.share q.disposition q.options []) →
      ∀ res acts rest, (p.winEvaluate debug
        (.fileOpen q.path q.access q.attributes q.share q.disposition (q.options ||| 0x200000#32) [])).1 = .granted →
      (∀ a ∈ acts, a.creates = none) →
      (brokerAfter debug p b os h).trace = b.trace ++ acts ++ [.called (.createFile q.access (utf16 q.path) allocation 0x80#32 q.share
        q.disposition (q.options ||| 0x200000#32) []) res] ++ rest → res = (ntEffect b.tables os.nt).2 := by
    intro allocation os hall hos hu h hsent res acts rest hg hacts htr
    obtain ⟨data, hdata⟩ : ∃ data, winWrap (encWinRequest (.ntCreateFile q.access q.path allocation q.attributes q.share q.disposition
        q.options [])) none = some data := ⟨_, by rw [hall, file_size, if_pos hlen]⟩
    have hgr : WinGrants debug p (.ntCreateFile q.access q.path allocation q.attributes q.share q.disposition q.options []) :=
      ⟨_, rfl, hg⟩
    obtain ⟨rest', hr'⟩ := step_called debug p b os _ hos.running (by simp) hgr hdata
    simp only [brokerAfter, hsent] at htr
    rw [hr', List.append_assoc, List.append_assoc, List.append_cancel_left_eq] at htr
    simp only [winWork, if_pos hgr, winCallFor, winNotes, winAsked, Option.toList_some, List.map_cons, List.map_nil, cutName_short hu] at htr
    have h1 := congrArg (List.find? fun a => a.creates.isSome) htr
    have n1 : List.find? (fun a : WinAction => a.creates.isSome) acts = none := by
      rw [List.find?_eq_none]
      intro a ha
      simp [hacts a ha]
    have n2 : ∀ l : List (Notification WinRequest), List.find? (fun a : WinAction => a.creates.isSome) (l.map .notified) = none := by
      intro l
      rw [List.find?_eq_none]
      intro a ha
      obtain ⟨n, _, rfl⟩ := List.mem_map.1 ha
      simp [WinAction.creates]
    rw [List.append_assoc, List.find?_append, n2, Option.none_or, List.find?_append, List.find?_append, n1, Option.none_or,
      List.find?_append, List.find?_cons_of_pos rfl, List.find?_cons_of_pos rfl, Option.some_or, Option.some_or] at h1
    simp only [Option.some.injEq, WinAction.called.injEq] at h1
    exact h1.2.symm
  cases hq with
  | create a oa name path h1 h2 h3 h4 h5 h6 h7 =>
    refine ⟨a.allocation.getD 0, fun os hos => ⟨_, rfl, ?_, ?_⟩⟩
    · exact (C92_create_file_exact_partial debug p b os hos a oa name path h1 h2 h3 h4 h5 h6 h7).1 hlen
    · apply key _ os rfl hos (names_length h7)
      simp only [NtFileCall.hooked, hookNtCreateFile, h1, h2, h3, h4, h5, h6, units_of_names h7, fromUtf16Lossy_utf16, ne_eq,
        not_true_eq_false, or_self, if_false]
      exact (finish_file _ _).1
  | «open» a oa name path h1 h2 h3 h4 h6 h7 =>
    refine ⟨0#64, fun os hos => ⟨_, rfl, ?_, ?_⟩⟩
    · exact (C92_open_file_exact_partial debug p b os hos a oa name path h1 h2 h3 h4 h6 h7).1 hlen
    · apply key _ os rfl hos (names_length h7)
      simp only [NtFileCall.hooked, hookNtOpenFile, h1, h2, h3, h4, h6, units_of_names h7, fromUtf16Lossy_utf16, ne_eq,
        not_true_eq_false, if_false]
      exact (finish_file _ _).1

theorem msb_toInt (v : BitVec 32) : v.msb = true ↔ v.toInt < 0 := by
  rw [BitVec.msb_eq_toInt]; simp

theorem result_neg (c : NtTurn) (e : BitVec 32) (he : e.msb = true) (t : WinTables) :
    (ntEffect t (c.choice (.error e)).nt).2 = ⟨e, 0#64, 0#32, 0#64, 0⟩ := by
  simp [NtTurn.choice, NtTurn.result, ntEffect, ntSuccess, he]

theorem result_pos (c : NtTurn) (i : Nat) (place : Option (Nat × Str)) (t : WinTables) (h : c.handle ≠ 0#64 ∧ ∀ e ∈ t.broker, e.1 ≠ c.handle) :
    (ntEffect t (c.choice (.ok (i, place))).nt).2 = ⟨0#32, c.info, 0#32, c.handle, i⟩ := by
  have hfree : t.broker.free c.handle = true := by
    rw [HTable.free_iff]
    refine ⟨h.1, ?_⟩
    simp only [HTable.get, Option.map_eq_none_iff, List.find?_eq_none]
    intro e he
    simpa using h.2 e he
  simp [NtTurn.choice, NtTurn.result, ntEffect, ntSuccess, hfree]

/-- One call of a confined program. -/
theorem nt_turn (debug : Bool) (p : Policy) (k : NtKernel) (w : ConfinedWin) (c : NtTurn) (q : FileAsk)
    (hs : NtTurnServed w.broker.tables.broker (c, q)) (hrun : w.broker.running = true)
    (hlen : fileMessageSize q.access (utf8 q.path).length q.allocation q.attributes q.share q.disposition q.options ≤ 65536) :
    (w.turn debug p k c).2.broker.running = true ∧ (w.turn debug p k c).2.broker.tables.broker = w.broker.tables.broker ∧
    ((p.winEvaluate debug (.fileOpen q.path q.access q.attributes q.share q.disposition (q.options ||| 0x200000#32) [])).1 = .granted →
      ((w.turn debug p k c).1, (w.turn debug p k c).2.tree) =
        match ntCreateFile k (c.others w.tree) (utf16 q.path) q.disposition (q.options ||| 0x200000#32) c.refuse with
        | (.ok (i, _), fs) => (.opened i c.info, fs)
        | (.error e, fs) => (.failed e, fs)) ∧
    ((p.winEvaluate debug (.fileOpen q.path q.access q.attributes q.share q.disposition (q.options ||| 0x200000#32) [])).1 ≠ .granted →
      (w.turn debug p k c).1 = .failed 0xC0000022#32 ∧ (w.turn debug p k c).2.tree = c.others w.tree) := by
  obtain ⟨allocation, hc⟩ := carried_ask (debug := debug) (p := p)
    (b := { w.broker with tables := { w.broker.tables with worker := c.table } }) hs.says hlen
  have hans : ∀ r, CanAnswer { w.broker with tables := { w.broker.tables with worker := c.table } } (c.choice r) :=
    fun r => ⟨hrun, hs.writes, hs.gives⟩
  generalize hbdef : ({ w.broker with tables := { w.broker.tables with worker := c.table } } : WinBroker) = b at hc hans
  have hbt : b.tables.broker = w.broker.tables.broker := by rw [← hbdef]
  have hnot : ∀ l : List (Notification WinRequest), ∀ a ∈ l.map WinAction.notified, a.creates = none := by
    intro l a ha
    obtain ⟨n, _, rfl⟩ := List.mem_map.1 ha
    rfl
  by_cases hg : (p.winEvaluate debug (.fileOpen q.path q.access q.attributes q.share q.disposition (q.options ||| 0x200000#32) [])).1 = .granted
  · -- the call the broker makes
    have hask : c.asks debug p b = some (utf16 q.path, q.disposition, q.options ||| 0x200000#32) := by
      obtain ⟨h, hh, ⟨_, hx⟩, _⟩ := hc _ (hans (.error 0xC0000001#32))
      rcases hx with ⟨_, res, reply, v, htr, _⟩ | ⟨hn, _⟩
      · simp only [NtTurn.asks, hh, htr]
        rw [List.append_assoc, List.drop_left, List.findSome?_append, List.findSome?_eq_none_iff.2 (hnot _), Option.none_or]
        rfl
      · exact absurd hg hn
    have hturn : w.turn debug p k c =
        (let opened := ntCreateFile k (c.others w.tree) (utf16 q.path) q.disposition (q.options ||| 0x200000#32) c.refuse
        let h := c.call.hooked (winBrokered debug p b (c.choice opened.1))
        let b' := brokerAfter debug p b (c.choice opened.1) h
        (ntOutcomeOf b'.tables.worker h, ⟨opened.2, b'⟩)) := by
      subst hbdef
      simp only [ConfinedWin.turn]
      rw [hask]
    rw [hturn]
    cases ho : ntCreateFile k (c.others w.tree) (utf16 q.path) q.disposition (q.options ||| 0x200000#32) c.refuse with
    | mk r fs =>
      simp only []
      obtain ⟨h, hh, ⟨hr', hx⟩, hres⟩ := hc _ (hans r)
      rcases hx with ⟨_, res, reply, v, htr, hret, hinfo, hneg, hpos⟩ | ⟨hn, _⟩
      · have hres := hres res _ [.sent reply v] hg (hnot _) (htr.trans (List.append_assoc _ [_] [_]).symm)
        rw [hh]
        cases r with
        | error e =>
          have hm : e.msb = true := ntCreateFile_status (fun e he => (msb_toInt e).2 (hs.status e he)) ho
          rw [result_neg c e hm] at hres
          subst hres
          obtain ⟨_, ht⟩ := hneg ((msb_toInt e).1 hm)
          refine ⟨hr', by rw [ht, hbt], fun _ => ?_, fun hn => absurd hg hn⟩
          simp only [ntOutcomeOf, hret, hm, if_true]
        | ok x =>
          obtain ⟨i, place⟩ := x
          rw [result_pos c i place b.tables (by rw [hbt]; exact hs.opens)] at hres
          subst hres
          obtain ⟨v', hv', hhv, ht⟩ := hpos (show ¬ (0#32).toInt < 0 by decide)
          refine ⟨hr', by rw [ht]; exact hbt, fun _ => ?_, fun hn => absurd hg hn⟩
          simp only [ntOutcomeOf, hret, ht, hhv, hinfo, Option.getD_some, HTable.get]
          simp
      · exact absurd hg hn
  · have hask : c.asks debug p b = none := by
      obtain ⟨h, hh, ⟨_, hx⟩, _⟩ := hc _ (hans (.error 0xC0000001#32))
      rcases hx with ⟨hn, _⟩ | ⟨_, ⟨reply, htr⟩, _⟩
      · exact absurd hn hg
      · simp only [NtTurn.asks, hh, htr]
        rw [List.append_assoc, List.drop_left, List.findSome?_append, List.findSome?_eq_none_iff.2 (hnot _), Option.none_or]
        rfl
    have hturn : w.turn debug p k c =
        (let h := c.call.hooked (winBrokered debug p b (c.choice (.error 0xC0000001#32)))
        let b' := brokerAfter debug p b (c.choice (.error 0xC0000001#32)) h
        (ntOutcomeOf b'.tables.worker h, ⟨c.others w.tree, b'⟩)) := by
      subst hbdef
      simp only [ConfinedWin.turn]
      rw [hask]
    rw [hturn]
    obtain ⟨h, hh, ⟨hr', hx⟩, _⟩ := hc _ (hans (.error 0xC0000001#32))
    rcases hx with ⟨hn, _⟩ | ⟨_, _, hret, _, _, ht⟩
    · exact absurd hn hg
    · simp only [hh]
      refine ⟨hr', by rw [ht, hbt], fun hn => absurd hn hg, fun _ => ⟨?_, trivial⟩⟩
      simp only [ntOutcomeOf, hret]
      rfl

/-- What the rules allow is granted. -/
theorem allowed_granted (debug : Bool) (os : WinOs) (full : Str → Str) (hos : FullNames os full) (h : List WinCall) (q : FileAsk)
    (ha : NtCallAllowed full h q) :
    ((Policy.nothingAllowed.winCalls os h).winEvaluate debug
      (.fileOpen q.path q.access q.attributes q.share q.disposition (q.options ||| 0x200000#32) [])).1 = .granted := by
  obtain ⟨h1, h2, h3, h4, h5, h6, h7, _⟩ := ha
  have hrp : Has (q.options ||| 0x200000#32) 0x200000 := by
    intro h
    have := congrArg (fun v : BitVec 32 => v.getLsbD 21) h
    revert this
    simp
  have hex := fun hd => (C58_file_open_exact debug os full hos h q.path q.access q.attributes q.share q.disposition
    (q.options ||| 0x200000#32) [] hd h7).2 ⟨⟨h1, h2, hrp, h3⟩, h4, h5, fun right hr => h6 right (by
      cases right with
      | write =>
        simp only [Asks, Has, and_or_flag q.options 0x1000 (by decide)] at hr ⊢
        exact hr
      | _ => exact hr)⟩
  cases debug with
  | false => exact hex (.inl rfl)
  | true =>
    by_cases hp : c!".pdb" <:+: q.path
    · exact C58_debug_builds _ _ _ _ _ _ _ _ hp
    · exact hex (.inr hp)

end Iris
