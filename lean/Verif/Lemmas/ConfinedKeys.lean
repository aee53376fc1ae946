import Verif.Spec.ConfinedKeys
import Verif.Lemmas.ConfinedWin
/-! Lemmas about a confined Windows program and the registry. -/
namespace Iris
open Spec

/-! ## The kernel -/

theorem keyWalkWith_status (k : KeyKernel) (t : KeyTree) (follow : Bool) (again : List Str → KeyWalk)
    (hag : ∀ cs e, again cs = .failed e → e.msb = true) (cs : List Str) :
    ∀ (cur : Nat) (place : Option (Nat × Str)) (e : BitVec 32), keyWalkWith k t follow again cur place cs = .failed e → e.msb = true := by
  induction cs with
  | nil => intro cur place e h; simp [keyWalkWith] at h
  | cons c rest ih =>
    intro cur place e h
    simp only [keyWalkWith] at h
    split at h
    · cases h; rfl
    · split at h
      · split at h
        · cases h
        · cases h; rfl
      · split at h
        · cases h; rfl
        · exact ih _ _ _ h
        · split at h
          · cases h
          · split at h
            · cases h; rfl
            · exact hag _ _ h

theorem keyWalkLinks_status (k : KeyKernel) (t : KeyTree) (follow : Bool) (n : Nat) (cs : List Str) (e : BitVec 32)
    (h : keyWalkLinks k t follow n cs = .failed e) : e.msb = true := by
  induction n generalizing cs e with
  | zero => exact keyWalkWith_status k t follow _ (fun _ _ h => by cases h; rfl) cs 0 none e h
  | succ n ih => exact keyWalkWith_status k t follow _ (fun cs e h => ih cs e h) cs 0 none e h

/-- The statuses of failures. -/
theorem ntCreateKey_status {k : KeyKernel} {t t' : KeyTree} {access : BitVec 32} {name : ObjectName} {o : BitVec 32}
    {refuse : Option (BitVec 32)} {e : BitVec 32} (hr : ∀ e, refuse = some e → e.msb = true)
    (h : ntCreateKey k t access name o refuse = (.error e, t')) : e.msb = true := by
  unfold ntCreateKey at h
  split at h
  · cases h; exact hr _ rfl
  · split at h
    · cases h; rfl
    · split at h
      · rename_i hw
        cases h
        exact keyWalkLinks_status _ _ _ _ _ _ hw
      · split at h <;> cases h; rfl
      · cases h

/-! ## The hook and the broker -/

/-- What the call to the kernel is for a call of a program. -/
theorem carried_key {debug : Bool} {p : Policy} {b : WinBroker} {a : CreateKeyArgs} {q : KeyAsk} (hq : KeyRequests a q)
    (hlen : keyMessageSize q.access (utf8 q.path).length (q.cls.map fun c => (utf8 c).length) q.options ≤ 65536) (os : WinChoice) (hos : CanAnswer b os) :
    ∃ h, hookNtCreateKey a (winBrokered debug p b os) = h ∧
    Carried debug p b (brokerAfter debug p b os h) (.regKeyOpen q.path q.access q.options true)
      (.createKey q.access (utf16 q.path) 0#32 (q.cls.map utf16) q.options) h
      (fun res => h.disposition = if q.out then
        some (match res with
          | some res => if res.status.toInt < 0 then 0#32 else res.disposition
          | none => 0#32) else none) ∧
    ∀ res acts rest, (p.winEvaluate debug (.regKeyOpen q.path q.access q.options true)).1 = .granted →
      (∀ a ∈ acts, a.keyCall = none) →
      (brokerAfter debug p b os h).trace = b.trace ++ acts ++
        [.called (.createKey q.access (utf16 q.path) 0#32 (q.cls.map utf16) q.options) res] ++ rest → res = (ntEffect b.tables os.nt).2 := by
  obtain ⟨name, hoa, hname⟩ := hq.path
  have hc := (C93_create_key_exact_partial debug p b os hos a ⟨0#64, some name⟩ name q.path q.cls hq.handle hoa rfl hq.title rfl hname hq.cls).1
    (by rw [hq.access, hq.options]; exact hlen)
  simp only [hq.access, hq.options, hq.out] at hc
  refine ⟨_, rfl, hc, ?_⟩
  have hcls : ∃ units, classUnits a.cls = some units ∧ units.map fromUtf16Lossy = q.cls := by
    rcases hq.cls with ⟨e1, e2⟩ | ⟨s, c, e1, e2, e3⟩
    · exact ⟨none, by rw [e1]; rfl, by rw [e2]; rfl⟩
    · refine ⟨some (utf16 c), by rw [e1]; simp [classUnits, units_of_names e3], ?_⟩
      simp [e2, fromUtf16Lossy_utf16]
  obtain ⟨units, hunits, hcls⟩ := hcls
  have hsent : (hookNtCreateKey a (winBrokered debug p b os)).sent = some (.ntCreateKey q.access q.path 0 q.cls q.options true) := by
    simp only [hookNtCreateKey, hq.handle, hoa, hq.title, units_of_names hname, hunits, hcls, hq.access, hq.options, fromUtf16Lossy_utf16]
    rw [if_neg (by simp)]
    split <;> rfl
  intro res acts rest hg hacts htr
  obtain ⟨data, hdata⟩ : ∃ data, winWrap (encWinRequest (.ntCreateKey q.access q.path 0 q.cls q.options true)) none = some data :=
    ⟨_, by rw [key_size, if_pos hlen]⟩
  have hgr : WinGrants debug p (.ntCreateKey q.access q.path 0 q.cls q.options true) := ⟨_, rfl, hg⟩
  obtain ⟨rest', hr'⟩ := step_called debug p b os _ hos.running (by simp) hgr hdata
  simp only [brokerAfter, hsent] at htr
  rw [hr', List.append_assoc, List.append_assoc, List.append_cancel_left_eq] at htr
  simp only [winWork, if_pos hgr, winCallFor, winNotes, winAsked, Option.toList_some, List.map_cons, List.map_nil] at htr
  have h1 := congrArg (List.find? fun a => a.keyCall.isSome) htr
  have n1 : List.find? (fun a : WinAction => a.keyCall.isSome) acts = none := by
    rw [List.find?_eq_none]
    intro a ha
    simp [hacts a ha]
  have n2 : ∀ l : List (Notification WinRequest), List.find? (fun a : WinAction => a.keyCall.isSome) (l.map .notified) = none := by
    intro l
    rw [List.find?_eq_none]
    intro a ha
    obtain ⟨n, _, rfl⟩ := List.mem_map.1 ha
    simp [WinAction.keyCall]
  rw [List.append_assoc, List.find?_append, n2, Option.none_or, List.find?_append, List.find?_append, n1, Option.none_or,
    List.find?_append, List.find?_cons_of_pos rfl, List.find?_cons_of_pos rfl, Option.some_or, Option.some_or] at h1
  simp only [Option.some.injEq, WinAction.called.injEq] at h1
  exact h1.2.symm

theorem key_result_neg (c : KeyTurn) (t : KeyTree) (e : BitVec 32) (he : e.msb = true) (tb : WinTables) :
    (ntEffect tb (c.choice t (.error e)).nt).2 = ⟨e, 0#64, 0#32, 0#64, 0⟩ := by
  simp [KeyTurn.choice, KeyTurn.result, ntEffect, ntSuccess, he]

theorem key_result_pos (c : KeyTurn) (t : KeyTree) (i : Nat) (place : Option (Nat × Str)) (tb : WinTables)
    (h : c.handle ≠ 0#64 ∧ ∀ e ∈ tb.broker, e.1 ≠ c.handle) :
    (ntEffect tb (c.choice t (.ok (i, place))).nt).2 = ⟨0#32, 0#64, keyDisposition t i, c.handle, i⟩ := by
  have hfree : tb.broker.free c.handle = true := by
    rw [HTable.free_iff]
    refine ⟨h.1, ?_⟩
    simp only [HTable.get, Option.map_eq_none_iff, List.find?_eq_none]
    intro e he
    simpa using h.2 e he
  simp [KeyTurn.choice, KeyTurn.result, ntEffect, ntSuccess, hfree]

/-- One call of a confined program. -/
theorem key_turn (debug : Bool) (p : Policy) (k : KeyKernel) (w : ConfinedKeys) (c : KeyTurn) (q : KeyAsk)
    (hs : KeyTurnServed w.broker.tables.broker (c, q)) (hrun : w.broker.running = true)
    (hlen : keyMessageSize q.access (utf8 q.path).length (q.cls.map fun c => (utf8 c).length) q.options ≤ 65536) :
    (w.turn debug p k c).2.broker.running = true ∧ (w.turn debug p k c).2.broker.tables.broker = w.broker.tables.broker ∧
    ((p.winEvaluate debug (.regKeyOpen q.path q.access q.options true)).1 = .granted →
      ((w.turn debug p k c).1, (w.turn debug p k c).2.tree) = bareKeyTurn k w.tree (c, q)) ∧
    ((p.winEvaluate debug (.regKeyOpen q.path q.access q.options true)).1 ≠ .granted →
      (w.turn debug p k c).1 = .failed 0xC0000022#32 ∧ (w.turn debug p k c).2.tree = c.others w.tree) := by
  have hc := carried_key (debug := debug) (p := p)
    (b := { w.broker with tables := { w.broker.tables with worker := c.table } }) hs.says hlen
  have hans : ∀ t r, CanAnswer { w.broker with tables := { w.broker.tables with worker := c.table } } (c.choice t r) :=
    fun t r => ⟨hrun, hs.writes, hs.gives⟩
  generalize hbdef : ({ w.broker with tables := { w.broker.tables with worker := c.table } } : WinBroker) = b at hc hans
  have hbt : b.tables.broker = w.broker.tables.broker := by rw [← hbdef]
  have hnot : ∀ l : List (Notification WinRequest), ∀ a ∈ l.map WinAction.notified, a.keyCall = none := by
    intro l a ha
    obtain ⟨n, _, rfl⟩ := List.mem_map.1 ha
    rfl
  by_cases hg : (p.winEvaluate debug (.regKeyOpen q.path q.access q.options true)).1 = .granted
  · have hask : c.asks debug p b = some (.createKey q.access (utf16 q.path) 0#32 (q.cls.map utf16) q.options) := by
      obtain ⟨h, hh, ⟨_, hx⟩, _⟩ := hc _ (hans [] (.error 0xC0000001#32))
      rcases hx with ⟨_, res, reply, v, htr, _⟩ | ⟨hn, _⟩
      · simp only [KeyTurn.asks, hh, htr]
        rw [List.append_assoc, List.drop_left, List.findSome?_append, List.findSome?_eq_none_iff.2 (hnot _), Option.none_or]
        rfl
      · exact absurd hg hn
    have hturn : w.turn debug p k c =
        (let opened := ntCreateKey k (c.others w.tree) q.access (utf16 q.path) q.options c.refuse
        let h := hookNtCreateKey c.call (winBrokered debug p b (c.choice (c.others w.tree) opened.1))
        let b' := brokerAfter debug p b (c.choice (c.others w.tree) opened.1) h
        (keyOutcomeOf b'.tables.worker h, ⟨opened.2, b'⟩)) := by
      subst hbdef
      simp only [ConfinedKeys.turn]
      rw [hask]
      rfl
    rw [hturn]
    simp only [bareKeyTurn]
    cases ho : ntCreateKey k (c.others w.tree) q.access (utf16 q.path) q.options c.refuse with
    | mk r t' =>
      simp only []
      obtain ⟨h, hh, ⟨hr', hx⟩, hres⟩ := hc _ (hans (c.others w.tree) r)
      rcases hx with ⟨_, res, reply, v, htr, hret, hinfo, hneg, hpos⟩ | ⟨hn, _⟩
      · have hres := hres res _ [.sent reply v] hg (hnot _) (htr.trans (List.append_assoc _ [_] [_]).symm)
        rw [hh]
        cases r with
        | error e =>
          have hm : e.msb = true := ntCreateKey_status (fun e he => (msb_toInt e).2 (hs.status e he)) ho
          rw [key_result_neg c _ e hm] at hres
          subst hres
          obtain ⟨_, ht⟩ := hneg ((msb_toInt e).1 hm)
          refine ⟨hr', by rw [ht, hbt], fun _ => ?_, fun hn => absurd hg hn⟩
          simp only [keyOutcomeOf, hret, hm, if_true]
        | ok x =>
          obtain ⟨i, place⟩ := x
          rw [key_result_pos c _ i place b.tables (by rw [hbt]; exact hs.opens)] at hres
          subst hres
          obtain ⟨v', hv', hhv, ht⟩ := hpos (show ¬ (0#32).toInt < 0 by decide)
          refine ⟨hr', by rw [ht]; exact hbt, fun _ => ?_, fun hn => absurd hg hn⟩
          have hd : keyDisposition (c.others w.tree) i = if List.length (c.others w.tree) ≤ i then 1#32 else 2#32 := by
            by_cases hi : i < List.length (c.others w.tree)
            · rw [keyDisposition, if_pos hi, if_neg (by omega)]
            · rw [keyDisposition, if_neg hi, if_pos (by omega)]
          simp only [keyOutcomeOf, hret, ht, hhv, hinfo, Option.getD_some, HTable.get, hd]
          simp
      · exact absurd hg hn
  · have hask : c.asks debug p b = none := by
      obtain ⟨h, hh, ⟨_, hx⟩, _⟩ := hc _ (hans [] (.error 0xC0000001#32))
      rcases hx with ⟨hn, _⟩ | ⟨_, ⟨reply, htr⟩, _⟩
      · exact absurd hn hg
      · simp only [KeyTurn.asks, hh, htr]
        rw [List.append_assoc, List.drop_left, List.findSome?_append, List.findSome?_eq_none_iff.2 (hnot _), Option.none_or]
        rfl
    have hturn : w.turn debug p k c =
        (let h := hookNtCreateKey c.call (winBrokered debug p b (c.choice (c.others w.tree) (.error 0xC0000001#32)))
        let b' := brokerAfter debug p b (c.choice (c.others w.tree) (.error 0xC0000001#32)) h
        (keyOutcomeOf b'.tables.worker h, ⟨c.others w.tree, b'⟩)) := by
      subst hbdef
      simp only [ConfinedKeys.turn]
      rw [hask]
      rfl
    rw [hturn]
    obtain ⟨h, hh, ⟨hr', hx⟩, _⟩ := hc _ (hans (c.others w.tree) (.error 0xC0000001#32))
    rcases hx with ⟨hn, _⟩ | ⟨_, _, hret, _, _, ht⟩
    · exact absurd hn hg
    · simp only [hh]
      refine ⟨hr', by rw [ht, hbt], fun hn => absurd hn hg, fun _ => ⟨?_, trivial⟩⟩
      simp only [keyOutcomeOf, hret]
      rfl

end Iris
