import Verif.Spec.WinLoops
import Verif.Lemmas.WinBroker
import Verif.Lemmas.WinCreators
/-! Helper lemmas about several Windows workers served at once. -/
namespace Iris
open Spec

/-- The handle a thread holds for a request. -/
def WinLoop.held (th : WinLoop) : Option (BitVec 64) :=
  match th.phase with
  | .giving _ _ h | .dropping h _ => some h
  | .writing _ _ h _ => h
  | _ => none

def WinLoop.hasPipe (th : WinLoop) : Bool := th.phase ≠ .detaching && th.phase ≠ .gone
def WinLoop.hasProcess (th : WinLoop) : Bool := th.phase ≠ .gone

theorem WinLoop.mem_owned (th : WinLoop) (h : BitVec 64) :
    h ∈ th.owned ↔ th.held = some h ∨ (th.hasPipe = true ∧ h = th.pipe) ∨ (th.hasProcess = true ∧ h = th.process) := by
  unfold WinLoop.owned WinLoop.held WinLoop.hasPipe WinLoop.hasProcess
  cases hp : th.phase with
  | writing os resp k g =>
    cases k with
    | none => simp
    | some k => simp [eq_comm]
  | _ => simp [eq_comm]

/-- The handles of a thread are different, open, and two of them are those of its pipe and of its worker. -/
structure WinLoop.Holds (t : HTable) (th : WinLoop) (po qo : Nat) : Prop where
  ne : th.hasPipe = true → th.pipe ≠ th.process
  heldPipe : ∀ h, th.held = some h → h ≠ th.pipe ∧ h ≠ th.process
  heldOpen : ∀ h, th.held = some h → t.get h ≠ none
  pipe : th.hasPipe = true → t.get th.pipe = some po
  process : th.hasProcess = true → t.get th.process = some qo

theorem WinLoop.Holds.open {t : HTable} {th : WinLoop} {po qo : Nat} (hh : th.Holds t po qo) {h : BitVec 64}
    (hm : h ∈ th.owned) : t.get h ≠ none := by
  rcases (th.mem_owned h).1 hm with a | ⟨a, rfl⟩ | ⟨a, rfl⟩
  · exact hh.heldOpen h a
  · rw [hh.pipe a]; simp
  · rw [hh.process a]; simp

theorem WinLoop.Holds.frame {t t' : HTable} {th : WinLoop} {po qo : Nat} (hh : th.Holds t po qo)
    (he : ∀ h ∈ th.owned, t'.get h = t.get h) : th.Holds t' po qo where
  ne := hh.ne
  heldPipe := hh.heldPipe
  heldOpen h a := by rw [he h ((th.mem_owned h).2 (.inl a))]; exact hh.heldOpen h a
  pipe a := by rw [he _ ((th.mem_owned _).2 (.inr (.inl ⟨a, rfl⟩)))]; exact hh.pipe a
  process a := by rw [he _ ((th.mem_owned _).2 (.inr (.inr ⟨a, rfl⟩)))]; exact hh.process a

/-! ### How far a thread is -/

/-- All requests up to now have been answered. -/
def WinAll (debug : Bool) (p : Policy) (heard : List (WinIncoming × WinChoice)) (trace : List WinAction) : Prop :=
  ∃ first rest done, heard = first :: rest ∧ WinGreets first ∧
    (done.map fun e : WinExchange => some e.req) = rest.map (fun i => winRequest i.1) ∧
    trace = .sent (.initialization p) none :: winTranscript cutName debug p done

/-- All but the last, for which the system call, if any, has been made. -/
def WinBusy (debug : Bool) (p : Policy) (heard : List (WinIncoming × WinChoice)) (trace : List WinAction)
    (r : WinIPCRequest) (res : NtResult) : Prop :=
  ∃ heard0 trace0 i, heard = heard0 ++ [i] ∧ WinAll debug p heard0 trace0 ∧ winRequest i.1 = some r ∧
    r ≠ .initialization ∧ trace = trace0 ++ winWork cutName debug p r res

/-- The thread is leaving. -/
def WinOver (debug : Bool) (p : Policy) (heard : List (WinIncoming × WinChoice)) (trace : List WinAction) : Prop :=
  trace = [] ∨ ∃ done cut, WinFollows debug p heard trace done cut

def WinTrack (debug : Bool) (p : Policy) (t : HTable) (heard : List (WinIncoming × WinChoice)) (th : WinLoop) : Prop :=
  match th.phase with
  | .greeting => heard = [] ∧ th.trace = []
  | .idle | .dropping _ true => WinAll debug p heard th.trace
  | .received true inc os => heard = [(inc, os)] ∧ th.trace = []
  | .received false inc os => ∃ heard0, heard = heard0 ++ [(inc, os)] ∧ WinAll debug p heard0 th.trace
  | .giving _ resp h => ∃ r res, WinBusy debug p heard th.trace r res ∧ WinGrants debug p r ∧
      ¬ res.status.toInt < 0 ∧ resp = winAnswer res r ∧ h = res.handle ∧ t.get h = some res.object
  | .writing os resp h given =>
      (∃ inc, heard = [(inc, os)] ∧ winRequest inc = some .initialization ∧ th.trace = [] ∧
        resp = .initialization p ∧ h = none ∧ given = none) ∨
      (∃ r res v, WinBusy debug p heard th.trace r res ∧ .sent resp given = winReply debug p r res v)
  | .dropping _ false | .leaving | .detaching | .gone => WinOver debug p heard th.trace

theorem WinAll.follows {debug : Bool} {p : Policy} {heard : List (WinIncoming × WinChoice)} {trace : List WinAction}
    (h : WinAll debug p heard trace) : ∃ done, WinFollows debug p heard trace done none ∧ done.length + 1 = heard.length := by
  obtain ⟨first, rest, done, rfl, h1, h2, rfl⟩ := h
  refine ⟨done, ⟨⟨first, rest, rfl, h1, by simp [h2]⟩, by simp⟩, ?_⟩
  have := congrArg List.length h2
  simpa using this

theorem Spec.WinFollows.more {debug : Bool} {p : Policy} {heard : List (WinIncoming × WinChoice)} {trace : List WinAction}
    {done : List WinExchange} {cut : Option (WinIPCRequest × NtResult)} (h : WinFollows debug p heard trace done cut)
    (l : List (WinIncoming × WinChoice)) : WinFollows debug p (heard ++ l) trace done cut := by
  obtain ⟨⟨first, rest, rfl, h1, h2⟩, h3⟩ := h
  exact ⟨⟨first, rest ++ l, rfl, h1, by rw [List.map_append]; exact h2.trans (List.prefix_append _ _)⟩, h3⟩

theorem WinAll.over {debug : Bool} {p : Policy} {heard : List (WinIncoming × WinChoice)} {trace : List WinAction}
    (h : WinAll debug p heard trace) (l : List (WinIncoming × WinChoice)) : WinOver debug p (heard ++ l) trace := by
  obtain ⟨done, h, _⟩ := h.follows
  exact .inr ⟨done, none, h.more l⟩

theorem WinBusy.follows {debug : Bool} {p : Policy} {heard : List (WinIncoming × WinChoice)} {trace : List WinAction}
    {r : WinIPCRequest} {res : NtResult} (h : WinBusy debug p heard trace r res) :
    ∃ done, WinFollows debug p heard trace done (some (r, res)) := by
  obtain ⟨_, _, i, rfl, ⟨first, rest, done, rfl, h1, h2, rfl⟩, h3, _, rfl⟩ := h
  refine ⟨done, ⟨⟨first, rest ++ [i], rfl, h1, ?_⟩, by simp⟩⟩
  simp [h2, h3]

theorem WinBusy.over {debug : Bool} {p : Policy} {heard : List (WinIncoming × WinChoice)} {trace : List WinAction}
    {r : WinIPCRequest} {res : NtResult} (h : WinBusy debug p heard trace r res) : WinOver debug p heard trace := by
  obtain ⟨done, h⟩ := h.follows
  exact .inr ⟨done, _, h⟩

theorem WinBusy.done {debug : Bool} {p : Policy} {heard : List (WinIncoming × WinChoice)} {trace : List WinAction}
    {r : WinIPCRequest} {res : NtResult} {v : BitVec 64} (h : WinBusy debug p heard trace r res) :
    WinAll debug p heard (trace ++ [winReply debug p r res v]) := by
  obtain ⟨_, _, i, rfl, ⟨first, rest, done, rfl, h1, h2, rfl⟩, h3, _, rfl⟩ := h
  refine ⟨first, rest ++ [i], done ++ [⟨r, res, v⟩], rfl, h1, ?_, ?_⟩
  · simp [h2, h3]
  · simp [winTranscript]

theorem WinTrack.frame {debug : Bool} {p : Policy} {t t' : HTable} {heard : List (WinIncoming × WinChoice)} {th : WinLoop}
    (h : WinTrack debug p t heard th) (he : ∀ h ∈ th.owned, t'.get h = t.get h) : WinTrack debug p t' heard th := by
  unfold WinTrack at h ⊢
  cases hp : th.phase with
  | giving os resp k =>
    simp only [hp] at h ⊢
    obtain ⟨r, res, a, b, c, d, e, f⟩ := h
    refine ⟨r, res, a, b, c, d, e, ?_⟩
    rw [he k (by simp [WinLoop.owned, hp])]
    exact f
  | received first inc os => cases first <;> simpa only [hp] using h
  | dropping k next => cases next <;> simpa only [hp] using h
  | _ => simp only [hp] at h ⊢ <;> exact h

/-! ### One system call -/

/-- What one system call of a thread does. -/
structure WinGoes (debug : Bool) (s : WinShared) (th : WinLoop) (po qo : Nat) (heard : List (WinIncoming × WinChoice))
    (x : WinShared × WinLoop) : Prop where
  policy : x.2.policy = th.policy
  pipe : x.2.pipe = th.pipe
  process : x.2.process = th.process
  holds : x.2.Holds x.1.broker po qo
  track : WinTrack debug th.policy x.1.broker heard x.2
  others : ∀ h, h ∉ th.owned → s.broker.get h ≠ none → x.1.broker.get h = s.broker.get h
  mine : ∀ h ∈ x.2.owned, h ∈ th.owned ∨ s.broker.get h = none
  keep : ∀ h ∈ th.owned, x.1.broker.get h = s.broker.get h ∨ x.1.broker.get h = none
  released : ∀ h ∈ th.owned, h ∉ x.2.owned → x.1.broker.get h = none
  /-- calls are added to the trace, and the handle of a successful one is held -/
  acts : ∃ acts, x.2.trace = th.trace ++ acts ∧ ∀ c res, .called c res ∈ acts → 0 ≤ res.status.toInt →
      x.2.held = some res.handle ∧ x.1.broker.get res.handle = some res.object
  /-- a handle is held because of a call -/
  took : ∀ h, x.2.held = some h → th.held = some h ∨ ∃ c res, .called c res ∈ x.2.trace ∧ 0 ≤ res.status.toInt ∧
      res.handle = h ∧ x.1.broker.get h = some res.object
  ends : ∃ es, x.2.ends = th.ends ++ es ∧ ∀ e ∈ es, e = some po
  workers : ∀ k, x.1.workers k = s.workers k ∨ (k = qo ∧ ∃ v r c res, x.1.workers k = (v, res.object) :: s.workers k ∧
      v ≠ 0#64 ∧ (s.workers k).get v = none ∧ some r ∈ heard.map (fun i => winRequest i.1) ∧
      WinGrants debug th.policy r ∧ winCallFor cutName r = some c ∧ .called c res ∈ th.trace ∧
      0 ≤ res.status.toInt)

/-- The handles of the broker stay the same. -/
theorem WinGoes.same {debug : Bool} {s : WinShared} {th : WinLoop} {po qo : Nat}
    {heard : List (WinIncoming × WinChoice)} {x : WinShared × WinLoop} (hb : x.1.broker = s.broker) (hh : th.Holds s.broker po qo) (h1 : x.2.policy = th.policy)
    (h2 : x.2.pipe = th.pipe) (h3 : x.2.process = th.process) (h4 : x.2.held = th.held) (h5 : x.2.hasPipe = th.hasPipe)
    (h6 : x.2.hasProcess = th.hasProcess) (ht : WinTrack debug th.policy s.broker heard x.2)
    (ha : ∃ acts, x.2.trace = th.trace ++ acts ∧ ∀ c res, .called c res ∈ acts → ¬ 0 ≤ res.status.toInt)
    (he : ∃ es, x.2.ends = th.ends ++ es ∧ ∀ e ∈ es, e = some po) 
    (hw : ∀ k, x.1.workers k = s.workers k ∨ (k = qo ∧ ∃ v r c res, x.1.workers k = (v, res.object) :: s.workers k ∧
      v ≠ 0#64 ∧ (s.workers k).get v = none ∧ some r ∈ heard.map (fun i => winRequest i.1) ∧
      WinGrants debug th.policy r ∧ winCallFor cutName r = some c ∧ .called c res ∈ th.trace ∧
      0 ≤ res.status.toInt)) : WinGoes debug s th po qo heard x := by
  have hown : ∀ h, h ∈ x.2.owned ↔ h ∈ th.owned := by
    intro h
    rw [WinLoop.mem_owned, WinLoop.mem_owned, h2, h3, h4, h5, h6]
  refine ⟨h1, h2, h3, ⟨?_, ?_, ?_, ?_, ?_⟩, by rw [hb]; exact ht, fun h _ _ => by rw [hb],
    fun h hm => .inl ((hown h).1 hm), fun h _ => .inl (by rw [hb]),
    fun h hm hm' => absurd ((hown h).2 hm) hm', ?_, fun h hm => .inl (h4 ▸ hm), he, hw⟩
  · rw [h2, h3, h5]; exact hh.ne
  · rw [h2, h3, h4]; exact hh.heldPipe
  · rw [h4, hb]; exact hh.heldOpen
  · rw [h2, h5, hb]; exact hh.pipe
  · rw [h3, h6, hb]; exact hh.process
  · obtain ⟨acts, a, b⟩ := ha
    exact ⟨acts, a, fun c res hc hs => absurd hs (b c res hc)⟩

/-- One handle of the thread is closed. -/
theorem WinGoes.closes {debug : Bool} {s : WinShared} {th y : WinLoop} {po qo : Nat}
    {heard : List (WinIncoming × WinChoice)} (hh : th.Holds s.broker po qo) (k : BitVec 64) (hk : k ∈ th.owned)
    (h1 : y.policy = th.policy) (h2 : y.pipe = th.pipe) (h3 : y.process = th.process) (h4 : y.held = none)
    (h5 : y.hasPipe = true → th.hasPipe = true ∧ k ≠ th.pipe) (h6 : y.hasProcess = true → th.hasProcess = true ∧ k ≠ th.process)
    (hown : ∀ h ∈ th.owned, h ∉ y.owned → h = k)
    (ht : WinTrack debug th.policy (s.broker.close k) heard y) (ha : y.trace = th.trace) (he : y.ends = th.ends) :
    WinGoes debug s th po qo heard ({ s with broker := s.broker.close k }, y) := by
  refine ⟨h1, h2, h3, ⟨?_, ?_, ?_, ?_, ?_⟩, ht, ?_, ?_, ?_, ?_, ⟨[], by simp [ha], by simp⟩, by simp [h4],
    ⟨[], by simp [he], by simp⟩, fun k => .inl rfl⟩
  · intro h; rw [h2, h3]; exact hh.ne (h5 h).1
  · rw [h4]; simp
  · rw [h4]; simp
  · intro h
    simp only [HTable.get_close_if, h2, if_neg (Ne.symm (h5 h).2)]
    exact hh.pipe (h5 h).1
  · intro h
    simp only [HTable.get_close_if, h3, if_neg (Ne.symm (h6 h).2)]
    exact hh.process (h6 h).1
  · intro h hm _
    simp only [HTable.get_close_if]
    rw [if_neg (by rintro rfl; exact hm hk)]
  · intro h hm
    refine .inl ((th.mem_owned h).2 ?_)
    rcases (y.mem_owned h).1 hm with a | ⟨a, rfl⟩ | ⟨a, rfl⟩
    · rw [h4] at a; cases a
    · exact .inr (.inl ⟨(h5 a).1, h2⟩)
    · exact .inr (.inr ⟨(h6 a).1, h3⟩)
  · intro h _
    simp only [HTable.get_close_if]
    by_cases e : h = k
    · exact .inr (if_pos e)
    · exact .inl (if_neg e)
  · intro h hm hm'
    simp only [HTable.get_close_if]
    exact if_pos (hown h hm hm')

theorem winNamed_recv {inc : WinIncoming} {r : WinIPCRequest} {h : BitVec 64} (hn : winNamed inc = none) :
    winRecv inc ≠ .request r (some h) := by
  intro he
  rw [(winNamed_eq inc r _ he).1] at hn
  cases hn

theorem called_of_work {debug : Bool} {p : Policy} {r : WinIPCRequest} {res res' : NtResult} {c : NtCall}
    (h : .called c res ∈ winWork cutName debug p r res') : WinGrants debug p r ∧ winCallFor cutName r = some c ∧ res = res' := by
  simp only [winWork, List.mem_append] at h
  rcases h with h | h
  · simp only [winNotes] at h
    split at h <;> simp at h
  · split at h
    · rename_i hg
      simp only [List.mem_map, Option.mem_toList, WinAction.called.injEq] at h
      obtain ⟨a, ha, rfl, rfl⟩ := h
      exact ⟨hg, ha, rfl⟩
    · cases h

theorem call_of_grant {debug : Bool} {p : Policy} {r : WinIPCRequest} (res : NtResult) (h : WinGrants debug p r) :
    ∃ c, winCallFor cutName r = some c ∧ .called c res ∈ winWork cutName debug p r res := by
  obtain ⟨c, hc⟩ : ∃ c, winCallFor cutName r = some c := by
    obtain ⟨q, hq, _⟩ := h
    cases r with
    | initialization => cases hq
    | ntCreateFile => exact ⟨_, rfl⟩
    | ntCreateKey a b c d e create => cases create <;> exact ⟨_, rfl⟩
  exact ⟨c, hc, by simp [winWork, h, hc]⟩

theorem winLoop_go (debug : Bool) (s : WinShared) (th : WinLoop) (po qo : Nat)
    (heard : List (WinIncoming × WinChoice)) (hh : th.Holds s.broker po qo)
    (ht : WinTrack debug th.policy s.broker heard th) (hn : ∀ i ∈ heard, winNamed i.1 = none) :
    WinGoes debug s th po qo heard (th.go debug s) := by
  have stay : ∀ y : WinLoop, y.policy = th.policy → y.pipe = th.pipe → y.process = th.process → y.trace = th.trace →
      y.ends = th.ends → y.held = th.held → y.hasPipe = th.hasPipe → y.hasProcess = th.hasProcess →
      WinTrack debug th.policy s.broker heard y → WinGoes debug s th po qo heard (s, y) :=
    fun y a b c d e f g h i => .same rfl hh a b c f g h i ⟨[], by simp [d], by simp⟩ ⟨[], by simp [e], by simp⟩
      (fun k => .inl rfl)
  cases hp : th.phase with
  | greeting => simp only [WinLoop.go, hp]; exact stay th rfl rfl rfl rfl rfl rfl rfl rfl ht
  | idle => simp only [WinLoop.go, hp]; exact stay th rfl rfl rfl rfl rfl rfl rfl rfl ht
  | gone => simp only [WinLoop.go, hp]; exact stay th rfl rfl rfl rfl rfl rfl rfl rfl ht
  | leaving =>
    simp only [WinLoop.go, hp]
    refine .closes hh th.pipe (by simp [WinLoop.owned, hp]) rfl rfl rfl rfl (by simp [WinLoop.at, WinLoop.hasPipe]) ?_ ?_ ?_ rfl rfl
    · intro _; exact ⟨by simp [WinLoop.hasProcess, hp], hh.ne (by simp [WinLoop.hasPipe, hp])⟩
    · simp [WinLoop.owned, WinLoop.at, hp]
    · simp only [WinTrack, hp] at ht; exact ht
  | detaching =>
    simp only [WinLoop.go, hp]
    refine .closes hh th.process (by simp [WinLoop.owned, hp]) rfl rfl rfl rfl (by simp [WinLoop.at, WinLoop.hasPipe])
      (by simp [WinLoop.at, WinLoop.hasProcess]) ?_ ?_ rfl rfl
    · simp [WinLoop.owned, hp]
    · simp only [WinTrack, hp] at ht; exact ht
  | dropping k next =>
    simp only [WinLoop.go, hp]
    have hk := hh.heldPipe k (by simp [WinLoop.held, hp])
    refine .closes hh k (by simp [WinLoop.owned, hp]) rfl rfl rfl ?_ ?_ ?_ ?_ ?_ rfl rfl
    · cases next <;> rfl
    · intro _; exact ⟨by simp [WinLoop.hasPipe, hp], hk.1⟩
    · intro _; exact ⟨by simp [WinLoop.hasProcess, hp], hk.2⟩
    · intro h hm hm'
      simp only [WinLoop.owned, hp, List.mem_cons] at hm
      rcases hm with hm | hm
      · exact hm
      · exact absurd (by cases next <;> simpa [WinLoop.owned, WinLoop.at] using hm) hm'
    · cases next <;> simp only [WinTrack, hp] at ht <;> exact ht
  | received first inc os =>
    have hi : (inc, os) ∈ heard := by
      cases first <;> simp only [WinTrack, hp] at ht
      · obtain ⟨_, rfl, _⟩ := ht; simp
      · rw [ht.1]; simp
    have hover : WinOver debug th.policy heard th.trace := by
      cases first <;> simp only [WinTrack, hp] at ht
      · obtain ⟨l, rfl, h⟩ := ht; exact h.over _
      · exact .inl ht.2
    have leave : WinGoes debug s th po qo heard (s, th.at .leaving) :=
      stay _ rfl rfl rfl rfl rfl (by simp [WinLoop.held, WinLoop.at, hp]) (by simp [WinLoop.hasPipe, WinLoop.at, hp])
        (by simp [WinLoop.hasProcess, WinLoop.at, hp]) hover
    simp only [WinLoop.go, hp]
    cases hr : winRecv inc with
    | ended => exact leave
    | error => exact leave
    | request r v =>
      cases v with
      | some v => exact absurd hr (winNamed_recv (hn _ hi))
      | none =>
        have hreq := (winNamed_eq inc r none hr).2 rfl
        cases first with
        | true =>
          simp only [WinTrack, hp] at ht
          simp only [if_true]
          by_cases e : r = .initialization
          · subst e
            rw [if_pos rfl]
            refine stay _ rfl rfl rfl rfl rfl (by simp [WinLoop.held, WinLoop.at, hp])
              (by simp [WinLoop.hasPipe, WinLoop.at, hp]) (by simp [WinLoop.hasProcess, WinLoop.at, hp]) ?_
            exact .inl ⟨inc, ht.1, hreq, ht.2, rfl, rfl, rfl⟩
          · rw [if_neg e]; exact leave
        | false =>
          simp only [WinTrack, hp] at ht
          simp only [Bool.false_eq_true, if_false]
          by_cases e : r = .initialization
          · subst e; exact leave
          · obtain ⟨heard0, hheard, hall⟩ := ht
            rw [winServe_eq debug th.policy _ os r e]
            have busy : ∀ res, WinBusy debug th.policy heard (th.trace ++ winWork cutName debug th.policy r res) r res :=
              fun res => ⟨heard0, th.trace, (inc, os), hheard, hall, hreq, e, rfl⟩
            by_cases hg : WinGrants debug th.policy r
            · simp only [if_pos hg]
              generalize hres : (ntEffect ⟨s.broker, []⟩ os.nt).2 = res
              by_cases hf : res.status.toInt < 0
              · have hT := ntEffect_failed (t := ⟨s.broker, []⟩) (r := os.nt) (by rw [hres]; exact hf)
                simp only [hT, if_pos hf]
                refine .same rfl hh rfl rfl rfl (by simp [WinLoop.held, hp]) (by simp [WinLoop.hasPipe, hp])
                  (by simp [WinLoop.hasProcess, hp]) ?_ ⟨_, rfl, ?_⟩ ⟨[], by simp, by simp⟩ (fun k => .inl rfl)
                · exact .inr ⟨r, res, 0, busy res, by simp [winReply, hg, hf]⟩
                · intro c res' hc
                  obtain ⟨_, _, rfl⟩ := called_of_work hc
                  omega
              · obtain ⟨hfree, hT⟩ := ntEffect_ok (t := ⟨s.broker, []⟩) (r := os.nt) (by rw [hres]; exact hf)
                rw [hres] at hfree hT
                simp only [hT, if_neg hf]
                simp only at hfree
                have hpi := hh.pipe (by simp [WinLoop.hasPipe, hp])
                have hpr := hh.process (by simp [WinLoop.hasProcess, hp])
                have n1 : res.handle ≠ th.pipe := by rintro e; rw [e, hpi] at hfree; cases hfree
                have n2 : res.handle ≠ th.process := by rintro e; rw [e, hpr] at hfree; cases hfree
                refine ⟨rfl, rfl, rfl, ⟨?_, ?_, ?_, ?_, ?_⟩, ?_, ?_, ?_, ?_, ?_, ⟨_, rfl, ?_⟩, ?_, ⟨[], by simp, by simp⟩,
                  fun k => .inl rfl⟩
                · intro _; exact hh.ne (by simp [WinLoop.hasPipe, hp])
                · intro h hhh
                  simp only [WinLoop.held, Option.some.injEq] at hhh
                  subst hhh
                  exact ⟨n1, n2⟩
                · intro h hhh
                  simp only [WinLoop.held, Option.some.injEq] at hhh
                  subst hhh
                  simp [HTable.get_cons]
                · intro _
                  simp only [HTable.get_cons_if, if_neg (Ne.symm n1)]; exact hpi
                · intro _
                  simp only [HTable.get_cons_if, if_neg (Ne.symm n2)]; exact hpr
                · exact ⟨r, res, busy res, hg, hf, rfl, rfl, HTable.get_cons _ _ _⟩
                · intro h _ ho
                  simp only [HTable.get_cons_if]
                  rw [if_neg (by rintro rfl; exact ho hfree)]
                · intro h hm
                  simp only [WinLoop.owned, List.mem_cons] at hm
                  rcases hm with rfl | rfl | rfl | hm
                  · exact .inr hfree
                  · exact .inl (by simp [WinLoop.owned, hp])
                  · exact .inl (by simp [WinLoop.owned, hp])
                  · cases hm
                · intro h hm
                  have := hh.open hm
                  simp only [HTable.get_cons_if]
                  rw [if_neg (by rintro rfl; exact this hfree)]
                  exact .inl rfl
                · intro h hm hm'
                  exfalso
                  simp only [WinLoop.owned, hp] at hm
                  exact hm' (List.mem_cons_of_mem _ hm)
                · intro c res' hc _
                  obtain ⟨_, _, rfl⟩ := called_of_work hc
                  exact ⟨rfl, HTable.get_cons _ _ _⟩
                · intro h hhh
                  simp only [WinLoop.held, Option.some.injEq] at hhh
                  subst hhh
                  obtain ⟨c, _, hc⟩ := call_of_grant res hg
                  exact .inr ⟨c, res, List.mem_append_right _ hc, by omega, rfl, HTable.get_cons _ _ _⟩
            · simp only [if_neg hg]
              refine .same rfl hh rfl rfl rfl (by simp [WinLoop.held, hp]) (by simp [WinLoop.hasPipe, hp])
                  (by simp [WinLoop.hasProcess, hp]) ?_ ⟨_, rfl, ?_⟩ ⟨[], by simp, by simp⟩ (fun k => .inl rfl)
              · exact .inr ⟨r, os.nt, 0, busy os.nt, by simp [winReply, hg]⟩
              · intro c res' hc
                exact absurd (called_of_work hc).1 hg
  | giving os resp k =>
    simp only [WinTrack, hp] at ht
    obtain ⟨r, res, hb, hg, hs, rfl, rfl, ho⟩ := ht
    have drop : WinGoes debug s th po qo heard (s, th.at (.dropping res.handle false)) :=
      stay _ rfl rfl rfl rfl rfl (by simp [WinLoop.held, WinLoop.at, hp]) (by simp [WinLoop.hasPipe, WinLoop.at, hp])
        (by simp [WinLoop.hasProcess, WinLoop.at, hp]) hb.over
    simp only [WinLoop.go, hp, hh.process (by simp [WinLoop.hasProcess, hp])]
    simp only [winDuplicate, ho]
    cases hd : os.dup with
    | none => exact drop
    | some v =>
      simp only []
      by_cases hf : (s.workers qo).free v = true
      · simp only [if_pos hf]
        refine .same rfl hh rfl rfl rfl (by simp [WinLoop.held, WinLoop.at, hp]) (by simp [WinLoop.hasPipe, WinLoop.at, hp])
          (by simp [WinLoop.hasProcess, WinLoop.at, hp]) ?_ ⟨[], by simp [WinLoop.at], by simp⟩
          ⟨[], by simp [WinLoop.at], by simp⟩ ?_
        · exact .inr ⟨r, res, v, hb, by simp [winReply, hg, hs]⟩
        · intro k
          by_cases e : k = qo
          · subst e
            obtain ⟨c, hc, hc'⟩ := call_of_grant res hg
            obtain ⟨_, _, i, rfl, _, hi, _, htr⟩ := hb
            have hf' := (HTable.free_iff _ _).1 hf
            refine .inr ⟨rfl, v, r, c, res, by simp, hf'.1, hf'.2, ?_, hg, hc, ?_, by omega⟩
            · simp [hi]
            · rw [htr]; exact List.mem_append_right _ hc'
          · exact .inl (if_neg e)
      · simp only [if_neg hf]; exact drop
  | writing os resp k given =>
    simp only [WinTrack, hp] at ht
    have hover : WinOver debug th.policy heard th.trace := by
      rcases ht with ⟨_, _, _, h, _⟩ | ⟨_, _, _, h, _⟩
      · exact .inl h
      · exact h.over
    have fail : ∀ es : List (Option Nat), (∀ e ∈ es, e = some po) →
        WinGoes debug s th po qo heard (s, { th with phase := afterSend k false, ends := th.ends ++ es }) := by
      intro es hes
      refine .same rfl hh rfl rfl rfl ?_ ?_ ?_ ?_ ⟨[], by simp, by simp⟩ ⟨es, rfl, hes⟩ (fun k => .inl rfl)
      · cases k <;> simp [WinLoop.held, afterSend, hp]
      · cases k <;> simp [WinLoop.hasPipe, afterSend, hp]
      · cases k <;> simp [WinLoop.hasProcess, afterSend, hp]
      · cases k <;> exact hover
    simp only [WinLoop.go, hp, hh.pipe (by simp [WinLoop.hasPipe, hp])]
    cases hw : winWrap (encWinResponse resp) (given.map (·.1)) with
    | none => simpa [WinLoop.at] using fail [] (by simp)
    | some b =>
      simp only []
      by_cases ho : os.writeOk = true
      · rw [if_pos ho]
        refine .same rfl hh rfl rfl rfl ?_ ?_ ?_ ?_ ⟨_, rfl, by simp⟩ ⟨_, rfl, by simp⟩ (fun k => .inl rfl)
        · cases k <;> simp [WinLoop.held, afterSend, hp]
        · cases k <;> simp [WinLoop.hasPipe, afterSend, hp]
        · cases k <;> simp [WinLoop.hasProcess, afterSend, hp]
        · have : WinAll debug th.policy heard (th.trace ++ [.sent resp given]) := by
            rcases ht with ⟨inc, h1, h2, h3, h4, h5, h6⟩ | ⟨r, res, v, h1, h2⟩
            · exact ⟨(inc, os), [], [], h1, ⟨h2, ho⟩, rfl, by simp [h3, h4, h6, winTranscript]⟩
            · rw [h2]; exact h1.done
          cases k <;> exact this
      · rw [if_neg ho]; exact fail _ (by simp)

/-! ### All threads -/

theorem winHeard_append (j : Nat) (a b : List WinLoopEvent) : winHeard j (a ++ b) = winHeard j a ++ winHeard j b := by
  simp [winHeard]

theorem winHeard_mem {j : Nat} {ls : List WinLoopEvent} {i : WinIncoming × WinChoice} (h : i ∈ winHeard j ls) :
    ∃ s, .recv j i.1 i.2 s ∈ ls := by
  simp only [winHeard, List.mem_filterMap] at h
  obtain ⟨e, he, hx⟩ := h
  cases e with
  | recv k inc os s =>
    simp only at hx
    split at hx
    · rename_i hk
      cases hx
      exact ⟨s, hk ▸ he⟩
    · cases hx
  | _ => cases hx

/-- What a system call for worker `j` may do to the handles of workers. -/
def WinGivenOk (debug : Bool) (p : Policy) (qo : Nat) (heard : List (WinIncoming × WinChoice)) (trace : List WinAction)
    (b a : WinShared) : Prop :=
  ∀ k, a.workers k = b.workers k ∨ (k = qo ∧ ∃ v r c res, a.workers k = (v, res.object) :: b.workers k ∧
    v ≠ 0#64 ∧ (b.workers k).get v = none ∧ some r ∈ heard.map (fun i => winRequest i.1) ∧
    WinGrants debug p r ∧ winCallFor cutName r = some c ∧ .called c res ∈ trace ∧ 0 ≤ res.status.toInt)

/-- What it may do to those of the broker. -/
def WinClosesOk (pipe process : BitVec 64) (po qo : Nat) (trace : List WinAction) (b a : WinShared) : Prop :=
  ∀ h o, b.broker.get h = some o → a.broker.get h = some o ∨ (a.broker.get h = none ∧
    (h = pipe ∧ o = po ∨ h = process ∧ o = qo ∨
      ∃ c res, .called c res ∈ trace ∧ 0 ≤ res.status.toInt ∧ res.handle = h ∧ res.object = o))

structure WinTied (debug : Bool) (ls : List WinLoopEvent) (s : WinShared) (j : Nat) (p : Policy)
    (pipe process : BitVec 64) (po qo : Nat) (th : WinLoop) : Prop where
  policyEq : th.policy = p
  pipeEq : th.pipe = pipe
  processEq : th.process = process
  holds : th.Holds s.broker po qo
  track : WinTrack debug p s.broker (winHeard j ls) th
  ends : ∀ e ∈ th.ends, e = some po
  source : ∀ h, th.held = some h → ∃ c res, .called c res ∈ th.trace ∧ 0 ≤ res.status.toInt ∧ res.handle = h ∧
    s.broker.get h = some res.object
  closed : ∀ c res, .called c res ∈ th.trace → 0 ≤ res.status.toInt →
    (th.held = some res.handle ∧ s.broker.get res.handle = some res.object) ∨
    ∃ b a, .step j b a ∈ ls ∧ b.broker.get res.handle = some res.object ∧ a.broker.get res.handle = none
  closedPipe : th.hasPipe = false →
    ∃ b a, .step j b a ∈ ls ∧ b.broker.get pipe = some po ∧ a.broker.get pipe = none
  closedProcess : th.hasProcess = false →
    ∃ b a, .step j b a ∈ ls ∧ b.broker.get process = some qo ∧ a.broker.get process = none
  given : ∀ b a, .step j b a ∈ ls → WinGivenOk debug p qo (winHeard j ls) th.trace b a
  closes : ∀ b a, .step j b a ∈ ls → WinClosesOk pipe process po qo th.trace b a

structure WinInv (debug : Bool) (w : WinLoops) (ls : List WinLoopEvent) : Prop where
  thread : ∀ j p pipe process po qo, .spawned j p pipe process po qo ∈ ls →
    ∃ th, w.threads j = some th ∧ WinTied debug ls w.shared j p pipe process po qo th
  event : ∀ j th, w.threads j = some th → ∃ p pipe process po qo, .spawned j p pipe process po qo ∈ ls
  apart : ∀ j k th th', j ≠ k → w.threads j = some th → w.threads k = some th' → ∀ h ∈ th.owned, h ∉ th'.owned

theorem WinGivenOk.more {debug : Bool} {p : Policy} {qo : Nat} {heard : List (WinIncoming × WinChoice)}
    {trace : List WinAction} {b a : WinShared} (h : WinGivenOk debug p qo heard trace b a)
    (l : List (WinIncoming × WinChoice)) (l' : List WinAction) : WinGivenOk debug p qo (heard ++ l) (trace ++ l') b a := by
  intro k
  rcases h k with h | ⟨h, v, r, c, res, h1, h2, h3, h4, h5, h6, h7, h8⟩
  · exact .inl h
  · exact .inr ⟨h, v, r, c, res, h1, h2, h3, by rw [List.map_append]; exact List.mem_append_left _ h4, h5, h6,
      List.mem_append_left _ h7, h8⟩

theorem WinClosesOk.more {pipe process : BitVec 64} {po qo : Nat} {trace : List WinAction} {b a : WinShared}
    (h : WinClosesOk pipe process po qo trace b a) (l : List WinAction) :
    WinClosesOk pipe process po qo (trace ++ l) b a := by
  intro k o hk
  rcases h k o hk with h | ⟨h, h1 | h1 | ⟨c, res, h1, h2⟩⟩
  · exact .inl h
  · exact .inr ⟨h, .inl h1⟩
  · exact .inr ⟨h, .inr (.inl h1)⟩
  · exact .inr ⟨h, .inr (.inr ⟨c, res, List.mem_append_left _ h1, h2⟩)⟩

/-- Something else happens. -/
theorem WinTied.frame {debug : Bool} {ls : List WinLoopEvent} {s s' : WinShared} {j : Nat} {p : Policy}
    {pipe process : BitVec 64} {po qo : Nat} {th : WinLoop} (h : WinTied debug ls s j p pipe process po qo th)
    (hs : ∀ h ∈ th.owned, s'.broker.get h = s.broker.get h) (l : List WinLoopEvent) (hl : winHeard j l = [])
    (hl' : ∀ b a, .step j b a ∉ l) : WinTied debug (ls ++ l) s' j p pipe process po qo th := by
  have hk : ∀ k, th.held = some k → s'.broker.get k = s.broker.get k := fun k a => hs k ((th.mem_owned k).2 (.inl a))
  have hh : winHeard j (ls ++ l) = winHeard j ls := by rw [winHeard_append, hl, List.append_nil]
  have hst : ∀ b a, .step j b a ∈ ls ++ l → .step j b a ∈ ls := fun b a hm =>
    (List.mem_append.1 hm).resolve_right (hl' b a)
  refine ⟨h.policyEq, h.pipeEq, h.processEq, h.holds.frame hs, by rw [hh]; exact h.track.frame hs, h.ends, ?_, ?_, ?_, ?_, ?_, ?_⟩
  · intro k a
    rw [hk k a]
    exact h.source k a
  · intro c res hc hr
    rcases h.closed c res hc hr with ⟨a, b⟩ | ⟨b, a, h1, h2⟩
    · exact .inl ⟨a, by rw [hk _ a]; exact b⟩
    · exact .inr ⟨b, a, List.mem_append_left _ h1, h2⟩
  · intro a
    obtain ⟨b, a, h1, h2⟩ := h.closedPipe a
    exact ⟨b, a, List.mem_append_left _ h1, h2⟩
  · intro a
    obtain ⟨b, a, h1, h2⟩ := h.closedProcess a
    exact ⟨b, a, List.mem_append_left _ h1, h2⟩
  · intro b a hm; rw [hh]; exact h.given b a (hst b a hm)
  · intro b a hm; exact h.closes b a (hst b a hm)

/-- The thread makes a system call. -/
theorem WinTied.goes {debug : Bool} {ls : List WinLoopEvent} {s : WinShared} {j : Nat} {p : Policy}
    {pipe process : BitVec 64} {po qo : Nat} {th : WinLoop} (h : WinTied debug ls s j p pipe process po qo th)
    {x : WinShared × WinLoop} (g : WinGoes debug s th po qo (winHeard j ls) x) :
    WinTied debug (ls ++ [.step j s x.1]) x.1 j p pipe process po qo x.2 := by
  have hh : winHeard j (ls ++ [.step j s x.1]) = winHeard j ls := by rw [winHeard_append]; simp [winHeard]
  have hlast : WinLoopEvent.step j s x.1 ∈ ls ++ [.step j s x.1] := by simp
  obtain ⟨acts, ha, ha'⟩ := g.acts
  obtain ⟨es, he, he'⟩ := g.ends
  have hpol := h.policyEq; have hpi := h.pipeEq; have hpr := h.processEq
  refine ⟨by rw [g.policy, hpol], by rw [g.pipe, hpi], by rw [g.process, hpr], g.holds,
    by rw [hh, ← hpol]; exact g.track, ?_, ?_, ?_, ?_, ?_, ?_, ?_⟩
  · intro e hm
    rw [he] at hm
    rcases List.mem_append.1 hm with hm | hm
    · exact h.ends e hm
    · exact he' e hm
  · intro k hk
    rcases g.took k hk with a | a
    · obtain ⟨c, res, h1, h2, h3, h4⟩ := h.source k a
      refine ⟨c, res, by rw [ha]; exact List.mem_append_left _ h1, h2, h3, ?_⟩
      rcases g.keep k ((th.mem_owned k).2 (.inl a)) with b | b
      · rw [b]; exact h4
      · exact absurd b (g.holds.heldOpen k hk)
    · exact a
  · intro c res hc hr
    rw [ha] at hc
    rcases List.mem_append.1 hc with hc | hc
    · rcases h.closed c res hc hr with ⟨a, b⟩ | ⟨b, a, h1, h2⟩
      · have hm : res.handle ∈ th.owned := (th.mem_owned _).2 (.inl a)
        by_cases ho : x.2.held = some res.handle
        · refine .inl ⟨ho, ?_⟩
          rcases g.keep _ hm with e | e
          · rw [e]; exact b
          · exact absurd e (g.holds.heldOpen _ ho)
        · refine .inr ⟨s, x.1, hlast, b, g.released _ hm fun hm' => ?_⟩
          have hn := h.holds.heldPipe _ a
          rcases (x.2.mem_owned _).1 hm' with e | ⟨_, e⟩ | ⟨_, e⟩
          · exact ho e
          · rw [g.pipe] at e; exact hn.1 e
          · rw [g.process] at e; exact hn.2 e
      · exact .inr ⟨b, a, List.mem_append_left _ h1, h2⟩
    · exact .inl (ha' c res hc hr)
  · intro hn
    cases ho : th.hasPipe with
    | false =>
      obtain ⟨b, a, h1, h2⟩ := h.closedPipe ho
      exact ⟨b, a, List.mem_append_left _ h1, h2⟩
    | true =>
      refine ⟨s, x.1, hlast, hpi ▸ h.holds.pipe ho, hpi ▸ g.released _ ((th.mem_owned _).2 (.inr (.inl ⟨ho, rfl⟩))) ?_⟩
      intro hm
      rcases (x.2.mem_owned _).1 hm with e | ⟨e, _⟩ | ⟨_, e⟩
      · have := (g.holds.heldPipe _ e).1
        exact this g.pipe.symm
      · rw [hn] at e; cases e
      · rw [g.process] at e; exact h.holds.ne ho e
  · intro hn
    cases ho : th.hasProcess with
    | false =>
      obtain ⟨b, a, h1, h2⟩ := h.closedProcess ho
      exact ⟨b, a, List.mem_append_left _ h1, h2⟩
    | true =>
      refine ⟨s, x.1, hlast, hpr ▸ h.holds.process ho, hpr ▸ g.released _ ((th.mem_owned _).2 (.inr (.inr ⟨ho, rfl⟩))) ?_⟩
      intro hm
      rcases (x.2.mem_owned _).1 hm with e | ⟨e, e'⟩ | ⟨e, _⟩
      · have := (g.holds.heldPipe _ e).2
        exact this g.process.symm
      · have := g.holds.ne e
        rw [← e', g.process] at this; exact this rfl
      · rw [hn] at e; cases e
  · intro b a hm
    rw [hh, ha]
    rcases List.mem_append.1 hm with hm | hm
    · simpa using (h.given b a hm).more [] acts
    · simp only [List.mem_singleton, WinLoopEvent.step.injEq, true_and] at hm
      obtain ⟨rfl, rfl⟩ := hm
      have : WinGivenOk debug p qo (winHeard j ls) th.trace b x.1 := hpol ▸ g.workers
      simpa using this.more [] acts
  · intro b a hm
    rw [ha]
    rcases List.mem_append.1 hm with hm | hm
    · exact (h.closes b a hm).more acts
    · simp only [List.mem_singleton, WinLoopEvent.step.injEq, true_and] at hm
      obtain ⟨rfl, rfl⟩ := hm
      refine WinClosesOk.more ?_ acts
      intro k o hk
      by_cases ho : k ∈ th.owned
      · rcases g.keep k ho with e | e
        · exact .inl (by rw [e]; exact hk)
        · refine .inr ⟨e, ?_⟩
          rcases (th.mem_owned k).1 ho with a | ⟨a, rfl⟩ | ⟨a, rfl⟩
          · obtain ⟨c, res, h1, h2, h3, h4⟩ := h.source k a
            rw [hk] at h4
            exact .inr (.inr ⟨c, res, h1, h2, h3, (Option.some.inj h4).symm⟩)
          · have := h.holds.pipe a
            rw [hk] at this
            exact .inl ⟨hpi, Option.some.inj this⟩
          · have := h.holds.process a
            rw [hk] at this
            exact .inr (.inl ⟨hpr, Option.some.inj this⟩)
      · exact .inl (by rw [g.others k ho (by rw [hk]; simp)]; exact hk)

/-- The thread receives something. -/
theorem WinTied.receives {debug : Bool} {ls : List WinLoopEvent} {s : WinShared} {j : Nat} {p : Policy}
    {pipe process : BitVec 64} {po qo : Nat} {th : WinLoop} (h : WinTied debug ls s j p pipe process po qo th)
    (hp : th.phase = .greeting ∨ th.phase = .idle) (inc : WinIncoming) (os : WinChoice) :
    WinTied debug (ls ++ [.recv j inc os s]) s j p pipe process po qo (th.receive s inc os) := by
  have hh : winHeard j (ls ++ [.recv j inc os s]) = winHeard j ls ++ [(inc, os)] := by
    rw [winHeard_append]; simp [winHeard]
  have hb : th.hasPipe = true ∧ th.hasProcess = true ∧ th.held = none := by
    rcases hp with hp | hp <;> simp [WinLoop.hasPipe, WinLoop.hasProcess, WinLoop.held, hp]
  have hg : s.broker.get th.pipe = some po := h.holds.pipe hb.1
  have hst : ∀ b a, .step j b a ∈ ls ++ [.recv j inc os s] → .step j b a ∈ ls := by
    intro b a hm
    simpa using hm
  refine ⟨h.policyEq, h.pipeEq, h.processEq, ⟨fun _ => h.holds.ne hb.1, by simp [WinLoop.receive, WinLoop.held],
    by simp [WinLoop.receive, WinLoop.held], fun _ => hg, fun _ => h.holds.process hb.2.1⟩, ?_, ?_,
    by simp [WinLoop.receive, WinLoop.held], ?_, by simp [WinLoop.receive, WinLoop.hasPipe],
    by simp [WinLoop.receive, WinLoop.hasProcess], ?_, ?_⟩
  · rw [hh]
    have ht := h.track
    rcases hp with hp | hp
    · simp only [WinTrack, hp] at ht
      simp only [WinTrack, WinLoop.receive, hp, hg]
      simp [ht.1, ht.2]
    · simp only [WinTrack, hp] at ht
      simp only [WinTrack, WinLoop.receive, hp, hg]
      exact ⟨_, rfl, ht⟩
  · intro e hm
    simp only [WinLoop.receive, List.mem_append, List.mem_singleton, hg] at hm
    rcases hm with hm | hm
    · exact h.ends e hm
    · exact hm
  · intro c res hc hr
    rcases h.closed c res hc hr with ⟨a, _⟩ | ⟨b, a, h1, h2⟩
    · rw [hb.2.2] at a; cases a
    · exact .inr ⟨b, a, List.mem_append_left _ h1, h2⟩
  · intro b a hm
    rw [hh]
    have := (h.given b a (hst b a hm)).more [(inc, os)] []
    rw [List.append_nil] at this
    exact this
  · intro b a hm
    exact h.closes b a (hst b a hm)

/-- Nothing is done for a worker that does not exist yet. -/
theorem winLoops_silent {debug : Bool} {w w' : WinLoops} {ls : List WinLoopEvent} {j : Nat}
    (he : WinLoopsExec debug w ls w') (hj : w'.threads j = none) :
    ¬ ((∃ inc os s, .recv j inc os s ∈ ls) ∨ ∃ b a, .step j b a ∈ ls) := by
  induction he with
  | start => simp
  | spawn ls w1 k p pipe process po qo he _ _ _ _ _ ih =>
    simp only [WinLoops.put] at hj
    split at hj
    · cases hj
    · have := ih hj
      simpa using this
  | recv ls w1 k th inc os he _ _ ih =>
    simp only [WinLoops.put] at hj
    split at hj
    · cases hj
    · rename_i e
      have := ih hj
      simpa [e] using this
  | step ls w1 k th he _ ih =>
    simp only [WinLoops.put] at hj
    split at hj
    · cases hj
    · rename_i e
      have := ih hj
      simpa [e] using this
  | other ls w1 s he _ ih => exact ih hj

theorem winLoops_inv (debug : Bool) {w w' : WinLoops} {ls : List WinLoopEvent} (hw : ∀ j, w.threads j = none)
    (he : WinLoopsExec debug w ls w') (hn : NoHandleNamed ls) : WinInv debug w' ls := by
  induction he with
  | start => exact ⟨by simp, fun j th h => (by rw [hw j] at h; cases h), fun j k th th' _ h => (by rw [hw j] at h; cases h)⟩
  | spawn ls w1 j p pipe process po qo he hj h1 h2 h3 h4 ih =>
    have ih := ih fun k inc os s hm => hn k inc os s (List.mem_append_left _ hm)
    have hget : ∀ h, w1.shared.broker.get h ≠ none →
        HTable.get ((pipe, po) :: (process, qo) :: w1.shared.broker) h = w1.shared.broker.get h := by
      intro h ho
      rw [HTable.get_cons_if, if_neg (by rintro rfl; exact ho h1), HTable.get_cons_if,
        if_neg (by rintro rfl; exact ho h2)]
    have hopen : ∀ k th, w1.threads k = some th → ∀ h ∈ th.owned, w1.shared.broker.get h ≠ none := by
      intro k th hk h hm
      obtain ⟨p', a, b, po', qo', hs⟩ := ih.event k th hk
      obtain ⟨th', hk', ht⟩ := ih.thread k p' a b po' qo' hs
      rw [hk] at hk'; cases hk'
      exact ht.holds.open hm
    have hown : ∀ h ∈ (WinLoop.mk p pipe process .greeting [] []).owned, h = pipe ∨ h = process := by
      simp [WinLoop.owned]
    refine ⟨?_, ?_, ?_⟩
    · intro k p' a b po' qo' hm
      simp only [WinLoops.put]
      rcases List.mem_append.1 hm with hm | hm
      · obtain ⟨th, hk, ht⟩ := ih.thread k p' a b po' qo' hm
        have hkj : k ≠ j := by rintro rfl; rw [hj] at hk; cases hk
        refine ⟨th, by rw [if_neg hkj]; exact hk, ht.frame (fun h hm => hget h (hopen k th hk h hm)) _ (by simp [winHeard]) (by simp)⟩
      · simp only [List.mem_singleton, WinLoopEvent.spawned.injEq] at hm
        obtain ⟨rfl, rfl, rfl, rfl, rfl, rfl⟩ := hm
        refine ⟨_, if_pos rfl, ?_⟩
        have hnone : winHeard k (ls ++ [.spawned k p' a b po' qo']) = [] := by
          rw [winHeard_append]
          simp only [List.append_eq_nil_iff]
          refine ⟨?_, by simp [winHeard]⟩
          cases hx : winHeard k ls with
          | nil => rfl
          | cons i l =>
            exfalso
            obtain ⟨s, hm⟩ := winHeard_mem (j := k) (ls := ls) (i := i) (by rw [hx]; simp)
            exact winLoops_silent he hj (.inl ⟨_, _, _, hm⟩)
        have hstep : ∀ b' a', .step k b' a' ∉ ls ++ [.spawned k p' a b po' qo'] := by
          intro b' a' hm
          rcases List.mem_append.1 hm with hm | hm
          · exact winLoops_silent he hj (.inr ⟨_, _, hm⟩)
          · simp at hm
        refine ⟨rfl, rfl, rfl, ⟨fun _ => h3, by simp [WinLoop.held], by simp [WinLoop.held], ?_, ?_⟩, ⟨hnone, rfl⟩, by simp,
          by simp [WinLoop.held], by simp, by simp [WinLoop.hasPipe], by simp [WinLoop.hasProcess],
          fun b' a' hm => absurd hm (hstep b' a'), fun b' a' hm => absurd hm (hstep b' a')⟩
        · intro _; exact HTable.get_cons _ _ _
        · intro _
          simp only [HTable.get_cons_if, if_neg (Ne.symm h3), if_true]
    · intro k th hk
      simp only [WinLoops.put] at hk
      by_cases e : k = j
      · subst e; exact ⟨p, pipe, process, po, qo, by simp⟩
      · rw [if_neg e] at hk
        obtain ⟨p', a, b, po', qo', hs⟩ := ih.event k th hk
        exact ⟨p', a, b, po', qo', List.mem_append_left _ hs⟩
    · intro k l th th' hne hk hl h hm hm'
      simp only [WinLoops.put] at hk hl
      by_cases e : k = j
      · rw [if_pos e] at hk
        rw [if_neg (by rintro rfl; exact hne e)] at hl
        cases hk
        have := hopen l th' hl h hm'
        rcases hown h hm with rfl | rfl
        · exact this h1
        · exact this h2
      · rw [if_neg e] at hk
        by_cases e' : l = j
        · rw [if_pos e'] at hl
          cases hl
          have := hopen k th hk h hm
          rcases hown h hm' with rfl | rfl
          · exact this h1
          · exact this h2
        · rw [if_neg e'] at hl
          exact ih.apart k l th th' hne hk hl h hm hm'
  | recv ls w1 j th inc os he hj hp ih =>
    have ih := ih fun k inc os s hm => hn k inc os s (List.mem_append_left _ hm)
    refine ⟨?_, ?_, ?_⟩
    · intro k p a b po qo hm
      have hm : .spawned k p a b po qo ∈ ls := by simpa using hm
      obtain ⟨th', hk, ht⟩ := ih.thread k p a b po qo hm
      simp only [WinLoops.put]
      by_cases e : k = j
      · subst e
        rw [hj] at hk; cases hk
        exact ⟨_, if_pos rfl, ht.receives hp inc os⟩
      · exact ⟨th', by rw [if_neg e]; exact hk, ht.frame (fun _ _ => rfl) _ (by simp [winHeard, Ne.symm e]) (by simp)⟩
    · intro k th' hk
      simp only [WinLoops.put] at hk
      by_cases e : k = j
      · subst e
        obtain ⟨p, a, b, po, qo, hs⟩ := ih.event k th hj
        exact ⟨p, a, b, po, qo, List.mem_append_left _ hs⟩
      · rw [if_neg e] at hk
        obtain ⟨p, a, b, po, qo, hs⟩ := ih.event k th' hk
        exact ⟨p, a, b, po, qo, List.mem_append_left _ hs⟩
    · have hown : (th.receive w1.shared inc os).owned = th.owned := by
        rcases hp with hp | hp <;> simp [WinLoop.receive, WinLoop.owned, hp]
      intro k l th' th'' hne hk hl h hm hm'
      simp only [WinLoops.put] at hk hl
      by_cases e : k = j
      · rw [if_pos e] at hk
        rw [if_neg (by rintro rfl; exact hne e)] at hl
        cases hk
        rw [hown] at hm
        subst e
        exact ih.apart k l th th'' hne hj hl h hm hm'
      · rw [if_neg e] at hk
        by_cases e' : l = j
        · rw [if_pos e'] at hl
          cases hl
          rw [hown] at hm'
          subst e'
          exact ih.apart k l th' th hne hk hj h hm hm'
        · rw [if_neg e'] at hl
          exact ih.apart k l th' th'' hne hk hl h hm hm'
  | step ls w1 j th he hj ih =>
    have hn' : NoHandleNamed ls := fun k inc os s hm => hn k inc os s (List.mem_append_left _ hm)
    have ih := ih hn'
    obtain ⟨p, a, b, po, qo, hs⟩ := ih.event j th hj
    obtain ⟨th0, hj0, ht⟩ := ih.thread j p a b po qo hs
    rw [hj] at hj0; cases hj0
    have g : WinGoes debug w1.shared th po qo (winHeard j ls) (th.go debug w1.shared) := by
      refine winLoop_go debug w1.shared th po qo _ ht.holds (by rw [ht.policyEq]; exact ht.track) fun i hi => ?_
      obtain ⟨s, hm⟩ := winHeard_mem hi
      exact hn' j i.1 i.2 s hm
    have hopen : ∀ k th', w1.threads k = some th' → ∀ h ∈ th'.owned, w1.shared.broker.get h ≠ none := by
      intro k th' hk h hm
      obtain ⟨p', a', b', po', qo', hs⟩ := ih.event k th' hk
      obtain ⟨th'', hk', ht⟩ := ih.thread k p' a' b' po' qo' hs
      rw [hk] at hk'; cases hk'
      exact ht.holds.open hm
    refine ⟨?_, ?_, ?_⟩
    · intro k p' a' b' po' qo' hm
      have hm : .spawned k p' a' b' po' qo' ∈ ls := by simpa using hm
      obtain ⟨th', hk, ht'⟩ := ih.thread k p' a' b' po' qo' hm
      simp only [WinLoops.put]
      by_cases e : k = j
      · subst e
        rw [hj] at hk; cases hk
        -- the objects are those of the same event
        have hobj : WinGoes debug w1.shared th po' qo' (winHeard k ls) (th.go debug w1.shared) := by
          refine winLoop_go debug w1.shared th po' qo' _ ht'.holds (by rw [ht'.policyEq]; exact ht'.track) fun i hi => ?_
          obtain ⟨s, hm⟩ := winHeard_mem hi
          exact hn' k i.1 i.2 s hm
        exact ⟨_, if_pos rfl, ht'.goes hobj⟩
      · refine ⟨th', by rw [if_neg e]; exact hk, ht'.frame (fun h hm => ?_) _ (by simp [winHeard]) (by simp [e])⟩
        exact g.others h (ih.apart k j th' th e hk hj h hm) (hopen k th' hk h hm)
    · intro k th' hk
      simp only [WinLoops.put] at hk
      by_cases e : k = j
      · subst e; exact ⟨p, a, b, po, qo, List.mem_append_left _ hs⟩
      · rw [if_neg e] at hk
        obtain ⟨p, a, b, po, qo, hs⟩ := ih.event k th' hk
        exact ⟨p, a, b, po, qo, List.mem_append_left _ hs⟩
    · intro k l th' th'' hne hk hl h hm hm'
      simp only [WinLoops.put] at hk hl
      by_cases e : k = j
      · rw [if_pos e] at hk
        rw [if_neg (by rintro rfl; exact hne e)] at hl
        cases hk
        subst e
        rcases g.mine h hm with hm | hm
        · exact ih.apart k l th th'' hne hj hl h hm hm'
        · exact hopen l th'' hl h hm' hm
      · rw [if_neg e] at hk
        by_cases e' : l = j
        · rw [if_pos e'] at hl
          cases hl
          subst e'
          rcases g.mine h hm' with hm' | hm'
          · exact ih.apart k l th' th hne hk hj h hm hm'
          · exact hopen k th' hk h hm hm'
        · rw [if_neg e'] at hl
          exact ih.apart k l th' th'' hne hk hl h hm hm'
  | other ls w1 s he ho ih =>
    have ih := ih hn
    refine ⟨?_, ih.event, ih.apart⟩
    intro k p a b po qo hm
    obtain ⟨th, hk, ht⟩ := ih.thread k p a b po qo hm
    refine ⟨th, hk, ?_⟩
    simpa using ht.frame (s' := s) (fun h hm => ho k th hk h hm (ht.holds.open hm)) [] rfl (by simp)

end Iris
