import Verif.Lemmas.Broker
/-! Helper lemmas about whole sessions. -/
namespace Iris
open Spec


theorem opens_append (a b : List Action) : opens (a ++ b) = opens a ++ opens b :=
  List.filterMap_append

theorem replies_append (a b : List Action) : replies (a ++ b) = replies a ++ replies b :=
  List.filterMap_append

theorem opens_notes [Target] (p : Policy) (r : IPCRequest) : opens (notes p r) = [] := by
  cases r <;> simp [opens, notes, List.filterMap_map, Function.comp_def, List.filterMap_eq_nil_iff]

theorem replies_notes [Target] (p : Policy) (r : IPCRequest) : replies (notes p r) = [] := by
  cases r <;> simp [replies, notes, List.filterMap_map, Function.comp_def, List.filterMap_eq_nil_iff]

theorem opens_openActs [Target] (p : Policy) (r : IPCRequest) :
    opens (openActs p r) = (toOpen p r).toList := by
  simp [opens, openActs, List.filterMap_map, Function.comp_def]

theorem replies_openActs [Target] (p : Policy) (r : IPCRequest) : replies (openActs p r) = [] := by
  simp [replies, openActs, List.filterMap_map, Function.comp_def]

theorem replyFiles_head [Target] (abi : Abi) (p : Policy) (t : FdTable) (os : OsChoice) (r : IPCRequest) :
    (replyFiles abi p t os r).head? = (answer p os r).2 := by
  unfold replyFiles
  cases (answer p os r).2 with
  | none => rfl
  | some f => cases abi <;> rfl

theorem opens_served [Target] (abi : Abi) (p : Policy) (t : FdTable) (x : IPCRequest × OsChoice) :
    opens (served abi p t x) = (toOpen p x.1).toList := by
  simp only [served, opens_append, opens_notes, opens_openActs, List.nil_append]
  simp [opens]

theorem replies_served [Target] (abi : Abi) (p : Policy) (t : FdTable) (x : IPCRequest × OsChoice) :
    replies (served abi p t x) = [answer p x.2 x.1] := by
  simp only [served, replies_append, replies_notes, replies_openActs, List.nil_append]
  simp [replies, replyFiles_head]

theorem opens_flatMap [Target] (abi : Abi) (p : Policy) (t : FdTable) (l : List (IPCRequest × OsChoice)) :
    opens (l.flatMap (served abi p t)) = (l.map Prod.fst).filterMap (toOpen p) := by
  induction l with
  | nil => rfl
  | cons x l ih =>
    rw [List.flatMap_cons, opens_append, ih, opens_served, List.map_cons, List.filterMap_cons]
    cases toOpen p x.1 <;> rfl

theorem replies_flatMap [Target] (abi : Abi) (p : Policy) (t : FdTable) (l : List (IPCRequest × OsChoice)) :
    replies (l.flatMap (served abi p t)) = l.map fun x => answer p x.2 x.1 := by
  induction l with
  | nil => rfl
  | cons x l ih => rw [List.flatMap_cons, replies_append, ih, replies_served]; rfl

/-- The handshake fails and nothing was opened or answered, or it succeeds. -/
theorem session_start (abi : Abi) (p : Policy) (x : Session) :
    (∃ e t acts, x.start abi p = (.error e, t, acts) ∧
      (acts = [] ∨ acts = [.sent (.initialization p (x.filter.getD [])) []])) ∨
    (classify x.first = .request .initialization ∧
      x.start abi p = (.ok ⟨x.table, x.chan, .running,
        [.sent (.initialization p (x.filter.getD [])) []]⟩, x.table,
        [.sent (.initialization p (x.filter.getD [])) []])) := by
  cases hc : classify x.first with
  | hangup =>
    left
    have hh := recv_hangup hc abi x.osFirst.canInstall x.table
    simp only [Session.start, startIpcLoop]
    generalize channelRecv abi decRequest IPC_MESSAGE_MAX_SIZE x.osFirst.canInstall x.table x.first
      = y at hh ⊢
    match y, hh with
    | (t, .ok (some (m, none))), hh => exact absurd rfl (hh t m)
    | (t, .ok (some (.initialization, some h))), _ => exact ⟨_, _, _, rfl, .inl rfl⟩
    | (t, .ok (some (.openFile _ _, some h))), _ => exact ⟨_, _, _, rfl, .inl rfl⟩
    | (t, .ok (some (.syscall _ _ _, some h))), _ => exact ⟨_, _, _, rfl, .inl rfl⟩
    | (t, .ok none), _ => exact ⟨_, _, _, rfl, .inl rfl⟩
    | (t, .error _), _ => exact ⟨_, _, _, rfl, .inl rfl⟩
  | request r =>
    simp only [Session.start, startIpcLoop, recv_request hc]
    cases r with
    | openFile _ _ => exact .inl ⟨_, _, _, rfl, .inl rfl⟩
    | syscall _ _ _ => exact .inl ⟨_, _, _, rfl, .inl rfl⟩
    | initialization =>
      simp only
      cases he : channelSend abi x.table
          (sendResponse (.initialization p (x.filter.getD []))) none x.osFirst.sendError with
      | error e => exact .inl ⟨_, _, _, rfl, .inl rfl⟩
      | ok d =>
        have hd : d.files = [] := by
          cases hs : sendResponse (.initialization p (x.filter.getD [])) with
          | none => rw [hs] at he; simp [channelSend] at he
          | some data =>
            cases hse : x.osFirst.sendError with
            | some e => rw [hs, hse] at he; simp [channelSend] at he
            | none =>
              rw [hs, hse, channelSend_plain] at he
              cases he; rfl
        simp only [hd]
        cases x.spawnOk with
        | true => exact .inr ⟨trivial, rfl⟩
        | false => exact .inl ⟨_, _, _, rfl, .inr rfl⟩

/-- What a session did. -/
theorem session_trace [Target] (abi : Abi) (p : Policy) (x : Session) (hlen : x.table.length < 2 ^ 31) :
    ∃ (done : List (IPCRequest × OsChoice)) (opening : List IPCRequest),
      (done.map fun d => (Event.request d.1, d.2)) <+: (x.rest.map fun i => (classify i.1, i.2)) ∧
      (∀ d ∈ done, ¬ Crashes p d.1) ∧
      ((done.map fun d => Event.request d.1) ++ opening.map .request) <+: (x.rest.map fun i => classify i.1) ∧
      opens (x.run abi p).trace = (done.map Prod.fst ++ opening).filterMap (toOpen p) ∧
      replies (x.run abi p).trace = done.map (fun d => answer p d.2 d.1) ∧
      ((x.run abi p).status = .running → done.length = x.rest.length) ∧
      (∀ a ∈ (x.run abi p).trace, a = .sent (.initialization p (x.filter.getD [])) [] ∨
        (∃ d ∈ done, a ∈ served abi p x.table d) ∨ (∃ r ∈ opening, a ∈ openActs p r) ∨
        ∃ n, a = .notified n) := by
  rcases session_start abi p x with ⟨e, t, acts, hs, ha⟩ | ⟨_, hs⟩
  · refine ⟨[], [], by simp, by simp, by simp, ?_, ?_, ?_, ?_⟩
    · simp only [Session.run, hs]; rcases ha with rfl | rfl <;> rfl
    · simp only [Session.run, hs]; rcases ha with rfl | rfl <;> rfl
    · simp [Session.run, hs]
    · simp only [Session.run, hs]
      intro a ha'
      rcases ha with rfl | rfl
      · cases ha'
      · left; simpa using ha'
  · simp only [Session.run, hs]
    obtain ⟨done, hd, hcase⟩ := run_session abi p ⟨x.table, x.chan, .running,
        [.sent (.initialization p (x.filter.getD [])) []]⟩ x.rest rfl hlen
    simp only at hcase
    have h1 : ∀ l : List (IPCRequest × OsChoice), (l.map fun d => Event.request d.1) =
        (l.map fun d => (Event.request d.1, d.2)).map Prod.fst := by
      intro l; simp
    have h2 : (x.rest.map fun i => classify i.1) = (x.rest.map fun i => (classify i.1, i.2)).map Prod.fst := by
      simp
    have hno : ∀ n : List Action, opens ([.sent (.initialization p (x.filter.getD [])) []] ++ n) = opens n := by
      intro n; rw [opens_append]; rfl
    have hnr : ∀ n : List Action, replies ([.sent (.initialization p (x.filter.getD [])) []] ++ n) = replies n := by
      intro n; rw [replies_append]; rfl
    rcases hcase with ⟨hi, hr⟩ | ⟨i, rest, hi, hr, hst, him⟩
    · refine ⟨done, [], ?_, fun d h => (hd d h).1, ?_, ?_, ?_, ?_, ?_⟩
      · rw [hi]; exact List.prefix_refl _
      · rw [h2, hi, h1]; simp
      · rw [hr, List.append_nil, hno, opens_flatMap]
      · rw [hr, hnr, replies_flatMap]
      · intro _
        have := congrArg List.length hi
        simpa using this.symm
      · rw [hr]
        intro a ha
        rcases List.mem_append.1 ha with ha | ha
        · left; simpa using ha
        · right; left
          obtain ⟨d, hd, ha⟩ := List.mem_flatMap.1 ha
          exact ⟨d, hd, ha⟩
    · have hmem : ∀ a, a ∈ [Action.sent (.initialization p (x.filter.getD [])) []] ++
          done.flatMap (served abi p x.table) → (a = .sent (.initialization p (x.filter.getD [])) [] ∨
        (∃ d ∈ done, a ∈ served abi p x.table d)) := by
        intro a ha
        rcases List.mem_append.1 ha with ha | ha
        · left; simpa using ha
        · right
          obtain ⟨d, hd, ha⟩ := List.mem_flatMap.1 ha
          exact ⟨d, hd, ha⟩
      have hnote : ∀ a r, a ∈ notes p r → ∃ n, a = .notified n := by
        intro a r ha
        cases r <;> simp only [notes, List.mem_map, List.not_mem_nil] at ha
        · obtain ⟨n, _, rfl⟩ := ha; exact ⟨n, rfl⟩
        · obtain ⟨n, _, rfl⟩ := ha; exact ⟨n, rfl⟩
      have hpre : (done.map fun d => (Event.request d.1, d.2)) <+:
          (x.rest.map fun i => (classify i.1, i.2)) := by rw [hi]; exact List.prefix_append _ _
      have hpre1 : (done.map fun d => Event.request d.1) <+: (x.rest.map fun i => classify i.1) := by
        rw [h2, h1]; exact List.IsPrefix.map _ hpre
      cases hc : classify i.1 with
      | hangup =>
        rw [step_hangup abi p _ i.1 i.2 rfl hc] at hr
        refine ⟨done, [], hpre, fun d h => (hd d h).1, by simpa using hpre1, ?_, ?_, ?_, ?_⟩
        · rw [hr, List.append_nil, hno, opens_flatMap]
        · rw [hr, hnr, replies_flatMap]
        · exact fun h => absurd h hst
        · rw [hr]; intro a ha
          rcases hmem a ha with h | h
          · exact .inl h
          · exact .inr (.inl h)
      | request r =>
        rw [step_request abi p _ i.1 i.2 r rfl hlen hc] at hr
        by_cases hcr : Crashes p r
        · rw [if_pos hcr] at hr
          refine ⟨done, [], hpre, fun d h => (hd d h).1, by simpa using hpre1, ?_, ?_, ?_, ?_⟩
          · rw [hr]; simp only [opens_append, opens_notes, opens_flatMap]; simp [opens]
          · rw [hr]; simp only [replies_append, replies_notes, replies_flatMap]; simp [replies]
          · exact fun h => absurd h hst
          · rw [hr]; intro a ha
            rcases List.mem_append.1 ha with ha | ha
            · rcases hmem a ha with h | h
              · exact .inl h
              · exact .inr (.inl h)
            · exact .inr (.inr (.inr (hnote a r ha)))
        · rw [if_neg hcr] at hr
          cases hse : i.2.sendError with
          | none => rw [hse] at hr; rw [hr] at hst; exact absurd rfl hst
          | some e =>
            rw [hse] at hr
            refine ⟨done, [r], hpre, fun d h => (hd d h).1, ?_, ?_, ?_, ?_, ?_⟩
            · rw [h2, hi, hc, h1]
              refine ⟨rest.map Prod.fst, ?_⟩
              simp
            · rw [hr]
              simp only [opens_append, opens_notes, opens_openActs, opens_flatMap,
                List.filterMap_append]
              simp only [opens, List.filterMap_cons, List.filterMap_nil, List.nil_append]
              cases toOpen p r <;> simp
            · rw [hr]; simp only [replies_append, replies_notes, replies_openActs, replies_flatMap]
              simp [replies]
            · exact fun h => absurd h hst
            · rw [hr]; intro a ha
              rcases List.mem_append.1 ha with ha | ha
              · rcases hmem a ha with h | h
                · exact .inl h
                · exact .inr (.inl h)
              · rcases List.mem_append.1 ha with ha | ha
                · exact .inr (.inr (.inr (hnote a r ha)))
                · exact .inr (.inr (.inl ⟨r, by simp, ha⟩))

end Iris
