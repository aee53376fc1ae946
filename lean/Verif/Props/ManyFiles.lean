import Verif.Lemmas.ManyFiles
/-!
# C140: all workers of a Linux broker together open and change only what their rules name
-/
namespace Iris
open Spec

theorem many_granted [Target] {abi : Abi} {h : Nat → List Call} {w w' : WholeBroker} {ls : List BrokerEvent} {es : List FilesEvent}
    (hn : NothingYet w) (he : WholeExec abi Bounded Declared w ls w') (hrules : RulesAre h w' ls) (hev : EventsOf w' es) :
    ∀ j path flags mode, Action.opened path flags mode ∈ doneFor j es → OpenAllowed (h j) path flags := by
  intro j path flags mode hm
  rw [hev j] at hm
  cases ht : w'.threads j with
  | none => rw [ht] at hm; cases hm
  | some th =>
    rw [ht] at hm
    obtain ⟨c, caps, os, before, hmade⟩ := hrules j th ht
    exact (C133_opened abi w w' ls hn he j c (h j) caps os before hmade th ht path flags mode hm).2.2

theorem many_ok [Target] {abi : Abi} {h : Nat → List Call} {w w' : WholeBroker} {ls : List BrokerEvent} {es : List FilesEvent}
    (hn : NothingYet w) (he : WholeExec abi Bounded Declared w ls w') (hrules : RulesAre h w' ls) (hev : EventsOf w' es)
    {stray : List (Nat × BitVec 32)} {fs : FileTree} {own : Nat → List (Nat × BitVec 32)} {st : ManyFiles}
    (hr : ManyFilesRun stray fs own es st) (hs : SoundTree fs) (hl : ∀ j, NoLinks (h j) fs) :
    ManyOk h (fun j => own j ++ stray) es st :=
  manyFiles_ok hr hs hl (fun j f hf => List.mem_append_left _ hf)
    (fun j a extra before after hm f hf => List.mem_append_right _ ((manyFiles_extra hr hm).1 f hf))
    (many_granted hn he hrules hev)

/-- On 32-bit targets nothing is stray. -/
theorem many_ok_ilp32 [Target] {h : Nat → List Call} {w w' : WholeBroker} {ls : List BrokerEvent} {es : List FilesEvent}
    (hn : NothingYet w) (he : WholeExec .ilp32 Bounded Declared w ls w') (hrules : RulesAre h w' ls) (hev : EventsOf w' es)
    {stray : List (Nat × BitVec 32)} {fs : FileTree} {own : Nat → List (Nat × BitVec 32)} {st : ManyFiles}
    (hr : ManyFilesRun stray fs own es st) (hs : SoundTree fs) (hl : ∀ j, NoLinks (h j) fs) :
    ManyOk h own es st := by
  refine manyFiles_ok hr hs hl (fun j f hf => hf) (fun j a extra before after hm f hf => ?_) (many_granted hn he hrules hev)
  exfalso
  obtain ⟨_, rfl | ⟨resp, files, rfl, hlen⟩⟩ := manyFiles_extra hr hm
  · cases hf
  · have hd : Action.sent resp files ∈ doneFor j es := List.mem_filterMap.2 ⟨_, hm, by simp⟩
    rw [hev j] at hd
    cases ht : w'.threads j with
    | none => rw [ht] at hd; cases hd
    | some th =>
      rw [ht] at hd
      obtain ⟨c, caps, os, bt, hmade⟩ := hrules j th ht
      have hlen' : files.length ≤ 1 := by
        rcases C133_sent_ilp32 w w' ls hn he j c (h j) caps os bt hmade th ht resp files hd with rfl | ⟨_, _, _, _, _, _, _, _, rfl⟩ <;> simp
      have : extra.length = 0 := by omega
      rw [List.eq_nil_of_length_eq_zero this] at hf
      cases hf

/-- C140: as long as no symbolic link is in the way of any worker, each file a worker has, whatever is done for the others meanwhile, is
one it was given when it was created, or is named by a path its own rules allow, for reading if it can be read from, for
writing if it can be written to. Missing: links, and what descriptor 0 of the broker is (`C140_violated`). -/
theorem C140_opened_partial [Target] (abi : Abi) (h : Nat → List Call) (w w' : WholeBroker) (ls : List BrokerEvent) (es : List FilesEvent)
    (hn : NothingYet w) (he : WholeExec abi Bounded Declared w ls w') (hrules : RulesAre h w' ls) (hev : EventsOf w' es)
    (stray : List (Nat × BitVec 32)) (fs : FileTree) (own : Nat → List (Nat × BitVec 32)) (st : ManyFiles)
    (hr : ManyFilesRun stray fs own es st) (hs : SoundTree fs) (hl : ∀ j, NoLinks (h j) fs)
    (j : Nat) (i : Nat) (flags : BitVec 32) (hi : (i, flags) ∈ st.opened j) :
    (i, flags) ∈ own j ∨ (i, flags) ∈ stray ∨ FileAllowed (h j) st.tree i flags := by
  rcases (many_ok hn he hrules hev hr hs hl).files j i flags hi with x | x
  · rcases List.mem_append.1 x with x | x
    · exact .inl x
    · exact .inr (.inl x)
  · exact .inr (.inr x)

/-- C140 on 32-bit targets: the same, and nothing goes with what is opened. Missing: links. -/
theorem C140_opened_ilp32_partial [Target] (h : Nat → List Call) (w w' : WholeBroker) (ls : List BrokerEvent) (es : List FilesEvent)
    (hn : NothingYet w) (he : WholeExec .ilp32 Bounded Declared w ls w') (hrules : RulesAre h w' ls) (hev : EventsOf w' es)
    (stray : List (Nat × BitVec 32)) (fs : FileTree) (own : Nat → List (Nat × BitVec 32)) (st : ManyFiles)
    (hr : ManyFilesRun stray fs own es st) (hs : SoundTree fs) (hl : ∀ j, NoLinks (h j) fs)
    (j : Nat) (i : Nat) (flags : BitVec 32) (hi : (i, flags) ∈ st.opened j) :
    (i, flags) ∈ own j ∨ FileAllowed (h j) st.tree i flags :=
  (many_ok_ilp32 hn he hrules hev hr hs hl).files j i flags hi

/-- C140: each time files change because of a worker, what changes is what the rules of this worker allow to write to, or what it was given
for writing; the rules of the others give it nothing. Missing: as for `C140_opened_partial`. -/
theorem C140_changes_partial [Target] (abi : Abi) (h : Nat → List Call) (w w' : WholeBroker) (ls : List BrokerEvent) (es : List FilesEvent)
    (hn : NothingYet w) (he : WholeExec abi Bounded Declared w ls w') (hrules : RulesAre h w' ls) (hev : EventsOf w' es)
    (stray : List (Nat × BitVec 32)) (fs : FileTree) (own : Nat → List (Nat × BitVec 32)) (st : ManyFiles)
    (hr : ManyFilesRun stray fs own es st) (hs : SoundTree fs) (hl : ∀ j, NoLinks (h j) fs)
    (e : FilesEvent) (hm : e ∈ es) (j : Nat) (before after : FileTree) (hc : ChangeBy j e before after) :
    MayHaveDone (h j) (own j ++ stray) before after :=
  (many_ok hn he hrules hev hr hs hl).events e hm j before after hc

/-- C140 on 32-bit targets: what descriptor 0 of the broker is does not matter. -/
theorem C140_changes_ilp32_partial [Target] (h : Nat → List Call) (w w' : WholeBroker) (ls : List BrokerEvent) (es : List FilesEvent)
    (hn : NothingYet w) (he : WholeExec .ilp32 Bounded Declared w ls w') (hrules : RulesAre h w' ls) (hev : EventsOf w' es)
    (stray : List (Nat × BitVec 32)) (fs : FileTree) (own : Nat → List (Nat × BitVec 32)) (st : ManyFiles)
    (hr : ManyFilesRun stray fs own es st) (hs : SoundTree fs) (hl : ∀ j, NoLinks (h j) fs)
    (e : FilesEvent) (hm : e ∈ es) (j : Nat) (before after : FileTree) (hc : ChangeBy j e before after) :
    MayHaveDone (h j) (own j) before after :=
  (many_ok_ilp32 hn he hrules hev hr hs hl).events e hm j before after hc

/-- C140: all that any number of workers have changed together is what the rules of one of them allow to write to, or one was given for
writing: contents of regular files, and new regular files. Missing: as for `C140_opened_partial`. -/
theorem C140_changed_partial [Target] (abi : Abi) (h : Nat → List Call) (w w' : WholeBroker) (ls : List BrokerEvent) (es : List FilesEvent)
    (hn : NothingYet w) (he : WholeExec abi Bounded Declared w ls w') (hrules : RulesAre h w' ls) (hev : EventsOf w' es)
    (stray : List (Nat × BitVec 32)) (fs : FileTree) (own : Nat → List (Nat × BitVec 32)) (st : ManyFiles)
    (hr : ManyFilesRun stray fs own es st) (hs : SoundTree fs) (hl : ∀ j, NoLinks (h j) fs)
    (js : List Nat) (hjs : ∀ e ∈ es, ∀ j before after, ChangeBy j e before after → j ∈ js) :
    MayHaveDone (js.flatMap h) (js.flatMap own ++ stray) fs st.tree := by
  refine manyFiles_chain hr fun e hm j before after hc => ?_
  have hj := hjs e hm j before after hc
  refine (C140_changes_partial abi h w w' ls es hn he hrules hev stray fs own st hr hs hl e hm j before after hc).mono
    (fun c hcm => List.mem_flatMap.2 ⟨j, hj, hcm⟩) fun f hf => ?_
  rcases List.mem_append.1 hf with hf | hf
  · exact List.mem_append_left _ (List.mem_flatMap.2 ⟨j, hj, hf⟩)
  · exact List.mem_append_right _ hf

/-- C140: no link is made, so what is true of these workers is true of those created after them. Missing: as for
`C140_opened_partial`. -/
theorem C140_no_links_made_partial [Target] (abi : Abi) (h : Nat → List Call) (w w' : WholeBroker) (ls : List BrokerEvent)
    (es : List FilesEvent) (hn : NothingYet w) (he : WholeExec abi Bounded Declared w ls w') (hrules : RulesAre h w' ls)
    (hev : EventsOf w' es) (stray : List (Nat × BitVec 32)) (fs : FileTree) (own : Nat → List (Nat × BitVec 32)) (st : ManyFiles)
    (hr : ManyFilesRun stray fs own es st) (hs : SoundTree fs) (hl : ∀ j, NoLinks (h j) fs) :
    SoundTree st.tree ∧ ∀ rules, NoLinks rules fs → NoLinks rules st.tree := by
  have ok := many_ok hn he hrules hev hr hs hl
  refine ⟨ok.sound, fun rules hrl => ?_⟩
  clear hl hs he hrules hev
  have : ∀ es' st', ManyFilesRun stray fs own es' st' → (∀ e ∈ es', e ∈ es) → NoLinks rules st'.tree := by
    intro es' st' hr'
    induction hr' with
    | start => exact fun _ => hrl
    | notifies es' st' j n _ ih => exact fun hsub => ih fun e hm => hsub e (List.mem_append_left _ hm)
    | sends es' st' j resp files extra _ hlen hstray ih => exact fun hsub => ih fun e hm => hsub e (List.mem_append_left _ hm)
    | opens es' st' j path flags mode refuse _ ih =>
      intro hsub
      exact (ok.events _ (hsub _ (List.mem_append_right _ (List.mem_singleton.2 rfl))) j _ _ (.inl ⟨_, _, rfl⟩)).noLinks_other
        (ih fun e hm => hsub e (List.mem_append_left _ hm))
    | writes es' st' j i flags content _ hop hp hw ih =>
      intro hsub
      exact (ok.events _ (hsub _ (List.mem_append_right _ (List.mem_singleton.2 rfl))) j _ _ (.inr rfl)).noLinks_other
        (ih fun e hm => hsub e (List.mem_append_left _ hm))
  exact this es st hr fun _ h => h

/-- C140: a regular file stays as it is as long as only workers act whose rules do not let them write to it, by any of its names, and
which were not given it for writing. Missing: as for `C140_opened_partial`. -/
theorem C140_left_alone_partial [Target] (abi : Abi) (h : Nat → List Call) (w w' : WholeBroker) (ls : List BrokerEvent)
    (es : List FilesEvent) (hn : NothingYet w) (he : WholeExec abi Bounded Declared w ls w') (hrules : RulesAre h w' ls)
    (hev : EventsOf w' es) (stray : List (Nat × BitVec 32)) (fs : FileTree) (own : Nat → List (Nat × BitVec 32)) (st : ManyFiles)
    (hr : ManyFilesRun stray fs own es st) (hs : SoundTree fs) (hl : ∀ j, NoLinks (h j) fs)
    (e : FilesEvent) (hm : e ∈ es) (j : Nat) (before after : FileTree) (hc : ChangeBy j e before after) (i : Nat) (content : Bytes)
    (hi : before[i]? = some (.file content)) (hno : ∀ cs, Named before cs i → ¬ WriteAllowed (h j) cs)
    (hgiven : ¬ GivenToWrite (own j) i ∧ ¬ GivenToWrite stray i) : after[i]? = some (.file content) := by
  obtain ⟨n', h1, h2⟩ := (C140_changes_partial abi h w w' ls es hn he hrules hev stray fs own st hr hs hl e hm j before after hc).1 i _ hi
  rw [h1]
  cases h2 with
  | same => rfl
  | content a b hw =>
    exfalso
    rcases hw with ⟨cs, x, y⟩ | ⟨fl, x, y⟩
    · exact hno cs x y
    · rcases List.mem_append.1 x with x | x
      · exact hgiven.1 ⟨fl, x, y⟩
      · exact hgiven.2 ⟨fl, x, y⟩

/-- C140, full statement: whatever the files are and whatever descriptor 0 of the broker is, each file a worker has is one it was
given when it was created or is named by a path its rules allow. -/
def Spec.WorkersHaveWhatRulesName [Target] : Prop :=
  ∀ (abi : Abi) (h : Nat → List Call) (w w' : WholeBroker) (ls : List BrokerEvent) (es : List FilesEvent), NothingYet w →
    WholeExec abi Bounded Declared w ls w' → RulesAre h w' ls → EventsOf w' es →
    ∀ (stray : List (Nat × BitVec 32)) (fs : FileTree) (own : Nat → List (Nat × BitVec 32)) (st : ManyFiles),
      ManyFilesRun stray fs own es st → SoundTree fs → ∀ j i flags, (i, flags) ∈ st.opened j →
      (i, flags) ∈ own j ∨ FileAllowed (h j) st.tree i flags

/-! ### Two workers with different rules -/

/-- The second worker may write in `/var`. -/
def writeVar : List Call := [.fs (.dirWrite c!"/var")]

/-- Both calls have been made. -/
def twoRulesCalls : List BrokerEvent × WholeBroker :=
  ([.made 0 someConfig (Policy.nothingAllowed.calls readTmp) fullCaps goodOs brokerTable,
    .made 1 otherConfig (Policy.nothingAllowed.calls writeVar) fullCaps otherOs brokerTable],
   (WholeBroker.made (WholeBroker.made ⟨brokerTable, fun _ => none, fun _ => none⟩ 0
     (.make someConfig (Policy.nothingAllowed.calls readTmp) fullCaps goodOs)) 1
     (.make otherConfig (Policy.nothingAllowed.calls writeVar) fullCaps otherOs)))

theorem twoRulesCalls_exec [Target] (abi : Abi) : WholeExec abi (fun t => few t = true) Declared
    ⟨brokerTable, fun _ => none, fun _ => none⟩ twoRulesCalls.1 twoRulesCalls.2 := by
  have open37 : ∀ fd, fd = 3 ∨ fd = 7 → brokerTable.get fd ≠ none := by
    rintro fd (rfl | rfl) <;> decide
  have e1 : (Policy.nothingAllowed.calls writeVar).inheritedHandles = tmpPolicy.inheritedHandles := by decide
  have h0 : WholeExec abi (fun t => few t = true) Declared ⟨brokerTable, fun _ => none, fun _ => none⟩
      [.made 0 someConfig tmpPolicy fullCaps goodOs brokerTable]
      (WholeBroker.made ⟨brokerTable, fun _ => none, fun _ => none⟩ 0 (.make someConfig tmpPolicy fullCaps goodOs)) :=
    .call [] ⟨brokerTable, fun _ => none, fun _ => none⟩ 0 someConfig tmpPolicy fullCaps goodOs (.start (by decide)) rfl fun fd hd =>
      ⟨open37 fd (declared_open _ (.inl rfl) fd hd), fun k x hx => (by cases hx), fun k x hx => (by cases hx)⟩
  refine .call _ _ 1 otherConfig (Policy.nothingAllowed.calls writeVar) fullCaps otherOs h0 rfl fun fd hd =>
      ⟨open37 fd (declared_open otherConfig (.inr rfl) fd ?_), fun k x hx => ?_, fun k x hx => by cases hx⟩
  · simpa only [Declared, e1] using hd
  · by_cases hk : k = 0
    · subst hk
      simp only [WholeBroker.made, if_true] at hx
      cases hx
      intro hc; cases hc
    · simp only [WholeBroker.made, if_neg hk] at hx
      cases hx

/-- Worker 0 opens `/tmp/a` while worker 1 is created; then worker 1 creates `/var/b`, with `O_WRONLY | O_CREAT`. -/
def twoRulesSchedule : List Turn :=
  List.replicate 22 (Turn.step 0) ++ [wholeAsks 0 100, .serve 0] ++ List.replicate 22 (Turn.step 1) ++
    [.recv 1 (.datagram ⟨encRequest (.openFile c!"/var/b" 0x41#32), []⟩) ⟨2, .ok 200, none⟩, .serve 1, .serve 0, .serve 1, .serve 1,
     .serve 0, .serve 1, .serve 0]

def twoRulesEnd (abi : Abi) : List BrokerEvent × WholeBroker :=
  twoRulesSchedule.foldl (@WholeBroker.turn x86_64 abi few) twoRulesCalls

theorem turns_none [Target] {abi : Abi} {ok : FdTable → Bool} {k : Nat} (l : List Turn) (hl : Turn.step k ∉ l) :
    ∀ (s : List BrokerEvent × WholeBroker), s.2.threads k = none → (l.foldl (WholeBroker.turn abi ok) s).2.threads k = none := by
  induction l with
  | nil => exact fun s h => h
  | cons a l ih =>
    intro s h
    apply ih (fun hm => hl (List.mem_cons_of_mem _ hm))
    cases a with
    | step j =>
      have hj : k ≠ j := fun e => hl (e ▸ List.mem_cons_self ..)
      simp only [WholeBroker.turn]
      split
      · exact h
      · split
        · simp only [WholeBroker.create, if_neg hj]; exact h
        · exact h
    | recv j inc os =>
      simp only [WholeBroker.turn]
      split
      · exact h
      · rename_i x hx
        have hj : k ≠ j := by rintro rfl; rw [h] at hx; cases hx
        split
        · simp only [WholeBroker.served, if_neg hj]; exact h
        · exact h
    | serve j =>
      simp only [WholeBroker.turn]
      split
      · exact h
      · rename_i x hx
        have hj : k ≠ j := by rintro rfl; rw [h] at hx; cases hx
        split
        · simp only [WholeBroker.served, if_neg hj]; exact h
        · exact h

theorem twoRules_none (abi : Abi) {k : Nat} (hk : k ≠ 0 ∧ k ≠ 1) : (twoRulesEnd abi).2.threads k = none := by
  have h : twoRulesCalls.2.threads k = none := rfl
  unfold twoRulesEnd
  refine @turns_none x86_64 abi few k twoRulesSchedule ?_ twoRulesCalls h
  simp [twoRulesSchedule, wholeAsks, hk.1, hk.2]

/-- The rules of each. -/
def twoRules (j : Nat) : List Call := if j = 0 then readTmp else if j = 1 then writeVar else []

theorem twoRules_exec (abi : Abi) : NothingYet ⟨brokerTable, fun _ => none, fun _ => none⟩ ∧
    @WholeExec x86_64 abi Bounded Declared ⟨brokerTable, fun _ => none, fun _ => none⟩ (twoRulesEnd abi).1 (twoRulesEnd abi).2 ∧
    RulesAre twoRules (twoRulesEnd abi).2 (twoRulesEnd abi).1 := by
  refine ⟨⟨fun _ => rfl, fun _ => rfl, brokerTable_real.nodup⟩, ?_, ?_⟩
  · exact @whole_mono x86_64 abi (fun t => few t = true) _ (fun t h => by simpa [few, Bounded] using h) _ _ _
      (@whole_turns x86_64 abi few _ _ _ (@twoRulesCalls_exec x86_64 abi))
  · intro j th ht
    by_cases h0 : j = 0
    · subst h0
      exact ⟨someConfig, fullCaps, goodOs, brokerTable, @turns_mem x86_64 abi few _ _ _ (by simp [twoRulesCalls, twoRules])⟩
    · by_cases h1 : j = 1
      · subst h1
        exact ⟨otherConfig, fullCaps, otherOs, brokerTable, @turns_mem x86_64 abi few _ _ _ (by simp [twoRulesCalls, twoRules])⟩
      · rw [twoRules_none abi ⟨h0, h1⟩] at ht; cases ht

/-- What is done for both, on x86_64. -/
theorem twoRules_traces : wholeTrace (twoRulesEnd .lp64).2 0 =
      some [.opened c!"/tmp/a" 0#32 0x180#32, .sent (.syscallResult 0#64) [100, 10]] ∧
    wholeTrace (twoRulesEnd .lp64).2 1 =
      some [.opened c!"/var/b" 0x41#32 0x180#32, .sent (.syscallResult 0#64) [200, 10]] := by decide +kernel

/-- And on 32-bit targets. -/
theorem twoRules_traces_ilp32 : wholeTrace (twoRulesEnd .ilp32).2 0 =
      some [.opened c!"/tmp/a" 0#32 0x180#32, .sent (.syscallResult 0#64) [100]] ∧
    wholeTrace (twoRulesEnd .ilp32).2 1 =
      some [.opened c!"/var/b" 0x41#32 0x180#32, .sent (.syscallResult 0#64) [200]] := by decide +kernel

theorem twoRules_events {abi : Abi} {es : List FilesEvent} {l0 l1 : List Action} (h0 : wholeTrace (twoRulesEnd abi).2 0 = some l0)
    (h1 : wholeTrace (twoRulesEnd abi).2 1 = some l1) (d0 : doneFor 0 es = l0) (d1 : doneFor 1 es = l1)
    (dn : ∀ j, j ≠ 0 → j ≠ 1 → doneFor j es = []) : EventsOf (twoRulesEnd abi).2 es := by
  intro j
  by_cases e0 : j = 0
  · subst e0
    obtain ⟨th, h, e⟩ := Option.map_eq_some_iff.1 h0
    rw [h, d0, ← e]
  · by_cases e1 : j = 1
    · subst e1
      obtain ⟨th, h, e⟩ := Option.map_eq_some_iff.1 h1
      rw [h, d1, ← e]
    · rw [twoRules_none abi ⟨e0, e1⟩]
      exact dn j e0 e1

/-- `/tmp/a`, `/var`, and `/secret`, with or without a link at `/tmp/a`. -/
def varTree (a : FileNode) : FileTree :=
  [.dir [(c!"tmp", 1), (c!"var", 2), (c!"secret", 4)] 0, .dir [(c!"a", 3)] 0, .dir [] 0, a, .file [1, 2]]

/-- After `/var/b` has been created. -/
def varTree' (a : FileNode) (b : Bytes) : FileTree :=
  [.dir [(c!"tmp", 1), (c!"var", 2), (c!"secret", 4)] 0, .dir [(c!"a", 3)] 0, .dir [(c!"b", 5)] 0, a, .file [1, 2], .file b]

theorem varTree_nodes {a : FileNode} {d : Nat} {n : FileNode} (h : (varTree a)[d]? = some n) :
    (d = 0 ∧ n = .dir [(c!"tmp", 1), (c!"var", 2), (c!"secret", 4)] 0) ∨ (d = 1 ∧ n = .dir [(c!"a", 3)] 0) ∨
    (d = 2 ∧ n = .dir [] 0) ∨ (d = 3 ∧ n = a) ∨ (d = 4 ∧ n = .file [1, 2]) := by
  match d, h with
  | 0, h => cases h; simp
  | 1, h => cases h; simp
  | 2, h => cases h; simp
  | 3, h => cases h; simp
  | 4, h => cases h; simp
  | _ + 5, h => simp [varTree] at h

theorem varTree_sound {a : FileNode} (ha : ∀ e p, a ≠ .dir e p) : SoundTree (varTree a) := by
  intro d e p c i hd hc
  have := lookup_mem' hc
  rcases varTree_nodes hd with ⟨_, h⟩ | ⟨_, h⟩ | ⟨_, h⟩ | ⟨_, h⟩ | ⟨_, h⟩
  · cases h
    simp at this
    rcases this with ⟨_, rfl⟩ | ⟨_, rfl⟩ | ⟨_, rfl⟩ <;> simp [varTree]
  · cases h; simp at this; simp [this, varTree]
  · cases h; simp at this
  · exact absurd h.symm (ha e p)
  · cases h

theorem varTree_noLinks (h : List Call) (b : Bytes) : NoLinks h (varTree (.file b)) := by
  intro cs ds i t _ _ _ hi
  rcases varTree_nodes hi with ⟨_, h⟩ | ⟨_, h⟩ | ⟨_, h⟩ | ⟨_, h⟩ | ⟨_, h⟩ <;> cases h

/-- What happens to files: worker 0 is given `/tmp/a`; `/var/b` is created for worker 1, which writes to it. Worker 0 has nothing, worker 1
has `/secret`, for reading only. -/
theorem twoRules_files (stray extra : List (Nat × BitVec 32)) (f0 f1 : List Nat) (a : FileNode) (i : Nat)
    (hx : ∀ f ∈ extra, f ∈ stray) (hl : extra.length ≤ f0.length - 1)
    (ha : (ManyFiles.on ⟨varTree a, fun j => if j = 1 then [(4, 0#32)] else []⟩ 0 (·.open c!"/tmp/a" 0#32 none)).tree = varTree a)
    (hb : (ManyFiles.on ⟨varTree a, fun j => if j = 1 then [(4, 0#32)] else []⟩ 0 (·.open c!"/tmp/a" 0#32 none)).opened 0 = [(i, 0#32)])
    (hv : kOpen (varTree a) c!"/var/b" 0x41#32 none = (.ok 5, varTree' a [])) :
    ∃ es st, ManyFilesRun stray (varTree a) (fun j => if j = 1 then [(4, 0#32)] else []) es st ∧
      doneFor 0 es = [.opened c!"/tmp/a" 0#32 0x180#32, .sent (.syscallResult 0#64) f0] ∧
      doneFor 1 es = [.opened c!"/var/b" 0x41#32 0x180#32, .sent (.syscallResult 0#64) f1] ∧
      (∀ j, j ≠ 0 → j ≠ 1 → doneFor j es = []) ∧ st.tree = varTree' a [8] ∧ st.opened 0 = [(i, 0#32)] ++ extra ∧
      st.opened 1 = [(4, 0#32), (5, 0x41#32)] := by
  have hb1 : (ManyFiles.on ⟨varTree a, fun j => if j = 1 then [(4, 0#32)] else []⟩ 0 (·.open c!"/tmp/a" 0#32 none)).opened 1 = [(4, 0#32)] := rfl
  have r1 := ManyFilesRun.opens (stray := stray) [] _ 0 c!"/tmp/a" 0#32 0x180#32 none
    (.start (fs := varTree a) (own := fun j => if j = 1 then [(4, 0#32)] else []))
  revert r1
  generalize ManyFiles.on ⟨varTree a, fun j => if j = 1 then [(4, 0#32)] else []⟩ 0 (·.open c!"/tmp/a" 0#32 none) = s1 at ha hb hb1
  intro r1
  have r2 := ManyFilesRun.opens _ _ 1 c!"/var/b" 0x41#32 0x180#32 none r1
  have e2 : (s1.on 1 (·.open c!"/var/b" 0x41#32 none)).tree = varTree' a [] ∧
      (s1.on 1 (·.open c!"/var/b" 0x41#32 none)).opened 0 = [(i, 0#32)] ∧
      (s1.on 1 (·.open c!"/var/b" 0x41#32 none)).opened 1 = [(4, 0#32), (5, 0x41#32)] := by
    simp [ManyFiles.on, FileState.open, ha, hv, hb, hb1]
  generalize s1.on 1 (·.open c!"/var/b" 0x41#32 none) = s2 at r2 e2
  obtain ⟨ea, eb, ec⟩ := e2
  have r3 := ManyFilesRun.sends _ _ 0 (.syscallResult 0#64) f0 extra r2 hl hx
  have r4 := ManyFilesRun.sends _ _ 1 (.syscallResult 0#64) f1 [] r3 (by simp) (by simp)
  have r5 := ManyFilesRun.writes _ _ 1 5 0x41#32 [8] r4 (by simp [ManyFiles.on, ec]) (by decide) (by decide)
  refine ⟨_, _, r5, rfl, rfl, ?_, ?_, ?_, ?_⟩
  · intro j h0 h1
    simp [doneFor, Ne.symm h0, Ne.symm h1]
  · simp only [ManyFiles.on, ea]; rfl
  · simp only [ManyFiles.on, FileState.write, ea]
    simp [eb]
  · simp only [ManyFiles.on, FileState.write, ea]
    simp [ec, varTree']

/-- The hypotheses of the theorems of C140 are met on x86_64: files are opened, created and written to, and what descriptor 0 is goes
to worker 0, -/
example : ∃ es st, EventsOf (twoRulesEnd .lp64).2 es ∧
    ManyFilesRun [(4, 0#32)] (varTree (.file [7])) (fun j => if j = 1 then [(4, 0#32)] else []) es st ∧
    SoundTree (varTree (.file [7])) ∧ (∀ j, NoLinks (twoRules j) (varTree (.file [7]))) ∧ st.tree = varTree' (.file [7]) [8] ∧
    st.opened 0 = [(3, 0#32), (4, 0#32)] ∧ st.opened 1 = [(4, 0#32), (5, 0x41#32)] := by
  obtain ⟨es, st, h1, h2, h3, h4, h5, h6, h7⟩ := twoRules_files [(4, 0#32)] [(4, 0#32)] [100, 10] [200, 10] (.file [7]) 3 (by simp)
    (by simp) (by decide +kernel) (by decide +kernel) (by decide +kernel)
  exact ⟨es, st, twoRules_events twoRules_traces.1 twoRules_traces.2 h2 h3 h4, h1, varTree_sound (by simp),
    fun j => varTree_noLinks _ _, h5, h6, h7⟩

/-- and on 32-bit targets. -/
example : ∃ es st, EventsOf (twoRulesEnd .ilp32).2 es ∧
    ManyFilesRun [(4, 0#32)] (varTree (.file [7])) (fun j => if j = 1 then [(4, 0#32)] else []) es st ∧
    SoundTree (varTree (.file [7])) ∧ (∀ j, NoLinks (twoRules j) (varTree (.file [7]))) ∧ st.tree = varTree' (.file [7]) [8] ∧
    st.opened 0 = [(3, 0#32)] ∧ st.opened 1 = [(4, 0#32), (5, 0x41#32)] := by
  obtain ⟨es, st, h1, h2, h3, h4, h5, h6, h7⟩ := twoRules_files [(4, 0#32)] [] [100] [200] (.file [7]) 3 (by simp)
    (by simp) (by decide +kernel) (by decide +kernel) (by decide +kernel)
  exact ⟨es, st, twoRules_events twoRules_traces_ilp32.1 twoRules_traces_ilp32.2 h2 h3 h4, h1, varTree_sound (by simp),
    fun j => varTree_noLinks _ _, h5, h6, h7⟩

theorem varTree'_nodes {a : FileNode} {b : Bytes} {d : Nat} {n : FileNode} (h : (varTree' a b)[d]? = some n) :
    (d = 0 ∧ n = .dir [(c!"tmp", 1), (c!"var", 2), (c!"secret", 4)] 0) ∨ (d = 1 ∧ n = .dir [(c!"a", 3)] 0) ∨
    (d = 2 ∧ n = .dir [(c!"b", 5)] 0) ∨ (d = 3 ∧ n = a) ∨ (d = 4 ∧ n = .file [1, 2]) ∨ (d = 5 ∧ n = .file b) := by
  match d, h with
  | 0, h => cases h; simp
  | 1, h => cases h; simp
  | 2, h => cases h; simp
  | 3, h => cases h; simp
  | 4, h => cases h; simp
  | 5, h => cases h; simp
  | _ + 6, h => simp [varTree'] at h

/-- The only name of `/secret`. -/
theorem varTree'_secret {a : FileNode} {b : Bytes} (ha : ∀ e p, a ≠ .dir e p) {cs : List Str} (h : Named (varTree' a b) cs 4) :
    cs = [c!"secret"] := by
  have root : ∀ {cs : List Str}, Named (varTree' a b) cs 0 → cs = [] := by
    intro cs h
    generalize e : 0 = k at h
    cases h with
    | root => rfl
    | entry cs d en p c i h hd hc =>
      subst e
      exfalso
      have := lookup_mem' hc
      rcases varTree'_nodes hd with ⟨_, h⟩ | ⟨_, h⟩ | ⟨_, h⟩ | ⟨_, h⟩ | ⟨_, h⟩ | ⟨_, h⟩
      · cases h; simp at this
      · cases h; simp at this
      · cases h; simp at this
      · exact ha _ _ h.symm
      · cases h
      · cases h
  generalize e : 4 = k at h
  cases h with
  | root => cases e
  | entry cs d en p c i h hd hc =>
    subst e
    have := lookup_mem' hc
    rcases varTree'_nodes hd with ⟨rfl, h'⟩ | ⟨_, h'⟩ | ⟨_, h'⟩ | ⟨_, h'⟩ | ⟨_, h'⟩ | ⟨_, h'⟩
    · cases h'; simp at this; rw [root h, this]; rfl
    · cases h'; simp at this
    · cases h'; simp at this
    · exact absurd h'.symm (ha _ _)
    · cases h'
    · cases h'

theorem readTmp_secret : ¬ (ReadAllowed readTmp [c!"secret"] ∨ WriteAllowed readTmp [c!"secret"]) := by
  rintro (⟨c, hc, hg⟩ | ⟨c, hc, hg⟩)
  · simp only [readTmp, List.mem_singleton, Call.fs.injEq] at hc
    subst hc
    obtain ⟨ds, hd, hp⟩ := hg
    exact absurd (tmp_only hd hp) (by decide)
  · simp only [readTmp, List.mem_singleton, Call.fs.injEq] at hc
    subst hc
    exact hg

/-- C140 is false on x86_64, even without links: when the standard input of the broker is `/secret`, a worker which may only read what is
in `/tmp` gets it. -/
theorem C140_violated : ¬ @Spec.WorkersHaveWhatRulesName x86_64 := by
  intro hall
  obtain ⟨es, st, h1, h2, h3, h4, h5, h6, h7⟩ := twoRules_files [(4, 0#32)] [(4, 0#32)] [100, 10] [200, 10] (.file [7]) 3 (by simp)
    (by simp) (by decide +kernel) (by decide +kernel) (by decide +kernel)
  obtain ⟨x1, x2, x3⟩ := twoRules_exec .lp64
  rcases hall .lp64 twoRules _ _ _ es x1 x2 x3 (twoRules_events twoRules_traces.1 twoRules_traces.2 h2 h3 h4) _ _ _ st h1
    (varTree_sound (by simp)) 0 4 0#32 (by rw [h6]; simp) with h | ⟨cs, hn, ha, _⟩
  · simp at h
  · rw [h5] at hn
    have := varTree'_secret (by simp) hn
    subst this
    exact readTmp_secret ha

/-- And on 32-bit targets, when there is a link: `/tmp/a` leads to `/secret`. -/
theorem C140_violated_link : ∃ (w w' : WholeBroker) (ls : List BrokerEvent) (es : List FilesEvent) (fs : FileTree)
    (own : Nat → List (Nat × BitVec 32)) (st : ManyFiles), NothingYet w ∧ @WholeExec x86_64 .ilp32 Bounded Declared w ls w' ∧
    RulesAre twoRules w' ls ∧ EventsOf w' es ∧ ManyFilesRun [] fs own es st ∧ SoundTree fs ∧ own 0 = [] ∧ (4, 0#32) ∈ st.opened 0 ∧
    ∀ cs, Named st.tree cs 4 → ¬ (ReadAllowed (twoRules 0) cs ∨ WriteAllowed (twoRules 0) cs) := by
  obtain ⟨es, st, h1, h2, h3, h4, h5, h6, h7⟩ := twoRules_files [] [] [100] [200] (.link c!"/secret") 4 (by simp)
    (by simp) (by decide +kernel) (by decide +kernel) (by decide +kernel)
  obtain ⟨x1, x2, x3⟩ := twoRules_exec .ilp32
  refine ⟨_, _, _, es, _, _, st, x1, x2, x3, twoRules_events twoRules_traces_ilp32.1 twoRules_traces_ilp32.2 h2 h3 h4, h1,
    varTree_sound (by simp), rfl, by rw [h6]; simp, fun cs hn ha => ?_⟩
  rw [h5] at hn
  have := varTree'_secret (by simp) hn
  subst this
  exact readTmp_secret ha

/-- C140_left_alone_partial says something: worker 0, which may read `/tmp/a`, may not write to it. -/
example : (varTree (.file [7]))[3]? = some (.file [7]) ∧ Named (varTree (.file [7])) [c!"tmp", c!"a"] 3 ∧
    ¬ WriteAllowed (twoRules 0) [c!"tmp", c!"a"] := by
  refine ⟨rfl, .entry [c!"tmp"] 1 _ 0 c!"a" 3 (.entry [] 0 _ 0 c!"tmp" 1 .root rfl rfl) rfl rfl, ?_⟩
  rintro ⟨c, hc, hg⟩
  simp only [twoRules, readTmp, if_true, List.mem_singleton, Call.fs.injEq] at hc
  subst hc
  exact hg

end Iris
