import Verif.Lemmas.WinLogText
import Verif.Model.LinuxPolicy
/-! # C115 and C116: what the log says about the requests of a worker -/
namespace Iris

/-! ## C115 On Linux -/

/-- C115, full statement: two histories of requests which leave the same text log are the same
requests, decided in the same way, whatever the policies were. -/
def Spec.LogFaithful [Target] : Prop :=
  ∀ (p p' : Policy) (h h' : List Request),
    Spec.textLog (h.map p.evaluateRecord) = Spec.textLog (h'.map p'.evaluateRecord) →
    h.map (fun r => (r, Spec.decision p r)) = h'.map (fun r => (r, Spec.decision p' r))

theorem evaluateRecord_decision [Target] (p : Policy) (r : Request) :
    p.evaluateRecord r = verdictRecord r.display (Spec.decision p r) ∧ LinuxShape r (Spec.decision p r) := by
  cases r with
  | fileOpen path flags =>
    exact ⟨rfl, checkFileOpen_shape { p with auditOnly := false } path flags⟩
  | syscall nb args ip => exact ⟨rfl, .syscall _⟩

/-- A single record, as loggers receive it, tells which request was decided and how, whatever
characters its path has. -/
theorem C115_record_tells_request_and_verdict [Target] (p p' : Policy) (r r' : Request)
    (h : (p.evaluateRecord r).message = (p'.evaluateRecord r').message) :
    r = r' ∧ Spec.decision p r = Spec.decision p' r' := by
  obtain ⟨e, s⟩ := evaluateRecord_decision p r
  obtain ⟨e', s'⟩ := evaluateRecord_decision p' r'
  rw [e, e'] at h
  exact linux_record_inj s s' h

example : (@Policy.evaluateRecord x86_64 { Policy.auditOnlyPolicy with callbacks := [3] }
      (.fileOpen c!"/etc/shadow" 0#32)).message =
    c!"Worker tried to access file /etc/shadow with flags 0x0 but it is not allowed by its policy: requests read-only access, but has no access to that path" ∧
  (@Policy.evaluateRecord x86_64 .nothingAllowed (.fileOpen c!"/etc/shadow" 0#32)).message =
    (@Policy.evaluateRecord x86_64 .auditOnlyPolicy (.fileOpen c!"/etc/shadow" 0#32)).message := by
  decide +kernel

theorem map_tells {α β γ δ : Type} {f : α → γ} {f' : β → γ} {g : α → δ} {g' : β → δ} {P : α → Prop} {Q : β → Prop}
    (hi : ∀ a b, P a → Q b → f a = f' b → g a = g' b) :
    ∀ (l : List α) (l' : List β), (∀ a ∈ l, P a) → (∀ b ∈ l', Q b) → l.map f = l'.map f' → l.map g = l'.map g'
  | [], [], _, _, _ => rfl
  | [], _ :: _, _, _, h => by simp at h
  | _ :: _, [], _, _, h => by simp at h
  | a :: l, b :: l', h1, h2, h => by
    simp only [List.map_cons, List.cons.injEq] at h ⊢
    exact ⟨hi a b (h1 a (by simp)) (h2 b (by simp)) h.1,
      map_tells hi l l' (fun x hx => h1 x (by simp [hx])) (fun x hx => h2 x (by simp [hx])) h.2⟩

/-- C115 when no path has a line break. Missing from the full statement: paths with line breaks, for which
it is false (C115_violated). -/
theorem C115_text_log_tells_all_partial [Target] (p p' : Policy) (h h' : List Request)
    (hp : ∀ r ∈ h, '\n' ∉ Spec.requestPath r) (hp' : ∀ r ∈ h', '\n' ∉ Spec.requestPath r)
    (he : Spec.textLog (h.map p.evaluateRecord) = Spec.textLog (h'.map p'.evaluateRecord)) :
    h.map (fun r => (r, Spec.decision p r)) = h'.map (fun r => (r, Spec.decision p' r)) := by
  have line : ∀ (p : Policy) (h : List Request), (∀ r ∈ h, '\n' ∉ Spec.requestPath r) →
      ∀ m ∈ h.map p.evaluateRecord, '\n' ∉ m.message := by
    intro p h hp m hm
    obtain ⟨r, hr, rfl⟩ := List.mem_map.1 hm
    obtain ⟨e, s⟩ := evaluateRecord_decision p r
    rw [e]
    exact linux_record_line s (hp r hr)
  have hm := textLog_inj (line p h hp) (line p' h' hp') he
  rw [List.map_map, List.map_map] at hm
  refine map_tells (P := fun _ => True) (Q := fun _ => True) (fun r r' _ _ hr => ?_) h h' (by simp) (by simp) hm
  obtain ⟨h1, h2⟩ := C115_record_tells_request_and_verdict p p' r r' hr
  rw [h2, h1]

example : (∀ r ∈ [Request.fileOpen c!"/etc/a \"b\" with flags 0x0" 1#32, .syscall (-1#64) ⟨0#64, 1#64, 2#64, 3#64, 4#64, 5#64⟩ 9#64],
      '\n' ∉ Spec.requestPath r) ∧
    Spec.textLog ([Request.fileOpen c!"/etc/a" 1#32, .syscall (-1#64) ⟨0#64, 1#64, 2#64, 3#64, 4#64, 5#64⟩ 9#64].map
      (@Policy.evaluateRecord x86_64 .nothingAllowed)) =
    c!"Worker tried to access file /etc/a with flags 0x1 but it is not allowed by its policy: requests write-only access, but has no access to that path
Worker tried to access syscall nb#-1 with arguments (0x0, 0x1, 0x2, 0x3, 0x4, 0x5) at address 0x9 but delegation is not supported: unsupported system call
" := by
  constructor
  · simp only [List.mem_cons, List.not_mem_nil, or_false, forall_eq_or_imp, forall_eq]
    decide
  · decide +kernel

/-- C115: requests are recorded as information when granted by the rules, and as warnings otherwise. -/
theorem C115_warns_iff_not_granted [Target] (p : Policy) (r : Request) :
    (p.evaluateRecord r).level = .info ↔ Spec.decision p r = .granted := by
  rw [(evaluateRecord_decision p r).1]
  cases Spec.decision p r <;> simp [verdictRecord]

example : (@Policy.evaluateRecord x86_64 .auditOnlyPolicy (.fileOpen c!"/a" 0#32)).level = .warn := by
  decide +kernel

/-- C115: log callbacks are told the very request and verdict that the record is about, in audit mode too. -/
theorem C115_callbacks_agree [Target] (p : Policy) (r : Request) (n : Notification Request)
    (hn : n ∈ (p.evaluate r).2) : n.request = r ∧ n.verdict = Spec.decision p r ∧
      p.evaluateRecord r = verdictRecord n.request.display n.verdict := by
  have h1 : n.request = r ∧ n.verdict = Spec.decision p r := by
    simp only [Policy.evaluate, Policy.logVerdict, List.mem_map] at hn
    obtain ⟨cb, _, rfl⟩ := hn
    cases r <;> exact ⟨rfl, rfl⟩
  refine ⟨h1.1, h1.2, ?_⟩
  rw [h1.1, h1.2]
  exact (evaluateRecord_decision p r).1

example : ⟨7, .fileOpen c!"/a" 0#32, .deniedByPolicy
      c!"requests read-only access, but has no access to that path"⟩ ∈
    (@Policy.evaluate x86_64 { Policy.auditOnlyPolicy with callbacks := [7] } (.fileOpen c!"/a" 0#32)).2 := by
  decide +kernel

/-- A path which forges three lines. -/
def Spec.forgedPath : Str :=
  c!"/a with flags 0x0 but it is not allowed by its policy: requests read-only access, but has no access to that path
Worker granted access to file /etc/shadow with flags 0x0
Worker tried to access file /b"

/-- C115 is false in full: a worker confined to nothing can make the log say that it was granted access to
`/etc/shadow`, by asking for a path with line breaks. -/
theorem C115_violated : ¬ @Spec.LogFaithful x86_64 := by
  intro h
  have := congrArg List.length (@h .nothingAllowed
    { Policy.nothingAllowed with files := [(c!"/etc/shadow", ⟨true, false, false, false, false⟩)] }
    [.fileOpen Spec.forgedPath 0#32]
    [.fileOpen c!"/a" 0#32, .fileOpen c!"/etc/shadow" 0#32, .fileOpen c!"/b" 0#32] (by decide +kernel))
  simp at this

/-! ## C116 On Windows -/

/-- C116, full statement: the same as C115 on Windows. -/
def Spec.WinLogFaithful (debug : Bool) : Prop :=
  ∀ (p p' : Policy) (h h' : List WinRequest),
    Spec.textLog (h.map (p.winEvaluateRecord debug)) = Spec.textLog (h'.map (p'.winEvaluateRecord debug)) →
    h.map (fun r => (r, Spec.winDecision debug p r)) = h'.map (fun r => (r, Spec.winDecision debug p' r))

theorem winEvaluateRecord_decision (debug : Bool) (p : Policy) (r : WinRequest) :
    p.winEvaluateRecord debug r = verdictRecord r.display (Spec.winDecision debug p r) ∧
      WinShape r (Spec.winDecision debug p r) := by
  cases r with
  | fileOpen path a b c d e ea =>
    exact ⟨rfl, winCheckFileOpen_shape debug { p with auditOnly := false } path a b c d e ea⟩
  | regKeyOpen path a o create =>
    exact ⟨rfl, winCheckRegKeyOpen_shape { p with auditOnly := false } path a o create⟩

/-- A single record tells which request was decided, up to the bytes of its extended attributes and to
options which are not used, and exactly how. -/
theorem C116_record_tells_request_and_verdict_partial (debug debug' : Bool) (p p' : Policy) (r r' : WinRequest)
    (h : (p.winEvaluateRecord debug r).message = (p'.winEvaluateRecord debug' r').message) :
    Spec.SameOnPaper r r' ∧ Spec.winDecision debug p r = Spec.winDecision debug' p' r' := by
  obtain ⟨e, s⟩ := winEvaluateRecord_decision debug p r
  obtain ⟨e', s'⟩ := winEvaluateRecord_decision debug' p' r'
  rw [e, e'] at h
  exact win_record_inj s s' h

example : (Policy.winEvaluateRecord false .nothingAllowed
      (.fileOpen c!"\\??\\C:\\a" 1#32 0#32 7#32 1#32 0x20#32 [1, 2])).message =
    (Policy.winEvaluateRecord false .auditOnlyPolicy
      (.fileOpen c!"\\??\\C:\\a" 1#32 0#32 7#32 1#32 0x20#32 [3, 4])).message ∧
  (Policy.winEvaluateRecord false .nothingAllowed
      (.regKeyOpen c!"\\REGISTRY\\MACHINE\\a" 1#32 0#32 true)).message =
    c!"Worker tried to access registry key \\REGISTRY\\MACHINE\\a with access_mask 0x1, creating it with options 0x0 if it does not exist but it is not allowed by its policy: requests read-write access, but has no access to that path" := by
  decide +kernel

/-- Two histories have the same requests on paper, decided in the same way. -/
def Spec.SameHistory (debug : Bool) (p p' : Policy) : List WinRequest → List WinRequest → Prop
  | [], [] => True
  | r :: h, r' :: h' => Spec.SameOnPaper r r' ∧ Spec.winDecision debug p r = Spec.winDecision debug p' r' ∧
      Spec.SameHistory debug p p' h h'
  | _, _ => False

/-- C116 when no path has a line break, up to what is not on paper. Missing from the full statement: paths
with line breaks, and what is left out of the records (C116_violated, C116_violated_by_line_breaks). -/
theorem C116_text_log_tells_most_partial (debug : Bool) (p p' : Policy) (h h' : List WinRequest)
    (hp : ∀ r ∈ h, '\n' ∉ Spec.winRequestPath r) (hp' : ∀ r ∈ h', '\n' ∉ Spec.winRequestPath r)
    (he : Spec.textLog (h.map (p.winEvaluateRecord debug)) = Spec.textLog (h'.map (p'.winEvaluateRecord debug))) :
    Spec.SameHistory debug p p' h h' := by
  have line : ∀ (p : Policy) (h : List WinRequest), (∀ r ∈ h, '\n' ∉ Spec.winRequestPath r) →
      ∀ m ∈ h.map (p.winEvaluateRecord debug), '\n' ∉ m.message := by
    intro p h hp m hm
    obtain ⟨r, hr, rfl⟩ := List.mem_map.1 hm
    obtain ⟨e, s⟩ := winEvaluateRecord_decision debug p r
    rw [e]
    exact win_record_line s (hp r hr)
  have hm := textLog_inj (line p h hp) (line p' h' hp') he
  clear he hp hp' line
  induction h generalizing h' with
  | nil =>
    cases h' with
    | nil => trivial
    | cons r' h' => simp at hm
  | cons r h ih =>
    cases h' with
    | nil => simp at hm
    | cons r' h' =>
      simp only [List.map_cons, List.cons.injEq] at hm
      obtain ⟨h1, h2⟩ := C116_record_tells_request_and_verdict_partial debug debug p p' r r' hm.1
      exact ⟨h1, h2, ih h' hm.2⟩

example : (∀ r ∈ [WinRequest.fileOpen c!"\\??\\C:\\a" 1#32 0#32 7#32 1#32 0x20#32 [1],
      .regKeyOpen c!"\\REGISTRY\\MACHINE\\a" 1#32 0#32 true], '\n' ∉ Spec.winRequestPath r) := by
  simp only [List.mem_cons, List.not_mem_nil, or_false, forall_eq_or_imp, forall_eq]
  decide

/-- C116: requests are recorded as information when granted by the rules, and as warnings otherwise. -/
theorem C116_warns_iff_not_granted (debug : Bool) (p : Policy) (r : WinRequest) :
    (p.winEvaluateRecord debug r).level = .info ↔ Spec.winDecision debug p r = .granted := by
  rw [(winEvaluateRecord_decision debug p r).1]
  cases Spec.winDecision debug p r <;> simp [verdictRecord]

example : (Policy.winEvaluateRecord false .auditOnlyPolicy
    (.regKeyOpen c!"\\REGISTRY\\MACHINE\\a" 1#32 0#32 false)).level = .warn := by
  decide +kernel

/-- C116: log callbacks are told the very request and verdict that the record is about. -/
theorem C116_callbacks_agree (debug : Bool) (p : Policy) (r : WinRequest) (n : Notification WinRequest)
    (hn : n ∈ (p.winEvaluate debug r).2) : n.request = r ∧ n.verdict = Spec.winDecision debug p r ∧
      p.winEvaluateRecord debug r = verdictRecord n.request.display n.verdict := by
  have h1 : n.request = r ∧ n.verdict = Spec.winDecision debug p r := by
    simp only [Policy.winEvaluate, Policy.logVerdict, List.mem_map] at hn
    obtain ⟨cb, _, rfl⟩ := hn
    cases r <;> exact ⟨rfl, rfl⟩
  refine ⟨h1.1, h1.2, ?_⟩
  rw [h1.1, h1.2]
  exact (winEvaluateRecord_decision debug p r).1

example : (Policy.winEvaluate false { Policy.auditOnlyPolicy with callbacks := [7] }
    (.regKeyOpen c!"\\REGISTRY\\MACHINE\\a" 1#32 0#32 false)).2.length = 1 := by
  decide +kernel

/-- C116 is false in full: the bytes of extended attributes are not recorded. -/
theorem C116_violated (debug : Bool) : ¬ Spec.WinLogFaithful debug := by
  intro h
  have := h .nothingAllowed .nothingAllowed
    [.fileOpen c!"\\??\\C:\\a" 1#32 0#32 7#32 1#32 0x20#32 [1]]
    [.fileOpen c!"\\??\\C:\\a" 1#32 0#32 7#32 1#32 0x20#32 [2]] (by clear h; revert debug; decide +kernel)
  simp at this

/-- A path which forges three lines. -/
def Spec.winForgedPath : Str :=
  c!"\\a with access_mask 0x1 but it is not allowed by its policy: requests read-only access, but has no access to that path
Worker granted access to registry key \\b with access_mask 0x1
Worker tried to access registry key \\c"

/-- C116 is also false because of line breaks: the name of a registry key can forge a record of access
that was never asked for. -/
theorem C116_violated_by_line_breaks (debug : Bool) : ∃ (p p' : Policy) (r r1 r2 r3 : WinRequest),
    Spec.textLog ([r].map (p.winEvaluateRecord debug)) =
      Spec.textLog ([r1, r2, r3].map (p'.winEvaluateRecord debug)) ∧
    Spec.winDecision debug p r ≠ .granted ∧ Spec.winDecision debug p' r2 = .granted ∧
    Spec.winDecision debug p r2 ≠ .granted :=
  ⟨.nothingAllowed, { Policy.nothingAllowed with regkeys := [(c!"\\b", (true, false))] },
    .regKeyOpen Spec.winForgedPath 1#32 0#32 false, .regKeyOpen c!"\\a" 1#32 0#32 false,
    .regKeyOpen c!"\\b" 1#32 0#32 false, .regKeyOpen c!"\\c" 1#32 0#32 false,
    by revert debug; decide +kernel⟩

end Iris
