import Verif.Model.Sigsys
/-! # Properties of the signal handler (C53, C71) -/
namespace Iris

/-- C53, full statement: a system call trapped while the handler runs stops the worker with a
diagnostic. -/
def Spec.DetectsNesting : Prop :=
  ∀ s : SigState, s.Reachable → s.panicked = false → s.frames ≠ [] →
    (s.enter 31 1).panicked = true

/-- The flag is never set. -/
theorem flag_false {s : SigState} (h : s.Reachable) : s.flag = false ∧ s.panicked = false := by
  induction h with
  | init => exact ⟨rfl, rfl⟩
  | step _ hs ih =>
    cases hs with
    | signal n c hp hr =>
      simp only [SigState.enter]
      split
      · exact ih
      · split
        · exact ih
        · rw [ih.1]; exact ⟨rfl, ih.2⟩
    | lock fs hp h => exact ih
    | locked fs hp h hh => exact ih
    | unlock fs hp h => exact ih
    | leave fs hp h => exact ⟨ih.1, ih.2⟩

/-- A thread that traps in the handler while the handler holds the channel. -/
theorem nested_reachable : SigState.Reachable ⟨false, [.locking, .holding], true, false⟩ := by
  have h1 : SigState.Reachable ⟨false, [.working], false, false⟩ :=
    .step .init (.signal _ 31 1 rfl (by decide))
  have h2 : SigState.Reachable ⟨false, [.locking], false, false⟩ := .step h1 (.lock _ [] rfl rfl)
  have h3 : SigState.Reachable ⟨false, [.holding], true, false⟩ := .step h2 (.locked _ [] rfl rfl rfl)
  have h4 : SigState.Reachable ⟨false, [.working, .holding], true, false⟩ :=
    .step h3 (.signal _ 31 1 rfl (by decide))
  exact .step h4 (.lock _ [.holding] rfl rfl)

/-- C53 is false: the diagnostic is unreachable, whatever happens. -/
theorem C53_never_detected (s : SigState) (h : s.Reachable) (signalNo siCode : Nat) :
    (s.enter signalNo siCode).panicked = false := by
  have hf := flag_false h
  simp only [SigState.enter]
  split
  · exact hf.2
  · split
    · exact hf.2
    · rw [hf.1]; exact hf.2

theorem C53_violated : ¬ Spec.DetectsNesting := by
  intro h
  have := h _ nested_reachable rfl (by decide)
  rw [C53_never_detected _ nested_reachable] at this
  cases this

/-- C53. What happens instead: a call trapped while the handler is talking to the broker blocks
the thread for ever. -/
theorem C53_nested_trap_hangs :
    ∃ s : SigState, s.Reachable ∧ s.frames.length = 2 ∧ s.panicked = false ∧ ∀ s', ¬ s.Step s' := by
  refine ⟨_, nested_reachable, rfl, rfl, ?_⟩
  intro s' hs
  cases hs with
  | signal n c hp hr => exact hr rfl
  | lock fs hp h => cases h
  | locked fs hp h hh => cases hh
  | unlock fs hp h => cases h
  | leave fs hp h => cases h

/-- C53, what holds. Missing from the full statement: the diagnostic. A handler that does not trap
runs to its end: in a reachable state with one activation a step is always possible, and after
the handler has returned the mutex is free. -/
theorem C53_no_hang_without_nesting_partial (s : SigState) (h : s.Reachable) :
    (s.frames.length = 1 → ∃ s', s.Step s' ∧ s'.frames.length ≤ 1) ∧ (s.frames = [] → s.held = false) := by
  have inv : s.held = (s.frames.contains .holding) := by
    induction h with
    | init => rfl
    | @step s s' hr hs ih =>
      cases hs with
      | signal n c hp _ =>
        simp only [SigState.enter]
        split
        · exact ih
        · split
          · exact ih
          · rw [(flag_false hr).1]
            simp only [Bool.false_eq_true, if_false]
            rw [ih]; simp
      | lock fs hp h => rw [h] at ih; simpa using ih
      | locked fs hp h hh => simp
      | unlock fs hp h =>
        -- the mutex was held once only
        simp only
        rw [h] at ih
        have hone : s.frames.count .holding ≤ 1 := by
          clear ih h hp fs
          have gen : ∀ {x : SigState}, x.Reachable → x.frames.count .holding = if x.held then 1 else 0 := by
            intro x hx
            induction hx with
            | init => rfl
            | @step y y' hy hst ih' =>
              cases hst with
              | signal n c hp _ =>
                simp only [SigState.enter]
                split
                · exact ih'
                · split
                  · exact ih'
                  · rw [(flag_false hy).1]
                    simp only [Bool.false_eq_true, if_false]
                    rw [← ih']; simp
              | lock fs hp h => rw [h] at ih'; simpa using ih'
              | locked fs hp h hh => rw [h, hh] at ih'; simpa using ih'
              | unlock fs hp h =>
                rw [h] at ih'
                simp only [List.count_cons_self] at ih'
                have : y.held = true := by
                  cases hc : y.held with
                  | true => rfl
                  | false => rw [hc] at ih'; simp at ih'
                rw [this] at ih'
                simp only [if_true] at ih'
                simpa using ih'
              | leave fs hp h => rw [h] at ih'; simpa using ih'
          rw [gen hr]; split <;> omega
        rw [h] at hone
        simp only [List.count_cons_self] at hone
        have h0 : fs.count .holding = 0 := by omega
        have hn : Frame.holding ∉ fs := List.count_eq_zero.1 h0
        simp [hn]
      | leave fs hp h => rw [h] at ih; simpa using ih
  have hp := (flag_false h).2
  constructor
  · intro hl
    match hf : s.frames with
    | [] => rw [hf] at hl; cases hl
    | [.working] => exact ⟨_, .lock s [] hp hf, by simp⟩
    | [.locking] => exact ⟨_, .locked s [] hp hf (by rw [inv, hf]; rfl), by simp⟩
    | [.holding] => exact ⟨_, .unlock s [] hp hf, by simp⟩
    | _ :: _ :: _ => rw [hf] at hl; simp at hl
  · intro hf
    rw [inv, hf]; rfl

/-- C71. A signal other than SIGSYS, or a SIGSYS that was not sent by seccomp (kill, sigqueue),
does nothing: no handler activation, no request, no lock. -/
theorem C71_other_signals_ignored (s : SigState) (signalNo siCode : Nat)
    (h : signalNo ≠ 31 ∨ siCode ≠ 1) : s.enter signalNo siCode = s := by
  simp only [SigState.enter, SIGSYS, SYS_SECCOMP]
  rcases h with h | h
  · exact if_pos h
  · by_cases h1 : signalNo = 31
    · subst h1
      exact (if_neg (by simp)).trans (if_pos h)
    · exact if_pos h1

/-- C71. A SIGSYS sent by seccomp to a thread outside the handler does start it. -/
theorem C71_seccomp_signal_handled (s : SigState) (h : s.Reachable) :
    (s.enter 31 1).frames = .working :: s.frames := by
  simp [SigState.enter, SIGSYS, SYS_SECCOMP, (flag_false h).1]

example : SigState.Reachable ⟨false, [.working], false, false⟩ :=
  .step .init (.signal _ 31 1 rfl (by decide))

end Iris
