import Verif.Lemmas.EntryLog
import Verif.Props.Process
/-!
# C121: what a worker says while it starts
-/
namespace Iris
open Spec

theorem setpcap_bit (i : Nat) : CAP_SETPCAP.getLsbD i = decide (i = 8) := by
  by_cases hi : i < 64
  · have : ∀ i : Fin 64, CAP_SETPCAP.getLsbD i.val = decide (i.val = 8) := by decide +kernel
    exact this ⟨i, hi⟩
  · rw [BitVec.getLsbD_of_ge _ _ (by omega)]
    have : i ≠ 8 := by omega
    simp [this]

theorem canDrop_iff (c : Caps) : canDrop c = true ↔ c.permitted &&& CAP_SETPCAP ≠ 0#64 := by
  rw [canDrop]
  constructor
  · intro h hx
    have h8 : (c.permitted &&& CAP_SETPCAP).getLsbD 8 = true := by
      rw [BitVec.getLsbD_and, setpcap_bit, h]; rfl
    rw [hx] at h8; simp at h8
  · intro h
    rw [← Bool.not_eq_false]
    intro hx
    apply h
    apply BitVec.eq_of_getLsbD_eq
    intro i hi
    rw [BitVec.getLsbD_and, setpcap_bit, BitVec.getLsbD_zero]
    by_cases h8 : i = 8
    · rw [h8, hx]; rfl
    · simp [h8]

/-- Raising a capability that is permitted is always allowed. -/
theorem raise_allowed {c : Caps} (hc : c.effective &&& ~~~c.permitted = 0#64) (hd : c.permitted &&& CAP_SETPCAP ≠ 0#64) :
    (sysCapset c c.permitted (c.effective ||| CAP_SETPCAP) c.inheritable).isNone = false := by
  have h8 := (canDrop_iff c).2 hd
  rw [canDrop] at h8
  have b : ∀ i, i < 64 → c.effective.getLsbD i = true → c.permitted.getLsbD i = true := by
    intro i hi he
    have := congrArg (fun x => x.getLsbD i) hc
    simp only [BitVec.getLsbD_and, BitVec.getLsbD_not, he, hi, decide_true, Bool.true_and, BitVec.getLsbD_zero] at this
    simpa using this
  rw [sysCapset, if_pos]
  · rfl
  · refine ⟨?_, ?_, ?_⟩
    · apply BitVec.eq_of_getLsbD_eq
      intro i hi
      simp only [BitVec.getLsbD_and, BitVec.getLsbD_not, BitVec.getLsbD_zero]
      cases c.permitted.getLsbD i <;> simp
    · apply BitVec.eq_of_getLsbD_eq
      intro i hi
      simp only [BitVec.getLsbD_and, BitVec.getLsbD_not, BitVec.getLsbD_or, BitVec.getLsbD_zero, setpcap_bit]
      by_cases hi8 : i = 8
      · subst hi8; rw [h8]; simp
      · cases he : c.effective.getLsbD i with
        | true => rw [b i hi he]; simp
        | false => simp [hi8]
    · apply BitVec.eq_of_getLsbD_eq
      intro i hi
      simp only [BitVec.getLsbD_and, BitVec.getLsbD_not, BitVec.getLsbD_or, BitVec.getLsbD_zero]
      cases c.inheritable.getLsbD i <;> simp

/-- The messages of the first part, step by step. -/
theorem prepareLog_steps (os : EntryOs) (en enCap : Nat → BitVec 32) (p : EntryParams) (t : FdTable) (caps : Caps)
    (hc : caps.effective &&& ~~~caps.permitted = 0#64) :
    (prepareLog os en enCap p t caps).map EntryLine.said = saidOf (steps os en enCap p caps) := by
  have e : steps os en enCap p caps = (steps os en enCap p caps).take 2 ++ ((steps os en enCap p caps).drop 2).take 2 ++
      ((steps os en enCap p caps).drop 4).take 2 ++ ((steps os en enCap p caps).drop 6).take 7 ++
      (steps os en enCap p caps).drop 13 := rfl
  rw [e, prepareLog]
  simp only [writeFile_same, ite_self, List.map_append, saidOf_append]
  congr 1
  congr 1
  congr 1
  congr 1
  · rw [procLog_msg]; rfl
  · by_cases hu : p.uidMap = []
    · rw [hu, saidOf_none]
      · rfl
      · simp [steps, hu]
    · rw [if_pos (List.length_pos_iff.2 hu), procLog_msg]
      simp only [steps, hu, ne_eq, not_false_eq_true, decide_true, Bool.true_and]
      rfl
  · by_cases hu : p.gidMap = []
    · rw [hu, saidOf_none]
      · rfl
      · simp [steps, hu]
    · rw [if_pos (List.length_pos_iff.2 hu), procLog_msg]
      simp only [steps, hu, ne_eq, not_false_eq_true, decide_true, Bool.true_and]
      rfl
  · rw [isolateLog]
    simp only [List.map_append, warnIf_msg]
    have e4 : ((steps os en enCap p caps).drop 6).take 7 = ((steps os en enCap p caps).drop 6).take 1 ++
      ((steps os en enCap p caps).drop 7).take 1 ++ ((steps os en enCap p caps).drop 8).take 2 ++
      ((steps os en enCap p caps).drop 10).take 1 ++ ((steps os en enCap p caps).drop 11).take 2 := rfl
    rw [e4]
    simp only [saidOf_append]
    congr 1
    congr 1
    congr 1
    · cases hu : os.unshareUts with
      | false =>
        simp only [if_true]
        simp only [steps, hu]
        rfl
      | true =>
        simp only [Bool.true_eq_false, if_false, warnIf_msg]
        simp only [steps, hu]
        rfl
    · cases hu : os.unshareMount with
      | false =>
        simp only [if_true]
        simp only [steps, hu]
        rfl
      | true =>
        simp only [Bool.true_eq_false, if_false, warnIf_msg]
        simp only [steps, hu]
        rfl
  · rw [capsLog]
    have e5 : (steps os en enCap p caps).drop 13 = ((steps os en enCap p caps).drop 13).take 1 ++
      (((steps os en enCap p caps).drop 14).take 3 ++ (steps os en enCap p caps).drop 17) := rfl
    rw [e5]
    cases hg : os.caps.getProc with
    | false =>
      simp only [if_true, steps, hg]
      rfl
    | true =>
      simp only [Bool.true_eq_false, if_false, List.map_append, saidOf_append]
      rw [show saidOf (((steps os en enCap p caps).drop 13).take 1) = [] from by simp only [steps, hg]; rfl, List.nil_append]
      congr 1
      · rw [boundingLog]
        cases hf : os.caps.getFlag with
        | false => simp only [if_true, steps, hg, hf]; rfl
        | true =>
          simp only [Bool.true_eq_false, if_false]
          by_cases hd : caps.permitted &&& CAP_SETPCAP = 0#64
          · rw [if_pos hd]
            have hd' : canDrop caps = false := by rw [← Bool.not_eq_true, canDrop_iff]; simpa using hd
            simp only [steps, hg, hf, hd']; rfl
          · rw [if_neg hd]
            have hd' : canDrop caps = true := by rw [canDrop_iff]; exact hd
            rw [raise_allowed hc hd]
            cases hs : os.caps.setFlag with
            | false => simp only [if_true, steps, hg, hf, hd', hs]; rfl
            | true =>
              cases hr : os.caps.raise with
              | false => simp only [Bool.true_eq_false, if_false, true_or, if_true, steps, hg, hf, hd', hs, hr]; rfl
              | true =>
                simp only [Bool.true_eq_false, if_false, or_self, Bool.false_eq_true, steps, hg, hf, hd', hs, hr]; rfl
      · cases hs : os.caps.clear with
        | false => simp only [if_true, steps, hg, hs]; rfl
        | true =>
          simp only [Bool.true_eq_false, if_false, warnIf_msg]
          simp only [steps, hg, hs]; rfl

/-- **C121**, warnings. What is said besides the reason to give up: the steps which the system refused, in order,
each one with its error. -/
theorem C121_warnings (os : EntryOs) (en enCap : Nat → BitVec 32) (p : EntryParams) (t : FdTable) (caps : Caps)
    (hc : caps.effective &&& ~~~caps.permitted = 0#64) :
    ((entryLog os en enCap p t caps).filter (fun l => !l.fatal)).map EntryLine.said =
      if os.noNewPrivs then ((steps os en enCap p caps).filter Prod.fst).map Prod.snd else [] := by
  rw [entryLog]
  by_cases hn : os.noNewPrivs = true
  · have hp : prepare os p t caps ≠ none := by rw [prepare]; simp [hn]
    split
    · rename_i h; exact absurd h hp
    · rename_i s hs
      have h1 : (prepareLog os en enCap p t caps).filter (fun l => !l.fatal) = prepareLog os en enCap p t caps := by
        rw [List.filter_eq_self]
        intro l hl
        rw [prepareLog_warns os en enCap p t caps l hl]; rfl
      have h2 : (streamsLog os en p s).filter (fun l => !l.fatal) = [] := by
        have := streams_tells os en p s
        cases hl : laterSteps os p s with
        | none =>
          rw [hl] at this
          obtain ⟨l, h3, h4⟩ := this
          rw [h3]; simp [h4]
        | some _ =>
          rw [hl] at this
          rw [show streamsLog os en p s = [] from this]; rfl
      rw [List.filter_append, h1, h2, List.append_nil, hn, if_pos rfl]
      exact prepareLog_steps os en enCap p t caps hc
  · simp only [Bool.not_eq_true] at hn
    have hp : prepare os p t caps = none := by rw [prepare]; simp [hn]
    rw [hp, hn]
    rfl

/-- **C121**, texts. Each message arrives whole, whatever the numbers in it, and as one line. -/
theorem C121_messages_whole (os : EntryOs) (en enCap : Nat → BitVec 32) (p : EntryParams) (t : FdTable) (caps : Caps)
    (ht : ∀ n ∈ t.fds, n < 2 ^ 31) (hl : t.length < 2 ^ 31) :
    ∀ l ∈ entryLog os en enCap p t caps, l.text = some (wholeText l) :=
  fun l hm => text_whole l (entryLog_short os en enCap p t caps ht hl l hm)

/-- **C121**, the reason. A worker gives up if and only if it says so, as the last thing it says. -/
theorem C121_gives_up_iff_says_so (os : EntryOs) (en enCap : Nat → BitVec 32) (p : EntryParams) (t : FdTable) (caps : Caps) :
    (cloneEntrypoint os p t caps = .gaveUp ↔ ∃ l, (entryLog os en enCap p t caps).getLast? = some l ∧ l.fatal = true) ∧
    ∀ l ∈ (entryLog os en enCap p t caps).dropLast, l.fatal = false := by
  rw [cloneEntrypoint_gaveUp, entryLog]
  cases hp : prepare os p t caps with
  | none =>
    refine ⟨⟨fun _ => ⟨_, rfl, rfl⟩, fun _ => rfl⟩, ?_⟩
    simp
  | some s =>
    simp only [Option.bind_some]
    have hw := prepareLog_warns os en enCap p t caps
    have := streams_tells os en p s
    cases hl : laterSteps os p s with
    | none =>
      rw [hl] at this
      obtain ⟨l, h3, h4⟩ := this
      rw [h3]
      refine ⟨⟨fun _ => ⟨l, by simp, h4⟩, fun _ => rfl⟩, ?_⟩
      rw [List.dropLast_concat]
      exact hw
    | some s' =>
      rw [hl] at this
      rw [show streamsLog os en p s = [] from this, List.append_nil]
      refine ⟨⟨(fun h => by cases h), fun ⟨l, h1, h2⟩ => ?_⟩, fun l hl => hw l (List.dropLast_subset _ hl)⟩
      have := hw l (List.mem_of_getLast? h1)
      rw [this] at h2; cases h2

/-- **C121**, where. If the broker has a standard error, that is where it is said, except when the standard error of
the worker itself cannot be set up: then it is lost. Missing: the reason in that case,
see `C121_reason_lost_violated`. -/
theorem C121_said_on_stderr_partial (os : EntryOs) (en enCap : Nat → BitVec 32) (p : EntryParams) (t : FdTable) (caps : Caps)
    (e : FdEntry) (h2 : t.get 2 = some e) (ha : p.allowed ≠ []) :
    ∀ l ∈ entryLog os en enCap p t caps, l.sink = some e.file ∨ l.sink = none ∧ l.fatal = true ∧ AboutStream l := by
  intro l hl
  rcases entryLog_said os en enCap p ha h2 caps l hl with h | ⟨h3, h4⟩
  · exact .inl h
  · refine .inr ⟨h3, ?_, h4⟩
    cases hf : l.fatal with
    | true => rfl
    | false =>
      exfalso
      rw [entryLog] at hl
      split at hl
      · simp at hl; subst hl; cases hf
      · rename_i s hs
        rcases List.mem_append.1 hl with hl | hl
        · have := prepareLog_said os en enCap p h2 caps l hl
          rw [SaidTo, h3] at this; cases this
        · have := streams_tells os en p s
          cases hx : laterSteps os p s with
          | none =>
            rw [hx] at this
            obtain ⟨l', h5, h6⟩ := this
            rw [h5] at hl; simp at hl; subst hl
            rw [hf] at h6; cases h6
          | some _ =>
            rw [hx] at this
            rw [show streamsLog os en p s = [] from this] at hl; simp at hl

/-- **C121**, violated. The standard error of the worker cannot be set up, for lack of /dev/null: the worker gives up
and the reason goes nowhere. -/
theorem C121_reason_lost_violated : ¬ SaysWhy := by
  intro h
  have hg : cloneEntrypoint { goodEntry with openNull := fun n => if n = 2 then .error 2 else .ok (80 + n) }
      ⟨[], [], [], [], [], [3], 4, none, none, none⟩ [(0, ⟨10, 0#32⟩), (1, ⟨11, 0#32⟩), (2, ⟨12, 0#32⟩), (3, ⟨13, 0#32⟩),
      (4, ⟨14, 0#32⟩)] fullCaps = .gaveUp := by decide +kernel
  obtain ⟨l, h1, h2, h3⟩ := h { goodEntry with openNull := fun n => if n = 2 then .error 2 else .ok (80 + n) }
    (fun _ => 2#32) (fun _ => 2#32)
    ⟨[], [], [], [], [], [3], 4, none, none, none⟩ [(0, ⟨10, 0#32⟩), (1, ⟨11, 0#32⟩), (2, ⟨12, 0#32⟩), (3, ⟨13, 0#32⟩),
      (4, ⟨14, 0#32⟩)] fullCaps ⟨12, 0#32⟩ rfl (by decide) hg
  have key : ∀ l ∈ entryLog { goodEntry with openNull := fun n => if n = 2 then .error 2 else .ok (80 + n) }
      (fun _ => 2#32) (fun _ => 2#32)
      ⟨[], [], [], [], [], [3], 4, none, none, none⟩ [(0, ⟨10, 0#32⟩), (1, ⟨11, 0#32⟩), (2, ⟨12, 0#32⟩), (3, ⟨13, 0#32⟩),
        (4, ⟨14, 0#32⟩)] fullCaps, l.fatal = true → l.sink = none := by decide +kernel
  rw [key l h1 h2] at h3; cases h3

/-- **C121**, violated otherwise. If the broker has no standard error, what is said goes to whatever file has its
number: a warning about a file of /proc is written into that file. -/
theorem C121_no_stderr_violated :
    ∃ l ∈ entryLog { goodEntry with setgroups := ⟨.ok 70, false⟩ } (fun _ => 1#32) (fun _ => 1#32)
      ⟨[], [], [], [], [], [3], 4, none, none, none⟩ [(0, ⟨10, 0#32⟩), (1, ⟨11, 0#32⟩), (3, ⟨13, 0#32⟩), (4, ⟨14, 0#32⟩)]
      fullCaps, l.sink = some 70 := by
  decide +kernel

/-- C121: what is said on a system which refuses two steps, and then an inherited descriptor cannot be closed. -/
example : (entryLog { goodEntry with unshareNet := false, close := fun _ => false } (fun n => if n = 108 then 1#32 else 5#32)
      (fun _ => 0#32) ⟨[], [], [], [], [], [3], 4, none, none, none⟩
      [(0, ⟨10, 0#32⟩), (1, ⟨11, 0#32⟩), (2, ⟨12, 0#32⟩), (3, ⟨13, 0#32⟩), (4, ⟨14, 0#32⟩), (9, ⟨19, 0#32⟩)]
      fullCaps).filterMap EntryLine.text =
    [utf8 c!"Warning in clone() entrypoint at line 108: unshare(CLONE_NEWNET) failed with errno 1\n\n",
     utf8 c!"Warning in clone() entrypoint at line 132: unshare(CLONE_NEWCGROUP) failed with errno 5\n\n",
     utf8 c!"Error in clone() entrypoint at line 218: closing inherited file descriptor 9 failed with errno 5\n\n"] := by
  decide +kernel

end Iris
