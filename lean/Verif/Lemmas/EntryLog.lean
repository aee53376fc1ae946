import Verif.Spec.EntryLog
import Verif.Lemmas.WinPipe
import Verif.Lemmas.Process
import Verif.Lemmas.WorkerNew
/-!
# Lemmas for C121
-/
namespace Iris
open Spec

/-! ## Lengths -/

/-- A message that fits. -/
def Short (l : EntryLine) : Prop := (utf8 l.msg).length ≤ 120 ∧ l.line < 1000

theorem display_bytes (n : BitVec 32) : (utf8 (displayI32 n)).length ≤ 11 := by
  rw [(utf8_plain _ (display_plain n)).1]; exact display_length n

theorem short1 (a b : Str) (n : BitVec 32) (ha : (utf8 a).length ≤ 80) (hb : (utf8 b).length ≤ 20) :
    (utf8 (a ++ displayI32 n ++ b)).length ≤ 120 := by
  have := display_bytes n
  simp only [utf8_append, List.length_append]; omega

theorem short2 (a b c : Str) (n m : BitVec 32) (ha : (utf8 a).length ≤ 60) (hb : (utf8 b).length ≤ 20)
    (hc : (utf8 c).length ≤ 10) :
    (utf8 (a ++ displayI32 n ++ b ++ displayI32 m ++ c)).length ≤ 120 := by
  have := display_bytes n
  have := display_bytes m
  simp only [utf8_append, List.length_append]; omega

theorem short0 (a : Str) (n : BitVec 32) (ha : (utf8 a).length ≤ 80) : (utf8 (a ++ displayI32 n)).length ≤ 120 := by
  have := display_bytes n
  simp only [utf8_append, List.length_append]; omega

theorem text_whole (l : EntryLine) (h : Short l) : l.text = some (wholeText l) := by
  obtain ⟨h1, h2⟩ := h
  unfold EntryLine.text
  have hp : (utf8 (entryPrefix l.fatal)).length ≤ 40 := by cases l.fatal <;> decide +kernel
  have hw : wholeText l = utf8 (entryPrefix l.fatal) ++ utf8 (dec l.line) ++ utf8 c!": " ++ utf8 l.msg ++ [10] := by
    have e1 : utf8 c!"\n" = [10] := by decide +kernel
    have e2 : (if l.fatal then c!"Error" else c!"Warning") ++ c!" in clone() entrypoint at line " = entryPrefix l.fatal := by
      cases l.fatal <;> rfl
    rw [wholeText, utf8_append _ c!"\n", e1, utf8_append _ l.msg, utf8_append _ c!": ", utf8_append _ (dec l.line), e2]
  obtain ⟨b, pad, e1, -, -, -, e2⟩ := C54_stack_buffer 200 (by omega)
    [utf8 (entryPrefix l.fatal), utf8 (dec l.line), utf8 c!": ", utf8 l.msg]
  rw [e1, Option.bind_some, e2, Option.map_some]
  refine congrArg some ?_
  have hl : (utf8 (dec l.line)).length ≤ 3 := by
    rw [(utf8_plain _ (dec_plain l.line)).1, dec, Nat.length_toDigits_le_iff (by omega) (by omega)]; omega
  have hc : (utf8 c!": ").length = 2 := by decide +kernel
  have hf : [utf8 (entryPrefix l.fatal), utf8 (dec l.line), utf8 c!": ", utf8 l.msg].flatten =
      utf8 (entryPrefix l.fatal ++ dec l.line ++ c!": " ++ l.msg) := by
    rw [utf8_append, utf8_append, utf8_append]
    simp only [List.flatten_cons, List.flatten_nil, List.append_nil, List.append_assoc]
  have hlen : (utf8 (entryPrefix l.fatal ++ dec l.line ++ c!": " ++ l.msg)).length ≤ 199 := by
    rw [utf8_append, utf8_append, utf8_append]
    simp only [List.length_append]; omega
  rw [hf, List.take_of_length_le hlen, fromUtf8_utf8, hw, utf8_append, utf8_append, utf8_append]
  rfl

/-! ## The loop on descriptors -/

/-- What is logged by a step which ends in `r`: nothing if it succeeds, else why. -/
def Tells {α : Type} (log : List EntryLine) (r : Option α) : Prop :=
  match r with
  | some _ => log = []
  | none => ∃ l, log = [l] ∧ l.fatal = true

theorem closeFds_tells (os : EntryOs) (en : Nat → BitVec 32) (p : EntryParams) (f : Nat) :
    ∀ (l : List DirEntry) (fails : Option Nat) (t : FdTable),
      Tells (closeFdsLog os en p f fails l t) (closeFds os p f fails l t)
  | [], fails, t => by
    rw [closeFdsLog, closeFds]
    split
    · exact ⟨_, rfl, rfl⟩
    · rfl
  | e :: es, fails, t => by
    rw [closeFdsLog, closeFds]
    split
    · exact ⟨_, rfl, rfl⟩
    · split
      · exact closeFds_tells os en p f es _ t
      · cases parseI32 e.name with
        | none => exact ⟨_, rfl, rfl⟩
        | some fd =>
          simp only []
          split
          · exact closeFds_tells os en p f es _ t
          · generalize sysClose os t fd = r
            obtain ⟨r, t'⟩ := r
            cases r with
            | false => exact ⟨_, rfl, rfl⟩
            | true => exact closeFds_tells os en p f es _ t'

theorem cleanup_tells (os : EntryOs) (en : Nat → BitVec 32) (p : EntryParams) (t : FdTable) :
    Tells (cleanupLog os en p t) (cleanupFds os p t) := by
  rw [cleanupLog, cleanupFds]
  cases os.openFds with
  | error _ => exact ⟨_, rfl, rfl⟩
  | ok file =>
    simp only []
    split
    · exact ⟨_, rfl, rfl⟩
    · have := closeFds_tells os en p (t.alloc ⟨file, FD_CLOEXEC⟩).1 (procSelfFd (t.alloc ⟨file, FD_CLOEXEC⟩).2)
        os.readdirFails (t.alloc ⟨file, FD_CLOEXEC⟩).2
      revert this
      cases closeFds os p (t.alloc ⟨file, FD_CLOEXEC⟩).1 os.readdirFails (procSelfFd (t.alloc ⟨file, FD_CLOEXEC⟩).2)
        (t.alloc ⟨file, FD_CLOEXEC⟩).2 <;> exact id

theorem setup_tells (os : EntryOs) (en : Nat → BitVec 32) (num : Nat) (r : Option Nat) (s : EntryState) :
    Tells (setupLog os en num r s.table) (setupStd os num r s) := by
  rw [setupLog.eq_def, setupStd.eq_def]
  cases r with
  | some fd =>
    simp only []
    cases (s.table.erase num).get fd with
    | none => exact ⟨_, rfl, rfl⟩
    | some e =>
      simp only []
      split
      · exact ⟨_, rfl, rfl⟩
      · split
        · exact ⟨_, rfl, rfl⟩
        · rfl
  | none =>
    simp only []
    cases os.openNull num with
    | error _ => exact ⟨_, rfl, rfl⟩
    | ok file =>
      simp only []
      split
      · exact ⟨_, rfl, rfl⟩
      · rfl

/-- The rest of the start, after the steps that only warn. -/
def laterSteps (os : EntryOs) (p : EntryParams) (s : EntryState) : Option EntryState :=
  (cleanupFds os p s.table).bind fun t =>
  (setupStd os 0 p.stdin { s with table := t }).bind fun s =>
  (setupStd os 1 p.stdout s).bind fun s =>
  setupStd os 2 p.stderr s

theorem streams_tells (os : EntryOs) (en : Nat → BitVec 32) (p : EntryParams) (s : EntryState) :
    Tells (streamsLog os en p s) (laterSteps os p s) := by
  rw [streamsLog, laterSteps]
  have h1 := cleanup_tells os en p s.table
  cases hc : cleanupFds os p s.table with
  | none => rw [hc] at h1; simpa [Tells] using h1
  | some t =>
    rw [hc] at h1
    simp only [Option.bind_some]
    have h2 := setup_tells os en 0 p.stdin { s with table := t }
    rw [show cleanupLog os en p s.table = [] from h1, List.nil_append]
    cases hc2 : setupStd os 0 p.stdin { s with table := t } with
    | none => rw [hc2] at h2; simpa [Tells] using h2
    | some s1 =>
      rw [hc2] at h2
      simp only [Option.bind_some]
      rw [show setupLog os en 0 p.stdin t = [] from h2, List.nil_append]
      have h3 := setup_tells os en 1 p.stdout s1
      cases hc3 : setupStd os 1 p.stdout s1 with
      | none => rw [hc3] at h3; simpa [Tells] using h3
      | some s2 =>
        rw [hc3] at h3
        simp only [Option.bind_some]
        rw [show setupLog os en 1 p.stdout s1.table = [] from h3, List.nil_append]
        exact setup_tells os en 2 p.stderr s2

theorem cloneEntrypoint_gaveUp (os : EntryOs) (p : EntryParams) (t : FdTable) (caps : Caps) :
    cloneEntrypoint os p t caps = .gaveUp ↔ (prepare os p t caps).bind (laterSteps os p) = none := by
  rw [cloneEntrypoint, show ((prepare os p t caps).bind fun s =>
    (cleanupFds os p s.table).bind fun t =>
    (setupStd os 0 p.stdin { s with table := t }).bind fun s =>
    (setupStd os 1 p.stdout s).bind fun s =>
    setupStd os 2 p.stderr s) = (prepare os p t caps).bind (laterSteps os p) from rfl]
  cases (prepare os p t caps).bind (laterSteps os p) with
  | none => simp
  | some s =>
    simp only [execOrReport]
    cases os.execve <;> simp

/-! ## Warnings -/

theorem warnIf_fatal (b : Bool) (t : FdTable) (n : Nat) (m : Str) : ∀ l ∈ warnIf b t n m, l.fatal = false := by
  intro l hl
  rw [warnIf] at hl
  split at hl
  · simp at hl; subst hl; rfl
  · simp at hl

theorem writeFile_same (os : WriteOs) (t : FdTable) : writeFile os t = t := by
  rw [writeFile]
  cases os.open with
  | error _ => rfl
  | ok file => exact FdTable.erase_alloc t _

/-- Every element has a property. -/
def Each (P : EntryLine → Prop) (l : List EntryLine) : Prop := ∀ x ∈ l, P x

theorem Each.nil {P : EntryLine → Prop} : Each P [] := by intro x hx; simp at hx

theorem Each.one {P : EntryLine → Prop} {a : EntryLine} (h : P a) : Each P [a] := by
  intro x hx; simp at hx; subst hx; exact h

theorem Each.app {P : EntryLine → Prop} {a b : List EntryLine} (ha : Each P a) (hb : Each P b) : Each P (a ++ b) := by
  intro x hx
  rcases List.mem_append.1 hx with hx | hx
  · exact ha x hx
  · exact hb x hx

theorem Each.warn {P : EntryLine → Prop} {f : Bool} {t : FdTable} {n : Nat} {m : Str} (h : P (warnLine t n m)) :
    Each P (warnIf f t n m) := by
  rw [warnIf]; split
  · exact .one h
  · exact .nil

theorem Each.ite {P : EntryLine → Prop} {c : Prop} [Decidable c] {a b : List EntryLine} (ha : Each P a) (hb : Each P b) :
    Each P (if c then a else b) := by
  split
  · exact ha
  · exact hb

theorem procLog_short (os : WriteOs) (en : Nat → BitVec 32) (t : FdTable) (a b : Nat) (n w : Str) (ha : a < 1000)
    (hb : b < 1000) (hn : (utf8 (c!"open(" ++ n ++ c!") failed with errno ")).length ≤ 80)
    (hw : (utf8 (c!"write(" ++ w ++ c!") failed with errno ")).length ≤ 80) : Each Short (procLog os en t a b n w) := by
  rw [procLog]
  split
  · exact .one ⟨short1 _ _ _ hn (by decide +kernel), ha⟩
  · exact .warn ⟨short1 _ _ _ hw (by decide +kernel), hb⟩

theorem prepareLog_short (os : EntryOs) (en enCap : Nat → BitVec 32) (p : EntryParams) (t : FdTable) (caps : Caps) :
    Each Short (prepareLog os en enCap p t caps) := by
  rw [prepareLog]
  refine .app (.app (.app (.app ?_ ?_) ?_) ?_) ?_
  · exact procLog_short _ _ _ _ _ _ _ (by decide) (by decide) (by decide +kernel) (by decide +kernel)
  · exact .ite (procLog_short _ _ _ _ _ _ _ (by decide) (by decide) (by decide +kernel) (by decide +kernel)) .nil
  · exact .ite (procLog_short _ _ _ _ _ _ _ (by decide) (by decide) (by decide +kernel) (by decide +kernel)) .nil
  · rw [isolateLog]
    have key : ∀ (a : Str) (n : Nat) (t : FdTable), (utf8 a).length ≤ 80 → n < 1000 →
        Short (warnLine t n (a ++ displayI32 (en n) ++ c!"\n")) :=
      fun a n t h1 h2 => ⟨short1 a _ _ h1 (by decide +kernel), h2⟩
    refine .app (.app (.app (.app (.warn ?_) (.warn ?_)) (.ite (.one ?_) (.warn ?_))) (.warn ?_)) (.ite (.one ?_) (.warn ?_)) <;>
      exact key _ _ _ (by decide +kernel) (by decide)
  · rw [capsLog, boundingLog]
    have key : ∀ (a : Str) (n : Nat) (t : FdTable), (utf8 a).length ≤ 80 → n < 1000 →
        Short (warnLine t n (a ++ displayI32 (enCap n))) := fun a n t h1 h2 => ⟨short0 a _ h1, h2⟩
    refine .ite (.one ?_) (.app (.ite (.one ?_) (.ite .nil (.ite (.one ?_) (.ite (.one ?_) .nil)))) (.ite (.one ?_) (.warn ?_))) <;>
      exact key _ _ _ (by decide +kernel) (by decide)

theorem closeFds_short (os : EntryOs) (en : Nat → BitVec 32) (p : EntryParams) (f : Nat) :
    ∀ (l : List DirEntry) (fails : Option Nat) (t : FdTable),
      (∀ e ∈ l, e.isLink = true → parseI32 e.name ≠ none) → Each Short (closeFdsLog os en p f fails l t)
  | [], fails, t, _ => by
    rw [closeFdsLog]
    exact .ite (.one ⟨short1 _ _ _ (by decide +kernel) (by decide +kernel), by simp only [fatalLine]; omega⟩) .nil
  | e :: es, fails, t, h => by
    have ih := fun fails t => closeFds_short os en p f es fails t fun x hx => h x (List.mem_cons_of_mem _ hx)
    rw [closeFdsLog]
    split
    · exact .one ⟨short1 _ _ _ (by decide +kernel) (by decide +kernel), by simp only [fatalLine]; omega⟩
    · split
      · exact ih _ _
      · rename_i hl
        have := h e List.mem_cons_self (by simpa using hl)
        cases hp : parseI32 e.name with
        | none => exact absurd hp this
        | some fd =>
          simp only []
          split
          · exact ih _ _
          · generalize sysClose os t fd = r
            obtain ⟨r, t'⟩ := r
            cases r with
            | false =>
              exact .one ⟨short2 _ _ _ _ _ (by decide +kernel) (by decide +kernel) (by decide +kernel), by simp only [fatalLine]; omega⟩
            | true => exact ih _ _

theorem cleanup_short (os : EntryOs) (en : Nat → BitVec 32) (p : EntryParams) (t : FdTable)
    (ht : ∀ n ∈ t.fds, n < 2 ^ 31) (hl : t.length < 2 ^ 31) : Each Short (cleanupLog os en p t) := by
  rw [cleanupLog]
  split
  · exact .one ⟨short1 _ _ _ (by decide +kernel) (by decide +kernel), by simp only [fatalLine]; omega⟩
  · simp only []
    split
    · exact .one ⟨short1 _ _ _ (by decide +kernel) (by decide +kernel), by simp only [fatalLine]; omega⟩
    · refine closeFds_short _ _ _ _ _ _ _ fun e he hlink => ?_
      simp only [procSelfFd, List.mem_cons, List.mem_map] at he
      rcases he with rfl | rfl | ⟨x, hx, rfl⟩
      · cases hlink
      · cases hlink
      · simp only [parseI32_dec]
        have : x.1 < 2 ^ 31 := by
          simp only [FdTable.alloc, List.mem_cons] at hx
          rcases hx with rfl | hx
          · have := FdTable.lowestFree_le t
            simp only; omega
          · exact ht _ (List.mem_map_of_mem hx)
        rw [if_pos this]; simp

theorem setup_short (os : EntryOs) (en : Nat → BitVec 32) (num : Nat) (r : Option Nat) (t : FdTable) (hn : num < 3) :
    Each Short (setupLog os en num r t) := by
  have hd : ∀ (a : Str) (n : BitVec 32), (utf8 a).length ≤ 60 →
      (utf8 (a ++ displayI32 n ++ c!", expected " ++ dec num ++ c!"\n")).length ≤ 120 := by
    intro a n ha
    have h1 := display_bytes n
    have h2 : (utf8 (dec num)).length ≤ 10 := by
      rw [(utf8_plain _ (dec_plain num)).1]; exact dec_length num (by omega)
    have h3 : (utf8 c!", expected ").length = 11 := by decide +kernel
    have h4 : (utf8 c!"\n").length = 1 := by decide +kernel
    rw [utf8_append, utf8_append, utf8_append, utf8_append]
    simp only [List.length_append]; omega
  rw [setupLog.eq_def]
  cases r with
  | some fd =>
    simp only []
    cases (t.erase num).get fd with
    | none => exact .one ⟨short1 _ _ _ (by decide +kernel) (by decide +kernel), by simp only [fatalLine]; omega⟩
    | some e =>
      simp only []
      split
      · exact .one ⟨short1 _ _ _ (by decide +kernel) (by decide +kernel), by simp only [fatalLine]; omega⟩
      · split
        · exact .one ⟨hd _ _ (by decide +kernel), by simp only [fatalLine]; omega⟩
        · exact .nil
  | none =>
    simp only []
    cases os.openNull num with
    | error _ => exact .one ⟨short1 _ _ _ (by decide +kernel) (by decide +kernel), by simp only [fatalLine]; omega⟩
    | ok file =>
      simp only []
      split
      · exact .one ⟨hd _ _ (by decide +kernel), by simp only [fatalLine]; omega⟩
      · exact .nil

theorem prepare_table {os : EntryOs} {p : EntryParams} {t : FdTable} {caps : Caps} {s : EntryState}
    (h : prepare os p t caps = some s) : os.noNewPrivs = true ∧ s.table = t := by
  rw [prepare] at h
  split at h
  · cases h
  · rename_i hn
    cases h
    refine ⟨by simpa using hn, ?_⟩
    simp only [writeFile_same, ite_self]

theorem entryLog_short (os : EntryOs) (en enCap : Nat → BitVec 32) (p : EntryParams) (t : FdTable) (caps : Caps)
    (ht : ∀ n ∈ t.fds, n < 2 ^ 31) (hl : t.length < 2 ^ 31) : Each Short (entryLog os en enCap p t caps) := by
  rw [entryLog]
  split
  · exact .one ⟨short1 _ _ _ (by decide +kernel) (by decide +kernel), by simp only [fatalLine]; omega⟩
  · rename_i s hs
    refine .app (prepareLog_short _ _ _ _ _ _) ?_
    rw [streamsLog, (prepare_table hs).2]
    refine .app (cleanup_short _ _ _ _ ht hl) ?_
    split
    · exact .nil
    · refine .app (setup_short _ _ _ _ _ (by decide)) ?_
      split
      · exact .nil
      · refine .app (setup_short _ _ _ _ _ (by decide)) ?_
        split
        · exact .nil
        · exact setup_short _ _ _ _ _ (by decide)

/-! ## Where it is said -/

theorem get2_alloc {t : FdTable} {e : FdEntry} (h : t.get 2 = some e) (x : FdEntry) : (t.alloc x).2.get 2 = some e := by
  rw [FdTable.get_alloc, if_neg, h]
  intro hc
  have := (FdTable.lowestFree_spec t).1
  rw [← hc, h] at this
  cases this

/-- A line said to file `f`. -/
def SaidTo (f : Nat) (l : EntryLine) : Prop := l.sink = some f

theorem said_warn {t : FdTable} {e : FdEntry} (h : t.get 2 = some e) (n : Nat) (m : Str) : SaidTo e.file (warnLine t n m) := by
  simp [SaidTo, warnLine, h]

theorem said_fatal {t : FdTable} {e : FdEntry} (h : t.get 2 = some e) (n : Nat) (m : Str) : SaidTo e.file (fatalLine t n m) := by
  simp [SaidTo, fatalLine, h]

theorem procLog_said (os : WriteOs) (en : Nat → BitVec 32) {t : FdTable} {e : FdEntry} (h : t.get 2 = some e) (a b : Nat)
    (n w : Str) : Each (SaidTo e.file) (procLog os en t a b n w) := by
  rw [procLog]
  split
  · exact .one (said_warn h _ _)
  · exact .warn (said_warn (get2_alloc h _) _ _)

theorem prepareLog_said (os : EntryOs) (en enCap : Nat → BitVec 32) (p : EntryParams) {t : FdTable} {e : FdEntry}
    (h : t.get 2 = some e) (caps : Caps) : Each (SaidTo e.file) (prepareLog os en enCap p t caps) := by
  rw [prepareLog]
  simp only [writeFile_same, ite_self]
  refine .app (.app (.app (.app ?_ ?_) ?_) ?_) ?_
  · exact procLog_said _ _ h _ _ _ _
  · exact .ite (procLog_said _ _ h _ _ _ _) .nil
  · exact .ite (procLog_said _ _ h _ _ _ _) .nil
  · rw [isolateLog]
    refine .app (.app (.app (.app (.warn ?_) (.warn ?_)) (.ite (.one ?_) (.warn ?_))) (.warn ?_)) (.ite (.one ?_) (.warn ?_)) <;>
      exact said_warn h _ _
  · rw [capsLog, boundingLog]
    refine .ite (.one ?_) (.app (.ite (.one ?_) (.ite .nil (.ite (.one ?_) (.ite (.one ?_) .nil)))) (.ite (.one ?_) (.warn ?_))) <;>
      exact said_warn h _ _

theorem keeps_two (p : EntryParams) (f : Nat) (fd : Int) (ha : p.allowed ≠ []) (h : fd ≤ 2) : keeps p f fd = true := by
  rw [keeps, List.any_eq_true]
  obtain ⟨a, ha⟩ := List.exists_mem_of_ne_nil _ ha
  exact ⟨a, ha, by simp [h]⟩

theorem closeFds_said (os : EntryOs) (en : Nat → BitVec 32) (p : EntryParams) (f : Nat) (ha : p.allowed ≠ []) {e : FdEntry} :
    ∀ (l : List DirEntry) (fails : Option Nat) (t : FdTable), t.get 2 = some e →
      Each (SaidTo e.file) (closeFdsLog os en p f fails l t) ∧
      ∀ t', closeFds os p f fails l t = some t' → t'.get 2 = some e
  | [], fails, t, h => by
    rw [closeFdsLog, closeFds]
    split
    · exact ⟨.one (said_fatal h _ _), fun t' h' => by cases h'⟩
    · exact ⟨.nil, fun t' h' => by cases h'; exact h⟩
  | d :: ds, fails, t, h => by
    have ih := closeFds_said os en p f ha (e := e) ds
    rw [closeFdsLog, closeFds]
    split
    · exact ⟨.one (said_fatal h _ _), fun t' h' => by cases h'⟩
    · split
      · exact ih _ _ h
      · cases parseI32 d.name with
        | none => exact ⟨.one (said_fatal h _ _), fun t' h' => by cases h'⟩
        | some fd =>
          simp only []
          split
          · exact ih _ _ h
          · rename_i hk
            have h2 : (sysClose os t fd).2.get 2 = some e := by
              rw [sysClose]
              split
              · split
                · simp only [FdTable.get_erase]
                  rw [if_neg, h]
                  intro hc
                  exact hk (keeps_two p f fd ha (by omega))
                · exact h
              · exact h
            generalize sysClose os t fd = r at h2
            obtain ⟨r, t1⟩ := r
            cases r with
            | false => exact ⟨.one (said_fatal h2 _ _), fun t' h' => by cases h'⟩
            | true => exact ih _ _ h2

theorem cleanup_said (os : EntryOs) (en : Nat → BitVec 32) (p : EntryParams) (ha : p.allowed ≠ []) {t : FdTable} {e : FdEntry}
    (h : t.get 2 = some e) : Each (SaidTo e.file) (cleanupLog os en p t) ∧
      ∀ t', cleanupFds os p t = some t' → t'.get 2 = some e := by
  rw [cleanupLog, cleanupFds]
  cases os.openFds with
  | error _ => exact ⟨.one (said_fatal h _ _), fun t' h' => by cases h'⟩
  | ok file =>
    simp only []
    split
    · exact ⟨.one (said_fatal (get2_alloc h _) _ _), fun t' h' => by cases h'⟩
    · obtain ⟨h1, h2⟩ := closeFds_said os en p (t.alloc ⟨file, FD_CLOEXEC⟩).1 ha
        (procSelfFd (t.alloc ⟨file, FD_CLOEXEC⟩).2) os.readdirFails _ (get2_alloc h ⟨file, FD_CLOEXEC⟩)
      refine ⟨h1, fun t' h' => ?_⟩
      obtain ⟨t1, h3, rfl⟩ := Option.map_eq_some_iff.1 h'
      rw [FdTable.get_erase, if_neg, h2 _ h3]
      intro hc
      have := (FdTable.lowestFree_spec t).1
      have hc' : 2 = t.lowestFree := hc
      rw [← hc', h] at this
      cases this

theorem setup_said (os : EntryOs) (en : Nat → BitVec 32) (num : Nat) (r : Option Nat) (s : EntryState) {e : FdEntry}
    (h : s.table.get 2 = some e) (hn : num < 2) : Each (SaidTo e.file) (setupLog os en num r s.table) ∧
      ∀ s', setupStd os num r s = some s' → s'.table.get 2 = some e := by
  have h' : (s.table.erase num).get 2 = some e := by rw [FdTable.get_erase, if_neg (by omega), h]
  rw [setupLog.eq_def, setupStd.eq_def]
  cases r with
  | some fd =>
    simp only []
    cases (s.table.erase num).get fd with
    | none => exact ⟨.one (said_fatal h' _ _), fun _ h => by cases h⟩
    | some e =>
      simp only []
      split
      · exact ⟨.one (said_fatal h' _ _), fun _ h => by cases h⟩
      · split
        · exact ⟨.one (said_fatal (get2_alloc h' _) _ _), fun _ h => by cases h⟩
        · exact ⟨.nil, fun _ h => by cases h; exact get2_alloc h' _⟩
  | none =>
    simp only []
    cases os.openNull num with
    | error _ => exact ⟨.one (said_fatal h' _ _), fun _ h => by cases h⟩
    | ok file =>
      simp only []
      split
      · exact ⟨.one (said_fatal (get2_alloc h' _) _ _), fun _ h => by cases h⟩
      · exact ⟨.nil, fun _ h => by cases h; exact get2_alloc h' _⟩

/-- What is said about the standard error is lost: it was closed. -/
theorem setup_lost (os : EntryOs) (en : Nat → BitVec 32) (r : Option Nat) (t : FdTable) :
    Each (fun l => l.sink = none ∧ AboutStream l) (setupLog os en 2 r t) := by
  have h' : (t.erase 2).get 2 = none := by rw [FdTable.get_erase, if_pos rfl]
  have ha : ∀ x : FdEntry, ((t.erase 2).alloc x).1 ≠ 2 → ((t.erase 2).alloc x).2.get 2 = none := by
    intro x hx
    rw [FdTable.get_alloc, if_neg (fun hc => hx hc.symm), h']
  have key : ∀ (t : FdTable) (n : Nat) (m : Str), t.get 2 = none → (∃ r, m = c!"dup() " ++ r ∨ m = c!"open(/dev/null) " ++ r) →
      (fatalLine t n m).sink = none ∧ AboutStream (fatalLine t n m) :=
    fun t n m ht hm => ⟨by simp [fatalLine, ht], hm⟩
  rw [setupLog.eq_def]
  cases r with
  | some fd =>
    simp only []
    cases (t.erase 2).get fd with
    | none => exact .one (key _ _ _ h' ⟨_, .inl (by rw [List.append_assoc]; rfl)⟩)
    | some e =>
      simp only []
      split
      · exact .one (key _ _ _ h' ⟨_, .inl (by rw [List.append_assoc]; rfl)⟩)
      · split
        · rename_i hr
          exact .one (key _ _ _ (ha _ hr) ⟨_, .inl (by rw [List.append_assoc, List.append_assoc, List.append_assoc]; rfl)⟩)
        · exact .nil
  | none =>
    simp only []
    cases os.openNull 2 with
    | error _ => exact .one (key _ _ _ h' ⟨_, .inr (by rw [List.append_assoc]; rfl)⟩)
    | ok file =>
      simp only []
      split
      · rename_i hr
        exact .one (key _ _ _ (ha _ hr) ⟨_, .inr (by rw [List.append_assoc, List.append_assoc, List.append_assoc]; rfl)⟩)
      · exact .nil

theorem entryLog_said (os : EntryOs) (en enCap : Nat → BitVec 32) (p : EntryParams) (ha : p.allowed ≠ []) {t : FdTable}
    {e : FdEntry} (h : t.get 2 = some e) (caps : Caps) :
    Each (fun l => l.sink = some e.file ∨ l.sink = none ∧ AboutStream l) (entryLog os en enCap p t caps) := by
  have mono : ∀ l, Each (SaidTo e.file) l → Each (fun l => l.sink = some e.file ∨ l.sink = none ∧ AboutStream l) l :=
    fun l hl x hx => .inl (hl x hx)
  rw [entryLog]
  split
  · exact .one (.inl (said_fatal h _ _))
  · rename_i s hs
    refine .app (mono _ (prepareLog_said _ _ _ _ h _)) ?_
    rw [streamsLog]
    have h1 := cleanup_said os en p ha (t := s.table) (e := e) (by rw [(prepare_table hs).2]; exact h)
    refine .app (mono _ h1.1) ?_
    split
    · exact .nil
    · rename_i t1 ht1
      have h2 := setup_said os en 0 p.stdin { s with table := t1 } (h1.2 _ ht1) (by decide)
      refine .app (mono _ h2.1) ?_
      split
      · exact .nil
      · rename_i s1 hs1
        have h3 := setup_said os en 1 p.stdout s1 (h2.2 _ hs1) (by decide)
        refine .app (mono _ h3.1) ?_
        split
        · exact .nil
        · exact fun x hx => .inr (setup_lost os en _ _ x hx)

/-! ## What is said -/

theorem prepareLog_warns (os : EntryOs) (en enCap : Nat → BitVec 32) (p : EntryParams) (t : FdTable)
    (caps : Caps) : Each (fun l => l.fatal = false) (prepareLog os en enCap p t caps) := by
  have hp : ∀ os t a b n w, Each (fun l => l.fatal = false) (procLog os en t a b n w) := by
    intro os t a b n w
    rw [procLog]
    split
    · exact .one rfl
    · exact .warn rfl
  rw [prepareLog]
  refine .app (.app (.app (.app (hp _ _ _ _ _ _) (.ite (hp _ _ _ _ _ _) .nil)) (.ite (hp _ _ _ _ _ _) .nil)) ?_) ?_
  · rw [isolateLog]
    refine .app (.app (.app (.app (.warn ?_) (.warn ?_)) (.ite (.one ?_) (.warn ?_))) (.warn ?_)) (.ite (.one ?_) (.warn ?_)) <;>
      rfl
  · rw [capsLog, boundingLog]
    refine .ite (.one ?_) (.app (.ite (.one ?_) (.ite .nil (.ite (.one ?_) (.ite (.one ?_) .nil)))) (.ite (.one ?_) (.warn ?_))) <;>
      rfl

/-- The messages of the steps which were refused. -/
def saidOf (l : List (Bool × Nat × Str)) : List (Nat × Str) := (l.filter Prod.fst).map Prod.snd

theorem saidOf_append (a b : List (Bool × Nat × Str)) : saidOf (a ++ b) = saidOf a ++ saidOf b := by
  simp [saidOf, List.filter_append]

theorem warnIf_msg (b : Bool) (t : FdTable) (n : Nat) (m : Str) : (warnIf b t n m).map EntryLine.said = saidOf [(b, n, m)] := by
  cases b <;> rfl

theorem procLog_msg (os : WriteOs) (en : Nat → BitVec 32) (t : FdTable) (a b : Nat) (n w : Str) :
    (procLog os en t a b n w).map EntryLine.said =
      saidOf [(!opened os, a, c!"open(" ++ n ++ c!") failed with errno " ++ displayI32 (en a) ++ c!"\n"),
        (opened os && !os.written, b, c!"write(" ++ w ++ c!") failed with errno " ++ displayI32 (en b) ++ c!"\n")] := by
  rw [procLog, opened]
  cases os.open with
  | error _ => rfl
  | ok file => simp only [warnIf_msg]; cases os.written <;> rfl

theorem saidOf_none (l : List (Bool × Nat × Str)) (h : ∀ x ∈ l, x.1 = false) : saidOf l = [] := by
  rw [saidOf, List.filter_eq_nil_iff.2 (fun x hx => by simp [h x hx])]; rfl

end Iris
