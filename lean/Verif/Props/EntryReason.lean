import Verif.Props.EntryLog
/-!
# C121: the reason why a worker gives up
-/
namespace Iris
open Spec

theorem display_fd {n : Nat} (h : n < 2 ^ 31) : displayI32 (BitVec.ofInt 32 (n : Int)) = dec n := by
  have e : (BitVec.ofInt 32 (n : Int)).toNat = n := by
    rw [BitVec.ofInt_natCast, BitVec.toNat_ofNat]; omega
  have hm : (BitVec.ofInt 32 (n : Int)).msb = false := by
    rw [BitVec.msb_eq_decide, e]; simp; omega
  simp only [displayI32, hm, e, Bool.false_eq_true, if_false]

/-- The loop on descriptors gives up for a true reason. -/
theorem closeFds_reason (os : EntryOs) (en : Nat → BitVec 32) (p : EntryParams) (f : Nat) (ha : p.allowed ≠ [])
    (t0 : FdTable) : ∀ (l : FdTable) (fails : Option Nat) (t : FdTable), l.fds.Nodup →
      (∀ n ∈ l.fds, n < 2 ^ 31 ∧ (t0.get n ≠ none ∨ n = f) ∧ t.get n ≠ none) → (fails ≠ none → os.readdirFails ≠ none) →
      Each (fun x => Reason os en p t0 x.said)
        (closeFdsLog os en p f fails (l.map fun x => ⟨dec x.1, true⟩) t)
  | [], fails, t, _, _, hf => by
    rw [List.map_nil, closeFdsLog]
    split
    · rename_i h
      exact .one (.readdir (hf (by intro hc; rw [hc] at h; cases h)))
    · exact .nil
  | (n, e) :: l, fails, t, hnd, hl, hf => by
    rw [FdTable.fds, List.map_cons, List.nodup_cons] at hnd
    obtain ⟨h1, h2, h3⟩ := hl n (by simp [FdTable.fds])
    have hl' : ∀ m ∈ FdTable.fds l, m < 2 ^ 31 ∧ (t0.get m ≠ none ∨ m = f) ∧ t.get m ≠ none :=
      fun m hm => hl m (by rw [FdTable.fds, List.map_cons]; exact List.mem_cons_of_mem _ hm)
    have hf' : fails.map (· - 1) ≠ none → os.readdirFails ≠ none := fun h => hf (by
      intro hc; rw [hc] at h; exact h rfl)
    rw [List.map_cons, closeFdsLog]
    split
    · rename_i h
      exact .one (.readdir (hf (by rw [h]; simp)))
    · simp only [Bool.true_eq_false, if_false, parseI32_dec, if_pos h1]
      split
      · exact closeFds_reason os en p f ha t0 l _ t hnd.2 hl' hf'
      · rename_i hk
        cases hg : t.get n with
        | none => exact absurd hg h3
        | some e' =>
          simp only [sysClose, Int.toNat_natCast, Int.natCast_nonneg, if_true, hg]
          cases hc : os.close n with
          | false =>
            simp only []
            rw [display_fd h1]
            have hne : n ≠ f := by
              intro hc
              apply hk
              obtain ⟨a, ha⟩ := List.exists_mem_of_ne_nil _ ha
              rw [keeps, List.any_eq_true]
              exact ⟨a, ha, by simp [hc]⟩
            have hk' : ¬ Kept p n := fun h => hk ((keeps_iff p f n hne).2 h)
            refine .one (.close (h2.resolve_right hne) ?_ hc)
            refine ⟨?_, fun h => hk' ⟨ha, .inr (.inl h)⟩, fun h => hk' ⟨ha, .inr (.inr h)⟩⟩
            rcases Nat.lt_or_ge 2 n with h | h
            · exact h
            · exact absurd ⟨ha, .inl h⟩ hk'
          | true =>
            simp only []
            refine closeFds_reason os en p f ha t0 l _ _ hnd.2 (fun m hm => ?_) hf'
            obtain ⟨g1, g2, g3⟩ := hl' m hm
            refine ⟨g1, g2, ?_⟩
            rw [FdTable.get_erase, if_neg]
            · exact g3
            · rintro rfl; exact hnd.1 hm

/-- The cleanup gives up for a true reason. -/
theorem cleanup_reason (os : EntryOs) (en : Nat → BitVec 32) (p : EntryParams) (ha : p.allowed ≠ []) (t : FdTable)
    (hw : t.WF) (ht : ∀ n ∈ t.fds, n < 2 ^ 31) (hl : t.length < 2 ^ 31) :
    Each (fun x => Reason os en p t x.said) (cleanupLog os en p t) := by
  rw [cleanupLog]
  cases ho : os.openFds with
  | error e => exact .one (.openFds ho)
  | ok file =>
    simp only []
    split
    · rename_i h; exact .one (.fdopendir h)
    · -- the first two names are no links
      have skip : ∀ (fails : Option Nat) (n : Str) (l : List DirEntry) (t' : FdTable) (f : Nat),
          (fails ≠ none → os.readdirFails ≠ none) →
          (Each (fun x => Reason os en p t x.said) (closeFdsLog os en p f (fails.map (· - 1)) l t')) →
          Each (fun x => Reason os en p t x.said) (closeFdsLog os en p f fails (⟨n, false⟩ :: l) t') := by
        intro fails n l t' f hf h
        rw [closeFdsLog]
        split
        · rename_i h; exact .one (.readdir (hf (by rw [h]; simp)))
        · simp only [if_true]; exact h
      have hm : ∀ fails : Option Nat, (fails ≠ none → os.readdirFails ≠ none) →
          (fails.map (· - 1) ≠ none → os.readdirFails ≠ none) := by
        intro fails hf h; exact hf (by intro hc; rw [hc] at h; exact h rfl)
      rw [procSelfFd]
      refine skip _ _ _ _ _ id (skip _ _ _ _ _ (hm _ id) ?_)
      refine closeFds_reason os en p _ ha t _ _ _ ?_ ?_ (hm _ (hm _ id))
      · exact FdTable.WF.alloc hw _
      · intro n hn
        have hn' : n = t.lowestFree ∨ n ∈ t.fds := by
          simpa [FdTable.alloc, FdTable.fds] using hn
        refine ⟨?_, hn'.symm.imp (fun h hc => FdTable.get_none_iff.1 hc h) id, ?_⟩
        · rcases hn' with h | h
          · have := FdTable.lowestFree_le t
            omega
          · exact ht n h
        · rw [FdTable.get_alloc]
          split
          · simp
          · rename_i h
            intro hc
            exact FdTable.get_none_iff.1 hc (hn'.resolve_left h)

/-- A stream whose number is the lowest one free gives up for a true reason. -/
theorem setup_reason (os : EntryOs) (en : Nat → BitVec 32) (p : EntryParams) (num : Nat) (r : Option Nat) (t0 t : FdTable)
    (hs : (num, r) ∈ [(0, p.stdin), (1, p.stdout), (2, p.stderr)]) (hb : ∀ m, m < num → t.get m ≠ none)
    (hg : ∀ n, t.get n = none → t0.get n = none ∨ Unwanted p n) :
    Each (fun x => Reason os en p t0 x.said) (setupLog os en num r t) := by
  have hfree : (t.erase num).lowestFree = num := by
    apply FdTable.lowestFree_eq
    · rw [FdTable.get_erase, if_pos rfl]
    · intro m hm
      rw [FdTable.get_erase, if_neg (by omega)]
      exact hb m hm
  rw [setupLog.eq_def]
  cases r with
  | some fd =>
    simp only []
    cases hx : (t.erase num).get fd with
    | none =>
      rw [FdTable.get_erase] at hx
      refine .one (.dup hs ?_)
      split at hx
      · rename_i h; exact .inr (.inl h)
      · exact .inr (.inr (hg fd hx))
    | some e =>
      simp only []
      split
      · rename_i h; exact .one (.dup hs (.inl h))
      · simp only [FdTable.alloc, hfree, ne_eq, not_true_eq_false, if_false]
        exact .nil
  | none =>
    simp only []
    cases ho : os.openNull num with
    | error e => exact .one (.null hs ho)
    | ok file =>
      simp only [FdTable.alloc, hfree, ne_eq, not_true_eq_false, if_false]
      exact .nil

/-- **C121**, the reason is true. What a worker says when it gives up is so: the step named was refused, at the line
named. -/
theorem C121_reason_true (os : EntryOs) (en enCap : Nat → BitVec 32) (p : EntryParams) (t : FdTable) (caps : Caps)
    (hw : t.WF) (ht : ∀ n ∈ t.fds, n < 2 ^ 31) (hl : t.length < 2 ^ 31) (ha : p.allowed ≠ []) :
    ∀ l ∈ entryLog os en enCap p t caps, l.fatal = true → Reason os en p t (l.line, l.msg) := by
  intro l hm hfatal
  rw [entryLog] at hm
  cases hp : prepare os p t caps with
  | none =>
    rw [hp] at hm
    simp only [List.mem_cons, List.not_mem_nil, or_false] at hm
    subst hm
    refine .prctl ?_
    rw [prepare] at hp
    split at hp
    · assumption
    · cases hp
  | some s =>
    rw [hp] at hm
    simp only [List.mem_append] at hm
    rcases hm with hm | hm
    · rw [prepareLog_warns os en enCap p t caps l hm] at hfatal; cases hfatal
    suffices h : Each (fun x => Reason os en p t x.said) (streamsLog os en p s) from h l hm
    rw [streamsLog, (prepare_table hp).2]
    refine .app (cleanup_reason os en p ha t hw ht hl) ?_
    cases hc : cleanupFds os p t with
    | none => exact .nil
    | some t1 =>
      have e1 := cleanupFds_eq hc
      have g1 : ∀ n, t1.get n = none → t.get n = none ∨ Unwanted p n := by
        intro n hn
        rw [e1, kept_get hw] at hn
        split at hn
        · exact .inl hn
        · rename_i hk
          refine .inr ⟨?_, fun h => hk ⟨ha, .inr (.inl h)⟩, fun h => hk ⟨ha, .inr (.inr h)⟩⟩
          rcases Nat.lt_or_ge 2 n with h | h
          · exact h
          · exact absurd ⟨ha, .inl h⟩ hk
      simp only []
      refine .app (setup_reason os en p 0 p.stdin t t1 (by simp) (by omega) g1) ?_
      cases hs1 : setupStd os 0 p.stdin { s with table := t1 } with
      | none => exact .nil
      | some s1 =>
        obtain ⟨f1, -, rfl⟩ := setupStd_some hs1
        simp only []
        have g2 : ∀ n, FdTable.get ((0, (⟨f1, 0#32⟩ : FdEntry)) :: t1.erase 0) n = none → t.get n = none ∨ Unwanted p n := by
          intro n hn
          rw [FdTable.get_cons, FdTable.get_erase] at hn
          split at hn
          · cases hn
          · exact g1 n hn
        refine .app (setup_reason os en p 1 p.stdout t _ (by simp) ?_ g2) ?_
        · intro m hm
          rw [FdTable.get_cons, if_pos (by omega)]; simp
        · cases hs2 : setupStd os 1 p.stdout _ with
          | none => exact .nil
          | some s2 =>
            obtain ⟨f2, -, rfl⟩ := setupStd_some hs2
            simp only []
            refine setup_reason os en p 2 p.stderr t _ (by simp) ?_ ?_
            · intro m hm
              rw [FdTable.get_cons]
              split
              · simp
              · rw [FdTable.get_erase, if_neg (by omega), FdTable.get_cons, if_pos (by omega)]; simp
            · intro n hn
              rw [FdTable.get_cons] at hn
              split at hn
              · cases hn
              · rename_i hne
                rw [FdTable.get_erase, if_neg hne] at hn
                exact g2 n hn

/-- C121: a worker which cannot close descriptor 9. -/
example : ∃ l ∈ entryLog { goodEntry with close := fun _ => false } (fun _ => 5#32) (fun _ => 0#32)
      ⟨[], [], [], [], [], [3], 4, none, none, none⟩
      [(0, ⟨10, 0#32⟩), (1, ⟨11, 0#32⟩), (2, ⟨12, 0#32⟩), (3, ⟨13, 0#32⟩), (4, ⟨14, 0#32⟩), (9, ⟨19, 0#32⟩)] fullCaps,
    l.fatal = true ∧ l.said = (218, c!"closing inherited file descriptor 9 failed with errno 5\n") := by decide +kernel

end Iris
