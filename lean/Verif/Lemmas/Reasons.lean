import Verif.Spec.Reasons
import Verif.Lemmas.LinuxPolicy
import Verif.Lemmas.WinPolicy
/-! Helper lemmas about the reasons of decisions (C117, C118). -/
namespace Iris
open Spec

theorem hexDigit_spec : ∀ d : Fin 16, (Nat.digitChar d).toUpper ∈ c!"0123456789ABCDEF" ∧
    c!"0123456789ABCDEF".idxOf (Nat.digitChar d).toUpper = d := by decide

theorem hexUpper_spec (n : Nat) : hexUpper n ≠ [] ∧ (∀ c ∈ hexUpper n, c ∈ c!"0123456789ABCDEF") ∧
    (hexUpper n).foldl (fun a c => 16 * a + c!"0123456789ABCDEF".idxOf c) 0 = n := by
  induction n using Nat.strongRecOn with
  | ind n ih =>
    by_cases hn : n < 16
    · have := hexDigit_spec ⟨n, hn⟩
      rw [hexUpper, Nat.toDigits_of_lt_base hn]
      refine ⟨by simp, ?_, ?_⟩
      · intro c hc
        simp only [List.map_cons, List.map_nil, List.mem_singleton] at hc
        rw [hc]; exact this.1
      · simp only [List.map_cons, List.map_nil, List.foldl_cons, List.foldl_nil]
        rw [this.2]; simp
    · obtain ⟨h1, h2, h3⟩ := ih (n / 16) (by omega)
      have hlt : n % 16 < 16 := Nat.mod_lt _ (by omega)
      have := hexDigit_spec ⟨n % 16, hlt⟩
      have he : hexUpper n = hexUpper (n / 16) ++ [(Nat.digitChar (n % 16)).toUpper] := by
        rw [hexUpper, Nat.toDigits_of_base_le (by omega) (by omega)]; simp [hexUpper]
      rw [he]
      refine ⟨by simp, ?_, ?_⟩
      · intro c hc
        rcases List.mem_append.1 hc with hc | hc
        · exact h2 c hc
        · rw [List.mem_singleton] at hc; rw [hc]; exact this.1
      · rw [List.foldl_append, h3]
        simp only [List.foldl_cons, List.foldl_nil]
        rw [this.2]
        exact Nat.div_add_mod n 16

theorem hexAlt_hex (n : Nat) : Hex (hexAlt n) n := ⟨hexUpper n, rfl, hexUpper_spec n⟩

theorem showsExtra {w s : BitVec 32} {ok : Nat → Prop} (hs : ∀ i, i < 32 → (s.getLsbD i = true ↔ ok i))
    (h : w &&& ~~~s ≠ 0#32) : ShowsExtra w ok (hexAlt (w &&& ~~~s).toNat) := by
  refine ⟨_, h, fun i hi => ?_, hexAlt_hex _⟩
  rw [← hs i hi]
  simp [hi]

theorem askedWords (both : Str) {rr rw : Bool} {r w : Prop} (h1 : rr = true ↔ r) (h2 : rw = true ↔ w) :
    AskedWords both r w (if rr && rw then both else if rr then c!"read-only" else if rw then c!"write-only"
      else c!"read or write") := by
  simp only [AskedWords, ← h1, ← h2]
  cases rr <;> cases rw <;> simp

theorem heldWords {cr cw : Bool} {r w : Prop} (h1 : cr = true ↔ r) (h2 : cw = true ↔ w)
    (hn : ¬ (cr = true ∧ cw = true)) :
    HeldWords r w (if cr then c!"can only read" else if cw then c!"can only write"
      else c!"has no access to that path") := by
  simp only [HeldWords, ← h1, ← h2]
  cases cr <;> cases cw <;> simp_all

theorem supportedBit [T : Target] (i : Nat) (hi : i < 32) : SUPPORTED_FILE_OPEN_FLAGS.getLsbD i = true ↔
    (i ∈ [0, 1, 6, 7, 9, 10, 16, 19, 21] ∨ T.oLargefile.getLsbD i = true) := by
  have key : ∀ i, i < 32 → ((O_RDONLY ||| O_WRONLY ||| O_RDWR ||| O_TRUNC ||| O_CREAT ||| O_EXCL
      ||| O_DIRECTORY ||| O_APPEND ||| O_PATH ||| O_CLOEXEC).getLsbD i = true ↔
      i ∈ [0, 1, 6, 7, 9, 10, 16, 19, 21]) := by decide
  rw [← key i hi]
  simp only [SUPPORTED_FILE_OPEN_FLAGS]
  rw [BitVec.getLsbD_or, Bool.or_eq_true]

theorem checkFileOpen_reason [Target] {p : Policy} (hf : p.files = []) (hd : p.dirs = []) (h : List Call) (path : Str)
    (flags : BitVec 32) : LinuxReasonTrue h path flags ((p.calls h).checkFileOpen path flags) := by
  simp only [Policy.checkFileOpen]
  by_cases hs : flags &&& ~~~SUPPORTED_FILE_OPEN_FLAGS = 0#32
  case neg =>
    rw [if_pos hs]
    exact ⟨_, rfl, showsExtra supportedBit hs⟩
  rw [if_neg (by simpa using hs)]
  have hsup := (supported_iff flags).1 hs
  by_cases hp : pathIsSane path = true
  case neg =>
    rw [if_pos (by simp [hp])]
    exact ⟨hsup, fun hc => hp ((pathIsSane_iff path).2 hc), rfl, rfl⟩
  rw [if_neg (by simp [hp])]
  obtain ⟨cs, hcs⟩ := (pathIsSane_iff path).1 hp
  split
  case isFalse => trivial
  rename_i hden
  refine ⟨hsup, cs, hcs, _, _, rfl, askedWords _ (requestsRead_iff flags) (requestsWrite_iff flags),
    heldWords (readAllowed_iff hf hd h hcs) (writeAllowed_iff hf hd h hcs) ?_⟩
  rintro ⟨h1, h2⟩
  rw [h1, h2] at hden
  simp at hden

theorem locksOf (r w d : Bool) : ∃ l, Locks l (fun k => rightProj k ⟨false, false, r, w, d⟩ = true) ∧
    l.flatMap others = (if r then c!" readers" else []) ++ (if w then c!" writers" else []) ++
      (if d then c!" deleters" else []) ∧ (l = [] ↔ (r || w || d) = false) := by
  refine ⟨(if r then [.blockReaders] else []) ++ (if w then [.blockWriters] else []) ++
    (if d then [.blockDeleters] else []), ⟨?_, ?_⟩, ?_, ?_⟩
  · cases r <;> cases w <;> cases d <;> decide
  · cases r <;> cases w <;> cases d <;> simp [rightProj]
  · cases r <;> cases w <;> cases d <;> decide
  · cases r <;> cases w <;> cases d <;> decide

theorem Spec.Locks.congr {l : List Right} {p q : Right → Prop} (h : Locks l p)
    (he : ∀ k ∈ [Right.blockReaders, .blockWriters, .blockDeleters], p k ↔ q k) : Locks l q :=
  ⟨h.1, fun k hk => (h.2 k hk).trans (he k hk)⟩

theorem winCheckFileOpen_reason (debug : Bool) (p : Policy) (path : Str)
    (access attributes share disposition options : BitVec 32) (ea : Bytes) (given : Right → Prop)
    (hg : ∀ r, rightProj r (p.allowedAccess '\\' path) = true ↔ given r) :
    WinFileReasonTrue given path access attributes share disposition options ea
      (p.winCheckFileOpen debug path access attributes share disposition options ea) := by
  simp only [Policy.winCheckFileOpen]
  split
  · trivial
  by_cases h1 : access &&& ~~~(FILE_ALWAYS_GRANTED_RIGHTS ||| FILE_READ_RIGHTS ||| FILE_WRITE_RIGHTS) = 0#32
  case neg =>
    rw [if_pos h1]
    exact .inl ⟨_, rfl, showsExtra (by decide) h1⟩
  rw [if_neg (fun h => h h1)]
  by_cases h2 : attributes &&& ~~~SUPPORTED_FILE_ATTRIBUTES = 0#32
  case neg =>
    rw [if_pos h2]
    exact .inr (.inl ⟨_, rfl, showsExtra (by decide) h2⟩)
  rw [if_neg (fun h => h h2)]
  by_cases h3 : options &&& FILE_FLAG_OPEN_REPARSE_POINT = 0#32
  · rw [if_pos h3]
    exact .inr (.inr (.inl ⟨rfl, fun hc => hc h3⟩))
  rw [if_neg h3]
  by_cases h4 : SUPPORTED_FILE_CREATE_DISPOSITIONS.contains disposition = true
  case neg =>
    rw [if_pos (by simpa using h4)]
    refine .inr (.inr (.inr ⟨_, rfl, hexAlt_hex _, ?_⟩))
    rw [disposition_iff] at h4
    omega
  rw [if_neg (by simp only [h4]; decide)]
  by_cases h5 : winPathIsSane path = true
  case neg =>
    rw [if_pos (by simpa using h5)]
    exact ⟨fun hc => h5 ((winPathIsSane_iff path).2 hc), rfl, rfl⟩
  rw [if_neg (by simp [h5])]
  have hsup : SupportedFileRequest access attributes disposition options :=
    ⟨(fileAccess_iff _).1 h1, (attributes_iff _).1 h2, h3, (disposition_iff _).1 h4⟩
  have hroot := (winPathIsSane_iff path).1 h5
  have hr : (access &&& FILE_READ_RIGHTS != 0#32 &&
      !([FILE_SUPERSEDE, FILE_CREATE, FILE_OVERWRITE, FILE_OVERWRITE_IF].contains disposition)) = true ↔
      Asks access share disposition options ea .read := by
    rw [Bool.and_eq_true, bne_iff_ne, fileRead_iff, Bool.not_eq_true', replaced_iff _ ((disposition_iff _).1 h4)]
    rfl
  have hw : (access &&& FILE_WRITE_RIGHTS != 0#32 || disposition != FILE_OPEN
      || options &&& FILE_DELETE_ON_CLOSE != 0#32 || !ea.isEmpty) = true ↔
      Asks access share disposition options ea .write := by
    simp only [Bool.or_eq_true, bne_iff_ne, fileWrite_iff, Asks, Has, or_assoc]
    simp only [FILE_OPEN, FILE_DELETE_ON_CLOSE]
    cases ea <;> simp
  have hbr : (share &&& FILE_SHARE_READ == 0#32) = true ↔ Asks access share disposition options ea .blockReaders := by
    simp only [beq_iff_eq, Asks, Has, ne_eq, Classical.not_not]; rfl
  have hbw : (share &&& FILE_SHARE_WRITE == 0#32) = true ↔ Asks access share disposition options ea .blockWriters := by
    simp only [beq_iff_eq, Asks, Has, ne_eq, Classical.not_not]; rfl
  have hbd : (share &&& FILE_SHARE_DELETE == 0#32) = true ↔ Asks access share disposition options ea .blockDeleters := by
    simp only [beq_iff_eq, Asks, Has, ne_eq, Classical.not_not]; rfl
  revert hr hw hbr hbw hbd
  generalize (access &&& FILE_READ_RIGHTS != 0#32 &&
      !([FILE_SUPERSEDE, FILE_CREATE, FILE_OVERWRITE, FILE_OVERWRITE_IF].contains disposition)) = rr
  generalize (access &&& FILE_WRITE_RIGHTS != 0#32 || disposition != FILE_OPEN
      || options &&& FILE_DELETE_ON_CLOSE != 0#32 || !ea.isEmpty) = rw
  generalize (share &&& FILE_SHARE_READ == 0#32) = br
  generalize (share &&& FILE_SHARE_WRITE == 0#32) = bw
  generalize (share &&& FILE_SHARE_DELETE == 0#32) = bd
  intro hr hw hbr hbw hbd
  have hacc : p.allowedAccess winSep path = p.allowedAccess '\\' path := rfl
  rw [hacc]
  revert hg
  generalize p.allowedAccess '\\' path = a
  intro hg
  have gr : a.read = true ↔ given .read := hg .read
  have gw : a.write = true ↔ given .write := hg .write
  split
  · rename_i hno
    refine ⟨hsup, hroot, .inl ⟨rfl, fun right hc => ?_⟩⟩
    have := (hg right).2 hc
    cases right <;> simp [rightProj] at this <;> simp [this] at hno
  split
  · rename_i _ hno
    refine ⟨hsup, hroot, .inr (.inl ⟨_, _, rfl, askedWords _ hr hw, heldWords gr gw ?_⟩)⟩
    rintro ⟨x, y⟩
    rw [x, y] at hno
    simp at hno
  split
  · rename_i _ hrw hno
    refine ⟨hsup, hroot, .inr (.inr ?_)⟩
    obtain ⟨asked, ha, wa, _⟩ := locksOf br bw bd
    obtain ⟨held, hh, wh, eh⟩ := locksOf a.blockR a.blockW a.blockD
    have ha' : Locks asked (Asks access share disposition options ea) := ha.congr (by
      intro k hk
      simp only [List.mem_cons, List.not_mem_nil, or_false] at hk
      rcases hk with rfl | rfl | rfl
      · exact hbr
      · exact hbw
      · exact hbd)
    have hh' : Locks held given := hh.congr (by
      intro k hk
      simp only [List.mem_cons, List.not_mem_nil, or_false] at hk
      rcases hk with rfl | rfl | rfl
      · exact hg .blockReaders
      · exact hg .blockWriters
      · exact hg .blockDeleters)
    refine ⟨asked, held, ha', hh', ?_, fun hc => ?_, fun hc => ?_, ?_⟩
    · simp only [Bool.or_eq_true, Bool.and_eq_true, Bool.not_eq_true'] at hno
      rcases hno with (⟨x, y⟩ | ⟨x, y⟩) | ⟨x, y⟩
      · refine ⟨.blockReaders, (ha.2 _ (by simp)).2 x, fun hc => ?_⟩
        have := (hh.2 _ (by simp)).1 hc
        simp [rightProj, y] at this
      · refine ⟨.blockWriters, (ha.2 _ (by simp)).2 x, fun hc => ?_⟩
        have := (hh.2 _ (by simp)).1 hc
        simp [rightProj, y] at this
      · refine ⟨.blockDeleters, (ha.2 _ (by simp)).2 x, fun hc => ?_⟩
        have := (hh.2 _ (by simp)).1 hc
        simp [rightProj, y] at this
    · rw [← gr]; rw [← hr] at hc
      rw [hc] at hrw
      cases hx : a.read <;> simp [hx] at hrw ⊢
    · rw [← gw]; rw [← hw] at hc
      rw [hc] at hrw
      cases hx : a.write <;> simp [hx] at hrw ⊢
    · rw [wa, lockWhy]
      by_cases he : held = []
      · have hx := eh.1 he
        simp [he, hx]
      · have hx : (a.blockR || a.blockW || a.blockD) = true := by
          cases hx : (a.blockR || a.blockW || a.blockD) with
          | true => rfl
          | false => exact absurd (eh.2 hx) he
        rw [if_neg he, wh]
        simp only [hx, if_true, List.append_assoc]
  · trivial

theorem winCheckRegKeyOpen_reason (p : Policy) (path : Str) (access options : BitVec 32) (create : Bool)
    (read write : Prop) (hr : (p.regAllowedAccess path).1 = true ↔ read)
    (hw : (p.regAllowedAccess path).2 = true ↔ write) :
    KeyReasonTrue read write (AsksKeyRead access ∨ AsksKeyOther access)
      (AsksKeyWrite access create ∨ AsksKeyOther access) access options
      (p.winCheckRegKeyOpen path access options create) := by
  simp only [Policy.winCheckRegKeyOpen]
  by_cases h1 : access &&& ~~~(KEY_READ_RIGHTS ||| KEY_WRITE_RIGHTS ||| KEY_ALWAYS_GRANTED_RIGHTS) = 0#32
  case neg =>
    rw [if_pos h1]
    exact .inl ⟨_, rfl, showsExtra (by decide) h1⟩
  rw [if_neg (fun h => h h1)]
  by_cases h2 : options &&& ~~~(REG_OPTION_VOLATILE ||| REG_OPTION_NON_VOLATILE) = 0#32
  case neg =>
    rw [if_pos h2]
    exact .inr ⟨_, rfl, showsExtra (by decide) h2⟩
  rw [if_neg (fun h => h h2)]
  split
  case isFalse => trivial
  rename_i hno
  refine ⟨(keyAccess_iff _).1 h1, (keyOptions_iff _).1 h2, _, _, rfl, askedWords _ ?_ ?_, heldWords hr hw ?_⟩
  · rw [bne_iff_ne, keyRead_iff]
  · rw [Bool.or_eq_true, bne_iff_ne, keyWrite_iff]
  · rintro ⟨x, y⟩
    rw [x, y] at hno
    simp at hno

end Iris
