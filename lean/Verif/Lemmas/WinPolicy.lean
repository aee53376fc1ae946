import Verif.Spec.WinPolicy
import Verif.Lemmas.Utf16
import Verif.Lemmas.LinuxPolicy
/-! Lemmas about Windows decisions. -/
namespace Iris
open Spec

/-! ## The walk over ancestors, textually -/

theorem strip_eq_trim (s : Str) : (stripSuffix '\\' s).getD s = trim s := by
  simp only [stripSuffix, trim]
  split <;> simp

theorem rsplitOnce_exists {c : Char} {s : Str} (h : c ∈ s) :
    ∃ a b, rsplitOnce c s = some (a, b) ∧ s = a ++ c :: b ∧ c ∉ b := by
  induction s with
  | nil => cases h
  | cons x xs ih =>
    by_cases hx : c ∈ xs
    · obtain ⟨a, b, h1, h2, h3⟩ := ih hx
      exact ⟨x :: a, b, by simp [rsplitOnce, h1], by rw [h2]; rfl, h3⟩
    · have hxc : x = c := by
        rcases List.mem_cons.1 h with h | h
        · exact h.symm
        · exact absurd h hx
      exact ⟨[], xs, by simp [rsplitOnce, rsplitOnce_not_mem hx, hxc], by rw [hxc]; rfl, hx⟩

theorem stripOne_above {cur parent : Str} {sep : Char} (h : stripOneComponent cur sep = some parent) :
    parent ++ [sep] <+: cur := by
  simp only [stripOneComponent] at h
  split at h
  · rename_i rest x hr
    split at h
    · cases h
    · cases h
      have h1 := rsplitOnce_some hr
      split at h1
      · rename_i t ht
        rw [stripSuffix_some ht, h1]
        exact ⟨x ++ [sep], by simp⟩
      · rw [h1]; exact ⟨x, by simp⟩
  · cases h

/-- No doubled separator, and none at the end. -/
def Tidy (sep : Char) (s : Str) : Prop := ¬ [sep, sep] <:+: s ∧ s.getLast? ≠ some sep

theorem prefix_sep_cases {k a b : Str} {sep : Char} (h : k ++ [sep] <+: a ++ sep :: b) (hb : sep ∉ b) :
    k = a ∨ k ++ [sep] <+: a := by
  induction k generalizing a with
  | nil =>
    cases a with
    | nil => exact .inl rfl
    | cons x a =>
      right
      obtain ⟨t, ht⟩ := h
      simp only [List.nil_append, List.cons_append, List.cons.injEq] at ht
      exact ⟨a, by rw [ht.1]; rfl⟩
  | cons y k ih =>
    cases a with
    | nil =>
      obtain ⟨t, ht⟩ := h
      simp only [List.cons_append, List.nil_append, List.cons.injEq, List.append_assoc] at ht
      refine absurd ?_ hb
      rw [← ht.2]; simp
    | cons x a =>
      obtain ⟨t, ht⟩ := h
      simp only [List.cons_append, List.cons.injEq] at ht
      rcases ih ⟨t, ht.2⟩ with h | h
      · left; rw [h, ht.1]
      · right; rw [ht.1]; exact List.prefix_cons_inj x |>.2 h

theorem stripOne_tidy {cur k : Str} {sep : Char} (ht : Tidy sep cur) (hk : k ≠ []) (h : k ++ [sep] <+: cur) :
    ∃ parent, stripOneComponent cur sep = some parent ∧ (k = parent ∨ k ++ [sep] <+: parent) ∧ Tidy sep parent := by
  have hmem : sep ∈ cur := h.subset (by simp)
  obtain ⟨a, b, hr, hcur, hb⟩ := rsplitOnce_exists hmem
  have hcase : k = a ∨ k ++ [sep] <+: a := prefix_sep_cases (hcur ▸ h) hb
  have ha : a ≠ [] := by
    rintro rfl
    rcases hcase with h | h
    · exact hk h
    · have := List.prefix_nil.1 h; simp at this
  refine ⟨a, ?_, hcase, ?_, ?_⟩
  · simp only [stripOneComponent, stripSuffix_none ht.2, hr]
    rw [if_neg (by simpa using ha)]
  · intro hd
    exact ht.1 (hd.trans (by rw [hcur]; exact (List.prefix_append a (sep :: b)).isInfix))
  · intro hl
    obtain ⟨u, hu⟩ := List.getLast?_eq_some_iff.1 hl
    exact ht.1 ⟨u, b, by rw [hcur, hu]; simp⟩

theorem walk_only {f : Acc → Bool} (hf : ProjOk f) (sep : Char) (dirs : AMap Acc) (acc : Acc) (cur : Str)
    (h : f (walk sep dirs acc cur).1 = true) :
    f acc = true ∨ ∃ k, (k = cur ∨ k ++ [sep] <+: cur) ∧ TableHas f dirs k := by
  fun_induction walk sep dirs acc cur with
  | case1 => exact .inl h
  | case2 acc cur hall acc' parent hp r ih =>
    have hacc' : acc' = probe dirs acc cur := rfl
    rcases ih h with h | ⟨k, hk, ht⟩
    · rw [hacc', probe_iff hf] at h
      rcases h with h | h
      · exact .inl h
      · exact .inr ⟨cur, .inl rfl, h⟩
    · refine .inr ⟨k, .inr ?_, ht⟩
      rcases hk with rfl | hk
      · exact stripOne_above hp
      · exact (hk.trans (List.prefix_append parent [sep])).trans (stripOne_above hp)
  | case3 acc cur hall acc' hp =>
    have hacc' : acc' = probe dirs acc cur := rfl
    simp only [hacc', probe_iff hf] at h
    rcases h with h | h
    · exact .inl h
    · exact .inr ⟨cur, .inl rfl, h⟩

theorem walk_tidy {f : Acc → Bool} (hf : ProjOk f) (sep : Char) (dirs : AMap Acc) (acc : Acc) (cur : Str)
    (ht : Tidy sep cur)
    (h : f acc = true ∨ ∃ k, k ≠ [] ∧ (k = cur ∨ k ++ [sep] <+: cur) ∧ TableHas f dirs k) :
    f (walk sep dirs acc cur).1 = true := by
  fun_induction walk sep dirs acc cur with
  | case1 acc cur hall => exact hf.all _ hall
  | case2 acc cur hall acc' parent hp r ih =>
    have hacc' : acc' = probe dirs acc cur := rfl
    have hpt : Tidy sep parent := by
      obtain ⟨q, hq, _, hq'⟩ := stripOne_tidy ht (k := parent) (by
        rintro rfl
        simp only [stripOneComponent] at hp
        split at hp
        · split at hp
          · cases hp
          · rename_i hne; cases hp; simp at hne
        · cases hp) (stripOne_above hp)
      rw [hp] at hq; cases hq; exact hq'
    refine ih hpt ?_
    rw [hacc', probe_iff hf]
    rcases h with h | ⟨k, hne, rfl | hk, hm⟩
    · exact .inl (.inl h)
    · exact .inl (.inr hm)
    · obtain ⟨q, hq, hq1, _⟩ := stripOne_tidy ht hne hk
      rw [hp] at hq; cases hq
      exact .inr ⟨k, hne, hq1, hm⟩
  | case3 acc cur hall acc' hp =>
    have hacc' : acc' = probe dirs acc cur := rfl
    simp only [hacc', probe_iff hf]
    rcases h with h | ⟨k, hne, rfl | hk, hm⟩
    · exact .inl h
    · exact .inr hm
    · obtain ⟨q, hq, _⟩ := stripOne_tidy ht hne hk
      rw [hp] at hq; cases hq

theorem trim_tidy {s : Str} (h : ¬ HasEmptyName s) : Tidy '\\' (trim s) := by
  unfold trim
  split
  · rename_i hl
    obtain ⟨u, hu⟩ := List.getLast?_eq_some_iff.1 hl
    subst hu
    rw [List.dropLast_concat]
    refine ⟨fun hd => h (hd.trans (List.prefix_append u ['\\']).isInfix), fun hl => ?_⟩
    obtain ⟨v, hv⟩ := List.getLast?_eq_some_iff.1 hl
    exact h ⟨v, [], by rw [hv]; simp⟩
  · exact ⟨h, ‹_›⟩

theorem allowedAccess_only {f : Acc → Bool} (hf : ProjOk f) (p : Policy) (path : Str)
    (h : f (p.allowedAccess '\\' path) = true) :
    TableHas f p.files (trim path) ∨ ∃ k, AtOrAbove k (trim path) ∧ TableHas f p.dirs k := by
  simp only [Policy.allowedAccess, Policy.lookupTraced, strip_eq_trim] at h
  rcases walk_only hf _ _ _ _ h with h | h
  · left
    cases hg : AMap.get p.files (trim path) with
    | none => rw [hg] at h; simp [hf.none] at h
    | some a => rw [hg] at h; simp [hf.or, hf.none] at h; exact ⟨a, hg, h⟩
  · exact .inr h

theorem allowedAccess_tidy {f : Acc → Bool} (hf : ProjOk f) (p : Policy) (path : Str) (hp : ¬ HasEmptyName path)
    (h : TableHas f p.files (trim path) ∨ ∃ k, k ≠ [] ∧ AtOrAbove k (trim path) ∧ TableHas f p.dirs k) :
    f (p.allowedAccess '\\' path) = true := by
  simp only [Policy.allowedAccess, Policy.lookupTraced, strip_eq_trim]
  apply walk_tidy hf _ _ _ _ (trim_tidy hp)
  rcases h with ⟨a, ha, hfa⟩ | h
  · left; rw [ha]; simp [hf.or, hfa]
  · exact .inr h

/-! ## Rules -/

theorem absolute_eq {os : WinOs} {full : Str → Str} (hos : FullNames os full) (r : Str) : os.absolute r = full r := by
  rcases hos r with ⟨h0, hf⟩ | ⟨units, hs, hne, ⟨hfill, hu⟩ | ⟨hfill, hf⟩⟩
  · simp only [WinOs.absolute, h0, if_true, hf]
  · have hlen : units.length ≠ 0 := by simpa using hne
    have hbuf : (((units ++ [0]) ++ List.replicate (units.length + 1) 0).take (units.length + 1)).take
        (units.length + 1 - 1) = units := by
      rw [List.take_take, List.append_assoc]; simp
    simp only [WinOs.absolute, hs, hfill]
    rw [if_neg (by omega), if_neg (by omega), hbuf]
    rcases hu with hu | ⟨hu, hf⟩
    · rw [hu, fromUtf16_utf16]
    · cases hx : fromUtf16 units with
      | none => exact hf.symm
      | some s => exact absurd (utf16_of_from _ _ hx) (hu s)
  · simp only [WinOs.absolute, hs]
    rw [if_neg (by omega), if_pos (.inl hfill), hf]

theorem isDriveAbsolute_iff (s : Str) : isDriveAbsolute s = true ↔ OnDrive s := by
  constructor
  · intro h
    unfold isDriveAbsolute at h
    split at h
    · exact ⟨_, _, rfl, by simpa using h⟩
    · cases h
  · rintro ⟨c, rest, rfl, h⟩
    simpa [isDriveAbsolute] using h

theorem names_win {os : WinOs} {full : Str → Str} (hos : FullNames os full) (c : FsCall) (key : Str) :
    c.Names (winPathOs os) key ↔ KernelName full c.path key := by
  simp only [FsCall.Names, winPathOs, winSep, absolute_eq hos, strip_eq_trim, KernelName, ← isDriveAbsolute_iff]
  constructor
  · rintro ⟨ds, h, d, hd, rfl⟩
    cases h
    split at hd
    · simp at hd; rw [hd]; exact ⟨‹_›, rfl⟩
    · cases hd
  · rintro ⟨h, rfl⟩
    exact ⟨_, rfl, c!"\\??\\" ++ full c.path, by simp [h], rfl⟩

theorem kernelName_ne {full : Str → Str} {r k : Str} (h : KernelName full r k) : k ≠ [] := by
  obtain ⟨⟨c, rest, hr, _⟩, rfl⟩ := h
  rw [hr]
  unfold trim
  split <;> simp

theorem winCall_tables {f : Acc → Bool} (hf : ProjOk f) (os : WinOs) (p : Policy) (c : WinCall) (key : Str) :
    (TableHas f (p.winCall os c).2.dirs key ↔ TableHas f p.dirs key ∨
      ∃ d, c = .fs d ∧ d.isDir = true ∧ f d.acc = true ∧ d.Names (winPathOs os) key) ∧
    (TableHas f (p.winCall os c).2.files key ↔ TableHas f p.files key ∨
      ∃ d, c = .fs d ∧ d.isDir = false ∧ f d.acc = true ∧ d.Names (winPathOs os) key) := by
  cases c with
  | fs d =>
    simp only [Policy.winCall, fsCall_dirs hf, fsCall_files hf]
    simp
  | addLogCallback cb => simp [Policy.winCall, Policy.addLogCallback]
  | inheritHandle raw q =>
    simp only [Policy.winCall, Policy.allowInheritHandle]
    split <;> simp
  | regRead path => simp only [Policy.winCall, Policy.allowRegKey]; split <;> simp
  | regWrite path => simp only [Policy.winCall, Policy.allowRegKey]; split <;> simp

theorem winCalls_tables {f : Acc → Bool} (hf : ProjOk f) (os : WinOs) (p : Policy) (h : List WinCall) (key : Str) :
    (TableHas f (p.winCalls os h).dirs key ↔ TableHas f p.dirs key ∨
      ∃ d, .fs d ∈ h ∧ d.isDir = true ∧ f d.acc = true ∧ d.Names (winPathOs os) key) ∧
    (TableHas f (p.winCalls os h).files key ↔ TableHas f p.files key ∨
      ∃ d, .fs d ∈ h ∧ d.isDir = false ∧ f d.acc = true ∧ d.Names (winPathOs os) key) := by
  induction h generalizing p with
  | nil => simp [Policy.winCalls]
  | cons c h ih =>
    have ih := ih (p.winCall os c).2
    have hc := winCall_tables hf os p c key
    simp only [Policy.winCalls, List.foldl_cons] at ih ⊢
    rw [ih.1, ih.2, hc.1, hc.2]
    simp only [or_assoc, List.mem_cons]
    constructor
    · apply or_congr Iff.rfl
      constructor
      · rintro (⟨d, rfl, h⟩ | ⟨d, hm, h⟩)
        · exact ⟨d, .inl rfl, h⟩
        · exact ⟨d, .inr hm, h⟩
      · rintro ⟨d, hm | hm, h⟩
        · exact .inl ⟨d, hm.symm, h⟩
        · exact .inr ⟨d, hm, h⟩
    · apply or_congr Iff.rfl
      constructor
      · rintro (⟨d, rfl, h⟩ | ⟨d, hm, h⟩)
        · exact ⟨d, .inl rfl, h⟩
        · exact ⟨d, .inr hm, h⟩
      · rintro ⟨d, hm | hm, h⟩
        · exact .inl ⟨d, hm.symm, h⟩
        · exact .inr ⟨d, hm, h⟩

/-- The component of the access tuple for a right. -/
def rightProj : Right → Acc → Bool
  | .read => Acc.read
  | .write => Acc.write
  | .blockReaders => Acc.blockR
  | .blockWriters => Acc.blockW
  | .blockDeleters => Acc.blockD

theorem rightProj_ok (r : Right) : ProjOk (rightProj r) := by
  cases r with
  | read => exact projRead
  | write => exact projWrite
  | blockReaders => exact projBlockR
  | blockWriters => exact projBlockW
  | blockDeleters => exact projBlockD

theorem gives_iff (full : Str → Str) (r : Right) (path : Str) (c : FsCall) :
    Gives full r path c ↔ rightProj r c.acc = true ∧
      ((c.isDir = false ∧ FileCovers full c.path path) ∨ (c.isDir = true ∧ DirCovers full c.path path)) := by
  cases c <;> cases r <;> simp [Gives, rightProj, FsCall.acc, FsCall.isDir, FsCall.path]

theorem given_only {os : WinOs} {full : Str → Str} (hos : FullNames os full) {p : Policy} (h1 : p.files = [])
    (h2 : p.dirs = []) (h : List WinCall) (r : Right) (path : Str)
    (ha : rightProj r ((p.winCalls os h).allowedAccess '\\' path) = true) : Given full h r path := by
  rcases allowedAccess_only (rightProj_ok r) _ _ ha with ha | ⟨k, hk, ha⟩
  · rcases (winCalls_tables (rightProj_ok r) os p h _).2.1 ha with ha | ⟨d, hm, hd, hf, hn⟩
    · simp [TableHas, h1, AMap.get] at ha
    · exact ⟨d, hm, (gives_iff ..).2 ⟨hf, .inl ⟨hd, (names_win hos _ _).1 hn⟩⟩⟩
  · rcases (winCalls_tables (rightProj_ok r) os p h _).1.1 ha with ha | ⟨d, hm, hd, hf, hn⟩
    · simp [TableHas, h2, AMap.get] at ha
    · exact ⟨d, hm, (gives_iff ..).2 ⟨hf, .inr ⟨hd, k, (names_win hos _ _).1 hn, hk⟩⟩⟩

theorem given_iff {os : WinOs} {full : Str → Str} (hos : FullNames os full) {p : Policy} (h1 : p.files = [])
    (h2 : p.dirs = []) (h : List WinCall) (r : Right) {path : Str} (hp : ¬ HasEmptyName path) :
    rightProj r ((p.winCalls os h).allowedAccess '\\' path) = true ↔ Given full h r path := by
  refine ⟨given_only hos h1 h2 h r path, ?_⟩
  rintro ⟨c, hm, hg⟩
  obtain ⟨hf, hc⟩ := (gives_iff ..).1 hg
  apply allowedAccess_tidy (rightProj_ok r) _ _ hp
  rcases hc with ⟨hd, hc⟩ | ⟨hd, k, hk, hc⟩
  · left
    exact (winCalls_tables (rightProj_ok r) os p h _).2.2 (.inr ⟨c, hm, hd, hf, (names_win hos _ _).2 hc⟩)
  · right
    exact ⟨k, kernelName_ne hk, hc,
      (winCalls_tables (rightProj_ok r) os p h _).1.2 (.inr ⟨c, hm, hd, hf, (names_win hos _ _).2 hk⟩)⟩

/-! ## Bits -/

theorem has_bits_iff (f s : BitVec 32) (bits : List Nat) (hs : ∀ i, i < 32 → (s.getLsbD i = true ↔ i ∈ bits))
    (hb : ∀ i ∈ bits, i < 32) : f &&& s ≠ 0#32 ↔ ∃ i ∈ bits, f.getLsbD i = true := by
  constructor
  · intro h
    apply Classical.byContradiction
    intro hn
    apply h
    apply BitVec.eq_of_getLsbD_eq
    intro i hi
    rw [BitVec.getLsbD_and, BitVec.getLsbD_zero]
    cases hf : f.getLsbD i with
    | false => rfl
    | true =>
      cases hsi : s.getLsbD i with
      | false => rfl
      | true => exact absurd ⟨i, (hs i hi).1 hsi, hf⟩ hn
  · rintro ⟨i, hi, hf⟩ h
    have := congrArg (fun x => BitVec.getLsbD x i) h
    simp only [BitVec.getLsbD_and, BitVec.getLsbD_zero, hf, Bool.true_and] at this
    rw [(hs i (hb i hi)).2 hi] at this
    cases this

theorem onlyBits_iff (f s : BitVec 32) (bits : List Nat) (hs : ∀ i, i < 32 → (s.getLsbD i = true ↔ i ∈ bits)) :
    f &&& ~~~s = 0#32 ↔ OnlyBits f bits := by
  rw [and_not_eq_zero_iff]
  exact forall_congr' fun i => forall_congr' fun hi => imp_congr_right fun _ => hs i hi

theorem fileAccess_iff (access : BitVec 32) :
    access &&& ~~~(FILE_ALWAYS_GRANTED_RIGHTS ||| FILE_READ_RIGHTS ||| FILE_WRITE_RIGHTS) = 0#32 ↔
      SupportedFileAccess access := onlyBits_iff _ _ _ (by decide)

theorem attributes_iff (a : BitVec 32) : a &&& ~~~SUPPORTED_FILE_ATTRIBUTES = 0#32 ↔ SupportedAttributes a :=
  onlyBits_iff _ _ _ (by decide)

theorem fileRead_iff (access : BitVec 32) :
    access &&& FILE_READ_RIGHTS ≠ 0#32 ↔ ∃ i ∈ [0, 3, 7, 28, 31], access.getLsbD i = true :=
  has_bits_iff _ _ _ (by decide) (by decide)

theorem fileWrite_iff (access : BitVec 32) :
    access &&& FILE_WRITE_RIGHTS ≠ 0#32 ↔ ∃ i ∈ [1, 2, 4, 8, 16, 18, 19, 28, 30], access.getLsbD i = true :=
  has_bits_iff _ _ _ (by decide) (by decide)

theorem eq_ofNat32 (d : BitVec 32) (n : Nat) (hn : n < 2 ^ 32) : d = BitVec.ofNat 32 n ↔ d.toNat = n := by
  constructor
  · rintro rfl; rw [BitVec.toNat_ofNat]; exact Nat.mod_eq_of_lt hn
  · intro h; apply BitVec.eq_of_toNat_eq; rw [h, BitVec.toNat_ofNat]; exact (Nat.mod_eq_of_lt hn).symm

theorem disposition_iff (d : BitVec 32) : SUPPORTED_FILE_CREATE_DISPOSITIONS.contains d = true ↔ d.toNat ≤ 5 := by
  simp only [SUPPORTED_FILE_CREATE_DISPOSITIONS, List.contains_iff_mem, List.mem_cons, List.not_mem_nil, or_false]
  have h0 : d = FILE_SUPERSEDE ↔ d.toNat = 0 := eq_ofNat32 d 0 (by decide)
  have h1 : d = FILE_OPEN ↔ d.toNat = 1 := eq_ofNat32 d 1 (by decide)
  have h2 : d = FILE_CREATE ↔ d.toNat = 2 := eq_ofNat32 d 2 (by decide)
  have h3 : d = FILE_OPEN_IF ↔ d.toNat = 3 := eq_ofNat32 d 3 (by decide)
  have h4 : d = FILE_OVERWRITE ↔ d.toNat = 4 := eq_ofNat32 d 4 (by decide)
  have h5 : d = FILE_OVERWRITE_IF ↔ d.toNat = 5 := eq_ofNat32 d 5 (by decide)
  rw [h0, h1, h2, h3, h4, h5]
  omega

theorem replaced_iff (d : BitVec 32) (hd : d.toNat ≤ 5) :
    [FILE_SUPERSEDE, FILE_CREATE, FILE_OVERWRITE, FILE_OVERWRITE_IF].contains d = false ↔ d = 1 ∨ d = 3 := by
  rw [← Bool.not_eq_true, List.contains_iff_mem]
  simp only [List.mem_cons, List.not_mem_nil, or_false]
  have h0 : d = FILE_SUPERSEDE ↔ d.toNat = 0 := eq_ofNat32 d 0 (by decide)
  have h1 : d = 1 ↔ d.toNat = 1 := eq_ofNat32 d 1 (by decide)
  have h2 : d = FILE_CREATE ↔ d.toNat = 2 := eq_ofNat32 d 2 (by decide)
  have h3 : d = 3 ↔ d.toNat = 3 := eq_ofNat32 d 3 (by decide)
  have h4 : d = FILE_OVERWRITE ↔ d.toNat = 4 := eq_ofNat32 d 4 (by decide)
  have h5 : d = FILE_OVERWRITE_IF ↔ d.toNat = 5 := eq_ofNat32 d 5 (by decide)
  rw [h0, h1, h2, h3, h4, h5]
  omega

theorem winPathIsSane_iff (path : Str) : winPathIsSane path = true ↔ path.head? = some '\\' := by
  cases path with
  | nil => simp [winPathIsSane, startsWith, stripPrefix]
  | cons c s =>
    simp only [winPathIsSane, startsWith, stripPrefix, List.head?_cons, Option.some.injEq]
    split <;> simp [*]

/-! ## File decisions, for any tables -/

theorem fileVerdict_iff (rr rw br bw bd : Bool) (x : Acc) (w1 w2 w3 : Str) :
    (if !(x.read || x.write || x.blockR || x.blockW || x.blockD) then Verdict.deniedByPolicy w1
      else if (rr && !x.read) || (rw && !x.write) then .deniedByPolicy w2
      else if (br && !x.blockR) || (bw && !x.blockW) || (bd && !x.blockD) then .deniedByPolicy w3
      else .granted) = .granted ↔
    (x.read || x.write || x.blockR || x.blockW || x.blockD) = true ∧ (rr = true → x.read = true) ∧
      (rw = true → x.write = true) ∧ (br = true → x.blockR = true) ∧ (bw = true → x.blockW = true) ∧
      (bd = true → x.blockD = true) := by
  split
  · simp_all
  · split
    · rename_i h; constructor
      · intro h; cases h
      · rintro ⟨_, h1, h2, _⟩
        simp only [Bool.or_eq_true, Bool.and_eq_true, Bool.not_eq_true'] at h
        rcases h with ⟨ha, hb⟩ | ⟨ha, hb⟩
        · rw [h1 ha] at hb; cases hb
        · rw [h2 ha] at hb; cases hb
    · split
      · rename_i h; constructor
        · intro h; cases h
        · rintro ⟨_, _, _, h1, h2, h3⟩
          simp only [Bool.or_eq_true, Bool.and_eq_true, Bool.not_eq_true'] at h
          rcases h with (⟨ha, hb⟩ | ⟨ha, hb⟩) | ⟨ha, hb⟩
          · rw [h1 ha] at hb; cases hb
          · rw [h2 ha] at hb; cases hb
          · rw [h3 ha] at hb; cases hb
      · rename_i h1 h2 h3
        simp only [Bool.or_eq_true, Bool.and_eq_true, Bool.not_eq_true', not_or, not_and, Bool.not_eq_false] at h1 h2 h3
        simp only [true_iff]
        refine ⟨by simpa using h1, h2.1, h2.2, h3.1.1, h3.1.2, h3.2⟩

theorem stripPrefixStr_iff (p s r : Str) : stripPrefixStr p s = some r ↔ s = p ++ r := by
  induction p generalizing s with
  | nil => simp [stripPrefixStr, eq_comm]
  | cons c p ih =>
    cases s with
    | nil => simp [stripPrefixStr]
    | cons x s =>
      simp only [stripPrefixStr]
      split
      · rename_i h; rw [ih, h]; simp
      · rename_i h; simp [h]

theorem containsPdb_iff (path : Str) : containsPdb path = true ↔ c!".pdb" <:+: path := by
  induction path with
  | nil => simp [containsPdb]
  | cons c cs ih =>
    rw [containsPdb, Bool.or_eq_true, ih, List.infix_cons_iff, Option.isSome_iff_exists]
    refine or_congr ⟨fun ⟨r, h⟩ => ⟨r, ((stripPrefixStr_iff _ _ _).1 h).symm⟩, fun ⟨r, h⟩ => ⟨r, (stripPrefixStr_iff _ _ _).2 h.symm⟩⟩ Iff.rfl

theorem winCheckFileOpen_iff (debug : Bool) (p : Policy) (path : Str)
    (access attributes share disposition options : BitVec 32) (ea : Bytes)
    (hdbg : debug = false ∨ containsPdb path = false) :
    p.winCheckFileOpen debug path access attributes share disposition options ea = .granted ↔
      SupportedFileRequest access attributes disposition options ∧ path.head? = some '\\' ∧
      (∃ r, rightProj r (p.allowedAccess '\\' path) = true) ∧
      ∀ r, Asks access share disposition options ea r → rightProj r (p.allowedAccess '\\' path) = true := by
  have hd : (debug && containsPdb path) = false := by rcases hdbg with h | h <;> simp [h]
  simp only [Policy.winCheckFileOpen]
  rw [hd]
  simp only [Bool.false_eq_true, if_false]
  rw [← winPathIsSane_iff]
  simp only [SupportedFileRequest, ← fileAccess_iff, ← attributes_iff, ← disposition_iff]
  by_cases h1 : access &&& ~~~(FILE_ALWAYS_GRANTED_RIGHTS ||| FILE_READ_RIGHTS ||| FILE_WRITE_RIGHTS) = 0#32
  case neg => rw [if_pos h1]; simp [h1]
  rw [if_neg (fun h => h h1)]
  by_cases h2 : attributes &&& ~~~SUPPORTED_FILE_ATTRIBUTES = 0#32
  case neg => rw [if_pos h2]; simp [h2]
  rw [if_neg (fun h => h h2)]
  by_cases h3 : options &&& FILE_FLAG_OPEN_REPARSE_POINT = 0#32
  · rw [if_pos h3]
    exact ⟨fun h => (by cases h), fun h => absurd h3 h.1.2.2.1⟩
  have h3' : Has options 0x200000 := h3
  rw [if_neg h3]
  by_cases h4 : SUPPORTED_FILE_CREATE_DISPOSITIONS.contains disposition = true
  case neg =>
    rw [if_pos (by simpa using h4)]
    exact ⟨fun h => (by cases h), fun h => absurd h.1.2.2.2 h4⟩
  rw [if_neg (by simp only [h4]; decide)]
  by_cases h5 : winPathIsSane path = true
  case neg => rw [if_pos (by simpa using h5)]; simp [h5]
  rw [if_neg (by simp [h5])]
  have hr : (access &&& FILE_READ_RIGHTS != 0#32 &&
      !([FILE_SUPERSEDE, FILE_CREATE, FILE_OVERWRITE, FILE_OVERWRITE_IF].contains disposition)) = true ↔
      Asks access share disposition options ea .read := by
    rw [Bool.and_eq_true, bne_iff_ne, fileRead_iff, Bool.not_eq_true', replaced_iff _ ((disposition_iff _).1 h4)]
    rfl
  have hw : (access &&& FILE_WRITE_RIGHTS != 0#32 || disposition != FILE_OPEN
      || options &&& FILE_DELETE_ON_CLOSE != 0#32 || !ea.isEmpty) = true ↔
      Asks access share disposition options ea .write := by
    simp only [Bool.or_eq_true, bne_iff_ne, fileWrite_iff, Asks, Has, or_assoc]
    simp only [FILE_OPEN, FILE_DELETE_ON_CLOSE]
    cases ea <;> simp
  have hbr : (share &&& FILE_SHARE_READ == 0#32) = true ↔ Asks access share disposition options ea .blockReaders := by
    simp only [beq_iff_eq, Asks, Has, ne_eq, Classical.not_not]; rfl
  have hbw : (share &&& FILE_SHARE_WRITE == 0#32) = true ↔ Asks access share disposition options ea .blockWriters := by
    simp only [beq_iff_eq, Asks, Has, ne_eq, Classical.not_not]; rfl
  have hbd : (share &&& FILE_SHARE_DELETE == 0#32) = true ↔ Asks access share disposition options ea .blockDeleters := by
    simp only [beq_iff_eq, Asks, Has, ne_eq, Classical.not_not]; rfl
  have hall : (∀ r, Asks access share disposition options ea r → rightProj r (p.allowedAccess '\\' path) = true) ↔
      (Asks access share disposition options ea .read → (p.allowedAccess '\\' path).read = true) ∧
      (Asks access share disposition options ea .write → (p.allowedAccess '\\' path).write = true) ∧
      (Asks access share disposition options ea .blockReaders → (p.allowedAccess '\\' path).blockR = true) ∧
      (Asks access share disposition options ea .blockWriters → (p.allowedAccess '\\' path).blockW = true) ∧
      (Asks access share disposition options ea .blockDeleters → (p.allowedAccess '\\' path).blockD = true) := by
    constructor
    · intro h; exact ⟨h .read, h .write, h .blockReaders, h .blockWriters, h .blockDeleters⟩
    · rintro ⟨a, b, c, d, e⟩ r
      cases r
      · exact a
      · exact b
      · exact c
      · exact d
      · exact e
  have hex : (∃ r, rightProj r (p.allowedAccess '\\' path) = true) ↔
      ((p.allowedAccess '\\' path).read || (p.allowedAccess '\\' path).write || (p.allowedAccess '\\' path).blockR
        || (p.allowedAccess '\\' path).blockW || (p.allowedAccess '\\' path).blockD) = true := by
    simp only [Bool.or_eq_true]
    constructor
    · rintro ⟨r, h⟩
      cases r <;> simp [rightProj] at h <;> simp [h]
    · rintro ((((h | h) | h) | h) | h)
      · exact ⟨.read, h⟩
      · exact ⟨.write, h⟩
      · exact ⟨.blockReaders, h⟩
      · exact ⟨.blockWriters, h⟩
      · exact ⟨.blockDeleters, h⟩
  rw [hall, hex, ← hr, ← hw, ← hbr, ← hbw, ← hbd]
  refine Iff.trans (fileVerdict_iff _ _ _ _ _ _ _ _ _) ?_
  simp only [winSep, h1, h2, h3', h4, h5, true_and]

/-! ## Everything else a call leaves alone -/

theorem winCall_rest (os : WinOs) (p : Policy) (c : WinCall) :
    (p.winCall os c).2.auditOnly = p.auditOnly ∧
    (p.winCall os c).2.callbacks = p.callbacks ++ (match c with | .addLogCallback cb => [cb] | _ => []) := by
  cases c with
  | fs d => obtain ⟨h1, _, _, h2⟩ := fsCall_rest (winPathOs os) p d; exact ⟨h2, by rw [List.append_nil]; exact h1⟩
  | addLogCallback cb => exact ⟨rfl, rfl⟩
  | inheritHandle raw q =>
    simp only [Policy.winCall, Policy.allowInheritHandle]
    split <;> exact ⟨rfl, (List.append_nil _).symm⟩
  | regRead path => simp only [Policy.winCall, Policy.allowRegKey]; split <;> exact ⟨rfl, (List.append_nil _).symm⟩
  | regWrite path => simp only [Policy.winCall, Policy.allowRegKey]; split <;> exact ⟨rfl, (List.append_nil _).symm⟩

theorem winCalls_audit (os : WinOs) (p : Policy) (h : List WinCall) : (p.winCalls os h).auditOnly = p.auditOnly := by
  induction h generalizing p with
  | nil => rfl
  | cons c h ih => exact (ih _).trans (winCall_rest os p c).1

/-! ## Registry -/

/-- What the lemmas need to know about a component of the pair. -/
structure RegProj (g : Bool × Bool → Bool) : Prop where
  or : ∀ a b : Bool × Bool, g (a.1 || b.1, a.2 || b.2) = (g a || g b)
  all : ∀ a : Bool × Bool, (a.1 && a.2) = true → g a = true
  none : g (false, false) = false

theorem regFst : RegProj Prod.fst := ⟨fun _ _ => rfl, by simp +contextual, rfl⟩
theorem regSnd : RegProj Prod.snd := ⟨fun _ _ => rfl, by simp +contextual, rfl⟩

def RegHas (g : Bool × Bool → Bool) (m : AMap (Bool × Bool)) (key : Str) : Prop :=
  ∃ a, AMap.get m key = some a ∧ g a = true

theorem regProbe_iff {g : Bool × Bool → Bool} (hg : RegProj g) (m : AMap (Bool × Bool)) (acc : Bool × Bool)
    (cur : Str) :
    g (match AMap.get m cur with | some a => (acc.1 || a.1, acc.2 || a.2) | none => acc) = true ↔
      g acc = true ∨ RegHas g m cur := by
  cases h : AMap.get m cur with
  | none => simp [RegHas, h]
  | some a => simp [RegHas, h, hg.or]

theorem regWalk_only {g : Bool × Bool → Bool} (hg : RegProj g) (m : AMap (Bool × Bool)) (acc : Bool × Bool)
    (cur : Str) (h : g (regWalk m acc cur) = true) :
    g acc = true ∨ ∃ k, AtOrAbove k cur ∧ RegHas g m k := by
  fun_induction regWalk m acc cur with
  | case1 => exact .inl h
  | case2 acc cur hall acc' parent hp ih =>
    rcases ih h with h | ⟨k, hk, ht⟩
    · rcases (regProbe_iff hg m acc cur).1 h with h | h
      · exact .inl h
      · exact .inr ⟨cur, .inl rfl, h⟩
    · refine .inr ⟨k, .inr ?_, ht⟩
      rcases hk with rfl | hk
      · exact stripOne_above hp
      · exact (hk.trans (List.prefix_append parent ['\\'])).trans (stripOne_above hp)
  | case3 acc cur hall acc' hp =>
    rcases (regProbe_iff hg m acc cur).1 h with h | h
    · exact .inl h
    · exact .inr ⟨cur, .inl rfl, h⟩

theorem regWalk_tidy {g : Bool × Bool → Bool} (hg : RegProj g) (m : AMap (Bool × Bool)) (acc : Bool × Bool)
    (cur : Str) (ht : Tidy '\\' cur)
    (h : g acc = true ∨ ∃ k, k ≠ [] ∧ AtOrAbove k cur ∧ RegHas g m k) :
    g (regWalk m acc cur) = true := by
  fun_induction regWalk m acc cur with
  | case1 acc cur hall => exact hg.all _ hall
  | case2 acc cur hall acc' parent hp ih =>
    have hpt : Tidy '\\' parent := by
      obtain ⟨q, hq, _, hq'⟩ := stripOne_tidy ht (k := parent) (by
        rintro rfl
        simp only [stripOneComponent] at hp
        split at hp
        · split at hp
          · cases hp
          · rename_i hne; cases hp; simp at hne
        · cases hp) (stripOne_above hp)
      rw [winSep] at hp
      rw [hp] at hq; cases hq; exact hq'
    refine ih hpt ?_
    rw [show g acc' = true ↔ _ from regProbe_iff hg m acc cur]
    rcases h with h | ⟨k, hne, rfl | hk, hm⟩
    · exact .inl (.inl h)
    · exact .inl (.inr hm)
    · obtain ⟨q, hq, hq1, _⟩ := stripOne_tidy ht hne hk
      rw [winSep] at hp
      rw [hp] at hq; cases hq
      exact .inr ⟨k, hne, hq1, hm⟩
  | case3 acc cur hall acc' hp =>
    rw [show g acc' = true ↔ _ from regProbe_iff hg m acc cur]
    rcases h with h | ⟨k, hne, rfl | hk, hm⟩
    · exact .inl h
    · exact .inr hm
    · obtain ⟨q, hq, _⟩ := stripOne_tidy ht hne hk
      rw [winSep] at hp
      rw [hp] at hq; cases hq

theorem regHas_merge {g : Bool × Bool → Bool} (hg : RegProj g) (m : AMap (Bool × Bool)) (path : Str)
    (a : Bool × Bool) (key : Str) :
    RegHas g (mergeRegKey m path a) key ↔ RegHas g m key ∨ (trim path = key ∧ g a = true) := by
  simp only [mergeRegKey, winSep, strip_eq_trim, RegHas, AMap.get_insert]
  by_cases hk : trim path = key
  · simp only [hk, if_true]
    cases h : AMap.get m key with
    | none => simp
    | some a => simp [hg.or]
  · simp [hk]

theorem stripPrefixStr_append (p r : Str) : stripPrefixStr p (p ++ r) = some r := (stripPrefixStr_iff _ _ _).2 rfl

/-- The mapping is that of the table. -/
theorem deriveRegKey_ok_iff (os : WinOs) (r : Str) (ks : List Str) :
    deriveRegKey os r = .ok ks ↔
      ∃ root kernel rest, (root, kernel) ∈ regRoots os.sid ∧ r = root ++ rest ∧ ks = [kernel ++ rest] := by
  constructor
  · intro h
    unfold deriveRegKey at h
    split at h
    · rename_i rest hr
      cases h
      exact ⟨_, c!"\\REGISTRY\\USER\\" ++ os.sid, rest, by simp [regRoots], (stripPrefixStr_iff _ _ _).1 hr, rfl⟩
    split at h
    · rename_i rest hr
      cases h
      exact ⟨_, _, rest, by simp [regRoots], (stripPrefixStr_iff _ _ _).1 hr, rfl⟩
    split at h
    · rename_i rest hr
      cases h
      exact ⟨_, _, rest, by simp [regRoots], (stripPrefixStr_iff _ _ _).1 hr, rfl⟩
    split at h
    · rename_i rest hr
      cases h
      exact ⟨_, _, rest, by simp [regRoots], (stripPrefixStr_iff _ _ _).1 hr, rfl⟩
    split at h
    · rename_i rest hr
      cases h
      exact ⟨_, _, rest, by simp [regRoots], (stripPrefixStr_iff _ _ _).1 hr, rfl⟩
    · cases h
  · rintro ⟨root, kernel, rest, hm, rfl, rfl⟩
    simp only [regRoots, List.mem_cons, List.not_mem_nil, or_false, Prod.mk.injEq] at hm
    rcases hm with ⟨rfl, rfl⟩ | ⟨rfl, rfl⟩ | ⟨rfl, rfl⟩ | ⟨rfl, rfl⟩ | ⟨rfl, rfl⟩ <;>
      simp [deriveRegKey, stripPrefixStr]

theorem deriveRegKey_error_iff (os : WinOs) (r : Str) (e : PolicyError) :
    deriveRegKey os r = .error e ↔
      e = .unsupportedRegistryPath r ∧ ∀ root kernel, (root, kernel) ∈ regRoots os.sid → ¬ root <+: r := by
  cases h : deriveRegKey os r with
  | ok ks =>
    obtain ⟨root, kernel, rest, hm, rfl, _⟩ := (deriveRegKey_ok_iff os r ks).1 h
    constructor
    · intro h; cases h
    · rintro ⟨_, hn⟩; exact absurd ⟨rest, rfl⟩ (hn _ _ hm)
  | error e' =>
    have he : e' = .unsupportedRegistryPath r := by
      unfold deriveRegKey at h
      repeat (split at h; · cases h)
      cases h; rfl
    subst he
    constructor
    · intro h'; cases h'
      refine ⟨rfl, ?_⟩
      rintro root kernel hm ⟨rest, rfl⟩
      rw [(deriveRegKey_ok_iff os _ [kernel ++ rest]).2 ⟨_, _, _, hm, rfl, rfl⟩] at h
      cases h
    · rintro ⟨rfl, _⟩; rfl

theorem regCall_has {g : Bool × Bool → Bool} (hg : RegProj g) (os : WinOs) (p : Policy) (r : Str)
    (a : Bool × Bool) (key : Str) :
    RegHas g (p.allowRegKey os r a).2.regkeys key ↔
      RegHas g p.regkeys key ∨ (g a = true ∧ RegKeyName os.sid r key) := by
  unfold Policy.allowRegKey
  cases h : deriveRegKey os r with
  | error e =>
    have := ((deriveRegKey_error_iff os r e).1 h).2
    simp only
    constructor
    · exact .inl
    · rintro (h | ⟨_, root, kernel, rest, hm, rfl, _⟩)
      · exact h
      · exact absurd ⟨rest, rfl⟩ (this _ _ hm)
  | ok ks =>
    obtain ⟨root, kernel, rest, hm, hr, rfl⟩ := (deriveRegKey_ok_iff os r ks).1 h
    simp only [List.foldl_cons, List.foldl_nil]
    rw [regHas_merge hg]
    constructor
    · rintro (h | ⟨rfl, h⟩)
      · exact .inl h
      · exact .inr ⟨h, root, kernel, rest, hm, hr, rfl⟩
    · rintro (h1 | ⟨h1, root', kernel', rest', hm', hr', rfl⟩)
      · exact .inl h1
      · right
        have := (deriveRegKey_ok_iff os r [kernel' ++ rest']).2 ⟨_, _, _, hm', hr', rfl⟩
        rw [h] at this
        simp only [Except.ok.injEq, List.cons.injEq, and_true] at this
        exact ⟨by rw [this], h1⟩

theorem winCall_reg {g : Bool × Bool → Bool} (hg : RegProj g) (os : WinOs) (p : Policy) (c : WinCall) (key : Str) :
    RegHas g (p.winCall os c).2.regkeys key ↔ RegHas g p.regkeys key ∨
      (∃ r, c = .regRead r ∧ g (true, false) = true ∧ RegKeyName os.sid r key) ∨
      (∃ r, c = .regWrite r ∧ g (false, true) = true ∧ RegKeyName os.sid r key) := by
  cases c with
  | fs d => simp [Policy.winCall, (fsCall_rest (winPathOs os) p d).2.2.1]
  | addLogCallback cb => simp [Policy.winCall, Policy.addLogCallback]
  | inheritHandle raw q =>
    simp only [Policy.winCall, Policy.allowInheritHandle]
    split <;> simp
  | regRead path => simp only [Policy.winCall]; rw [regCall_has hg]; simp
  | regWrite path => simp only [Policy.winCall]; rw [regCall_has hg]; simp

theorem winCalls_reg {g : Bool × Bool → Bool} (hg : RegProj g) (os : WinOs) (p : Policy) (h : List WinCall)
    (key : Str) :
    RegHas g (p.winCalls os h).regkeys key ↔ RegHas g p.regkeys key ∨
      (∃ r, .regRead r ∈ h ∧ g (true, false) = true ∧ RegKeyName os.sid r key) ∨
      (∃ r, .regWrite r ∈ h ∧ g (false, true) = true ∧ RegKeyName os.sid r key) := by
  induction h generalizing p with
  | nil => simp [Policy.winCalls]
  | cons c h ih =>
    have ih := ih (p.winCall os c).2
    simp only [Policy.winCalls, List.foldl_cons] at ih ⊢
    rw [ih, winCall_reg hg]
    simp only [List.mem_cons]
    constructor
    · rintro ((h | ⟨r, rfl, h⟩ | ⟨r, rfl, h⟩) | ⟨r, hm, h⟩ | ⟨r, hm, h⟩)
      · exact .inl h
      · exact .inr (.inl ⟨r, .inl rfl, h⟩)
      · exact .inr (.inr ⟨r, .inl rfl, h⟩)
      · exact .inr (.inl ⟨r, .inr hm, h⟩)
      · exact .inr (.inr ⟨r, .inr hm, h⟩)
    · rintro (h | ⟨r, hm | hm, h⟩ | ⟨r, hm | hm, h⟩)
      · exact .inl (.inl h)
      · exact .inl (.inr (.inl ⟨r, hm.symm, h⟩))
      · exact .inr (.inl ⟨r, hm, h⟩)
      · exact .inl (.inr (.inr ⟨r, hm.symm, h⟩))
      · exact .inr (.inr ⟨r, hm, h⟩)

theorem regKeyName_ne {sid r k : Str} (h : RegKeyName sid r k) : k ≠ [] := by
  obtain ⟨root, kernel, rest, hm, _, rfl⟩ := h
  have : 2 ≤ kernel.length := by
    simp only [regRoots, List.mem_cons, List.not_mem_nil, or_false, Prod.mk.injEq] at hm
    rcases hm with ⟨rfl, rfl⟩ | ⟨rfl, rfl⟩ | ⟨rfl, rfl⟩ | ⟨rfl, rfl⟩ | ⟨rfl, rfl⟩ <;> simp <;> omega
  intro he
  have hl := congrArg List.length he
  unfold trim at hl
  split at hl
  · simp only [List.length_dropLast, List.length_append, List.length_nil] at hl; omega
  · simp only [List.length_append, List.length_nil] at hl; omega

theorem regRead_only {os : WinOs} {p : Policy} (hp : p.regkeys = []) (h : List WinCall) (path : Str)
    (ha : ((p.winCalls os h).regAllowedAccess path).1 = true) : RegReadAllowed os.sid h path := by
  simp only [Policy.regAllowedAccess, winSep, strip_eq_trim] at ha
  rcases regWalk_only regFst _ _ _ ha with ha | ⟨k, hk, ha⟩
  · cases ha
  · rcases (winCalls_reg regFst os p h k).1 ha with ha | ⟨r, hm, _, hn⟩ | ⟨r, hm, h0, hn⟩
    · simp [RegHas, hp, AMap.get] at ha
    · exact ⟨r, k, hm, hn, hk⟩
    · cases h0

theorem regWrite_only {os : WinOs} {p : Policy} (hp : p.regkeys = []) (h : List WinCall) (path : Str)
    (ha : ((p.winCalls os h).regAllowedAccess path).2 = true) : RegWriteAllowed os.sid h path := by
  simp only [Policy.regAllowedAccess, winSep, strip_eq_trim] at ha
  rcases regWalk_only regSnd _ _ _ ha with ha | ⟨k, hk, ha⟩
  · cases ha
  · rcases (winCalls_reg regSnd os p h k).1 ha with ha | ⟨r, hm, h0, hn⟩ | ⟨r, hm, _, hn⟩
    · simp [RegHas, hp, AMap.get] at ha
    · cases h0
    · exact ⟨r, k, hm, hn, hk⟩

theorem regRead_iff {os : WinOs} {p : Policy} (hp : p.regkeys = []) (h : List WinCall) {path : Str}
    (hpath : ¬ HasEmptyName path) :
    ((p.winCalls os h).regAllowedAccess path).1 = true ↔ RegReadAllowed os.sid h path := by
  refine ⟨regRead_only hp h path, ?_⟩
  rintro ⟨r, k, hm, hn, hk⟩
  simp only [Policy.regAllowedAccess, winSep, strip_eq_trim]
  exact regWalk_tidy regFst _ _ _ (trim_tidy hpath)
    (.inr ⟨k, regKeyName_ne hn, hk, (winCalls_reg regFst os p h k).2 (.inr (.inl ⟨r, hm, rfl, hn⟩))⟩)

theorem regWrite_iff {os : WinOs} {p : Policy} (hp : p.regkeys = []) (h : List WinCall) {path : Str}
    (hpath : ¬ HasEmptyName path) :
    ((p.winCalls os h).regAllowedAccess path).2 = true ↔ RegWriteAllowed os.sid h path := by
  refine ⟨regWrite_only hp h path, ?_⟩
  rintro ⟨r, k, hm, hn, hk⟩
  simp only [Policy.regAllowedAccess, winSep, strip_eq_trim]
  exact regWalk_tidy regSnd _ _ _ (trim_tidy hpath)
    (.inr ⟨k, regKeyName_ne hn, hk, (winCalls_reg regSnd os p h k).2 (.inr (.inr ⟨r, hm, rfl, hn⟩))⟩)

theorem keyAccess_iff (access : BitVec 32) :
    access &&& ~~~(KEY_READ_RIGHTS ||| KEY_WRITE_RIGHTS ||| KEY_ALWAYS_GRANTED_RIGHTS) = 0#32 ↔
      SupportedKeyAccess access := onlyBits_iff _ _ _ (by decide)

theorem keyOptions_iff (options : BitVec 32) :
    options &&& ~~~(REG_OPTION_VOLATILE ||| REG_OPTION_NON_VOLATILE) = 0#32 ↔ SupportedKeyOptions options := by
  rw [onlyBits_iff _ _ [0] (by decide)]
  constructor
  · intro h
    have : ∀ i, i < 32 → 0 < i → options.getLsbD i = false := by
      intro i hi h0
      cases hb : options.getLsbD i with
      | false => rfl
      | true => have := h i hi hb; simp at this; omega
    cases hb : options.getLsbD 0 with
    | false =>
      left
      apply BitVec.eq_of_getLsbD_eq
      intro i hi
      by_cases h0 : i = 0
      · subst h0; rw [hb]; rfl
      · rw [this i hi (by omega)]; simp
    | true =>
      right
      apply BitVec.eq_of_getLsbD_eq
      intro i hi
      by_cases h0 : i = 0
      · subst h0; rw [hb]; rfl
      · rw [this i hi (by omega)]
        have : ∀ i, i < 32 → i ≠ 0 → false = (1#32).getLsbD i := by decide
        exact this i hi h0
  · rintro (rfl | rfl)
    · intro i _ h; simp at h
    · have : ∀ i, i < 32 → (1#32).getLsbD i = true → i ∈ [0] := by decide
      exact this

theorem keyRead_iff (access : BitVec 32) :
    access &&& KEY_READ_RIGHTS ≠ 0#32 ↔ AsksKeyRead access ∨ AsksKeyOther access := by
  rw [has_bits_iff _ _ [0, 3, 4, 8, 9, 17, 20] (by decide) (by decide)]
  simp [AsksKeyRead, AsksKeyOther, or_assoc]

theorem keyWrite_iff (access : BitVec 32) (create : Bool) :
    (access &&& KEY_WRITE_RIGHTS ≠ 0#32 ∨ create = true) ↔ AsksKeyWrite access create ∨ AsksKeyOther access := by
  rw [has_bits_iff _ _ [1, 2, 16, 18, 19, 4, 8, 9, 17, 20] (by decide) (by decide)]
  simp only [AsksKeyWrite, AsksKeyOther, List.mem_cons, List.not_mem_nil, or_false, exists_eq_or_imp, exists_eq_left]
  constructor
  · intro h; grind
  · intro h; grind

theorem winCheckRegKeyOpen_iff (p : Policy) (path : Str) (access options : BitVec 32) (create : Bool) :
    p.winCheckRegKeyOpen path access options create = .granted ↔
      SupportedKeyAccess access ∧ SupportedKeyOptions options ∧
      ((p.regAllowedAccess path).1 = true ∨ (p.regAllowedAccess path).2 = true) ∧
      (AsksKeyRead access ∨ AsksKeyOther access → (p.regAllowedAccess path).1 = true) ∧
      (AsksKeyWrite access create ∨ AsksKeyOther access → (p.regAllowedAccess path).2 = true) := by
  simp only [Policy.winCheckRegKeyOpen, ← keyAccess_iff, ← keyOptions_iff, ← keyRead_iff, ← keyWrite_iff]
  by_cases h1 : access &&& ~~~(KEY_READ_RIGHTS ||| KEY_WRITE_RIGHTS ||| KEY_ALWAYS_GRANTED_RIGHTS) = 0#32
  case neg => rw [if_pos h1]; simp [h1]
  rw [if_neg (fun h => h h1)]
  by_cases h2 : options &&& ~~~(REG_OPTION_VOLATILE ||| REG_OPTION_NON_VOLATILE) = 0#32
  case neg => rw [if_pos h2]; simp [h2]
  rw [if_neg (fun h => h h2)]
  simp only [h1, h2, true_and]
  rw [← bne_iff_ne (a := access &&& KEY_READ_RIGHTS), ← bne_iff_ne (a := access &&& KEY_WRITE_RIGHTS)]
  generalize (access &&& KEY_READ_RIGHTS != 0#32) = rr
  generalize (access &&& KEY_WRITE_RIGHTS != 0#32) = rw
  obtain ⟨a, b⟩ := p.regAllowedAccess path
  cases rr <;> cases rw <;> cases create <;> cases a <;> cases b <;> simp

/-! ## Only what the tables say matters -/

/-- `cur` and what `strip_one_component` makes of it, again and again. -/
def chain (sep : Char) (cur : Str) : List Str :=
  match _h : stripOneComponent cur sep with
  | some parent => cur :: chain sep parent
  | none => [cur]
termination_by cur.length
decreasing_by exact stripOneComponent_length _h

theorem chain_some {sep : Char} {cur parent : Str} (h : stripOneComponent cur sep = some parent) :
    chain sep cur = cur :: chain sep parent := by
  rw [chain]; split
  · rename_i q hq; rw [h] at hq; cases hq; rfl
  · rename_i hq; rw [h] at hq; cases hq

theorem chain_none {sep : Char} {cur : Str} (h : stripOneComponent cur sep = none) : chain sep cur = [cur] := by
  rw [chain]; split
  · rename_i q hq; rw [h] at hq; cases hq
  · rfl

theorem walk_chain {f : Acc → Bool} (hf : ProjOk f) (sep : Char) (dirs : AMap Acc) (acc : Acc) (cur : Str) :
    f (walk sep dirs acc cur).1 = true ↔ f acc = true ∨ ∃ k ∈ chain sep cur, TableHas f dirs k := by
  fun_induction walk sep dirs acc cur with
  | case1 acc cur hall => exact iff_of_true (hf.all _ hall) (.inl (hf.all _ hall))
  | case2 acc cur hall acc' parent hp r ih =>
    have hacc' : acc' = probe dirs acc cur := rfl
    rw [show f r.1 = true ↔ _ from ih, hacc', probe_iff hf, chain_some hp]
    simp [or_assoc]
  | case3 acc cur hall acc' hp =>
    have hacc' : acc' = probe dirs acc cur := rfl
    simp only
    rw [hacc', probe_iff hf, chain_none hp]
    simp

theorem regWalk_chain {g : Bool × Bool → Bool} (hg : RegProj g) (m : AMap (Bool × Bool)) (acc : Bool × Bool)
    (cur : Str) : g (regWalk m acc cur) = true ↔ g acc = true ∨ ∃ k ∈ chain '\\' cur, RegHas g m k := by
  fun_induction regWalk m acc cur with
  | case1 acc cur hall => exact iff_of_true (hg.all _ hall) (.inl (hg.all _ hall))
  | case2 acc cur hall acc' parent hp ih =>
    rw [ih, show g acc' = true ↔ _ from regProbe_iff hg m acc cur, chain_some (show stripOneComponent cur '\\' = _ from hp)]
    simp [or_assoc]
  | case3 acc cur hall acc' hp =>
    rw [show g acc' = true ↔ _ from regProbe_iff hg m acc cur, chain_none (show stripOneComponent cur '\\' = _ from hp)]
    simp

theorem allowedAccess_mono {f : Acc → Bool} (hf : ProjOk f) {p q : Policy}
    (h1 : ∀ k, TableHas f p.files k → TableHas f q.files k) (h2 : ∀ k, TableHas f p.dirs k → TableHas f q.dirs k)
    (path : Str) (h : f (p.allowedAccess '\\' path) = true) : f (q.allowedAccess '\\' path) = true := by
  simp only [Policy.allowedAccess, Policy.lookupTraced, strip_eq_trim, walk_chain hf] at h ⊢
  rcases h with h | ⟨k, hk, h⟩
  · left
    have hp : TableHas f p.files (trim path) := by
      cases hg : AMap.get p.files (trim path) with
      | none => rw [hg] at h; simp [hf.none] at h
      | some a => rw [hg] at h; simp [hf.or, hf.none] at h; exact ⟨a, hg, h⟩
    obtain ⟨a, ha, hfa⟩ := h1 _ hp
    rw [ha]; simp [hf.or, hfa]
  · exact .inr ⟨k, hk, h2 k h⟩

theorem regAccess_mono {g : Bool × Bool → Bool} (hg : RegProj g) {p q : Policy}
    (h1 : ∀ k, RegHas g p.regkeys k → RegHas g q.regkeys k)
    (path : Str) (h : g (p.regAllowedAccess path) = true) : g (q.regAllowedAccess path) = true := by
  simp only [Policy.regAllowedAccess, regWalk_chain hg] at h ⊢
  rcases h with h | ⟨k, hk, h⟩
  · exact .inl h
  · exact .inr ⟨k, hk, h1 k h⟩

/-- More calls, more access. -/
theorem winCalls_mono (os : WinOs) (p : Policy) (h h' : List WinCall) (hsub : ∀ c ∈ h, c ∈ h') :
    (∀ r path, rightProj r ((p.winCalls os h).allowedAccess '\\' path) = true →
      rightProj r ((p.winCalls os h').allowedAccess '\\' path) = true) ∧
    (∀ path, ((p.winCalls os h).regAllowedAccess path).1 = true → ((p.winCalls os h').regAllowedAccess path).1 = true) ∧
    (∀ path, ((p.winCalls os h).regAllowedAccess path).2 = true → ((p.winCalls os h').regAllowedAccess path).2 = true) := by
  have hreg : ∀ {g}, RegProj g → ∀ k, RegHas g (p.winCalls os h).regkeys k → RegHas g (p.winCalls os h').regkeys k := by
    intro g hg k
    rw [winCalls_reg hg, winCalls_reg hg]
    rintro (h | ⟨r, hm, h⟩ | ⟨r, hm, h⟩)
    · exact .inl h
    · exact .inr (.inl ⟨r, hsub _ hm, h⟩)
    · exact .inr (.inr ⟨r, hsub _ hm, h⟩)
  refine ⟨fun r path => allowedAccess_mono (rightProj_ok r) ?_ ?_ path, fun path => regAccess_mono regFst (hreg regFst) path,
    fun path => regAccess_mono regSnd (hreg regSnd) path⟩
  · intro k
    rw [(winCalls_tables (rightProj_ok r) os p h k).2, (winCalls_tables (rightProj_ok r) os p h' k).2]
    rintro (h | ⟨d, hm, h⟩)
    · exact .inl h
    · exact .inr ⟨d, hsub _ hm, h⟩
  · intro k
    rw [(winCalls_tables (rightProj_ok r) os p h k).1, (winCalls_tables (rightProj_ok r) os p h' k).1]
    rintro (h | ⟨d, hm, h⟩)
    · exact .inl h
    · exact .inr ⟨d, hsub _ hm, h⟩

theorem acc_ext_right {a b : Acc} (h : ∀ r, rightProj r a = true ↔ rightProj r b = true) : a = b := by
  have e : ∀ r, rightProj r a = rightProj r b := fun r => Bool.eq_iff_iff.2 (h r)
  have h1 := e .read
  have h2 := e .write
  have h3 := e .blockReaders
  have h4 := e .blockWriters
  have h5 := e .blockDeleters
  cases a; cases b
  simp only [rightProj] at h1 h2 h3 h4 h5
  simp [h1, h2, h3, h4, h5]

theorem winCalls_congr (os : WinOs) (p : Policy) (h h' : List WinCall) (hs : ∀ c, c ∈ h ↔ c ∈ h') (path : Str) :
    (p.winCalls os h).allowedAccess '\\' path = (p.winCalls os h').allowedAccess '\\' path ∧
    (p.winCalls os h).regAllowedAccess path = (p.winCalls os h').regAllowedAccess path := by
  have m1 := winCalls_mono os p h h' (fun c hc => (hs c).1 hc)
  have m2 := winCalls_mono os p h' h (fun c hc => (hs c).2 hc)
  refine ⟨acc_ext_right fun r => ⟨m1.1 r path, m2.1 r path⟩, Prod.ext ?_ ?_⟩
  · exact Bool.eq_iff_iff.2 ⟨m1.2.1 path, m2.2.1 path⟩
  · exact Bool.eq_iff_iff.2 ⟨m1.2.2 path, m2.2.2 path⟩

end Iris
