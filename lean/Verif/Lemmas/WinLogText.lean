import Verif.Lemmas.LogText
/-! Helper lemmas about the texts of the log on Windows (C116). -/
namespace Iris

theorem hexAlt_ne {n : Nat} {c : Char} {w : Str} (h : c ≠ '0') : hexAlt n ≠ c :: w := by
  intro hc
  simp only [hexAlt, List.cons.injEq] at hc
  exact h hc.1.symm

/-- The part of the display of a file before the extended attributes. -/
def winFileText (path : Str) (access attributes share disposition options : BitVec 32) : Str :=
  (((((c!"file " ++ path ++ c!" with access_mask" ++ ' ' :: hexAlt access.toNat) ++ c!" (sharing" ++
    ' ' :: (hexAlt share.toNat ++ c!")")) ++ c!" (attributes" ++ ' ' :: (hexAlt attributes.toNat ++ c!")")) ++
    c!" (create_disposition" ++ ' ' :: hexAlt disposition.toNat) ++ c!" and create_options" ++
    ' ' :: (hexAlt options.toNat ++ c!")"))

theorem winFileText_inj {path path' : Str} {a b c d e a' b' c' d' e' : BitVec 32}
    (h : winFileText path a b c d e = winFileText path' a' b' c' d' e') :
    path = path' ∧ a = a' ∧ b = b' ∧ c = c' ∧ d = d' ∧ e = e' := by
  have w : ∀ n : Nat, ' ' ∉ hexAlt n ++ c!")" := fun n => by simp [hexAlt_space]
  simp only [winFileText] at h
  obtain ⟨h, x1⟩ := word_inj (w _) (w _) h
  replace h := List.append_cancel_right h
  obtain ⟨h, x2⟩ := word_inj (hexAlt_space _) (hexAlt_space _) h
  replace h := List.append_cancel_right h
  obtain ⟨h, x3⟩ := word_inj (w _) (w _) h
  replace h := List.append_cancel_right h
  obtain ⟨h, x4⟩ := word_inj (w _) (w _) h
  replace h := List.append_cancel_right h
  obtain ⟨h, x5⟩ := word_inj (hexAlt_space _) (hexAlt_space _) h
  exact ⟨List.append_cancel_left (List.append_cancel_right h), hexBits_inj x5,
    hexBits_inj (List.append_cancel_right x3), hexBits_inj (List.append_cancel_right x4), hexBits_inj x2,
    hexBits_inj (List.append_cancel_right x1)⟩

theorem winDisplay_file (path : Str) (a b c d e : BitVec 32) (ea : Bytes) :
    (WinRequest.fileOpen path a b c d e ea).display = winFileText path a b c d e ++
      (if ea.isEmpty then [] else c!"with" ++ ' ' :: dec ea.length ++ c!" bytes of extended attributes") := by
  simp only [WinRequest.display, winFileText]
  split <;> simp

theorem winDisplay_plain (path : Str) (a b c d e : BitVec 32) :
    ∃ x, (WinRequest.fileOpen path a b c d e []).display = x ++ c!")" := by
  rw [winDisplay_file]
  refine ⟨(((((c!"file " ++ path ++ c!" with access_mask" ++ ' ' :: hexAlt a.toNat) ++ c!" (sharing" ++
    ' ' :: (hexAlt c.toNat ++ c!")")) ++ c!" (attributes" ++ ' ' :: (hexAlt b.toNat ++ c!")")) ++
    c!" (create_disposition" ++ ' ' :: hexAlt d.toNat) ++ c!" and create_options" ++
    ' ' :: (hexAlt e.toNat)), ?_⟩
  simp [winFileText]

theorem winDisplay_ea (path : Str) (a b c d e : BitVec 32) (ea : Bytes) (h : ea ≠ []) :
    (WinRequest.fileOpen path a b c d e ea).display =
      (winFileText path a b c d e ++ c!"with" ++ ' ' :: dec ea.length) ++ c!" bytes of extended attributes" := by
  rw [winDisplay_file, if_neg (by simpa using h)]
  simp

theorem winDisplay_reg (path : Str) (a o : BitVec 32) :
    (WinRequest.regKeyOpen path a o false).display =
      (c!"registry key " ++ path ++ c!" with access_mask") ++ ' ' :: hexAlt a.toNat := by
  simp [WinRequest.display]

theorem winDisplay_create (path : Str) (a o : BitVec 32) :
    (WinRequest.regKeyOpen path a o true).display =
      (((c!"registry key " ++ path ++ c!" with access_mask") ++ ' ' :: (hexAlt a.toNat ++ c!",") ++
        c!" creating it with options") ++ ' ' :: hexAlt o.toNat) ++ c!" if it does not exist" := by
  simp [WinRequest.display]

theorem WinRequest.display_inj {r r' : WinRequest} (h : r.display = r'.display) : Spec.SameOnPaper r r' := by
  have sp : ∀ n, ' ' ∉ dec n := dec_free (by decide)
  cases r with
  | fileOpen path a b c d e ea =>
    cases r' with
    | fileOpen path' a' b' c' d' e' ea' =>
      simp only [Spec.SameOnPaper]
      by_cases h1 : ea = [] <;> by_cases h2 : ea' = []
      · subst h1 h2
        rw [winDisplay_file, winDisplay_file] at h
        obtain ⟨x1, x2, x3, x4, x5, x6⟩ := winFileText_inj (List.append_cancel_right h)
        exact ⟨x1, x2, x3, x4, x5, x6, rfl⟩
      · subst h1
        obtain ⟨x, hx⟩ := winDisplay_plain path a b c d e
        rw [hx, winDisplay_ea _ _ _ _ _ _ _ h2] at h
        exact absurd h (ends_ne (by decide +kernel) (by decide +kernel))
      · subst h2
        obtain ⟨x, hx⟩ := winDisplay_plain path' a' b' c' d' e'
        rw [hx, winDisplay_ea _ _ _ _ _ _ _ h1] at h
        exact absurd h (ends_ne (by decide +kernel) (by decide +kernel))
      · rw [winDisplay_ea _ _ _ _ _ _ _ h1, winDisplay_ea _ _ _ _ _ _ _ h2] at h
        obtain ⟨h3, h4⟩ := word_inj (sp _) (sp _) (List.append_cancel_right h)
        obtain ⟨x1, x2, x3, x4, x5, x6⟩ := winFileText_inj (List.append_cancel_right h3)
        exact ⟨x1, x2, x3, x4, x5, x6, decText_inj h4⟩
    | regKeyOpen path' a' o' create' => simp [WinRequest.display] at h
  | regKeyOpen path a o create =>
    cases r' with
    | fileOpen path' a' b' c' d' e' ea' => simp [WinRequest.display] at h
    | regKeyOpen path' a' o' create' =>
      simp only [Spec.SameOnPaper]
      have noHex : ∀ (x y : Str) (n : Nat), x ++ ' ' :: hexAlt n ≠ y ++ c!" if it does not exist" := by
        intro x y n hc
        have hc' : x ++ ' ' :: hexAlt n = (y ++ c!" if it does not") ++ ' ' :: c!"exist" := by
          rw [hc]; simp
        exact hexAlt_ne (by decide) (word_inj (hexAlt_space _) (by decide) hc').2
      cases create <;> cases create'
      · rw [winDisplay_reg, winDisplay_reg] at h
        obtain ⟨h1, h2⟩ := word_inj (hexAlt_space _) (hexAlt_space _) h
        exact ⟨List.append_cancel_left (List.append_cancel_right h1), hexBits_inj h2, rfl, by simp⟩
      · rw [winDisplay_reg, winDisplay_create] at h
        exact absurd h (noHex _ _ _)
      · rw [winDisplay_reg, winDisplay_create] at h
        exact absurd h.symm (noHex _ _ _)
      · rw [winDisplay_create, winDisplay_create] at h
        have w : ∀ n : Nat, ' ' ∉ hexAlt n ++ c!"," := fun n => by simp [hexAlt_space]
        obtain ⟨h1, h2⟩ := word_inj (hexAlt_space _) (hexAlt_space _) (List.append_cancel_right h)
        obtain ⟨h3, h4⟩ := word_inj (w _) (w _) (List.append_cancel_right h1)
        exact ⟨List.append_cancel_left (List.append_cancel_right h3),
          hexBits_inj (List.append_cancel_right h4), rfl, fun _ => hexBits_inj h2⟩

/-- Texts of refusals by the policy. -/
def winRefusals : List Str :=
  let held := [c!"can only read", c!"can only write", c!"has no access to that path"]
  let b := [true, false]
  c!"has no access to that path" ::
  (([c!"read and write", c!"read-only", c!"write-only", c!"read or write"].flatMap fun x =>
    held.map fun y => c!"requests " ++ x ++ c!", but " ++ y) ++
  ([c!"read-write", c!"read-only", c!"write-only", c!"read or write"].flatMap fun x =>
    held.map fun y => c!"requests " ++ x ++ c!" access, but " ++ y) ++
  (b.flatMap fun x => b.flatMap fun y => b.flatMap fun z => b.flatMap fun u => b.flatMap fun v =>
    b.map fun w => lockWhy x y z u v w))

theorem mem_bools (a : Bool) : a ∈ [true, false] := by cases a <;> simp

theorem lockWhy_mem (x y z u v w : Bool) : lockWhy x y z u v w ∈ winRefusals := by
  simp only [winRefusals]
  refine List.mem_cons_of_mem _ (List.mem_append_right _ ?_)
  simp only [List.mem_flatMap, List.mem_map]
  exact ⟨x, mem_bools x, y, mem_bools y, z, mem_bools z, u, mem_bools u, v, mem_bools v, w, mem_bools w, rfl⟩

/-- The beginnings of the texts that end with a number and `not supported`. -/
def winHeads : List Str :=
  [c!"access right", c!"file attribute", c!"file creation disposition", c!"creation option"]

/-- What a decision on Windows can be. -/
inductive WinShape : WinRequest → Verdict → Prop
  | granted (r : WinRequest) : WinShape r .granted
  | number (r : WinRequest) (head : Str) (n : Nat) : head ∈ winHeads →
      WinShape r (.delegationNotSupported (head ++ ' ' :: hexAlt n ++ c!" not supported"))
  | reparse (r : WinRequest) : WinShape r (.delegationNotSupported
      c!"opening files with reparse points enabled is not supported")
  | path (path : Str) (a b c d e : BitVec 32) (ea : Bytes) :
      WinShape (.fileOpen path a b c d e ea) (.invalidRequestParameters c!"path"
        (c!"path to open \"" ++ path ++ c!"\" is not in canonical form"))
  | denied (r : WinRequest) (why : Str) : why ∈ winRefusals → WinShape r (.deniedByPolicy why)

theorem winCheckFileOpen_shape (debug : Bool) (p : Policy) (path : Str) (a b c d e : BitVec 32) (ea : Bytes) :
    WinShape (.fileOpen path a b c d e ea) (p.winCheckFileOpen debug path a b c d e ea) := by
  unfold Policy.winCheckFileOpen
  split
  · exact .granted _
  split
  · have := WinShape.number (.fileOpen path a b c d e ea) c!"access right"
      (a &&& ~~~(FILE_ALWAYS_GRANTED_RIGHTS ||| FILE_READ_RIGHTS ||| FILE_WRITE_RIGHTS)).toNat (by decide)
    simpa using this
  split
  · have := WinShape.number (.fileOpen path a b c d e ea) c!"file attribute"
      (b &&& ~~~SUPPORTED_FILE_ATTRIBUTES).toNat (by decide)
    simpa using this
  split
  · exact .reparse _
  split
  · have := WinShape.number (.fileOpen path a b c d e ea) c!"file creation disposition" d.toNat (by decide)
    simpa using this
  split
  · exact .path _ _ _ _ _ _ _
  simp only
  split
  · exact .denied _ _ List.mem_cons_self
  split
  · apply WinShape.denied
    generalize (p.allowedAccess winSep path).read = x
    generalize (p.allowedAccess winSep path).write = y
    generalize (a &&& FILE_READ_RIGHTS != 0#32 &&
      !([FILE_SUPERSEDE, FILE_CREATE, FILE_OVERWRITE, FILE_OVERWRITE_IF].contains d)) = z
    generalize (a &&& FILE_WRITE_RIGHTS != 0#32 || d != FILE_OPEN
      || e &&& FILE_DELETE_ON_CLOSE != 0#32 || !ea.isEmpty) = w
    revert x y z w
    decide +kernel
  split
  · exact .denied _ _ (lockWhy_mem ..)
  · exact .granted _

theorem winCheckRegKeyOpen_shape (p : Policy) (path : Str) (a o : BitVec 32) (create : Bool) :
    WinShape (.regKeyOpen path a o create) (p.winCheckRegKeyOpen path a o create) := by
  unfold Policy.winCheckRegKeyOpen
  split
  · have := WinShape.number (.regKeyOpen path a o create) c!"access right"
      (a &&& ~~~(KEY_READ_RIGHTS ||| KEY_WRITE_RIGHTS ||| KEY_ALWAYS_GRANTED_RIGHTS)).toNat (by decide)
    simpa using this
  split
  · have := WinShape.number (.regKeyOpen path a o create) c!"creation option"
      (o &&& ~~~(REG_OPTION_VOLATILE ||| REG_OPTION_NON_VOLATILE)).toNat (by decide)
    simpa using this
  simp only
  split
  · apply WinShape.denied
    generalize (p.regAllowedAccess path).1 = x
    generalize (p.regAllowedAccess path).2 = y
    generalize (a &&& KEY_READ_RIGHTS != 0#32) = z
    generalize (a &&& KEY_WRITE_RIGHTS != 0#32 || create) = w
    revert x y z w
    decide +kernel
  · exact .granted _

/-- The tails that do not depend on the request. -/
def winTails : List Str :=
  c!" but delegation is not supported: opening files with reparse points enabled is not supported" ::
    winRefusals.map (c!" but it is not allowed by its policy: " ++ ·)

theorem winTails_free : ∀ s ∈ winTails, ∀ t ∈ winTails, s.isSuffixOf t = true → s = t := by
  decide +kernel

/-- Either a tail ends otherwise than with `not supported`, or with the word `is` before. -/
theorem winTails_other : ∀ s ∈ winTails,
    (s = c!" but delegation is not supported: opening files with reparse points enabled" ++ ' ' :: c!"is" ++
      c!" not supported" ∨
      (s.isSuffixOf c!" not supported" = false ∧ List.isSuffixOf c!" not supported" s = false)) ∧
    s.isSuffixOf c!"\" is not in canonical form" = false ∧
    List.isSuffixOf c!"\" is not in canonical form" s = false := by
  decide +kernel

theorem WinShape.kinds {r : WinRequest} {v : Verdict} (h : WinShape r v) (hv : v ≠ .granted) :
    v.tail ∈ winTails ∨
    (∃ head n, head ∈ winHeads ∧ v = .delegationNotSupported (head ++ ' ' :: hexAlt n ++ c!" not supported")) ∨
    (∃ path a b c d e ea, r = .fileOpen path a b c d e ea ∧ v = .invalidRequestParameters c!"path"
        (c!"path to open \"" ++ path ++ c!"\" is not in canonical form")) := by
  cases h with
  | granted => exact absurd rfl hv
  | number _ head n hh => exact .inr (.inl ⟨head, n, hh, rfl⟩)
  | reparse => exact .inl List.mem_cons_self
  | path path a b c d e ea => exact .inr (.inr ⟨path, a, b, c, d, e, ea, rfl, rfl⟩)
  | denied _ why hw => exact .inl (List.mem_cons_of_mem _ (List.mem_map_of_mem hw))

theorem winTails_kind {v : Verdict} (h : v.tail ∈ winTails) :
    v ≠ .granted ∧ ∀ a w, v ≠ .invalidRequestParameters a w := by
  have no : ∀ s ∈ winTails, s ≠ [] ∧ s.take 6 ≠ c!" but \"" := by decide +kernel
  constructor
  · rintro rfl; exact (no _ h).1 rfl
  · rintro a w rfl; exact (no _ h).2 rfl

theorem winTail_number {s d d' head : Str} {n : Nat} (hs : s ∈ winTails) :
    d ++ s ≠ (d' ++ c!" but delegation is not supported: " ++ head ++ ' ' :: hexAlt n) ++ c!" not supported" := by
  intro h
  rcases (winTails_other s hs).1 with h1 | ⟨h1, h2⟩
  · rw [h1] at h
    have h' : (d ++ c!" but delegation is not supported: opening files with reparse points enabled") ++
        ' ' :: c!"is" = (d' ++ c!" but delegation is not supported: " ++ head) ++ ' ' :: hexAlt n := by
      apply List.append_cancel_right (bs := c!" not supported")
      simpa using h
    exact hexAlt_ne (by decide) (word_inj (by decide) (hexAlt_space _) h').2.symm
  · exact ends_ne h1 h2 h

theorem winHeads_free : ∀ s ∈ winHeads.map (c!" but delegation is not supported: " ++ ·),
    ∀ t ∈ winHeads.map (c!" but delegation is not supported: " ++ ·), s.isSuffixOf t = true → s = t := by
  decide +kernel

theorem win_record_inj {r r' : WinRequest} {v v' : Verdict} (hs : WinShape r v) (hs' : WinShape r' v')
    (h : (verdictRecord r.display v).message = (verdictRecord r'.display v').message) :
    Spec.SameOnPaper r r' ∧ v = v' := by
  obtain ⟨hg, h⟩ := record_prefix h
  by_cases hv : v = .granted
  · have hv' := hg.1 hv
    subst hv hv'
    simp only [Verdict.tail, List.append_nil] at h
    exact ⟨WinRequest.display_inj h, rfl⟩
  · have hv' : v' ≠ .granted := fun hc => hv (hg.2 hc)
    have endNumber : ∀ (d head : Str) (n : Nat), d ++ (Verdict.delegationNotSupported
        (head ++ ' ' :: hexAlt n ++ c!" not supported")).tail =
        (d ++ c!" but delegation is not supported: " ++ head ++ ' ' :: hexAlt n) ++ c!" not supported" := by
      intro d head n; simp [Verdict.tail]
    have endPath : ∀ (d path : Str), d ++ (Verdict.invalidRequestParameters c!"path"
        (c!"path to open \"" ++ path ++ c!"\" is not in canonical form")).tail =
        (d ++ c!" but \"path\" was unexpected: path to open \"" ++ path) ++ c!"\" is not in canonical form" := by
      intro d path; simp [Verdict.tail]
    rcases hs.kinds hv with k | ⟨hd, n, hh, rfl⟩ | ⟨path, a, b, c, d, e, ea, rfl, rfl⟩ <;>
      rcases hs'.kinds hv' with k' | ⟨hd', n', hh', rfl⟩ | ⟨path', a', b', c', d', e', ea', rfl, rfl⟩
    · obtain ⟨h1, h2⟩ := ends_inj winTails_free k k' h
      exact ⟨WinRequest.display_inj h1, tail_inj hv hv' (winTails_kind k).2 (winTails_kind k').2 h2⟩
    · rw [endNumber] at h
      exact absurd h (winTail_number k)
    · rw [endPath] at h
      exact absurd h (ends_ne (winTails_other _ k).2.1 (winTails_other _ k).2.2)
    · rw [endNumber] at h
      exact absurd h.symm (winTail_number k')
    · rw [endNumber, endNumber] at h
      obtain ⟨h1, h2⟩ := word_inj (hexAlt_space _) (hexAlt_space _) (List.append_cancel_right h)
      rw [List.append_assoc, List.append_assoc] at h1
      obtain ⟨h3, h4⟩ := ends_inj winHeads_free (List.mem_map_of_mem hh) (List.mem_map_of_mem hh') h1
      rw [List.append_cancel_left h4, hexAlt_inj h2]
      exact ⟨WinRequest.display_inj h3, rfl⟩
    · rw [endNumber, endPath] at h
      exact absurd h (ends_ne (by decide +kernel) (by decide +kernel))
    · rw [endPath] at h
      exact absurd h (ends_ne (winTails_other _ k').2.2 (winTails_other _ k').2.1)
    · rw [endNumber, endPath] at h
      exact absurd h (ends_ne (by decide +kernel) (by decide +kernel))
    · rw [endPath, endPath] at h
      have mid : ∀ (path : Str) (a b c d e : BitVec 32) (ea : Bytes), ∃ m,
          (WinRequest.fileOpen path a b c d e ea).display = c!"file " ++ (path ++ m) ∧ m.count '"' = 0 := by
        intro path a b c d e ea
        have hx : ∀ n, (hexAlt n).count '"' = 0 := fun n => List.count_eq_zero.2 (hexAlt_free (by decide) n)
        have hn : ∀ n, (dec n).count '"' = 0 := fun n => List.count_eq_zero.2 (dec_free (by decide) n)
        by_cases he : ea = []
        · subst he
          refine ⟨_, by simp only [WinRequest.display, List.append_assoc]; rfl, ?_⟩
          simp only [List.count_append, hx]
          decide
        · refine ⟨_, by simp only [WinRequest.display, List.append_assoc]; rfl, ?_⟩
          rw [if_neg (by simpa using he)]
          simp only [List.count_append, hx, hn]
          decide
      obtain ⟨m, e1, c1⟩ := mid path a b c d e ea
      obtain ⟨m', e2, c2⟩ := mid path' a' b' c' d' e' ea'
      have h1 : path ++ (m ++ c!" but \"path\" was unexpected: path to open \"") ++ path =
          path' ++ (m' ++ c!" but \"path\" was unexpected: path to open \"") ++ path' := by
        have := List.append_cancel_right h
        rw [e1, e2] at this
        simpa using this
      obtain ⟨rfl, h2⟩ := twice_inj (q := '"') (by rw [List.getLast?_append]; rfl)
        (by rw [List.getLast?_append]; rfl)
        (by rw [List.count_append, List.count_append, c1, c2]) h1
      have h3 := List.append_cancel_right h2
      exact ⟨WinRequest.display_inj (by rw [e1, e2, h3]), rfl⟩

/-- No line break comes from anything but the path. -/
theorem win_record_line {r : WinRequest} {v : Verdict} (hs : WinShape r v)
    (hp : '\n' ∉ Spec.winRequestPath r) : '\n' ∉ (verdictRecord r.display v).message := by
  have hx : ∀ n, '\n' ∉ hexAlt n := hexAlt_free (by decide)
  have hn : ∀ n, '\n' ∉ dec n := dec_free (by decide)
  have hd : '\n' ∉ r.display := by
    cases r with
    | fileOpen path a b c d e ea =>
      have hp' : '\n' ∉ path := hp
      simp only [WinRequest.display]
      split <;> simp [hp', hx, hn]
    | regKeyOpen path a o create =>
      have hp' : '\n' ∉ path := hp
      simp only [WinRequest.display]
      split <;> simp [hp', hx]
  have ht : '\n' ∉ v.tail := by
    by_cases hv : v = .granted
    · subst hv; simp [Verdict.tail]
    · rcases hs.kinds hv with k | ⟨head, n, hh, rfl⟩ | ⟨path, a, b, c, d, e, ea, rfl, rfl⟩
      · exact (by decide +kernel : ∀ s ∈ winTails, '\n' ∉ s) _ k
      · have := (by decide +kernel : ∀ s ∈ winHeads, '\n' ∉ s) _ hh
        simp [Verdict.tail, hx, this]
      · have hp' : '\n' ∉ path := hp
        simp [Verdict.tail, hp']
  rw [verdictRecord_message]
  split <;> simp [hd, ht]

end Iris
