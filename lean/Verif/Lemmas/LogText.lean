import Verif.Spec.LogText
import Verif.Lemmas.Str
import Verif.Lemmas.LinuxPolicy
/-! Helper lemmas about the texts of the log (C115, C116). -/
namespace Iris

/-! ## Numbers -/

theorem upperDigit_inj : ∀ a b : Fin 16, (Nat.digitChar a).toUpper = (Nat.digitChar b).toUpper → a = b := by
  decide

theorem digit_inj : ∀ a b : Fin 10, Nat.digitChar a = Nat.digitChar b → a = b := by decide

/-- Digits determine the number, whatever the way each digit is shown. -/
theorem digits_inj (b : Nat) (hb : 1 < b) (f : Char → Char)
    (hf : ∀ x y, x < b → y < b → f (Nat.digitChar x) = f (Nat.digitChar y) → x = y) (n m : Nat)
    (h : (Nat.toDigits b n).map f = (Nat.toDigits b m).map f) : n = m := by
  induction n using Nat.strongRecOn generalizing m with
  | ind n ih =>
    by_cases hn : n < b
    · rw [Nat.toDigits_of_lt_base hn] at h
      by_cases hm : m < b
      · rw [Nat.toDigits_of_lt_base hm] at h
        exact hf n m hn hm (by simpa using h)
      · rw [Nat.toDigits_of_base_le hb (by omega)] at h
        have := congrArg List.length h
        simp at this
    · have hdn : n / b < n := Nat.div_lt_self (by omega) hb
      by_cases hm : m < b
      · rw [Nat.toDigits_of_lt_base hm, Nat.toDigits_of_base_le hb (by omega)] at h
        have := congrArg List.length h
        simp at this
      · rw [Nat.toDigits_of_base_le (n := n) hb (by omega), Nat.toDigits_of_base_le (n := m) hb (by omega)] at h
        simp only [List.map_append, List.map_cons, List.map_nil] at h
        have h' := List.append_inj' h rfl
        have h1 := ih (n / b) hdn (m / b) h'.1
        have h2 := hf (n % b) (m % b) (Nat.mod_lt _ (by omega)) (Nat.mod_lt _ (by omega))
          (by simpa using h'.2)
        rw [← Nat.div_add_mod n b, ← Nat.div_add_mod m b, h1, h2]

theorem hexAlt_inj {n m : Nat} (h : hexAlt n = hexAlt m) : n = m := by
  simp only [hexAlt, hexUpper, List.cons.injEq, true_and] at h
  exact digits_inj 16 (by omega) Char.toUpper
    (fun x y hx hy h => congrArg Fin.val (upperDigit_inj ⟨x, hx⟩ ⟨y, hy⟩ h)) n m h

theorem decText_inj {n m : Nat} (h : dec n = dec m) : n = m := by
  refine digits_inj 10 (by omega) id
    (fun x y hx hy h => congrArg Fin.val (digit_inj ⟨x, hx⟩ ⟨y, hy⟩ h)) n m ?_
  simpa [dec] using h

theorem toDigits_mem (b n : Nat) (hb : 1 < b) : ∀ c ∈ Nat.toDigits b n, ∃ x, x < b ∧ c = Nat.digitChar x := by
  induction n using Nat.strongRecOn with
  | ind n ih =>
    by_cases h : n < b
    · rw [Nat.toDigits_of_lt_base h]
      intro c hc
      exact ⟨n, h, by simpa using hc⟩
    · rw [Nat.toDigits_of_base_le hb (by omega)]
      intro c hc
      rcases List.mem_append.1 hc with hc | hc
      · exact ih (n / b) (Nat.div_lt_self (by omega) hb) c hc
      · exact ⟨n % b, Nat.mod_lt _ (by omega), by simpa using hc⟩

theorem hexUpper_chars (n : Nat) : ∀ c ∈ hexUpper n, c ∈ c!"0123456789ABCDEF" := by
  intro c hc
  obtain ⟨d, hd, rfl⟩ := List.mem_map.1 hc
  obtain ⟨x, hx, rfl⟩ := toDigits_mem 16 n (by omega) d hd
  have : ∀ x : Fin 16, (Nat.digitChar x).toUpper ∈ c!"0123456789ABCDEF" := by decide
  exact this ⟨x, hx⟩

theorem hexAlt_chars (n : Nat) : ∀ c ∈ hexAlt n, c ∈ c!"0123456789ABCDEFx" := by
  intro c hc
  simp only [hexAlt, List.mem_cons] at hc
  rcases hc with rfl | rfl | hc
  · decide
  · decide
  · have := hexUpper_chars n c hc
    simp only [List.mem_cons, List.not_mem_nil, or_false] at this ⊢
    grind

theorem dec_chars (n : Nat) : ∀ c ∈ dec n, c ∈ c!"0123456789" := by
  intro c hc
  obtain ⟨x, hx, rfl⟩ := toDigits_mem 10 n (by omega) c hc
  have : ∀ x : Fin 10, Nat.digitChar x ∈ c!"0123456789" := by decide
  exact this ⟨x, hx⟩

theorem hexAlt_free {c : Char} (hc : c ∉ c!"0123456789ABCDEFx") (n : Nat) : c ∉ hexAlt n :=
  fun h => hc (hexAlt_chars n c h)

theorem dec_free {c : Char} (hc : c ∉ c!"0123456789") (n : Nat) : c ∉ dec n :=
  fun h => hc (dec_chars n c h)

theorem decSigned_free {c : Char} (hc : c ∉ c!"-0123456789") (n : BitVec 64) : c ∉ decSigned n := by
  simp only [List.mem_cons, not_or] at hc
  have h2 : c ∉ dec n.toInt.natAbs := dec_free (by simp [hc.2]) _
  simp only [decSigned]
  split
  · simp [h2, hc.1]
  · exact h2

theorem decSigned_inj {n m : BitVec 64} (h : decSigned n = decSigned m) : n = m := by
  have minus : ∀ k, dec k ≠ [] ∧ '-' ∉ dec k := fun k =>
    ⟨Nat.toDigits_ne_nil, dec_free (by decide) k⟩
  apply BitVec.eq_of_toInt_eq
  simp only [decSigned] at h
  split at h <;> split at h
  · have := decText_inj (List.cons.inj h).2; omega
  · exact absurd (h ▸ List.mem_cons_self) (minus m.toInt.natAbs).2
  · exact absurd (h.symm ▸ List.mem_cons_self) (minus n.toInt.natAbs).2
  · have := decText_inj h; omega

theorem hexBits_inj {w : Nat} {a b : BitVec w} (h : hexAlt a.toNat = hexAlt b.toNat) : a = b :=
  BitVec.eq_of_toNat_eq (hexAlt_inj h)

/-! ## Reading a text from its end -/

/-- The last word. -/
theorem word_inj {c : Char} {a b v w : Str} (hv : c ∉ v) (hw : c ∉ w) (h : a ++ c :: v = b ++ c :: w) :
    a = b ∧ v = w := by
  have h1 := rsplitOnce_append a hv
  have h2 := rsplitOnce_append b hw
  rw [h, h2] at h1
  simp only [Option.some.injEq, Prod.mk.injEq] at h1
  exact ⟨h1.1.symm, h1.2.symm⟩

/-- Two endings of the same text, none of which ends the other. -/
theorem ends_ne {a b s t : Str} (h1 : s.isSuffixOf t = false) (h2 : t.isSuffixOf s = false) :
    a ++ s ≠ b ++ t := by
  intro h
  have hs : s <:+ a ++ s := ⟨a, rfl⟩
  have ht : t <:+ a ++ s := ⟨b, h.symm⟩
  rcases Nat.le_total s.length t.length with hl | hl
  · rw [List.isSuffixOf_iff_suffix.2 (List.suffix_of_suffix_length_le hs ht hl)] at h1
    cases h1
  · rw [List.isSuffixOf_iff_suffix.2 (List.suffix_of_suffix_length_le ht hs hl)] at h2
    cases h2

/-- Endings from a list none of which ends another. -/
theorem ends_inj {l : List Str} (hl : ∀ s ∈ l, ∀ t ∈ l, s.isSuffixOf t = true → s = t) {a b s t : Str}
    (hs : s ∈ l) (ht : t ∈ l) (h : a ++ s = b ++ t) : a = b ∧ s = t := by
  have : s = t := by
    cases h1 : s.isSuffixOf t with
    | true => exact hl s hs t ht h1
    | false =>
      cases h2 : t.isSuffixOf s with
      | true => exact (hl t ht s hs h2).symm
      | false => exact absurd h (ends_ne h1 h2)
  subst this
  exact ⟨List.append_cancel_right h, rfl⟩

theorem twice_le {q : Char} {p p' m m' : Str} (hm : m.getLast? = some q)
    (hc : m.count q = m'.count q) (hle : p.length ≤ p'.length)
    (h : p ++ m ++ p = p' ++ m' ++ p') : p = p' ∧ m = m' := by
  have hs : p <:+ p' := List.suffix_of_suffix_length_le ⟨p ++ m, rfl⟩ ⟨p' ++ m', h.symm⟩ hle
  obtain ⟨x, hx⟩ := hs
  have h2 : p ++ m = p' ++ m' ++ x := by
    rw [← hx, ← List.append_assoc] at h
    rw [← hx]
    exact List.append_cancel_right h
  have hx0 : x = [] := by
    apply Classical.byContradiction
    intro hne
    have hcount := congrArg (List.count q) h2
    rw [← hx] at hcount
    simp only [List.count_append] at hcount
    have hl := congrArg List.getLast? h2
    rw [List.getLast?_append, hm, List.getLast?_append] at hl
    have hxl : x.getLast? = some q := by
      cases hg : x.getLast? with
      | none => exact absurd (List.getLast?_eq_none_iff.1 hg) hne
      | some y => rw [hg] at hl; simpa using hl.symm
    have : 0 < x.count q := List.count_pos_iff.2 (List.mem_of_getLast? hxl)
    omega
  subst hx0
  simp only [List.nil_append] at hx
  subst hx
  simp only [List.append_nil] at h2
  exact ⟨rfl, List.append_cancel_left h2⟩

/-- A text which shows the same path twice, with the same number of quotes in between, of which one is
the last character. -/
theorem twice_inj {q : Char} {p p' m m' : Str} (hm : m.getLast? = some q) (hm' : m'.getLast? = some q)
    (hc : m.count q = m'.count q) (h : p ++ m ++ p = p' ++ m' ++ p') : p = p' ∧ m = m' := by
  rcases Nat.le_total p.length p'.length with hl | hl
  · exact twice_le hm hc hl h
  · obtain ⟨h1, h2⟩ := twice_le hm' hc.symm hl h.symm
    exact ⟨h1.symm, h2.symm⟩

/-- Lines. -/
theorem textLog_inj {l l' : List LogRecord} (h1 : ∀ r ∈ l, '\n' ∉ r.message)
    (h2 : ∀ r ∈ l', '\n' ∉ r.message) (h : Spec.textLog l = Spec.textLog l') :
    l.map LogRecord.message = l'.map LogRecord.message := by
  induction l generalizing l' with
  | nil =>
    cases l' with
    | nil => rfl
    | cons r rs => simp [Spec.textLog] at h
  | cons r rs ih =>
    cases l' with
    | nil => simp [Spec.textLog] at h
    | cons r' rs' =>
      simp only [Spec.textLog] at h
      have a1 := split_append (c := '\n') (t := Spec.textLog rs) (h1 r List.mem_cons_self)
      have a2 := split_append (c := '\n') (t := Spec.textLog rs') (h2 r' List.mem_cons_self)
      rw [h, a2] at a1
      injection a1 with a1 _
      rw [a1] at h
      have := ih (fun r hr => h1 r (List.mem_cons_of_mem _ hr)) (fun r hr => h2 r (List.mem_cons_of_mem _ hr))
        (l' := rs') (by
          have := List.append_cancel_left h
          injection this)
      simp [a1, this]

/-! ## Linux -/

theorem hexAlt_space (n : Nat) : ' ' ∉ hexAlt n := hexAlt_free (by decide) n

theorem Request.display_inj {r r' : Request} (h : r.display = r'.display) : r = r' := by
  cases r with
  | fileOpen path flags =>
    cases r' with
    | fileOpen path' flags' =>
      have h' : (c!"file " ++ path ++ c!" with flags") ++ ' ' :: hexAlt flags.toNat =
          (c!"file " ++ path' ++ c!" with flags") ++ ' ' :: hexAlt flags'.toNat := by
        simpa [Request.display] using h
      obtain ⟨h1, h2⟩ := word_inj (hexAlt_space _) (hexAlt_space _) h'
      have h3 := List.append_cancel_left (List.append_cancel_right h1)
      rw [h3, hexBits_inj h2]
    | syscall nb a ip => simp [Request.display] at h
  | syscall nb a ip =>
    cases r' with
    | fileOpen path flags => simp [Request.display] at h
    | syscall nb' a' ip' =>
      obtain ⟨a0, a1, a2, a3, a4, a5⟩ := a
      obtain ⟨b0, b1, b2, b3, b4, b5⟩ := a'
      have flat : ∀ (nb : BitVec 64) (a0 a1 a2 a3 a4 a5 ip : BitVec 64),
          (Request.syscall nb ⟨a0, a1, a2, a3, a4, a5⟩ ip).display =
          ((((((((c!"syscall" ++ ' ' :: (c!"nb#" ++ decSigned nb)) ++ c!" with arguments" ++
            ' ' :: ('(' :: hexAlt a0.toNat ++ c!",")) ++ ' ' :: (hexAlt a1.toNat ++ c!",")) ++
            ' ' :: (hexAlt a2.toNat ++ c!",")) ++ ' ' :: (hexAlt a3.toNat ++ c!",")) ++
            ' ' :: (hexAlt a4.toNat ++ c!",")) ++ ' ' :: (hexAlt a5.toNat ++ c!")")) ++ c!" at address") ++
            ' ' :: hexAlt ip.toNat := by
        intro nb a0 a1 a2 a3 a4 a5 ip
        simp [Request.display]
      rw [flat, flat] at h
      have w : ∀ n : Nat, ' ' ∉ hexAlt n ++ c!"," := fun n => by simp [hexAlt_space]
      have w' : ∀ n : Nat, ' ' ∉ hexAlt n ++ c!")" := fun n => by simp [hexAlt_space]
      have w'' : ∀ n : Nat, ' ' ∉ '(' :: hexAlt n ++ c!"," := fun n => by simp [hexAlt_space]
      have wn : ∀ n : BitVec 64, ' ' ∉ c!"nb#" ++ decSigned n := fun n => by
        simp [decSigned_free (c := ' ') (by decide)]
      obtain ⟨h, e⟩ := word_inj (hexAlt_space _) (hexAlt_space _) h
      replace h := List.append_cancel_right h
      obtain ⟨h, e5⟩ := word_inj (w' _) (w' _) h
      obtain ⟨h, e4⟩ := word_inj (w _) (w _) h
      obtain ⟨h, e3⟩ := word_inj (w _) (w _) h
      obtain ⟨h, e2⟩ := word_inj (w _) (w _) h
      obtain ⟨h, e1⟩ := word_inj (w _) (w _) h
      obtain ⟨h, e0⟩ := word_inj (w'' _) (w'' _) h
      replace h := List.append_cancel_right h
      obtain ⟨-, en⟩ := word_inj (wn _) (wn _) h
      have c0 := hexBits_inj (List.append_cancel_right (List.cons.inj e0).2)
      have c1 := hexBits_inj (List.append_cancel_right e1)
      have c2 := hexBits_inj (List.append_cancel_right e2)
      have c3 := hexBits_inj (List.append_cancel_right e3)
      have c4 := hexBits_inj (List.append_cancel_right e4)
      have c5 := hexBits_inj (List.append_cancel_right e5)
      rw [hexBits_inj e, c0, c1, c2, c3, c4, c5, decSigned_inj (List.append_cancel_left en)]

/-- The text after the request, if it was refused. -/
def Verdict.tail : Verdict → Str
  | .granted => []
  | .delegationNotSupported why => c!" but delegation is not supported: " ++ why
  | .deniedByPolicy why => c!" but it is not allowed by its policy: " ++ why
  | .invalidRequestParameters argName why => c!" but \"" ++ argName ++ c!"\" was unexpected: " ++ why

theorem verdictRecord_message (d : Str) (v : Verdict) :
    (verdictRecord d v).message =
      (if v = .granted then c!"Worker granted access to " else c!"Worker tried to access ") ++ (d ++ v.tail) := by
  cases v <;> simp [verdictRecord, Verdict.tail]

/-- The texts of the refusals that do not depend on the request. -/
def linuxRefusals : List Str :=
  c!"unsupported system call" ::
  [c!"read-write", c!"read-only", c!"write-only", c!"read or write"].flatMap fun x =>
    [c!"can only read", c!"can only write", c!"has no access to that path"].map fun y =>
      c!"requests " ++ x ++ c!" access, but " ++ y

/-- What a decision on Linux can be. -/
inductive LinuxShape : Request → Verdict → Prop
  | granted (r : Request) : LinuxShape r .granted
  | flag (path : Str) (flags : BitVec 32) (n : Nat) :
      LinuxShape (.fileOpen path flags) (.delegationNotSupported (c!"open flag " ++ hexAlt n ++ c!" not supported"))
  | path (path : Str) (flags : BitVec 32) :
      LinuxShape (.fileOpen path flags) (.invalidRequestParameters c!"path"
        (c!"path to open \"" ++ path ++ c!"\" is not in canonical form"))
  | denied (r : Request) (why : Str) : why ∈ linuxRefusals → LinuxShape r (.deniedByPolicy why)
  | syscall (r : Request) : LinuxShape r (.delegationNotSupported c!"unsupported system call")

theorem checkFileOpen_shape [Target] (p : Policy) (path : Str) (flags : BitVec 32) :
    LinuxShape (.fileOpen path flags) (p.checkFileOpen path flags) := by
  unfold Policy.checkFileOpen
  split
  · exact .flag path flags _
  · split
    · exact .path path flags
    · simp only
      split
      · apply LinuxShape.denied
        generalize (p.allowedAccess '/' path).read = a
        generalize (p.allowedAccess '/' path).write = b
        generalize ((effFlags flags &&& (O_WRONLY ||| O_PATH)) == 0#32) = c
        generalize (effFlags flags &&& (O_WRONLY ||| O_RDWR ||| O_TRUNC ||| O_CREAT ||| O_EXCL ||| O_APPEND)
          != 0#32 && (effFlags flags &&& O_PATH) == 0#32) = d
        revert a b c d
        decide +kernel
      · exact .granted _

/-- The tails that do not depend on the request. -/
def linuxTails : List Str :=
  c!" but delegation is not supported: unsupported system call" ::
    linuxRefusals.map (c!" but it is not allowed by its policy: " ++ ·)

theorem linuxTails_free : ∀ s ∈ linuxTails, ∀ t ∈ linuxTails, s.isSuffixOf t = true → s = t := by
  decide +kernel

theorem linuxTails_other : ∀ s ∈ linuxTails,
    s.isSuffixOf c!" not supported" = false ∧ List.isSuffixOf c!" not supported" s = false ∧
    s.isSuffixOf c!"\" is not in canonical form" = false ∧
    List.isSuffixOf c!"\" is not in canonical form" s = false := by
  decide +kernel

/-- A refusal is of one of three kinds. -/
theorem LinuxShape.kinds {r : Request} {v : Verdict} (h : LinuxShape r v) (hv : v ≠ .granted) :
    v.tail ∈ linuxTails ∨
    (∃ n, v = .delegationNotSupported (c!"open flag " ++ hexAlt n ++ c!" not supported")) ∨
    (∃ path flags, r = .fileOpen path flags ∧ v = .invalidRequestParameters c!"path"
        (c!"path to open \"" ++ path ++ c!"\" is not in canonical form")) := by
  cases h with
  | granted => exact absurd rfl hv
  | flag path flags n => exact .inr (.inl ⟨n, rfl⟩)
  | path path flags => exact .inr (.inr ⟨path, flags, rfl, rfl⟩)
  | denied _ why hw => exact .inl (List.mem_cons_of_mem _ (List.mem_map_of_mem hw))
  | syscall => exact .inl List.mem_cons_self

/-- The tail tells the verdict, for these refusals. -/
theorem tail_inj {v v' : Verdict} (hv : v ≠ .granted) (hv' : v' ≠ .granted)
    (hi : ∀ a w, v ≠ .invalidRequestParameters a w) (hi' : ∀ a w, v' ≠ .invalidRequestParameters a w)
    (h : v.tail = v'.tail) : v = v' := by
  cases v with
  | granted => exact absurd rfl hv
  | invalidRequestParameters a w => exact absurd rfl (hi a w)
  | delegationNotSupported w =>
    cases v' with
    | granted => exact absurd rfl hv'
    | invalidRequestParameters a w => exact absurd rfl (hi' a w)
    | delegationNotSupported w' => rw [List.append_cancel_left h]
    | deniedByPolicy w' => simp [Verdict.tail] at h
  | deniedByPolicy w =>
    cases v' with
    | granted => exact absurd rfl hv'
    | invalidRequestParameters a w => exact absurd rfl (hi' a w)
    | delegationNotSupported w' => simp [Verdict.tail] at h
    | deniedByPolicy w' => rw [List.append_cancel_left h]

theorem tail_not_invalid {v : Verdict} (h : ¬ ∃ a w, v = .invalidRequestParameters a w) :
    ∀ a w, v ≠ .invalidRequestParameters a w := fun a w hc => h ⟨a, w, hc⟩

theorem linuxTails_kind {v : Verdict} (h : v.tail ∈ linuxTails) :
    v ≠ .granted ∧ ∀ a w, v ≠ .invalidRequestParameters a w := by
  have no : ∀ s ∈ linuxTails, s ≠ [] ∧ s.take 6 ≠ c!" but \"" := by decide +kernel
  constructor
  · rintro rfl; exact (no _ h).1 rfl
  · rintro a w rfl; exact (no _ h).2 rfl

/-- Granted and refused requests are told apart. -/
theorem record_prefix {d d' : Str} {v v' : Verdict}
    (h : (verdictRecord d v).message = (verdictRecord d' v').message) :
    (v = .granted ↔ v' = .granted) ∧ d ++ v.tail = d' ++ v'.tail := by
  rw [verdictRecord_message, verdictRecord_message] at h
  by_cases h1 : v = .granted <;> by_cases h2 : v' = .granted
  · rw [if_pos h1, if_pos h2] at h; exact ⟨⟨fun _ => h2, fun _ => h1⟩, List.append_cancel_left h⟩
  · rw [if_pos h1, if_neg h2] at h; simp at h
  · rw [if_neg h1, if_pos h2] at h; simp at h
  · rw [if_neg h1, if_neg h2] at h
    exact ⟨⟨fun hc => absurd hc h1, fun hc => absurd hc h2⟩, List.append_cancel_left h⟩

theorem linux_record_inj {r r' : Request} {v v' : Verdict} (hs : LinuxShape r v) (hs' : LinuxShape r' v')
    (h : (verdictRecord r.display v).message = (verdictRecord r'.display v').message) :
    r = r' ∧ v = v' := by
  obtain ⟨hg, h⟩ := record_prefix h
  by_cases hv : v = .granted
  · have hv' := hg.1 hv
    subst hv hv'
    simp only [Verdict.tail, List.append_nil] at h
    exact ⟨Request.display_inj h, rfl⟩
  · have hv' : v' ≠ .granted := fun hc => hv (hg.2 hc)
    have endFlag : ∀ (d : Str) (n : Nat), d ++ (Verdict.delegationNotSupported
        (c!"open flag " ++ hexAlt n ++ c!" not supported")).tail =
        (d ++ c!" but delegation is not supported: open flag" ++ ' ' :: hexAlt n) ++ c!" not supported" := by
      intro d n; simp [Verdict.tail]
    have endPath : ∀ (d path : Str), d ++ (Verdict.invalidRequestParameters c!"path"
        (c!"path to open \"" ++ path ++ c!"\" is not in canonical form")).tail =
        (d ++ c!" but \"path\" was unexpected: path to open \"" ++ path) ++ c!"\" is not in canonical form" := by
      intro d path; simp [Verdict.tail]
    rcases hs.kinds hv with k | ⟨n, rfl⟩ | ⟨path, flags, rfl, rfl⟩ <;>
      rcases hs'.kinds hv' with k' | ⟨n', rfl⟩ | ⟨path', flags', rfl, rfl⟩
    · obtain ⟨h1, h2⟩ := ends_inj linuxTails_free k k' h
      exact ⟨Request.display_inj h1, tail_inj hv hv' (linuxTails_kind k).2 (linuxTails_kind k').2 h2⟩
    · rw [endFlag] at h
      exact absurd h (ends_ne (linuxTails_other _ k).1 (linuxTails_other _ k).2.1)
    · rw [endPath] at h
      exact absurd h (ends_ne (linuxTails_other _ k).2.2.1 (linuxTails_other _ k).2.2.2)
    · rw [endFlag] at h
      exact absurd h (ends_ne (linuxTails_other _ k').2.1 (linuxTails_other _ k').1)
    · rw [endFlag, endFlag] at h
      obtain ⟨h1, h2⟩ := word_inj (hexAlt_space _) (hexAlt_space _) (List.append_cancel_right h)
      rw [Request.display_inj (List.append_cancel_right h1), hexAlt_inj h2]
      exact ⟨rfl, rfl⟩
    · rw [endFlag, endPath] at h
      exact absurd h (ends_ne (by decide +kernel) (by decide +kernel))
    · rw [endPath] at h
      exact absurd h (ends_ne (linuxTails_other _ k').2.2.2 (linuxTails_other _ k').2.2.1)
    · rw [endFlag, endPath] at h
      exact absurd h (ends_ne (by decide +kernel) (by decide +kernel))
    · rw [endPath, endPath] at h
      have h1 : path ++ (c!" with flags " ++ hexAlt flags.toNat ++
            c!" but \"path\" was unexpected: path to open \"") ++ path =
          path' ++ (c!" with flags " ++ hexAlt flags'.toNat ++
            c!" but \"path\" was unexpected: path to open \"") ++ path' := by
        have := List.append_cancel_right h
        simpa [Request.display] using this
      have cnt : ∀ n : Nat, (c!" with flags " ++ hexAlt n ++
          c!" but \"path\" was unexpected: path to open \"").count '"' = 3 := by
        intro n
        rw [List.count_append, List.count_append, List.count_eq_zero.2 (hexAlt_free (by decide) n)]
        decide
      obtain ⟨rfl, h2⟩ := twice_inj (q := '"') (by rw [List.getLast?_append]; rfl) (by rw [List.getLast?_append]; rfl)
        (by rw [cnt, cnt]) h1
      have h3 := hexBits_inj (List.append_cancel_left (List.append_cancel_right h2))
      subst h3
      exact ⟨rfl, rfl⟩

/-- No line break comes from anything but the path. -/
theorem linux_record_line {r : Request} {v : Verdict} (hs : LinuxShape r v) (hp : '\n' ∉ Spec.requestPath r) :
    '\n' ∉ (verdictRecord r.display v).message := by
  have hx : ∀ n, '\n' ∉ hexAlt n := hexAlt_free (by decide)
  have hn : ∀ n, '\n' ∉ decSigned n := decSigned_free (by decide)
  have hd : '\n' ∉ r.display := by
    cases r with
    | fileOpen path flags =>
      have hp' : '\n' ∉ path := hp
      simp [Request.display, hp', hx]
    | syscall nb a ip => simp [Request.display, hn, hx]
  have ht : '\n' ∉ v.tail := by
    by_cases hv : v = .granted
    · subst hv; simp [Verdict.tail]
    · rcases hs.kinds hv with k | ⟨n, rfl⟩ | ⟨path, flags, rfl, rfl⟩
      · exact (by decide +kernel : ∀ s ∈ linuxTails, '\n' ∉ s) _ k
      · simp [Verdict.tail, hx]
      · have hp' : '\n' ∉ path := hp
        simp [Verdict.tail, hp']
  rw [verdictRecord_message]
  split <;> simp [hd, ht]

end Iris
