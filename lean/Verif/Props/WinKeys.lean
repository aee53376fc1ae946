import Verif.Lemmas.WinKeys
import Verif.Props.WinFiles
/-!
# C141: the registry keys opened for a Windows worker are those its rules name
-/
namespace Iris
open Spec

/-- One call of `NtCreateKey` or `NtOpenKey` for a path without links: what it finds. -/
theorem key_walk_step {k : KeyKernel} {sid : Str} {h : List WinCall} {t0 t : KeyTree} {path : Str} {cs : List Str} (follow : Bool)
    (hd : KeysMayHaveDone k.upcase sid h t0 t) (hl : NoKeyLinks k.upcase sid h t0) (hg : KeyAllowed sid h path)
    (hp : KeyPathOf path cs) :
    (∀ i place, keyWalkLinks k t follow 63 cs = .found i place → (List.length t0 ≤ i ∨ KeyNamed k.upcase t0 cs i) ∧
      ∀ d c, place = some (d, c) → List.length t0 ≤ d ∨ ∃ init, cs = init ++ [c] ∧ KeyNamed k.upcase t0 init d) ∧
    (∀ d c, keyWalkLinks k t follow 63 cs = .missing d c →
      List.length t0 ≤ d ∨ ∃ init, cs = init ++ [c] ∧ KeyNamed k.upcase t0 init d) := by
  have hwalk := keyWalkLinks_named (k := k) (t := t) follow 63 (cs := cs)
    (fun ds i key hpre hn hi => hd.noKeyLinks hl path cs ds i key hg hp hpre hn hi)
  have old : ∀ d c, (∃ init, cs = init ++ [c] ∧ KeyNamed k.upcase t init d) →
      List.length t0 ≤ d ∨ ∃ init, cs = init ++ [c] ∧ KeyNamed k.upcase t0 init d := by
    rintro d c ⟨init, a, b⟩
    rcases hd.named b with x | x
    · exact .inl x
    · exact .inr ⟨init, a, x⟩
  refine ⟨fun i place hr => ?_, fun d c hr => old d c (hwalk.2 d c hr)⟩
  obtain ⟨h1, h2⟩ := hwalk.1 i place hr
  exact ⟨hd.named h1, fun d c he => old d c (h2 d c he)⟩

/-- What is known of a key which was found or made for a path. -/
def KeyPlaced (up : Str → Str) (t0 : KeyTree) (path : Str) (i : Nat) (place : Option (Nat × Str)) : Prop :=
  ∃ cs, KeyPathOf path cs ∧ (List.length t0 ≤ i ∨ KeyNamed up t0 cs i) ∧
    ∀ d c, place = some (d, c) → List.length t0 ≤ d ∨ ∃ init, cs = init ++ [c] ∧ KeyNamed up t0 init d

theorem ntCreateKey_step {k : KeyKernel} {sid : Str} {h : List WinCall} {t0 t : KeyTree} {path : Str} {access options : BitVec 32}
    (refuse : Option (BitVec 32)) (hd : KeysMayHaveDone k.upcase sid h t0 t) (hl : NoKeyLinks k.upcase sid h t0)
    (hv : ∀ access cs, k.view access cs = cs) (hg : RegWriteAllowed sid h path) (ho : SupportedKeyOptions options) :
    KeysMayHaveDone k.upcase sid h t0 (ntCreateKey k t access (utf16 path) options refuse).2 ∧
    ∀ i place, (ntCreateKey k t access (utf16 path) options refuse).1 = .ok (i, place) → KeyPlaced k.upcase t0 path i place := by
  have hlink : options &&& 2#32 = 0#32 := by rcases ho with rfl | rfl <;> decide
  have stay : ∀ e : BitVec 32, KeysMayHaveDone k.upcase sid h t0 t ∧ ∀ i place,
      (Except.error e : Except (BitVec 32) (Nat × Option (Nat × Str))) = .ok (i, place) → KeyPlaced k.upcase t0 path i place :=
    fun e => ⟨hd, fun _ _ h => by cases h⟩
  unfold ntCreateKey
  cases refuse with
  | some e => exact stay e
  | none =>
    simp only [fromUtf16_utf16, Option.bind_some, hv, hlink, if_true]
    cases hnames : keyNames path with
    | none => exact stay _
    | some cs =>
      have hp := keyNames_pathOf hnames
      have hwalk := key_walk_step (decide (options &&& 8#32 = 0#32)) hd hl (.inr hg) hp
      simp only []
      cases hr : keyWalkLinks k t (decide (options &&& 8#32 = 0#32)) 63 cs with
      | failed e => exact stay e
      | found i place =>
        refine ⟨hd, fun i' place' he => ?_⟩
        cases he
        obtain ⟨a, b⟩ := hwalk.1 i place hr
        exact ⟨cs, hp, a, b⟩
      | missing d c =>
        have hplace := hwalk.2 d c hr
        refine ⟨hd.add ?_, fun i place he => ?_⟩
        · rcases hplace with x | ⟨init, x, y⟩
          · exact .inl x
          · exact .inr ⟨path, init, c, hg, x ▸ hp, rfl, y⟩
        · cases he
          exact ⟨cs, hp, .inl hd.length, fun d' c' he => by cases he; exact hplace⟩

theorem ntOpenKey_step {k : KeyKernel} {sid : Str} {h : List WinCall} {t0 t : KeyTree} {path : Str} {access : BitVec 32}
    (refuse : Option (BitVec 32)) (hd : KeysMayHaveDone k.upcase sid h t0 t) (hl : NoKeyLinks k.upcase sid h t0)
    (hv : ∀ access cs, k.view access cs = cs) (hg : KeyAllowed sid h path) (i : Nat) (place : Option (Nat × Str))
    (hi : ntOpenKey k t access (utf16 path) refuse = .ok (i, place)) : KeyPlaced k.upcase t0 path i place := by
  unfold ntOpenKey at hi
  cases refuse with
  | some e => cases hi
  | none =>
    simp only [fromUtf16_utf16, Option.bind_some, hv] at hi
    cases hnames : keyNames path with
    | none => rw [hnames] at hi; cases hi
    | some cs =>
      have hp := keyNames_pathOf hnames
      have hwalk := key_walk_step true hd hl hg hp
      rw [hnames] at hi
      simp only [] at hi
      cases hr : keyWalkLinks k t true 63 cs with
      | failed e => rw [hr] at hi; cases hi
      | missing d c => rw [hr] at hi; cases hi
      | found i' place' =>
        rw [hr] at hi
        cases hi
        obtain ⟨a, b⟩ := hwalk.1 i place hr
        exact ⟨cs, hp, a, b⟩

/-- What is known of the keys and of those the worker has. -/
def KeysOk (up : Str → Str) (sid : Str) (h : List WinCall) (t : KeyTree) (st : KeyState) : Prop :=
  KeysMayHaveDone up sid h t st.tree ∧
  ∀ o ∈ st.opened, ∃ path, KeyPlaced up t path o.key o.place ∧ KeyAllowed sid h path ∧
    (KeyReadable o.access → RegReadAllowed sid h path) ∧
    (KeyWritable o.access ∨ o.create = true → RegWriteAllowed sid h path)

/-- A call for a request the rules allow. -/
def KeyGranted (sid : Str) (h : List WinCall) (access options : BitVec 32) (create : Bool) (path : Str) : Prop :=
  SupportedKeyOptions options ∧ KeyAllowed sid h path ∧ (KeyReadable access → RegReadAllowed sid h path) ∧
    (KeyWritable access ∨ create = true → RegWriteAllowed sid h path)

theorem keysRun_ok {k : KeyKernel} {sid : Str} {h : List WinCall} {t : KeyTree} {acts : List WinAction} {st : KeyState}
    (hr : KeysRun k t acts st) (hk : k.renames = false) (hv : ∀ access cs, k.view access cs = cs) (hl : NoKeyLinks k.upcase sid h t)
    (hc : ∀ access name titleIndex cls options r, WinAction.called (.createKey access name titleIndex cls options) r ∈ acts →
      ∃ path, name = utf16 path ∧ KeyGranted sid h access options true path)
    (hopen : ∀ access name r, WinAction.called (.openKey access name) r ∈ acts →
      ∃ path, name = utf16 path ∧ ∃ options, KeyGranted sid h access options false path) :
    KeysOk k.upcase sid h t st := by
  induction hr with
  | start => exact ⟨.refl, by simp⟩
  | others acts st a _ _ _ ih =>
    exact ih (fun _ _ _ _ _ _ hm => hc _ _ _ _ _ _ (List.mem_append_left _ hm)) (fun _ _ _ hm => hopen _ _ _ (List.mem_append_left _ hm))
  | creates acts st access name titleIndex cls options r refuse _ ih =>
    obtain ⟨h1, h2⟩ := ih (fun _ _ _ _ _ _ hm => hc _ _ _ _ _ _ (List.mem_append_left _ hm))
      (fun _ _ _ hm => hopen _ _ _ (List.mem_append_left _ hm))
    obtain ⟨path, rfl, g1, g2, g3, g4⟩ := hc access name titleIndex cls options r (by simp)
    have hstep := ntCreateKey_step (access := access) refuse h1 hl hv (g4 (.inr rfl)) g1
    simp only [KeyState.create]
    cases hx : ntCreateKey k st.tree access (utf16 path) options refuse with
    | mk res t' =>
      rw [hx] at hstep
      obtain ⟨a, b⟩ := hstep
      cases res with
      | error e => exact ⟨a, h2⟩
      | ok x =>
        obtain ⟨i, place⟩ := x
        refine ⟨a, fun o ho => ?_⟩
        rcases List.mem_append.1 ho with ho | ho
        · exact h2 o ho
        · simp only [List.mem_singleton] at ho
          subst ho
          exact ⟨path, b i place rfl, g2, g3, g4⟩
  | opens acts st access name r refuse _ ih =>
    obtain ⟨h1, h2⟩ := ih (fun _ _ _ _ _ _ hm => hc _ _ _ _ _ _ (List.mem_append_left _ hm))
      (fun _ _ _ hm => hopen _ _ _ (List.mem_append_left _ hm))
    obtain ⟨path, rfl, options, g1, g2, g3, g4⟩ := hopen access name r (by simp)
    simp only [KeyState.open]
    cases hx : ntOpenKey k st.tree access (utf16 path) refuse with
    | error e => exact ⟨h1, h2⟩
    | ok x =>
      obtain ⟨i, place⟩ := x
      refine ⟨h1, fun o ho => ?_⟩
      rcases List.mem_append.1 ho with ho | ho
      · exact h2 o ho
      · simp only [List.mem_singleton] at ho
        subst ho
        exact ⟨path, ntOpenKey_step refuse h1 hl hv g2 i place hx, g2, g3, g4⟩
  | sets acts st o values _ ho hw ih =>
    obtain ⟨h1, h2⟩ := ih hc hopen
    obtain ⟨path, ⟨cs, hp, hn, _⟩, _, _, hwr⟩ := h2 o ho
    have hgw := hwr (.inl (by
      obtain ⟨b, hb, hb'⟩ := hw
      exact ⟨b, by simp at hb ⊢; omega, hb'⟩))
    simp only [KeyState.set]
    split
    · rename_i key hi
      refine ⟨h1.setValues values hi ?_, h2⟩
      rcases hn with x | x
      · exact .inl x
      · exact .inr ⟨path, cs, hgw, hp, x⟩
    · exact ⟨h1, h2⟩
  | retargets acts st o target _ ho hw ih =>
    obtain ⟨h1, h2⟩ := ih hc hopen
    obtain ⟨path, ⟨cs, hp, hn, _⟩, ha, _⟩ := h2 o ho
    simp only [KeyState.retarget]
    split
    · rename_i subkeys values target' hi
      cases h1.plain hl ha hp (List.prefix_refl cs) hn hi
    · exact ⟨h1, h2⟩
  | removes acts st o _ ho hw ih =>
    obtain ⟨h1, h2⟩ := ih hc hopen
    obtain ⟨path, ⟨cs, hp, _, hpl⟩, _, _, hwr⟩ := h2 o ho
    have hgw := hwr (.inl (by
      obtain ⟨b, hb, hb'⟩ := hw
      exact ⟨b, by simp at hb ⊢; omega, hb'⟩))
    simp only [KeyState.remove]
    split
    · exact ⟨h1, h2⟩
    · rename_i d c hplace
      split
      · rename_i key _ _ hkey _
        split
        · refine ⟨h1.setSubkeys hkey (fun c' j hm => .inl (List.mem_filter.1 hm).1) (fun c' j hm => ?_), h2⟩
          by_cases hc : k.upcase c' = k.upcase c
          · right
            rcases hpl d c hplace with x | ⟨init, x, y⟩
            · exact .inl x
            · exact .inr ⟨path, init, c, hgw, x ▸ hp, hc.symm, y⟩
          · exact .inl (List.mem_filter.2 ⟨hm, by simpa using hc⟩)
        · exact ⟨h1, h2⟩
      · exact ⟨h1, h2⟩
  | renames acts st o name _ ho hk' => rw [hk] at hk'; cases hk'

/-- What the policy grants. -/
theorem keyGranted_of (os : WinOs) (h : List WinCall) (path : Str) (access options : BitVec 32) (create : Bool)
    (hg : ((Policy.nothingAllowed.winCalls os h).winEvaluate false (.regKeyOpen path access options create)).1 = .granted) :
    KeyGranted os.sid h access options create path := by
  obtain ⟨h1, h2, h3, h4, h5⟩ := C59_no_excess_access false os h path access options create hg
  have hbit : ∀ b, b ∉ [0, 1, 2, 3, 4, 8, 9, 16, 17, 18, 19, 20] → access.getLsbD b = true → False := by
    intro b hb hb'
    exact hb (h1 b (BitVec.lt_of_getLsbD hb') hb')
  refine ⟨h2, h3, ?_, ?_⟩
  · rintro ⟨b, hb, hb'⟩
    refine h4 ⟨b, ?_, hb'⟩
    simp only [List.mem_cons, List.not_mem_nil, or_false] at hb ⊢
    rcases hb with rfl | rfl | rfl | rfl | rfl
    · exact .inl rfl
    · exact .inr rfl
    all_goals exact (hbit _ (by decide) hb').elim
  · rintro (⟨b, hb, hb'⟩ | hc)
    · refine h5 (.inl ⟨b, ?_, hb'⟩)
      simp only [List.mem_cons, List.not_mem_nil, or_false] at hb ⊢
      rcases hb with rfl | rfl | rfl | rfl | rfl | rfl | rfl | rfl
      all_goals first | omega | exact (hbit _ (by decide) hb').elim
    · exact h5 (.inr hc)

/-- The calls of a session of a worker whose names of keys are not too long. -/
theorem keySession_granted (os : WinOs) (h : List WinCall) (tables : WinTables) (pipe process : BitVec 64)
    (first : WinIncoming × WinChoice) (rest : List (WinIncoming × WinChoice)) (hp : ShortKeyNames rest) :
    (∀ access name titleIndex cls options r, WinAction.called (.createKey access name titleIndex cls options) r ∈
        ((WinBroker.start tables pipe process).run false (Policy.nothingAllowed.winCalls os h) first rest).trace →
      ∃ path, name = utf16 path ∧ KeyGranted os.sid h access options true path) ∧
    (∀ access name r, WinAction.called (.openKey access name) r ∈
        ((WinBroker.start tables pipe process).run false (Policy.nothingAllowed.winCalls os h) first rest).trace →
      ∃ path, name = utf16 path ∧ ∃ options, KeyGranted os.sid h access options false path) := by
  constructor
  · intro access name titleIndex cls options r hm
    obtain ⟨i, hi, path, cls', h1, h2, _, h3⟩ := C64_created_key_name_partial false _ tables pipe process first rest
      access name titleIndex cls options (win_called_mem hm)
    exact ⟨path, h3 (hp i hi _ _ _ _ _ _ h1), keyGranted_of os h path access options true h2⟩
  · intro access name r hm
    obtain ⟨i, hi, path, titleIndex, cls, options, h1, h2, _, h3⟩ := C64_opened_key_name_partial false _ tables pipe process first rest
      access name (win_called_mem hm)
    exact ⟨path, h3 (hp i hi _ _ _ _ _ _ h1), options, keyGranted_of os h path access options false h2⟩

section
variable (os : WinOs) (h : List WinCall) (tables : WinTables) (pipe process : BitVec 64) (first : WinIncoming × WinChoice)
  (rest : List (WinIncoming × WinChoice)) (k : KeyKernel) (t : KeyTree) (st : KeyState)

theorem keySession_ok (hp : ShortKeyNames rest) (hk : k.renames = false) (hv : ∀ access cs, k.view access cs = cs)
    (hl : NoKeyLinks k.upcase os.sid h t)
    (hr : KeysRun k t ((WinBroker.start tables pipe process).run false (Policy.nothingAllowed.winCalls os h) first rest).trace st) :
    KeysOk k.upcase os.sid h t st := by
  obtain ⟨h1, h2⟩ := keySession_granted os h tables pipe process first rest hp
  exact keysRun_ok hr hk hv hl h1 h2

/-- C141: as long as no link is on the way, the system leads no access elsewhere and lets rename no keys, and the names are not too long,
each key the worker has is one made since, or is named by a path its rules allow. They allow to read it if it can be read from, and to
write to it if it can be changed or if it would have been made. -/
theorem C141_opened_partial (hp : ShortKeyNames rest) (hk : k.renames = false) (hv : ∀ access cs, k.view access cs = cs)
    (hl : NoKeyLinks k.upcase os.sid h t)
    (hr : KeysRun k t ((WinBroker.start tables pipe process).run false (Policy.nothingAllowed.winCalls os h) first rest).trace st)
    (o : KeyOpened) (ho : o ∈ st.opened) :
    ∃ path cs, KeyPathOf path cs ∧ (List.length t ≤ o.key ∨ KeyNamed k.upcase t cs o.key) ∧ KeyAllowed os.sid h path ∧
      (KeyReadable o.access → RegReadAllowed os.sid h path) ∧
      (KeyWritable o.access ∨ o.create = true → RegWriteAllowed os.sid h path) := by
  obtain ⟨path, ⟨cs, a, b, _⟩, c, d, e⟩ := (keySession_ok os h tables pipe process first rest k t st hp hk hv hl hr).2 o ho
  exact ⟨path, cs, a, b, c, d, e⟩

/-- C141: in the same circumstances, all that is changed is what the rules allow to write to: values of keys, and keys made and deleted.
No link is made, and none is made to lead elsewhere. -/
theorem C141_changed_partial (hp : ShortKeyNames rest) (hk : k.renames = false) (hv : ∀ access cs, k.view access cs = cs)
    (hl : NoKeyLinks k.upcase os.sid h t)
    (hr : KeysRun k t ((WinBroker.start tables pipe process).run false (Policy.nothingAllowed.winCalls os h) first rest).trace st) :
    KeysMayHaveDone k.upcase os.sid h t st.tree :=
  (keySession_ok os h tables pipe process first rest k t st hp hk hv hl hr).1

/-- C141: so there is still no link on the way, and what is true of a worker's session is true of those after it. -/
theorem C141_no_links_made_partial (hp : ShortKeyNames rest) (hk : k.renames = false) (hv : ∀ access cs, k.view access cs = cs)
    (hl : NoKeyLinks k.upcase os.sid h t)
    (hr : KeysRun k t ((WinBroker.start tables pipe process).run false (Policy.nothingAllowed.winCalls os h) first rest).trace st) :
    NoKeyLinks k.upcase os.sid h st.tree :=
  (keySession_ok os h tables pipe process first rest k t st hp hk hv hl hr).1.noKeyLinks hl
end

/-- C141: when names in each key are unambiguous, the key a path names is the one that is opened, by both calls, and nothing is changed. -/
theorem C141_finds {k : KeyKernel} {t : KeyTree} {path : Str} {cs : List Str} {access options : BitVec 32} {i : Nat}
    (hp : KeyPathOf path cs) (hcs : cs ≠ []) (hv : k.view access cs = cs)
    (hsound : ∀ (d : Nat) key c j, t[d]? = some key → (c, j) ∈ key.subkeys → j < List.length t)
    (huniq : ∀ (d : Nat) key a b x y, t[d]? = some key → (a, x) ∈ key.subkeys → (b, y) ∈ key.subkeys → k.upcase a = k.upcase b → x = y)
    (hl : ∀ ds j key, ds <+: cs → KeyNamed k.upcase t ds j → t[j]? = some key → key.link = none)
    (hn : KeyNamed k.upcase t cs i) (ho : SupportedKeyOptions options) :
    ∃ place, ntOpenKey k t access (utf16 path) none = .ok (i, place) ∧
      ntCreateKey k t access (utf16 path) options none = (.ok (i, place), t) := by
  have h2 : options &&& 2#32 = 0#32 := by rcases ho with rfl | rfl <;> decide
  have h8 : decide (options &&& 8#32 = 0#32) = true := by rcases ho with rfl | rfl <;> decide
  obtain ⟨place, hw⟩ := keyWalkWith_finds true (keyWalkLinks k t true 62) hsound huniq cs [] 0 none .root (by simpa using hl)
    (by simpa using hn)
  have hw' : keyWalkLinks k t true 63 cs = .found i place := hw
  refine ⟨place, ?_, ?_⟩
  · simp only [ntOpenKey, fromUtf16_utf16, Option.bind_some, hp.names hcs, hv, hw']
  · simp only [ntCreateKey, fromUtf16_utf16, Option.bind_some, hp.names hcs, hv, h8, h2, hw', if_true]

/-! ### What goes wrong -/

/-- C141, full statement: whatever the keys are, and whatever the worker asks for and does with what it gets, each key it has is new,
or is named by a path its rules allow, and it changes only what they allow to write to. -/
def Spec.KeysAsRulesName (k : KeyKernel) (rest : List (WinIncoming × WinChoice)) (t : KeyTree) : Prop :=
  ∀ (os : WinOs) (h : List WinCall) (tables : WinTables) (pipe process : BitVec 64) (first : WinIncoming × WinChoice) (st : KeyState),
    KeysRun k t ((WinBroker.start tables pipe process).run false (Policy.nothingAllowed.winCalls os h) first rest).trace st →
    (∀ o ∈ st.opened, ∃ path cs, KeyPathOf path cs ∧ (List.length t ≤ o.key ∨ KeyNamed k.upcase t cs o.key) ∧ KeyAllowed os.sid h path) ∧
    KeysMayHaveDone k.upcase os.sid h t st.tree

/-- The keys after some actions, when the kernel refuses nothing and the worker does nothing with them. -/
def keysAfter (k : KeyKernel) (t : KeyTree) (acts : List WinAction) : KeyState :=
  acts.foldl (fun st a => match a with
    | .called (.createKey access name _ _ options) _ => st.create k access name options none
    | .called (.openKey access name) _ => st.open k access name none
    | _ => st) ⟨t, []⟩

theorem keysAfter_run (k : KeyKernel) (t : KeyTree) (acts : List WinAction) : KeysRun k t acts (keysAfter k t acts) := by
  generalize hn : acts.length = n
  induction n generalizing acts with
  | zero => cases acts with | nil => exact .start | cons => simp at hn
  | succ n ih =>
    rcases List.eq_nil_or_concat acts with rfl | ⟨l, a, rfl⟩
    · simp at hn
    · have := ih l (by simpa using hn)
      simp only [List.concat_eq_append] at *
      clear hn
      have e : keysAfter k t (l ++ [a]) = match a with
          | .called (.createKey access name _ _ options) _ => (keysAfter k t l).create k access name options none
          | .called (.openKey access name) _ => (keysAfter k t l).open k access name none
          | _ => keysAfter k t l := by
        simp only [keysAfter, List.foldl_append, List.foldl_cons, List.foldl_nil]
      rw [e]
      cases a with
      | notified n => exact .others _ _ _ this (by simp) (by simp)
      | sent r f => exact .others _ _ _ this (by simp) (by simp)
      | called c r =>
        cases c with
        | createFile a b c d e f g h => exact .others _ _ _ this (by simp) (by simp)
        | createKey a b c d e => exact .creates _ _ _ _ _ _ _ _ _ this
        | openKey a b => exact .opens _ _ _ _ _ _ this

/-- `HKEY_LOCAL_MACHINE\s` is key 4, and `HKEY_LOCAL_MACHINE\k\j` leads where it is said. -/
def keyDemoTree (link : Option (List Str)) : KeyTree :=
  [⟨[(c!"REGISTRY", 1)], [], none⟩, ⟨[(c!"MACHINE", 2)], [], none⟩, ⟨[(c!"k", 3), (c!"s", 4)], [], none⟩, ⟨[(c!"j", 5)], [], none⟩,
   ⟨[], [1, 2], none⟩, ⟨[], [], link⟩]

/-- A link to `HKEY_LOCAL_MACHINE\s`. -/
def keyDemoLink : Option (List Str) := some [c!"REGISTRY", c!"MACHINE", c!"s"]

/-- Rules on `HKEY_LOCAL_MACHINE\k`. -/
def keyDemoRules : List WinCall := [.regRead c!"HKEY_LOCAL_MACHINE\\k", .regWrite c!"HKEY_LOCAL_MACHINE\\k"]

/-- The keys in a key. -/
def keyEntries (t : KeyTree) (d : Nat) : List (Str × Nat) := ((t[d]?).map (·.subkeys)).getD []

theorem KeyNamed_last {t : KeyTree} {cs : List Str} {i : Nat} (h : KeyNamed id t cs i) :
    (i = 0 ∧ cs = []) ∨ ∃ cs' c d, cs = cs' ++ [c] ∧ d ∈ List.range t.length ∧ (c, i) ∈ keyEntries t d ∧ KeyNamed id t cs' d := by
  cases h with
  | root => exact .inl ⟨rfl, rfl⟩
  | entry cs d e n c _ h hd hm hc =>
    refine .inr ⟨cs, c, d, rfl, List.mem_range.2 (List.getElem?_eq_some_iff.1 hd).1, ?_, h⟩
    cases (show n = c from hc)
    simp [keyEntries, hd, hm]

theorem keyDemo_secret (link : Option (List Str)) {cs : List Str} (h : KeyNamed id (keyDemoTree link) cs 4) :
    cs = [c!"REGISTRY", c!"MACHINE", c!"s"] := by
  have e : ∀ d, keyEntries (keyDemoTree link) d = keyEntries (keyDemoTree none) d := by
    intro d
    match d with
    | 0 | 1 | 2 | 3 | 4 | 5 => rfl
    | _ + 6 => rfl
  have all : ∀ d ∈ List.range (keyDemoTree none).length, ∀ e ∈ keyEntries (keyDemoTree none) d,
      (e.2 = 4 → d = 2 ∧ e.1 = c!"s") ∧ (e.2 = 2 → d = 1 ∧ e.1 = c!"MACHINE") ∧
      (e.2 = 1 → d = 0 ∧ e.1 = c!"REGISTRY") ∧ e.2 ≠ 0 := by decide
  rcases KeyNamed_last h with ⟨h, _⟩ | ⟨cs3, c3, d3, rfl, r3, m3, h3⟩
  · cases h
  rw [e] at m3
  obtain ⟨rfl, rfl⟩ := (all d3 r3 _ m3).1 rfl
  rcases KeyNamed_last h3 with ⟨h, _⟩ | ⟨cs2, c2, d2, rfl, r2, m2, h2⟩
  · cases h
  rw [e] at m2
  obtain ⟨rfl, rfl⟩ := (all d2 r2 _ m2).2.1 rfl
  rcases KeyNamed_last h2 with ⟨h, _⟩ | ⟨cs1, c1, d1, rfl, r1, m1, h1⟩
  · cases h
  rw [e] at m1
  obtain ⟨rfl, rfl⟩ := (all d1 r1 _ m1).2.2.1 rfl
  rcases KeyNamed_last h1 with ⟨_, rfl⟩ | ⟨cs0, c0, d0, rfl, r0, m0, h0⟩
  · rfl
  · rw [e] at m0
    exact absurd rfl (all d0 r0 _ m0).2.2.2

theorem trim_is_prefix (s : Str) : trim s <+: s := by
  unfold trim
  split
  · exact List.dropLast_prefix s
  · exact List.prefix_refl s

/-- The rules say nothing of `HKEY_LOCAL_MACHINE\s`. -/
theorem keyDemo_not_allowed {path : Str} (hp : KeyPathOf path [c!"REGISTRY", c!"MACHINE", c!"s"]) :
    ¬ KeyAllowed plainOs.sid keyDemoRules path := by
  have key : ∀ r k, r = c!"HKEY_LOCAL_MACHINE\\k" → RegKeyName plainOs.sid r k → ¬ AtOrAbove k (trim path) := by
    rintro r k rfl ⟨root, kernel, rest, hm, he, rfl⟩ ha
    have hk : trim (kernel ++ rest) = c!"\\REGISTRY\\MACHINE\\k" := by
      simp only [regRoots, List.mem_cons, Prod.mk.injEq, List.not_mem_nil, or_false] at hm
      rcases hm with ⟨rfl, rfl⟩ | ⟨rfl, rfl⟩ | ⟨rfl, rfl⟩ | ⟨rfl, rfl⟩ | ⟨rfl, rfl⟩
      all_goals simp at he
      subst he
      decide
    rw [hk] at ha
    have hpre : c!"\\REGISTRY\\MACHINE\\k" <+: path := by
      rcases ha with x | x
      · rw [x]; exact trim_is_prefix path
      · exact ((List.prefix_append _ _).trans x).trans (trim_is_prefix path)
    obtain ⟨rest', rfl⟩ := hpre
    have hn := hp.names (by simp)
    have hs : split '\\' (c!"\\REGISTRY\\MACHINE\\k" ++ rest') = [] :: c!"REGISTRY" :: c!"MACHINE" :: split '\\' ('k' :: rest') := by
      rw [show c!"\\REGISTRY\\MACHINE\\k" ++ rest' = [] ++ '\\' :: (c!"REGISTRY" ++ '\\' :: (c!"MACHINE" ++ '\\' :: ('k' :: rest')))
        from rfl, split_append (by simp), split_append (by decide), split_append (by decide)]
    obtain ⟨x, l, hx⟩ : ∃ x l, split '\\' ('k' :: rest') = ('k' :: x) :: l := by
      simp only [split]
      rw [if_neg (by decide)]
      split
      · exact ⟨[], [], rfl⟩
      · rename_i a b _; exact ⟨a, b, rfl⟩
    rw [hx] at hs
    simp only [keyNames, hs, Option.some.injEq] at hn
    simp at hn
  rintro (⟨r, k, hr, hk, ha⟩ | ⟨r, k, hr, hk, ha⟩)
  · simp only [keyDemoRules, List.mem_cons, List.not_mem_nil, or_false, WinCall.regRead.injEq, reduceCtorEq] at hr
    exact key r k hr hk ha
  · simp only [keyDemoRules, List.mem_cons, List.not_mem_nil, or_false, WinCall.regWrite.injEq, reduceCtorEq, false_or] at hr
    exact key r k hr hk ha

/-- All that was done in a session with these rules. -/
def keyDemoTrace (rest : List (WinIncoming × WinChoice)) : List WinAction :=
  ((WinBroker.start ⟨[(4, 1), (8, 2)], []⟩ 4 8).run false (Policy.nothingAllowed.winCalls plainOs keyDemoRules) winDemoFirst rest).trace

/-- A key it has is `HKEY_LOCAL_MACHINE\s`. -/
theorem keyDemo_violated {k : KeyKernel} (hk : k.upcase = id) {rest : List (WinIncoming × WinChoice)} (link : Option (List Str))
    {st : KeyState} (hr : KeysRun k (keyDemoTree link) (keyDemoTrace rest) st) {o : KeyOpened} (ho : o ∈ st.opened) (h4 : o.key = 4) :
    ¬ Spec.KeysAsRulesName k rest (keyDemoTree link) := by
  intro hall
  obtain ⟨path, cs, hp, hn, hg⟩ := (hall plainOs keyDemoRules _ 4 8 winDemoFirst st hr).1 o ho
  rw [h4, hk] at hn
  rcases hn with hn | hn
  · have hlen : List.length (keyDemoTree link) = 6 := rfl
    omega
  · have := keyDemo_secret link hn
    subst this
    exact keyDemo_not_allowed hp hg

/-- A worker opens `HKEY_LOCAL_MACHINE\k\j`. -/
def keyLast : WinIPCRequest := .ntCreateKey 1 c!"\\REGISTRY\\MACHINE\\k\\j" 0 none 0 false
/-- A worker opens `HKEY_LOCAL_MACHINE\k`, as 32-bit programs see it. -/
def keyOther : WinIPCRequest := .ntCreateKey 0x201 c!"\\REGISTRY\\MACHINE\\k" 0 none 0 false
/-- A worker opens `HKEY_LOCAL_MACHINE\k`, to write. -/
def keyChange : WinIPCRequest := .ntCreateKey 0x20006 c!"\\REGISTRY\\MACHINE\\k" 0 none 0 false

theorem keyDemo_short {r : WinIPCRequest} (hr : winRequest (.message (winDemoBytes r none)) = some r)
    (hs : ∀ access path titleIndex cls options create, r = .ntCreateKey access path titleIndex cls options create →
      (utf16 path).length < 32768) : ShortKeyNames (ntDemoRest [r]) := by
  intro i hi access path titleIndex cls options create he
  simp only [ntDemoRest, List.zipIdx_cons, List.zipIdx_nil, List.map_cons, List.map_nil, List.mem_singleton] at hi
  subst hi
  rw [hr] at he
  exact hs _ _ _ _ _ _ (Option.some.inj he)

theorem keyLast_short : ShortKeyNames (ntDemoRest [keyLast]) :=
  keyDemo_short (by decide +kernel) (by rintro _ _ _ _ _ _ ⟨⟩; decide)
theorem keyOther_short : ShortKeyNames (ntDemoRest [keyOther]) :=
  keyDemo_short (by decide +kernel) (by rintro _ _ _ _ _ _ ⟨⟩; decide)
theorem keyChange_short : ShortKeyNames (ntDemoRest [keyChange]) :=
  keyDemo_short (by decide +kernel) (by rintro _ _ _ _ _ _ ⟨⟩; decide)

/-- There is no link at all. -/
theorem keyDemo_noLinks (up : Str → Str) (sid : Str) (h : List WinCall) : NoKeyLinks up sid h (keyDemoTree none) := by
  intro _ _ _ i key _ _ _ _ hi
  match i, hi with
  | 0, hi => cases hi; rfl
  | 1, hi => cases hi; rfl
  | 2, hi => cases hi; rfl
  | 3, hi => cases hi; rfl
  | 4, hi => cases hi; rfl
  | 5, hi => cases hi; rfl
  | _ + 6, hi => simp [keyDemoTree] at hi

/-- C141 is false when a key the rules name is a link: a worker which may only use `HKEY_LOCAL_MACHINE\k`, where `j` is a link to
`HKEY_LOCAL_MACHINE\s`, is given the latter. -/
theorem C141_violated_link : ∃ rest, ShortKeyNames rest ∧
    ¬ Spec.KeysAsRulesName ⟨id, fun _ cs => cs, false⟩ rest (keyDemoTree keyDemoLink) :=
  ⟨_, keyLast_short, keyDemo_violated rfl keyDemoLink (o := ⟨4, some (2, c!"s"), 1, false⟩) (keysAfter_run _ _ _) (by decide +kernel) rfl⟩

/-- `KEY_WOW64_32KEY` leads to another key: here, in place of `k`, to `s`. -/
def keyDemoView (access : BitVec 32) (cs : List Str) : List Str :=
  if access.getLsbD 9 = true then cs.map fun c => if c = c!"k" then c!"s" else c else cs

/-- C141 is false without any link, when the access asked for leads elsewhere: a worker which may only use `HKEY_LOCAL_MACHINE\k` is
given `HKEY_LOCAL_MACHINE\s`. -/
theorem C141_violated_view : ∃ rest, ShortKeyNames rest ∧ NoKeyLinks id plainOs.sid keyDemoRules (keyDemoTree none) ∧
    ¬ Spec.KeysAsRulesName ⟨id, keyDemoView, false⟩ rest (keyDemoTree none) :=
  ⟨_, keyOther_short, keyDemo_noLinks _ _ _,
    keyDemo_violated rfl none (o := ⟨4, some (2, c!"s"), 0x201, false⟩) (keysAfter_run _ _ _) (by decide +kernel) rfl⟩

/-- C141 is false without any link, when the worker is let rename keys: it gives `HKEY_LOCAL_MACHINE\k` another name, where its rules
do not allow to write. -/
theorem C141_violated_rename : ∃ rest, ShortKeyNames rest ∧ NoKeyLinks id plainOs.sid keyDemoRules (keyDemoTree none) ∧
    ¬ Spec.KeysAsRulesName ⟨id, fun _ cs => cs, true⟩ rest (keyDemoTree none) := by
  refine ⟨_, keyChange_short, keyDemo_noLinks _ _ _, fun hall => ?_⟩
  have hr : KeysRun ⟨id, fun _ cs => cs, true⟩ (keyDemoTree none) (keyDemoTrace (ntDemoRest [keyChange])) _ :=
    .renames _ _ ⟨3, some (2, c!"k"), 0x20006, false⟩ c!"n" (keysAfter_run _ _ _) (by decide +kernel) rfl (by decide)
  have hd := (hall plainOs keyDemoRules _ 4 8 winDemoFirst _ hr).2
  obtain ⟨key', h1, _, _, h3, _⟩ := hd.1 2 ⟨[(c!"k", 3), (c!"s", 4)], [], none⟩ rfl
  have h2 : (KeyState.rename (keysAfter ⟨id, fun _ cs => cs, true⟩ (keyDemoTree none) (keyDemoTrace (ntDemoRest [keyChange])))
      ⟨id, fun _ cs => cs, true⟩ ⟨3, some (2, c!"k"), 0x20006, false⟩ c!"n").tree[2]? =
      some ⟨[(c!"n", 3), (c!"s", 4)], [], none⟩ := by decide +kernel
  rw [h2] at h1
  cases h1
  rcases h3 c!"n" 3 (by simp) with x | ⟨x, _⟩
  · revert x; decide
  · revert x; decide

/-! ### Examples -/

/-- The hypotheses of C141 are met by a session in which a key is opened; the case of names does not matter. -/
example : ShortKeyNames (ntDemoRest [keyLast]) ∧ NoKeyLinks asciiUpper plainOs.sid keyDemoRules (keyDemoTree none) ∧
    KeysRun ⟨asciiUpper, fun _ cs => cs, false⟩ (keyDemoTree none) (keyDemoTrace (ntDemoRest [keyLast]))
      ⟨keyDemoTree none, [⟨5, some (3, c!"j"), 1, false⟩]⟩ := by
  refine ⟨keyLast_short, keyDemo_noLinks _ _ _, ?_⟩
  have e : keysAfter ⟨asciiUpper, fun _ cs => cs, false⟩ (keyDemoTree none) (keyDemoTrace (ntDemoRest [keyLast])) =
      ⟨keyDemoTree none, [⟨5, some (3, c!"j"), 1, false⟩]⟩ := by decide +kernel
  rw [← e]
  exact keysAfter_run _ _ _

/-- A session in which keys are made, one of which exists under a name in another case, written to and deleted. -/
def keyMaking : List WinIPCRequest :=
  [.ntCreateKey 2 c!"\\REGISTRY\\MACHINE\\k\\n" 0 none 0 true, .ntCreateKey 0x10000 c!"\\REGISTRY\\MACHINE\\k\\J" 0 none 1 true]

example : keysAfter ⟨asciiUpper, fun _ cs => cs, false⟩ (keyDemoTree none) (keyDemoTrace (ntDemoRest keyMaking)) =
      ⟨[⟨[(c!"REGISTRY", 1)], [], none⟩, ⟨[(c!"MACHINE", 2)], [], none⟩, ⟨[(c!"k", 3), (c!"s", 4)], [], none⟩,
        ⟨[(c!"j", 5), (c!"n", 6)], [], none⟩, ⟨[], [1, 2], none⟩, ⟨[], [], none⟩, ⟨[], [], none⟩],
       [⟨6, some (3, c!"n"), 2, true⟩, ⟨5, some (3, c!"J"), 0x10000, true⟩]⟩ := by decide +kernel

/-- Values are set, keys are deleted if nothing is in them, and links are led elsewhere only if they are links. -/
example : ((KeyState.mk (keyDemoTree none) []).set 4 [7]).tree[4]? = some ⟨[], [7], none⟩ ∧
    ((KeyState.mk (keyDemoTree none) []).remove ⟨id, fun _ cs => cs, false⟩ ⟨5, some (3, c!"j"), 0x10000, false⟩).tree[3]? =
      some ⟨[], [], none⟩ ∧
    (KeyState.mk (keyDemoTree none) []).remove ⟨id, fun _ cs => cs, false⟩ ⟨3, some (2, c!"k"), 0x10000, false⟩ = ⟨keyDemoTree none, []⟩ ∧
    (KeyState.mk (keyDemoTree none) []).retarget 5 [c!"a"] = ⟨keyDemoTree none, []⟩ ∧
    (KeyState.mk (keyDemoTree keyDemoLink) []).retarget 5 [c!"a"] = ⟨keyDemoTree (some [c!"a"]), []⟩ := by decide +kernel

/-- What is not there is not opened; it is made, if all but the last name exist; a link is opened itself, or made, if the options say so;
several backslashes are as one. -/
example : ntOpenKey ⟨id, fun _ cs => cs, false⟩ (keyDemoTree none) 1 (utf16 c!"\\REGISTRY\\MACHINE\\x") none = .error 0xC0000034 ∧
    (ntCreateKey ⟨id, fun _ cs => cs, false⟩ (keyDemoTree none) 1 (utf16 c!"\\REGISTRY\\MACHINE\\x") 0 none).1 = .ok (6, some (2, c!"x")) ∧
    (ntCreateKey ⟨id, fun _ cs => cs, false⟩ (keyDemoTree none) 1 (utf16 c!"\\REGISTRY\\MACHINE\\x\\y") 0 none).1 = .error 0xC0000034 ∧
    (ntCreateKey ⟨id, fun _ cs => cs, false⟩ (keyDemoTree keyDemoLink) 1 (utf16 c!"\\REGISTRY\\MACHINE\\k\\j") 8 none).1 =
      .ok (5, some (3, c!"j")) ∧
    (ntCreateKey ⟨id, fun _ cs => cs, false⟩ (keyDemoTree keyDemoLink) 1 (utf16 c!"\\REGISTRY\\MACHINE\\k\\j\\z") 0 none).1 =
      .ok (6, some (4, c!"z")) ∧
    (ntCreateKey ⟨id, fun _ cs => cs, false⟩ (keyDemoTree none) 1 (utf16 c!"\\REGISTRY\\MACHINE\\x") 2 none).2[6]? =
      some ⟨[], [], some []⟩ ∧
    (ntCreateKey ⟨id, fun _ cs => cs, false⟩ (keyDemoTree none) 1 (utf16 c!"\\REGISTRY\\MACHINE\\k") 2 none).1 = .error 0xC0000035 ∧
    ntOpenKey ⟨id, fun _ cs => cs, false⟩ (keyDemoTree none) 1 (utf16 c!"\\REGISTRY\\\\MACHINE\\k\\") none = .ok (3, some (2, c!"k")) ∧
    ntOpenKey ⟨id, fun _ cs => cs, false⟩ (keyDemoTree none) 1 (utf16 c!"REGISTRY") none = .error 0xC000003B ∧
    ntOpenKey ⟨id, fun _ cs => cs, false⟩ (keyDemoTree (some [c!"REGISTRY", c!"MACHINE", c!"k", c!"j"])) 1
      (utf16 c!"\\REGISTRY\\MACHINE\\k\\j") none = .error 0xC000003B := by
  refine ⟨?_, ?_, ?_, ?_, ?_, ?_, ?_, ?_, ?_, ?_⟩ <;> decide +kernel

/-- `C141_finds` has its hypotheses met. -/
example : KeyPathOf c!"\\REGISTRY\\\\MACHINE" [c!"REGISTRY", c!"MACHINE"] ∧
    KeyNamed id (keyDemoTree none) [c!"REGISTRY", c!"MACHINE"] 2 :=
  ⟨⟨[c!"REGISTRY", [], c!"MACHINE"], by decide, by decide, by decide⟩,
    .entry [c!"REGISTRY"] 1 _ c!"MACHINE" c!"MACHINE" 2 (.entry [] 0 _ c!"REGISTRY" c!"REGISTRY" 1 .root rfl (by simp) rfl) rfl (by simp) rfl⟩

end Iris
