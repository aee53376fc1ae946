import Verif.Lemmas.ManyWin
/-! # Lemmas on the registry keys of all workers of a broker on Windows -/
namespace Iris
open Spec

/-! ### One worker with all the rules -/

theorem keyCreate_shape (k : KeyKernel) (t : KeyTree) (access : BitVec 32) (name : ObjectName) (options : BitVec 32)
    (refuse : Option (BitVec 32)) : ∃ t' l, (∀ opened, KeyState.create ⟨t, opened⟩ k access name options refuse =
      ⟨t', opened ++ l⟩) ∧ (ntCreateKey k t access name options refuse).2 = t' ∧
      ∀ o ∈ l, o.access = access ∧ o.create = true ∧
        (ntCreateKey k t access name options refuse).1 = .ok (o.key, o.place) := by
  unfold KeyState.create
  cases h : ntCreateKey k t access name options refuse with
  | mk r t' =>
    cases r with
    | error e => exact ⟨t', [], by simp [h], rfl, by simp⟩
    | ok x => exact ⟨t', [⟨x.1, x.2, access, true⟩], by simp [h], rfl, by simp⟩

theorem keyOpen_shape (k : KeyKernel) (t : KeyTree) (access : BitVec 32) (name : ObjectName)
    (refuse : Option (BitVec 32)) : ∃ l, (∀ opened, KeyState.open ⟨t, opened⟩ k access name refuse = ⟨t, opened ++ l⟩) ∧
      ∀ o ∈ l, o.access = access ∧ o.create = false ∧ ntOpenKey k t access name refuse = .ok (o.key, o.place) := by
  unfold KeyState.open
  cases h : ntOpenKey k t access name refuse with
  | error e => exact ⟨[], by simp [h], by simp⟩
  | ok x => exact ⟨[⟨x.1, x.2, access, false⟩], by simp [h], by simp⟩

theorem keySet_shape (t : KeyTree) (i : Nat) (values : Bytes) :
    ∃ t', (∀ opened, KeyState.set ⟨t, opened⟩ i values = ⟨t', opened⟩) ∧
      (t' = t ∨ ∃ old, t[i]? = some old ∧ t' = t.set i ⟨old.subkeys, values, old.link⟩) := by
  unfold KeyState.set
  cases h : t[i]? with
  | none => exact ⟨t, by simp [h], .inl rfl⟩
  | some n => exact ⟨_, by simp [h], .inr ⟨n, rfl, rfl⟩⟩

theorem keyRetarget_shape (t : KeyTree) (i : Nat) (target : List Str) :
    ∃ t', (∀ opened, KeyState.retarget ⟨t, opened⟩ i target = ⟨t', opened⟩) ∧
      (t' = t ∨ ∃ old, t[i]? = some old ∧ old.link ≠ none) := by
  unfold KeyState.retarget
  cases h : t[i]? with
  | none => exact ⟨t, by simp [h], .inl rfl⟩
  | some n =>
    obtain ⟨a, b, c⟩ := n
    cases c with
    | none => exact ⟨t, by simp [h], .inl rfl⟩
    | some x => exact ⟨t.set i ⟨a, b, some target⟩, by simp [h], .inr ⟨_, rfl, by simp⟩⟩

theorem keyRemove_shape (k : KeyKernel) (t : KeyTree) (o : KeyOpened) :
    ∃ t', (∀ opened, KeyState.remove ⟨t, opened⟩ k o = ⟨t', opened⟩) ∧
      (t' = t ∨ ∃ d c old, o.place = some (d, c) ∧ t[d]? = some old ∧
        t' = t.set d ⟨old.subkeys.filter fun e => k.upcase e.1 ≠ k.upcase c, old.values, old.link⟩) := by
  by_cases hp : ∃ d c old v li, o.place = some (d, c) ∧ t[d]? = some old ∧ t[o.key]? = some ⟨[], v, li⟩ ∧
      k.lookup old.subkeys c = some o.key
  · obtain ⟨d, c, old, v, li, h1, h2, h3, h4⟩ := hp
    refine ⟨_, fun opened => ?_, .inr ⟨d, c, old, h1, h2, rfl⟩⟩
    unfold KeyState.remove
    simp only [h1, h2, h3, h4, if_true]
  · refine ⟨t, fun opened => ?_, .inl rfl⟩
    unfold KeyState.remove
    split
    · rfl
    · rename_i d c hpl
      split
      · rename_i key v li hd hk
        split
        · rename_i hl
          exact (hp ⟨d, c, key, v, li, hpl, hd, hk, hl⟩).elim
        · rfl
      · rfl

theorem manyKeys_one {k : KeyKernel} {t : KeyTree} {es : List (SharedEvent KeyTree)} {st : SharedBy KeyTree KeyOpened}
    (hr : ManyKeysRun k t es st) (hk : k.renames = false) :
    ∃ acts opened, KeysRun k t acts ⟨st.tree, opened⟩ ∧ (∀ j, ∀ o ∈ st.opened j, o ∈ opened) ∧
      ∀ a ∈ acts, ∃ j b c, .did j a b c ∈ es := by
  have left : ∀ {es : List (SharedEvent KeyTree)} {acts : List WinAction} {e : SharedEvent KeyTree},
      (∀ a ∈ acts, ∃ j b c, SharedEvent.did j a b c ∈ es) → ∀ a ∈ acts, ∃ j b c, SharedEvent.did j a b c ∈ es ++ [e] := by
    intro es acts e h a ha
    obtain ⟨j', b, c, hm⟩ := h a ha
    exact ⟨j', b, c, List.mem_append_left _ hm⟩
  induction hr with
  | start => exact ⟨[], [], .start, by simp, by simp⟩
  | creates es st j access name titleIndex cls options r refuse _ ih =>
    obtain ⟨acts, opened, h1, h2, h3⟩ := ih
    obtain ⟨t', l, hs, _, _⟩ := keyCreate_shape k st.tree access name options refuse
    have := KeysRun.creates acts _ access name titleIndex cls options r refuse h1
    rw [hs] at this
    simp only [SharedBy.onKeys, hs]
    refine ⟨_, _, this, fun j' o ho => ?_, fun a ha => ?_⟩
    · split at ho
      · rename_i e
        subst e
        rcases List.mem_append.1 ho with x | x
        · exact List.mem_append_left _ (h2 _ o x)
        · exact List.mem_append_right _ x
      · exact List.mem_append_left _ (h2 _ o ho)
    · rcases List.mem_append.1 ha with x | x
      · exact left h3 a x
      · obtain rfl := List.mem_singleton.1 x
        exact ⟨j, _, _, List.mem_append_right _ (List.mem_singleton.2 rfl)⟩
  | opens es st j access name r refuse _ ih =>
    obtain ⟨acts, opened, h1, h2, h3⟩ := ih
    obtain ⟨l, hs, _⟩ := keyOpen_shape k st.tree access name refuse
    have := KeysRun.opens acts _ access name r refuse h1
    rw [hs] at this
    simp only [SharedBy.onKeys, hs]
    refine ⟨_, _, this, fun j' o ho => ?_, fun a ha => ?_⟩
    · split at ho
      · rename_i e
        subst e
        rcases List.mem_append.1 ho with x | x
        · exact List.mem_append_left _ (h2 _ o x)
        · exact List.mem_append_right _ x
      · exact List.mem_append_left _ (h2 _ o ho)
    · rcases List.mem_append.1 ha with x | x
      · exact left h3 a x
      · obtain rfl := List.mem_singleton.1 x
        exact ⟨j, _, _, List.mem_append_right _ (List.mem_singleton.2 rfl)⟩
  | others es st j a _ _ _ ih =>
    obtain ⟨acts, opened, h1, h2, h3⟩ := ih
    exact ⟨acts, opened, h1, h2, left h3⟩
  | sets es st j o values _ ho hw ih =>
    obtain ⟨acts, opened, h1, h2, h3⟩ := ih
    obtain ⟨t', hs, _⟩ := keySet_shape st.tree o.key values
    have := KeysRun.sets acts _ o values h1 (h2 j o ho) hw
    rw [hs] at this
    simp only [SharedBy.onKeys, hs]
    refine ⟨_, _, this, fun j' o' ho' => ?_, left h3⟩
    split at ho' <;> exact h2 _ _ ho'
  | retargets es st j o target _ ho hw ih =>
    obtain ⟨acts, opened, h1, h2, h3⟩ := ih
    obtain ⟨t', hs, _⟩ := keyRetarget_shape st.tree o.key target
    have := KeysRun.retargets acts _ o target h1 (h2 j o ho) hw
    rw [hs] at this
    simp only [SharedBy.onKeys, hs]
    refine ⟨_, _, this, fun j' o' ho' => ?_, left h3⟩
    split at ho' <;> exact h2 _ _ ho'
  | removes es st j o _ ho hw ih =>
    obtain ⟨acts, opened, h1, h2, h3⟩ := ih
    obtain ⟨t', hs, _⟩ := keyRemove_shape k st.tree o
    have := KeysRun.removes acts _ o h1 (h2 j o ho) hw
    rw [hs] at this
    simp only [SharedBy.onKeys, hs]
    refine ⟨_, _, this, fun j' o' ho' => ?_, left h3⟩
    split at ho' <;> exact h2 _ _ ho'
  | renames es st j o name _ ho hk' => rw [hk] at hk'; cases hk'

/-- The calls made for the workers are for requests their rules allow. -/
structure KeyCallsGranted (sid : Str) (h : Nat → List WinCall) (es : List (SharedEvent KeyTree)) : Prop where
  creates : ∀ j access name titleIndex cls options r,
    WinAction.called (.createKey access name titleIndex cls options) r ∈ winDoneFor j es →
    ∃ path, name = utf16 path ∧ KeyGranted sid (h j) access options true path
  opens : ∀ j access name r, WinAction.called (.openKey access name) r ∈ winDoneFor j es →
    ∃ path, name = utf16 path ∧ ∃ options, KeyGranted sid (h j) access options false path

theorem KeyCallsGranted.sub {sid : Str} {h : Nat → List WinCall} {es es' : List (SharedEvent KeyTree)} (hg : KeyCallsGranted sid h es)
    (hs : ∀ e ∈ es', e ∈ es) : KeyCallsGranted sid h es' where
  creates := fun j _ _ _ _ _ _ hm => hg.creates j _ _ _ _ _ _ (winDoneFor_sub hs hm)
  opens := fun j _ _ _ hm => hg.opens j _ _ _ (winDoneFor_sub hs hm)

theorem regWrite_mono {sid : Str} {h h' : List WinCall} (hh : ∀ c ∈ h, c ∈ h') {path : Str} (hg : RegWriteAllowed sid h path) :
    RegWriteAllowed sid h' path := by
  obtain ⟨r, k, hr, rest⟩ := hg
  exact ⟨r, k, hh _ hr, rest⟩

theorem regRead_mono {sid : Str} {h h' : List WinCall} (hh : ∀ c ∈ h, c ∈ h') {path : Str} (hg : RegReadAllowed sid h path) :
    RegReadAllowed sid h' path := by
  obtain ⟨r, k, hr, rest⟩ := hg
  exact ⟨r, k, hh _ hr, rest⟩

theorem keyAllowed_union {sid : Str} {h : Nat → List WinCall} {js : List Nat} {path : Str}
    (hg : KeyAllowed sid (js.flatMap h) path) : ∃ j ∈ js, KeyAllowed sid (h j) path := by
  rcases hg with ⟨r, k, hr, rest⟩ | ⟨r, k, hr, rest⟩
  · obtain ⟨j, hj, hr⟩ := List.mem_flatMap.1 hr
    exact ⟨j, hj, .inl ⟨r, k, hr, rest⟩⟩
  · obtain ⟨j, hj, hr⟩ := List.mem_flatMap.1 hr
    exact ⟨j, hj, .inr ⟨r, k, hr, rest⟩⟩

theorem KeyGranted.mono {sid : Str} {h h' : List WinCall} (hh : ∀ c ∈ h, c ∈ h') {access options : BitVec 32} {create : Bool}
    {path : Str} (hg : KeyGranted sid h access options create path) : KeyGranted sid h' access options create path :=
  ⟨hg.1, hg.2.1.imp (regRead_mono hh) (regWrite_mono hh), fun x => regRead_mono hh (hg.2.2.1 x), fun x => regWrite_mono hh (hg.2.2.2 x)⟩

theorem noKeyLinks_union {up : Str → Str} {sid : Str} {h : Nat → List WinCall} {t : KeyTree} (js : List Nat)
    (hl : ∀ j, NoKeyLinks up sid (h j) t) : NoKeyLinks up sid (js.flatMap h) t := by
  intro path cs ds i key hg
  obtain ⟨j, _, hg⟩ := keyAllowed_union hg
  exact hl j path cs ds i key hg

theorem Spec.KeysMayHaveDone.noKeyLinks_other {up : Str → Str} {sid : Str} {h h' : List WinCall} {t t' : KeyTree}
    (hd : KeysMayHaveDone up sid h t t') (hl : NoKeyLinks up sid h' t) : NoKeyLinks up sid h' t' := by
  intro path cs ds i key ha hp hpre hn hi
  rcases hd.named hn with x | x
  · exact (hd.2 i _ x hi).1
  · rcases hd.link hi with y | ⟨key0, y, z⟩
    · exact y
    · rw [z]; exact hl path cs ds i key0 ha hp hpre x y

theorem manyKeys_done {k : KeyKernel} {sid : Str} {h : Nat → List WinCall} {t : KeyTree} {es : List (SharedEvent KeyTree)}
    {st : SharedBy KeyTree KeyOpened} (hr : ManyKeysRun k t es st) (hk : k.renames = false)
    (hv : ∀ access cs, k.view access cs = cs) (hl : ∀ j, NoKeyLinks k.upcase sid (h j) t) (hg : KeyCallsGranted sid h es)
    {js : List Nat} (hjs : ∀ e ∈ es, ∀ j, WinChangeBy j e → j ∈ js) :
    KeysMayHaveDone k.upcase sid (js.flatMap h) t st.tree ∧
    ∀ j, ∀ o ∈ st.opened j, ∀ key, st.tree[o.key]? = some key → key.link = none := by
  obtain ⟨acts, opened, h1, h2, h3⟩ := manyKeys_one hr hk
  have hu := noKeyLinks_union js hl
  have ok := keysRun_ok h1 hk hv hu (fun access name titleIndex cls options r hm => by
      obtain ⟨j, b, c, hm⟩ := h3 _ hm
      have hj := hjs _ hm j (.inl ⟨_, _, _, rfl⟩)
      obtain ⟨path, a, b⟩ := hg.creates j access name titleIndex cls options r (List.mem_filterMap.2 ⟨_, hm, by simp⟩)
      exact ⟨path, a, b.mono fun c hc => List.mem_flatMap.2 ⟨j, hj, hc⟩⟩)
    (fun access name r hm => by
      obtain ⟨j, b, c, hm⟩ := h3 _ hm
      have hj := hjs _ hm j (.inl ⟨_, _, _, rfl⟩)
      obtain ⟨path, a, options, b⟩ := hg.opens j access name r (List.mem_filterMap.2 ⟨_, hm, by simp⟩)
      exact ⟨path, a, options, b.mono fun c hc => List.mem_flatMap.2 ⟨j, hj, hc⟩⟩)
  refine ⟨ok.1, fun j o ho key hkey => ?_⟩
  obtain ⟨path, ⟨cs, hp, hn, _⟩, ha, _⟩ := ok.2 o (h2 j o ho)
  exact ok.1.plain hu ha hp (List.prefix_refl cs) hn hkey

/-! ### Each worker -/

theorem Spec.KeyNamed.kept {up : Str → Str} {t t' : KeyTree}
    (hk : ∀ (d : Nat) e, t[d]? = some e → ∃ e', t'[d]? = some e' ∧ ∀ x ∈ e.subkeys, x ∈ e'.subkeys) {cs : List Str} {i : Nat}
    (hn : KeyNamed up t cs i) : KeyNamed up t' cs i := by
  induction hn with
  | root => exact .root
  | entry cs d e n c i _ hd hm hc ih =>
    obtain ⟨e', h1, h2⟩ := hk d e hd
    exact .entry cs d e' n c i ih h1 (h2 _ hm) hc

theorem keyAdd_kept {t : KeyTree} {d : Nat} {c : Str} {n : KeyNode} :
    ∀ (d' : Nat) e, t[d']? = some e → ∃ e', (t.add d c n)[d']? = some e' ∧ ∀ x ∈ e.subkeys, x ∈ e'.subkeys := by
  intro d' e hd
  have hlt := (List.getElem?_eq_some_iff.1 hd).1
  unfold KeyTree.add
  split
  · rename_i e0 h0
    have hl : d' < (List.set t d { e0 with subkeys := e0.subkeys ++ [(c, List.length t)] }).length := by simpa using hlt
    rw [List.getElem?_append_left hl]
    by_cases e1 : d = d'
    · subst e1
      rw [h0] at hd
      cases hd
      refine ⟨_, List.getElem?_set_self hlt, fun x hx => List.mem_append_left _ hx⟩
    · exact ⟨e, by rw [List.getElem?_set_ne e1]; exact hd, fun x h => h⟩
  · exact ⟨e, hd, fun x h => h⟩

/-- A key can only be missing from a key. -/
theorem keyWalkWith_missing_key {k : KeyKernel} {t : KeyTree} {follow : Bool} {again : List Str → KeyWalk}
    (ha : ∀ l d c, again l = .missing d c → ∃ e, t[d]? = some e) : ∀ (cs : List Str) (cur : Nat) (place : Option (Nat × Str)) d c,
      keyWalkWith k t follow again cur place cs = .missing d c → ∃ e, t[d]? = some e := by
  intro cs
  induction cs with
  | nil => intro cur place d c h; cases h
  | cons c0 rest ih =>
    intro cur place d c h
    simp only [keyWalkWith] at h
    split at h
    · cases h
    · rename_i e he
      split at h
      · split at h
        · cases h; exact ⟨e, he⟩
        · cases h
      · split at h
        · cases h
        · exact ih _ _ _ _ h
        · split at h
          · cases h
          · split at h
            · cases h
            · exact ha _ _ _ h

theorem keyWalkLinks_missing_key {k : KeyKernel} {t : KeyTree} {follow : Bool} {n : Nat} : ∀ {cs : List Str} {d : Nat} {c : Str},
    keyWalkLinks k t follow n cs = .missing d c → ∃ e, t[d]? = some e := by
  induction n with
  | zero => exact fun h => keyWalkWith_missing_key (fun l d c h => by cases h) _ _ _ _ _ h
  | succ n ih => exact fun h => keyWalkWith_missing_key (fun l d c h => ih h) _ _ _ _ _ h

/-- What is known of a key just opened or made for a path. -/
def KeyThere (up : Str → Str) (t : KeyTree) (path : Str) (i : Nat) (place : Option (Nat × Str)) : Prop :=
  ∃ cs, KeyPathOf path cs ∧ KeyNamed up t cs i ∧ ∀ d c, place = some (d, c) → ∃ init, cs = init ++ [c] ∧ KeyNamed up t init d

theorem ntOpenKey_named {k : KeyKernel} {sid : Str} {h : List WinCall} {t : KeyTree} {path : Str} {access : BitVec 32}
    (refuse : Option (BitVec 32)) (hl : NoKeyLinks k.upcase sid h t) (hv : ∀ access cs, k.view access cs = cs)
    (hg : KeyAllowed sid h path) (i : Nat) (place : Option (Nat × Str))
    (hi : ntOpenKey k t access (utf16 path) refuse = .ok (i, place)) : KeyThere k.upcase t path i place := by
  unfold ntOpenKey at hi
  cases refuse with
  | some e => cases hi
  | none =>
    simp only [fromUtf16_utf16, Option.bind_some, hv] at hi
    cases hnames : keyNames path with
    | none => rw [hnames] at hi; cases hi
    | some cs =>
      have hp := keyNames_pathOf hnames
      have hwalk := keyWalkLinks_named (k := k) (t := t) true 63 (cs := cs)
        (fun ds i key hpre hn hi => hl path cs ds i key hg hp hpre hn hi)
      rw [hnames] at hi
      simp only [] at hi
      cases hr : keyWalkLinks k t true 63 cs with
      | failed e => rw [hr] at hi; cases hi
      | missing d c => rw [hr] at hi; cases hi
      | found i' place' =>
        rw [hr] at hi
        cases hi
        obtain ⟨a, b⟩ := hwalk.1 i place hr
        exact ⟨cs, hp, a, b⟩

theorem ntCreateKey_named {k : KeyKernel} {sid : Str} {h : List WinCall} {t : KeyTree} {path : Str} {access options : BitVec 32}
    (refuse : Option (BitVec 32)) (hl : NoKeyLinks k.upcase sid h t) (hv : ∀ access cs, k.view access cs = cs)
    (hg : KeyAllowed sid h path) (i : Nat) (place : Option (Nat × Str))
    (hi : (ntCreateKey k t access (utf16 path) options refuse).1 = .ok (i, place)) :
    KeyThere k.upcase (ntCreateKey k t access (utf16 path) options refuse).2 path i place := by
  unfold ntCreateKey at hi ⊢
  cases refuse with
  | some e => cases hi
  | none =>
    simp only [fromUtf16_utf16, Option.bind_some, hv] at hi ⊢
    cases hnames : keyNames path with
    | none => rw [hnames] at hi; cases hi
    | some cs =>
      have hp := keyNames_pathOf hnames
      have hwalk := keyWalkLinks_named (k := k) (t := t) (decide (options &&& 8#32 = 0#32)) 63 (cs := cs)
        (fun ds i key hpre hn hi => hl path cs ds i key hg hp hpre hn hi)
      rw [hnames] at hi
      simp only [] at hi ⊢
      cases hr : keyWalkLinks k t (decide (options &&& 8#32 = 0#32)) 63 cs with
      | failed e => rw [hr] at hi; cases hi
      | found i' place' =>
        rw [hr] at hi
        simp only [] at hi ⊢
        split at hi
        · rename_i q
          rw [if_pos q]
          cases hi
          obtain ⟨a, b⟩ := hwalk.1 i place hr
          exact ⟨cs, hp, a, b⟩
        · cases hi
      | missing d c =>
        rw [hr] at hi
        simp only [] at hi ⊢
        cases hi
        obtain ⟨init, h1, h2⟩ := hwalk.2 d c hr
        obtain ⟨e, hd⟩ := keyWalkLinks_missing_key hr
        have hlt := (List.getElem?_eq_some_iff.1 hd).1
        have hn := h2.kept (keyAdd_kept (t := t) (d := d) (c := c) (n := ⟨[], [], if options &&& 2#32 = 0#32 then none else some []⟩))
        refine ⟨cs, hp, ?_, fun d' c' he => by cases he; exact ⟨init, h1, hn⟩⟩
        rw [h1]
        refine .entry init d { e with subkeys := e.subkeys ++ [(c, List.length t)] } c c _ hn ?_ (by simp) rfl
        unfold KeyTree.add
        rw [hd]
        simp only []
        rw [List.getElem?_append_left (by simpa using hlt), List.getElem?_set_self hlt]

/-- A key a worker has: how it was opened, and what it was then. -/
def KeyHas (up : Str → Str) (sid : Str) (h : List WinCall) (es : List (SharedEvent KeyTree)) (j : Nat) (o : KeyOpened) : Prop :=
  ∃ path a before tree, .did j a before tree ∈ es ∧
    ((∃ titleIndex cls options r, o.create = true ∧ a = .called (.createKey o.access (utf16 path) titleIndex cls options) r) ∨
      ∃ r, o.create = false ∧ a = .called (.openKey o.access (utf16 path)) r) ∧
    KeyThere up tree path o.key o.place ∧ ∃ options, KeyGranted sid h o.access options o.create path

/-- What an event may have done, after those before it. -/
def KeyEventOk (up : Str → Str) (sid : Str) (h : Nat → List WinCall) (l1 : List (SharedEvent KeyTree)) (e : SharedEvent KeyTree) :
    Prop :=
  (∀ j a before after, e = .did j a before after → KeysMayHaveDone up sid (h j) before after) ∧
  ∀ j before after, e = .acted j before after →
    KeysMayAct up (fun i => ∃ tree, OpenedIn j l1 tree ∧ KeyMayWrite up sid (h j) tree i)
      (fun d c => ∃ tree, OpenedIn j l1 tree ∧ KeyMayEnter up sid (h j) tree d c) before after

theorem KeyHas.more {up : Str → Str} {sid : Str} {h : List WinCall} {es : List (SharedEvent KeyTree)} {j : Nat} {o : KeyOpened}
    (hh : KeyHas up sid h es j o) (e : SharedEvent KeyTree) : KeyHas up sid h (es ++ [e]) j o := by
  obtain ⟨path, a, before, tree, hm, rest⟩ := hh
  exact ⟨path, a, before, tree, List.mem_append_left _ hm, rest⟩

theorem manyKeys_each {k : KeyKernel} {sid : Str} {h : Nat → List WinCall} {t : KeyTree} {es : List (SharedEvent KeyTree)}
    {st : SharedBy KeyTree KeyOpened} (hr : ManyKeysRun k t es st) (hk : k.renames = false)
    (hv : ∀ access cs, k.view access cs = cs) (hl : ∀ j, NoKeyLinks k.upcase sid (h j) t) (hg : KeyCallsGranted sid h es) :
    (∀ j, ∀ o ∈ st.opened j, KeyHas k.upcase sid (h j) es j o) ∧
    ∀ l1 e l2, es = l1 ++ e :: l2 → KeyEventOk k.upcase sid h l1 e := by
  have left : ∀ {es : List (SharedEvent KeyTree)} {e : SharedEvent KeyTree}, ∀ x ∈ es, x ∈ es ++ [e] :=
    fun x hx => List.mem_append_left _ hx
  induction hr with
  | start => exact ⟨by simp, fun l1 e l2 he => by simp at he⟩
  | others es st j a _ _ _ ih =>
    obtain ⟨h1, h2⟩ := ih (hg.sub left)
    refine ⟨fun j' o ho => (h1 j' o ho).more _, fun l1 e l2 he => ?_⟩
    rcases split_last he with ⟨l3, _, he⟩ | ⟨_, rfl, rfl⟩
    · exact h2 l1 e l3 he
    · exact ⟨fun j a b c he => by cases he; exact .refl, fun j b c he => by cases he⟩
  | creates es st j access name titleIndex cls options r refuse hrun ih =>
    obtain ⟨h1, h2⟩ := ih (hg.sub left)
    have hnow := (manyKeys_done hrun hk hv hl (hg.sub left) mem_sharedWho).1.noKeyLinks_other (hl j)
    obtain ⟨path, rfl, hgr⟩ := hg.creates j access name titleIndex cls options r winDoneFor_last
    obtain ⟨t', l, hs, ht, ho⟩ := keyCreate_shape k st.tree access (utf16 path) options refuse
    have hstep := (ntCreateKey_step (access := access) refuse .refl hnow hv (hgr.2.2.2 (.inr rfl)) hgr.1).1
    rw [ht] at hstep
    simp only [SharedBy.onKeys, hs] at hg ⊢
    refine ⟨fun j' o hm => ?_, fun l1 e l2 he => ?_⟩
    · split at hm
      · rename_i e
        subst e
        rcases List.mem_append.1 hm with x | x
        · exact (h1 _ o x).more _
        · obtain ⟨rfl, hc, hok⟩ := ho o x
          have := ntCreateKey_named refuse hnow hv hgr.2.1 _ _ hok
          rw [ht] at this
          exact ⟨path, _, st.tree, t', List.mem_append_right _ (List.mem_singleton.2 rfl), .inl ⟨_, _, _, _, hc, rfl⟩, this, options,
            hc ▸ hgr⟩
      · exact (h1 _ o hm).more _
    · rcases split_last he with ⟨l3, _, he⟩ | ⟨_, rfl, rfl⟩
      · exact h2 l1 e l3 he
      · exact ⟨fun j a b c he => by cases he; exact hstep, fun j b c he => by cases he⟩
  | opens es st j access name r refuse hrun ih =>
    obtain ⟨h1, h2⟩ := ih (hg.sub left)
    have hnow := (manyKeys_done hrun hk hv hl (hg.sub left) mem_sharedWho).1.noKeyLinks_other (hl j)
    obtain ⟨path, rfl, options, hgr⟩ := hg.opens j access name r winDoneFor_last
    obtain ⟨l, hs, ho⟩ := keyOpen_shape k st.tree access (utf16 path) refuse
    simp only [SharedBy.onKeys, hs] at hg ⊢
    refine ⟨fun j' o hm => ?_, fun l1 e l2 he => ?_⟩
    · split at hm
      · rename_i e
        subst e
        rcases List.mem_append.1 hm with x | x
        · exact (h1 _ o x).more _
        · obtain ⟨rfl, hc, hok⟩ := ho o x
          exact ⟨path, _, st.tree, st.tree, List.mem_append_right _ (List.mem_singleton.2 rfl), .inr ⟨_, hc, rfl⟩,
            ntOpenKey_named refuse hnow hv hgr.2.1 _ _ hok, options, hc ▸ hgr⟩
      · exact (h1 _ o hm).more _
    · rcases split_last he with ⟨l3, _, he⟩ | ⟨_, rfl, rfl⟩
      · exact h2 l1 e l3 he
      · exact ⟨fun j a b c he => by cases he; exact .refl, fun j b c he => by cases he⟩
  | sets es st j o values _ ho hw ih =>
    obtain ⟨h1, h2⟩ := ih (hg.sub left)
    obtain ⟨t', hs, hch⟩ := keySet_shape st.tree o.key values
    simp only [SharedBy.onKeys, hs]
    refine ⟨fun j' o' ho' => ?_, fun l1 e l2 he => ?_⟩
    · split at ho'
      · exact (h1 _ o' (by simpa using ‹j' = j› ▸ ho')).more _
      · exact (h1 _ o' ho').more _
    · rcases split_last he with ⟨l3, _, he⟩ | ⟨_, rfl, rfl⟩
      · exact h2 l1 e l3 he
      · refine ⟨fun j a b c he => (by cases he), fun j' b c he => ?_⟩
        cases he
        rcases hch with rfl | ⟨old, hi, rfl⟩
        · exact .inl rfl
        · obtain ⟨path, a, before, tree, hm, _, ⟨cs, hp, hn, _⟩, options, hgr⟩ := h1 j o ho
          refine .inr (.inl ⟨o.key, old, values, ⟨tree, ⟨_, _, hm⟩, path, cs, hgr.2.2.2 (.inl ?_), hp, hn⟩, hi, rfl⟩)
          obtain ⟨b, hb, hb'⟩ := hw
          exact ⟨b, by simp at hb ⊢; omega, hb'⟩
  | retargets es st j o target hrun ho hw ih =>
    obtain ⟨h1, h2⟩ := ih (hg.sub left)
    obtain ⟨t', hs, hch⟩ := keyRetarget_shape st.tree o.key target
    have hplain := (manyKeys_done hrun hk hv hl (hg.sub left) mem_sharedWho).2 j o ho
    simp only [SharedBy.onKeys, hs]
    refine ⟨fun j' o' ho' => ?_, fun l1 e l2 he => ?_⟩
    · split at ho'
      · exact (h1 _ o' (by simpa using ‹j' = j› ▸ ho')).more _
      · exact (h1 _ o' ho').more _
    · rcases split_last he with ⟨l3, _, he⟩ | ⟨_, rfl, rfl⟩
      · exact h2 l1 e l3 he
      · refine ⟨fun j a b c he => (by cases he), fun j' b c he => ?_⟩
        cases he
        rcases hch with rfl | ⟨old, hi, hne⟩
        · exact .inl rfl
        · exact absurd (hplain old hi) hne
  | removes es st j o _ ho hw ih =>
    obtain ⟨h1, h2⟩ := ih (hg.sub left)
    obtain ⟨t', hs, hch⟩ := keyRemove_shape k st.tree o
    simp only [SharedBy.onKeys, hs]
    refine ⟨fun j' o' ho' => ?_, fun l1 e l2 he => ?_⟩
    · split at ho'
      · exact (h1 _ o' (by simpa using ‹j' = j› ▸ ho')).more _
      · exact (h1 _ o' ho').more _
    · rcases split_last he with ⟨l3, _, he⟩ | ⟨_, rfl, rfl⟩
      · exact h2 l1 e l3 he
      · refine ⟨fun j a b c he => (by cases he), fun j' b c he => ?_⟩
        cases he
        rcases hch with rfl | ⟨d, c, old, hpl, hi, rfl⟩
        · exact .inl rfl
        · obtain ⟨path, a, before, tree, hm, _, ⟨cs, hp, _, hplace⟩, options, hgr⟩ := h1 j o ho
          obtain ⟨init, rfl, hn⟩ := hplace d c hpl
          refine .inr (.inr ⟨d, c, old, ⟨tree, ⟨_, _, hm⟩, path, init, c, hgr.2.2.2 (.inl ?_), hp, rfl, hn⟩, hi, rfl⟩)
          obtain ⟨b, hb, hb'⟩ := hw
          exact ⟨b, by simp at hb ⊢; omega, hb'⟩
  | renames es st j o name _ ho hk' => rw [hk] at hk'; cases hk'

/-- The calls made for the workers of a broker, whose names of keys are not too long. -/
theorem manyKeys_granted {os : WinOs} {h : Nat → List WinCall} {w w' : WholeWin}
    {ls : List WholeWinEvent} {es : List (SharedEvent KeyTree)} (hn : NoWinWorkers w)
    (he : WholeWinExec false DeclaredHandle w ls w') (hrules : WinRulesAre os h w' ls) (hev : WinEventsOf w' es)
    (hp : AllShortKeyNames ls) : KeyCallsGranted os.sid h es := by
  have all : ∀ j call r, WinAction.called call r ∈ winDoneFor j es → ∃ inc wos s q ask, .recv j inc wos s ∈ ls ∧ winRequest inc = some q ∧
      winAsked q = some ask ∧ ((Policy.nothingAllowed.winCalls os (h j)).winEvaluate false ask).1 = .granted ∧
      winCallFor cutName q = some call := by
    intro j call r hm
    rw [hev j] at hm
    cases ht : w'.threads j with
    | none => rw [ht] at hm; cases hm
    | some th =>
      rw [ht] at hm
      obtain ⟨c, los, before, hmade⟩ := hrules j th ht
      obtain ⟨inc, wos, s, q, h1, h2, ⟨ask, h3, h4⟩, h5⟩ := C139_calls false w w' ls hn he j c _ los before hmade th ht _ r hm
      exact ⟨inc, wos, s, q, ask, h1, h2, h3, h4, h5⟩
  constructor
  · intro j access name titleIndex cls options r hm
    obtain ⟨inc, wos, s, q, ask, h1, h2, h3, h4, h5⟩ := all j _ r hm
    cases q with
    | initialization => cases h5
    | ntCreateFile => simp [winCallFor] at h5
    | ntCreateKey access' path titleIndex' cls' options' create =>
      cases create with
      | false => simp [winCallFor] at h5
      | true =>
        simp only [winCallFor, Option.some.injEq, NtCall.createKey.injEq] at h5
        obtain ⟨rfl, rfl, rfl, rfl, rfl⟩ := h5
        simp only [winAsked, Option.some.injEq] at h3
        subst h3
        exact ⟨path, cutName_short (hp j (inc, wos) (List.mem_filterMap.2 ⟨_, h1, by simp⟩) _ _ _ _ _ _ h2), keyGranted_of os _ _ _ _ _ h4⟩
  · intro j access name r hm
    obtain ⟨inc, wos, s, q, ask, h1, h2, h3, h4, h5⟩ := all j _ r hm
    cases q with
    | initialization => cases h5
    | ntCreateFile => simp [winCallFor] at h5
    | ntCreateKey access' path titleIndex' cls' options' create =>
      cases create with
      | true => simp [winCallFor] at h5
      | false =>
        simp only [winCallFor, Option.some.injEq, NtCall.openKey.injEq] at h5
        obtain ⟨rfl, rfl⟩ := h5
        simp only [winAsked, Option.some.injEq] at h3
        subst h3
        exact ⟨path, cutName_short (hp j (inc, wos) (List.mem_filterMap.2 ⟨_, h1, by simp⟩) _ _ _ _ _ _ h2), options',
          keyGranted_of os _ _ _ _ _ h4⟩

/-- All keys there were when something was done. -/
theorem manyKeys_then {k : KeyKernel} {t : KeyTree} {es : List (SharedEvent KeyTree)} {st : SharedBy KeyTree KeyOpened}
    (hr : ManyKeysRun k t es st) {j : Nat} {a : WinAction} {before tree : KeyTree} (hm : .did j a before tree ∈ es) :
    ∃ es' st', ManyKeysRun k t es' st' ∧ st'.tree = tree ∧ ∀ e ∈ es', e ∈ es := by
  have left : ∀ {es : List (SharedEvent KeyTree)} {x : SharedEvent KeyTree},
      (∃ es' st', ManyKeysRun k t es' st' ∧ st'.tree = tree ∧ ∀ e ∈ es', e ∈ es) →
      ∃ es' st', ManyKeysRun k t es' st' ∧ st'.tree = tree ∧ ∀ e ∈ es', e ∈ es ++ [x] := by
    rintro es x ⟨es', st', h1, h2, h3⟩
    exact ⟨es', st', h1, h2, fun e he => List.mem_append_left _ (h3 e he)⟩
  induction hr with
  | start => cases hm
  | creates es st j' access name titleIndex cls options r refuse hrun ih =>
    rcases List.mem_append.1 hm with hm | hm
    · exact left (ih hm)
    · cases List.mem_singleton.1 hm
      exact ⟨_, _, .creates es st j access name titleIndex cls options r refuse hrun, rfl, fun e h => h⟩
  | opens es st j' access name r refuse hrun ih =>
    rcases List.mem_append.1 hm with hm | hm
    · exact left (ih hm)
    · cases List.mem_singleton.1 hm
      exact ⟨_, _, .opens es st j access name r refuse hrun, rfl, fun e h => h⟩
  | others es st j' a' hrun hc ho ih =>
    rcases List.mem_append.1 hm with hm | hm
    · exact left (ih hm)
    · cases List.mem_singleton.1 hm
      exact ⟨_, _, .others es st j a hrun hc ho, rfl, fun e h => h⟩
  | sets es st j' o values hrun ho hw ih =>
    rcases List.mem_append.1 hm with hm | hm
    · exact left (ih hm)
    · cases List.mem_singleton.1 hm
  | retargets es st j' o values hrun ho hw ih =>
    rcases List.mem_append.1 hm with hm | hm
    · exact left (ih hm)
    · cases List.mem_singleton.1 hm
  | removes es st j' o hrun ho hd ih =>
    rcases List.mem_append.1 hm with hm | hm
    · exact left (ih hm)
    · cases List.mem_singleton.1 hm
  | renames es st j' o target hrun ho hk hw ih =>
    rcases List.mem_append.1 hm with hm | hm
    · exact left (ih hm)
    · cases List.mem_singleton.1 hm

end Iris
