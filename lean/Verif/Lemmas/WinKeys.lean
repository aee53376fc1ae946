import Verif.Spec.WinKeys
import Verif.Lemmas.WinFiles
/-!
# Paths of keys without links, and how keys change
-/
namespace Iris
open Spec

/-! ### Paths -/

theorem keyNames_pathOf {path : Str} {cs : List Str} (h : keyNames path = some cs) : KeyPathOf path cs := by
  simp only [keyNames] at h
  have hj := joinSep_split '\\' path
  have hn : ∀ p ∈ split '\\' path, '\\' ∉ p := fun p hp => not_mem_of_mem_split hp
  split at h
  · rename_i c rest hs
    rw [hs, joinSep_nil_cons] at hj
    rw [hs] at hn
    cases h
    exact ⟨c :: rest, hj.symm, fun x hx => hn x (List.mem_cons_of_mem _ hx), rfl⟩
  · cases h

/-- And the other way. -/
theorem Spec.KeyPathOf.names {path : Str} {cs : List Str} (h : KeyPathOf path cs) (hcs : cs ≠ []) : keyNames path = some cs := by
  obtain ⟨parts, rfl, hn, rfl⟩ := h
  cases parts with
  | nil => exact absurd rfl hcs
  | cons c rest =>
    have hs : split '\\' ((c :: rest).flatMap (fun c => '\\' :: c)) = [] :: c :: rest := by
      rw [← joinSep_nil_cons, split_joinSep (by simp)]
      intro p hp
      rcases List.mem_cons.1 hp with rfl | hp
      · simp
      · exact hn p hp
    simp only [keyNames, hs]

theorem KeyKernel.lookup_mem {k : KeyKernel} {e : List (Str × Nat)} {c : Str} {i : Nat} (h : k.lookup e c = some i) :
    ∃ n, (n, i) ∈ e ∧ k.upcase n = k.upcase c := by
  simp only [KeyKernel.lookup, Option.map_eq_some_iff] at h
  obtain ⟨⟨n, j⟩, h1, rfl⟩ := h
  exact ⟨n, List.mem_of_find?_eq_some h1, by simpa using List.find?_some h1⟩

/-! ### Keys that only change as they may -/

section
variable {up : Str → Str} {sid : Str} {h : List WinCall} {t t' : KeyTree}

theorem Spec.KeysMayHaveDone.refl : KeysMayHaveDone up sid h t t :=
  ⟨fun _ n hn => ⟨n, hn, .inl rfl, rfl, fun _ _ x => .inl x, fun _ _ x => .inl x⟩, fun i n hi hn => by
    have := (List.getElem?_eq_some_iff.1 hn).1
    omega⟩

theorem Spec.KeysMayHaveDone.length (hd : KeysMayHaveDone up sid h t t') : List.length t ≤ List.length t' := by
  cases hl : List.length t with
  | zero => omega
  | succ n =>
    have hn : n < List.length t := by omega
    obtain ⟨n', hn', _⟩ := hd.1 n t[n] (List.getElem?_eq_getElem hn)
    have := (List.getElem?_eq_some_iff.1 hn').1
    omega

/-- What a path leads to now is new, or it led there before. -/
theorem Spec.KeysMayHaveDone.named (hd : KeysMayHaveDone up sid h t t') {cs : List Str} {i : Nat} (hn : KeyNamed up t' cs i) :
    List.length t ≤ i ∨ KeyNamed up t cs i := by
  induction hn with
  | root => exact .inr .root
  | entry cs d e n c i hcs hdir hm hc ih =>
    by_cases hl : List.length t ≤ d
    · exact .inl ((hd.2 d _ hl hdir).2 n i hm)
    · have ih := ih.resolve_left hl
      have hlt : d < List.length t := by omega
      have hg := List.getElem?_eq_getElem hlt
      obtain ⟨n', h1, _, _, hnew, _⟩ := hd.1 d t[d] hg
      rw [hdir] at h1
      cases h1
      rcases hnew n i hm with hx | hx
      · exact .inr (.entry cs d _ n c i ih hg hx hc)
      · exact .inl hx.1

/-- No links are made, and those there are lead where they led. -/
theorem Spec.KeysMayHaveDone.link (hd : KeysMayHaveDone up sid h t t') {i : Nat} {key : KeyNode} (hn : t'[i]? = some key) :
    key.link = none ∨ ∃ key0, t[i]? = some key0 ∧ key.link = key0.link := by
  by_cases hl : i < List.length t
  · obtain ⟨n', h1, _, h2, _⟩ := hd.1 i t[i] (List.getElem?_eq_getElem hl)
    rw [hn] at h1
    cases h1
    exact .inr ⟨_, List.getElem?_eq_getElem hl, h2⟩
  · exact .inl (hd.2 i _ (by omega) hn).1

/-- A key which is new, or is named by a path that is allowed, is no link. -/
theorem Spec.KeysMayHaveDone.plain (hd : KeysMayHaveDone up sid h t t') (hl : NoKeyLinks up sid h t) {i : Nat} {key : KeyNode}
    {path : Str} {cs ds : List Str} (ha : KeyAllowed sid h path) (hp : KeyPathOf path cs) (hpre : ds <+: cs)
    (hi : List.length t ≤ i ∨ KeyNamed up t ds i) (hn : t'[i]? = some key) : key.link = none := by
  rcases hi with hi | hi
  · exact (hd.2 i _ hi hn).1
  · rcases hd.link hn with x | ⟨key0, x, y⟩
    · exact x
    · rw [y]; exact hl path cs ds i key0 ha hp hpre hi x

theorem Spec.KeysMayHaveDone.noKeyLinks (hd : KeysMayHaveDone up sid h t t') (hl : NoKeyLinks up sid h t) : NoKeyLinks up sid h t' :=
  fun _ _ _ _ _ ha hp hpre hn hi => hd.plain hl ha hp hpre (hd.named hn) hi

/-! ### Single changes -/

theorem Spec.KeysMayHaveDone.setValues (hd : KeysMayHaveDone up sid h t t') {i : Nat} {n : KeyNode} (b : Bytes)
    (hi : t'[i]? = some n) (hw : List.length t ≤ i ∨ KeyMayWrite up sid h t i) :
    KeysMayHaveDone up sid h t (t'.set i { n with values := b }) := by
  have hlt := (List.getElem?_eq_some_iff.1 hi).1
  refine ⟨fun j m hj => ?_, fun j m hl hj => ?_⟩
  · obtain ⟨m', h1, h2⟩ := hd.1 j m hj
    by_cases e : j = i
    · subst e
      have hjl := (List.getElem?_eq_some_iff.1 hj).1
      have hw := hw.resolve_left (by omega)
      rw [hi] at h1; cases h1
      exact ⟨{ n with values := b }, by simp [List.getElem?_set, hlt], .inr hw, h2.2.1, h2.2.2.1, h2.2.2.2⟩
    · exact ⟨m', by rw [List.getElem?_set_ne (by omega)]; exact h1, h2⟩
  · by_cases e : j = i
    · subst e
      simp [List.getElem?_set, hlt] at hj
      subst hj
      exact hd.2 j n hl hi
    · rw [List.getElem?_set_ne (by omega)] at hj
      exact hd.2 j m hl hj

theorem Spec.KeysMayHaveDone.setSubkeys (hd : KeysMayHaveDone up sid h t t') {d : Nat} {n : KeyNode} {e' : List (Str × Nat)}
    (hi : t'[d]? = some n)
    (hnew : ∀ c j, (c, j) ∈ e' → (c, j) ∈ n.subkeys ∨ List.length t ≤ j ∧ (List.length t ≤ d ∨ KeyMayEnter up sid h t d c))
    (hold : ∀ c j, (c, j) ∈ n.subkeys → (c, j) ∈ e' ∨ List.length t ≤ d ∨ KeyMayEnter up sid h t d c) :
    KeysMayHaveDone up sid h t (t'.set d { n with subkeys := e' }) := by
  have hlt := (List.getElem?_eq_some_iff.1 hi).1
  refine ⟨fun j m hj => ?_, fun j m hl hj => ?_⟩
  · obtain ⟨m', h1, h2⟩ := hd.1 j m hj
    by_cases ej : j = d
    · subst ej
      have hjl := (List.getElem?_eq_some_iff.1 hj).1
      have hn : ¬ List.length t ≤ j := by omega
      rw [hi] at h1; cases h1
      refine ⟨{ n with subkeys := e' }, by simp [List.getElem?_set, hlt], h2.1, h2.2.1, fun c i hm => ?_, fun c i hm => ?_⟩
      · rcases hnew c i hm with x | ⟨x, y⟩
        · exact h2.2.2.1 c i x
        · exact .inr ⟨x, y.resolve_left hn⟩
      · rcases h2.2.2.2 c i hm with x | x
        · rcases hold c i x with y | y
          · exact .inl y
          · exact .inr (y.resolve_left hn)
        · exact .inr x
    · exact ⟨m', by rw [List.getElem?_set_ne (by omega)]; exact h1, h2⟩
  · by_cases ej : j = d
    · subst ej
      simp [List.getElem?_set, hlt] at hj
      subst hj
      obtain ⟨a, b⟩ := hd.2 j n hl hi
      refine ⟨a, fun c i hm => ?_⟩
      rcases hnew c i hm with x | x
      · exact b c i x
      · exact x.1
    · rw [List.getElem?_set_ne (by omega)] at hj
      exact hd.2 j m hl hj

theorem Spec.KeysMayHaveDone.append (hd : KeysMayHaveDone up sid h t t') : KeysMayHaveDone up sid h t (t' ++ [⟨[], [], none⟩]) := by
  refine ⟨fun j m hj => ?_, fun j m hl hj => ?_⟩
  · obtain ⟨m', h1, h2⟩ := hd.1 j m hj
    exact ⟨m', by rw [List.getElem?_append_left (List.getElem?_eq_some_iff.1 h1).1]; exact h1, h2⟩
  · by_cases hlt : j < List.length t'
    · rw [List.getElem?_append_left hlt] at hj
      exact hd.2 j m hl hj
    · rw [List.getElem?_append_right (by omega)] at hj
      have : m = ⟨[], [], none⟩ := by
        cases hk : j - List.length t' with
        | zero => rw [hk] at hj; simpa using hj.symm
        | succ x => rw [hk] at hj; simp at hj
      subst this
      exact ⟨rfl, by simp⟩

theorem Spec.KeysMayHaveDone.add (hd : KeysMayHaveDone up sid h t t') {d : Nat} {c : Str}
    (hw : List.length t ≤ d ∨ KeyMayEnter up sid h t d c) : KeysMayHaveDone up sid h t (t'.add d c ⟨[], [], none⟩) := by
  have hlen := hd.length
  unfold KeyTree.add
  split
  · rename_i e he
    refine Spec.KeysMayHaveDone.append (hd.setSubkeys he (fun c' j hm => ?_) (fun c' j hm => ?_))
    · rcases List.mem_append.1 hm with x | x
      · exact .inl x
      · simp only [List.mem_singleton, Prod.mk.injEq] at x
        obtain ⟨rfl, rfl⟩ := x
        exact .inr ⟨hlen, hw⟩
    · exact .inl (List.mem_append_left _ hm)
  · exact hd
end

/-! ### The kernel's walk where there is no link -/

theorem keyWalkWith_named {k : KeyKernel} {t : KeyTree} (follow : Bool) (again : List Str → KeyWalk) :
    ∀ (rest pre : List Str) (cur : Nat) (place : Option (Nat × Str)), KeyNamed k.upcase t pre cur →
      (∀ d c, place = some (d, c) → ∃ cs, pre = cs ++ [c] ∧ KeyNamed k.upcase t cs d) →
      (∀ ds i key, ds <+: pre ++ rest → KeyNamed k.upcase t ds i → t[i]? = some key → key.link = none) →
      (∀ i place', keyWalkWith k t follow again cur place rest = .found i place' →
        KeyNamed k.upcase t (pre ++ rest) i ∧
        ∀ d c, place' = some (d, c) → ∃ cs, pre ++ rest = cs ++ [c] ∧ KeyNamed k.upcase t cs d) ∧
      (∀ d c, keyWalkWith k t follow again cur place rest = .missing d c →
        ∃ init, pre ++ rest = init ++ [c] ∧ KeyNamed k.upcase t init d) := by
  intro rest
  induction rest with
  | nil =>
    intro pre cur place hn hp _
    refine ⟨fun i place' h => ?_, fun d c h => ?_⟩
    · simp only [keyWalkWith, KeyWalk.found.injEq] at h
      obtain ⟨rfl, rfl⟩ := h
      exact ⟨by simpa using hn, by simpa using hp⟩
    · simp [keyWalkWith] at h
  | cons c rest ih =>
    intro pre cur place hn hp hl
    simp only [keyWalkWith]
    cases hcur : t[cur]? with
    | none => simp
    | some key =>
      simp only []
      cases hlk : k.lookup key.subkeys c with
      | none =>
        simp only []
        split
        · rename_i hr
          subst hr
          refine ⟨by simp, fun d c' h => ?_⟩
          simp only [KeyWalk.missing.injEq] at h
          obtain ⟨rfl, rfl⟩ := h
          exact ⟨pre, rfl, hn⟩
        · simp
      | some i =>
        obtain ⟨m, hm, hmc⟩ := KeyKernel.lookup_mem hlk
        have hn' : KeyNamed k.upcase t (pre ++ [c]) i := .entry pre cur key m c i hn hcur hm hmc
        have key' := ih (pre ++ [c]) i (some (cur, c)) hn'
          (fun d c' he => by cases he; exact ⟨pre, rfl, hn⟩)
          (fun ds j x hp' => hl ds j x (by simpa using hp'))
        simp only []
        cases hi : t[i]? with
        | none => simp
        | some n =>
          have hlink := hl (pre ++ [c]) i n ⟨rest, by simp⟩ hn' hi
          obtain ⟨a, b, link⟩ := n
          cases hlink
          simpa using key'

theorem keyWalkLinks_named {k : KeyKernel} {t : KeyTree} (follow : Bool) (n : Nat) {cs : List Str}
    (hl : ∀ ds i key, ds <+: cs → KeyNamed k.upcase t ds i → t[i]? = some key → key.link = none) :
    (∀ i place, keyWalkLinks k t follow n cs = .found i place → KeyNamed k.upcase t cs i ∧
      ∀ d c, place = some (d, c) → ∃ init, cs = init ++ [c] ∧ KeyNamed k.upcase t init d) ∧
    (∀ d c, keyWalkLinks k t follow n cs = .missing d c → ∃ init, cs = init ++ [c] ∧ KeyNamed k.upcase t init d) := by
  cases n with
  | zero => simpa [keyWalkLinks] using keyWalkWith_named follow _ cs [] 0 none .root (by simp) (by simpa using hl)
  | succ n => simpa [keyWalkLinks] using keyWalkWith_named follow _ cs [] 0 none .root (by simp) (by simpa using hl)

theorem Spec.KeyNamed.unique {up : Str → Str} {t : KeyTree}
    (huniq : ∀ (d : Nat) key a b x y, t[d]? = some key → (a, x) ∈ key.subkeys → (b, y) ∈ key.subkeys → up a = up b → x = y)
    {ds : List Str} {a : Nat} (ha : KeyNamed up t ds a) : ∀ b, KeyNamed up t ds b → a = b := by
  induction ha with
  | root =>
    intro b hb
    generalize hx : ([] : List Str) = x at hb
    cases hb with
    | root => rfl
    | entry => simp at hx
  | entry cs d e n c i _ hd hm hc ih =>
    intro b hb
    generalize hx : cs ++ [c] = x at hb
    cases hb with
    | root => simp at hx
    | entry cs' d' e' n' c' i' h' hd' hm' hc' =>
      obtain ⟨rfl, h2⟩ := List.append_inj' hx rfl
      cases h2
      have := ih _ h'
      subst this
      rw [hd] at hd'
      cases hd'
      exact huniq d e n n' i b hd hm hm' (hc.trans hc'.symm)

theorem Spec.KeyNamed.next {up : Str → Str} {t : KeyTree} {x : List Str} {j : Nat} (h : KeyNamed up t x j) :
    ∀ (pre : List Str) (c : Str) (r : List Str), x = pre ++ c :: r →
      ∃ d e n k, KeyNamed up t pre d ∧ t[d]? = some e ∧ (n, k) ∈ e.subkeys ∧ up n = up c := by
  induction h with
  | root => intro pre c r hx; simp at hx
  | entry cs d e n c' i h hd hm hc ih =>
    intro pre c r hx
    rcases List.eq_nil_or_concat r with rfl | ⟨r', y, rfl⟩
    · obtain ⟨rfl, h2⟩ := List.append_inj' hx rfl
      cases h2
      exact ⟨d, e, n, i, h, hd, hm, hc⟩
    · have hx' : cs ++ [c'] = (pre ++ c :: r') ++ [y] := by rw [hx]; simp
      obtain ⟨h1, _⟩ := List.append_inj' hx' rfl
      exact ih pre c r' h1

theorem keyWalkWith_finds {k : KeyKernel} {t : KeyTree} (follow : Bool) (again : List Str → KeyWalk)
    (hsound : ∀ (d : Nat) key c j, t[d]? = some key → (c, j) ∈ key.subkeys → j < List.length t)
    (huniq : ∀ (d : Nat) key a b x y, t[d]? = some key → (a, x) ∈ key.subkeys → (b, y) ∈ key.subkeys →
      k.upcase a = k.upcase b → x = y) {i : Nat} :
    ∀ (rest pre : List Str) (cur : Nat) (place : Option (Nat × Str)), KeyNamed k.upcase t pre cur →
      (∀ ds i key, ds <+: pre ++ rest → KeyNamed k.upcase t ds i → t[i]? = some key → key.link = none) →
      KeyNamed k.upcase t (pre ++ rest) i →
      ∃ place', keyWalkWith k t follow again cur place rest = .found i place' := by
  intro rest
  induction rest with
  | nil =>
    intro pre cur place hn _ hi
    rw [List.append_nil] at hi
    simp only [keyWalkWith]
    rw [hn.unique huniq _ hi]
    exact ⟨_, rfl⟩
  | cons c rest ih =>
    intro pre cur place hn hl hi
    obtain ⟨d, e, n, j, hd, hcur, hm, hc⟩ := hi.next pre c rest rfl
    have := hn.unique huniq _ hd
    subst this
    have hn' : KeyNamed k.upcase t (pre ++ [c]) j := .entry pre cur e n c j hn hcur hm hc
    have hlk : k.lookup e.subkeys c = some j := by
      cases hf : k.lookup e.subkeys c with
      | none =>
        simp only [KeyKernel.lookup, Option.map_eq_none_iff, List.find?_eq_none] at hf
        exact absurd (by simpa using hc) (hf _ hm)
      | some x =>
        obtain ⟨n', hm', hc'⟩ := KeyKernel.lookup_mem hf
        rw [huniq cur e n' n x j hcur hm' hm (hc'.trans hc.symm)]
    have hjl := hsound cur e n j hcur hm
    have key := ih (pre ++ [c]) j (some (cur, c)) hn'
      (fun ds j x hp => hl ds j x (by simpa using hp)) (by simpa using hi)
    have hlink := hl (pre ++ [c]) j _ ⟨rest, by simp⟩ hn' (List.getElem?_eq_getElem hjl)
    simp only [keyWalkWith, hcur, hlk]
    rw [List.getElem?_eq_getElem hjl]
    generalize t[j] = node at hlink
    obtain ⟨a, b, link⟩ := node
    cases hlink
    exact key

end Iris
