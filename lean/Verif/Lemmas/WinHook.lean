import Verif.Spec.WinHook
import Verif.Lemmas.WinTrampoline
/-! Helper lemmas about redirecting functions. -/
namespace Iris
open Asm Spec

theorem alignUp_dvd {a : Nat} (ha : 0 < a) (n : Nat) : a ∣ alignUp a n := by
  simp only [alignUp]
  split
  · exact Nat.dvd_of_mod_eq_zero ‹_›
  · have := Nat.mod_lt n ha
    apply Nat.dvd_of_mod_eq_zero
    rw [Nat.add_mod]
    by_cases h : a - n % a < a
    · rw [Nat.mod_eq_of_lt h]
      have : n % a + (a - n % a) = a := by omega
      rw [this, Nat.mod_self]
    · omega

theorem findFree_spec {os : HookOs} {done : List (BitVec 64)} {n c : Nat} {a : BitVec 64}
    (hg : 0 < os.granularity) (hc : os.granularity ∣ c) (h : findFree os done n c = some a) :
    os.granularity ∣ a.toNat ∧ c ≤ a.toNat ∧ ∃ size, os.query done a = some (size, true) := by
  induction n generalizing c with
  | zero => cases h
  | succ n ih =>
    rw [findFree.eq_def] at h
    simp only at h
    split at h
    · rename_i hlt
      split at h
      · cases h
      · rename_i size free hq
        split at h
        · rename_i hf
          cases h
          have : (BitVec.ofNat 64 c).toNat = c := by simp [Nat.mod_eq_of_lt hlt]
          rw [this]
          rw [hf] at hq
          exact ⟨hc, Nat.le_refl _, size, hq⟩
        · split at h
          · cases h
          · obtain ⟨h1, h2, h3⟩ := ih (alignUp_dvd hg _) h
            have := le_alignUp os.granularity (c + size)
            exact ⟨h1, by omega, h3⟩
    · cases h

/-- All trampolines start where a unit of memory does. -/
def HookState.Aligned (os : HookOs) (s : HookState) : Prop := ∀ a ∈ s.trampolines, os.granularity ∣ a.toNat

theorem apart {g : Nat} {a b : BitVec 64} (hg : 14 ≤ g ∧ g ∣ 2 ^ 64) (ha : g ∣ a.toNat) (hb : g ∣ b.toNat)
    (hne : a ≠ b) (x : BitVec 64) (hx : InRange a 14 x) : ¬ InRange b 14 x := by
  intro hy
  simp only [InRange, BitVec.toNat_sub] at hx hy
  obtain ⟨g1, k, hk⟩ := hg
  obtain ⟨i, hi⟩ := ha
  obtain ⟨j, hj⟩ := hb
  have la := a.isLt
  have lb := b.isLt
  have lx := x.isLt
  have hij : i ≠ j := by
    rintro rfl
    exact hne (BitVec.eq_of_toNat_eq (by rw [hi, hj]))
  have step : ∀ u v : Nat, u < v → g * u + g ≤ g * v := by
    intro u v huv
    have : g * (u + 1) ≤ g * v := Nat.mul_le_mul_left g huv
    rw [Nat.mul_add] at this
    omega
  have top : ∀ u : Nat, g * u < 2 ^ 64 → g * u + g ≤ 2 ^ 64 := by
    intro u hu
    rw [hk] at hu ⊢
    exact step u k (Nat.lt_of_mul_lt_mul_left hu)
  have t1 := top i (by omega)
  have t2 := top j (by omega)
  rcases Nat.lt_or_gt_of_ne hij with h | h
  · have := step i j h; omega
  · have := step j i h; omega

structure Grown (os : HookOs) (s s' : HookState) : Prop where
  aligned : s'.Aligned os
  kept : ∀ a ∈ s.trampolines, a ∈ s'.trampolines
  same : ∀ a ∈ s.trampolines, ∀ x, InRange a 14 x → s'.mem x = s.mem x

theorem Grown.refl {os : HookOs} {s : HookState} (h : s.Aligned os) : Grown os s s :=
  ⟨h, fun _ h => h, fun _ _ _ _ => rfl⟩

theorem Grown.trans {os : HookOs} {a b c : HookState} (h1 : Grown os a b) (h2 : Grown os b c) : Grown os a c :=
  ⟨h2.aligned, fun x hx => h2.kept x (h1.kept x hx),
    fun x hx y hy => (h2.same x (h1.kept x hx) y hy).trans (h1.same x hx y hy)⟩

theorem patch64_length (target : BitVec 64) : (patch64 target).length = 14 := by
  simp [patch64, leBytes_length]

theorem Grown.holds {os : HookOs} {s s' : HookState} (h : Grown os s s') {a hook : BitVec 64}
    (ha : a ∈ s.trampolines) (hh : Holds s.mem a (patch64 hook)) : Holds s'.mem a (patch64 hook) := by
  refine hh.congr fun i hi => h.same a ha _ ?_
  rw [patch64_length] at hi
  rw [InRange, add_sub_self, BitVec.toNat_ofNat, Nat.mod_eq_of_lt (by omega)]
  exact hi

theorem newTrampoline_spec {os : HookOs} {inUse : List (BitVec 64)} (ho : HonestOs os inUse) {base hook : BitVec 64}
    {s s' : HookState} {a : BitVec 64} (hs : s.Aligned os) (h : newTrampoline os base hook s = some (s', a)) :
    Grown os s s' ∧ a ∈ s'.trampolines ∧ Holds s'.mem a (patch64 hook) ∧ a ∉ inUse ∧
      (∀ b ∈ s'.trampolines, b = a ∨ b ∈ s.trampolines) ∧ base.toNat ≤ a.toNat := by
  have hg : 0 < os.granularity := by have := ho.unit.1; omega
  simp only [newTrampoline] at h
  split at h
  · cases h
  · rename_i b hb
    split at h
    · simp only [Option.some.injEq, Prod.mk.injEq] at h
      obtain ⟨rfl, rfl⟩ := h
      obtain ⟨h1, h2, size, h3⟩ := findFree_spec hg (alignUp_dvd hg _) hb
      obtain ⟨hf, hu⟩ := ho.fresh _ _ _ h3
      have := le_alignUp os.granularity base.toNat
      refine ⟨⟨?_, fun a ha => List.mem_cons_of_mem _ ha, ?_⟩, by simp, ?_, hu, by simp, by omega⟩
      · intro c hc
        rcases List.mem_cons.1 hc with rfl | hc
        · exact h1
        · exact hs c hc
      · intro c hc x hx
        simp only [writeTrampoline64]
        apply copyTo_other
        rw [patch64_length]
        exact apart ho.unit (hs c hc) h1 (fun e => hf (e ▸ hc)) x hx
      · exact copyTo_holds _ _ _ (by rw [patch64_length]; decide)
    · cases h

/-- What an entry of the exports becomes. -/
def EntryHooked (s : HookState) (base orig hook : BitVec 64) (rva rva' : BitVec 32) : Prop :=
  if resolve base rva = orig then
    resolve base rva' = hook ∨
      ∃ a ∈ s.trampolines, Holds s.mem a (patch64 hook) ∧ rva' = (a - base).truncate 32
  else rva' = rva

theorem EntryHooked.grown {os : HookOs} {s s' : HookState} (h : Grown os s s') {base orig hook : BitVec 64}
    {rva rva' : BitVec 32} (he : EntryHooked s base orig hook rva rva') : EntryHooked s' base orig hook rva rva' := by
  unfold EntryHooked at *
  split
  · rename_i hr
    rw [if_pos hr] at he
    rcases he with he | ⟨a, ha, hh, e⟩
    · exact .inl he
    · exact .inr ⟨a, h.kept a ha, h.holds ha hh, e⟩
  · rename_i hr
    rw [if_neg hr] at he
    exact he

theorem hookExports_spec {os : HookOs} {inUse : List (BitVec 64)} (ho : HonestOs os inUse)
    (base orig hook : BitVec 64) (l : List (BitVec 32)) :
    ∀ (s : HookState) (tramp : Option (BitVec 64)) (s' : HookState) (l' : List (BitVec 32)), s.Aligned os →
      (∀ a, tramp = some a → a ∈ s.trampolines ∧ Holds s.mem a (patch64 hook)) →
      hookExports os base orig hook l s tramp = some (s', l') →
      Grown os s s' ∧ l'.length = l.length ∧ (∀ b ∈ s'.trampolines, b ∈ s.trampolines ∨ b ∉ inUse) ∧
      ∀ (i : Nat) (rva rva' : BitVec 32), l[i]? = some rva → l'[i]? = some rva' → EntryHooked s' base orig hook rva rva' := by
  induction l with
  | nil =>
    intro s tramp s' l' hs ht h
    simp only [hookExports, Option.some.injEq, Prod.mk.injEq] at h
    obtain ⟨rfl, rfl⟩ := h
    exact ⟨.refl hs, rfl, fun b hb => .inl hb, by simp⟩
  | cons rva rest ih =>
    intro s tramp s' l' hs ht h
    have combine : ∀ (s1 : HookState) (tramp' : Option (BitVec 64)) (r' : BitVec 32), Grown os s s1 →
        (∀ b ∈ s1.trampolines, b ∈ s.trampolines ∨ b ∉ inUse) →
        (∀ a, tramp' = some a → a ∈ s1.trampolines ∧ Holds s1.mem a (patch64 hook)) →
        EntryHooked s1 base orig hook rva r' →
        (hookExports os base orig hook rest s1 tramp').map (fun r => (r.1, r' :: r.2)) = some (s', l') →
        Grown os s s' ∧ l'.length = (rva :: rest).length ∧ (∀ b ∈ s'.trampolines, b ∈ s.trampolines ∨ b ∉ inUse) ∧
        ∀ (i : Nat) (x x' : BitVec 32), (rva :: rest)[i]? = some x → l'[i]? = some x' → EntryHooked s' base orig hook x x' := by
      intro s1 tramp' r' hg hb ht' he hm
      simp only [Option.map_eq_some_iff] at hm
      obtain ⟨⟨s2, l2⟩, hr, heq⟩ := hm
      simp only [Prod.mk.injEq] at heq
      obtain ⟨rfl, rfl⟩ := heq
      obtain ⟨g, hl, hb2, hent⟩ := ih s1 tramp' s2 l2 hg.aligned ht' hr
      refine ⟨hg.trans g, by simp [hl], ?_, ?_⟩
      · intro b hb'
        rcases hb2 b hb' with h1 | h1
        · exact hb b h1
        · exact .inr h1
      · intro i x x' hx hx'
        cases i with
        | zero =>
          simp only [List.getElem?_cons_zero, Option.some.injEq] at hx hx'
          subst hx; subst hx'
          exact he.grown g
        | succ i =>
          simp only [List.getElem?_cons_succ] at hx hx'
          exact hent i x x' hx hx'
    rw [hookExports.eq_def] at h
    simp only at h
    by_cases hr : resolve base rva = orig
    · rw [if_pos hr] at h
      by_cases hn : base.toNat < hook.toNat ∧ hook.toNat - base.toNat < 2 ^ 32
      · rw [if_pos hn] at h
        refine combine s tramp _ (.refl hs) (fun b hb => .inl hb) ht ?_ h
        unfold EntryHooked
        rw [if_pos hr]
        left
        apply BitVec.eq_of_toNat_eq
        have := hook.isLt
        simp only [resolve, BitVec.toNat_add, BitVec.truncate_eq_setWidth, BitVec.toNat_setWidth, BitVec.toNat_ofNat]
        omega
      · rw [if_neg hn] at h
        cases tramp with
        | some a =>
          refine combine s (some a) _ (.refl hs) (fun b hb => .inl hb) ht ?_ h
          unfold EntryHooked
          rw [if_pos hr]
          exact .inr ⟨a, (ht a rfl).1, (ht a rfl).2, rfl⟩
        | none =>
          simp only at h
          split at h
          · cases h
          · rename_i s1 a hnew
            obtain ⟨g, ha, hh, hu, hb, _⟩ := newTrampoline_spec ho hs hnew
            refine combine s1 (some a) _ g ?_ ?_ ?_ h
            · intro b hb'
              rcases hb b hb' with rfl | h1
              · exact .inr hu
              · exact .inl h1
            · intro b hb'; cases hb'; exact ⟨ha, hh⟩
            · unfold EntryHooked
              rw [if_pos hr]
              exact .inr ⟨a, ha, hh, rfl⟩
    · rw [if_neg hr] at h
      refine combine s tramp _ (.refl hs) (fun b hb => .inl hb) ht ?_ h
      unfold EntryHooked
      rw [if_neg hr]

theorem hookThunks_spec {machine : Machine} {orig hook : BitVec 64} (l : List (BitVec 64)) :
    ∀ l', hookThunks machine orig hook l = some l' → l'.length = l.length ∧
      ∀ (k : Nat) (t : BitVec 64), l[k]? = some t →
        ((∀ j, j ≤ k → l[j]? ≠ some 0) → l'[k]? = some (if t = orig then hook else t)) ∧
        (¬ (∀ j, j ≤ k → l[j]? ≠ some 0) → l'[k]? = some t) := by
  induction l with
  | nil => intro l' h; simp [hookThunks] at h
  | cons x rest ih =>
    intro l' h
    rw [hookThunks.eq_def] at h
    simp only at h
    by_cases h0 : x = 0
    · rw [if_pos h0] at h
      cases h
      refine ⟨rfl, fun k t ht => ⟨fun hl => absurd (by simp [h0]) (hl 0 (by omega)), fun _ => ht⟩⟩
    · rw [if_neg h0] at h
      have key : ∀ y, y = (if x = orig then hook else x) →
          (hookThunks machine orig hook rest).map (y :: ·) = some l' →
          l'.length = (x :: rest).length ∧ ∀ (k : Nat) (t : BitVec 64), (x :: rest)[k]? = some t →
            ((∀ j, j ≤ k → (x :: rest)[j]? ≠ some 0) → l'[k]? = some (if t = orig then hook else t)) ∧
            (¬ (∀ j, j ≤ k → (x :: rest)[j]? ≠ some 0) → l'[k]? = some t) := by
        intro y hy hm
        simp only [Option.map_eq_some_iff] at hm
        obtain ⟨l2, h2, rfl⟩ := hm
        obtain ⟨hl, hk⟩ := ih l2 h2
        refine ⟨by simp [hl], ?_⟩
        intro k t ht
        cases k with
        | zero =>
          simp only [List.getElem?_cons_zero, Option.some.injEq] at ht
          subst ht
          refine ⟨fun _ => by simp [hy], fun hn => ?_⟩
          exfalso
          apply hn
          intro j hj
          have : j = 0 := by omega
          subst this
          simpa using h0
        | succ k =>
          simp only [List.getElem?_cons_succ] at ht ⊢
          have hiff : (∀ j, j ≤ k + 1 → (x :: rest)[j]? ≠ some 0) ↔ (∀ j, j ≤ k → rest[j]? ≠ some 0) := by
            constructor
            · intro hh j hj
              have := hh (j + 1) (by omega)
              simpa using this
            · intro hh j hj
              cases j with
              | zero => simpa using h0
              | succ j => simpa using hh j (by omega)
          rw [hiff]
          exact hk k t ht
      by_cases ho : x = orig
      · rw [if_pos ho] at h
        cases machine with
        | amd64 => exact key hook (by rw [if_pos ho]) h
        | i386 =>
          simp only at h
          split at h
          · exact key hook (by rw [if_pos ho]) h
          · cases h
        | other => cases h
      · rw [if_neg ho] at h
        exact key x (by rw [if_neg ho]) h

theorem hookImports_spec {machine : Machine} {orig hook : BitVec 64} (l : List ImportDescriptor) :
    ∀ l', hookImports machine orig hook l = some l' → l'.length = l.length ∧
      ∀ (i : Nat) (d : ImportDescriptor), l[i]? = some d → ∃ d', l'[i]? = some d' ∧
        d'.firstThunk = d.firstThunk ∧ d'.name = d.name ∧
        ((∀ e, ∀ j, j ≤ i → l[j]? = some e → e.firstThunk ≠ 0 ∧ e.name ≠ 0) →
          hookThunks machine orig hook d.thunks = some d'.thunks) ∧
        (¬ (∀ e, ∀ j, j ≤ i → l[j]? = some e → e.firstThunk ≠ 0 ∧ e.name ≠ 0) → d' = d) := by
  induction l with
  | nil => intro l' h; simp [hookImports] at h
  | cons x rest ih =>
    intro l' h
    rw [hookImports.eq_def] at h
    simp only at h
    by_cases h0 : x.firstThunk = 0 ∨ x.name = 0
    · rw [if_pos h0] at h
      cases h
      refine ⟨rfl, fun i d hd => ⟨d, hd, rfl, rfl, fun hl => ?_, fun _ => rfl⟩⟩
      obtain ⟨h1, h2⟩ := hl x 0 (by omega) rfl
      rcases h0 with h0 | h0 <;> contradiction
    · rw [if_neg h0] at h
      split at h
      · cases h
      · rename_i ts hts
        simp only [Option.map_eq_some_iff] at h
        obtain ⟨l2, h2, rfl⟩ := h
        obtain ⟨hl, hk⟩ := ih l2 h2
        refine ⟨by simp [hl], ?_⟩
        intro i d hd
        cases i with
        | zero =>
          simp only [List.getElem?_cons_zero, Option.some.injEq] at hd
          subst hd
          refine ⟨{ x with thunks := ts }, rfl, rfl, rfl, fun _ => hts, fun hn => ?_⟩
          exfalso
          apply hn
          intro e j hj he
          have : j = 0 := by omega
          subst this
          simp only [List.getElem?_cons_zero, Option.some.injEq] at he
          subst he
          exact ⟨fun h => h0 (.inl h), fun h => h0 (.inr h)⟩
        | succ i =>
          simp only [List.getElem?_cons_succ] at hd ⊢
          obtain ⟨d', a1, a2, a3, a4, a5⟩ := hk i d hd
          have hiff : (∀ e, ∀ j, j ≤ i + 1 → (x :: rest)[j]? = some e → e.firstThunk ≠ 0 ∧ e.name ≠ 0) ↔
              (∀ e, ∀ j, j ≤ i → rest[j]? = some e → e.firstThunk ≠ 0 ∧ e.name ≠ 0) := by
            constructor
            · intro hh e j hj he
              exact hh e (j + 1) (by omega) (by simpa using he)
            · intro hh e j hj he
              cases j with
              | zero =>
                simp only [List.getElem?_cons_zero, Option.some.injEq] at he
                subst he
                exact ⟨fun h => h0 (.inl h), fun h => h0 (.inr h)⟩
              | succ j => exact hh e j (by omega) (by simpa using he)
          rw [hiff]
          exact ⟨d', a1, a2, a3, a4, a5⟩

/-- What a module becomes. -/
structure ModHooked (s' : HookState) (orig hook : BitVec 64) (m m' : WinModule) : Prop where
  base : m'.base = m.base
  machine : m'.machine = m.machine
  length : m'.exports.length = m.exports.length
  entries : ∀ (i : Nat) (rva rva' : BitVec 32), m.exports[i]? = some rva → m'.exports[i]? = some rva' →
    EntryHooked s' m.base orig hook rva rva'
  slots : ∀ i k, (importLive m i k → importSlot m' i k = (importSlot m i k).map fun t => if t = orig then hook else t) ∧
    (¬ importLive m i k → importSlot m' i k = importSlot m i k)
  live : hook ≠ 0 → ∀ i k, importLive m' i k ↔ importLive m i k

theorem hookModule_imports {machine : Machine} {orig hook : BitVec 64} {m m' : WinModule}
    {l l' : List ImportDescriptor} (hm : m.imports = some l) (hm' : m'.imports = some l')
    (h : hookImports machine orig hook l = some l') :
    (∀ i k, (importLive m i k → importSlot m' i k = (importSlot m i k).map fun t => if t = orig then hook else t) ∧
      (¬ importLive m i k → importSlot m' i k = importSlot m i k)) ∧
    (hook ≠ 0 → ∀ i k, importLive m' i k ↔ importLive m i k) := by
  obtain ⟨hl, hk⟩ := hookImports_spec l l' h
  have hslot : ∀ i k, importSlot m i k = l[i]?.bind fun d => d.thunks[k]? := by
    intro i k; simp [importSlot, hm]
  have hslot' : ∀ i k, importSlot m' i k = l'[i]?.bind fun d => d.thunks[k]? := by
    intro i k; simp [importSlot, hm']
  have hdesc : ∀ i : Nat, (∀ (x : List ImportDescriptor) (d : ImportDescriptor), m.imports = some x → ∀ j, j ≤ i → x[j]? = some d → d.firstThunk ≠ 0 ∧ d.name ≠ 0) ↔
      (∀ e : ImportDescriptor, ∀ j, j ≤ i → l[j]? = some e → e.firstThunk ≠ 0 ∧ e.name ≠ 0) := by
    intro i
    rw [hm]
    constructor
    · intro hh e j hj he; exact hh l e rfl j hj he
    · intro hh x d hx j hj he; cases hx; exact hh d j hj he
  have hdesc' : ∀ i : Nat, (∀ (x : List ImportDescriptor) (d : ImportDescriptor), m'.imports = some x → ∀ j, j ≤ i → x[j]? = some d → d.firstThunk ≠ 0 ∧ d.name ≠ 0) ↔
      (∀ e : ImportDescriptor, ∀ j, j ≤ i → l[j]? = some e → e.firstThunk ≠ 0 ∧ e.name ≠ 0) := by
    intro i
    rw [hm']
    constructor
    · intro hh e j hj he
      obtain ⟨d', a1, a2, a3, _⟩ := hk j e he
      rw [← a2, ← a3]
      exact hh l' d' rfl j hj a1
    · intro hh x d hx j hj he
      cases hx
      have hjl : j < l.length := by
        rw [← hl]
        exact (List.getElem?_eq_some_iff.1 he).1
      obtain ⟨d', a1, a2, a3, _⟩ := hk j l[j] (List.getElem?_eq_getElem hjl)
      rw [a1] at he
      cases he
      rw [a2, a3]
      exact hh _ j hj (List.getElem?_eq_getElem hjl)
  have hslots : ∀ i k, (importLive m i k → importSlot m' i k = (importSlot m i k).map fun t => if t = orig then hook else t) ∧
      (¬ importLive m i k → importSlot m' i k = importSlot m i k) := by
    intro i k
    simp only [importLive, hdesc, hslot, hslot']
    cases hd : l[i]? with
    | none =>
      have : l'[i]? = none := by
        rw [List.getElem?_eq_none_iff] at hd ⊢; omega
      simp [this]
    | some d =>
      obtain ⟨d', a1, a2, a3, a4, a5⟩ := hk i d hd
      simp only [a1, Option.bind_some]
      by_cases hdl : ∀ e : ImportDescriptor, ∀ j, j ≤ i → l[j]? = some e → e.firstThunk ≠ 0 ∧ e.name ≠ 0
      · obtain ⟨b1, b2⟩ := hookThunks_spec d.thunks d'.thunks (a4 hdl)
        cases ht : d.thunks[k]? with
        | none =>
          have : d'.thunks[k]? = none := by
            rw [List.getElem?_eq_none_iff] at ht ⊢; omega
          simp [this]
        | some t =>
          obtain ⟨c1, c2⟩ := b2 k t ht
          constructor
          · rintro ⟨_, hz⟩
            rw [c1 hz]; rfl
          · intro hn
            rw [c2 fun hz => hn ⟨hdl, hz⟩]
      · rw [a5 hdl]
        exact ⟨fun h => absurd h.1 hdl, fun _ => rfl⟩
  refine ⟨hslots, fun h0 i k => ?_⟩
  have hzero : ∀ j, importSlot m' i j = some 0 ↔ importSlot m i j = some 0 := by
    intro j
    by_cases hlive : importLive m i j
    · rw [(hslots i j).1 hlive]
      have := hlive.2 j (Nat.le_refl _)
      constructor
      · intro hh
        simp only [Option.map_eq_some_iff] at hh
        obtain ⟨t, ht, he⟩ := hh
        split at he
        · exact absurd he h0
        · rw [ht, he]
      · intro hh; exact absurd hh this
    · rw [(hslots i j).2 hlive]
  simp only [importLive, hdesc, hdesc', ne_eq, hzero]

theorem hookModule_spec {os : HookOs} {inUse : List (BitVec 64)} (ho : HonestOs os inUse) {orig hook : BitVec 64}
    {s s' : HookState} {m m' : WinModule} (hs : s.Aligned os) (h : hookModule os orig hook s m = some (s', m')) :
    Grown os s s' ∧ ModHooked s' orig hook m m' ∧ ∀ b ∈ s'.trampolines, b ∈ s.trampolines ∨ b ∉ inUse := by
  simp only [hookModule] at h
  split at h
  · cases h
  · split at h
    · cases h
    · rename_i s1 ex hex
      obtain ⟨g, hl, hb, he⟩ := hookExports_spec ho m.base orig hook m.exports s none s1 ex hs (by simp) hex
      split at h
      · rename_i hi
        simp only [Option.some.injEq, Prod.mk.injEq] at h
        obtain ⟨rfl, rfl⟩ := h
        refine ⟨g, ⟨rfl, rfl, hl, he, ?_, ?_⟩, hb⟩
        · intro i k
          have : importSlot m i k = none := by simp [importSlot, hi]
          have h2 : importSlot { m with exports := ex } i k = none := by simp [importSlot, hi]
          simp [this, h2]
        · intro _ i k; rfl
      · rename_i l hi
        simp only [Option.map_eq_some_iff] at h
        obtain ⟨l', hl', heq⟩ := h
        simp only [Prod.mk.injEq] at heq
        obtain ⟨rfl, rfl⟩ := heq
        obtain ⟨b1, b2⟩ := hookModule_imports (m := m) (m' := { m with exports := ex, imports := some l' }) hi rfl hl'
        exact ⟨g, ⟨rfl, rfl, hl, he, b1, b2⟩, hb⟩

theorem ModHooked.grown {os : HookOs} {s s' : HookState} (h : Grown os s s') {orig hook : BitVec 64} {m m' : WinModule}
    (hm : ModHooked s orig hook m m') : ModHooked s' orig hook m m' :=
  { hm with entries := fun i rva rva' h1 h2 => (hm.entries i rva rva' h1 h2).grown h }

theorem hookFunction_spec {os : HookOs} {inUse : List (BitVec 64)} (ho : HonestOs os inUse) {orig hook : BitVec 64}
    (mods : List WinModule) : ∀ (s s' : HookState) (mods' : List WinModule), s.Aligned os →
      hookFunction os orig hook s mods = some (s', mods') →
      Grown os s s' ∧ mods'.length = mods.length ∧ (∀ b ∈ s'.trampolines, b ∈ s.trampolines ∨ b ∉ inUse) ∧
      ∀ (i : Nat) (m m' : WinModule), mods[i]? = some m → mods'[i]? = some m' → ModHooked s' orig hook m m' := by
  induction mods with
  | nil =>
    intro s s' mods' hs h
    simp only [hookFunction, Option.some.injEq, Prod.mk.injEq] at h
    obtain ⟨rfl, rfl⟩ := h
    exact ⟨.refl hs, rfl, fun b hb => .inl hb, by simp⟩
  | cons m rest ih =>
    intro s s' mods' hs h
    rw [hookFunction.eq_def] at h
    simp only at h
    split at h
    · cases h
    · rename_i s1 m1 hm
      simp only [Option.map_eq_some_iff] at h
      obtain ⟨⟨s2, l2⟩, h2, heq⟩ := h
      simp only [Prod.mk.injEq] at heq
      obtain ⟨rfl, rfl⟩ := heq
      obtain ⟨g1, hm1, hb1⟩ := hookModule_spec ho hs hm
      obtain ⟨g2, hl, hb2, hrest⟩ := ih s1 s2 l2 g1.aligned h2
      refine ⟨g1.trans g2, by simp [hl], ?_, ?_⟩
      · intro b hb
        rcases hb2 b hb with h3 | h3
        · exact hb1 b h3
        · exact .inr h3
      · intro i x x' hx hx'
        cases i with
        | zero =>
          simp only [List.getElem?_cons_zero, Option.some.injEq] at hx hx'
          subst hx; subst hx'
          exact hm1.grown g2
        | succ i =>
          simp only [List.getElem?_cons_succ] at hx hx'
          exact hrest i x x' hx hx'

theorem resolve_near {base a : BitVec 64} (h : (a - base).toNat < 2 ^ 32) :
    resolve base ((a - base).truncate 32) = a := by
  have e : (BitVec.truncate 32 (a - base)).zeroExtend 64 = a - base := by
    apply BitVec.eq_of_toNat_eq
    simp only [BitVec.truncate_eq_setWidth, BitVec.toNat_setWidth]
    omega
  rw [resolve, e]
  grind

theorem reaches_self (m : Mem 64) (a : BitVec 64) : Reaches m a a :=
  fun s hs _ _ => ⟨0, s, rfl, hs, rfl, fun _ _ => rfl⟩

theorem reaches_trampoline {m : Mem 64} {a hook : BitVec 64} (h : Holds m a (patch64 hook)) : Reaches m a hook := by
  intro s hs hm hd
  have hp : Holds s.mem s.ip (patch64 hook) := by
    rw [hs]
    refine h.congr fun i hi => hm _ ?_
    rw [patch64_length] at hi
    rw [InRange, add_sub_self, BitVec.toNat_ofNat, Nat.mod_eq_of_lt (by omega)]
    exact hi
  obtain ⟨s', h1, h2, h3, h4⟩ := exec_trampoline64 s hook hp (by rw [hs]; exact hd)
  exact ⟨3, s', h1, h2, h3, h4⟩

theorem hookPairs_eq (mods : List WinModule) (dll : Nat) (l : List (Nat × BitVec 64)) :
    hookPairs mods dll l = l.filterMap fun e => (procAddress mods dll e.1).map (·, e.2) := by
  simp only [hookPairs]
  congr 1
  funext e
  simp only [procAddress]
  cases mods[dll]? with
  | none => rfl
  | some m => cases h : m.exports[e.1]? <;> simp [h, resolve]

theorem hookAll_grown {os : HookOs} {inUse : List (BitVec 64)} (ho : HonestOs os inUse) (dll : Nat)
    (l : List (Nat × BitVec 64)) : ∀ (s s' : HookState) (mods mods' : List WinModule), s.Aligned os →
      hookAll os dll l s mods = some (s', mods') → Grown os s s' := by
  induction l with
  | nil =>
    intro s s' mods mods' hs h
    simp only [hookAll, Option.some.injEq, Prod.mk.injEq] at h
    obtain ⟨rfl, rfl⟩ := h
    exact .refl hs
  | cons e rest ih =>
    intro s s' mods mods' hs h
    rw [hookAll.eq_def] at h
    simp only at h
    split at h
    · cases h
    · split at h
      · cases h
      · rename_i hf
        have g := (hookFunction_spec ho mods _ _ _ hs hf).1
        exact g.trans (ih _ _ _ _ g.aligned h)

theorem mem_hookPairs {mods : List WinModule} {dll : Nat} {l : List (Nat × BitVec 64)} {e : Nat × BitVec 64}
    {o : BitVec 64} (he : e ∈ l) (ho : procAddress mods dll e.1 = some o) : (o, e.2) ∈ hookPairs mods dll l := by
  simp only [hookPairs_eq, List.mem_filterMap]
  exact ⟨e, he, by simp [ho]⟩

theorem hookPairs_congr {mods mods1 : List WinModule} {dll : Nat} {l : List (Nat × BitVec 64)}
    (h : ∀ e ∈ l, procAddress mods1 dll e.1 = procAddress mods dll e.1) :
    hookPairs mods1 dll l = hookPairs mods dll l := by
  induction l with
  | nil => rfl
  | cons e rest ih =>
    simp only [hookPairs_eq, List.filterMap_cons] at ih ⊢
    rw [h e (by simp), ih fun x hx => h x (by simp [hx])]

theorem redirect_cons (orig hook t : BitVec 64) (rest : List (BitVec 64 × BitVec 64))
    (hh : hook ∉ rest.map Prod.fst) :
    redirect rest (if t = orig then hook else t) = redirect ((orig, hook) :: rest) t := by
  by_cases ht : t = orig
  · subst ht
    simp only [if_pos, redirect, List.find?_cons, decide_true]
    have : rest.find? (fun x => decide (x.1 = hook)) = none := by
      rw [List.find?_eq_none]
      intro p hp
      simp only [decide_eq_true_eq]
      rintro rfl
      exact hh (List.mem_map_of_mem hp)
    simp [this]
  · have : ¬ orig = t := fun h => ht h.symm
    simp [ht, redirect, this]

/-- Everything about a sequence of hooks. -/
theorem hookAll_spec {os : HookOs} {inUse : List (BitVec 64)} (ho : HonestOs os inUse) (dll : Nat)
    (l : List (Nat × BitVec 64)) :
    ∀ (s s' : HookState) (mods mods' : List WinModule), s.Aligned os →
      hookAll os dll l s mods = some (s', mods') →
      ((hookPairs mods dll l).map Prod.fst).Nodup →
      (∀ p ∈ hookPairs mods dll l, p.1 ∈ inUse ∧ p.2 ≠ 0 ∧ p.2 ∉ (hookPairs mods dll l).map Prod.fst) →
      (∀ m ∈ mods, (∃ rva ∈ m.exports, resolve m.base rva ∈ (hookPairs mods dll l).map Prod.fst) →
        ∀ a ∈ s'.trampolines, (a - m.base).toNat < 2 ^ 32) →
      (∀ b ∈ s.trampolines, b ∉ inUse) →
      (hookPairs mods dll l).length = l.length ∧
      Grown os s s' ∧ mods'.length = mods.length ∧
      ∀ (i : Nat) (m m' : WinModule), mods[i]? = some m → mods'[i]? = some m' →
        ExportsRedirected s'.mem (hookPairs mods dll l) m m' ∧
        (∀ i k, (importLive m i k → importSlot m' i k = (importSlot m i k).map (redirect (hookPairs mods dll l))) ∧
          (¬ importLive m i k → importSlot m' i k = importSlot m i k)) := by
  induction l with
  | nil =>
    intro s s' mods mods' hs h _ _ _ _
    simp only [hookAll, Option.some.injEq, Prod.mk.injEq] at h
    obtain ⟨rfl, rfl⟩ := h
    refine ⟨rfl, .refl hs, rfl, ?_⟩
    intro i m m' hm hm'
    rw [hm] at hm'
    cases hm'
    refine ⟨⟨rfl, rfl, ?_⟩, ?_⟩
    · intro j rva rva' h1 h2
      rw [h1] at h2
      cases h2
      exact ⟨by simp [hookPairs], fun _ => rfl⟩
    · intro i k
      refine ⟨fun _ => ?_, fun _ => rfl⟩
      cases importSlot m i k <;> simp [redirect, hookPairs]
  | cons e rest ih =>
    obtain ⟨entry, hook⟩ := e
    intro s s' mods mods' hs h hnd hpairs hnear htr
    rw [hookAll.eq_def] at h
    simp only at h
    split at h
    · cases h
    · rename_i orig horig
      split at h
      · cases h
      · rename_i s1 mods1 hf
        obtain ⟨g1, hl1, hb1, hmods⟩ := hookFunction_spec ho mods s s1 mods1 hs hf
        have hcons : hookPairs mods dll ((entry, hook) :: rest) = (orig, hook) :: hookPairs mods dll rest := by
          simp [hookPairs_eq, horig]
        rw [hcons] at hnd hpairs hnear ⊢
        simp only [List.map_cons, List.nodup_cons, List.mem_cons, forall_eq_or_imp] at hnd hpairs hnear
        obtain ⟨hnd1, hnd2⟩ := hnd
        obtain ⟨⟨hu, h0, hself⟩, hpairs⟩ := hpairs
        simp only [not_or] at hself
        have hgall := hookAll_grown ho dll rest _ _ _ _ g1.aligned h
        -- an entry that is hooked now is not one of those hooked later
        have hentry : ∀ (i : Nat) (m m1 : WinModule) (j : Nat) (rva rva1 : BitVec 32), mods[i]? = some m →
            mods1[i]? = some m1 → m.exports[j]? = some rva → m1.exports[j]? = some rva1 →
            (resolve m.base rva = orig → Reaches s'.mem (resolve m.base rva1) hook ∧
              resolve m.base rva1 ∉ (hookPairs mods dll rest).map Prod.fst) ∧
            (resolve m.base rva ≠ orig → rva1 = rva) := by
          intro i m m1 j rva rva1 hm hm1 hj hj1
          have := (hmods i m m1 hm hm1).entries j rva rva1 hj hj1
          unfold EntryHooked at this
          constructor
          · intro hr
            rw [if_pos hr] at this
            rcases this with h2 | ⟨a, ha, hh, e⟩
            · rw [h2]
              exact ⟨reaches_self _ _, hself.2⟩
            · have hn : (a - m.base).toNat < 2 ^ 32 :=
                hnear m (List.mem_of_getElem? hm) ⟨rva, List.mem_of_getElem? hj, .inl hr⟩ a (hgall.kept a ha)
              rw [e, resolve_near hn]
              refine ⟨reaches_trampoline (hgall.holds ha hh), fun hmem => ?_⟩
              obtain ⟨p, hp, rfl⟩ := List.mem_map.1 hmem
              rcases hb1 _ ha with h3 | h3
              · exact htr _ h3 (hpairs p hp).1
              · exact h3 (hpairs p hp).1
          · intro hr
            rw [if_neg hr] at this
            exact this
        have hproc : ∀ e ∈ rest, procAddress mods1 dll e.1 = procAddress mods dll e.1 := by
          intro e he
          cases hd : mods[dll]? with
          | none =>
            have : mods1[dll]? = none := by rw [List.getElem?_eq_none_iff] at hd ⊢; omega
            simp [procAddress, hd, this]
          | some m =>
            have hlt : dll < mods1.length := by rw [hl1]; exact (List.getElem?_eq_some_iff.1 hd).1
            have hd1 := List.getElem?_eq_getElem hlt
            have hmod := hmods dll m _ hd hd1
            simp only [procAddress, hd, hd1, hmod.base]
            cases hx : m.exports[e.1]? with
            | none =>
              have : mods1[dll].exports[e.1]? = none := by
                have := hmod.length
                rw [List.getElem?_eq_none_iff] at hx ⊢; omega
              rw [this]
            | some rva =>
              have hlt2 : e.1 < mods1[dll].exports.length := by
                rw [hmod.length]; exact (List.getElem?_eq_some_iff.1 hx).1
              have hx1 := List.getElem?_eq_getElem hlt2
              rw [hx1, (hentry dll m _ e.1 rva _ hd hd1 hx hx1).2 ?_]
              intro heq
              apply hnd1
              have : procAddress mods dll e.1 = some orig := by simp [procAddress, hd, hx, heq]
              exact List.mem_map.2 ⟨_, mem_hookPairs he this, rfl⟩
        have hp1 := hookPairs_congr hproc
        obtain ⟨i1, i2, i3, i4⟩ := ih s1 s' mods1 mods' g1.aligned h (by rw [hp1]; exact hnd2)
          (by
            rw [hp1]
            intro p hp
            obtain ⟨q1, q2, q3⟩ := hpairs p hp
            simp only [not_or] at q3
            exact ⟨q1, q2, q3.2⟩)
          (by
            rw [hp1]
            rintro m1 hm1 ⟨rva1, hrva1, hres⟩ a ha
            obtain ⟨i, hi⟩ := List.getElem?_of_mem hm1
            have hlt : i < mods.length := by rw [← hl1]; exact (List.getElem?_eq_some_iff.1 hi).1
            have hm := List.getElem?_eq_getElem hlt
            have hmod := hmods i _ m1 hm hi
            obtain ⟨j, hj1⟩ := List.getElem?_of_mem hrva1
            have hltj : j < mods[i].exports.length := by
              rw [← hmod.length]; exact (List.getElem?_eq_some_iff.1 hj1).1
            have hj := List.getElem?_eq_getElem hltj
            obtain ⟨q1, q2⟩ := hentry i _ m1 j _ rva1 hm hi hj hj1
            rw [hmod.base] at hres ⊢
            by_cases hr : resolve mods[i].base mods[i].exports[j] = orig
            · exact absurd hres (q1 hr).2
            · rw [q2 hr] at hres
              exact hnear _ (List.getElem_mem hlt) ⟨_, List.getElem_mem hltj, .inr hres⟩ a ha)
          (by
            intro b hb
            rcases hb1 b hb with h3 | h3
            · exact htr b h3
            · exact h3)
        rw [hp1] at i1 i4
        refine ⟨by simp [i1], g1.trans i2, by rw [i3, hl1], ?_⟩
        intro i m m' hm hm'
        have hlt : i < mods1.length := by rw [hl1]; exact (List.getElem?_eq_some_iff.1 hm).1
        have hm1 := List.getElem?_eq_getElem hlt
        have hmod := hmods i m _ hm hm1
        obtain ⟨⟨e1, e2, e3⟩, e4⟩ := i4 i _ m' hm1 hm'
        refine ⟨⟨by rw [e1, hmod.base], by rw [e2, hmod.length], ?_⟩, ?_⟩
        · intro j rva rva' hj hj'
          have hltj : j < mods1[i].exports.length := by
            rw [hmod.length]; exact (List.getElem?_eq_some_iff.1 hj).1
          have hj1 := List.getElem?_eq_getElem hltj
          obtain ⟨q1, q2⟩ := hentry i m _ j rva _ hm hm1 hj hj1
          obtain ⟨r1, r2⟩ := e3 j _ rva' hj1 hj'
          rw [hmod.base] at r1 r2
          by_cases hr : resolve m.base rva = orig
          · obtain ⟨q3, q4⟩ := q1 hr
            have heq : rva' = mods1[i].exports[j] := by
              apply r2
              intro p hp hpe
              exact q4 (List.mem_map.2 ⟨p, hp, hpe⟩)
            constructor
            · intro p hp hpe
              rw [heq]
              simp only [List.mem_cons] at hp
              rcases hp with rfl | hp
              · exact q3
              · exfalso
                apply hnd1
                exact List.mem_map.2 ⟨p, hp, by rw [hpe]; exact hr⟩
            · intro hn
              exact absurd hr.symm (hn (orig, hook) (by simp))
          · rw [q2 hr] at r1 r2
            constructor
            · intro p hp hpe
              simp only [List.mem_cons] at hp
              rcases hp with rfl | hp
              · exact absurd hpe.symm hr
              · exact r1 p hp hpe
            · intro hn
              exact r2 fun p hp => hn p (by simp [hp])
        · intro i k
          obtain ⟨f1, f2⟩ := e4 i k
          obtain ⟨d1, d2⟩ := hmod.slots i k
          have hlive := hmod.live h0 i k
          constructor
          · intro hlv
            rw [f1 (hlive.2 hlv), d1 hlv, Option.map_map]
            congr 1
            funext t
            exact redirect_cons orig hook t _ hself.2
          · intro hlv
            rw [f2 fun x => hlv (hlive.1 x), d2 hlv]

end Iris
