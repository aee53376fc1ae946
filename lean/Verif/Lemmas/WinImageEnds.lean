import Verif.Lemmas.WinImageHook
/-!
# Lemmas about redirecting functions in memory: it comes to an end
-/
namespace Iris
open Spec Asm

/-- From `s`, `x` has a result, and it satisfies `Q`. -/
def Ends {α : Type} (s : PState) (x : Hooking α) (Q : α → PState → Prop) : Prop :=
  ∃ a s', (x s).2 = some (a, s') ∧ Q a s'

variable {α β : Type}

theorem ends_pure {s : PState} {a : α} {Q : α → PState → Prop} (h : Q a s) : Ends s (pure a : Hooking α) Q :=
  ⟨a, s, rfl, h⟩

theorem ends_get {s : PState} {Q : PState → PState → Prop} (h : Q s s) : Ends s Hooking.get Q := ⟨s, s, rfl, h⟩

theorem ends_put {s s1 : PState} {Q : Unit → PState → Prop} (h : Q () s1) : Ends s (Hooking.put s1) Q := ⟨(), s1, rfl, h⟩

theorem ends_bind {s : PState} {x : Hooking α} {f : α → Hooking β} {R : β → PState → Prop}
    (h : Ends s x fun a s' => Ends s' (f a) R) : Ends s (x >>= f) R := by
  obtain ⟨a, s1, h1, b, s2, h2, h3⟩ := h
  refine ⟨b, s2, ?_, h3⟩
  simp only [bind]
  cases hx : x s with
  | mk tr r =>
    rw [hx] at h1
    simp only at h1
    subst h1
    exact h2

theorem Ends.mono {s : PState} {x : Hooking α} {Q R : α → PState → Prop} (h : Ends s x Q)
    (hq : ∀ a s', Q a s' → R a s') : Ends s x R := by
  obtain ⟨a, s1, h1, h2⟩ := h
  exact ⟨a, s1, h1, hq _ _ h2⟩

theorem Ends.and {K : PState → PState → Prop} {s : PState} {x : Hooking α} {Q R : α → PState → Prop} (h : Ends s x Q)
    (hr : Runs K s x R) : Ends s x fun a s' => Q a s' ∧ R a s' := by
  obtain ⟨a, s1, h1, h2⟩ := h
  exact ⟨a, s1, h1, h2, hr.result _ _ h1⟩

theorem ends_load {s : PState} {n : Nat} {a : BitVec 64} {Q : Nat → PState → Prop}
    (hp : s.permits Prot.readable a n = true) (h : Q (num s n a) s) : Ends s (loadNat n a) Q := by
  refine ends_bind (ends_get ?_)
  rw [if_pos hp]
  exact ends_pure h

theorem ends_store {s : PState} {a : BitVec 64} {l : List (BitVec 8)} {Q : Unit → PState → Prop}
    (hp : s.permits Prot.writable a l.length = true) (h : Q () { s with mem := copyTo s.mem a l }) : Ends s (store a l) Q := by
  refine ends_bind (ends_get ?_)
  rw [if_pos hp]
  exact ends_put h

theorem ends_systemCall {os : PageOs} (ho : Obliging os) {s : PState} {Q : Bool → PState → Prop}
    (h : Q true { s with calls := s.calls + 1 }) : Ends s (systemCall os) Q := by
  refine ends_bind (ends_get (ends_bind (ends_put ?_)))
  rw [ho.grants]
  exact ends_pure h

theorem ends_virtualProtect {os : PageOs} (ho : Obliging os) {s : PState} {a : BitVec 64} {size : Nat} {new : Prot}
    {Q : Option Prot → PState → Prop} (hp : ∀ p ∈ pagesOf a size, s.prot p ≠ none)
    (h : Q (s.prot (pageOf a)) ⟨s.mem, fun p => if touches a size p then some new else s.prot p, s.calls + 1⟩) :
    Ends s (virtualProtect os a size new) Q := by
  refine ends_bind (ends_systemCall ho (ends_bind (ends_get ?_)))
  rw [if_pos]
  · exact ends_bind (ends_put (ends_pure h))
  · simp only [Bool.true_and, List.all_eq_true, Option.isSome_iff_ne_none]
    exact hp

theorem ends_virtualAlloc {os : PageOs} (ho : Obliging os) {s : PState} {a : BitVec 64} {size : Nat} {new : Prot}
    {Q : Bool → PState → Prop} (hp : ∀ p ∈ pagesOf a size, s.prot p = none)
    (h : Q true ⟨fun x => if touches a size (pageOf x) then 0 else s.mem x,
        fun p => if touches a size p then some new else s.prot p, s.calls + 1⟩) :
    Ends s (virtualAlloc os a size new) Q := by
  refine ends_bind (ends_systemCall ho (ends_bind (ends_get ?_)))
  rw [if_pos]
  · exact ends_bind (ends_put (ends_pure h))
  · simp only [Bool.true_and, List.all_eq_true, Option.isNone_iff_eq_none]
    exact hp

/-! ## Permissions -/

theorem permits_of {s : PState} {ok : Prot → Bool} {a : BitVec 64} {n : Nat} (hn : n ≤ 2 ^ 64)
    (h : ∀ x, InRange a n x → ∃ pr, s.prot (pageOf x) = some pr ∧ ok pr = true) : s.permits ok a n = true := by
  simp only [PState.permits, List.all_eq_true, List.mem_range]
  intro i hi
  obtain ⟨pr, h1, h2⟩ := h (a + BitVec.ofNat 64 i) (by
    simp only [InRange, BitVec.toNat_sub, BitVec.toNat_add, BitVec.toNat_ofNat]
    have := a.isLt
    omega)
  rw [h1]
  exact h2

theorem readable_of {s : PState} {p : Nat} (h : PageReadable s p) : ∃ pr, s.prot p = some pr ∧ pr.readable = true := by
  rcases h with h | h | h | h | h | h <;> exact ⟨_, h, rfl⟩

/-- Pages in use have the protection they had. -/
def SameProt (s0 s : PState) : Prop := ∀ pg, s0.prot pg ≠ none → s.prot pg = s0.prot pg

theorem SameProt.grows {s0 s : PState} (h : SameProt s0 s) : Grows s0 s := fun pg hp => by rw [h pg hp]; exact hp

theorem SameProt.readable {s0 s : PState} (h : SameProt s0 s) {p : Nat} (hr : PageReadable s0 p) : PageReadable s p := by
  have hne : s0.prot p ≠ none := by
    obtain ⟨pr, h1, _⟩ := readable_of hr
    rw [h1]; simp
  simp only [PageReadable, h p hne]
  exact hr

theorem permits_header {s0 s : PState} (h : SameProt s0 s) {p : Process} (hr : p.Readable s0) {r : BitVec 64 × Nat}
    (hm : r ∈ p.header) (hn : r.2 ≤ 2 ^ 64) : s.permits Prot.readable r.1 r.2 = true :=
  permits_of hn fun x hx => readable_of (h.readable (hr.header r hm x hx))

theorem permits_slot {s0 s : PState} (h : SameProt s0 s) {p : Process} (hr : p.Readable s0) {sl : Slot}
    (hm : sl ∈ p.slots) : s.permits Prot.readable sl.addr sl.size = true :=
  permits_of (by rcases mem_slots_size hm with h | h <;> omega) fun x hx => readable_of (h.readable (hr.slots sl hm x hx))

/-! ## One entry is overwritten -/

theorem ends_hotpatch {os : PageOs} (ho : Obliging os) {s : PState} {location : BitVec 64} {size value : Nat}
    (hf : Fits location size) (hu : s.prot (pageOf location) ≠ none) {Q : Unit → PState → Prop}
    (h : ∀ n, Q () ⟨copyTo s.mem location (leBytes size value), s.prot, n⟩) :
    Ends s (hotpatch os size value location) Q := by
  have h1 : 1 ≤ size := by rcases hf.1 with h | h <;> omega
  have hp : ∀ p ∈ pagesOf location size, p = pageOf location := fun p hp => (touches_fits hf).1 ((mem_pagesOf h1).1 hp)
  obtain ⟨old, hold⟩ := Option.ne_none_iff_exists'.1 hu
  refine ends_bind (ends_bind (ends_systemCall ho ?_))
  rw [if_pos rfl]
  refine ends_bind (ends_virtualProtect ho (fun p h => by rw [hp p h]; exact hu) ?_)
  simp only [hold]
  refine ends_pure (ends_bind (ends_store ?_ ?_))
  · rw [leBytes_length]
    refine permits_of (by rcases hf.1 with h | h <;> omega) fun x hx => ⟨.readWrite, ?_, rfl⟩
    simp only
    rw [inRange_fits hf hx, if_pos ((touches_fits hf).2 rfl)]
  · refine ends_bind (ends_virtualProtect ho (fun p h => ?_) ?_)
    · simp only
      rw [if_pos ((touches_fits hf).2 (hp p h))]
      simp
    · simp only
      rw [if_pos ((touches_fits hf).2 rfl)]
      refine ends_pure ?_
      have he : (fun p => if touches location size p then some old else
          if touches location size p then some Prot.readWrite else s.prot p) = s.prot := by
        funext p
        split
        · rename_i h1
          rw [(touches_fits hf).1 h1, hold]
        · rfl
      simp only [he]
      exact h _

/-! ## Trampolines -/

/-- A unit whose first page is free is free. -/
def Whole (os : PageOs) (s : PState) : Prop :=
  ∀ u q, os.granularity ∣ u → u < 2 ^ 64 → s.prot (u / 4096) = none → u ≤ q * 4096 → q * 4096 < u + os.granularity →
    s.prot q = none

/-- There are `n` free units above all modules. -/
def Room (os : PageOs) (p : Process) (n : Nat) (s : PState) : Prop :=
  ∃ l : List Nat, l.Nodup ∧ n ≤ l.length ∧ ∀ u ∈ l, os.granularity ∣ u ∧ u < 2 ^ 64 ∧ s.prot (u / 4096) = none ∧
    ∀ m ∈ p.modules, m.2.base.toNat ≤ u

/-- The state hooking can go on from, with `n` trampolines to make. -/
structure HookReady (os : PageOs) (p : Process) (s0 : PState) (n : Nat) (s : PState) : Prop where
  same : SameProt s0 s
  whole : Whole os s
  room : Room os p n s

theorem Room.le {os : PageOs} {p : Process} {n m : Nat} {s : PState} (h : Room os p n s) (hm : m ≤ n) : Room os p m s := by
  obtain ⟨l, h1, h2, h3⟩ := h
  exact ⟨l, h1, by omega, h3⟩

theorem HookReady.le {os : PageOs} {p : Process} {s0 : PState} {n m : Nat} {s : PState} (h : HookReady os p s0 n s) (hm : m ≤ n) :
    HookReady os p s0 m s := ⟨h.same, h.whole, h.room.le hm⟩

theorem HookReady.prot {os : PageOs} {p : Process} {s0 : PState} {n : Nat} {s s' : PState} (h : HookReady os p s0 n s)
    (he : s'.prot = s.prot) : HookReady os p s0 n s' := by
  obtain ⟨h1, h2, h3⟩ := h
  refine ⟨fun pg hp => by rw [he]; exact h1 pg hp, ?_, ?_⟩
  · simp only [Whole, he]; exact h2
  · simp only [Room, he]; exact h3

theorem ends_makeTrampoline {os : PageOs} (ho : Obliging os) (hu : Unit64 os) {s s0 : PState} {p : Process} {n : Nat}
    {a hook : BitVec 64} (ha : os.granularity ∣ a.toNat) (hfree : s.prot (pageOf a) = none) (h : HookReady os p s0 (n + 1) s) :
    Ends s (makeTrampoline os a hook) fun _ s' => HookReady os p s0 n s' := by
  obtain ⟨g, hgr⟩ := hu.pages
  obtain ⟨v, hvr⟩ := hu.space
  have hpos := hu.pos
  have halt := a.isLt
  obtain ⟨c, hcr⟩ := ha
  have hspace : a.toNat + os.granularity ≤ 2 ^ 64 := by
    rw [hcr, hvr] at halt
    have h1 : c < v := Nat.lt_of_mul_lt_mul_left halt
    rw [hcr, hvr]
    calc os.granularity * c + os.granularity = os.granularity * (c + 1) := by rw [Nat.mul_succ]
      _ ≤ os.granularity * v := Nat.mul_le_mul_left _ h1
  have hge : 4096 ≤ os.granularity := by omega
  have ha4 : a.toNat % 4096 = 0 := by rw [hcr, hgr, Nat.mul_assoc, Nat.mul_mod_right]
  have htouch : ∀ q, touches a os.granularity q = true ↔ a.toNat ≤ q * 4096 ∧ q * 4096 < a.toNat + os.granularity := by
    intro q
    rw [touches, Bool.and_eq_true, decide_eq_true_iff, decide_eq_true_iff]
    omega
  have hnone : ∀ q, touches a os.granularity q = true → s.prot q = none := by
    intro q hq
    have := (htouch q).1 hq
    exact h.whole a.toNat q ⟨c, hcr⟩ halt hfree this.1 this.2
  refine ends_bind (ends_virtualAlloc ho (fun q hq => hnone q ((mem_pagesOf (by omega)).1 hq)) ?_)
  rw [if_pos rfl]
  refine ends_bind (ends_store ?_ ?_)
  · rw [patch64_length]
    refine permits_of (by omega) fun x hx => ⟨.readWrite, ?_, rfl⟩
    simp only
    rw [if_pos]
    rw [inRange_iff (by omega)] at hx
    rw [htouch, pageOf]
    omega
  · refine ends_bind (ends_virtualProtect ho (fun q hq => ?_) ?_)
    · simp only
      rw [if_pos ((mem_pagesOf (by omega)).1 hq)]
      simp
    · have hself : touches a os.granularity (pageOf a) = true := by rw [htouch, pageOf]; omega
      simp only
      rw [if_pos hself]
      refine ends_bind (ends_systemCall ho ?_)
      rw [if_pos rfl]
      refine ends_pure ?_
      have hsame : ∀ q, touches a os.granularity q ≠ true →
          (if touches a os.granularity q = true then some Prot.executeRead
            else if touches a os.granularity q = true then some Prot.readWrite else s.prot q) = s.prot q := by
        intro q hq
        rw [if_neg hq, if_neg hq]
      refine ⟨fun pg hp => ?_, fun u q h1 h2 h3 h4 h5 => ?_, ?_⟩
      · simp only
        have hn : touches a os.granularity pg ≠ true := fun ht => by
          have h1 := h.same pg hp
          rw [hnone pg ht] at h1
          exact hp h1.symm
        rw [hsame pg hn]
        exact h.same pg hp
      · simp only at h3 ⊢
        have hnu : touches a os.granularity (u / 4096) ≠ true := fun ht => by rw [if_pos ht] at h3; cases h3
        rw [hsame _ hnu] at h3
        have hnq : touches a os.granularity q ≠ true := by
          intro ht
          have h6 := (htouch q).1 ht
          obtain ⟨d, rfl⟩ := h1
          apply hnu
          have hcd : d = c := by
            apply Nat.le_antisymm
            · have : os.granularity * d < os.granularity * (c + 1) := by rw [Nat.mul_succ]; omega
              have := Nat.lt_of_mul_lt_mul_left this
              omega
            · have : os.granularity * c < os.granularity * (d + 1) := by rw [Nat.mul_succ]; omega
              have := Nat.lt_of_mul_lt_mul_left this
              omega
          subst hcd
          rw [← hcr]
          exact hself
        rw [hsame _ hnq]
        exact h.whole u q h1 h2 h3 h4 h5
      · obtain ⟨l, h1, h2, h3⟩ := h.room
        refine ⟨l.erase a.toNat, h1.erase _, ?_, fun u hu => ?_⟩
        · rw [List.length_erase]; split <;> omega
        · rw [h1.mem_erase_iff] at hu
          obtain ⟨h4, h5, h6, h7⟩ := h3 u hu.2
          refine ⟨h4, h5, ?_, h7⟩
          simp only
          rw [hsame]
          · exact h6
          · intro ht
            have h8 := (htouch _).1 ht
            obtain ⟨d, rfl⟩ := h4
            apply hu.1
            have h9 : os.granularity * d / 4096 * 4096 = os.granularity * d := by
              rw [hgr, Nat.mul_assoc, Nat.mul_div_cancel_left _ (by decide), Nat.mul_comm]
            have hcd : d = c := by
              apply Nat.le_antisymm
              · have : os.granularity * d < os.granularity * (c + 1) := by rw [Nat.mul_succ]; omega
                have := Nat.lt_of_mul_lt_mul_left this
                omega
              · have : os.granularity * c < os.granularity * (d + 1) := by rw [Nat.mul_succ]; omega
                have := Nat.lt_of_mul_lt_mul_left this
                omega
            subst hcd
            exact hcr.symm

theorem alignUp_le {g n u : Nat} (hg : 0 < g) (hu : g ∣ u) (h : n ≤ u) : alignUp g n ≤ u := by
  simp only [alignUp]
  split
  · exact h
  · obtain ⟨c, rfl⟩ := hu
    have h1 := Nat.div_add_mod n g
    have h2 := Nat.mod_lt n hg
    have h3 : n / g < c := by
      apply Nat.lt_of_mul_lt_mul_left (a := g)
      omega
    have h4 : g * (n / g + 1) ≤ g * c := Nat.mul_le_mul_left _ h3
    rw [Nat.mul_succ] at h4
    omega

theorem ends_findTrampoline {os : PageOs} (ho : Obliging os) (hu : Unit64 os) {s0 : PState} {p : Process} {n : Nat}
    {hook : BitVec 64} {u : Nat} (hud : os.granularity ∣ u) (hult : u < 2 ^ 64) (fuel : Nat) : ∀ (c : Nat) (s : PState),
    os.granularity ∣ c → c ≤ u → u < c + fuel → s.prot (u / 4096) = none → HookReady os p s0 (n + 1) s →
    Ends s (findTrampoline os hook fuel c) fun _ s' => HookReady os p s0 n s' := by
  induction fuel with
  | zero => intro c s _ h1 h2; omega
  | succ fuel ih =>
    intro c s hc h1 h2 h3 h
    simp only [findTrampoline]
    have hlt : c < 2 ^ 64 := by omega
    have hto : (BitVec.ofNat 64 c).toNat = c := by rw [BitVec.toNat_ofNat, Nat.mod_eq_of_lt hlt]
    rw [if_pos hlt]
    refine ends_bind (ends_systemCall ho ?_)
    rw [if_pos rfl]
    refine ends_bind (ends_get ?_)
    split
    · rename_i hfree
      refine ends_bind ((ends_makeTrampoline ho hu (by rw [hto]; exact hc) hfree (h.prot rfl)).mono fun _ s1 h4 => ?_)
      exact ends_pure h4
    · rename_i hused
      have hin : InUse { s with calls := s.calls + 1 } (BitVec.ofNat 64 c) := hused
      have h4 := ho.sized _ _ hin
      have h5 := ho.honest _ _ (u / 4096) hin
      rw [hto] at h5
      obtain ⟨g, hg⟩ := hu.pages
      obtain ⟨d, rfl⟩ := hud
      have hu4 : os.granularity * d / 4096 * 4096 = os.granularity * d := by
        rw [hg, Nat.mul_assoc, Nat.mul_div_cancel_left _ (by decide), Nat.mul_comm]
      have h6 : c + os.region { s with calls := s.calls + 1 } (BitVec.ofNat 64 c) ≤ os.granularity * d := by
        apply Decidable.byContradiction
        intro hn
        exact h5 (Nat.div_le_div_right h1) (by rw [hu4]; omega) h3
      refine ih _ _ (alignUp_dvd hu.pos _) (alignUp_le hu.pos ⟨d, rfl⟩ h6) ?_ h3 (h.prot rfl)
      have := le_alignUp os.granularity (c + os.region { s with calls := s.calls + 1 } (BitVec.ofNat 64 c))
      omega

/-! ## Tables -/

theorem ends_hookExportsAt {os : PageOs} (ho : Obliging os) (hu : Unit64 os) {fuel : Nat} (hfuel : 2 ^ 64 ≤ fuel) {s0 : PState}
    {p : Process} (hr : p.Readable s0) {G : Nat → Prop} (w : HookWorld G s0 p) {e : BitVec 64} {i : PeImage}
    (hm : (e, i) ∈ p.modules) {m : Nat} {orig hook table : BitVec 64} (n : Nat) :
    ∀ (k : Nat) (tramp : Option (BitVec 64)) (s : PState),
    (∀ sl ∈ (List.range' k n).map fun k => Slot.exported i.base (table + BitVec.ofNat 64 (4 * k)), sl ∈ p.slots) →
    HookReady os p s0 (if tramp = none then m + 1 else m) s →
    Ends s (hookExportsAt os fuel i.base orig hook table n k tramp) fun _ s' => HookReady os p s0 m s' := by
  induction n with
  | zero => intro k tramp s _ h; exact ends_pure (h.le (by split <;> omega))
  | succ n ih =>
    intro k tramp s hsl h
    simp only [List.range'_succ, List.map_cons] at hsl
    simp only [hookExportsAt]
    have hmem := hsl _ List.mem_cons_self
    have htail := fun sl h => hsl sl (List.mem_cons_of_mem _ h)
    have hgood := w.slots.good _ hmem
    have hused : s.prot (pageOf (table + BitVec.ofNat 64 (4 * k))) ≠ none :=
      h.same.grows _ (hgood.used _ (by simp [Slot.Has, InRange, Slot.size, Slot.addr]))
    refine ends_bind (ends_load (permits_slot h.same hr hmem) ?_)
    split
    · split
      · exact ends_bind (ends_hotpatch ho hgood.fits hused fun c => ih _ _ _ htail (h.prot rfl))
      · have key : ∀ (a : BitVec 64) (s1 : PState), HookReady os p s0 m s1 →
            Ends s1 (do
              hotpatch os 4 ((a - i.base).toNat % 2 ^ 32) (table + BitVec.ofNat 64 (4 * k))
              hookExportsAt os fuel i.base orig hook table n (k + 1) (some a)) fun _ s' => HookReady os p s0 m s' := by
          intro a s1 h1
          refine ends_bind (ends_hotpatch ho hgood.fits
            (h1.same.grows _ (hgood.used _ (by simp [Slot.Has, InRange, Slot.size, Slot.addr]))) fun c => ih _ _ _ htail ?_)
          rw [if_neg (by simp)]
          exact h1.prot rfl
        split
        · rename_i a
          refine ends_bind (ends_pure (key a s ?_))
          rw [if_neg (by simp)] at h
          exact h
        · rw [if_pos rfl] at h
          obtain ⟨l, _, h2, h3⟩ := h.room
          cases l with
          | nil => simp at h2
          | cons u l =>
            obtain ⟨h4, h5, h6, h7⟩ := h3 u (by simp)
            refine ends_bind ((ends_findTrampoline ho hu h4 h5 fuel _ s (alignUp_dvd hu.pos _)
              (alignUp_le hu.pos h4 (h7 _ hm)) (by omega) h6 h).mono fun a s1 h8 => key a s1 h8)
    · exact ih _ _ _ htail h

theorem ends_hookThunksAt {os : PageOs} (ho : Obliging os) {s0 : PState} {p : Process} (hr : p.Readable s0) {G : Nat → Prop}
    (w : HookWorld G s0 p) {m : Nat} {orig hook table : BitVec 64} {size : Nat} (hsize : size = 4 ∨ size = 8)
    (hlt : hook.toNat < 256 ^ size) (hhook : hook ≠ 0) (n : Nat) : ∀ (fuel k : Nat) (s : PState), n < fuel →
    (∀ j, k ≤ j → j < k + n → Slot.imported size (table + BitVec.ofNat 64 (size * j)) ∈ p.slots) →
    (∀ j, k ≤ j → j < k + n → num s size (table + BitVec.ofNat 64 (size * j)) ≠ 0) →
    (table + BitVec.ofNat 64 (size * (k + n)), size) ∈ p.header →
    num s size (table + BitVec.ofNat 64 (size * (k + n))) = 0 → HookReady os p s0 m s →
    Ends s (hookThunksAt os orig hook table size fuel k) fun _ s' => HookReady os p s0 m s' := by
  have hsz : size ≤ 2 ^ 64 := by rcases hsize with h | h <;> omega
  induction n with
  | zero =>
    intro fuel k s hf _ _ hend h0 h
    obtain ⟨fuel, rfl⟩ : ∃ f, fuel = f + 1 := ⟨fuel - 1, by omega⟩
    simp only [hookThunksAt]
    rw [Nat.add_zero] at hend h0
    refine ends_bind (ends_load (permits_header h.same hr hend hsz) ?_)
    rw [if_pos h0]
    exact ends_pure h
  | succ n ih =>
    intro fuel k s hf hsl hne hend h0 h
    obtain ⟨fuel, rfl⟩ : ∃ f, fuel = f + 1 := ⟨fuel - 1, by omega⟩
    simp only [hookThunksAt]
    have hmem := hsl k (by omega) (by omega)
    have hgood := w.slots.good _ hmem
    have hused : s.prot (pageOf (table + BitVec.ofNat 64 (size * k))) ≠ none :=
      h.same.grows _ (hgood.used _ (by simp only [Slot.Has, InRange, Slot.size, Slot.addr, BitVec.sub_self]; simp; omega))
    have hadd : k + (n + 1) = k + 1 + n := by omega
    rw [hadd] at hend h0
    refine ends_bind (ends_load (permits_slot h.same hr hmem) ?_)
    rw [if_neg (hne k (by omega) (by omega))]
    split
    · rename_i horig
      refine ends_bind (ends_hotpatch ho hgood.fits hused fun c => ?_)
      have hp : Redirects [.imported size (table + BitVec.ofNat 64 (size * k))] orig hook s0 s
          ⟨copyTo s.mem (table + BitVec.ofNat 64 (size * k)) (leBytes size hook.toNat), s.prot, c⟩ :=
        Redirects.patch hgood ((imported_target hgood.fits.1).2 horig) (v := hook.toNat) hlt fun s' hn _ _ => hn
      have hsub : ∀ sl ∈ [Slot.imported size (table + BitVec.ofNat 64 (size * k))], sl ∈ p.slots := by
        intro sl h; simp only [List.mem_singleton] at h; subst h; exact hmem
      refine ih fuel (k + 1) _ (by omega) (fun j h1 h2 => hsl j (by omega) (by omega))
        (fun j h1 h2 => ?_) hend ?_ (h.prot rfl)
      · exact w.imported_ne hsub hp h.same.grows hhook (hsl j (by omega) (by omega)) (hne j (by omega) (by omega))
      · have := w.header_same hsub hp h.same.grows hend hsz
        exact this.trans h0
    · exact ih fuel (k + 1) s (by omega) (fun j h1 h2 => hsl j (by omega) (by omega))
        (fun j h1 h2 => hne j (by omega) (by omega)) hend h0 h

/-! ## Modules -/

/-- The number of steps is enough for the module. -/
def Enough (fuel : Nat) (i : PeImage) : Prop :=
  2 ^ 64 ≤ fuel ∧ ∀ d ds, i.imports = some (d, ds) → ds.length < fuel ∧ ∀ t ∈ ds, t.2 < fuel

theorem slots_sub {G : Nat → Prop} {s0 : PState} {p : Process} (w : HookWorld G s0 p) {l : List Slot}
    (hl : l.Sublist p.slots) : Slots G s0 l :=
  ⟨fun sl h => w.slots.good sl (hl.subset h), fun sl h => w.slots.page sl (hl.subset h), w.slots.apart.sublist hl⟩

theorem ends_hookImportsAt {os : PageOs} (ho : Obliging os) {fuel : Nat} {s0 : PState} {p : Process} (hr : p.Readable s0)
    {G : Nat → Prop} (w : HookWorld G s0 p) {m : Nat} {orig hook : BitVec 64} (hhook : hook ≠ 0) {e : BitVec 64} {i : PeImage}
    (hlt : hook.toNat < 256 ^ i.word) (hen : Enough fuel i) (hm : (e, i) ∈ p.modules) {d : BitVec 64} {ds : List (BitVec 64 × Nat)}
    (hi : i.imports = some (d, ds)) (rest : List (BitVec 64 × Nat)) :
    ∀ (j steps : Nat) (s : PState), ds.drop j = rest → j + rest.length = ds.length → rest.length < steps → i.Loaded s →
    Slots G s0 (rest.flatMap fun d =>
      (List.range' 0 d.2).map fun k => .imported i.word (d.1 + BitVec.ofNat 64 (i.word * k))) →
    HookReady os p s0 m s →
    Ends s (hookImportsAt os fuel i.base orig hook d i.word steps j) fun _ s' => HookReady os p s0 m s' := by
  have hhead : ∀ j, j ≤ ds.length → (d + BitVec.ofNat 64 (20 * j) + 12, 4) ∈ p.header ∧ (d + BitVec.ofNat 64 (20 * j) + 16, 4) ∈ p.header := by
    intro j hj
    have hmem : ∀ r ∈ [(d + BitVec.ofNat 64 (20 * j) + 12, 4), (d + BitVec.ofNat 64 (20 * j) + 16, 4)], r ∈ p.header := by
      intro r hr
      refine mem_header hm ?_
      simp only [PeImage.header, hi]
      exact List.mem_append_right _ (List.mem_append_left _ (List.mem_flatMap.2 ⟨j, List.mem_range.2 (by omega), hr⟩))
    exact ⟨hmem _ (by simp), hmem _ (by simp)⟩
  induction rest with
  | nil =>
    intro j steps s _ hj hst hl _ h
    obtain ⟨steps, rfl⟩ : ∃ f, steps = f + 1 := ⟨steps - 1, by simp only [List.length_nil] at hst; omega⟩
    simp only [hookImportsAt]
    have he := hl.imports
    rw [hi] at he
    simp only at he
    simp only [List.length_nil, Nat.add_zero] at hj
    have hh := hhead j (by omega)
    refine ends_bind (ends_load (permits_header h.same hr hh.2 (Nat.le_of_ble_eq_true rfl)) ?_)
    refine ends_bind (ends_load (permits_header h.same hr hh.1 (Nat.le_of_ble_eq_true rfl)) ?_)
    subst hj
    rw [if_pos he.2.2.2.2]
    exact ends_pure h
  | cons r rest ih =>
    intro j steps s hd hj hst hl hs h
    obtain ⟨table, n⟩ := r
    simp only [List.length_cons] at hj hst
    obtain ⟨steps, rfl⟩ : ∃ f, steps = f + 1 := ⟨steps - 1, by omega⟩
    simp only [hookImportsAt]
    have he := hl.imports
    rw [hi] at he
    simp only at he
    have hget : ds[j]? = some (table, n) := by
      have := congrArg (·[0]?) hd
      simpa using this
    obtain ⟨h1, h2, h3, h4, h5⟩ := he.2.2.2.1 j table n hget
    have hmem := List.mem_of_getElem? hget
    simp only [List.flatMap_cons] at hs
    obtain ⟨hs1, hs2, _⟩ := hs.append
    have hsub : ∀ sl ∈ (List.range' 0 n).map fun k => Slot.imported i.word (table + BitVec.ofNat 64 (i.word * k)),
        sl ∈ p.slots := by
      intro sl hsl
      refine mem_slots hm ?_
      simp only [PeImage.slots, hi]
      exact List.mem_append_right _ (List.mem_flatMap.2 ⟨(table, n), hmem, hsl⟩)
    have hend : (table + BitVec.ofNat 64 (i.word * n), i.word) ∈ p.header := by
      refine mem_header hm ?_
      simp only [PeImage.header, hi]
      exact List.mem_append_right _ (List.mem_append_right _ (List.mem_map.2 ⟨(table, n), hmem, rfl⟩))
    have hh := hhead j (by omega)
    refine ends_bind (ends_load (permits_header h.same hr hh.2 (Nat.le_of_ble_eq_true rfl)) ?_)
    refine ends_bind (ends_load (permits_header h.same hr hh.1 (Nat.le_of_ble_eq_true rfl)) ?_)
    rw [if_neg (fun h => h.elim h1 h2), ← h3]
    have hends : Ends s (hookThunksAt os orig hook table i.word fuel 0) fun _ s' => HookReady os p s0 m s' := by
      refine ends_hookThunksAt ho hr w i.word_cases hlt hhook n fuel 0 s ((hen.2 d ds hi).2 _ hmem) (fun k _ hk => ?_)
        (fun k _ hk => h4 k (by omega)) (by rw [Nat.zero_add]; exact hend) (by rw [Nat.zero_add]; exact h5) h
      exact hsub _ (List.mem_map.2 ⟨k, by rw [List.mem_range'_1]; omega, rfl⟩)
    have hruns := runs_hookThunksAt os (s0 := s0) (G := G) (orig := orig) (hook := hook) n fuel 0 s h.same.grows hs1
      (fun sl hsl => by
        obtain ⟨k, hk, rfl⟩ := List.mem_map.1 hsl
        rw [List.mem_range'_1] at hk
        exact h4 k (by omega))
      (fun x hx => by
        rw [Nat.zero_add] at hx
        exact ⟨w.used _ hend x hx, fun sl hsl hh => w.described sl (hsub sl hsl) _ hend x hh hx⟩)
      (by rcases i.word_cases with h | h <;> rw [h] <;> decide) (by rw [Nat.zero_add]; exact h5)
    refine ends_bind ((hends.and hruns).mono fun _ s1 h' => ?_)
    refine ih (j + 1) steps s1 ?_ (by omega) (by omega) (w.loaded hsub h'.2 h.same.grows hhook hm hl) hs2 h'.1
    rw [← List.drop_drop, hd]; rfl

theorem ends_readHeaders {os : PageOs} {s0 s : PState} {p : Process} (hr : p.Readable s0) {m : Nat} (h : HookReady os p s0 m s)
    {e : BitVec 64} {i : PeImage} (hm : (e, i) ∈ p.modules) (hi : i.Loaded s)
    {Q : Nat × BitVec 64 → PState → Prop} (hQ : Q (i.word, i.directories) s) : Ends s (readHeaders i.base) Q := by
  have hh : ∀ r ∈ i.header, r.2 ≤ 2 ^ 64 → s.permits Prot.readable r.1 r.2 = true :=
    fun r hr' hn => permits_header h.same hr (mem_header hm hr') hn
  refine ends_bind (ends_load (hh (_, 2) (by simp [PeImage.header]) (Nat.le_of_ble_eq_true rfl)) ?_)
  rw [if_pos hi.dos]
  refine ends_bind (ends_load (hh (_, 4) (by simp [PeImage.header]) (Nat.le_of_ble_eq_true rfl)) ?_)
  simp only
  rw [← hi.nt]
  refine ends_bind (ends_load (hh (i.nt, 4) (by simp [PeImage.header]) (Nat.le_of_ble_eq_true rfl)) ?_)
  rw [if_pos hi.pe]
  refine ends_bind (ends_load (hh (i.nt + 4, 2) (by simp [PeImage.header]) (Nat.le_of_ble_eq_true rfl)) ?_)
  have hm := hi.machine
  rw [hm]
  simp only [PeImage.word, PeImage.directories] at hQ
  cases hw : i.wide with
  | true => rw [hw] at hQ; exact ends_pure hQ
  | false => rw [hw] at hQ; exact ends_pure hQ

theorem ends_hookModuleAt {os : PageOs} (ho : Obliging os) (hu : Unit64 os) {fuel : Nat} {s0 s : PState} {p : Process}
    (hr : p.Readable s0) {G : Nat → Prop} (w : HookWorld G s0 p) {m : Nat} {orig hook : BitVec 64} (hhook : hook ≠ 0)
    {e : BitVec 64} {i : PeImage} (hlt : hook.toNat < 256 ^ i.word) (hen : Enough fuel i) (hm : (e, i) ∈ p.modules)
    (hl : i.Loaded s) (hs : Slots G s0 i.slots) (h : HookReady os p s0 (m + 1) s) :
    Ends s (hookModuleAt os fuel i.base orig hook) fun _ s' => HookReady os p s0 m s' := by
  have hh : ∀ {s : PState} {m : Nat}, HookReady os p s0 m s → ∀ r ∈ i.header, r.2 ≤ 2 ^ 64 → s.permits Prot.readable r.1 r.2 = true :=
    fun h r hr' hn => permits_header h.same hr (mem_header hm hr') hn
  refine ends_bind (ends_readHeaders hr h hm hl ?_)
  simp only
  simp only [PeImage.slots] at hs
  obtain ⟨hs1, hs2, _⟩ := hs.append
  have hsub : ∀ sl ∈ (match i.exports with
    | none => []
    | some (_, table, n) => (List.range' 0 n).map fun k => Slot.exported i.base (table + BitVec.ofNat 64 (4 * k))),
      sl ∈ p.slots := fun sl hsl => mem_slots hm (by simp only [PeImage.slots]; exact List.mem_append_left _ hsl)
  refine ends_bind (Ends.mono (Q := fun _ s1 => HookReady os p s0 m s1 ∧ Redirects (match i.exports with
      | none => []
      | some (_, table, n) => (List.range' 0 n).map fun k => .exported i.base (table + BitVec.ofNat 64 (4 * k)))
      orig hook s0 s s1) ?_ ?_)
  · have he := hl.exports
    refine ends_bind (ends_load (hh h (i.directories, 4) (by simp [PeImage.header]) (Nat.le_of_ble_eq_true rfl)) ?_)
    refine ends_bind (ends_load (hh h (i.directories + 4, 4) (by simp [PeImage.header]) (Nat.le_of_ble_eq_true rfl)) ?_)
    cases hx : i.exports with
    | none =>
      rw [hx] at he
      rw [if_neg (by rintro ⟨h1, h2⟩; exact he.elim h1 h2)]
      exact ends_pure ⟨h.le (by omega), Redirects.refl _ _ _ _⟩
    | some r =>
      obtain ⟨d, table, n⟩ := r
      rw [hx] at he hs1 hsub
      obtain ⟨h1, h2, h3, h4, h5⟩ := he
      rw [if_pos ⟨h1, h2⟩]
      simp only
      rw [← h3]
      refine ends_bind (ends_load (hh h (d + 20, 4) (by simp [PeImage.header, hx]) (Nat.le_of_ble_eq_true rfl)) ?_)
      refine ends_bind (ends_load (hh h (d + 28, 4) (by simp [PeImage.header, hx]) (Nat.le_of_ble_eq_true rfl)) ?_)
      rw [← h4, ← h5]
      exact (ends_hookExportsAt ho hu hen.1 hr w hm n 0 none s hsub (by rw [if_pos rfl]; exact h)).and
        (runs_hookExportsAt os hu fuel n 0 none s h.same.grows (fun a ha => by cases ha) hs1)
  · rintro _ s1 ⟨h1, h1'⟩
    have hl1 := w.loaded hsub h1' h.same.grows hhook hm hl
    have he := hl1.imports
    refine ends_bind (ends_load (hh h1 (i.directories + 8, 4) (by simp [PeImage.header]) (Nat.le_of_ble_eq_true rfl)) ?_)
    refine ends_bind (ends_load (hh h1 (i.directories + 12, 4) (by simp [PeImage.header]) (Nat.le_of_ble_eq_true rfl)) ?_)
    cases hx : i.imports with
    | none =>
      rw [hx] at he
      rw [if_neg (by rintro ⟨h1, h2⟩; exact he.elim h1 h2)]
      exact ends_pure h1
    | some r =>
      obtain ⟨d, ds⟩ := r
      rw [hx] at he hs2
      obtain ⟨h2, h3, h4, _⟩ := he
      rw [if_pos ⟨h2, h3⟩, ← h4]
      exact ends_hookImportsAt ho hr w hhook hlt hen hm hx ds 0 fuel s1 rfl (by simp) (hen.2 d ds hx).1 hl1 hs2 h1

theorem ends_hookModulesFrom {os : PageOs} (ho : Obliging os) (hu : Unit64 os) {fuel : Nat} {s0 : PState} {p : Process}
    (hr : p.Readable s0) {G : Nat → Prop} (w : HookWorld G s0 p) {m : Nat} {orig hook : BitVec 64} (hhook : hook ≠ 0)
    (hlt : ∀ m ∈ p.modules, hook.toNat < 256 ^ m.2.word) (hen : ∀ m ∈ p.modules, Enough fuel m.2)
    (ms : List (BitVec 64 × PeImage)) : ∀ (steps : Nat) (pos : BitVec 64) (s : PState), ms.length < steps →
    (∀ m ∈ ms, m ∈ p.modules) → Linked s p.head pos ms →
    Slots G s0 (ms.flatMap fun m => m.2.slots) → HookReady os p s0 (m + ms.length) s →
    Ends s (hookModulesFrom os fuel orig hook p.head steps pos) fun _ s' => HookReady os p s0 m s' := by
  induction ms with
  | nil =>
    intro steps pos s hst _ hl _ h
    simp only [List.length_nil] at hst h
    obtain ⟨steps, rfl⟩ : ∃ f, steps = f + 1 := ⟨steps - 1, by omega⟩
    simp only [hookModulesFrom]
    rw [if_pos (show pos = p.head from hl)]
    exact ends_pure h
  | cons mo ms ih =>
    intro steps pos s hst hms hl hs h
    obtain ⟨e, i⟩ := mo
    simp only [List.length_cons] at hst h
    obtain ⟨steps, rfl⟩ : ∃ f, steps = f + 1 := ⟨steps - 1, by omega⟩
    simp only [hookModulesFrom]
    obtain ⟨rfl, h2, h3, h4, h5⟩ := hl
    rw [if_neg h2]
    simp only [List.flatMap_cons] at hs
    obtain ⟨hs1, hs2, _⟩ := hs.append
    have hm := hms (pos, i) (by simp)
    refine ends_bind (ends_load (permits_header h.same hr (mem_entry hm).2 (Nat.le_of_ble_eq_true rfl)) ?_)
    rw [h3, BitVec.ofNat_toNat, BitVec.setWidth_eq]
    refine ends_bind (((ends_hookModuleAt ho hu hr w hhook (hlt _ hm) (hen _ hm) hm h4 hs1 (m := m + ms.length)
      (by rw [Nat.add_assoc]; exact h)).and
      (runs_hookModuleAt os hu fuel w hhook hm h.same.grows h4 hs1)).mono fun _ s1 h' => ?_)
    refine ends_bind (ends_load (permits_header h'.1.same hr (mem_entry hm).1 (Nat.le_of_ble_eq_true rfl)) ?_)
    have hsub : ∀ sl ∈ i.slots, sl ∈ p.slots := fun sl hsl => mem_slots hm hsl
    have hn := w.header_same hsub h'.2 h.same.grows (mem_entry hm).1 (Nat.le_of_ble_eq_true rfl)
    simp only at hn ⊢
    rw [hn]
    have hms' : ∀ m ∈ ms, m ∈ p.modules := fun m hm => hms m (List.mem_cons_of_mem _ hm)
    exact ih steps _ s1 (by omega) hms' (w.linked hsub h'.2 h.same.grows hhook ms _ hms' h5) hs2 h'.1

theorem ends_hookFunctionAt {os : PageOs} (ho : Obliging os) (hu : Unit64 os) {fuel : Nat} {s0 s : PState} {p : Process}
    (hr : p.Readable s0) {G : Nat → Prop} (w : HookWorld G s0 p) {m : Nat} (r : HookRequest) (hhook : r.hook ≠ 0)
    (hmem : Slot.exported r.dll r.location ∈ p.slots)
    (hlt : ∀ m ∈ p.modules, r.hook.toNat < 256 ^ m.2.word) (hen : ∀ m ∈ p.modules, Enough fuel m.2)
    (hfuel : p.modules.length < fuel) (hl : p.Loaded s) (h : HookReady os p s0 (m + p.modules.length) s) :
    Ends s (hookFunctionAt os fuel p.peb r) fun _ s' => HookReady os p s0 m s' := by
  refine ends_bind (ends_systemCall ho ?_)
  rw [if_pos rfl]
  have h1 : HookReady os p s0 (m + p.modules.length) ⟨s.mem, s.prot, s.calls + 1⟩ := h.prot rfl
  have h3 : HookReady os p s0 (m + p.modules.length) ⟨s.mem, s.prot, s.calls + 1 + 1 + 1⟩ := h.prot rfl
  refine ends_bind (ends_load (permits_slot h1.same hr hmem) ?_)
  refine ends_bind (ends_systemCall ho (ends_bind (ends_systemCall ho ?_)))
  rw [if_pos (show (true && true) = true from rfl)]
  refine ends_bind (ends_load (permits_header h3.same hr (r := (p.peb + 24, 8)) (by simp [Process.header])
    (Nat.le_of_ble_eq_true rfl)) ?_)
  simp only
  rw [show BitVec.ofNat 64 (num ⟨s.mem, s.prot, s.calls + 1 + 1 + 1⟩ 8 (p.peb + 24)) + 32 = p.head from hl.1.symm]
  refine ends_bind (ends_load (permits_header h3.same hr (r := (p.head, 8)) (by simp [Process.header])
    (Nat.le_of_ble_eq_true rfl)) ?_)
  have hms : ∀ m ∈ p.modules, m ∈ p.modules := fun _ h => h
  have hnil : Redirects [] 0 r.hook s0 s ⟨s.mem, s.prot, s.calls + 1 + 1 + 1⟩ :=
    ⟨fun _ _ => rfl, fun _ h => .inl h, fun _ _ _ => rfl, fun _ h => by simp at h⟩
  have hlink := w.linked (l := []) (by simp) hnil h.same.grows hhook p.modules _ hms hl.2
  exact ends_hookModulesFrom ho hu hr w hhook hlt hen p.modules fuel _ _ hfuel hms hlink w.slots h3

theorem ends_hookAllAt {os : PageOs} (ho : Obliging os) (hu : Unit64 os) {fuel : Nat} {s0 : PState} {p : Process}
    (hr : p.Readable s0) {G : Nat → Prop} (w : HookWorld G s0 p) (hen : ∀ m ∈ p.modules, Enough fuel m.2)
    (hfuel : p.modules.length < fuel) (reqs : List HookRequest) : ∀ (s : PState), (∀ r ∈ reqs, r.hook ≠ 0) →
    (∀ r ∈ reqs, Slot.exported r.dll r.location ∈ p.slots) →
    (∀ r ∈ reqs, ∀ m ∈ p.modules, r.hook.toNat < 256 ^ m.2.word) → p.Loaded s →
    HookReady os p s0 (reqs.length * p.modules.length) s →
    Ends s (hookAllAt os fuel p.peb reqs) fun _ _ => True := by
  induction reqs with
  | nil => intro s _ _ _ _ _; exact ends_pure trivial
  | cons r rest ih =>
    intro s hh hmem hlt hl h
    have hr0 := hh r (by simp)
    have h' : HookReady os p s0 (rest.length * p.modules.length + p.modules.length) s := by
      refine h.le ?_
      rw [List.length_cons, Nat.succ_mul]
      omega
    refine ends_bind (((ends_hookFunctionAt ho hu hr w r hr0 (hmem r (by simp)) (hlt r (by simp)) hen hfuel hl h').and
      (runs_hookFunctionAt os hu fuel w r hr0 h.same.grows hl)).mono fun _ s1 h1 => ?_)
    exact ih s1 (fun r hr => hh r (List.mem_cons_of_mem _ hr)) (fun r hr => hmem r (List.mem_cons_of_mem _ hr))
      (fun r hr => hlt r (List.mem_cons_of_mem _ hr)) (w.process h1.2 h.same.grows hr0 hl) h1.1

theorem enough_fuel (ms : List (BitVec 64 × PeImage)) : ∃ n, ∀ fuel, n ≤ fuel → ∀ m ∈ ms, Enough fuel m.2 := by
  have hb : ∀ l : List (BitVec 64 × Nat), ∃ n, ∀ t ∈ l, t.2 < n := by
    intro l
    induction l with
    | nil => exact ⟨0, by simp⟩
    | cons a l ih =>
      obtain ⟨n, hn⟩ := ih
      refine ⟨n + a.2 + 1, fun t ht => ?_⟩
      rcases List.mem_cons.1 ht with rfl | ht
      · omega
      · have := hn t ht; omega
  induction ms with
  | nil => exact ⟨0, by simp⟩
  | cons m ms ih =>
    obtain ⟨n, hn⟩ := ih
    have h1 : ∃ k, ∀ fuel, k ≤ fuel → Enough fuel m.2 := by
      cases hi : m.2.imports with
      | none => exact ⟨2 ^ 64, fun fuel hf => ⟨hf, fun d ds h => by rw [hi] at h; cases h⟩⟩
      | some r =>
        obtain ⟨d, ds⟩ := r
        obtain ⟨k, hk⟩ := hb ds
        refine ⟨2 ^ 64 + k + ds.length + 1, fun fuel hf => ⟨by omega, fun d' ds' h => ?_⟩⟩
        rw [hi] at h
        cases h
        exact ⟨by omega, fun t ht => by have := hk t ht; omega⟩
    obtain ⟨k, hk⟩ := h1
    refine ⟨n + k, fun fuel hf m' hm' => ?_⟩
    rcases List.mem_cons.1 hm' with rfl | hm'
    · exact hk fuel (by omega)
    · exact hn fuel (by omega) m' hm'

end Iris
