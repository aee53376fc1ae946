import Verif.Lemmas.WinImageEnds
/-!
# C91 in memory, C110 to C113: functions are redirected in the memory of a Windows worker
-/
namespace Iris
open Spec Asm

/-! ## C110: no memory is both writable and executable -/

/-- **C110**. Whatever is in memory, whatever functions are hooked and whatever the system answers: if no memory
was both writable and executable, none is in any state the memory goes through, whether or not the code panics,
nor at the end. -/
theorem C110_write_xor_execute (os : PageOs) (fuel : Nat) (peb : BitVec 64) (reqs : List HookRequest) (s : PState)
    (h : WriteXorExecute s) :
    (∀ t ∈ (hookAllAt os fuel peb reqs s).1, WriteXorExecute t) ∧
    ∀ s', (hookAllAt os fuel peb reqs s).2 = some ((), s') → WriteXorExecute s' := by
  have h1 := runsWx_hookAllAt os fuel peb reqs s h
  exact ⟨fun t ht => h1.trace t ht h, fun s' hs => h1.result () s' hs⟩

/-! ## C91, on bytes -/

theorem unit64_of {os : PageOs} (h : PageUnits os) : Unit64 os := ⟨h.pages, h.pos, h.space⟩

/-- **C91** in the memory of the process, as far as it is true. Functions were hooked one after the other in a
process whose modules are loaded, and nothing panicked. Then each entry of the exports of a module that led to
one of the functions leads to its replacement, each address imported that was the one of a function is the one of
its replacement, and no other byte of memory that was in use has changed.

Missing: the trampolines must be within reach (`WithinReach`), else see `C91_far_trampoline_violated`; the
tables must not overlap and be aligned (`Separate`). -/
theorem C91_in_memory_partial (os : PageOs) (hos : PageUnits os) (fuel : Nat) (p : Process) (reqs : List HookRequest)
    (s s' : PState) (hl : p.Loaded s) (hsep : p.Separate s) (hreq : Proper s p reqs)
    (h : (hookAllAt os fuel p.peb reqs s).2 = some ((), s')) (hreach : WithinReach s s' p reqs) :
    Redirected s s' p reqs := by
  have w := world_of hsep
  have hc := (runs_hookAllAt os (unit64_of hos) fuel w reqs s (fun r hr => (hreq.hook r hr).1) (fun _ h => h) hl).result () s' h
  have hmem : ∀ r ∈ reqs, (requested s r, r.hook) ∈ requestPairs s reqs := fun r hr => List.mem_map.2 ⟨r, hr, rfl⟩
  have hfst : (requestPairs s reqs).map Prod.fst = reqs.map (requested s) := by
    simp only [requestPairs, List.map_map]; rfl
  have hpairs : ∀ q ∈ requestPairs s reqs, ∃ r ∈ reqs, q = (requested s r, r.hook) := by
    intro q hq
    obtain ⟨r, hr, rfl⟩ := List.mem_map.1 hq
    exact ⟨r, hr, rfl⟩
  have hnear : Near s s' p (requestPairs s reqs) := by
    rintro base a hsl ⟨q, hq, hqe⟩ t h0 h1
    obtain ⟨r, hr, rfl⟩ := hpairs q hq
    exact hreach base a hsl ⟨r, hr, hqe⟩ t (fun h => h h0) h1
  have hs := chain_sofar w (requestPairs s reqs) (by rw [hfst]; exact hreq.distinct)
    (fun q hq => by obtain ⟨r, hr, rfl⟩ := hpairs q hq; exact hreq.code r hr)
    (fun q hq hm => by
      obtain ⟨r, hr, rfl⟩ := hpairs q hq
      rw [hfst] at hm
      obtain ⟨r', hr', he⟩ := List.mem_map.1 hm
      exact (hreq.hook r hr).2 r' hr' he.symm)
    hnear reqs [] s rfl hreq.exported (sofar_start s p) hc
  refine ⟨fun sl hsl r hr ht => ?_, fun x hx hn => ?_⟩
  · have hd := hs.done sl hsl _ (hmem r hr) ht.symm
    cases sl with
    | exported base a =>
      simp only [SlotDone] at hd
      simp only [Slot.LeadsTo]
      rcases hd with hd | ⟨t, h1, h2⟩
      · rw [show Slot.target s' (.exported base a) = r.hook from hd]
        exact reaches_self _ _
      · have hn := hnear base a hsl ⟨_, hmem r hr, ht.symm⟩ t h1.start.1 h1.start.2
        rw [show Slot.target s' (.exported base a) = t from near_target hn h2]
        exact reaches_tramp h1
    | imported n a =>
      exact (imported_target (mem_slots_size hsl)).2 hd
  · refine hs.frame x hx fun sl hsl hh q hq => ?_
    obtain ⟨r, hr, rfl⟩ := hpairs q hq
    exact fun he => hn sl hsl hh r hr he.symm

/-! ## C111: protections are as before -/

/-- **C111**, as far as it is true. At the end the pages that were in use have the protection they had; the others
are free, or hold code and cannot be written. Missing: the entries of tables must be aligned and not overlap
(`Separate`), else see `C111_violated`. -/
theorem C111_protections_kept_partial (os : PageOs) (hos : PageUnits os) (fuel : Nat) (p : Process)
    (reqs : List HookRequest) (s s' : PState) (hl : p.Loaded s) (hsep : p.Separate s) (hhook : ∀ r ∈ reqs, r.hook ≠ 0)
    (h : (hookAllAt os fuel p.peb reqs s).2 = some ((), s')) (pg : Nat) :
    (s.prot pg ≠ none → s'.prot pg = s.prot pg) ∧
    (s.prot pg = none → s'.prot pg = none ∨ s'.prot pg = some .executeRead) := by
  have hc := (runs_hookAllAt os (unit64_of hos) fuel (world_of hsep) reqs s hhook (fun _ h => h) hl).result () s' h
  exact ⟨Chain.kept reqs hc pg, Chain.fresh reqs hc pg⟩

/-! ## C112: code stays executable meanwhile -/

/-- **C112**, as far as it is true. In all states the memory goes through, whether or not the code panics, all pages
in use have the protection they had, but for the pages on which the tables are. In particular, code stays
executable if none of it is on the pages of the tables. Missing: for code on these pages see `C112_violated`. -/
theorem C112_code_stays_executable_partial (os : PageOs) (hos : PageUnits os) (fuel : Nat) (p : Process)
    (reqs : List HookRequest) (s : PState) (hl : p.Loaded s) (hsep : p.Separate s) (hhook : ∀ r ∈ reqs, r.hook ≠ 0)
    (pg : Nat) (hpg : ∀ sl ∈ p.slots, ∀ x, sl.Has x → x.toNat / 4096 ≠ pg) :
    ∀ t ∈ (hookAllAt os fuel p.peb reqs s).1, (s.prot pg ≠ none → t.prot pg = s.prot pg) ∧
      (PageExecutable s pg → PageExecutable t pg) := by
  intro t ht
  have hq := (runs_hookAllAt os (unit64_of hos) fuel (world_of hsep) reqs s hhook (fun _ h => h) hl).trace t ht
  have h1 : s.prot pg ≠ none → t.prot pg = s.prot pg := by
    intro hp
    refine hq pg hp ?_
    rintro ⟨sl, hsl, rfl⟩
    refine hpg sl hsl sl.addr ?_ rfl
    have := mem_slots_size hsl
    simp only [Slot.Has, InRange, BitVec.sub_self]
    simp
    omega
  refine ⟨h1, fun he => ?_⟩
  have hp : s.prot pg ≠ none := by
    rintro hn
    simp [PageExecutable, hn] at he
  simp only [PageExecutable] at he ⊢
  rw [h1 hp]; exact he

/-! ## C113: hooking comes to an end -/

/-- **C113.** If the system refuses nothing, the tables can be read, and there is free memory above the modules for one
trampoline per function and module, then all functions are hooked: the code does not panic, fault or go on for
ever. The hooks' addresses must fit the entries of 32-bit modules, if there are such. -/
theorem C113_hooking_completes (os : PageOs) (hos : PageUnits os) (ho : Obliging os) (p : Process)
    (reqs : List HookRequest) (s : PState) (hl : p.Loaded s) (hsep : p.Separate s) (hread : p.Readable s)
    (hfree : FreeUnits os s p (reqs.length * p.modules.length))
    (hreqs : ∀ r ∈ reqs, r.hook ≠ 0 ∧ Slot.exported r.dll r.location ∈ p.slots)
    (hwide : (∀ m ∈ p.modules, m.2.wide = true) ∨ ∀ r ∈ reqs, r.hook.toNat < 2 ^ 32) :
    ∃ n, ∀ fuel, n ≤ fuel → ∃ s', (hookAllAt os fuel p.peb reqs s).2 = some ((), s') := by
  obtain ⟨n, hn⟩ := enough_fuel p.modules
  refine ⟨n + p.modules.length + 1, fun fuel hf => ?_⟩
  have hlt : ∀ r ∈ reqs, ∀ m ∈ p.modules, r.hook.toNat < 256 ^ m.2.word := by
    intro r hr m hm
    rcases hwide with h | h
    · simp only [PeImage.word, h m hm, if_true]
      have := r.hook.isLt
      omega
    · have := h r hr
      rcases m.2.word_cases with h | h <;> rw [h] <;> omega
  obtain ⟨_, s', h, _⟩ := ends_hookAllAt ho (unit64_of hos) hread (world_of hsep) (hn fuel (by omega)) (by omega) reqs s
    (fun r hr => (hreqs r hr).1) (fun r hr => (hreqs r hr).2) hlt hl
    ⟨fun _ _ => rfl, hfree.whole, hfree.enough⟩
  exact ⟨s', h⟩

/-! ## Examples and counterexamples -/

/-- Memory that holds some numbers (address, size, value), and zeros elsewhere. -/
def memoryOf : List (BitVec 64 × Nat × Nat) → Mem 64
  | [] => fun _ => 0
  | (a, n, v) :: rest => copyTo (memoryOf rest) a (leBytes n v)

/-- A module that exports three functions, two of them the same, and a program that imports one of them. -/
def demoBytes : List (BitVec 64 × Nat × Nat) :=
  [(0x1018, 8, 0x2000), (0x2020, 8, 0x3000), (0x3000, 8, 0x3100), (0x3020, 8, 0x10000000),
   (0x3100, 8, 0x2020), (0x3120, 8, 0x400000),
   (0x10000000, 2, 0x5A4D), (0x1000003C, 4, 0x80), (0x10000080, 4, 0x4550), (0x10000084, 2, 0x8664),
   (0x10000108, 4, 0x1000), (0x1000010C, 4, 0x28), (0x10001014, 4, 3), (0x1000101C, 4, 0x2000),
   (0x10002000, 4, 0x3000), (0x10002004, 4, 0x3040), (0x10002008, 4, 0x3000),
   (0x400000, 2, 0x5A4D), (0x40003C, 4, 0x80), (0x400080, 4, 0x4550), (0x400084, 2, 0x8664),
   (0x400110, 4, 0x1000), (0x400114, 4, 0x28), (0x40100C, 4, 0x1800), (0x401010, 4, 0x2000),
   (0x402000, 8, 0x10003000), (0x402008, 8, 0x10003040)]

/-- The protections of its pages: memory is free above the module, and reserved elsewhere. -/
def demoProt (tables : Prot) (p : Nat) : Option Prot :=
  if p = 1 ∨ p = 2 ∨ p = 3 then some .readWrite
  else if p = 0x10000 ∨ p = 0x10001 then some .readOnly
  else if p = 0x10002 then some tables
  else if p = 0x10003 then some .executeRead
  else if p = 0x400 ∨ p = 0x401 ∨ p = 0x402 then some .readOnly
  else if p = 0x403 then some .executeRead
  else if 0x10004 ≤ p ∧ p < 0x20000 then none
  else some .noAccess

def demoPages (tables : Prot) : PState := ⟨memoryOf demoBytes, demoProt tables, 0⟩

def demoPageOs : PageOs := ⟨65536, fun _ => false, fun _ _ => 0x4000⟩

def demoRequests : List HookRequest := [⟨0x10000000, 0x10002000, 0x403000⟩, ⟨0x10000000, 0x10002004, 0x403100⟩]



def demoImages : List (BitVec 64 × PeImage) :=
  [(0x3000, ⟨0x10000000, 0x10000080, true, some (0x10001000, 0x10002000, 3), none⟩),
   (0x3100, ⟨0x400000, 0x400080, true, none, some (0x401000, [(0x402000, 2)])⟩)]

def demoProcess : Process := ⟨0x1000, 0x2020, demoImages⟩

instance {P : Prot → Prop} [DecidablePred P] : Decidable (∀ p, P p) :=
  decidable_of_iff (P .noAccess ∧ P .readOnly ∧ P .readWrite ∧ P .writeCopy ∧ P .execute ∧ P .executeRead ∧
      P .executeReadWrite ∧ P .executeWriteCopy)
    ⟨fun ⟨h1, h2, h3, h4, h5, h6, h7, h8⟩ p => by cases p <;> assumption,
     fun h => ⟨h _, h _, h _, h _, h _, h _, h _, h _⟩⟩

theorem demo_loaded (tables : Prot) : demoProcess.Loaded (demoPages tables) := by
  refine ⟨by decide +kernel +revert, ?_⟩
  simp only [demoProcess, demoImages, Linked]
  refine ⟨by decide +kernel +revert, by decide +kernel +revert, by decide +kernel +revert, ⟨by decide +kernel +revert, by decide +kernel +revert, by decide +kernel +revert,
    by decide +kernel +revert, ⟨by decide +kernel +revert, by decide +kernel +revert, by decide +kernel +revert, by decide +kernel +revert, by decide +kernel +revert⟩,
    by decide +kernel +revert⟩, by decide +kernel +revert, by decide +kernel +revert, by decide +kernel +revert, ⟨by decide +kernel +revert, by decide +kernel +revert,
    by decide +kernel +revert, by decide +kernel +revert, by decide +kernel +revert, ⟨by decide +kernel +revert, by decide +kernel +revert, by decide +kernel +revert,
    fun j table n hj => ?_, by decide +kernel +revert⟩⟩, by decide +kernel +revert⟩
  match j with
  | 0 =>
    simp only [List.getElem?_cons_zero, Option.some.injEq, Prod.mk.injEq] at hj
    obtain ⟨rfl, rfl⟩ := hj
    exact ⟨by decide +kernel +revert, by decide +kernel +revert, by decide +kernel +revert, by decide +kernel +revert, by decide +kernel +revert⟩
  | j + 1 => simp at hj

/-- Two ranges without a byte in common, that do not reach beyond the end of memory. -/
def clear (a : BitVec 64) (n : Nat) (b : BitVec 64) (m : Nat) : Bool :=
  decide (a.toNat + n ≤ 2 ^ 64) && decide (b.toNat + m ≤ 2 ^ 64) &&
    (decide (a.toNat + n ≤ b.toNat) || decide (b.toNat + m ≤ a.toNat))

theorem clear_spec {a b x : BitVec 64} {n m : Nat} (h : clear a n b m = true) (hx : InRange a n x) : ¬ InRange b m x := by
  simp only [clear, Bool.and_eq_true, Bool.or_eq_true, decide_eq_true_eq] at h
  rw [inRange_iff h.1.1] at hx
  rw [inRange_iff h.1.2]
  omega

/-- All bytes of a range are in use. -/
def rangeUsed (s : PState) (a : BitVec 64) (n : Nat) : Bool :=
  (List.range n).all fun i => (s.prot ((a + BitVec.ofNat 64 i).toNat / 4096)).isSome

theorem rangeUsed_spec {s : PState} {a x : BitVec 64} {n : Nat} (h : rangeUsed s a n = true) (hx : InRange a n x) :
    InUse s x := by
  simp only [rangeUsed, List.all_eq_true, List.mem_range] at h
  have h1 := h (x - a).toNat hx
  rw [BitVec.ofNat_toNat, BitVec.setWidth_eq, show a + (x - a) = x by grind] at h1
  exact Option.isSome_iff_ne_none.1 h1

theorem separate_of {s : PState} {p : Process} (h1 : p.slots.Pairwise fun a b => clear a.addr a.size b.addr b.size = true)
    (h2 : p.slots.all (fun sl => p.header.all fun r => clear sl.addr sl.size r.1 r.2) = true)
    (h3 : p.slots.all (fun sl => rangeUsed s sl.addr sl.size) = true)
    (h4 : p.header.all (fun r => rangeUsed s r.1 r.2) = true)
    (h5 : p.slots.all (fun sl => sl.addr.toNat % sl.size == 0) = true) : p.Separate s := by
  simp only [List.all_eq_true] at h2 h3 h4 h5
  exact ⟨h1.imp fun h x hx => clear_spec h hx, fun sl hsl r hr x hx => clear_spec (h2 sl hsl r hr) hx,
    fun sl hsl x hx => rangeUsed_spec (h3 sl hsl) hx, fun r hr x hx => rangeUsed_spec (h4 r hr) hx,
    fun sl hsl => by simpa using h5 sl hsl⟩

theorem demo_separate (tables : Prot) : demoProcess.Separate (demoPages tables) :=
  separate_of (by decide +kernel) (by decide +kernel) (by decide +kernel +revert) (by decide +kernel +revert)
    (by decide +kernel)

theorem demo_proper : Proper (demoPages .readOnly) demoProcess demoRequests := by
  refine ⟨by decide +kernel, by decide +kernel, ?_, ?_⟩
  · simp only [demoRequests, List.mem_cons, List.not_mem_nil, or_false, forall_eq_or_imp, forall_eq]
    exact ⟨by unfold InUse; decide +kernel, by unfold InUse; decide +kernel⟩
  · simp only [demoRequests, List.mem_cons, List.not_mem_nil, or_false, forall_eq_or_imp, forall_eq]
    decide +kernel

theorem demo_units : PageUnits demoPageOs := ⟨by decide, by decide, by decide⟩

theorem demo_reach (s' : PState) : WithinReach (demoPages .readOnly) s' demoProcess demoRequests := by
  intro base a hsl _ t h0 _
  have hb : base = 0x10000000 := by
    simp only [Process.slots, demoProcess, demoImages, PeImage.slots] at hsl
    simp [List.range'] at hsl
    rcases hsl with ⟨rfl, _⟩ | ⟨rfl, _⟩ | ⟨rfl, _⟩ <;> rfl
  subst hb
  have ht := t.isLt
  have hw : 0x10004 ≤ t.toNat / 4096 ∧ t.toNat / 4096 < 0x20000 := by
    apply Decidable.byContradiction
    intro hw
    apply h0
    simp only [InUse, demoPages, demoProt, if_neg hw]
    repeat' split
    all_goals simp
  rw [BitVec.toNat_sub]
  simp
  omega

theorem demo_run : ∃ s', (hookAllAt demoPageOs 10 demoProcess.peb demoRequests (demoPages .readOnly)).2 = some ((), s') ∧
    num s' 4 0x10002000 = 0x10000 ∧ num s' 4 0x10002004 = 0x20000 ∧ num s' 8 0x402000 = 0x403000 ∧
    s'.prot 0x10002 = some .readOnly ∧ s'.prot 0x10010 = some .executeRead := by
  have h : ((hookAllAt demoPageOs 10 demoProcess.peb demoRequests (demoPages .readOnly)).2.map fun r =>
      ((num r.2 4 0x10002000, num r.2 4 0x10002004, num r.2 8 0x402000), r.2.prot 0x10002, r.2.prot 0x10010)) =
      some ((0x10000, 0x20000, 0x403000), some .readOnly, some .executeRead) := by decide +kernel
  rw [Option.map_eq_some_iff] at h
  obtain ⟨⟨_, s'⟩, h1, h2⟩ := h
  simp only [Prod.mk.injEq] at h2
  exact ⟨s', h1, h2.1.1, h2.1.2.1, h2.1.2.2, h2.2.1, h2.2.2⟩

/-- The hypotheses of C91, C111 and C112 are met: two functions are hooked through two trampolines. -/
example : ∃ s', (hookAllAt demoPageOs 10 demoProcess.peb demoRequests (demoPages .readOnly)).2 = some ((), s') ∧
    Redirected (demoPages .readOnly) s' demoProcess demoRequests ∧
    (Slot.exported 0x10000000 0x10002008).LeadsTo s' 0x403000 ∧ num s' 4 0x10002008 ≠ num (demoPages .readOnly) 4 0x10002008 ∧
    s'.prot 0x10003 = some .executeRead ∧ s'.prot 0x10010 = some .executeRead := by
  obtain ⟨s', h, h1, _, _, _, h5⟩ := demo_run
  have hr := C91_in_memory_partial demoPageOs demo_units 10 demoProcess demoRequests _ s' (demo_loaded _)
    (demo_separate _) demo_proper h (demo_reach s')
  have hp := (C111_protections_kept_partial demoPageOs demo_units 10 demoProcess demoRequests _ s' (demo_loaded _)
    (demo_separate _) (by decide) h 0x10003).1 (by decide)
  have hl := hr.hooked (.exported 0x10000000 0x10002008) (by decide +kernel) ⟨0x10000000, 0x10002000, 0x403000⟩
    (by simp [demoRequests]) (by decide +kernel)
  refine ⟨s', h, hr, hl, ?_, hp, h5⟩
  have : (((hookAllAt demoPageOs 10 demoProcess.peb demoRequests (demoPages .readOnly)).2.map fun r =>
      num r.2 4 0x10002008)) = some 0x10000 := by decide +kernel
  rw [h] at this
  simp only [Option.map_some, Option.some.injEq] at this
  rw [this]
  decide +kernel

/-- The page of the code of the functions is not one of the tables', and stays executable in all states. -/
example : (∀ sl ∈ demoProcess.slots, ∀ x, sl.Has x → x.toNat / 4096 ≠ 0x10003) ∧
    PageExecutable (demoPages .readOnly) 0x10003 := by
  refine ⟨fun sl hsl x hx => ?_, .inr (.inl (by decide))⟩
  have h := List.all_eq_true.1 (show demoProcess.slots.all (fun sl => clear sl.addr sl.size 0x10003000 4096) = true by
    decide +kernel) sl hsl
  have h2 := clear_spec h hx
  rw [inRange_iff (by decide)] at h2
  simp at h2
  omega

/-- All bytes of a range can be read. -/
def rangeReadable (s : PState) (a : BitVec 64) (n : Nat) : Bool :=
  (List.range n).all fun i => [some Prot.readOnly, some .readWrite, some .executeRead].contains
    (s.prot ((a + BitVec.ofNat 64 i).toNat / 4096))

/-- Memory can only be written to, or read, where its protection says so. -/
example : ∀ p : Prot, ((store 0x1000 [1] ⟨fun _ => 0, fun _ => some p, 0⟩).2.isSome = true ↔
      p = .readWrite ∨ p = .writeCopy ∨ p = .executeReadWrite ∨ p = .executeWriteCopy) ∧
    ((loadNat 1 0x1000 ⟨fun _ => 0, fun _ => some p, 0⟩).2.isSome = false ↔ p = .noAccess ∨ p = .execute) := by
  intro p
  cases p <;> decide +kernel

theorem rangeReadable_spec {s : PState} {a x : BitVec 64} {n : Nat} (h : rangeReadable s a n = true) (hx : InRange a n x) :
    PageReadable s (x.toNat / 4096) := by
  simp only [rangeReadable, List.all_eq_true, List.mem_range] at h
  have h1 := h (x - a).toNat hx
  rw [BitVec.ofNat_toNat, BitVec.setWidth_eq, show a + (x - a) = x by grind] at h1
  simp only [List.contains_eq_mem, List.mem_cons, List.not_mem_nil, or_false, decide_eq_true_eq] at h1
  simp only [PageReadable]
  rcases h1 with h1 | h1 | h1 <;> simp [h1]

/-- A system that reports memory page by page. -/
def demoObliging : PageOs := ⟨65536, fun _ => false, fun _ a => 4096 - a.toNat % 4096⟩

/-- The hypotheses of C113 are met: there are free units for two functions and two modules. -/
example : ∃ n, ∀ fuel, n ≤ fuel → ∃ s',
    (hookAllAt demoObliging fuel demoProcess.peb demoRequests (demoPages .readOnly)).2 = some ((), s') := by
  refine C113_hooking_completes demoObliging ⟨by decide, by decide, by decide⟩ ⟨fun _ => rfl, fun s a _ => ?_, fun s a p h1 h2 h3 => ?_⟩
    demoProcess demoRequests _ (demo_loaded _) (demo_separate _) ⟨fun sl hsl x hx => ?_, fun r hr x hx => ?_⟩
    ⟨fun u q h1 h2 h3 h4 h5 => ?_, [0x10010000, 0x10020000, 0x10030000, 0x10040000], by decide, by decide, ?_⟩ ?_
    (.inl (by decide))
  · simp only [demoObliging]; omega
  · simp only [demoObliging] at h3
    have : p = a.toNat / 4096 := by omega
    rw [this]; exact h1
  · refine rangeReadable_spec (List.all_eq_true.1 (show demoProcess.slots.all
      (fun sl => rangeReadable (demoPages .readOnly) sl.addr sl.size) = true by decide +kernel) sl hsl) hx
  · refine rangeReadable_spec (List.all_eq_true.1 (show demoProcess.header.all
      (fun r => rangeReadable (demoPages .readOnly) r.1 r.2) = true by decide +kernel) r hr) hx
  · simp only [demoObliging] at h1 h5
    have hfree : 0x10004 ≤ u / 4096 ∧ u / 4096 < 0x20000 := by
      apply Decidable.byContradiction
      intro hw
      simp only [demoPages, demoProt, if_neg hw] at h3
      repeat' split at h3
      all_goals cases h3
    have hq : 0x10004 ≤ q ∧ q < 0x20000 := by omega
    simp only [demoPages, demoProt, if_pos hq]
    repeat' split
    all_goals first | rfl | omega
  · simp only [List.mem_cons, List.not_mem_nil, or_false, forall_eq_or_imp, forall_eq, demoProcess, demoImages]
    decide +kernel
  · simp only [demoRequests, List.mem_cons, List.not_mem_nil, or_false, forall_eq_or_imp, forall_eq]
    decide +kernel

/-- A table of exports that is not aligned: its first entry spans two pages. The second is one of code. -/
def oddBytes : List (BitVec 64 × Nat × Nat) :=
  [(0x1018, 8, 0x2000), (0x2020, 8, 0x3000), (0x3000, 8, 0x2020), (0x3020, 8, 0x10000000),
   (0x10000000, 2, 0x5A4D), (0x1000003C, 4, 0x80), (0x10000080, 4, 0x4550), (0x10000084, 2, 0x8664),
   (0x10000108, 4, 0x1000), (0x1000010C, 4, 0x28), (0x10001014, 4, 1), (0x1000101C, 4, 0x1FFE),
   (0x10001FFE, 4, 0x3000)]

def oddProcess : Process := ⟨0x1000, 0x2020, [(0x3000, ⟨0x10000000, 0x10000080, true, some (0x10001000, 0x10001FFE, 1), none⟩)]⟩

/-- **C111 is violated** if an entry spans two pages: the second one is given the protection of the first. Here the
module's code is not executable any more, for good. -/
theorem C111_violated : ∃ (os : PageOs) (fuel : Nat) (p : Process) (r : HookRequest) (s s' : PState),
    PageUnits os ∧ p.Loaded s ∧ Proper s p [r] ∧ (hookAllAt os fuel p.peb [r] s).2 = some ((), s') ∧
    ∃ pg, PageExecutable s pg ∧ ¬ PageExecutable s' pg := by
  have h : ((hookAllAt demoPageOs 10 oddProcess.peb [⟨0x10000000, 0x10001FFE, 0x10003800⟩]
      ⟨memoryOf oddBytes, demoProt .executeRead, 0⟩).2.map fun r => r.2.prot 0x10002) = some (some .readOnly) := by
    decide +kernel
  rw [Option.map_eq_some_iff] at h
  obtain ⟨⟨_, s'⟩, h1, h2⟩ := h
  refine ⟨demoPageOs, 10, oddProcess, ⟨0x10000000, 0x10001FFE, 0x10003800⟩, ⟨memoryOf oddBytes, demoProt .executeRead, 0⟩, s',
    demo_units, ?_, ⟨by decide +kernel, by decide +kernel, ?_, ?_⟩, h1, 0x10002, .inr (.inl (by decide)), ?_⟩
  · refine ⟨by decide +kernel, ?_⟩
    simp only [oddProcess, Linked]
    exact ⟨by decide +kernel, by decide +kernel, by decide +kernel, ⟨by decide +kernel, by decide +kernel,
      by decide +kernel, by decide +kernel, ⟨by decide +kernel, by decide +kernel, by decide +kernel, by decide +kernel,
      by decide +kernel⟩, by decide +kernel⟩, by decide +kernel⟩
  · simp only [List.mem_singleton, forall_eq]
    unfold InUse; decide +kernel
  · simp only [List.mem_singleton, forall_eq]
    decide +kernel
  · simp only at h2
    simp [PageExecutable, h2]

/-- **C112 is violated** if a table is on a page that also holds code (as when the linker merged the sections): while
an entry is overwritten nothing on the page can be executed, and threads which do crash. -/
theorem C112_violated : ∃ (os : PageOs) (fuel : Nat) (p : Process) (reqs : List HookRequest) (s : PState),
    PageUnits os ∧ p.Loaded s ∧ p.Separate s ∧ (∀ r ∈ reqs, r.hook ≠ 0) ∧
    ∃ t ∈ (hookAllAt os fuel p.peb reqs s).1, ∃ pg, PageExecutable s pg ∧ ¬ PageExecutable t pg := by
  refine ⟨demoPageOs, 10, demoProcess, demoRequests, demoPages .executeRead, demo_units, demo_loaded _, demo_separate _,
    by decide, ?_⟩
  have h : (hookAllAt demoPageOs 10 demoProcess.peb demoRequests (demoPages .executeRead)).1.any
      (fun t => t.prot 0x10002 == some .readWrite) = true := by decide +kernel
  obtain ⟨t, ht, h1⟩ := List.any_eq_true.1 h
  simp only [beq_iff_eq] at h1
  exact ⟨t, ht, 0x10002, .inr (.inl (by decide)), by simp [PageExecutable, h1]⟩

/-- The hypothesis of C110 is met, and something happens. -/
example : WriteXorExecute (demoPages .readOnly) ∧
    (hookAllAt demoPageOs 10 demoProcess.peb demoRequests (demoPages .readOnly)).1.any
      (fun t => t.prot 0x10010 == some .readWrite) = true := by
  refine ⟨?_, by decide +kernel⟩
  rw [wx_iff]
  intro p pr hp
  simp only [demoPages, demoProt] at hp
  repeat' split at hp
  all_goals first | (cases hp; exact ⟨by decide, by decide⟩) | cases hp

end Iris
