import Verif.Spec.WinAttrList
/-!
# Lemmas about the memory of attribute lists
-/
namespace Iris
open Spec

/-- Inside an iteration: `vs` are the blocks of the variables, `b` that of the list, over the memory `m0` before. -/
structure Inside (m0 : AttrMem) (b : MemBlock) (slots : Nat) (vs : List MemBlock) (entries : List (Nat × Nat))
    (vals : List ProcAttr) (m : AttrMem) : Prop where
  possible : Possible m0
  blocks : m.blocks = vs ++ b :: m0.blocks
  lists : m.lists = (b.id, ⟨slots, entries⟩) :: m0.lists
  nodup : (vs.map MemBlock.id ++ [b.id]).Nodup
  fresh : ∀ v ∈ vs ++ [b], m0.next ≤ v.id ∧ v.id < m.next
  reads : kReadValues m entries = some vals
  len : entries.length = vals.length

theorem block?_cons (b : MemBlock) (l : List MemBlock) (ls ss n) (id : Nat) :
    AttrMem.block? ⟨b :: l, ls, ss, n⟩ id = if b.id = id then some b else AttrMem.block? ⟨l, ls, ss, n⟩ id := by
  by_cases h : b.id = id <;> simp [AttrMem.block?, List.find?_cons, h]

theorem Inside.block? {m0 b slots vs entries vals m} (h : Inside m0 b slots vs entries vals m) {v : MemBlock}
    (hv : v ∈ vs ++ [b]) : m.block? v.id = some v := by
  have hn := h.nodup
  rw [AttrMem.block?, h.blocks]
  clear h
  induction vs with
  | nil =>
    simp at hv; subst hv; simp
  | cons w vs ih =>
    simp only [List.cons_append, List.mem_cons, List.map_cons, List.nodup_cons] at hv hn
    rcases hv with rfl | hv
    · simp
    · have : w.id ≠ v.id := by
        intro he
        apply hn.1
        rw [he]
        rcases List.mem_append.1 hv with hv | hv
        · exact List.mem_append_left _ (List.mem_map_of_mem hv)
        · simp at hv; subst hv; simp
      simp only [List.cons_append, List.find?_cons, beq_eq_false_iff_ne.2 this]
      exact ih hv hn.2

theorem Inside.list? {m0 b slots vs entries vals m} (h : Inside m0 b slots vs entries vals m) :
    m.list? b.id = some ⟨slots, entries⟩ := by
  rw [AttrMem.list?, h.lists]; simp

theorem kReadValue_congr {m m' : AttrMem} {e : Nat × Nat} {v : ProcAttr} (h : kReadValue m e = some v)
    (hb : ∀ x, m.block? e.1 = some x → m'.block? e.1 = some x) (hs : ∀ i ∈ m.sids, i ∈ m'.sids) :
    kReadValue m' e = some v := by
  rw [kReadValue] at h ⊢
  cases hx : m.block? e.1 with
  | none => rw [hx] at h; cases h
  | some x =>
    rw [hx] at h
    rw [hb x hx]
    simp only [Option.bind_some] at h ⊢
    split at h
    · cases h
    · rename_i hsz
      rw [if_neg hsz]
      cases hv : x.val with
      | none => rw [hv] at h; cases h
      | some w =>
        rw [hv] at h
        simp only [Option.bind_some] at h ⊢
        cases w with
        | securityCapabilities i =>
          simp only at h ⊢
          split at h
          · rename_i hi
            rw [if_pos (hs i hi)]; exact h
          · cases h
        | allApplicationPackagesPolicy _ => exact h
        | handleList _ => exact h
        | childProcessPolicy _ => exact h
        | mitigationPolicy _ => exact h

theorem kReadValues_congr {m m' : AttrMem} : ∀ {es : List (Nat × Nat)} {vs : List ProcAttr}, kReadValues m es = some vs →
    (∀ e ∈ es, ∀ x, m.block? e.1 = some x → m'.block? e.1 = some x) → (∀ i ∈ m.sids, i ∈ m'.sids) →
    kReadValues m' es = some vs
  | [], vs, h, _, _ => h
  | e :: es, vs, h, hb, hs => by
    rw [kReadValues] at h ⊢
    cases hx : kReadValue m e with
    | none => rw [hx] at h; cases h
    | some v =>
      rw [hx] at h
      rw [kReadValue_congr hx (hb e (by simp)) hs]
      simp only [Option.bind_some] at h ⊢
      cases hy : kReadValues m es with
      | none => rw [hy] at h; cases h
      | some ws =>
        rw [hy] at h
        rw [kReadValues_congr hy (fun e he => hb e (by simp [he])) hs]
        exact h

theorem kReadValues_append {m : AttrMem} {e : Nat × Nat} {v : ProcAttr} (h : kReadValue m e = some v) :
    ∀ {es : List (Nat × Nat)} {vs : List ProcAttr}, kReadValues m es = some vs →
    kReadValues m (es ++ [e]) = some (vs ++ [v])
  | [], vs, hx => by
    simp only [kReadValues, Option.some.injEq] at hx; subst hx
    simp [kReadValues, h]
  | e' :: es, vs, hx => by
    rw [List.cons_append, kReadValues]
    rw [kReadValues] at hx
    cases h1 : kReadValue m e' with
    | none => rw [h1] at hx; cases hx
    | some v1 =>
      rw [h1] at hx
      simp only [Option.bind_some] at hx ⊢
      cases h2 : kReadValues m es with
      | none => rw [h2] at hx; cases hx
      | some ws =>
        rw [h2] at hx
        rw [kReadValues_append h h2]
        simp only [Option.map_some, Option.some.injEq] at hx ⊢
        subst hx; rfl

/-- Blocks that were there are found as before, whatever is declared on top. -/
theorem Inside.mem_lt {m0 b slots vs entries vals m} (h : Inside m0 b slots vs entries vals m) {x : MemBlock}
    (hx : x ∈ m.blocks) : x.id < m.next := by
  rw [h.blocks] at hx
  have hb := h.fresh b (by simp)
  rcases List.mem_append.1 hx with hx | hx
  · exact (h.fresh x (by simp [hx])).2
  · rcases List.mem_cons.1 hx with rfl | hx
    · exact hb.2
    · have := h.possible.1 x hx; omega

theorem block?_id {m : AttrMem} {i : Nat} {x : MemBlock} (h : m.block? i = some x) : x ∈ m.blocks ∧ x.id = i := by
  rw [AttrMem.block?] at h
  exact ⟨List.mem_of_find?_eq_some h, by simpa using List.find?_some h⟩

/-- A variable is declared. -/
theorem Inside.declare {m0 b slots vs entries vals m} (h : Inside m0 b slots vs entries vals m) (size : Nat)
    (val : Option ProcAttr) :
    Inside m0 b slots (⟨m.next, size, val⟩ :: vs) entries vals (m.declare size val).2 where
  possible := h.possible
  blocks := by simp [AttrMem.declare, h.blocks]
  lists := by simp [AttrMem.declare, h.lists]
  nodup := by
    simp only [List.map_cons, List.cons_append, List.nodup_cons]
    refine ⟨fun hx => ?_, h.nodup⟩
    have : ∃ v ∈ vs ++ [b], v.id = m.next := by
      rcases List.mem_append.1 hx with hx | hx
      · obtain ⟨v, hv, he⟩ := List.mem_map.1 hx
        exact ⟨v, by simp [hv], he⟩
      · simp at hx; exact ⟨b, by simp, hx.symm⟩
    obtain ⟨v, hv, he⟩ := this
    have := h.fresh v hv; omega
  fresh := by
    intro v hv
    simp only [List.cons_append, List.mem_cons] at hv
    have hb := h.fresh b (by simp)
    simp only [AttrMem.declare]
    rcases hv with rfl | hv
    · simp only; omega
    · have := h.fresh v hv; omega
  reads := by
    refine kReadValues_congr h.reads (fun e _ x hx => ?_) (fun i hi => hi)
    obtain ⟨h1, h2⟩ := block?_id hx
    have := h.mem_lt h1
    simp only [AttrMem.declare]
    rw [block?_cons, if_neg (by simp only; omega)]
    exact hx
  len := h.len

theorem trySet_false (r : WinRound) (a : ProcAttr) (vals : List ProcAttr) : trySet false r a vals = some vals := rfl

/-- An attribute is set, if wanted: the same as in `trySet`. -/
theorem Inside.trySet {m0 b slots vs entries vals m} (h : Inside m0 b slots vs entries vals m) (wanted : Bool)
    (r : WinRound) {v : MemBlock} {a : ProcAttr} (hv : v ∈ vs) (ha : v.val = some a)
    (hs : ∀ i, a = .securityCapabilities i → i ∈ m.sids) (hl : wanted = true → vals.length < slots) :
    match trySet wanted r a vals with
    | none => ptalTrySet wanted r m b.id v.id v.size = some (false, m)
    | some vals' => ∃ m' entries', ptalTrySet wanted r m b.id v.id v.size = some (true, m') ∧
        Inside m0 b slots vs entries' vals' m' ∧ m'.sids = m.sids ∧ m'.next = m.next := by
  cases wanted with
  | false => exact ⟨m, entries, rfl, h, rfl, rfl⟩
  | true =>
    have hu : ptalTrySet true r m b.id v.id v.size = if r.setOk a = false then some (false, m)
        else some (true, { m with lists := (b.id, ⟨slots, entries ++ [(v.id, v.size)]⟩) :: m0.lists }) := by
      rw [ptalTrySet, if_pos rfl, kUpdate, h.block? (by simp), h.list?, h.block? (v := v) (by simp [hv])]
      simp only [Option.bind_some, Nat.lt_irrefl, if_false, ha]
      have : ¬ slots ≤ entries.length := by have := hl rfl; have := h.len; omega
      simp only [this, false_or, h.lists, List.map_cons, beq_self_eq_true, if_true]
      have : m0.lists.map (fun x => if x.1 == b.id then (x.1, { x.2 with entries := x.2.entries ++ [(v.id, v.size)] })
          else x) = m0.lists := by
        rw [List.map_congr_left (g := id) (fun x hx => ?_), List.map_id]
        have h1 := h.possible.2 x hx
        have h2 := h.fresh b (by simp)
        have : x.1 ≠ b.id := by omega
        simp [this]
      rw [this]
    rw [Iris.trySet, if_pos rfl, hu]
    cases hr : r.setOk a with
    | false => simp
    | true =>
      simp only [if_true, Bool.true_eq_false, if_false]
      refine ⟨_, entries ++ [(v.id, v.size)], rfl, ⟨h.possible, h.blocks, rfl, h.nodup, h.fresh, ?_, ?_⟩, rfl, rfl⟩
      · apply kReadValues_append
        · rw [kReadValue]
          have : AttrMem.block? { m with lists := (b.id, ⟨slots, entries ++ [(v.id, v.size)]⟩) :: m0.lists } v.id = some v :=
            h.block? (v := v) (by simp [hv])
          rw [this]
          simp only [Option.bind_some, Nat.lt_irrefl, if_false, ha]
          cases a with
          | securityCapabilities i => simp [hs i rfl]
          | allApplicationPackagesPolicy _ => rfl
          | handleList _ => rfl
          | childProcessPolicy _ => rfl
          | mitigationPolicy _ => rfl
        · exact kReadValues_congr h.reads (fun e _ x hx => hx) (fun i hi => hi)
      · simp [h.len]

/-- All is as before, except the identifiers of profiles. -/
structure Back (m0 m m' : AttrMem) : Prop where
  blocks : m'.blocks = m0.blocks
  lists : m'.lists = m0.lists
  sids : m'.sids = m.sids
  next : m0.next ≤ m'.next

theorem leave_back {m0 : AttrMem} {b : MemBlock} (l : AttrList) (hp : Possible m0) (hb : m0.next ≤ b.id) :
    ∀ (vs : List MemBlock) (m : AttrMem), m.blocks = vs ++ b :: m0.blocks → m.lists = (b.id, l) :: m0.lists →
    (vs.map MemBlock.id ++ [b.id]).Nodup → (∀ v ∈ vs, m0.next ≤ v.id) → m0.next ≤ m.next →
    ∃ m', leave false m b.id (vs.map MemBlock.id) = some m' ∧ Back m0 m m'
  | [], m, h1, h2, _, _, h5 => by
    have hbl : m.block? b.id = some b := by rw [AttrMem.block?, h1]; simp
    refine ⟨{ m with blocks := m0.blocks, lists := m0.lists }, ?_, rfl, rfl, rfl, h5⟩
    have e1 : m0.lists.filter (·.1 != b.id) = m0.lists := by
      rw [List.filter_eq_self]
      intro x hx
      have := hp.2 x hx
      simp; omega
    have e2 : m0.blocks.filter (·.id != b.id) = m0.blocks := by
      rw [List.filter_eq_self]
      intro x hx
      have := hp.1 x hx
      simp; omega
    rw [List.map_nil, leave, ptalDrop, kDeleteList, hbl, AttrMem.list?, h2]
    simp only [Option.bind_some, List.find?_cons, beq_self_eq_true, Option.map_some, Bool.false_eq_true, false_and, if_false]
    rw [AttrMem.free]
    have : AttrMem.block? { m with lists := List.filter (fun x => x.1 != b.id) ((b.id, l) :: m0.lists) } b.id = some b := hbl
    rw [this]
    simp [h1, e1, e2]
  | v :: vs, m, h1, h2, h3, h4, h5 => by
    have hbl : m.block? v.id = some v := by rw [AttrMem.block?, h1]; simp
    simp only [List.map_cons, List.cons_append, List.nodup_cons] at h3
    have e : m.blocks.filter (·.id != v.id) = vs ++ b :: m0.blocks := by
      rw [h1, List.cons_append, List.filter_cons]
      simp only [bne_self_eq_false, Bool.false_eq_true, if_false]
      rw [List.filter_eq_self]
      intro x hx
      simp only [bne_iff_ne, ne_eq]
      intro he
      rcases List.mem_append.1 hx with hx | hx
      · exact h3.1 (List.mem_append_left _ (he ▸ List.mem_map_of_mem hx))
      · rcases List.mem_cons.1 hx with rfl | hx
        · exact h3.1 (by simp [he])
        · have := hp.1 x hx
          have := h4 v (by simp)
          omega
    rw [List.map_cons, leave, AttrMem.free, hbl]
    simp only [Option.map_some, Option.bind_some]
    obtain ⟨m', g1, g2⟩ := leave_back l hp hb vs { m with blocks := m.blocks.filter (·.id != v.id) } e h2 h3.2
      (fun w hw => h4 w (by simp [hw])) h5
    exact ⟨m', g1, g2.blocks, g2.lists, g2.sids, g2.next⟩

theorem Inside.leave {m0 b slots vs entries vals m} (h : Inside m0 b slots vs entries vals m) (end_ : WinAttempt) :
    ∃ m', leaveWith false m b.id (vs.map MemBlock.id) end_ = some (end_, m') ∧ Back m0 m m' := by
  have hb := h.fresh b (by simp)
  obtain ⟨m', h1, h2⟩ := leave_back _ h.possible hb.1 vs m h.blocks h.lists h.nodup
    (fun v hv => (h.fresh v (by simp [hv])).1) (by omega)
  exact ⟨m', by rw [leaveWith, h1]; rfl, h2⟩

theorem Inside.read {m0 b slots vs entries vals m} (h : Inside m0 b slots vs entries vals m) :
    kReadList m b.id = some (slots, vals) := by
  rw [kReadList, h.block? (by simp), h.list?]
  simp [h.reads]

theorem Back.of {m0 m m1 m' : AttrMem} (h : Back m0 m1 m') (hs : m1.sids = m.sids) : Back m0 m m' :=
  ⟨h.blocks, h.lists, by rw [h.sids, hs], h.next⟩

/-- A variable that was just declared, and is then assigned. -/
theorem Inside.assign_new {m0 b slots vs entries vals m} (h : Inside m0 b slots vs entries vals m) (size : Nat)
    (a a' : ProcAttr) :
    (m.declare size (some a)).2.assign m.next a' = some (m.declare size (some a')).2 := by
  have e : m.blocks.map (fun x => if x.id = m.next then { x with val := some a' } else x) = m.blocks := by
    rw [List.map_congr_left (g := id) (fun x hx => ?_), List.map_id]
    have := h.mem_lt hx
    have : x.id ≠ m.next := by omega
    simp [this]
  rw [AttrMem.assign, AttrMem.declare]
  simp only
  rw [block?_cons, if_pos rfl]
  simp [AttrMem.declare, e]

theorem winFinishMem_eq {m0 b slots vs entries vals m} (h : Inside m0 b slots vs entries vals m)
    (inherited : List (BitVec 64)) (f : WinFlags) (profile : Option Nat) (s : WinStart) (r : WinRound)
    (hl : vals.length + f.filterHandles.toNat + f.blockChildren.toNat + f.mitigations.toNat ≤ slots) :
    ∃ m', winFinishMem false inherited f b.id (vs.map MemBlock.id) profile s r m =
        some (winFinish inherited f slots vals profile s r, m') ∧ Back m0 m m' := by
  rw [winFinishMem, winFinish]
  have h1 := h.declare ((handlesToInherit inherited).length * 8) (some (.handleList (handlesToInherit inherited)))
  have t1 := h1.trySet f.filterHandles r (v := ⟨m.next, (handlesToInherit inherited).length * 8,
    some (.handleList (handlesToInherit inherited))⟩) (by simp) rfl (by simp)
    (fun hf => by rw [hf] at hl; simp at hl; omega)
  generalize hm1 : (m.declare ((handlesToInherit inherited).length * 8) (some (.handleList (handlesToInherit inherited)))) = d1
    at h1 t1
  have hd1 : d1.1 = m.next := by rw [← hm1]; rfl
  have hds1 : d1.2.sids = m.sids := by rw [← hm1]; rfl
  obtain ⟨i1, m1⟩ := d1
  simp only at hd1 h1 t1 hds1
  subst hd1
  cases ht : trySet f.filterHandles r (.handleList (handlesToInherit inherited)) vals with
  | none =>
    rw [ht] at t1
    simp only at t1 ⊢
    rw [t1]
    obtain ⟨m', e1, e2⟩ := h1.leave (.again { f with filterHandles := false } s)
    exact ⟨m', e1, e2.of hds1⟩
  | some vals1 =>
    rw [ht] at t1
    obtain ⟨m2, es2, t1, h2, hs2, hn2⟩ := t1
    simp only at t1 ⊢
    rw [t1]
    simp only
    have hl1 : vals1.length = vals.length + f.filterHandles.toNat := by
      rw [trySet] at ht
      cases hf : f.filterHandles with
      | false => rw [hf] at ht; simp at ht; simp [ht]
      | true => rw [hf] at ht; simp only [if_true] at ht; split at ht <;> simp at ht; simp [← ht]
    have h3 := h2.declare 4 (some (.childProcessPolicy 1))
    have t2 := h3.trySet f.blockChildren r (v := ⟨m2.next, 4, some (.childProcessPolicy 1)⟩) (by simp) rfl (by simp)
      (fun hf => by rw [hf] at hl; simp at hl; omega)
    generalize hm3 : (m2.declare 4 (some (.childProcessPolicy 1))) = d3 at h3 t2
    have hd3 : d3.1 = m2.next := by rw [← hm3]; rfl
    have hds3 : d3.2.sids = m2.sids := by rw [← hm3]; rfl
    obtain ⟨i3, m3⟩ := d3
    simp only at hd3 h3 t2 hds3
    subst hd3
    cases ht2 : trySet f.blockChildren r (.childProcessPolicy 1) vals1 with
    | none =>
      rw [ht2] at t2
      simp only at t2 ⊢
      rw [t2]
      obtain ⟨m', e1, e2⟩ := h3.leave (.again { f with blockChildren := false } s)
      exact ⟨m', e1, e2.of (by rw [hds3, hs2, hds1])⟩
    | some vals2 =>
      rw [ht2] at t2
      obtain ⟨m4, es4, t2, h4, hs4, hn4⟩ := t2
      simp only at t2 ⊢
      rw [t2]
      simp only
      have hl2 : vals2.length = vals1.length + f.blockChildren.toNat := by
        rw [trySet] at ht2
        cases hf : f.blockChildren with
        | false => rw [hf] at ht2; simp at ht2; simp [ht2]
        | true => rw [hf] at ht2; simp only [if_true] at ht2; split at ht2 <;> simp at ht2; simp [← ht2]
      have hmit : ∃ a, (f.mitigations = true → a = .mitigationPolicy mitigationValue) ∧ (∀ i, a ≠ .securityCapabilities i) ∧
          (if f.mitigations then (m4.declare 4 (some (.mitigationPolicy 0))).2.assign m4.next
              (.mitigationPolicy mitigationValue) else some (m4.declare 4 (some (.mitigationPolicy 0))).2) =
            some (m4.declare 4 (some a)).2 := by
        cases hf : f.mitigations with
        | false => exact ⟨_, by simp, by simp, rfl⟩
        | true => exact ⟨_, fun _ => rfl, by simp, h4.assign_new 4 _ _⟩
      obtain ⟨a, ha1, ha2, ha3⟩ := hmit
      rw [show (m4.declare 4 (some (.mitigationPolicy 0))).1 = m4.next from rfl, ha3]
      simp only
      have h5 := h4.declare 4 (some a)
      have t3 := h5.trySet f.mitigations r (v := ⟨m4.next, 4, some a⟩) (by simp) rfl (fun i hi => absurd hi (ha2 i))
        (fun hf => by rw [hf] at hl; simp at hl; omega)
      generalize hm5 : (m4.declare 4 (some a)) = d5 at h5 t3
      have hds5 : d5.2.sids = m4.sids := by rw [← hm5]; rfl
      obtain ⟨i5, m5⟩ := d5
      simp only at h5 t3 hds5
      have ht3 : trySet f.mitigations r a vals2 = trySet f.mitigations r (.mitigationPolicy mitigationValue) vals2 := by
        cases hf : f.mitigations with
        | false => rfl
        | true => rw [ha1 hf]
      rw [ht3] at t3
      cases ht4 : trySet f.mitigations r (.mitigationPolicy mitigationValue) vals2 with
      | none =>
        rw [ht4] at t3
        simp only at t3 ⊢
        rw [t3]
        obtain ⟨m', e1, e2⟩ := h5.leave (.again { f with mitigations := false } s)
        exact ⟨m', e1, e2.of (by rw [hds5, hs4, hds3, hs2, hds1])⟩
      | some vals3 =>
        rw [ht4] at t3
        obtain ⟨m6, es6, t3, h6, hs6, hn6⟩ := t3
        simp only at t3 ⊢
        rw [t3]
        simp only
        rw [h6.read]
        simp only
        generalize (if r.createOk = true then _ else _ : WinAttempt) = e
        obtain ⟨m', e1, e2⟩ := h6.leave e
        exact ⟨m', e1, e2.of (by rw [hs6, hds5, hs4, hds3, hs2, hds1])⟩

/-- The list is made, in a block of its own, or not, and then nothing is left. -/
theorem ptalNew_eq {m0 : AttrMem} (hp : Possible m0) (os : ListOs) (slots : Nat) :
    if listGiven os then
      ∃ m, ptalNew os slots m0 = some (some m0.next, m) ∧ m.sids = m0.sids ∧
        Inside m0 ⟨m0.next, os.required, none⟩ slots [] [] [] m
    else ∃ m, ptalNew os slots m0 = some (none, m) ∧ Back m0 m0 m := by
  rw [ptalNew, listGiven]
  by_cases h1 : os.probeOk = true ∨ os.probeError ≠ ERROR_INSUFFICIENT_BUFFER
  · rw [if_pos h1]
    have : (!os.probeOk && os.probeError == 122#32 && !os.refuses) = false := by
      rcases h1 with h1 | h1
      · simp [h1]
      · have : ¬ os.probeError = 122#32 := h1
        simp [this]
    rw [this]
    exact ⟨m0, rfl, rfl, rfl, rfl, Nat.le_refl _⟩
  · rw [if_neg h1]
    rw [not_or, Decidable.not_not] at h1
    have e1 : os.probeOk = false := by simpa using h1.1
    have e2 : os.probeError = 122#32 := h1.2
    simp only [AttrMem.declare, kInitList, Nat.lt_irrefl, false_or, e1, e2]
    cases hr : os.refuses with
    | true =>
      simp only [if_true]
      refine ⟨⟨m0.blocks, m0.lists, m0.sids, m0.next + 1⟩, ?_, rfl, rfl, rfl, Nat.le_succ _⟩
      rw [AttrMem.free, block?_cons, if_pos rfl]
      have : m0.blocks.filter (fun x => x.id != m0.next) = m0.blocks := by
        rw [List.filter_eq_self]
        intro x hx
        have := hp.1 x hx
        simp; omega
      simp [this]
    | false =>
      simp only [Bool.false_eq_true, if_false]
      rw [block?_cons, if_pos rfl]
      have : m0.lists.filter (fun x => x.1 != m0.next) = m0.lists := by
        rw [List.filter_eq_self]
        intro x hx
        have := hp.2 x hx
        simp; omega
      simp only [Option.bind_some, Nat.lt_irrefl, if_false, this]
      exact ⟨_, rfl, rfl, hp, rfl, rfl, by simp, by simp, rfl, rfl⟩

/-- What an iteration of the loop leaves, compared with memory before: identifiers of profiles may be added. -/
structure Left (m0 m' : AttrMem) (e : WinAttempt) : Prop where
  blocks : m'.blocks = m0.blocks
  lists : m'.lists = m0.lists
  next : m0.next ≤ m'.next
  sids : ∀ i ∈ m0.sids, i ∈ m'.sids
  leaked : ∀ p s i, e = .created p s → p.profile = some i → i ∈ m'.sids

theorem Left.possible {m0 m' e} (h : Left m0 m' e) (hp : Possible m0) : Possible m' := by
  refine ⟨fun b hb => ?_, fun l hl => ?_⟩
  · rw [h.blocks] at hb; have := hp.1 b hb; have := h.next; omega
  · rw [h.lists] at hl; have := hp.2 l hl; have := h.next; omega

theorem winFinish_profile {inherited f slots vals profile s r p s'} (h : winFinish inherited f slots vals profile s r = .created p s') :
    p.profile = profile := by
  rw [winFinish] at h
  split at h
  · cases h
  · split at h
    · cases h
    · split at h
      · cases h
      · simp only at h
        split at h
        · split at h
          · cases h
          · cases h; rfl
        · split at h <;> cases h

theorem winAttemptMem_eq {m0 : AttrMem} (hp : Possible m0) (supported : Bool) (inherited : List (BitVec 64)) (f : WinFlags)
    (s : WinStart) (os : ListOs) (r : WinRound) (hr : r.listOk = listGiven os) :
    ∃ m', winAttemptMem false supported inherited f s os r m0 = some (winAttempt supported inherited f s r, m') ∧
      Left m0 m' (winAttempt supported inherited f s r) := by
  rw [winAttemptMem, winAttempt]
  generalize hf : (if f.appContainer = true then f else { f with lessPrivileged := false }) = g
  have hg : g.appContainer = false → g.lessPrivileged = false := by
    rw [← hf]; split
    · rename_i h; intro h'; rw [h] at h'; cases h'
    · intro _; rfl
  simp only
  generalize hsl : List.countP id [g.appContainer, g.lessPrivileged, g.filterHandles, g.blockChildren, g.mitigations] = slots
  have hslots : g.appContainer.toNat + g.lessPrivileged.toNat + g.filterHandles.toNat + g.blockChildren.toNat
      + g.mitigations.toNat = slots := by
    rw [← hsl]
    obtain ⟨a, b, c, d, e⟩ := g
    cases a <;> cases b <;> cases c <;> cases d <;> cases e <;> rfl
  have hn := ptalNew_eq hp os slots
  rw [hr]
  cases hL : listGiven os with
  | false =>
    rw [hL] at hn
    simp only [Bool.false_eq_true, if_false] at hn ⊢
    obtain ⟨m, e1, e2⟩ := hn
    rw [e1]
    exact ⟨m, rfl, e2.blocks, e2.lists, e2.next, fun i hi => by rw [e2.sids]; exact hi, fun _ _ _ h => by cases h⟩
  | true =>
    rw [hL] at hn
    simp only [if_true] at hn ⊢
    obtain ⟨m, e1, e2, h⟩ := hn
    rw [e1]
    simp only
    have h2 := (h.declare 24 none).declare 4 (some (.allApplicationPackagesPolicy 1))
    have hs2 : ((m.declare 24 none).2.declare 4 (some (.allApplicationPackagesPolicy 1))).2.sids = m0.sids := e2
    have hv1 : (m.declare 24 none).1 = m.next := rfl
    have hv2 : ((m.declare 24 none).2.declare 4 (some (.allApplicationPackagesPolicy 1))).1 = m.next + 1 := rfl
    have hn2 : (m.declare 24 none).2.next = m.next + 1 := rfl
    rw [hn2] at h2
    generalize hm2 : ((m.declare 24 none).2.declare 4 (some (.allApplicationPackagesPolicy 1))) = d2 at h2 hs2 hv2
    obtain ⟨i2, m2⟩ := d2
    simp only at h2 hs2 hv2 ⊢
    subst hv2
    rw [hv1]
    have key : ∀ (e : WinAttempt), (∀ p s, e ≠ .created p s) →
        ∃ m', leaveWith false m2 m0.next [m.next + 1, m.next] e = some (e, m') ∧ Left m0 m' e := by
      intro e he
      obtain ⟨m', g1, g2⟩ := h2.leave e
      exact ⟨m', g1, g2.blocks, g2.lists, g2.next, fun i hi => by rw [g2.sids, hs2]; exact hi,
        fun p s _ h => absurd h (he p s)⟩
    cases hac : g.appContainer with
    | false =>
      simp only [Bool.false_eq_true, if_false]
      have := hg hac
      obtain ⟨m', g1, g2⟩ := winFinishMem_eq h2 inherited g none s r (by
        rw [hac, this] at hslots; simp at hslots ⊢; omega)
      refine ⟨m', g1, g2.blocks, g2.lists, g2.next, fun i hi => by rw [g2.sids, hs2]; exact hi, fun p s i h1 h2 => ?_⟩
      rw [winFinish_profile h1] at h2; cases h2
    | true =>
      simp only [if_true]
      cases supported with
      | false =>
        simp only [Bool.false_eq_true, if_false]
        exact key _ (by simp)
      | true =>
        simp only [if_true]
        generalize hcp : createProfile s r = cp
        obtain ⟨ok, s'⟩ := cp
        cases ok with
        | false =>
          simp only
          exact key _ (by simp)
        | true =>
          simp only
          have ha : ({ m2 with sids := s.nextId :: m2.sids } : AttrMem).assign m.next (.securityCapabilities s.nextId) =
              some { m2 with sids := s.nextId :: m2.sids, blocks := [⟨m.next + 1, 4, some (.allApplicationPackagesPolicy 1)⟩,
                               ⟨m.next, 24, some (.securityCapabilities s.nextId)⟩] ++ ⟨m0.next, os.required, none⟩ :: m0.blocks } := by
            have hb : AttrMem.block? { m2 with sids := s.nextId :: m2.sids } m.next = some ⟨m.next, 24, none⟩ :=
              h2.block? (v := ⟨m.next, 24, none⟩) (by simp)
            rw [AttrMem.assign, hb]
            have hlt := (h.fresh ⟨m0.next, os.required, none⟩ (by simp)).2
            simp only at hlt
            have e : m0.blocks.map (fun x => if x.id = m.next then { x with val := some (.securityCapabilities s.nextId) } else x)
                = m0.blocks := by
              rw [List.map_congr_left (g := id) (fun x hx => ?_), List.map_id]
              have := hp.1 x hx
              have : x.id ≠ m.next := by omega
              simp [this]
            have h3 : ¬ m0.next = m.next := by omega
            simp [h2.blocks, e, h3]
          have h3 : Inside m0 ⟨m0.next, os.required, none⟩ slots [⟨m.next + 1, 4, some (.allApplicationPackagesPolicy 1)⟩,
              ⟨m.next, 24, some (.securityCapabilities s.nextId)⟩] [] [] { m2 with sids := s.nextId :: m2.sids, blocks := [⟨m.next + 1, 4, some (.allApplicationPackagesPolicy 1)⟩,
                               ⟨m.next, 24, some (.securityCapabilities s.nextId)⟩] ++ ⟨m0.next, os.required, none⟩ :: m0.blocks } := by
            refine ⟨hp, rfl, h2.lists, h2.nodup, ?_, rfl, rfl⟩
            have := h2.fresh
            simp at this ⊢
            exact this
          rw [ha]
          simp only
          have hs3 : ∀ (mm : AttrMem), mm = { m2 with sids := s.nextId :: m2.sids, blocks := [⟨m.next + 1, 4, some (.allApplicationPackagesPolicy 1)⟩,
                               ⟨m.next, 24, some (.securityCapabilities s.nextId)⟩] ++ ⟨m0.next, os.required, none⟩ :: m0.blocks } →
              mm.sids = s.nextId :: m0.sids := by intro mm h; rw [h, ← hs2]
          generalize hm3 : ({ m2 with sids := s.nextId :: m2.sids, blocks := [⟨m.next + 1, 4, some (.allApplicationPackagesPolicy 1)⟩,
                               ⟨m.next, 24, some (.securityCapabilities s.nextId)⟩] ++ ⟨m0.next, os.required, none⟩ :: m0.blocks } : AttrMem) = m3
            at h3 hs3
          have hs3 := hs3 m3 rfl
          have t1 := h3.trySet true r (v := ⟨m.next, 24, some (.securityCapabilities s.nextId)⟩) (by simp) rfl
            (by intro i hi; cases hi; rw [hs3]; simp) (fun _ => by rw [hac] at hslots; simp at hslots ⊢; omega)
          have fin : ∀ {es vals mm} (e : WinAttempt), (∀ p s, e ≠ .created p s) → mm.sids = s.nextId :: m0.sids →
              Inside m0 ⟨m0.next, os.required, none⟩ slots [⟨m.next + 1, 4, some (.allApplicationPackagesPolicy 1)⟩,
              ⟨m.next, 24, some (.securityCapabilities s.nextId)⟩] es vals mm →
              ∃ m', leaveWith false mm m0.next [m.next + 1, m.next] e = some (e, m') ∧ Left m0 m' e := by
            intro es vals mm e he hsm hi
            obtain ⟨m', g1, g2⟩ := hi.leave e
            exact ⟨m', g1, g2.blocks, g2.lists, g2.next, fun i hi => by rw [g2.sids, hsm]; exact List.mem_cons_of_mem _ hi,
              fun p s _ h => absurd h (he p s)⟩
          cases ht : trySet true r (.securityCapabilities s.nextId) [] with
          | none =>
            rw [ht] at t1
            simp only at t1 ⊢
            rw [t1]
            exact fin _ (by simp) hs3 h3
          | some vals1 =>
            rw [ht] at t1
            obtain ⟨m4, es4, t1, h4, hs4, hn4⟩ := t1
            simp only at t1 ⊢
            rw [t1]
            simp only
            have hl1 : vals1.length = 1 := by
              rw [trySet] at ht
              simp only [if_true] at ht; split at ht <;> simp at ht; simp [← ht]
            have t2 := h4.trySet g.lessPrivileged r (v := ⟨m.next + 1, 4, some (.allApplicationPackagesPolicy 1)⟩) (by simp) rfl
              (by simp) (fun hf => by rw [hac, hf] at hslots; simp at hslots ⊢; omega)
            cases ht2 : trySet g.lessPrivileged r (.allApplicationPackagesPolicy 1) vals1 with
            | none =>
              rw [ht2] at t2
              simp only at t2 ⊢
              rw [t2]
              exact fin _ (by simp) (by rw [hs4, hs3]) h4
            | some vals2 =>
              rw [ht2] at t2
              obtain ⟨m5, es5, t2, h5, hs5, hn5⟩ := t2
              simp only at t2 ⊢
              rw [t2]
              simp only
              have hl2 : vals2.length = 1 + g.lessPrivileged.toNat := by
                rw [trySet] at ht2
                cases hf : g.lessPrivileged with
                | false => rw [hf] at ht2; simp at ht2; simp [← ht2, hl1]
                | true => rw [hf] at ht2; simp only [if_true] at ht2; split at ht2 <;> simp at ht2; simp [← ht2, hl1]
              obtain ⟨m', g1, g2⟩ := winFinishMem_eq h5 inherited g (some s.nextId) s' r (by
                rw [hac] at hslots; simp at hslots ⊢; omega)
              have hsid : m'.sids = s.nextId :: m0.sids := by rw [g2.sids, hs5, hs4, hs3]
              refine ⟨m', g1, g2.blocks, g2.lists, g2.next, fun i hi => by rw [hsid]; exact List.mem_cons_of_mem _ hi,
                fun p s i h1 h2 => ?_⟩
              rw [winFinish_profile h1] at h2; cases h2
              rw [hsid]; simp

theorem winLoopMem_eq (supported : Bool) (inherited : List (BitVec 64)) (lists : Nat → ListOs) (rounds : Nat → WinRound)
    (hr : ∀ k, (rounds k).listOk = listGiven (lists k)) : ∀ (n k : Nat) (f : WinFlags) (s : WinStart) (m : AttrMem), Possible m →
    ∃ m', winLoopMem false supported inherited lists rounds n k f s m =
        some (winLoop supported inherited rounds n k f s, m') ∧ Left m m' (winLoop supported inherited rounds n k f s)
  | 0, k, f, s, m, _ => ⟨m, rfl, rfl, rfl, Nat.le_refl _, fun _ hi => hi, fun _ _ _ h => by cases h⟩
  | n + 1, k, f, s, m, hp => by
    obtain ⟨m1, h1, h2⟩ := winAttemptMem_eq hp supported inherited f s (lists k) (rounds k) (hr k)
    rw [winLoopMem, winLoop, h1]
    cases hw : winAttempt supported inherited f s (rounds k) with
    | again f' s' =>
      simp only
      rw [hw] at h2
      obtain ⟨m2, g1, g2⟩ := winLoopMem_eq supported inherited lists rounds hr n (k + 1) f' s' m1 (h2.possible hp)
      exact ⟨m2, g1, g2.blocks.trans h2.blocks, g2.lists.trans h2.lists, Nat.le_trans h2.next g2.next,
        fun i hi => g2.sids i (h2.sids i hi), g2.leaked⟩
    | created p s' =>
      rw [hw] at h2
      exact ⟨m1, rfl, h2⟩
    | failed s' =>
      rw [hw] at h2
      exact ⟨m1, rfl, h2⟩

end Iris
