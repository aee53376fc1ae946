import Verif.Model.LinuxMessages
import Verif.Lemmas.LinuxPolicy
/-! Helper lemmas about the wire format. -/
namespace Iris

theorem encVarint_small {n : Nat} (h : n < 128) : encVarint n = [UInt8.ofNat n] := by
  rw [encVarint, if_pos h]
theorem encVarint_big {n : Nat} (h : ¬ n < 128) :
    encVarint n = UInt8.ofNat (n % 128 + 128) :: encVarint (n / 128) := by
  rw [encVarint, if_neg h]

theorem encVarint_ne_nil (n : Nat) : encVarint n ≠ [] := by
  rw [encVarint]; split <;> simp

theorem encVarint_length (k n : Nat) (hn : n < 128 ^ (k + 1)) : (encVarint n).length ≤ k + 1 := by
  induction k generalizing n with
  | zero => rw [encVarint_small (by simpa using hn)]; simp
  | succ k ih =>
    by_cases h : n < 128
    · rw [encVarint_small h]; simp
    · rw [encVarint_big h]
      have := ih (n / 128) (by
        rw [Nat.div_lt_iff_lt_mul (by omega)]
        rwa [Nat.pow_succ] at hn)
      simp only [List.length_cons]; omega

/-- Reading back an encoded number that fits in `k` groups, the last at most
`lastMax`. -/
theorem takeVarint_enc (lastMax : Nat) (hl : lastMax < 128) (k shift acc n : Nat) (rest : Bytes)
    (hn : n < (lastMax + 1) * 128 ^ k) :
    takeVarint lastMax (k + 1) shift acc (encVarint n ++ rest) = some (acc + n * 2 ^ shift, rest) := by
  induction k generalizing shift acc n with
  | zero =>
    have h : n < 128 := by simp at hn; omega
    rw [encVarint_small h]
    have h2 : (UInt8.ofNat n).toNat = n := by
      rw [UInt8.toNat_ofNat']; omega
    simp only [List.cons_append, List.nil_append, takeVarint, h2, h, if_true, true_and]
    rw [if_neg (by simp at hn; omega), Nat.mod_eq_of_lt h]
  | succ k ih =>
    by_cases h : n < 128
    · rw [encVarint_small h]
      have h2 : (UInt8.ofNat n).toNat = n := by
        rw [UInt8.toNat_ofNat']; omega
      simp only [List.cons_append, List.nil_append, takeVarint, h2, h, if_true]
      rw [if_neg (by omega), Nat.mod_eq_of_lt h]
    · rw [encVarint_big h]
      have h2 : (UInt8.ofNat (n % 128 + 128)).toNat = n % 128 + 128 := by
        rw [UInt8.toNat_ofNat']; omega
      rw [List.cons_append, takeVarint]
      simp only [h2]
      rw [if_neg (by omega), ih]
      · congr 2
        have h3 : (n % 128 + 128) % 128 = n % 128 := by omega
        rw [h3, Nat.add_assoc]
        congr 1
        rw [Nat.pow_add, show (2:Nat) ^ 7 = 128 from rfl, ← Nat.mul_assoc, Nat.mul_right_comm,
          ← Nat.add_mul]
        congr 1
        rw [Nat.mul_comm (n / 128) 128]
        exact Nat.mod_add_div n 128
      · rw [Nat.div_lt_iff_lt_mul (by omega)]
        rw [Nat.pow_succ, ← Nat.mul_assoc] at hn
        exact hn

theorem decU32_enc (n : Nat) (rest : Bytes) (h : n < 2 ^ 32) :
    decU32 (encVarint n ++ rest) = some (n, rest) := by
  rw [decU32, takeVarint_enc _ (by omega) _ _ _ _ _ (by simpa using h)]
  simp

theorem decU64_enc (n : Nat) (rest : Bytes) (h : n < 2 ^ 64) :
    decU64 (encVarint n ++ rest) = some (n, rest) := by
  rw [decU64, takeVarint_enc _ (by omega) _ _ _ _ _ (by simpa using h)]
  simp

theorem decB32_enc (v : BitVec 32) (rest : Bytes) :
    decB32 (encB32 v ++ rest) = some (v, rest) := by
  rw [decB32, encB32, decU32_enc _ _ v.isLt]
  simp

theorem decB64_enc (v : BitVec 64) (rest : Bytes) :
    decB64 (encB64 v ++ rest) = some (v, rest) := by
  rw [decB64, encB64, decU64_enc _ _ v.isLt]
  simp

theorem neg_and_one {w : Nat} (v : BitVec w) (i : Nat) (hi : i < w) :
    (-(v &&& 1#w)).getLsbD i = v.getLsbD 0 := by
  have h : v &&& 1#w = if v.getLsbD 0 then 1#w else 0#w := by
    ext j hj
    cases hv : v.getLsbD 0
    · simp only [BitVec.getElem_and, Bool.false_eq_true, if_false, BitVec.getElem_zero,
        BitVec.getElem_one]
      cases j with
      | zero => simp [← BitVec.getLsbD_eq_getElem, hv]
      | succ j => simp
    · simp only [BitVec.getElem_and, if_true, BitVec.getElem_one]
      cases j with
      | zero => simp [← BitVec.getLsbD_eq_getElem, hv]
      | succ j => simp
  rw [h]
  cases hv : v.getLsbD 0
  · simp
  · simp only [if_true]
    rw [BitVec.neg_one_eq_allOnes]
    simp [hi]

theorem unzigzag_zigzag {w : Nat} (v : BitVec w) : unzigzag (zigzag v) = v := by
  apply BitVec.eq_of_getLsbD_eq
  intro i hi
  simp only [unzigzag]
  rw [BitVec.getLsbD_xor, neg_and_one _ _ hi]
  have hz : ∀ j, j < w → (zigzag v).getLsbD j = ((decide (1 ≤ j) && v.getLsbD (j - 1)) ^^ v.msb) := by
    intro j hj
    simp only [zigzag, BitVec.getLsbD_xor, BitVec.getLsbD_shiftLeft, BitVec.getLsbD_sshiftRight]
    have : ¬ w ≤ j := by omega
    have h2 : (if w - 1 + j < w then v.getLsbD (w - 1 + j) else v.msb) = v.msb := by
      split
      · have : j = 0 := by omega
        subst this
        rw [BitVec.msb_eq_getLsbD_last]; rfl
      · rfl
    rw [h2]
    by_cases h1 : j = 0
    · subst h1; simp; intro _; omega
    · have h3 : 1 ≤ j := by omega
      have h4 : ¬ j < 1 := by omega
      simp [hj, this, h3, h4]
  rw [hz 0 (by omega)]
  simp only [BitVec.getLsbD_ushiftRight]
  by_cases hlast : 1 + i < w
  · rw [hz _ hlast]
    simp [Nat.add_sub_cancel_left]
  · have hi2 : i = w - 1 := by omega
    rw [BitVec.getLsbD_of_ge _ _ (by omega)]
    subst hi2
    simp [BitVec.msb_eq_getLsbD_last]

theorem decI32_enc (v : BitVec 32) (rest : Bytes) :
    decI32 (encI32 v ++ rest) = some (v, rest) := by
  rw [decI32, encI32, decB32_enc]; simp [unzigzag_zigzag]

theorem decI64_enc (v : BitVec 64) (rest : Bytes) :
    decI64 (encI64 v ++ rest) = some (v, rest) := by
  rw [decI64, encI64, decB64_enc]; simp [unzigzag_zigzag]

theorem decBool_enc (b : Bool) (rest : Bytes) : decBool (encBool b ++ rest) = some (b, rest) := by
  cases b <;> simp [decBool, encBool]

theorem decBytes_enc (b rest : Bytes) (h : b.length < 2 ^ 64) :
    decBytes (encBytes b ++ rest) = some (b, rest) := by
  rw [decBytes, encBytes, List.append_assoc, decU64_enc _ _ h]
  simp

theorem utf8_eq (s : Str) : ByteArray.mk (utf8 s).toArray = s.utf8Encode := by
  have : s.utf8Encode = (s.flatMap String.utf8EncodeChar).toByteArray := rfl
  rw [this]
  apply ByteArray.ext
  rw [List.data_toByteArray]; rfl

theorem fromUtf8_utf8 (s : Str) : fromUtf8 (utf8 s) = some s := by
  simp [fromUtf8, utf8_eq]

theorem utf8_of_fromUtf8 {b : Bytes} {s : Str} (h : fromUtf8 b = some s) : utf8 s = b := by
  simp only [fromUtf8, Option.map_eq_some_iff] at h
  obtain ⟨a, h1, rfl⟩ := h
  have h2 : (ByteArray.mk b.toArray).utf8Decode?.isSome := by simp [h1]
  have h3 := ByteArray.utf8Encode_get_utf8Decode? (h := h2)
  simp only [h1, Option.get_some] at h3
  rw [← utf8_eq] at h3
  simpa using h3

theorem decStr_enc (s : Str) (rest : Bytes) (h : (utf8 s).length < 2 ^ 64) :
    decStr (encStr s ++ rest) = some (s, rest) := by
  rw [decStr, encStr, decBytes_enc _ _ h]
  simp [fromUtf8_utf8]

theorem decOption_enc {α : Type} {e : α → Bytes} {d : Parser α} (o : Option α) (rest : Bytes)
    (h : ∀ a, o = some a → d (e a ++ rest) = some (a, rest)) :
    decOption d (encOption e o ++ rest) = some (o, rest) := by
  cases o with
  | none => simp [decOption, encOption]
  | some a => simp [decOption, encOption, h]

theorem decAcc_enc (a : Acc) (rest : Bytes) : decAcc (encAcc a ++ rest) = some (a, rest) := by
  simp [decAcc, encAcc, List.append_assoc, decBool_enc]

theorem decPair_enc (a : Bool × Bool) (rest : Bytes) :
    decPair (encPair a ++ rest) = some (a, rest) := by
  simp [decPair, encPair, List.append_assoc, decBool_enc]

/-- Inserting distinct new keys one by one. -/
theorem decEntries_enc {α : Type} {e : α → Bytes} {d : Parser α}
    (hd : ∀ a rest, d (e a ++ rest) = some (a, rest)) (m acc : AMap α) (rest : Bytes)
    (hlen : ∀ k ∈ m, (utf8 k.1).length < 2 ^ 64) :
    decEntries d m.length acc ((m.flatMap fun kv => encStr kv.1 ++ e kv.2) ++ rest)
      = some (m.foldl (fun acc kv => AMap.insert acc kv.1 kv.2) acc, rest) := by
  induction m generalizing acc with
  | nil => simp [decEntries]
  | cons kv m ih =>
    obtain ⟨k, v⟩ := kv
    simp only [List.length_cons, decEntries, List.flatMap_cons, List.append_assoc]
    rw [decStr_enc _ _ (hlen _ (List.mem_cons_self))]
    simp only [Option.bind_eq_bind, Option.bind_some, hd]
    rw [ih _ (fun k hk => hlen k (List.mem_cons_of_mem _ hk))]
    simp

theorem foldl_insert {α : Type} (m acc : AMap α) (hnd : (m.map Prod.fst).Nodup)
    (hdis : ∀ k ∈ m.map Prod.fst, k ∉ acc.map Prod.fst) :
    m.foldl (fun acc kv => AMap.insert acc kv.1 kv.2) acc = m.reverse ++ acc := by
  induction m generalizing acc with
  | nil => simp
  | cons kv m ih =>
    obtain ⟨k, v⟩ := kv
    simp only [List.map_cons, List.nodup_cons] at hnd
    simp only [List.foldl_cons]
    have hk : k ∉ acc.map Prod.fst := hdis k (by simp)
    have hf : AMap.insert acc k v = (k, v) :: acc := by
      simp only [AMap.insert, List.cons.injEq, true_and, List.filter_eq_self]
      intro e he
      simp only [ne_eq, decide_not, Bool.not_eq_eq_eq_not, Bool.not_true, decide_eq_false_iff_not]
      rintro rfl
      exact hk (List.mem_map_of_mem he)
    rw [hf, ih _ hnd.2]
    · simp
    · intro k' hk' hc
      simp only [List.map_cons, List.mem_cons] at hc
      rcases hc with rfl | hc
      · exact hnd.1 hk'
      · exact hdis k' (by simp [hk']) hc

/-- A map all of whose keys fit. -/
def AMap.Fits {α : Type} (m : AMap α) : Prop :=
  m.length < 2 ^ 64 ∧ ∀ k ∈ m, (utf8 k.1).length < 2 ^ 64

theorem decMap_enc {α : Type} {e : α → Bytes} {d : Parser α}
    (hd : ∀ a rest, d (e a ++ rest) = some (a, rest)) (m : AMap α) (rest : Bytes)
    (hf : AMap.Fits m) (hnd : (m.map Prod.fst).Nodup) :
    decMap d (encMap e m ++ rest) = some (m.reverse, rest) := by
  simp only [decMap, encMap, List.append_assoc]
  rw [decU64_enc _ _ hf.1]
  simp only [Option.bind_eq_bind, Option.bind_some]
  rw [decEntries_enc hd _ _ _ hf.2, foldl_insert _ _ hnd (by simp)]
  simp

theorem decArgs_enc (a : Args6) (rest : Bytes) : decArgs (encArgs a ++ rest) = some (a, rest) := by
  simp [decArgs, encArgs, List.append_assoc, decI64_enc]

/-- The only restriction on a request: a string shorter than 2^64 bytes, which
every Rust string is. -/
def IPCRequest.Fits : IPCRequest → Prop
  | .openFile path _ => (utf8 path).length < 2 ^ 64
  | _ => True

theorem decRequest_enc (m : IPCRequest) (rest : Bytes) (h : m.Fits) :
    decRequest (encRequest m ++ rest) = some (m, rest) := by
  cases m with
  | initialization =>
    simp only [decRequest, encRequest]
    rw [decU32_enc _ _ (by omega)]; rfl
  | openFile path flags =>
    simp only [decRequest, encRequest, List.append_assoc]
    rw [decU32_enc _ _ (by omega)]
    simp only [Option.bind_eq_bind, Option.bind_some]
    rw [decStr_enc _ _ h]
    simp [decI32_enc]
  | syscall nb args ip =>
    simp only [decRequest, encRequest, List.append_assoc]
    rw [decU32_enc _ _ (by omega)]
    simp [decI64_enc, decArgs_enc]

/-! ### What a decoder can produce -/

/-- A decoder consumes a prefix of its input. -/
def Parser.Suffix {α : Type} (d : Parser α) : Prop := ∀ bs a r, d bs = some (a, r) → r <:+ bs

theorem takeVarint_suffix (lastMax k shift acc : Nat) :
    Parser.Suffix (takeVarint lastMax k shift acc) := by
  intro bs a r h
  induction k generalizing shift acc bs with
  | zero => simp [takeVarint] at h
  | succ k ih =>
    cases bs with
    | nil => simp [takeVarint] at h
    | cons b bs =>
      simp only [takeVarint] at h
      split at h
      · split at h
        · cases h
        · simp only [Option.some.injEq, Prod.mk.injEq] at h
          rw [← h.2]; exact List.suffix_cons _ _
      · exact (ih _ _ _ h).trans (List.suffix_cons _ _)

theorem decU32_suffix : Parser.Suffix decU32 := takeVarint_suffix _ _ _ _
theorem decU64_suffix : Parser.Suffix decU64 := takeVarint_suffix _ _ _ _

theorem Parser.Suffix.map {α β : Type} {d : Parser α} (h : d.Suffix) (f : α → β) :
    Parser.Suffix (fun bs => (d bs).map fun (a, r) => (f a, r)) := by
  intro bs b r hb
  simp only [Option.map_eq_some_iff] at hb
  obtain ⟨⟨a, r'⟩, h1, h2⟩ := hb
  simp only [Prod.mk.injEq] at h2
  rw [← h2.2]; exact h _ _ _ h1

theorem Parser.Suffix.bind {α β : Type} {d : Parser α} (h : d.Suffix) {f : α → Parser β}
    (hf : ∀ a, (f a).Suffix) : Parser.Suffix (fun bs => (d bs).bind fun (a, r) => f a r) := by
  intro bs b r hb
  simp only [Option.bind_eq_some_iff] at hb
  obtain ⟨⟨a, r'⟩, h1, h2⟩ := hb
  exact (hf a _ _ _ h2).trans (h _ _ _ h1)

theorem Parser.suffix_pure {α : Type} (a : α) : Parser.Suffix (fun bs => some (a, bs)) := by
  intro bs b r h
  simp only [Option.some.injEq, Prod.mk.injEq] at h
  rw [← h.2]; exact List.suffix_refl _

theorem Parser.suffix_none {α : Type} : Parser.Suffix (fun _ => none : Parser α) := by
  intro bs b r h; cases h

theorem decI32_suffix : Parser.Suffix decI32 := (decU32_suffix.map _).map _
theorem decI64_suffix : Parser.Suffix decI64 := (decU64_suffix.map _).map _

theorem decBool_suffix : Parser.Suffix decBool := by
  intro bs a r h
  cases bs with
  | nil => simp [decBool] at h
  | cons b bs =>
    simp only [decBool] at h
    split at h
    · cases h; exact List.suffix_cons _ _
    · split at h
      · cases h; exact List.suffix_cons _ _
      · cases h

theorem decBytes_some {bs b r : Bytes} (h : decBytes bs = some (b, r)) :
    ∃ pre, bs = pre ++ b ++ r := by
  simp only [decBytes, Option.bind_eq_some_iff] at h
  obtain ⟨⟨n, r'⟩, h1, h2⟩ := h
  obtain ⟨pre, h3⟩ := decU64_suffix _ _ _ h1
  simp only at h2
  split at h2
  · simp only [Option.some.injEq, Prod.mk.injEq] at h2
    refine ⟨pre, ?_⟩
    rw [← h2.1, ← h2.2, List.append_assoc, List.take_append_drop]
    exact h3.symm
  · cases h2

theorem decBytes_suffix : Parser.Suffix decBytes := by
  intro bs b r h
  obtain ⟨pre, h⟩ := decBytes_some h
  exact ⟨pre ++ b, h.symm⟩

theorem decStr_some {bs r : Bytes} {s : Str} (h : decStr bs = some (s, r)) :
    ∃ pre, bs = pre ++ utf8 s ++ r := by
  simp only [decStr, Option.bind_eq_some_iff, Option.map_eq_some_iff] at h
  obtain ⟨⟨b, r'⟩, h1, s', h2, h3⟩ := h
  simp only [Prod.mk.injEq] at h3
  obtain ⟨rfl, rfl⟩ := h3
  rw [utf8_of_fromUtf8 h2]
  exact decBytes_some h1

theorem decStr_suffix : Parser.Suffix decStr := by
  intro bs b r h
  obtain ⟨pre, h⟩ := decStr_some h
  exact ⟨pre ++ utf8 b, h.symm⟩

theorem decAcc_suffix : Parser.Suffix decAcc :=
  decBool_suffix.bind fun _ => decBool_suffix.bind fun _ => decBool_suffix.bind fun _ =>
    decBool_suffix.bind fun _ => decBool_suffix.bind fun _ => Parser.suffix_pure _

theorem decPair_suffix : Parser.Suffix decPair :=
  decBool_suffix.bind fun _ => decBool_suffix.bind fun _ => Parser.suffix_pure _

theorem decEntries_suffix {α : Type} {d : Parser α} (hd : d.Suffix) (n : Nat) (m : AMap α) :
    Parser.Suffix (decEntries d n m) := by
  induction n generalizing m with
  | zero => exact Parser.suffix_pure m
  | succ n ih => exact decStr_suffix.bind fun k => hd.bind fun v => ih _

theorem decMap_suffix {α : Type} {d : Parser α} (hd : d.Suffix) : Parser.Suffix (decMap d) :=
  decU64_suffix.bind fun n => decEntries_suffix hd n []

/-- Every key of a decoded map was in the input. -/
theorem decEntries_keys {α : Type} {d : Parser α} (hd : d.Suffix) (n : Nat) (m m' : AMap α)
    (bs r : Bytes) (h : decEntries d n m bs = some (m', r)) :
    ∀ k ∈ m'.map Prod.fst, k ∈ m.map Prod.fst ∨ utf8 k <:+: bs := by
  induction n generalizing m bs with
  | zero =>
    simp only [decEntries, Option.some.injEq, Prod.mk.injEq] at h
    intro k hk; rw [← h.1] at hk; exact .inl hk
  | succ n ih =>
    simp only [decEntries, Option.bind_eq_bind, Option.bind_eq_some_iff] at h
    obtain ⟨⟨k0, r1⟩, h1, ⟨v0, r2⟩, h2, h3⟩ := h
    intro k hk
    obtain ⟨pre, hpre⟩ := decStr_some h1
    rcases ih _ _ h3 k hk with h4 | h4
    · simp only [AMap.insert, List.map_cons, List.mem_cons] at h4
      rcases h4 with rfl | h4
      · exact .inr ⟨pre, r1, hpre.symm⟩
      · left
        obtain ⟨e, he, hek⟩ := List.mem_map.1 h4
        exact List.mem_map.2 ⟨e, (List.mem_filter.1 he).1, hek⟩
    · right
      have hs : r2 <:+ bs := (hd _ _ _ h2).trans (decStr_suffix _ _ _ h1)
      exact h4.trans hs.isInfix

theorem decMap_keys {α : Type} {d : Parser α} (hd : d.Suffix) (m : AMap α) (bs r : Bytes)
    (h : decMap d bs = some (m, r)) : ∀ k ∈ m.map Prod.fst, utf8 k <:+: bs := by
  simp only [decMap, Option.bind_eq_bind, Option.bind_eq_some_iff] at h
  obtain ⟨⟨n, r1⟩, h1, h2⟩ := h
  intro k hk
  rcases decEntries_keys hd _ _ _ _ _ h2 k hk with h3 | h3
  · simp at h3
  · exact h3.trans (decU64_suffix _ _ _ h1).isInfix

/-- A decoded map holds at most one entry per key. -/
theorem decEntries_wf {α : Type} {d : Parser α} (n : Nat) (m m' : AMap α) (hm : m.WF)
    (bs r : Bytes) (h : decEntries d n m bs = some (m', r)) : m'.WF := by
  induction n generalizing m bs with
  | zero =>
    simp only [decEntries, Option.some.injEq, Prod.mk.injEq] at h
    rw [← h.1]; exact hm
  | succ n ih =>
    simp only [decEntries, Option.bind_eq_bind, Option.bind_eq_some_iff] at h
    obtain ⟨⟨k0, r1⟩, _, ⟨v0, r2⟩, _, h3⟩ := h
    exact ih _ (AMap.wf_insert hm _ _) _ h3

end Iris
