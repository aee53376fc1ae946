import Verif.Model.WinMessages
import Verif.Lemmas.Postcard
/-! Helper lemmas about the Windows messages. -/
namespace Iris

/-- Strings shorter than 2^64 bytes, which every Rust string is. -/
def WinIPCRequest.Fits : WinIPCRequest → Prop
  | .initialization => True
  | .ntCreateFile _ path _ _ _ _ _ ea => (utf8 path).length < 2 ^ 64 ∧ ea.length < 2 ^ 64
  | .ntCreateKey _ path _ cls _ _ => (utf8 path).length < 2 ^ 64 ∧ ∀ c, cls = some c → (utf8 c).length < 2 ^ 64

theorem decWinRequest_enc (m : WinIPCRequest) (rest : Bytes) (h : m.Fits) :
    decWinRequest (encWinRequest m ++ rest) = some (m, rest) := by
  cases m with
  | initialization =>
    simp only [decWinRequest, encWinRequest]
    rw [decU32_enc _ _ (by omega)]; rfl
  | ntCreateFile access path allocation attributes share disposition options ea =>
    simp only [decWinRequest, encWinRequest, List.append_assoc]
    rw [decU32_enc _ _ (by omega)]
    simp only [Option.bind_eq_bind, Option.bind_some, decB32_enc]
    rw [decStr_enc _ _ h.1]
    simp only [Option.bind_some, decI64_enc, decB32_enc]
    rw [decBytes_enc _ _ h.2]
    rfl
  | ntCreateKey access path titleIndex cls options create =>
    simp only [decWinRequest, encWinRequest, List.append_assoc]
    rw [decU32_enc _ _ (by omega)]
    simp only [Option.bind_eq_bind, Option.bind_some, decB32_enc]
    rw [decStr_enc _ _ h.1]
    simp only [Option.bind_some, decB32_enc]
    have : decOption decStr (encOption encStr cls ++ (encB32 options ++ (encBool create ++ rest))) =
        some (cls, encB32 options ++ (encBool create ++ rest)) := by
      cases cls with
      | none => rfl
      | some c =>
        simp only [encOption, List.cons_append, decOption]
        rw [decStr_enc _ _ (h.2 c rfl)]
        simp
    rw [this]
    simp [decB32_enc, decBool_enc]

theorem decHandle_enc (v : Option (BitVec 64)) (rest : Bytes) :
    decOption decB64 (encOption encB64 v ++ rest) = some (v, rest) := by
  cases v with
  | none => rfl
  | some w =>
    simp only [encOption, List.cons_append, decOption]
    rw [decB64_enc]
    simp

theorem winUnwrap_of {α : Type} (dec : Parser α) (enc : Bytes) (m : α) (v : Option (BitVec 64)) (rest : Bytes)
    (h : ∀ rest, dec (enc ++ rest) = some (m, rest)) :
    winUnwrap dec (enc ++ encOption encB64 v ++ rest) = some (m, v) := by
  simp only [winUnwrap, deserialize, List.append_assoc, h, Option.bind_eq_bind, Option.bind_some, decHandle_enc]
  rfl

theorem winWrap_some {enc bs : Bytes} {v : Option (BitVec 64)} (h : winWrap enc v = some bs) :
    bs = enc ++ encOption encB64 v ∧ bs.length ≤ 65536 := by
  simp only [winWrap, serialize] at h
  split at h
  · rename_i hle
    simp only [Option.some.injEq] at h
    subst h
    exact ⟨rfl, by simpa [IPC_MESSAGE_MAX_SIZE] using hle⟩
  · cases h

theorem win_fits_of_send {m : WinIPCRequest} {v : Option (BitVec 64)} {bs : Bytes}
    (h : winWrap (encWinRequest m) v = some bs) : m.Fits := by
  obtain ⟨rfl, hle⟩ := winWrap_some h
  simp only [List.length_append] at hle
  cases m with
  | initialization => trivial
  | ntCreateFile access path allocation attributes share disposition options ea =>
    simp only [encWinRequest, encStr, encBytes, List.length_append] at hle
    exact ⟨by omega, by omega⟩
  | ntCreateKey access path titleIndex cls options create =>
    simp only [encWinRequest, encStr, encBytes, List.length_append] at hle
    refine ⟨by omega, ?_⟩
    rintro c rfl
    simp only [encOption, encStr, encBytes, List.length_cons, List.length_append] at hle
    omega

/-! ### Policies -/

theorem encMap_fits {α : Type} (e : α → Bytes) (m : AMap α) (hle : (encMap e m).length ≤ 65536) : AMap.Fits m := by
  simp only [encMap, List.length_append] at hle
  have hkey : ∀ kv ∈ m, (utf8 kv.1).length + 1 ≤ (encStr kv.1 ++ e kv.2).length := by
    intro kv _
    have := List.length_pos_iff.2 (encVarint_ne_nil (utf8 kv.1).length)
    simp only [encStr, encBytes, List.length_append]
    omega
  have hsum : ∀ l : AMap α, (∀ kv ∈ l, (utf8 kv.1).length + 1 ≤ (encStr kv.1 ++ e kv.2).length) →
      l.length ≤ (l.flatMap fun kv => encStr kv.1 ++ e kv.2).length ∧
      ∀ kv ∈ l, (utf8 kv.1).length ≤ (l.flatMap fun kv => encStr kv.1 ++ e kv.2).length := by
    intro l hl
    induction l with
    | nil => simp
    | cons x l ih =>
      have h1 := hl x (by simp)
      have h2 := ih (fun kv hkv => hl kv (by simp [hkv]))
      simp only [List.flatMap_cons, List.length_append, List.length_cons, List.mem_cons]
      simp only [List.length_append] at h1
      refine ⟨by omega, ?_⟩
      rintro kv (rfl | hkv)
      · omega
      · have := h2.2 kv hkv; omega
  have h3 := hsum m hkey
  refine ⟨by omega, fun kv hkv => ?_⟩
  have := h3.2 kv hkv; omega

theorem AMap.get_reverse {α : Type} (m : AMap α) (hm : (m.map Prod.fst).Nodup) (k : Str) :
    AMap.get m.reverse k = AMap.get m k := by
  have hw : AMap.WF m.reverse := by
    simp only [AMap.WF, List.map_reverse]
    exact List.pairwise_reverse.2 (hm.imp Ne.symm)
  cases hg : AMap.get m k with
  | some v => exact AMap.get_of_mem hw (List.mem_reverse.2 (AMap.mem_of_get hg))
  | none =>
    cases hg2 : AMap.get m.reverse k with
    | none => rfl
    | some v =>
      rw [AMap.get_of_mem hm (List.mem_reverse.1 (AMap.mem_of_get hg2))] at hg
      cases hg

theorem AMap.eq_reverse {α : Type} [DecidableEq α] (m : AMap α) (hm : (m.map Prod.fst).Nodup) :
    AMap.eq m.reverse m = true := by
  simp only [AMap.eq, List.length_reverse, BEq.rfl, Bool.true_and, List.all_eq_true, List.mem_reverse,
    decide_eq_true_eq]
  intro kv hkv
  exact AMap.get_of_mem hm hkv

/-- A policy after encoding and decoding. -/
def Policy.decoded (p : Policy) : Policy := ⟨[], [], p.files.reverse, p.dirs.reverse, p.regkeys.reverse, p.auditOnly⟩

theorem decPolicy_enc (p : Policy) (rest : Bytes) (hf : (p.files.map Prod.fst).Nodup)
    (hd : (p.dirs.map Prod.fst).Nodup) (hk : (p.regkeys.map Prod.fst).Nodup)
    (hle : (encPolicy p).length ≤ 65536) : decPolicy (encPolicy p ++ rest) = some (p.decoded, rest) := by
  simp only [encPolicy, List.length_append] at hle
  simp only [encPolicy, decPolicy, List.append_assoc]
  rw [decMap_enc decAcc_enc _ _ (encMap_fits encAcc _ (by omega)) hf]
  simp only [Option.bind_eq_bind, Option.bind_some]
  rw [decMap_enc decAcc_enc _ _ (encMap_fits encAcc _ (by omega)) hd]
  simp only [Option.bind_some]
  rw [decMap_enc decPair_enc _ _ (encMap_fits encPair _ (by omega)) hk]
  simp only [Option.bind_some]
  rw [decBool_enc]
  rfl

theorem regWalk_congr {m m' : AMap (Bool × Bool)} (h : ∀ k, AMap.get m k = AMap.get m' k) (acc : Bool × Bool)
    (cur : Str) : regWalk m acc cur = regWalk m' acc cur := by
  fun_induction regWalk m acc cur with
  | case1 acc cur hb => rw [regWalk, if_pos hb]
  | case2 acc cur hb acc' parent hp ih =>
    conv => rhs; rw [regWalk, if_neg hb]
    simp only [← h]
    split
    · rename_i q hq
      rw [hp] at hq; cases hq
      exact ih
    · rename_i hq; rw [hp] at hq; cases hq
  | case3 acc cur hb acc' hp =>
    rw [regWalk, if_neg hb]
    simp only [← h]
    split
    · rename_i q hq; rw [hp] at hq; cases hq
    · rfl

theorem decoded_evaluate (debug : Bool) (p : Policy) (hf : (p.files.map Prod.fst).Nodup)
    (hd : (p.dirs.map Prod.fst).Nodup) (hk : (p.regkeys.map Prod.fst).Nodup) (q : WinRequest) :
    (p.decoded.winEvaluate debug q).1 = (p.winEvaluate debug q).1 := by
  have ha : ∀ path, p.decoded.allowedAccess winSep path = p.allowedAccess winSep path := fun path =>
    allowedAccess_congr (p := p.decoded) (q := p) (AMap.get_reverse _ hf) (AMap.get_reverse _ hd) ..
  have hr : ∀ path, p.decoded.regAllowedAccess path = p.regAllowedAccess path := fun path =>
    regWalk_congr (AMap.get_reverse _ hk) _ _
  cases q <;>
    simp only [Policy.winEvaluate, Policy.winCheckFileOpen, Policy.winCheckRegKeyOpen, ha, hr] <;> rfl

end Iris
