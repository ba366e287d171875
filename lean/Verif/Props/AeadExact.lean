import Verif.Props.AeadSize
/-!
# What a symmetric key handle answers for messages and authentication data of all lengths: C163

`counted` is the specification of what the code takes for a byte string whose length it keeps in an `int`; `aadOf` (the authentication
data, or 16 zeros without any) is from `Verif.Proof.Sym`.
-/
set_option linter.unusedSimpArgs false
set_option linter.unusedSectionVars false
set_option autoImplicit false
namespace Abe
namespace AeadSize
open Sym

/-- The bytes that are taken into account: as many as the length modulo `2^32`, none if that is not an `int`. -/
def counted (b : Bytes) : Bytes :=
  if b.length % 2 ^ 32 < 2 ^ 31 then b.take (b.length % 2 ^ 32) else []

/-- The three fields of a ciphertext. -/
def threeFields (b64 : Bool) (iv ct tag : Bytes) : Bytes :=
  let z := BS.smartPack (BS.smartPack (BS.smartPack [] iv) ct) tag
  if b64 then B64.encode z else z

theorem counted_length (b : Bytes) (h : b.length % 2 ^ 32 < 2 ^ 31) : (counted b).length = b.length % 2 ^ 32 := by
  unfold counted
  rw [if_pos h, List.length_take]
  exact Nat.min_eq_left (Nat.mod_le _ _)

theorem counted_eq {b : Bytes} (h : b.length < 2 ^ 31) : counted b = b := by
  have hm : b.length % 2 ^ 32 = b.length := by omega
  unfold counted
  rw [hm, if_pos h, List.take_length]

theorem counted_low {b : Bytes} (h : b.length % 2 ^ 32 < 2 ^ 31) : counted b = b.take (b.length % 2 ^ 32) := by
  unfold counted; rw [if_pos h]

theorem counted_high {b : Bytes} (h : ¬ b.length % 2 ^ 32 < 2 ^ 31) : counted b = [] := by
  unfold counted; rw [if_neg h]

theorem handle_ok {g : Gcm} {h : SymHandle} {iv pt ct tag : Bytes} (he : encrypt g h.cipher iv pt = .ok (ct, tag)) :
    handleEncrypt g h iv pt = .ok (threeFields h.b64 iv ct tag) := by
  unfold handleEncrypt
  rw [he]
  rfl

theorem handle_ub {g : Gcm} {h : SymHandle} {iv pt : Bytes} (he : encrypt g h.cipher iv pt = .ub) :
    handleEncrypt g h iv pt = .ub := by
  unfold handleEncrypt
  rw [he]
  rfl

/-- The state after the associated data was given. -/
theorem seen_counted (g : Gcm) (key aad iv : Bytes) (hk : key.length = 32) (hiv : iv ≠ []) :
    (∀ pt, (seen { key := key, aad := aad, aadSet := true }).encrypt g iv pt =
      .ok (g.crypt key iv 0 pt, g.mac key iv (counted aad) (g.crypt key iv 0 pt))) ∧
    (∀ ct tag, tag.length = 16 → (seen { key := key, aad := aad, aadSet := true }).decrypt g iv ct tag =
      .ok (if g.mac key iv (counted aad) ct = tag then some (g.crypt key iv 0 ct) else none)) := by
  have ht : key.take 32 = key := List.take_of_length_le (by omega)
  by_cases hs : aad.length % 2 ^ 32 < 2 ^ 31
  · have hc := counted_low hs
    rw [hc]
    constructor
    · intro pt
      have := AuthEnc.encrypt_eq g key (aad.take (aad.length % 2 ^ 32)) iv pt (by omega) hiv
      rw [ht] at this
      simpa [seen, hs] using this
    · intro ct tag h16
      have := AuthEnc.decrypt_eq g key (aad.take (aad.length % 2 ^ 32)) iv ct tag (by omega) hiv h16
      rw [ht] at this
      simpa [seen, hs] using this
  · have hc := counted_high hs
    have he : seen { key := key, aad := aad, aadSet := true } = { key := key, aad := [], aadSet := false } := by simp [seen, hs]
    rw [hc, he]
    constructor
    · intro pt
      rw [AuthEnc.encrypt, GcmCtx.init_ok _ _ (by simp only; omega) hiv, ht]
      rfl
    · intro ct tag h16
      have := AuthEnc.decrypt_eq g key [] iv ct tag (by omega) hiv h16
      rw [ht] at this
      rw [← this]
      unfold AuthEnc.decrypt
      rw [GcmCtx.init_ok _ _ (by simp only; omega) hiv]
      simp only [Res.ok_bind]
      rw [GcmCtx.setTag_ok _ _ (by omega)]
      rfl

/-- Messages whose length is taken for a negative number. -/
theorem encrypt_neg' (g : Gcm) (a : AuthEnc) (iv pt : Bytes) (hk : a.key.length = 32) (hiv : iv ≠ []) (hs : a.aadSet = true)
    (h : toInt pt.length < 0) (m : Nat) (aad' : Bytes) (hl : aad'.length = m)
    (hu : (∀ c, updAad c a.aad (toInt a.aad.length) none = (some (c.updAad aad').1, (c.updAad aad').2)) ∨
      17 < m ∧ ∀ c, updAad c a.aad (toInt a.aad.length) none = (none, c)) :
    encrypt g a iv pt = if 17 < m then .ub else .ok (List.replicate m 0, g.mac a.key iv aad' []) := by
  have ht : a.key.take 32 = a.key := List.take_of_length_le (by omega)
  unfold encrypt
  obtain ⟨x, hx0⟩ : ∃ x, toInt pt.length = x := ⟨_, rfl⟩
  rw [hx0] at h ⊢
  have hx : x < 16 := by omega
  have hov : ¬ intMax < (if x < 16 then 16 else x) + 1 := by unfold intMax; split <;> omega
  simp only [if_neg hov]
  rw [GcmCtx.init_ok _ _ (by omega) hiv, ht, if_pos hx, Res.ok_bind]
  have h17 : ((16 : Int) + 1).toNat = 17 := by decide
  rcases hu with hu | ⟨h1, hu⟩
  · simp only [hs, if_true, if_pos h, hu]
    rw [h17, List.length_replicate]
    simp only [GcmCtx.updAad, ne_eq, not_true_eq_false, or_false, Bool.false_eq_true, if_false, List.nil_append, hl]
    by_cases h1 : 17 < m
    · rw [if_pos h1, if_pos h1]
    · rw [if_neg h1, if_neg h1, List.take_replicate, Nat.min_eq_left (by omega)]
      rfl
  · simp only [hs, if_true, if_pos h, hu]
    rw [if_pos h1]

theorem encrypt_neg (g : Gcm) (key aad iv pt : Bytes) (hk : key.length = 32) (hiv : iv ≠ [])
    (h : 2 ^ 31 ≤ pt.length % 2 ^ 32) :
    encrypt g { key := key, aad := aad, aadSet := true } iv pt =
      if 17 < aad.length % 2 ^ 32 then .ub
      else .ok (List.replicate (aad.length % 2 ^ 32) 0, g.mac key iv (counted aad) []) := by
  by_cases ha : aad.length % 2 ^ 32 < 2 ^ 31
  · have hl : (aad.take (aad.length % 2 ^ 32)).length = aad.length % 2 ^ 32 := by
      rw [List.length_take]; exact Nat.min_eq_left (Nat.mod_le _ _)
    rw [counted_low ha]
    exact encrypt_neg' g { key := key, aad := aad, aadSet := true } iv pt hk hiv rfl (toInt_neg h) _ _ hl
      (.inl fun c => updAad_low c aad ha none)
  · have h17 : 17 < aad.length % 2 ^ 32 := by omega
    rw [if_pos h17]
    have := encrypt_neg' g { key := key, aad := aad, aadSet := true } iv pt hk hiv rfl (toInt_neg h) 18 (List.replicate 18 0)
      List.length_replicate (.inr ⟨by omega, fun c => updAad_high c aad (Nat.not_lt.mp ha) none⟩)
    rwa [if_pos (by omega)] at this

/-- What encryption answers, for messages and authentication data of all lengths. -/
theorem C163_encrypt (g : Gcm) (key auth : Bytes) (b64 : Bool) (h : SymHandle) (hn : SymHandle.new key auth b64 = .ok h)
    (iv pt : Bytes) (hiv : iv.length = 16) :
    handleEncrypt g h iv pt =
      if pt.length % 2 ^ 32 < 2 ^ 31 - 1 then
        .ok (threeFields b64 iv (g.crypt key iv 0 (counted pt)) (g.mac key iv (counted (aadOf auth)) (g.crypt key iv 0 (counted pt))))
      else if pt.length % 2 ^ 32 = 2 ^ 31 - 1 ∨ 17 < (aadOf auth).length % 2 ^ 32 then .ub
      else .ok (threeFields b64 iv (List.replicate ((aadOf auth).length % 2 ^ 32) 0) (g.mac key iv (counted (aadOf auth)) [])) := by
  obtain ⟨hk, rfl⟩ := new_handle hn
  have hiv0 : iv ≠ [] := by rintro rfl; cases hiv
  have hci := SymHandle.cipher_eq ({ key := key, auth := auth, b64 := b64 } : SymHandle)
  by_cases h1 : pt.length % 2 ^ 32 < 2 ^ 31 - 1
  · rw [if_pos h1]
    refine handle_ok ?_
    rw [hci, C137_encrypt_low g _ iv pt h1, (seen_counted g key (aadOf auth) iv hk hiv0).1, counted_low (b := pt) (by omega)]
  rw [if_neg h1]
  by_cases h2 : pt.length % 2 ^ 32 = 2 ^ 31 - 1
  · rw [if_pos (.inl h2)]
    refine handle_ub ?_
    unfold encrypt
    rw [toInt_low (by omega), h2]
    simp only
    rw [if_pos (by unfold intMax; split <;> omega)]
  have h4 := encrypt_neg g key (aadOf auth) iv pt hk hiv0 (by omega)
  by_cases h3 : 17 < (aadOf auth).length % 2 ^ 32
  · rw [if_pos h3] at h4
    rw [if_pos (.inr h3)]
    exact handle_ub (hci ▸ h4)
  · rw [if_neg h3] at h4
    rw [if_neg (by omega)]
    exact handle_ok (hci ▸ h4)

/-- A ciphertext whose second field is empty has only two fields. -/
theorem handleDecrypt_empty (g : Gcm) (h : SymHandle) (iv tag : Bytes) (hiv : iv ≠ []) (hil : iv.length < 2 ^ 31)
    (ht : tag.length = 16) : handleDecrypt g h (threeFields h.b64 iv [] tag) = .throw .outOfRange := by
  have ht0 : tag ≠ [] := by rintro rfl; cases ht
  unfold handleDecrypt threeFields
  have hz : ∀ z : Bytes, (if h.b64 then B64.decode (if h.b64 then B64.encode z else z)
      else (if h.b64 then B64.encode z else z)) = z := by
    intro z; cases h.b64
    · rfl
    · exact C31_base64_roundtrip z
  simp only [hz]
  rw [BS.smartPack_append (BS.smartPack (BS.smartPack [] iv) []) tag, BS.smartPack_nil,
    BS.smartUnpack_zero _ _ hiv (by omega), Res.ok_bind]
  dsimp only
  rw [← List.append_nil (BS.smartPack [] tag), BS.smartUnpack_at _ _ _ ht0 (by omega), Res.ok_bind]
  dsimp only
  rw [List.append_nil, BS.smartUnpack_end]
  rfl

/-- What decryption answers for three fields, if they fit. -/
theorem handleDecrypt_fields (g : Gcm) (key auth : Bytes) (b64 : Bool) (hk : key.length = 32) (iv ct tag : Bytes) (hiv : iv.length = 16)
    (hcl : ct.length < 2 ^ 31 - 1) (ht : tag.length = 16) (pt : Bytes) :
    handleDecrypt g { key := key, auth := auth, b64 := b64 } (threeFields b64 iv ct tag) = .ok pt ↔
      ct ≠ [] ∧ g.mac key iv (counted (aadOf auth)) ct = tag ∧ pt = g.crypt key iv 0 ct := by
  have hiv0 : iv ≠ [] := by rintro rfl; cases hiv
  by_cases h0 : ct = []
  · subst h0
    have := handleDecrypt_empty g { key := key, auth := auth, b64 := b64 } iv tag hiv0 (by omega) ht
    rw [show threeFields b64 iv [] tag =
      threeFields ({ key := key, auth := auth, b64 := b64 } : SymHandle).b64 iv [] tag from rfl, this]
    constructor
    · intro h; cases h
    · rintro ⟨h, -⟩; exact absurd rfl h
  · have := handleDecrypt_eq g { key := key, auth := auth, b64 := b64 } iv ct tag hiv0 (by omega) h0 hcl ht
    rw [show threeFields b64 iv ct tag = (let z := BS.smartPack (BS.smartPack (BS.smartPack [] iv) ct) tag
      if ({ key := key, auth := auth, b64 := b64 } : SymHandle).b64 then B64.encode z else z) from rfl, this, SymHandle.cipher_eq,
      (seen_counted g key (aadOf auth) iv hk hiv0).2 ct tag ht, Res.ok_bind, asRuntime_ok]
    by_cases hm : g.mac key iv (counted (aadOf auth)) ct = tag
    · rw [if_pos hm]
      constructor
      · intro h; cases h; exact ⟨h0, hm, rfl⟩
      · rintro ⟨-, -, rfl⟩; rfl
    · rw [if_neg hm]
      constructor
      · intro h; cases h
      · rintro ⟨-, h, -⟩; exact absurd h hm

/-- Exactly the messages of 1 to `2^31 - 2` bytes come back, whatever the authentication data is. -/
theorem C163_round_trip (g : Gcm) (key auth : Bytes) (b64 : Bool) (h : SymHandle) (hn : SymHandle.new key auth b64 = .ok h)
    (iv pt : Bytes) (hiv : iv.length = 16) :
    (∃ c, handleEncrypt g h iv pt = .ok c ∧ handleDecrypt g h c = .ok pt) ↔ 0 < pt.length ∧ pt.length < 2 ^ 31 - 1 := by
  have hE := C163_encrypt g key auth b64 h hn iv pt hiv
  obtain ⟨hk, rfl⟩ := new_handle hn
  by_cases h1 : pt.length % 2 ^ 32 < 2 ^ 31 - 1
  · rw [if_pos h1] at hE
    have hcl : (counted pt).length = pt.length % 2 ^ 32 := counted_length pt (by omega)
    have hD := handleDecrypt_fields g key auth b64 hk iv (g.crypt key iv 0 (counted pt))
      (g.mac key iv (counted (aadOf auth)) (g.crypt key iv 0 (counted pt))) hiv (by rw [g.crypt_length, hcl]; exact h1)
      (g.mac_length _ _ _ _) pt
    rw [hE]
    constructor
    · rintro ⟨c, hc, hd⟩
      cases hc
      obtain ⟨e1, -, e2⟩ := hD.mp hd
      rw [g.crypt_crypt] at e2
      rw [ne_eq, g.crypt_eq_nil, ← e2] at e1
      have := congrArg List.length e2
      exact ⟨List.length_pos_iff.mpr e1, by omega⟩
    · rintro ⟨h2, h3⟩
      have hc : counted pt = pt := counted_eq (by omega)
      refine ⟨_, rfl, hD.mpr ⟨?_, rfl, ?_⟩⟩
      · rw [ne_eq, g.crypt_eq_nil, hc]; exact List.length_pos_iff.mp h2
      · rw [g.crypt_crypt, hc]
  · rw [if_neg h1] at hE
    have hbig : 2 ^ 31 - 1 ≤ pt.length := Nat.le_trans (Nat.not_lt.mp h1) (Nat.mod_le _ _)
    constructor
    · rintro ⟨c, hc, hd⟩
      exfalso
      rw [hE] at hc
      by_cases h2 : pt.length % 2 ^ 32 = 2 ^ 31 - 1 ∨ 17 < (aadOf auth).length % 2 ^ 32
      · rw [if_pos h2] at hc; cases hc
      · rw [if_neg h2] at hc
        cases hc
        have hl : (List.replicate ((aadOf auth).length % 2 ^ 32) (0 : UInt8)).length ≤ 17 := by rw [List.length_replicate]; omega
        obtain ⟨-, -, e⟩ := (handleDecrypt_fields g key auth b64 hk iv _ _ hiv (by omega) (g.mac_length _ _ _ _) pt).mp hd
        have := congrArg List.length e
        rw [g.crypt_length] at this
        omega
    · rintro ⟨-, h3⟩; omega

/-- What comes back if something does: the counted part of the message, or, for lengths that are negative as an `int`, at most 17 bytes,
and only if the tag of these bytes is the tag of no bytes. -/
theorem C163_returned (g : Gcm) (key auth : Bytes) (b64 : Bool) (h : SymHandle) (hn : SymHandle.new key auth b64 = .ok h)
    (iv pt c out : Bytes) (hiv : iv.length = 16) (hc : handleEncrypt g h iv pt = .ok c) :
    handleDecrypt g h c = .ok out ↔
      (pt.length % 2 ^ 32 < 2 ^ 31 - 1 ∧ counted pt ≠ [] ∧ out = counted pt) ∨
      (2 ^ 31 ≤ pt.length % 2 ^ 32 ∧ ∃ n, n = (aadOf auth).length % 2 ^ 32 ∧ 0 < n ∧
        g.mac key iv (counted (aadOf auth)) (List.replicate n 0) = g.mac key iv (counted (aadOf auth)) [] ∧
        out = g.crypt key iv 0 (List.replicate n 0)) := by
  have hE := C163_encrypt g key auth b64 h hn iv pt hiv
  obtain ⟨hk, rfl⟩ := new_handle hn
  rw [hc] at hE
  by_cases h1 : pt.length % 2 ^ 32 < 2 ^ 31 - 1
  · rw [if_pos h1] at hE
    cases hE
    have hcl : (counted pt).length = pt.length % 2 ^ 32 := counted_length pt (by omega)
    rw [handleDecrypt_fields g key auth b64 hk iv _ _ hiv (by rw [g.crypt_length, hcl]; exact h1) (g.mac_length _ _ _ _) out,
      g.crypt_crypt, ne_eq, g.crypt_eq_nil]
    constructor
    · rintro ⟨e1, -, e2⟩; exact .inl ⟨h1, e1, e2⟩
    · rintro (⟨-, e1, e2⟩ | ⟨e, -⟩)
      · exact ⟨e1, rfl, e2⟩
      · omega
  · rw [if_neg h1] at hE
    by_cases h2 : pt.length % 2 ^ 32 = 2 ^ 31 - 1 ∨ 17 < (aadOf auth).length % 2 ^ 32
    · rw [if_pos h2] at hE; cases hE
    · rw [if_neg h2] at hE
      cases hE
      have hl : (List.replicate ((aadOf auth).length % 2 ^ 32) (0 : UInt8)).length ≤ 17 := by rw [List.length_replicate]; omega
      rw [handleDecrypt_fields g key auth b64 hk iv _ _ hiv (by omega) (g.mac_length _ _ _ _) out]
      constructor
      · rintro ⟨e1, e2, e3⟩
        refine .inr ⟨by omega, _, rfl, ?_, e2, e3⟩
        have := List.length_pos_iff.mpr e1
        rwa [List.length_replicate] at this
      · rintro (⟨e, -⟩ | ⟨-, n, rfl, e1, e2, e3⟩)
        · exact absurd e h1
        · refine ⟨fun e => ?_, e2, e3⟩
          have := congrArg List.length e
          rw [List.length_replicate, List.length_nil] at this
          omega

example : SymHandle.new (List.replicate 32 7) b!"meta" true = .ok ⟨List.replicate 32 7, b!"meta", true⟩ := rfl
example : counted b!"abc" = b!"abc" := by decide

end AeadSize
end Abe
