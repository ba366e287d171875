import Verif.Model.AeadSize
import Verif.Props.Sym
/-!
# Lengths in authenticated encryption (C137)
-/
set_option linter.unusedSimpArgs false
set_option linter.unusedSectionVars false
set_option autoImplicit false
namespace Abe
namespace AeadSize
open Sym

theorem toInt_low {n : Nat} (h : n % 2 ^ 32 < 2 ^ 31) : toInt n = ((n % 2 ^ 32 : Nat) : Int) := by
  unfold toInt Int.bmod
  rw [if_pos (by omega)]
  omega

theorem toInt_high {n : Nat} (h : 2 ^ 31 ≤ n % 2 ^ 32) : toInt n = ((n % 2 ^ 32 : Nat) : Int) - 2 ^ 32 := by
  unfold toInt Int.bmod
  rw [if_neg (by omega)]
  omega

theorem toInt_small {n : Nat} (h : n < 2 ^ 31) : toInt n = n := by
  rw [toInt_low (by omega)]; omega

/-- The state when the data comes: associated data as far as its length, reduced, is not negative. -/
theorem updAad_low (c : GcmCtx) (aad : Bytes) (h : aad.length % 2 ^ 32 < 2 ^ 31) (len : Option Nat) :
    updAad c aad (toInt aad.length) len =
      (some (c.updAad (aad.take (aad.length % 2 ^ 32))).1, (c.updAad (aad.take (aad.length % 2 ^ 32))).2) := by
  rw [toInt_low h]
  unfold updAad
  rw [if_neg (by omega)]
  rfl

theorem updAad_high (c : GcmCtx) (aad : Bytes) (h : 2 ^ 31 ≤ aad.length % 2 ^ 32) (len : Option Nat) :
    updAad c aad (toInt aad.length) len = (len, c) := by
  rw [toInt_high h]
  unfold updAad
  rw [if_pos (by omega)]

/-- The associated data that is authenticated. -/
def seen (a : AuthEnc) : AuthEnc :=
  { a with
    aad := if a.aad.length % 2 ^ 32 < 2 ^ 31 then a.aad.take (a.aad.length % 2 ^ 32) else []
    aadSet := a.aadSet && decide (a.aad.length % 2 ^ 32 < 2 ^ 31) }

theorem aad_state (a : AuthEnc) (c : GcmCtx) :
    (if a.aadSet then updAad c a.aad (toInt a.aad.length) none else (none, c)).2 =
      if (seen a).aadSet then (c.updAad (seen a).aad).2 else c := by
  by_cases h : a.aad.length % 2 ^ 32 < 2 ^ 31
  · rw [updAad_low c _ h]
    cases hs : a.aadSet <;> simp [seen, h, hs]
  · rw [updAad_high c _ (by omega)]
    cases hs : a.aadSet <;> simp [seen, h, hs]

theorem upd_length (g : Gcm) (c : GcmCtx) (pt : Bytes) : (c.updEnc g pt).1.length ≤ pt.length := by
  unfold GcmCtx.updEnc
  split
  · exact Nat.zero_le _
  · exact Nat.le_of_eq (g.crypt_length _ _ _ _)

theorem upd_length' (g : Gcm) (c : GcmCtx) (pt : Bytes) : (c.updDec g pt).1.length ≤ pt.length := by
  unfold GcmCtx.updDec
  split
  · exact Nat.zero_le _
  · exact Nat.le_of_eq (g.crypt_length _ _ _ _)

/-- **C137** What encryption does with a message whose length, modulo `2^32`, is below `2^31 - 1`: it encrypts as many
bytes as the remainder says, with the associated data shortened in the same way. -/
theorem C137_encrypt_low (g : Gcm) (a : AuthEnc) (iv pt : Bytes) (h : pt.length % 2 ^ 32 < 2 ^ 31 - 1) :
    encrypt g a iv pt = (seen a).encrypt g iv (pt.take (pt.length % 2 ^ 32)) := by
  unfold encrypt AuthEnc.encrypt
  rw [toInt_low (by omega)]
  have hk : (seen a).key = a.key := rfl
  rw [hk]
  generalize hn : pt.length % 2 ^ 32 = n at h ⊢
  have hov : ¬ intMax < (if (n : Int) < 16 then 16 else (n : Int)) + 1 := by unfold intMax; split <;> omega
  simp only [if_neg hov]
  cases hi : GcmCtx.init a.key iv with
  | throw e => rfl
  | ub => rfl
  | abort => rfl
  | ok c =>
    simp only [Res.ok_bind]
    have hs := aad_state a c
    generalize (if a.aadSet then updAad c a.aad (toInt a.aad.length) none else (none, c)) = st at hs ⊢
    obtain ⟨len, c'⟩ := st
    simp only at hs
    subst hs
    rw [if_neg (by omega)]
    simp only [Int.toNat_natCast]
    generalize (if (seen a).aadSet then (c.updAad (seen a).aad).2 else c) = c2
    have hl := upd_length g c2 (pt.take n)
    generalize c2.updEnc g (pt.take n) = r at hl ⊢
    rw [if_neg (by simp), List.take_left]

/-- **C137** What decryption does with a ciphertext whose length, modulo `2^32`, is below `2^31 - 1`. -/
theorem C137_decrypt_low (g : Gcm) (a : AuthEnc) (iv ct tag : Bytes) (hiv : iv ≠ []) (hil : iv.length < 2 ^ 31)
    (ht : tag.length = 16) (h : ct.length % 2 ^ 32 < 2 ^ 31 - 1) :
    decrypt g a iv ct tag = (seen a).decrypt g iv (ct.take (ct.length % 2 ^ 32)) tag := by
  have hpos : 0 < iv.length := List.length_pos_iff.mpr hiv
  unfold decrypt AuthEnc.decrypt
  rw [toInt_low (n := ct.length) (by omega), toInt_small (n := tag.length) (by omega), toInt_small hil]
  have hk : (seen a).key = a.key := rfl
  rw [hk, if_neg (by simp [ht]), if_neg (by simp [ht, aesBlock])]
  have hinit : init a.key iv iv.length = GcmCtx.init a.key iv := by
    unfold init
    rw [if_neg (by omega), Int.toNat_natCast, List.take_length]
  rw [hinit, List.take_of_length_le (l := tag) (i := 16) (by omega)]
  generalize hn : ct.length % 2 ^ 32 = n at h ⊢
  cases hi : GcmCtx.init a.key iv with
  | throw e => rfl
  | ub => rfl
  | abort => rfl
  | ok c =>
    simp only [Res.ok_bind]
    have hs := aad_state a (c.setTag tag)
    generalize (if a.aadSet then updAad (c.setTag tag) a.aad (toInt a.aad.length) none else (none, c.setTag tag)) = st at hs ⊢
    obtain ⟨len, c'⟩ := st
    simp only at hs
    subst hs
    rw [if_neg (by unfold intMax; omega), if_neg (by omega), if_neg (by omega)]
    simp only [Int.toNat_natCast]
    generalize (if (seen a).aadSet then ((c.setTag tag).updAad (seen a).aad).2 else c.setTag tag) = c2
    have hl := upd_length' g c2 (ct.take n)
    generalize c2.updDec g (ct.take n) = r at hl ⊢
    rw [if_neg (by simp), List.take_left]

theorem seen_eq {a : AuthEnc} (h : a.aad.length < 2 ^ 31) : seen a = a := by
  have h1 : a.aad.length % 2 ^ 32 = a.aad.length := by omega
  unfold seen
  rw [h1]
  simp [h]

/-- **C137 (partial)** For messages below 2 GiB (less one byte) and associated data below 2 GiB, the conversions change
nothing. Missing: longer ones; for these see the violations. -/
theorem C137_fits_partial (g : Gcm) (a : AuthEnc) (ha : a.aad.length < 2 ^ 31) (iv : Bytes) :
    (∀ pt : Bytes, pt.length < 2 ^ 31 - 1 → encrypt g a iv pt = a.encrypt g iv pt) ∧
    (∀ ct tag : Bytes, iv ≠ [] → iv.length < 2 ^ 31 → tag.length = 16 → ct.length < 2 ^ 31 - 1 →
      decrypt g a iv ct tag = a.decrypt g iv ct tag) := by
  constructor
  · intro pt h
    have h1 : pt.length % 2 ^ 32 = pt.length := by omega
    rw [C137_encrypt_low g a iv pt (by omega), seen_eq ha, h1, List.take_length]
  · intro ct tag h2 h3 h4 h
    have h1 : ct.length % 2 ^ 32 = ct.length := by omega
    rw [C137_decrypt_low g a iv ct tag h2 h3 h4 (by omega), seen_eq ha, h1, List.take_length]

theorem aadOf_length (auth : Bytes) : (aadOf auth).length = if auth = [] then 16 else auth.length := by
  unfold aadOf; split <;> simp

theorem cipher_seen {h : SymHandle} (ha : h.auth.length < 2 ^ 31) : seen h.cipher = h.cipher := by
  apply seen_eq
  rw [SymHandle.cipher_eq]
  simp only [aadOf_length]
  split <;> omega

/-- A handle decrypts with the lengths of the code as with exact ones, when the ciphertext fits. -/
theorem handleDecrypt_eq (g : Gcm) (h : SymHandle) (iv ct tag : Bytes) (hiv : iv ≠ []) (hil : iv.length < 2 ^ 31)
    (hc0 : ct ≠ []) (hcl : ct.length < 2 ^ 31 - 1) (ht : tag.length = 16) :
    handleDecrypt g h (let z := BS.smartPack (BS.smartPack (BS.smartPack [] iv) ct) tag
      if h.b64 then B64.encode z else z) =
    asRuntime (do
      let r ← (seen h.cipher).decrypt g iv ct tag
      match r with
      | none => .throw .runtimeError
      | some pt => .ok pt) := by
  have ht0 : tag ≠ [] := by rintro rfl; cases ht
  unfold handleDecrypt
  have hz : ∀ z : Bytes, (if h.b64 then B64.decode (if h.b64 then B64.encode z else z)
      else (if h.b64 then B64.encode z else z)) = z := by
    intro z; cases h.b64
    · rfl
    · exact C31_base64_roundtrip z
  simp only [hz]
  rw [BS.smartPack_append (BS.smartPack (BS.smartPack [] iv) ct) tag, BS.smartPack_append (BS.smartPack [] iv) ct, List.append_assoc]
  rw [BS.smartUnpack_zero _ _ hiv (by omega), Res.ok_bind]
  dsimp only
  rw [BS.smartUnpack_at _ _ _ hc0 (by omega), Res.ok_bind]
  dsimp only
  rw [← List.append_nil (BS.smartPack [] tag), ← List.append_assoc,
    BS.smartUnpack_at _ _ _ ht0 (by omega), Res.ok_bind]
  dsimp only
  have h1 : ct.length % 2 ^ 32 = ct.length := by omega
  rw [C137_decrypt_low g _ iv ct tag hiv hil ht (by omega), h1, List.take_length]
  rfl

/-- The associated data that a handle authenticates. -/
theorem seen_cipher (h : SymHandle) (g : Gcm) (iv : Bytes) (hk : h.key.length = 32) (hiv : iv ≠ []) :
    ∃ aad, (∀ pt, (seen h.cipher).encrypt g iv pt = .ok (g.crypt h.key iv 0 pt, g.mac h.key iv aad (g.crypt h.key iv 0 pt))) ∧
      (∀ ct tag, tag.length = 16 → (seen h.cipher).decrypt g iv ct tag =
        .ok (if g.mac h.key iv aad ct = tag then some (g.crypt h.key iv 0 ct) else none)) ∧
      (h.auth.length < 2 ^ 31 → aad = aadOf h.auth) ∧ (2 ^ 31 ≤ h.auth.length % 2 ^ 32 → aad = []) := by
  have ht : h.key.take 32 = h.key := List.take_of_length_le (by omega)
  rw [SymHandle.cipher_eq]
  by_cases hs : (aadOf h.auth).length % 2 ^ 32 < 2 ^ 31
  · refine ⟨(aadOf h.auth).take ((aadOf h.auth).length % 2 ^ 32), ?_, ?_, ?_, ?_⟩
    · intro pt
      have := AuthEnc.encrypt_eq g h.key ((aadOf h.auth).take ((aadOf h.auth).length % 2 ^ 32)) iv pt (by omega) hiv
      rw [ht] at this
      simpa [seen, hs] using this
    · intro ct tag h16
      have := AuthEnc.decrypt_eq g h.key ((aadOf h.auth).take ((aadOf h.auth).length % 2 ^ 32)) iv ct tag (by omega) hiv h16
      rw [ht] at this
      simpa [seen, hs] using this
    · intro hl
      have : (aadOf h.auth).length % 2 ^ 32 = (aadOf h.auth).length := by
        rw [aadOf_length]; split <;> omega
      rw [this, List.take_length]
    · intro hl
      rw [aadOf_length] at hs
      split at hs
      · rename_i e; rw [e] at hl; simp at hl
      · omega
  · have hno : ∀ x : AuthEnc, x = { key := h.key, aad := [], aadSet := false } → ∀ pt, x.encrypt g iv pt =
        .ok (g.crypt h.key iv 0 pt, g.mac h.key iv [] (g.crypt h.key iv 0 pt)) := by
      rintro _ rfl pt
      rw [AuthEnc.encrypt, GcmCtx.init_ok _ _ (by simp only; omega) hiv, ht]
      rfl
    have hno' : ∀ x : AuthEnc, x = { key := h.key, aad := [], aadSet := false } → ∀ ct tag, tag.length = 16 → x.decrypt g iv ct tag =
        .ok (if g.mac h.key iv [] ct = tag then some (g.crypt h.key iv 0 ct) else none) := by
      rintro _ rfl ct tag h16
      have := AuthEnc.decrypt_eq g h.key [] iv ct tag (by omega) hiv h16
      rw [ht] at this
      rw [← this]
      unfold AuthEnc.decrypt
      rw [GcmCtx.init_ok _ _ (by simp only; omega) hiv]
      simp only [Res.ok_bind]
      rw [GcmCtx.setTag_ok _ _ (by omega)]
      rfl
    refine ⟨[], hno _ (by simp [seen, hs]), hno' _ (by simp [seen, hs]), fun hl => ?_, fun _ => rfl⟩
    rw [aadOf_length] at hs
    split at hs <;> omega

/-- **C137 (partial)** Round trip of handles with the lengths of the code: messages of 1 to `2^31 - 2` bytes. -/
theorem C137_round_trip_partial (g : Gcm) (key auth : Bytes) (b64 : Bool) (h : SymHandle)
    (hn : SymHandle.new key auth b64 = .ok h) (iv pt : Bytes) (hiv : iv.length = 16) (hpt : pt ≠ []) (hlen : pt.length < 2 ^ 31 - 1) :
    ∃ c, handleEncrypt g h iv pt = .ok c ∧ handleDecrypt g h c = .ok pt := by
  obtain ⟨hk, rfl⟩ := new_handle hn
  have hiv0 : iv ≠ [] := by rintro rfl; cases hiv
  obtain ⟨aad, h1, h2, -, -⟩ := seen_cipher { key := key, auth := auth, b64 := b64 } g iv hk hiv0
  have hm : pt.length % 2 ^ 32 = pt.length := by omega
  unfold handleEncrypt
  rw [C137_encrypt_low g _ iv pt (by omega), hm, List.take_length, h1, Res.ok_bind]
  refine ⟨_, rfl, ?_⟩
  have := handleDecrypt_eq g { key := key, auth := auth, b64 := b64 } iv (g.crypt key iv 0 pt)
    (g.mac key iv aad (g.crypt key iv 0 pt)) hiv0 (by omega) (by rw [ne_eq, g.crypt_eq_nil]; exact hpt)
    (by rw [g.crypt_length]; exact hlen) (g.mac_length _ _ _ _)
  rw [this, h2 _ _ (g.mac_length _ _ _ _), if_pos rfl, Res.ok_bind, g.crypt_crypt]
  rfl

/-- The code violates C137: of a message of `2^32` bytes and `k` more, with `0 < k < 2^31 - 1` (or any multiple of `2^32` and `k`), only
the first `k` bytes are encrypted. No error is reported, and decryption returns these `k` bytes as authentic. -/
theorem C137_prefix_violated (g : Gcm) (key auth : Bytes) (b64 : Bool) (h : SymHandle)
    (hn : SymHandle.new key auth b64 = .ok h) (iv pt : Bytes) (hiv : iv.length = 16) (hlen : 2 ^ 32 ≤ pt.length)
    (h0 : 0 < pt.length % 2 ^ 32) (hk : pt.length % 2 ^ 32 < 2 ^ 31 - 1) :
    ∃ c, handleEncrypt g h iv pt = .ok c ∧ handleDecrypt g h c = .ok (pt.take (pt.length % 2 ^ 32)) ∧
      pt.take (pt.length % 2 ^ 32) ≠ pt := by
  have hl : (pt.take (pt.length % 2 ^ 32)).length = pt.length % 2 ^ 32 := by rw [List.length_take]; omega
  have hne : pt.take (pt.length % 2 ^ 32) ≠ pt := fun e => by rw [e] at hl; omega
  have h1 : handleEncrypt g h iv pt = handleEncrypt g h iv (pt.take (pt.length % 2 ^ 32)) := by
    unfold handleEncrypt
    have hm : (pt.take (pt.length % 2 ^ 32)).length % 2 ^ 32 = (pt.take (pt.length % 2 ^ 32)).length := by omega
    rw [C137_encrypt_low g _ iv pt hk, C137_encrypt_low g _ iv (pt.take (pt.length % 2 ^ 32)) (by omega), hm, List.take_length]
  obtain ⟨c, h2, h3⟩ := C137_round_trip_partial g key auth b64 h hn iv (pt.take (pt.length % 2 ^ 32)) hiv
    (fun e => by rw [e] at hl; simp at hl; omega) (by omega)
  exact ⟨c, h1.trans h2, h3, hne⟩

theorem toInt_neg {n : Nat} (h : 2 ^ 31 ≤ n % 2 ^ 32) : toInt n < 0 := by rw [toInt_high h]; omega

/-- What happens to messages whose length is taken for a negative number. -/
theorem encrypt_high' (g : Gcm) (a : AuthEnc) (iv pt : Bytes) (hk : a.key.length = 32) (hiv : iv ≠ []) (hs : a.aadSet = true)
    (ha : a.aad.length < 2 ^ 31) (h : 2 ^ 31 ≤ pt.length % 2 ^ 32) :
    encrypt g a iv pt =
      if 17 < a.aad.length then .ub else .ok (List.replicate a.aad.length 0, g.mac a.key iv a.aad []) := by
  have ht : a.key.take 32 = a.key := List.take_of_length_le (by omega)
  have hlt := toInt_neg h
  have hu := fun c => updAad_low c a.aad (show a.aad.length % 2 ^ 32 < 2 ^ 31 by omega) none
  have hm : a.aad.length % 2 ^ 32 = a.aad.length := by omega
  rw [hm, List.take_length] at hu
  unfold encrypt
  obtain ⟨x, hx0⟩ : ∃ x, toInt pt.length = x := ⟨_, rfl⟩
  rw [hx0] at hlt ⊢
  have hx : x < 16 := by omega
  have hov : ¬ intMax < (if x < 16 then 16 else x) + 1 := by unfold intMax; split <;> omega
  simp only [if_neg hov]
  rw [GcmCtx.init_ok _ _ (by omega) hiv, ht, if_pos hx, Res.ok_bind]
  simp only [hs, if_true, if_pos hlt, hu]
  have h17 : ((16 : Int) + 1).toNat = 17 := by decide
  rw [h17, List.length_replicate]
  simp only [GcmCtx.updAad, ne_eq, not_true_eq_false, or_false, Bool.false_eq_true, if_false, List.nil_append]
  by_cases h1 : 17 < a.aad.length
  · rw [if_pos h1, if_pos h1]
  · rw [if_neg h1, if_neg h1, List.take_replicate, Nat.min_eq_left (by omega)]
    rfl

theorem encrypt_high (g : Gcm) (key aad iv pt : Bytes) (hk : key.length = 32) (hiv : iv ≠ []) (ha : aad.length < 2 ^ 31)
    (h : 2 ^ 31 ≤ pt.length % 2 ^ 32) :
    encrypt g { key := key, aad := aad, aadSet := true } iv pt =
      if 17 < aad.length then .ub else .ok (List.replicate aad.length 0, g.mac key iv aad []) :=
  encrypt_high' g _ iv pt hk hiv rfl ha h

/-- The code violates C137: all messages of 2 GiB up to 4 GiB (less one byte each) get the same ciphertext, without an error; the message is lost.
Decryption of this ciphertext fails, unless the tag of the empty message is also that of zeros. -/
theorem C137_lost_violated (g : Gcm) (key auth : Bytes) (b64 : Bool) (h : SymHandle)
    (hn : SymHandle.new key auth b64 = .ok h) (iv : Bytes) (hiv : iv.length = 16) (ha : auth.length ≤ 17) :
    ∃ c, (∀ pt : Bytes, 2 ^ 31 ≤ pt.length % 2 ^ 32 → handleEncrypt g h iv pt = .ok c) ∧
      ∀ p, handleDecrypt g h c = .ok p → ∃ aad n, 0 < n ∧ g.mac key iv aad (List.replicate n 0) = g.mac key iv aad [] := by
  obtain ⟨hk, rfl⟩ := new_handle hn
  have hiv0 : iv ≠ [] := by rintro rfl; cases hiv
  have hal : (aadOf auth).length ≤ 17 ∧ 0 < (aadOf auth).length := by
    rw [aadOf_length]
    split
    · omega
    · rename_i e; exact ⟨ha, List.length_pos_iff.mpr e⟩
  refine ⟨(let z := BS.smartPack (BS.smartPack (BS.smartPack [] iv) (List.replicate (aadOf auth).length 0)) (g.mac key iv (aadOf auth) [])
      if b64 then B64.encode z else z), fun pt hp => ?_, ?_⟩
  · unfold handleEncrypt
    rw [SymHandle.cipher_eq, encrypt_high g key (aadOf auth) iv pt hk hiv0 (by omega) hp, if_neg (by omega), Res.ok_bind]
    rfl
  · intro p hp
    have := handleDecrypt_eq g { key := key, auth := auth, b64 := b64 } iv (List.replicate (aadOf auth).length 0)
      (g.mac key iv (aadOf auth) []) hiv0 (by omega) (by intro e; have := congrArg List.length e; simp only [List.length_replicate, List.length_nil] at this; omega)
      (by simp; omega) (g.mac_length _ _ _ _)
    obtain ⟨aad, -, h2, h3, -⟩ := seen_cipher { key := key, auth := auth, b64 := b64 } g iv hk hiv0
    rw [h3 (by simp only; omega)] at h2
    rw [this, h2 _ _ (g.mac_length _ _ _ _), Res.ok_bind] at hp
    by_cases hm : g.mac key iv (aadOf auth) (List.replicate (aadOf auth).length 0) = g.mac key iv (aadOf auth) []
    · exact ⟨_, _, hal.2, hm⟩
    · rw [if_neg hm] at hp; cases hp

/-- What decryption does with a body whose length, modulo `2^32`, is larger than an `int` can hold: one value
overflows, those above ask for a buffer of a negative size, which ends the process, and the last gives a buffer
of no bytes, which is enough only if the associated data has no bytes either. -/
theorem C137_decrypt_high (g : Gcm) (a : AuthEnc) (iv ct tag : Bytes) (ht : tag.length = 16)
    (hi : ∃ c, init a.key iv (toInt iv.length) = .ok c) :
    (ct.length % 2 ^ 32 = 2 ^ 31 - 1 → decrypt g a iv ct tag = .ub) ∧
    (2 ^ 31 ≤ ct.length % 2 ^ 32 → ct.length % 2 ^ 32 < 2 ^ 32 - 1 → decrypt g a iv ct tag = .abort) ∧
    (ct.length % 2 ^ 32 = 2 ^ 32 - 1 → a.aadSet = false ∨ 2 ^ 31 ≤ a.aad.length % 2 ^ 32 → decrypt g a iv ct tag = .ub) := by
  obtain ⟨c, hi⟩ := hi
  have ht' : ¬ toInt tag.length ≠ 16 := by rw [toInt_small (by omega), ht]; simp
  refine ⟨?_, ?_, ?_⟩
  · intro h
    unfold decrypt
    rw [toInt_low (n := ct.length) (by omega)]
    simp only [if_neg ht', hi, Res.ok_bind]
    rw [if_pos (by unfold intMax; omega)]
  · intro h1 h2
    unfold decrypt
    rw [toInt_high (n := ct.length) h1]
    simp only [if_neg ht', hi, Res.ok_bind]
    rw [if_neg (by unfold intMax; omega), if_pos (by omega)]
  · intro h ha
    have e : toInt ct.length = -1 := by rw [toInt_high (n := ct.length) (by omega)]; omega
    unfold decrypt
    rw [e]
    simp only [if_neg ht', hi, Res.ok_bind]
    rw [if_neg (by unfold intMax; omega), if_neg (by omega)]
    have hn : ((if a.aadSet then updAad (c.setTag (tag.take 16)) a.aad (toInt a.aad.length) none
        else (none, c.setTag (tag.take 16))).1) = none := by
      rcases ha with ha | ha
      · simp [ha]
      · rw [updAad_high _ _ ha]; split <;> rfl
    generalize (if a.aadSet then updAad (c.setTag (tag.take 16)) a.aad (toInt a.aad.length) none
        else (none, c.setTag (tag.take 16))) = st at hn ⊢
    obtain ⟨len, c'⟩ := st
    simp only at hn
    subst hn
    simp

example : ∃ c, init (List.replicate 32 7) (List.replicate 16 1) (toInt (List.replicate 16 (1 : UInt8)).length) = .ok c :=
  ⟨_, rfl⟩

theorem init_nil (key : Bytes) : init key [] (toInt ([] : Bytes).length) = .ub := by
  unfold init
  rw [toInt_small (by rw [List.length_nil]; omega), List.length_nil, if_pos (by omega), if_pos (by omega)]

theorem init_neg (key iv : Bytes) (hiv : 2 ^ 31 ≤ iv.length % 2 ^ 32) :
    init key iv (toInt iv.length) = init key (iv.take 12) (toInt (iv.take 12).length) := by
  have h0 : 2 ^ 31 ≤ iv.length := Nat.le_trans hiv (Nat.mod_le _ _)
  have hl : (iv.take 12).length = 12 := List.length_take_of_le (Nat.le_trans (by omega) h0)
  have h12 : toInt 12 = (12 : Nat) := toInt_small (by omega)
  rw [hl, h12]
  unfold init
  rw [if_pos (Int.le_of_lt (toInt_neg hiv)), if_neg (Nat.not_lt.mpr (Nat.le_trans (by omega) h0)), if_neg (by omega), Int.toNat_natCast,
    List.take_take, Nat.min_self]

theorem decrypt_init (g : Gcm) (a : AuthEnc) (iv iv' ct tag : Bytes)
    (h : init a.key iv (toInt iv.length) = init a.key iv' (toInt iv'.length)) :
    decrypt g a iv ct tag = decrypt g a iv' ct tag := by
  unfold decrypt
  rw [h]

theorem tag_ok {tag : Bytes} (ht : tag.length = 16) : toInt tag.length = 16 := by
  rw [toInt_small (by omega), ht]; rfl

theorem decrypt_ub (g : Gcm) (a : AuthEnc) (iv ct tag : Bytes) (ht : toInt tag.length = 16)
    (h : init a.key iv (toInt iv.length) = .ub) : decrypt g a iv ct tag = .ub := by
  unfold decrypt
  generalize toInt tag.length = n at ht ⊢
  generalize toInt iv.length = m at h ⊢
  generalize toInt ct.length = k
  subst ht
  rw [h]
  exact if_neg (fun e => e rfl)

/-- Violated: without IV bytes, 12 bytes are read from the empty IV. An IV whose length is negative as an `int` counts with its first
12 bytes. -/
theorem C137_iv_violated (g : Gcm) (a : AuthEnc) (ct tag : Bytes) (ht : tag.length = 16) :
    decrypt g a [] ct tag = .ub ∧
    ∀ iv : Bytes, 2 ^ 31 ≤ iv.length % 2 ^ 32 → decrypt g a iv ct tag = decrypt g a (iv.take 12) ct tag := by
  exact ⟨decrypt_ub g a _ _ _ (tag_ok ht) (init_nil _), fun iv hiv => decrypt_init g a _ _ _ _ (init_neg _ _ hiv)⟩

example : (∃ iv : Bytes, 2 ^ 31 ≤ iv.length % 2 ^ 32) :=
  ⟨List.replicate (2 ^ 31) 0, by rw [List.length_replicate]; decide⟩

/-- The code violates C137: encryption is undefined (overflow of `int`) for messages of `2^31 - 1` bytes, and for messages of 2 GiB up to 4 GiB
(reading past a buffer of 17 bytes) when the associated data is longer than that. -/
theorem C137_undefined_violated (g : Gcm) (key auth : Bytes) (b64 : Bool) (h : SymHandle)
    (hn : SymHandle.new key auth b64 = .ok h) (iv pt : Bytes) (hiv : iv.length = 16)
    (hp : pt.length % 2 ^ 32 = 2 ^ 31 - 1 ∨ 2 ^ 31 ≤ pt.length % 2 ^ 32 ∧ 17 < auth.length ∧ auth.length < 2 ^ 31) :
    handleEncrypt g h iv pt = .ub := by
  obtain ⟨hk, rfl⟩ := new_handle hn
  have hiv0 : iv ≠ [] := by rintro rfl; cases hiv
  unfold handleEncrypt
  rcases hp with hp | ⟨hp, h1, h2⟩
  · have : encrypt g ({ key := key, auth := auth, b64 := b64 } : SymHandle).cipher iv pt = .ub := by
      unfold encrypt
      rw [toInt_low (by omega), hp]
      simp only
      rw [if_pos (by unfold intMax; split <;> omega)]
    rw [this]; rfl
  · have hne : auth ≠ [] := by rintro rfl; simp at h1
    rw [SymHandle.cipher_eq, encrypt_high g key (aadOf auth) iv pt hk hiv0 (by rw [aadOf_length, if_neg hne]; exact h2) hp,
      if_pos (by rw [aadOf_length, if_neg hne]; exact h1)]
    rfl

/-- The code violates C137: associated data of 2 GiB up to 4 GiB is not authenticated at all. What was encrypted with one is
accepted with any other. -/
theorem C137_aad_violated (g : Gcm) (key auth auth' : Bytes) (b64 : Bool) (h h' : SymHandle)
    (hn : SymHandle.new key auth b64 = .ok h) (hn' : SymHandle.new key auth' b64 = .ok h')
    (ha : 2 ^ 31 ≤ auth.length % 2 ^ 32) (ha' : 2 ^ 31 ≤ auth'.length % 2 ^ 32) (iv pt : Bytes) (hiv : iv.length = 16) (hpt : pt ≠ [])
    (hlen : pt.length < 2 ^ 31 - 1) :
    ∃ c, handleEncrypt g h iv pt = .ok c ∧ handleDecrypt g h' c = .ok pt := by
  obtain ⟨hk, rfl⟩ := new_handle hn
  obtain ⟨-, rfl⟩ := new_handle hn'
  have hiv0 : iv ≠ [] := by rintro rfl; cases hiv
  obtain ⟨aad, h1, -, -, e⟩ := seen_cipher { key := key, auth := auth, b64 := b64 } g iv hk hiv0
  obtain ⟨aad', -, h2, -, e'⟩ := seen_cipher { key := key, auth := auth', b64 := b64 } g iv hk hiv0
  rw [e ha] at h1
  rw [e' ha'] at h2
  have hm : pt.length % 2 ^ 32 = pt.length := by omega
  unfold handleEncrypt
  rw [C137_encrypt_low g _ iv pt (by omega), hm, List.take_length, h1, Res.ok_bind]
  refine ⟨_, rfl, ?_⟩
  have := handleDecrypt_eq g { key := key, auth := auth', b64 := b64 } iv (g.crypt key iv 0 pt)
    (g.mac key iv [] (g.crypt key iv 0 pt)) hiv0 (by omega) (by rw [ne_eq, g.crypt_eq_nil]; exact hpt)
    (by rw [g.crypt_length]; exact hlen) (g.mac_length _ _ _ _)
  rw [this, h2 _ _ (g.mac_length _ _ _ _), if_pos rfl, Res.ok_bind, g.crypt_crypt]
  rfl

/-! ### Streams -/

/-- **C137 (partial)** Updates of streams with the lengths of the code, for blocks that fit on the stack. -/
theorem C137_stream_partial (g : Gcm) (stack : Nat) (hs : stack < 2 ^ 31) (s : Stream) (b : Bytes) (hb : b.length + 1 ≤ stack) :
    encUpdate g stack s b = s.encUpdate g b ∧ decUpdate g stack s b = s.decUpdate g b := by
  unfold encUpdate decUpdate Stream.encUpdate Stream.decUpdate
  rw [toInt_small (by omega)]
  simp only [Int.toNat_natCast, List.take_length]
  constructor
  · split
    · by_cases h0 : b.length = 0
      · rw [if_pos h0, if_pos (by omega)]
      · rw [if_neg h0, if_neg (by omega), if_neg (by unfold intMax; omega)]
        cases s.ctx with
        | none => rfl
        | some c => simp only [Int.natCast_inj]
    · rfl
  · split
    · by_cases h0 : b.length = 0
      · rw [if_pos h0, if_pos h0]
      · rw [if_neg h0, if_neg h0, if_neg (by unfold intMax; omega)]
        cases s.ctx with
        | none => rfl
        | some c => simp only [Int.natCast_inj]
    · rfl

/-- The code violates C137: the output of an update is put on the stack. Blocks beyond it (8 MiB usually) are undefined. -/
theorem C137_stack_violated (g : Gcm) (stack : Nat) (s : Stream) (b : Bytes) (h0 : b ≠ []) (hb : stack < b.length + 1)
    (hl : b.length < 2 ^ 31) :
    (s.encSet = true → encUpdate g stack s b = .ub) ∧ (s.decSet = true → decUpdate g stack s b = .ub) := by
  have hpos : 0 < b.length := List.length_pos_iff.mpr h0
  unfold encUpdate decUpdate
  rw [toInt_small hl]
  constructor
  · intro he
    simp only [if_pos he]
    rw [if_neg (by omega), if_pos (.inr (by omega))]
  · intro hd
    simp only [if_pos hd]
    rw [if_neg (by omega), if_pos (.inr (.inr (by omega)))]

/-- The code violates C137: of a block of `2^32` bytes and `k` more only the first `k` bytes are encrypted, and the update reports success. -/
theorem C137_stream_prefix_violated (g : Gcm) (stack : Nat) (s : Stream) (pt : Bytes) (hs : stack < 2 ^ 31)
    (h0 : 0 < pt.length % 2 ^ 32) (hk : pt.length % 2 ^ 32 + 1 ≤ stack) :
    encUpdate g stack s pt = s.encUpdate g (pt.take (pt.length % 2 ^ 32)) := by
  have hl : (pt.take (pt.length % 2 ^ 32)).length = pt.length % 2 ^ 32 := by
    rw [List.length_take]
    have := Nat.mod_le pt.length (2 ^ 32)
    omega
  rw [← (C137_stream_partial g stack hs s (pt.take (pt.length % 2 ^ 32)) (by omega)).1]
  unfold encUpdate
  rw [toInt_low (by omega), hl, toInt_small (by omega)]
  simp only [Int.toNat_natCast]
  rw [List.take_take, Nat.min_self]

/-! ### Concrete cases -/

/-- The hypotheses of C137_round_trip_partial, C137_prefix_violated, C137_lost_violated and C137_undefined_violated are met. -/
example : SymHandle.new Ex.key32 b!"meta" true = .ok ⟨Ex.key32, b!"meta", true⟩ ∧
    (List.replicate (2 ^ 32 + 5) (7 : UInt8)).length % 2 ^ 32 = 5 ∧ 2 ^ 31 ≤ (List.replicate (2 ^ 31 + 3) (7 : UInt8)).length % 2 ^ 32 ∧
    (List.replicate (2 ^ 31 - 1) (7 : UInt8)).length % 2 ^ 32 = 2 ^ 31 - 1 ∧ (b!"meta" : Bytes).length ≤ 17 := by
  simp only [List.length_replicate]
  exact ⟨rfl, by decide, by decide, by decide, by decide⟩

/-- Those of C137_aad_violated too. -/
example : ∃ h h', SymHandle.new Ex.key32 (List.replicate (2 ^ 31) 0) true = .ok h ∧ SymHandle.new Ex.key32 (List.replicate (2 ^ 31 + 1) 1) true = .ok h' ∧
    2 ^ 31 ≤ (List.replicate (2 ^ 31) (0 : UInt8)).length % 2 ^ 32 ∧ 2 ^ 31 ≤ (List.replicate (2 ^ 31 + 1) (1 : UInt8)).length % 2 ^ 32 := by
  simp only [List.length_replicate]
  exact ⟨_, _, rfl, rfl, by decide, by decide⟩

end AeadSize
end Abe
