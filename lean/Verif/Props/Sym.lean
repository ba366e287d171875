import Verif.Proof.Sym
import Verif.Props.Bytes
/-!
# Symmetric keys and one shot encryption: C50–C52, C56, C80, C84, C85

`g : Gcm` stands for AES-256-GCM; nothing is assumed about it but that tags have 16 bytes.
-/
set_option linter.unusedSimpArgs false
set_option linter.unusedSectionVars false
set_option autoImplicit false
namespace Abe
namespace Sym

/-! ### A small cipher for the examples -/

namespace Ex

/-- A checksum that depends on length, order and content. -/
def sum (b : Bytes) : UInt8 := b.foldl (fun h x => h * 31 + x + 1) 7

def toy : Gcm where
  stream key iv n := sum key + sum iv + UInt8.ofNat n
  mac key iv aad ct := sum key :: sum iv :: sum aad :: sum ct :: List.replicate 12 0
  mac_length := by intros; rfl

def key32 : Bytes := List.replicate 32 5
def iv16 : Bytes := List.replicate 16 9

end Ex

/-! ### C50: equality of keys -/

/-- C50 is violated: keys with the same header compare equal whatever their key data. -/
theorem C50_key_data_violated (k : SymKey) (d : Bytes) : SymKey.eq k { k with data := d } = true := by
  simp only [SymKey.eq, SymKey.header, (C36_eq_iff _ _).mpr, Bool.and_self]

example : SymKey.eq { data := Ex.key32 } { data := List.replicate 32 6 } = true :=
  C50_key_data_violated { data := Ex.key32 } _

/-- C50, what holds: keys compare equal exactly when their headers (version, algorithm, uid followed by ID) agree.
Missing: the key data. -/
theorem C50_headers_partial (k k' : SymKey) :
    SymKey.eq k k' = true ↔ k.version = k'.version ∧ k.alg = k'.alg ∧ k.uid ++ k.id = k'.uid ++ k'.id := by
  simp only [SymKey.eq, SymKey.header, Bool.and_eq_true, C36_eq_iff, and_true, List.cons.injEq]

example : SymKey.eq { alg := 71 } { alg := 72 } = false := by decide

/-! ### C51: handles -/

theorem enc_handle (g : Gcm) (h : SymHandle) (iv pt : Bytes) (hk : h.key.length = 32) (hiv : iv ≠ []) :
    h.encrypt g iv pt =
      .ok (let ct := g.crypt h.key iv 0 pt
           let z := BS.smartPack [] iv ++ (BS.smartPack [] ct ++
              BS.smartPack [] (g.mac h.key iv (aadOf h.auth) ct))
           if h.b64 then B64.encode z else z) := by
  have ht : h.key.take 32 = h.key := List.take_of_length_le (by omega)
  rw [SymHandle.encrypt, SymHandle.cipher_eq, AuthEnc.encrypt_eq _ _ _ _ _ (by omega) hiv, ht, Res.ok_bind]
  simp only [asRuntime]
  rw [BS.smartPack_append (BS.smartPack (BS.smartPack [] iv) _), BS.smartPack_append (BS.smartPack [] iv),
    List.append_assoc]

theorem new_handle {key auth : Bytes} {b64 : Bool} {h : SymHandle} (hn : SymHandle.new key auth b64 = .ok h) :
    key.length = 32 ∧ h = { key := key, auth := auth, b64 := b64 } := by
  rw [SymHandle.new] at hn
  split at hn
  · cases hn
  · next hl =>
    cases hn
    exact ⟨Decidable.not_not.mp hl, rfl⟩

theorem mac_ne (g : Gcm) (a b c d : Bytes) : g.mac a b c d ≠ [] := by
  intro h
  have := g.mac_length a b c d
  rw [h] at this
  cases this

/-- C51: what a key handle encrypts, the handle with the same key and authentication data decrypts, with and
without Base64. Partial: the message must not be empty. -/
theorem C51_round_trip_partial (g : Gcm) (key auth : Bytes) (b64 : Bool) (h : SymHandle)
    (hn : SymHandle.new key auth b64 = .ok h) (iv pt : Bytes) (hiv : iv.length = 16) (hpt : pt ≠ [])
    (hlen : pt.length < 2 ^ 32) :
    ∃ c, h.encrypt g iv pt = .ok c ∧ h.decrypt g c = .ok pt := by
  obtain ⟨hk, rfl⟩ := new_handle hn
  have hiv0 : iv ≠ [] := by rintro rfl; cases hiv
  refine ⟨_, enc_handle g _ iv pt hk hiv0, ?_⟩
  have ht : key.take 32 = key := List.take_of_length_le (by omega)
  simp only
  rw [SymHandle.decrypt, asRuntime_ok]
  have hz : ∀ z : Bytes, (if b64 then B64.decode (if b64 then B64.encode z else z)
      else (if b64 then B64.encode z else z)) = z := by
    intro z; cases b64
    · rfl
    · exact C31_base64_roundtrip z
  simp only [hz]
  rw [BS.smartUnpack_zero _ _ hiv0 (by omega), Res.ok_bind]
  dsimp only
  rw [BS.smartUnpack_at _ _ _ (by rw [ne_eq, g.crypt_eq_nil]; exact hpt) (by rw [g.crypt_length]; exact hlen),
    Res.ok_bind]
  dsimp only
  rw [← List.append_nil (BS.smartPack [] (g.mac key iv _ _)), ← List.append_assoc,
    BS.smartUnpack_at _ _ _ (mac_ne _ _ _ _ _) (by rw [g.mac_length]; decide), Res.ok_bind]
  dsimp only
  rw [SymHandle.cipher_eq, AuthEnc.decrypt_eq _ _ _ _ _ _ (Nat.le_of_eq hk.symm) hiv0 (g.mac_length _ _ _ _), ht, if_pos rfl,
    Res.ok_bind]
  dsimp only
  rw [g.crypt_crypt]

example : SymHandle.new Ex.key32 b!"meta" true = .ok ⟨Ex.key32, b!"meta", true⟩ := rfl

/-- C51 is violated for the empty message: its ciphertext has no second field, and decryption ends in an
`std::out_of_range`, which is not the documented `runtime_error`. -/
theorem C51_empty_violated (g : Gcm) (key auth : Bytes) (b64 : Bool) (h : SymHandle)
    (hn : SymHandle.new key auth b64 = .ok h) (iv : Bytes) (hiv : iv.length = 16) :
    ∃ c, h.encrypt g iv [] = .ok c ∧ h.decrypt g c = .throw .outOfRange := by
  obtain ⟨hk, rfl⟩ := new_handle hn
  have hiv0 : iv ≠ [] := by rintro rfl; cases hiv
  refine ⟨_, enc_handle g _ iv [] hk hiv0, ?_⟩
  simp only [Gcm.crypt]
  rw [SymHandle.decrypt]
  have hz : ∀ z : Bytes, (if b64 then B64.decode (if b64 then B64.encode z else z)
      else (if b64 then B64.encode z else z)) = z := by
    intro z; cases b64
    · rfl
    · exact C31_base64_roundtrip z
  simp only [hz, BS.smartPack_nil, List.nil_append]
  rw [BS.smartUnpack_zero _ _ hiv0 (by omega), Res.ok_bind]
  dsimp only
  rw [← List.append_nil (BS.smartPack [] (g.mac key iv _ _)),
    BS.smartUnpack_at _ _ _ (mac_ne _ _ _ _ _) (by rw [g.mac_length]; decide), Res.ok_bind]
  dsimp only
  rw [List.append_nil, BS.smartUnpack_end]
  rfl

/-- C51, authenticity: what a handle decrypts is made of three fields, the third of which is the tag of the second
under the key, the first and the authentication data of the handle. -/
theorem C51_authentic (g : Gcm) (key auth : Bytes) (b64 : Bool) (h : SymHandle)
    (hn : SymHandle.new key auth b64 = .ok h) (c pt : Bytes) (hd : h.decrypt g c = .ok pt) :
    ∃ iv ct i j k, let z := if b64 then B64.decode c else c
      BS.smartUnpack z 0 = .ok (iv, i) ∧ BS.smartUnpack z i = .ok (ct, j) ∧
      BS.smartUnpack z j = .ok (g.mac key iv (if auth = [] then List.replicate 16 0 else auth) ct, k) ∧
      pt = g.crypt key iv 0 ct := by
  obtain ⟨hk, rfl⟩ := new_handle hn
  have ht : key.take 32 = key := List.take_of_length_le (by omega)
  rw [SymHandle.decrypt, asRuntime_ok] at hd
  obtain ⟨⟨iv, i⟩, h1, hd⟩ := (Res.bind_eq_ok _ _ _).mp hd
  obtain ⟨⟨ct, j⟩, h2, hd⟩ := (Res.bind_eq_ok _ _ _).mp hd
  obtain ⟨⟨tag, k⟩, h3, hd⟩ := (Res.bind_eq_ok _ _ _).mp hd
  obtain ⟨r, hr, hd⟩ := (Res.bind_eq_ok _ _ _).mp hd
  dsimp only at h1 h2 h3 hr hd
  rw [SymHandle.cipher_eq] at hr
  have hl : tag.length = 16 := by
    rw [AuthEnc.decrypt] at hr
    split at hr
    · cases hr
    · next h => exact Decidable.not_not.mp h
  have hiv0 : iv ≠ [] := by
    rintro rfl
    rw [AuthEnc.decrypt, if_neg (by simp [aesBlock, hl]), GcmCtx.init, if_pos (Or.inr rfl)] at hr
    cases hr
  rw [AuthEnc.decrypt_eq _ _ _ _ _ _ (Nat.le_of_eq hk.symm) hiv0 hl, ht] at hr
  dsimp only at hr
  split at hr
  · next hm =>
    cases hr
    cases hd
    exact ⟨iv, ct, i, j, k, h1, h2, by rw [h3, ← hm]; rfl, rfl⟩
  · cases hr
    cases hd

/-- C51: only keys of 32 bytes make a handle. -/
theorem C51_key_length (key auth : Bytes) (b64 : Bool) :
    (∃ h, SymHandle.new key auth b64 = .ok h) ↔ key.length = 32 := by
  constructor
  · rintro ⟨h, hn⟩; exact (new_handle hn).1
  · intro hk
    exact ⟨_, if_neg (by simp [symKeyBytes, hk])⟩

/-! ### C52: encryption handlers -/

theorem new_enc {key : Bytes} {mode : EncMode} {b64 : Bool} {h : EncHandler}
    (hn : EncHandler.new key mode b64 = .ok h) :
    (key.length = 16 ∨ key.length = 32) ∧ mode = .gcm ∧
      h = { b64 := b64, auth := [], mode := .gcm, gcm := some { key := key } } := by
  rw [EncHandler.new, EncHandler.setKeyBytes] at hn
  obtain ⟨k, hk, hn⟩ := (Res.bind_eq_ok _ _ _).mp hn
  rw [SymKey.setSymmetricKey] at hk
  split at hk
  · cases hk
  · next hl =>
    cases hk
    have hl : key.length = 16 ∨ key.length = 32 := by
      simp only [shortKeyBytes, symKeyBytes] at hl; omega
    rw [EncHandler.setKey, if_neg (by simp)] at hn
    cases mode
    · cases hn
    · cases hn; exact ⟨hl, rfl, rfl⟩
    · cases hn

theorem enc_enc (g : Gcm) (b64 : Bool) (auth key iv pt : Bytes) (hk : key.length = 32) (hiv : iv ≠ []) :
    EncHandler.encrypt g { b64 := b64, auth := auth, mode := .gcm, gcm := some { key := key } } iv pt =
      .ok (let ct := g.crypt key iv 0 pt
           let z := BS.smartPack [] iv ++ (BS.smartPack [] ct ++
              (BS.smartPack [] (g.mac key iv (aadOf auth) ct) ++ BS.smartPack [] auth))
           if b64 then B64.encode z else z) := by
  have ht : key.take 32 = key := List.take_of_length_le (by omega)
  rw [EncHandler.encrypt]
  dsimp only
  rw [AuthEnc.set_eq, AuthEnc.encrypt_eq _ _ _ _ _ (Nat.le_of_eq hk.symm) hiv, ht]
  simp only [Res.ok_bind, asRuntime]
  have ha : (if 0 < auth.length then auth else []) = auth := by
    split
    · rfl
    · next h => exact (List.length_eq_zero_iff.mp (by omega)).symm
  rw [ha, BS.smartPack_append (BS.smartPack (BS.smartPack (BS.smartPack [] iv) _) _),
    BS.smartPack_append (BS.smartPack (BS.smartPack [] iv) _), BS.smartPack_append (BS.smartPack [] iv),
    List.append_assoc, List.append_assoc]

theorem setAuth_eq (hash : Bytes → Bytes) (h : EncHandler) (a : Bytes) :
    h.setAuth hash a = { h with auth := (h.setAuth hash a).auth } := by
  rw [EncHandler.setAuth]
  split <;> rfl

theorem setAuth_nil (hash : Bytes → Bytes) (h : EncHandler) : (h.setAuth hash []).auth = [] := by
  rw [EncHandler.setAuth, if_neg (by simp)]

theorem setAuth_ne (hash : Bytes → Bytes) (hh : ∀ b, 16 ≤ (hash b).length) (h : EncHandler) (a : Bytes)
    (ha : a ≠ []) : (h.setAuth hash a).auth ≠ [] ∧ (h.setAuth hash a).auth.length ≤ 16 := by
  rw [EncHandler.setAuth]
  split
  · have : (BS.getSubset (hash a) 0 aesBlock).length = 16 := by
      have := hh a
      rw [BS.getSubset, if_pos (by simp only [aesBlock]; omega)]
      simp only [aesBlock, List.drop_zero, List.length_take]
      omega
    dsimp only
    refine ⟨fun h0 => ?_, by omega⟩
    rw [h0] at this; cases this
  · next h => exact ⟨ha, by simp only [aesBlock] at h; dsimp only; omega⟩

theorem setAuth_le (hash : Bytes → Bytes) (h : EncHandler) (a : Bytes) : (h.setAuth hash a).auth.length ≤ 16 := by
  rw [EncHandler.setAuth]
  split
  · dsimp only
    rw [BS.getSubset]
    split
    · simp only [aesBlock, List.length_take]; omega
    · simp
  · next h => simp only [aesBlock] at h; dsimp only; omega

theorem unb64 (b64 : Bool) (z : Bytes) : (if b64 then B64.decode (if b64 then B64.encode z else z)
      else (if b64 then B64.encode z else z)) = z := by
  cases b64
  · rfl
  · exact C31_base64_roundtrip z

/-- Decryption of a well formed ciphertext with a message. -/
theorem dec_enc (g : Gcm) (b64 : Bool) (auth auth' key iv ct tag : Bytes) (hiv : iv ≠ [])
    (hivl : iv.length < 2 ^ 32) (hct : ct ≠ [] ∨ auth = []) (hlen : ct.length < 2 ^ 32) (ht : tag.length = 16)
    (ha : auth.length < 2 ^ 32) :
    let z := BS.smartPack [] iv ++ (BS.smartPack [] ct ++ (BS.smartPack [] tag ++ BS.smartPack [] auth))
    EncHandler.decrypt g { b64 := b64, auth := auth', mode := .gcm, gcm := some { key := key } }
        (if b64 then B64.encode z else z) =
      asRuntime (do
        let e ← EncHandler.decAad auth' auth (some { key := key })
        let r ← e.decrypt g iv ct tag
        match r with
        | none => .throw .decryptionFailed
        | some pt => .ok pt) := by
  intro z
  have htag : tag ≠ [] := by rintro rfl; cases ht
  rw [EncHandler.decrypt]
  simp only [unb64]
  rw [show z = BS.smartPack [] iv ++ (BS.smartPack [] ct ++ (BS.smartPack [] tag ++ BS.smartPack [] auth)) from rfl,
    BS.smartUnpack_zero _ _ hiv hivl, Res.ok_bind]
  dsimp only
  by_cases h0 : ct = []
  · have ha0 : auth = [] := by rcases hct with h | h; exact absurd h0 h; exact h
    subst h0 ha0
    simp only [BS.smartPack_nil, List.nil_append]
    rw [BS.smartUnpack_at _ _ _ htag (by omega), Res.ok_bind]
    dsimp only
    rw [EncHandler.fields, if_neg (by simp)]
    rfl
  · rw [BS.smartUnpack_at _ _ _ h0 hlen, Res.ok_bind]
    dsimp only
    have hp := List.length_pos_iff.mpr (BS.smartPack_length_pos tag htag)
    rw [EncHandler.fields, if_pos (by simp only [List.length_append]; omega), ← List.append_assoc,
      BS.smartUnpack_at _ _ _ htag (by omega), Res.ok_bind]
    dsimp only
    by_cases ha0 : auth = []
    · subst ha0
      rw [if_neg (by simp [BS.smartPack_nil])]
      rfl
    · have hp2 := List.length_pos_iff.mpr (BS.smartPack_length_pos auth ha0)
      rw [if_pos (by simp only [List.length_append]; omega), ← List.append_assoc,
        ← List.append_nil (BS.smartPack [] auth), BS.smartUnpack_at _ _ _ ha0 ha]
      rfl

theorem decAad_eq (auth' auth key : Bytes) (h : auth' = auth ∨ auth' = [] ∨ auth = []) :
    EncHandler.decAad auth' auth (some { key := key }) =
      .ok { key := key, aad := aadOf (if auth' = [] then auth else auth'), aadSet := true } := by
  rw [EncHandler.decAad, if_neg]
  · by_cases h0 : auth' = []
    · subst h0
      rw [if_neg (by simp), if_pos rfl]
      have := AuthEnc.set_eq { key := key } auth
      dsimp only at this
      rw [← this]
      split <;> rfl
    · have hp := List.length_pos_iff.mpr h0
      rw [if_pos hp, if_neg h0, aadOf, if_neg h0, AuthEnc.setAad, if_neg (by omega)]
  · rintro ⟨h1, h2, h3⟩
    rcases h with h | h | h
    · exact h3 h.symm
    · rw [h] at h1; simp at h1
    · rw [h] at h2; simp at h2

/-- C52: what a handler with authentication data `a` encrypts, a handler with the same key decrypts if it has the
same authentication data or none, with and without Base64. Partial: the message is not empty or there is no
authentication data; the key has 32 bytes (see C80). -/
theorem C52_round_trip_partial (g : Gcm) (hash : Bytes → Bytes) (key : Bytes) (mode : EncMode) (b64 : Bool)
    (h : EncHandler) (hn : EncHandler.new key mode b64 = .ok h) (hk : key.length = 32) (a a' iv pt : Bytes)
    (ha : a' = a ∨ a' = []) (hiv : iv.length = 16) (hpt : pt ≠ [] ∨ a = []) (hlen : pt.length < 2 ^ 32) :
    ∃ c, (h.setAuth hash a).encrypt g iv pt = .ok c ∧ (h.setAuth hash a').decrypt g c = .ok pt := by
  obtain ⟨-, rfl, rfl⟩ := new_enc hn
  have hiv0 : iv ≠ [] := by rintro rfl; cases hiv
  have ht : key.take 32 = key := List.take_of_length_le (by omega)
  rw [setAuth_eq, setAuth_eq (a := a')]
  refine ⟨_, enc_enc g _ _ _ _ _ hk hiv0, ?_⟩
  have hle := setAuth_le hash { b64 := b64, auth := [], mode := .gcm, gcm := some { key := key } } a
  dsimp only
  rw [dec_enc g b64 _ _ key iv _ _ hiv0 (by omega) _ (by rw [g.crypt_length]; exact hlen) (g.mac_length _ _ _ _)
    (by omega), decAad_eq]
  · rw [Res.ok_bind, AuthEnc.decrypt_eq _ _ _ _ _ _ (Nat.le_of_eq hk.symm) hiv0 (g.mac_length _ _ _ _), ht,
      if_pos, Res.ok_bind]
    · dsimp only
      rw [g.crypt_crypt]
      rfl
    · rcases ha with rfl | rfl
      · split
        · next h0 => rw [h0]
        · rfl
      · rw [setAuth_nil, if_pos rfl]
  · rcases ha with rfl | rfl
    · exact Or.inl rfl
    · exact Or.inr (Or.inl (setAuth_nil _ _))
  · rcases hpt with hp | rfl
    · exact Or.inl (by rw [ne_eq, g.crypt_eq_nil]; exact hp)
    · exact Or.inr (setAuth_nil _ _)

example : ∃ h, EncHandler.new Ex.key32 .gcm true = .ok h := ⟨_, rfl⟩

/-- C52 is violated for the empty message with authentication data of less than 16 bytes: the tag is taken for the
ciphertext and the authentication data for the tag. -/
theorem C52_empty_violated (g : Gcm) (hash : Bytes → Bytes) (key : Bytes) (mode : EncMode) (b64 : Bool)
    (h : EncHandler) (hn : EncHandler.new key mode b64 = .ok h) (hk : key.length = 32) (a a' iv : Bytes)
    (ha : a' = a ∨ a' = []) (ha0 : a ≠ []) (hal : a.length < 16) (hiv : iv.length = 16) :
    ∃ c, (h.setAuth hash a).encrypt g iv [] = .ok c ∧ (h.setAuth hash a').decrypt g c = .throw .runtimeError := by
  obtain ⟨-, rfl, rfl⟩ := new_enc hn
  have hiv0 : iv ≠ [] := by rintro rfl; cases hiv
  have hs : ∀ b : Bytes, b.length < 16 → ∀ h : EncHandler, h.setAuth hash b = { h with auth := b } := by
    intro b hb h
    rw [EncHandler.setAuth, if_neg (by simp only [aesBlock]; omega)]
  have hal' : a'.length < 16 := by rcases ha with rfl | rfl <;> simp [hal]
  rw [hs a hal, hs a' hal']
  refine ⟨_, enc_enc g _ _ _ _ _ hk hiv0, ?_⟩
  dsimp only
  simp only [Gcm.crypt, BS.smartPack_nil, List.nil_append]
  have := dec_enc g b64 [] a' key iv (g.mac key iv (aadOf a) []) a hiv0 (by omega) (Or.inr rfl)
    (by rw [g.mac_length]; decide)
  rw [EncHandler.decrypt]
  simp only [unb64]
  rw [BS.smartUnpack_zero _ _ hiv0 (by omega), Res.ok_bind]
  dsimp only
  rw [BS.smartUnpack_at _ _ _ (mac_ne _ _ _ _ _) (by rw [g.mac_length]; decide), Res.ok_bind]
  dsimp only
  have hp2 := List.length_pos_iff.mpr (BS.smartPack_length_pos a ha0)
  rw [EncHandler.fields, if_pos (by simp only [List.length_append]; omega), ← List.append_assoc,
    ← List.append_nil (BS.smartPack [] a), BS.smartUnpack_at _ _ _ ha0 (by omega), Res.ok_bind]
  dsimp only
  rw [if_neg (by simp), Res.ok_bind]
  dsimp only
  rw [decAad_eq _ _ _ (Or.inr (Or.inr rfl)), Res.ok_bind, AuthEnc.decrypt, if_pos (by simp only [aesBlock]; omega)]
  rfl

/-- C52: a handler whose authentication data differs from that in the ciphertext refuses it. -/
theorem C52_other_auth_data (g : Gcm) (hash : Bytes → Bytes) (hh : ∀ b, 16 ≤ (hash b).length) (key : Bytes)
    (mode : EncMode) (b64 : Bool) (h : EncHandler) (hn : EncHandler.new key mode b64 = .ok h)
    (hk : key.length = 32) (a a' iv pt : Bytes) (ha0 : a ≠ []) (ha0' : a' ≠ [])
    (hne : (h.setAuth hash a).auth ≠ (h.setAuth hash a').auth) (hiv : iv.length = 16) (hpt : pt ≠ [])
    (hlen : pt.length < 2 ^ 32) :
    ∃ c, (h.setAuth hash a).encrypt g iv pt = .ok c ∧
      (h.setAuth hash a').decrypt g c = .throw .runtimeError := by
  obtain ⟨-, rfl, rfl⟩ := new_enc hn
  have hiv0 : iv ≠ [] := by rintro rfl; cases hiv
  have h1 := setAuth_ne hash hh { b64 := b64, auth := [], mode := .gcm, gcm := some { key := key } } a ha0
  have h2 := setAuth_ne hash hh { b64 := b64, auth := [], mode := .gcm, gcm := some { key := key } } a' ha0'
  rw [setAuth_eq, setAuth_eq (a := a')]
  refine ⟨_, enc_enc g _ _ _ _ _ hk hiv0, ?_⟩
  dsimp only
  rw [dec_enc g b64 _ _ key iv _ _ hiv0 (by omega) (Or.inl (by rw [ne_eq, g.crypt_eq_nil]; exact hpt))
    (by rw [g.crypt_length]; exact hlen) (g.mac_length _ _ _ _) (by omega), EncHandler.decAad, if_pos]
  · rfl
  · exact ⟨List.length_pos_iff.mpr h2.1, fun h0 => h1.1 (List.length_eq_zero_iff.mp h0), hne⟩

theorem infix_of_slice {b r : Bytes} {i : Nat} (h : r = (b.drop i).take r.length) : r <:+: b := by
  rw [h]
  exact (List.take_prefix _ _).isInfix.trans (List.drop_suffix _ _).isInfix

theorem smartUnpack_infix {b r : Bytes} {i j : Nat} (h : BS.smartUnpack b i = .ok (r, j)) : r <:+: b := by
  rw [BS.smartUnpack] at h
  obtain ⟨ty, -, h⟩ := (Res.bind_eq_ok _ _ _).mp h
  split at h
  · exact infix_of_slice (BS.unpack_ok h).2.2
  split at h
  · exact infix_of_slice (BS.unpack16bits_ok h).2.2
  split at h
  · exact infix_of_slice (BS.unpack8bits_ok h).2.2
  · cases h; exact List.nil_infix

theorem fields_infix {z zct ct tag aad : Bytes} {i : Nat} (hz : zct <:+: z)
    (h : EncHandler.fields z zct i = .ok (ct, tag, aad)) : ct <:+: z ∧ tag <:+: z ∧ aad <:+: z := by
  rw [EncHandler.fields] at h
  split at h
  · obtain ⟨⟨t, k⟩, h1, h⟩ := (Res.bind_eq_ok _ _ _).mp h
    dsimp only at h
    split at h
    · obtain ⟨⟨a, l⟩, h2, h⟩ := (Res.bind_eq_ok _ _ _).mp h
      cases h
      exact ⟨hz, smartUnpack_infix h1, smartUnpack_infix h2⟩
    · cases h
      exact ⟨hz, smartUnpack_infix h1, List.nil_infix⟩
  · cases h
    exact ⟨List.nil_infix, hz, List.nil_infix⟩

theorem decAad_ok {auth' auth key : Bytes} {e : AuthEnc}
    (h : EncHandler.decAad auth' auth (some { key := key }) = .ok e) :
    e = { key := key, aad := aadOf (if auth' = [] then auth else auth'), aadSet := true } := by
  by_cases h0 : auth' = auth ∨ auth' = [] ∨ auth = []
  · rw [decAad_eq _ _ _ h0] at h; cases h; rfl
  · simp only [not_or] at h0
    rw [EncHandler.decAad, if_pos] at h
    · cases h
    · exact ⟨List.length_pos_iff.mpr h0.2.1, fun h => h0.2.2 (List.length_eq_zero_iff.mp h), fun h => h0.1 h.symm⟩

/-- C52, authenticity: what a handler decrypts contains a tag for the ciphertext under the key, the IV and the
authentication data of the handler; a handler without authentication data takes it from the ciphertext. -/
theorem C52_authentic (g : Gcm) (hash : Bytes → Bytes) (key : Bytes) (mode : EncMode) (b64 : Bool)
    (h : EncHandler) (hn : EncHandler.new key mode b64 = .ok h) (a c pt : Bytes)
    (hd : (h.setAuth hash a).decrypt g c = .ok pt) :
    ∃ iv ct aad, let z := if b64 then B64.decode c else c
      iv <:+: z ∧ ct <:+: z ∧ g.mac key iv (if aad = [] then List.replicate 16 0 else aad) ct <:+: z ∧
      (if (h.setAuth hash a).auth = [] then aad <:+: z else aad = (h.setAuth hash a).auth) ∧
      pt = g.crypt key iv 0 ct := by
  obtain ⟨hk, rfl, rfl⟩ := new_enc hn
  rw [setAuth_eq, EncHandler.decrypt] at hd
  obtain ⟨⟨iv, i⟩, h1, hd⟩ := (Res.bind_eq_ok _ _ _).mp hd
  obtain ⟨⟨zct, j⟩, h2, hd⟩ := (Res.bind_eq_ok _ _ _).mp hd
  dsimp only at h1 h2 hd
  rw [asRuntime_ok] at hd
  obtain ⟨⟨ct, tag, aad⟩, h3, hd⟩ := (Res.bind_eq_ok _ _ _).mp hd
  obtain ⟨e, h4, hd⟩ := (Res.bind_eq_ok _ _ _).mp hd
  obtain ⟨r, hr, hd⟩ := (Res.bind_eq_ok _ _ _).mp hd
  dsimp only at h3 h4 hr hd
  obtain ⟨i1, i2, i3⟩ := fields_infix (smartUnpack_infix h2) h3
  obtain rfl := decAad_ok h4
  generalize (EncHandler.setAuth hash _ a).auth = auth at *
  have hl : tag.length = 16 := by
    rw [AuthEnc.decrypt] at hr
    split at hr
    · cases hr
    · next h => exact Decidable.not_not.mp h
  have hinit : ∃ c, GcmCtx.init key iv = .ok c := by
    rw [AuthEnc.decrypt, if_neg (by simp [aesBlock, hl])] at hr
    obtain ⟨c, hc, -⟩ := (Res.bind_eq_ok _ _ _).mp hr
    exact ⟨c, hc⟩
  obtain ⟨hk32, hiv0⟩ : key.length = 32 ∧ iv ≠ [] := by
    obtain ⟨c, hc⟩ := hinit
    rw [GcmCtx.init] at hc
    split at hc
    · cases hc
    · next hx =>
      simp only [symKeyBytes, not_or] at hx
      exact ⟨by omega, hx.2⟩
  have ht : key.take 32 = key := List.take_of_length_le (by omega)
  rw [AuthEnc.decrypt_eq _ _ _ _ _ _ (Nat.le_of_eq hk32.symm) hiv0 hl, ht] at hr
  by_cases hm : g.mac key iv (aadOf (if auth = [] then aad else auth)) ct = tag
  · rw [if_pos hm] at hr
    cases hr
    cases hd
    refine ⟨iv, ct, if auth = [] then aad else auth, smartUnpack_infix h1, i1, ?_, ?_, rfl⟩
    · rw [← hm] at i2; exact i2
    · split
      · exact i3
      · rfl
  · rw [if_neg hm] at hr
    cases hr
    cases hd

/-! ### C56: keys as bytes -/

/-- C56: a key object without ID (what `keygen` makes) survives export and import. Partial: the key data has 16
or 32 bytes. -/
theorem C56_plain_round_trip_partial (k this : SymKey) (rnd : Bytes)
    (hk : k.version = libraryVersion ∧ k.alg = 0 ∧ k.uid = [] ∧ k.id = [])
    (hd : k.data.length = 16 ∨ k.data.length = 32) :
    this.load k.exportBytes rnd = .ok (none, k) := by
  obtain ⟨ver, alg, uid, id, data⟩ := k
  obtain ⟨rfl, rfl, rfl, rfl⟩ := hk
  dsimp only at hd
  have hd0 : data ≠ [] := by rintro rfl; simp at hd
  have h1 := BS.smartUnpack_zero [libraryVersion, 0] (BS.smartPack [] data) (by simp) (by simp)
  have h2 := BS.smartUnpack_at (BS.smartPack [] [libraryVersion, 0]) data [] hd0 (by omega)
  rw [List.append_nil] at h2
  rw [SymKey.load, SymKey.exportBytes, SymKey.header, List.nil_append, BS.smartPack_append (BS.smartPack [] _)]
  rw [if_neg (by simp [BS.smartPack]), h1, Res.ok_bind]
  dsimp only
  rw [if_neg (by simp)]
  show (BS.atR [libraryVersion, 0] 1 >>= _) = _
  rw [BS.atR_succ, BS.atR_zero, Res.ok_bind, if_neg (by simp [uidLen]), Res.ok_bind, h2, Res.ok_bind]
  dsimp only
  rw [SymKey.setSymmetricKey, if_neg (by simp only [shortKeyBytes, symKeyBytes]; omega)]
  rfl

/-- C56: a key object with ID survives export and import. Partial: the key data has 16 or 32 bytes. -/
theorem C56_named_round_trip_partial (k k' this : SymKey) (id rnd rnd' data : Bytes) (uid : Option Bytes)
    (alg : UInt8) (hr : rnd.length = 16) (hid : id.length < 2 ^ 31) (hn : SymKey.new id uid alg rnd = .ok k)
    (hk : k.setSymmetricKey data = .ok k') :
    this.load k'.exportBytes rnd' = .ok (none, k') := by
  unfold SymKey.new at hn
  split at hn
  · cases hn
  next hid0 =>
  obtain ⟨a, ha, hn2⟩ := (Res.bind_eq_ok _ _ _).mp hn
  clear hn
  split at hn2
  · cases hn2
  next halg =>
  have halg' := Decidable.not_not.mp halg
  have haa : a = alg := by
    rcases halg' with rfl | rfl | rfl <;> (rw [getSchemeID] at ha; cases ha; rfl)
  subst haa
  obtain ⟨u, hu, huL⟩ : ∃ u, SymKey.pickUid uid rnd = u ∧ u.length = 16 := by
    refine ⟨_, rfl, ?_⟩
    unfold SymKey.pickUid
    split
    · split
      · next h => exact h
      · exact hr
    · exact hr
  rw [hu] at hn2
  cases hn2
  rw [SymKey.setSymmetricKey] at hk
  split at hk
  · cases hk
  next hdl =>
  cases hk
  have hd : data.length = 16 ∨ data.length = 32 := by
    simp only [shortKeyBytes, symKeyBytes] at hdl; omega
  have hd0 : data ≠ [] := by rintro rfl; simp at hd
  have hL : (libraryVersion :: a :: (u ++ id)).length = 18 + id.length := by
    simp only [List.length_cons, List.length_append, huL]; omega
  have h1 := BS.smartUnpack_zero (libraryVersion :: a :: (u ++ id)) (BS.smartPack [] data) (by simp) (by omega)
  have h2 := BS.smartUnpack_at (BS.smartPack [] (libraryVersion :: a :: (u ++ id))) data [] hd0 (by omega)
  rw [List.append_nil] at h2
  have hpos := List.length_pos_iff.mpr (BS.smartPack_length_pos (libraryVersion :: a :: (u ++ id)) (by simp))
  rw [SymKey.load, SymKey.exportBytes, SymKey.header, BS.smartPack_append (BS.smartPack [] _)]
  dsimp only
  rw [if_neg (by rw [List.length_append]; omega), h1, Res.ok_bind]
  dsimp only
  rw [if_neg (by omega), BS.atR_succ, BS.atR_zero, Res.ok_bind, if_pos (by simp only [uidLen]; omega)]
  have e1 : BS.getSubset (libraryVersion :: a :: (u ++ id)) 2 uidLen = u := by
    rw [BS.getSubset, if_pos (by simp only [uidLen]; omega)]
    show (u ++ id).take 16 = u
    rw [List.take_append_of_le_length (by omega), List.take_of_length_le (by omega)]
  have e2 : BS.getSubset (libraryVersion :: a :: (u ++ id)) (2 + uidLen)
      ((libraryVersion :: a :: (u ++ id)).length - uidLen - 2) = id := by
    rw [BS.getSubset, if_pos (by simp only [uidLen]; omega), hL]
    show ((u ++ id).drop 16).take (18 + id.length - 16 - 2) = id
    rw [show (16 : Nat) = u.length from huL.symm, List.drop_left, List.take_of_length_le (by omega)]
  rw [e1, e2]
  unfold SymKey.new
  rw [if_neg hid0, ha, Res.ok_bind, if_neg halg]
  rw [SymKey.pickUid]
  rw [if_pos (show u.length = uidLen from huL), Res.ok_bind, h2, Res.ok_bind]
  dsimp only
  rw [SymKey.setSymmetricKey, if_neg (by simp only [shortKeyBytes, symKeyBytes]; omega)]
  rfl

example : ∃ k k', SymKey.new b!"key" none 71 Ex.iv16 = .ok k ∧ k.setSymmetricKey Ex.key32 = .ok k' :=
  ⟨_, _, rfl, rfl⟩

/-- C56 is violated without key data: the export of a key object that has none cannot be imported. -/
theorem C56_no_data_violated (this : SymKey) (rnd : Bytes) :
    this.load ({} : SymKey).exportBytes rnd = .throw .outOfRange := by
  rfl

/-! ### C80: key length -/

/-- C80 is violated: a handler accepts every key of 16 bytes, and encrypting with it reads 32 bytes of key. -/
theorem C80_short_key_violated (g : Gcm) (key : Bytes) (b64 : Bool) (hk : key.length = 16) :
    ∃ h, EncHandler.new key .gcm b64 = .ok h ∧ ∀ iv pt, h.encrypt g iv pt = .ub := by
  refine ⟨{ b64 := b64, auth := [], mode := .gcm, gcm := some { key := key } }, ?_, ?_⟩
  · rw [EncHandler.new, EncHandler.setKeyBytes, SymKey.setSymmetricKey,
      if_neg (by simp only [shortKeyBytes, symKeyBytes]; omega)]
    rfl
  · intro iv pt
    rw [EncHandler.encrypt]
    dsimp only
    rw [AuthEnc.set_eq, AuthEnc.encrypt, GcmCtx.init_short _ _ (by dsimp only; omega)]
    rfl

/-- C80, what holds: with a key of 32 bytes encryption is defined, for every message and IV. -/
theorem C80_encrypt_defined_partial (g : Gcm) (hash : Bytes → Bytes) (key : Bytes) (mode : EncMode) (b64 : Bool)
    (h : EncHandler) (hn : EncHandler.new key mode b64 = .ok h) (hk : key.length = 32) (a iv pt : Bytes)
    (hiv : iv.length = 16) : ∃ c, (h.setAuth hash a).encrypt g iv pt = .ok c := by
  obtain ⟨-, rfl, rfl⟩ := new_enc hn
  have hiv0 : iv ≠ [] := by rintro rfl; cases hiv
  rw [setAuth_eq]
  exact ⟨_, enc_enc g _ _ _ _ _ hk hiv0⟩

/-- C80: a key is accepted exactly when it has 16 or 32 bytes and the mode is GCM. -/
theorem C80_accepted_iff (key : Bytes) (mode : EncMode) (b64 : Bool) :
    (∃ h, EncHandler.new key mode b64 = .ok h) ↔ mode = .gcm ∧ (key.length = 16 ∨ key.length = 32) := by
  constructor
  · rintro ⟨h, hn⟩
    obtain ⟨h1, h2, -⟩ := new_enc hn
    exact ⟨h2, h1⟩
  · rintro ⟨rfl, hk⟩
    refine ⟨{ b64 := b64, auth := [], mode := .gcm, gcm := some { key := key } }, ?_⟩
    rw [EncHandler.new, EncHandler.setKeyBytes, SymKey.setSymmetricKey,
      if_neg (by simp only [shortKeyBytes, symKeyBytes]; omega)]
    rfl

/-- C80: a handler made without a key dereferences a null pointer when used. -/
theorem C80_no_key_violated (g : Gcm) (iv pt : Bytes) : ({} : EncHandler).encrypt g iv pt = .ub := rfl

/-! ### C84: failures of the string interface -/

/-- C84 is violated: decryption of strings returns the empty string for a ciphertext with a wrong tag, which is
also what it returns for a correctly encrypted empty message. -/
theorem C84_silent_failure_violated (g : Gcm) (key : Bytes) (b64 : Bool) (h : EncHandler)
    (hn : EncHandler.new key .gcm b64 = .ok h) (hk : key.length = 32) (iv ct tag : Bytes) (hiv : iv.length = 16)
    (hct : ct ≠ []) (hlen : ct.length < 2 ^ 32) (ht : tag.length = 16)
    (hbad : tag ≠ g.mac key iv (List.replicate 16 0) ct) :
    (∃ c, h.encryptStr g iv [] = .ok c ∧ h.decryptStr g c = .ok []) ∧
    (let z := BS.smartPack [] iv ++ (BS.smartPack [] ct ++ BS.smartPack [] tag)
     h.decryptStr g (if b64 then B64.encode z else z) = .ok []) := by
  have hid : (h.setAuth id []) = h := by
    obtain ⟨-, -, rfl⟩ := new_enc hn
    rfl
  constructor
  · obtain ⟨c, h1, h2⟩ := C52_round_trip_partial g id key .gcm b64 h hn hk [] [] iv [] (Or.inl rfl) hiv
      (Or.inr rfl) (by simp)
    rw [hid] at h1 h2
    exact ⟨c, by rw [EncHandler.encryptStr, h1]; rfl, by rw [EncHandler.decryptStr, h2]; rfl⟩
  · obtain ⟨-, -, rfl⟩ := new_enc hn
    have hiv0 : iv ≠ [] := by rintro rfl; cases hiv
    have htk : key.take 32 = key := List.take_of_length_le (by omega)
    have := dec_enc g b64 [] [] key iv ct tag hiv0 (by omega) (Or.inl hct) hlen ht (by simp)
    rw [BS.smartPack_nil, List.append_nil] at this
    intro z
    rw [EncHandler.decryptStr, this, decAad_eq _ _ _ (Or.inl rfl), Res.ok_bind,
      AuthEnc.decrypt_eq _ _ _ _ _ _ (Nat.le_of_eq hk.symm) hiv0 ht, htk, if_neg]
    · rfl
    · exact fun h => hbad h.symm

example : List.replicate 16 1 ≠ Ex.toy.mac Ex.key32 Ex.iv16 (List.replicate 16 0) [1, 2, 3] := by decide +kernel

/-- C84, what holds: a non-empty string returned by decryption is a correct decryption. -/
theorem C84_nonempty_partial (g : Gcm) (h : EncHandler) (c pt : Bytes) (hp : pt ≠ [])
    (hd : h.decryptStr g c = .ok pt) : h.decrypt g c = .ok pt := by
  rw [EncHandler.decryptStr] at hd
  generalize h.decrypt g c = r at *
  cases r with
  | throw e =>
    cases e <;> first | (cases hd; exact absurd rfl hp) | cases hd
  | _ => exact hd

/-! ### C85: malformed ciphertexts -/

/-- C85 is violated: a ciphertext whose IV field has an unknown type byte is decrypted with an empty IV buffer. -/
theorem C85_empty_iv_violated (g : Gcm) (key auth : Bytes) (h : SymHandle)
    (hn : SymHandle.new key auth false = .ok h) (x : UInt8) (t : Bytes) (ht : t.length = 16) :
    h.decrypt g ([0] ++ (BS.smartPack [] [x] ++ BS.smartPack [] t)) = .ub := by
  obtain ⟨hk, rfl⟩ := new_handle hn
  have ht0 : t ≠ [] := by rintro rfl; cases ht
  have h0 : BS.smartUnpack ([0] ++ (BS.smartPack [] [x] ++ BS.smartPack [] t)) 0 = .ok ([], 1) := rfl
  have h1 := BS.smartUnpack_at [0] [x] (BS.smartPack [] t) (by simp) (by simp)
  have h2 := BS.smartUnpack_at ([0] ++ BS.smartPack [] [x]) t [] ht0 (by omega)
  rw [List.append_nil, List.append_assoc] at h2
  rw [SymHandle.decrypt]
  dsimp only
  rw [if_neg (by simp), h0, Res.ok_bind]
  dsimp only
  rw [show (1 : Nat) = List.length [(0 : UInt8)] from rfl, h1, Res.ok_bind]
  dsimp only
  rw [h2, Res.ok_bind]
  dsimp only
  rw [AuthEnc.decrypt, if_neg (by simp [aesBlock, ht]), GcmCtx.init, if_pos (Or.inr rfl)]
  rfl

/-- C85, what holds: a handle meets every ciphertext with a result or an exception, unless the IV field is
empty. -/
theorem C85_handle_defined_partial (g : Gcm) (key auth : Bytes) (b64 : Bool) (h : SymHandle)
    (hn : SymHandle.new key auth b64 = .ok h) (c : Bytes)
    (hiv : ∀ i, BS.smartUnpack (if b64 then B64.decode c else c) 0 ≠ .ok ([], i)) :
    (h.decrypt g c).Defined := by
  obtain ⟨hk, rfl⟩ := new_handle hn
  rw [SymHandle.decrypt, asRuntime_defined]
  refine Res.defined_bind _ _ (BS.smartUnpack_defined _ _) ?_
  rintro ⟨iv, i⟩ h1
  refine Res.defined_bind _ _ (BS.smartUnpack_defined _ _) ?_
  rintro ⟨ct, j⟩ -
  refine Res.defined_bind _ _ (BS.smartUnpack_defined _ _) ?_
  rintro ⟨tag, k⟩ -
  dsimp only at h1 ⊢
  have hiv0 : iv ≠ [] := by rintro rfl; exact hiv i h1
  refine Res.defined_bind _ _ ?_ ?_
  · by_cases hl : tag.length = 16
    · rw [SymHandle.cipher_eq, AuthEnc.decrypt_eq _ _ _ _ _ _ (Nat.le_of_eq hk.symm) hiv0 hl]; trivial
    · rw [AuthEnc.decrypt, if_pos (show tag.length ≠ aesBlock from hl)]; trivial
  · intro r _
    cases r <;> trivial

theorem fields_defined (z zct : Bytes) (i : Nat) : (EncHandler.fields z zct i).Defined := by
  rw [EncHandler.fields]
  split
  · refine Res.defined_bind _ _ (BS.smartUnpack_defined _ _) ?_
    rintro ⟨t, k⟩ -
    dsimp only
    split
    · exact Res.defined_bind _ _ (BS.smartUnpack_defined _ _) fun _ _ => trivial
    · trivial
  · trivial

/-- C85 for encryption handlers with a key of 32 bytes. -/
theorem C85_handler_defined_partial (g : Gcm) (hash : Bytes → Bytes) (key : Bytes) (mode : EncMode) (b64 : Bool)
    (h : EncHandler) (hn : EncHandler.new key mode b64 = .ok h) (hk : key.length = 32) (a c : Bytes)
    (hiv : ∀ i, BS.smartUnpack (if b64 then B64.decode c else c) 0 ≠ .ok ([], i)) :
    ((h.setAuth hash a).decrypt g c).Defined := by
  obtain ⟨-, rfl, rfl⟩ := new_enc hn
  rw [setAuth_eq, EncHandler.decrypt]
  refine Res.defined_bind _ _ (BS.smartUnpack_defined _ _) ?_
  rintro ⟨iv, i⟩ h1
  refine Res.defined_bind _ _ (BS.smartUnpack_defined _ _) ?_
  rintro ⟨zct, j⟩ -
  dsimp only at h1 ⊢
  have hiv0 : iv ≠ [] := by rintro rfl; exact hiv i h1
  rw [asRuntime_defined]
  refine Res.defined_bind _ _ ?_ ?_
  · exact fields_defined _ _ _
  rintro ⟨ct, tag, aad⟩ -
  dsimp only
  refine Res.defined_bind _ _ ?_ ?_
  · rw [EncHandler.decAad]
    split
    · trivial
    · split
      · trivial
      · split <;> trivial
  intro e he
  obtain rfl := decAad_ok he
  refine Res.defined_bind _ _ ?_ ?_
  · by_cases hl : tag.length = 16
    · rw [AuthEnc.decrypt_eq _ _ _ _ _ _ (Nat.le_of_eq hk.symm) hiv0 hl]; trivial
    · rw [AuthEnc.decrypt, if_pos (show tag.length ≠ aesBlock from hl)]; trivial
  · intro r _
    cases r <;> trivial

example : ∀ i, BS.smartUnpack (BS.smartPack [] Ex.iv16) 0 ≠ .ok ([], i) := by
  intro i h
  rw [show BS.smartUnpack (BS.smartPack [] Ex.iv16) 0 = .ok (Ex.iv16, 18) by decide +kernel] at h
  cases h

end Sym
end Abe
