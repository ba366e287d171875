import Verif.Model.Kdf
/-!
# Key derivation: C58, C59

`block` and `rfcExtract`/`rfcBlock` are the specification: block `n` (from 1) of the concatenation KDF of NIST SP
800-56A, and the two stages of HKDF (RFC 5869).
-/
set_option linter.unusedSimpArgs false
set_option linter.unusedSectionVars false
set_option autoImplicit false
namespace Abe
namespace Kdf

/-- Block `n` of the concatenation KDF: hash of counter, prefix, secret and other information. -/
def block (md : Digest) (pre : UInt8) (Z info : Bytes) (n : Nat) : Bytes :=
  md.fn (BS.be32 n ++ [pre] ++ Z ++ info)

/-! ### DeriveKey -/

theorem poke_length {arr : Bytes} {i : Nat} {src out : Bytes} (h : poke arr i src = .ok out) :
    out.length = arr.length := by
  unfold poke at h
  split at h
  · cases h; simp; omega
  · cases h

theorem poke_get {arr : Bytes} {i : Nat} {src out : Bytes} (h : poke arr i src = .ok out) (j : Nat) :
    out[j]? = if i ≤ j ∧ j < i + src.length then src[j - i]? else arr[j]? := by
  unfold poke at h
  split at h
  · cases h
    rename_i hl
    split
    · rename_i hj
      rw [List.append_assoc, List.getElem?_append_right (by simp; omega),
        List.getElem?_append_left (by simp; omega)]
      congr 1
      simp; omega
    · rename_i hj
      by_cases h1 : j < i
      · rw [List.append_assoc, List.getElem?_append_left (by simp; omega), List.getElem?_take_of_lt h1]
      · rw [List.getElem?_append_right (by simp; omega), List.getElem?_drop]
        congr 1
        simp; omega
  · cases h

/-- The buffer with another counter. -/
theorem setFirst (n m : Nat) (rest : Bytes) :
    BS.setFirstBytes (BS.be32 n ++ rest) m = BS.be32 m ++ rest := by
  simp [BS.setFirstBytes, BS.be32]

/-- The loop: block `m + i` of the remaining ones is written at `ptr + i * L`, everything else is kept. -/
theorem deriveLoop_get (md : Digest) (L : Nat) (hL : 32 ≤ L) (rest : Bytes) :
    ∀ (n : Nat) (count : UInt32) (ptr : Nat) (arr : Bytes), ptr + n * L ≤ arr.length → count.toNat + n < 2 ^ 32 →
    ∃ out, deriveLoop md L n count (BS.be32 count.toNat ++ rest) ptr arr = .ok out ∧ out.length = arr.length ∧
      ∀ j, out[j]? =
        if ptr ≤ j ∧ j < ptr + n * L ∧ (j - ptr) % L < 32 then
          (md.fn (BS.be32 (count.toNat + (j - ptr) / L) ++ rest))[(j - ptr) % L]?
        else arr[j]? := by
  intro n
  induction n with
  | zero =>
    intro count ptr arr _ _
    refine ⟨arr, rfl, rfl, fun j => ?_⟩
    rw [if_neg (by omega)]
  | succ n ih =>
    intro count ptr arr hlen hc
    have hn : (n + 1) * L = n * L + L := by rw [Nat.succ_mul]
    have hm : (md.fn (BS.be32 count.toNat ++ rest)).length = 32 := md.length _
    obtain ⟨a1, h1⟩ : ∃ a1, poke arr ptr (md.fn (BS.be32 count.toNat ++ rest)) = .ok a1 := by
      unfold poke
      rw [if_pos (by omega)]
      exact ⟨_, rfl⟩
    have hc1 : (count + 1).toNat = count.toNat + 1 := by
      rw [UInt32.toNat_add]
      simp only [UInt32.toNat_ofNat, UInt32.reduceToNat]
      omega
    have hl1 := poke_length h1
    obtain ⟨out, h2, h2l, h2g⟩ := ih (count + 1) (ptr + L) a1 (by omega) (by omega)
    refine ⟨out, ?_, by omega, fun j => ?_⟩
    · simp only [deriveLoop, h1, Res.ok_bind, setFirst]
      exact h2
    · rw [h2g j]
      by_cases hj : ptr + L ≤ j
      · have e : j - ptr = (j - (ptr + L)) + L := by omega
        have e1 : (j - ptr) % L = (j - (ptr + L)) % L := by rw [e, Nat.add_mod_right]
        have e2 : (j - ptr) / L = (j - (ptr + L)) / L + 1 := by rw [e, Nat.add_div_right _ (by omega)]
        rw [e1, e2, hc1]
        by_cases hr : j < ptr + (n + 1) * L ∧ (j - (ptr + L)) % L < 32
        · rw [if_pos (by omega), if_pos (by omega),
            show count.toNat + 1 + (j - (ptr + L)) / L = count.toNat + ((j - (ptr + L)) / L + 1) by omega]
        · rw [if_neg (by omega), if_neg (by omega), poke_get h1, if_neg (by omega)]
      · rw [if_neg (by omega), poke_get h1, hm]
        by_cases h3 : ptr ≤ j ∧ j < ptr + 32
        · have e1 : (j - ptr) % L = j - ptr := Nat.mod_eq_of_lt (by omega)
          have e2 : (j - ptr) / L = 0 := Nat.div_eq_of_lt (by omega)
          rw [if_pos h3, e1, e2, if_pos (by omega), Nat.add_zero]
        · rw [if_neg h3]
          by_cases h4 : ptr ≤ j
          · have e1 : (j - ptr) % L = j - ptr := Nat.mod_eq_of_lt (by omega)
            rw [if_neg (by omega)]
          · rw [if_neg (by omega)]

/-- The derived key exactly: byte `j` is byte `j % hashLen` of block `j / hashLen + 1` if that is one of the 32 bytes of
a digest, else it is zero. -/
theorem C58_bytes_partial (md : Digest) (k : Kdf) (hk : 32 ≤ k.hashLen.toNat) (Z info : Bytes) (len : UInt32)
    (hs : 5 + Z.length + info.length ≤ k.maxInputLen.toNat)
    (hi : len.toNat + k.hashLen.toNat ≤ 2 ^ 31) :
    ∃ out, deriveKey md k Z len info = .ok out ∧ out.length = len.toNat / 8 ∧
      ∀ j, j < len.toNat / 8 → out[j]? =
        if j % k.hashLen.toNat < 32 then (block md k.hashPrefix Z info (j / k.hashLen.toNat + 1))[j % k.hashLen.toNat]?
        else some 0 := by
  obtain ⟨L, hL⟩ : ∃ L, L = k.hashLen.toNat := ⟨_, rfl⟩
  rw [← hL] at hk hi ⊢
  obtain ⟨r, hr⟩ : ∃ r, r = (len.toNat + L - 1) / L := ⟨_, rfl⟩
  have hr1 : len.toNat ≤ r * L := by
    have := Nat.div_add_mod (len.toNat + L - 1) L
    have h2 := Nat.mod_lt (len.toNat + L - 1) (show 0 < L by omega)
    rw [← hr, Nat.mul_comm] at this
    omega
  have hr2 : r * L ≤ len.toNat + L - 1 := by rw [hr]; exact Nat.div_mul_le_self _ _
  have hr3 : r ≤ r * L := Nat.le_mul_of_pos_right _ (by omega)
  have hb : BS.setFirstBytes [] 1 ++ [k.hashPrefix] ++ Z ++ info = BS.be32 (1 : UInt32).toNat ++ ([k.hashPrefix] ++ Z ++ info) := by
    simp [BS.setFirstBytes]
  have hbl : (BS.setFirstBytes [] 1 ++ [k.hashPrefix] ++ Z ++ info).length = 5 + Z.length + info.length := by
    simp [BS.setFirstBytes, BS.be32]; omega
  obtain ⟨arr, h1, h1l, h1g⟩ := deriveLoop_get md L hk ([k.hashPrefix] ++ Z ++ info) r 1 0 (List.replicate (r * L + 1) 0)
    (by simp) (by simp only [UInt32.reduceToNat]; omega)
  rw [List.length_replicate] at h1l
  refine ⟨arr.take (len.toNat / 8), ?_, by rw [List.length_take]; omega, fun j hj => ?_⟩
  · unfold deriveKey
    simp only [← hL, ← hr, hbl]
    rw [if_neg (by omega), if_neg (by omega), if_neg (by omega), if_neg (by omega), hb, h1, Res.ok_bind]
    rw [if_neg (by omega)]
  · rw [List.getElem?_take_of_lt hj, h1g j]
    simp only [Nat.zero_add, Nat.sub_zero, Nat.zero_le, true_and]
    by_cases h2 : j % L < 32
    · rw [if_pos ⟨by omega, h2⟩, if_pos h2]
      simp only [block, UInt32.reduceToNat, List.append_assoc, Nat.add_comm]
    · rw [if_neg (by omega), if_neg h2, List.getElem?_replicate, if_pos (by omega)]

/-- C58: up to 256 bits the default KDF returns a prefix of the first hash block. -/
theorem C58_short_keys_partial (md : Digest) (Z info : Bytes) (len : UInt32) (hl : len.toNat ≤ 256)
    (hs : 5 + Z.length + info.length < 2 ^ 32) :
    deriveKey md {} Z len info = .ok ((block md 0x2B Z info 1).take (len.toNat / 8)) := by
  obtain ⟨out, h1, h2, h3⟩ := C58_bytes_partial md {} (by decide) Z info len
    (by show _ ≤ (0xFFFFFFFF : UInt32).toNat; simp only [UInt32.reduceToNat]; omega)
    (by show _ + (256 : UInt32).toNat ≤ _; simp only [UInt32.reduceToNat]; omega)
  rw [h1]
  congr 1
  apply List.ext_getElem?
  intro j
  by_cases hj : j < len.toNat / 8
  · rw [h3 j hj, List.getElem?_take_of_lt hj]
    have e1 : j % 256 = j := Nat.mod_eq_of_lt (by omega)
    have e2 : j / 256 = 0 := Nat.div_eq_of_lt (by omega)
    show (if j % 256 < 32 then _ else _) = _
    rw [if_pos (by omega)]
    show (block md 0x2B Z info (j / 256 + 1))[j % 256]? = _
    rw [e1, e2]
  · rw [List.getElem?_eq_none (by omega), List.getElem?_eq_none (by rw [List.length_take]; omega)]

/-- C58 fails for longer keys: whatever the hash function, the secret and the other information, every byte of a
512 bit key after the first 32 is zero (the position in the array moves by 256 bytes for each block of 32). -/
theorem C58_zero_bytes_violated (md : Digest) (Z info : Bytes) (hs : 5 + Z.length + info.length < 2 ^ 32) :
    deriveKey md {} Z 512 info = .ok (block md 0x2B Z info 1 ++ List.replicate 32 0) := by
  obtain ⟨out, h1, h2, h3⟩ := C58_bytes_partial md {} (by decide) Z info 512
    (by show _ ≤ (0xFFFFFFFF : UInt32).toNat; simp only [UInt32.reduceToNat]; omega) (by decide)
  rw [h1]
  congr 1
  have hb : (block md 0x2B Z info 1).length = 32 := md.length _
  have h2' : out.length = 64 := h2
  apply List.ext_getElem?
  intro j
  by_cases hj : j < 64
  · rw [h3 j hj]
    have e1 : j % 256 = j := Nat.mod_eq_of_lt (by omega)
    have e2 : j / 256 = 0 := Nat.div_eq_of_lt (by omega)
    show (if j % 256 < 32 then (block md 0x2B Z info (j / 256 + 1))[j % 256]? else _) = _
    rw [e1, e2]
    by_cases h4 : j < 32
    · rw [if_pos h4, List.getElem?_append_left (by omega)]
    · rw [if_neg h4, List.getElem?_append_right (by omega), List.getElem?_replicate, if_pos (by omega)]
  · rw [List.getElem?_eq_none (by omega), List.getElem?_eq_none (by simp [hb]; omega)]

/-- C58: the largest lengths overflow the size of the array. -/
theorem C58_huge_keys_violated (md : Digest) (Z info : Bytes) (len : UInt32) (hl : 2 ^ 31 - 256 < len.toNat)
    (hs : 5 + Z.length + info.length < 2 ^ 32) :
    deriveKey md {} Z len info = .ub := by
  have hbl : (BS.setFirstBytes [] 1 ++ [(0x2B : UInt8)] ++ Z ++ info).length = 5 + Z.length + info.length := by
    simp [BS.setFirstBytes, BS.be32]; omega
  have := len.toNat_lt
  unfold deriveKey
  simp only [UInt32.reduceToNat, hbl]
  rw [if_neg (by decide), if_neg (by omega), if_neg (by omega), if_pos (by omega)]

/-- The limit of `OpenABE_MAX_KDF_BITLENGTH` blocks is never reached: `DeriveKey` only raises an error when the input
of the hash is too long. -/
theorem C58_only_error (md : Digest) (k : Kdf) (Z info : Bytes) (len : UInt32) (e : Err)
    (h : deriveKey md k Z len info = .throw e) :
    e = .invalidLength ∧ k.maxInputLen.toNat < 5 + Z.length + info.length := by
  have hbl : (BS.setFirstBytes [] 1 ++ [k.hashPrefix] ++ Z ++ info).length = 5 + Z.length + info.length := by
    simp [BS.setFirstBytes, BS.be32]; omega
  have hloop : ∀ (n : Nat) (c : UInt32) (b : Bytes) (p : Nat) (arr : Bytes) (e : Err),
      deriveLoop md k.hashLen.toNat n c b p arr ≠ .throw e := by
    intro n
    induction n with
    | zero => intro c b p arr e h; cases h
    | succ n ih =>
      intro c b p arr e h
      unfold deriveLoop poke at h
      split at h
      · exact ih _ _ _ _ _ h
      · cases h
  unfold deriveKey at h
  split at h
  · cases h
  · rename_i h0
    have hr : (len.toNat + k.hashLen.toNat - 1) / k.hashLen.toNat ≤ len.toNat := by
      rw [Nat.div_le_iff_le_mul (by omega)]
      have := Nat.le_mul_of_pos_right len.toNat (show 0 < k.hashLen.toNat by omega)
      omega
    have := len.toNat_lt
    simp only [hbl] at h
    rw [if_neg (by omega)] at h
    split at h
    · cases h; exact ⟨rfl, by assumption⟩
    · split at h
      · cases h
      · cases hd : deriveLoop md k.hashLen.toNat ((len.toNat + k.hashLen.toNat - 1) / k.hashLen.toNat) 1
          (BS.setFirstBytes [] 1 ++ [k.hashPrefix] ++ Z ++ info) 0
          (List.replicate ((len.toNat + k.hashLen.toNat - 1) / k.hashLen.toNat * k.hashLen.toNat + 1) 0) with
        | ok a =>
          rw [hd] at h
          simp only [Res.ok_bind] at h
          split at h <;> cases h
        | throw e' => exact absurd hd (hloop _ _ _ _ _ _)
        | ub => rw [hd] at h; cases h
        | abort => rw [hd] at h; cases h

/-- A hash function for the examples. -/
def exDigest : Digest := ⟨fun x => List.replicate 32 (UInt8.ofNat x.length), fun x => by simp⟩

example : deriveKey exDigest {} [1, 2] 128 [3] = .ok (List.replicate 16 8) := by decide +kernel
example : (5 : Nat) + ([1, 2] : Bytes).length + ([3] : Bytes).length < 2 ^ 32 := by decide
example : deriveKey exDigest ({ maxInputLen := 7 } : Kdf) [1, 2] 128 [3] = .throw .invalidLength := by decide +kernel

/-! ### KDF2 and HKDF -/

/-- C59: KDF2 derives exactly the requested number of bytes, from everything but the empty key or for length zero. -/
theorem C59_kdf2 (kdf : Nat → Bytes → Bytes) (hk : ∀ n x, (kdf n x).length = n) (key : Bytes) (len : UInt32) :
    (key ≠ [] ∧ len ≠ 0 → ∃ out, computeKDF2 kdf key len = .ok out ∧ out = kdf len.toNat key ∧
      out.length = len.toNat) ∧
    (key = [] ∨ len = 0 → computeKDF2 kdf key len = .throw .invalidInput) := by
  refine ⟨fun ⟨h1, h2⟩ => ⟨_, ?_, rfl, hk _ _⟩, fun h => ?_⟩
  · unfold computeKDF2
    rw [if_neg (by simpa using h1), if_neg (by
      intro h; exact h2 (UInt32.toNat_inj.mp (by simpa using h)))]
  · unfold computeKDF2
    rcases h with h | h
    · rw [if_pos (by simp [h])]
    · subst h
      split <;> rfl

example : ∃ kdf : Nat → Bytes → Bytes, ∀ n x, (kdf n x).length = n :=
  ⟨fun n _ => List.replicate n 7, fun n x => by simp⟩

/-- The blocks of the second stage of RFC 5869: `T(0)` is empty, `T(n)` is the MAC of `T(n-1)`, `info` and `n`. -/
def rfcBlock (mac : Hmac) (prk info : Bytes) : Nat → Bytes
  | 0 => []
  | n + 1 => mac.fn prk (rfcBlock mac prk info n ++ info ++ [UInt8.ofNat (n + 1)])

/-- The concatenation `T(1) ‖ … ‖ T(n)`. -/
def rfcBlocks (mac : Hmac) (prk info : Bytes) : Nat → Bytes
  | 0 => []
  | n + 1 => rfcBlocks mac prk info n ++ rfcBlock mac prk info (n + 1)

/-- RFC 5869 HKDF-Extract: the salt is the key of the MAC. -/
def rfcExtract (mac : Hmac) (salt ikm : Bytes) : Bytes :=
  mac.fn (if salt = [] then List.replicate 32 0 else salt) ikm

theorem rfcBlocks_length (mac : Hmac) (prk info : Bytes) (n : Nat) :
    (rfcBlocks mac prk info n).length = 32 * n := by
  induction n with
  | zero => rfl
  | succ n ih => simp only [rfcBlocks, List.length_append, ih, rfcBlock, mac.length]; omega

theorem rfcBlocks_prefix (mac : Hmac) (prk info : Bytes) (n m : Nat) :
    rfcBlocks mac prk info n <+: rfcBlocks mac prk info (n + m) := by
  induction m with
  | zero => exact List.prefix_refl _
  | succ m ih => exact ih.trans (by rw [Nat.add_succ, rfcBlocks]; exact List.prefix_append _ _)

/-- The loop returns all blocks up to the first number that suffices. -/
theorem hkdfLoop_eq (mac : Hmac) (prk info : Bytes) (len : Nat) :
    ∀ (m n : Nat), len - 32 * n = m → ∃ r, n ≤ r ∧ len ≤ 32 * r ∧
      hkdfLoop mac prk info len n (rfcBlock mac prk info n) (rfcBlocks mac prk info n) = rfcBlocks mac prk info r := by
  intro m
  induction m using Nat.strongRecOn with
  | _ m ih =>
    intro n hn
    rw [hkdfLoop, rfcBlocks_length]
    by_cases h : 32 * n < len
    · rw [if_pos h]
      obtain ⟨r, h1, h2, h3⟩ := ih (len - 32 * (n + 1)) (by omega) (n + 1) rfl
      exact ⟨r, by omega, h2, h3⟩
    · rw [if_neg h]
      exact ⟨n, Nat.le_refl _, by omega, rfl⟩

/-- C59: the output is a prefix of the blocks of the second stage of RFC 5869 (with the counter cut to 8 bits), the
first stage being the MAC of the hashed salt under the input key. -/
theorem C59_hkdf_output (md : Digest) (mac : Hmac) (key salt info : Bytes) (len r : Nat) (hr : len ≤ 32 * r) :
    (computeHKDF md mac key salt info len).1 =
      (rfcBlocks mac (mac.fn key (md.fn (if salt = [] then List.replicate 32 0 else salt))) info r).take len := by
  have e : (if salt.length = 0 then BS.fillBuffer 0 32 else salt) = if salt = [] then List.replicate 32 0 else salt := by
    by_cases h : salt = []
    · subst h; rfl
    · rw [if_neg (by simpa using h), if_neg h]
  simp only [computeHKDF, e]
  obtain ⟨r', -, h2, h3⟩ := hkdfLoop_eq mac (mac.fn key (md.fn (if salt = [] then List.replicate 32 0 else salt))) info len
    _ 0 rfl
  rw [show hkdfLoop mac _ info len 0 [] [] = _ from h3]
  rcases Nat.le_total r' r with h | h
  · obtain ⟨m, rfl⟩ := Nat.exists_eq_add_of_le h
    obtain ⟨t, ht⟩ := rfcBlocks_prefix mac (mac.fn key (md.fn (if salt = [] then List.replicate 32 0 else salt))) info r' m
    rw [← ht, List.take_append_of_le_length (by rw [rfcBlocks_length]; exact h2)]
  · obtain ⟨m, rfl⟩ := Nat.exists_eq_add_of_le h
    obtain ⟨t, ht⟩ := rfcBlocks_prefix mac (mac.fn key (md.fn (if salt = [] then List.replicate 32 0 else salt))) info r m
    rw [← ht, List.take_append_of_le_length (by rw [rfcBlocks_length]; exact hr)]

/-- C59: exactly the requested number of bytes. -/
theorem C59_hkdf_length (md : Digest) (mac : Hmac) (key salt info : Bytes) (len : Nat) :
    (computeHKDF md mac key salt info len).1.length = len := by
  rw [C59_hkdf_output md mac key salt info len len (by omega), List.length_take, rfcBlocks_length]
  omega

/-- C59: shorter outputs are prefixes of longer ones. -/
theorem C59_hkdf_prefix (md : Digest) (mac : Hmac) (key salt info : Bytes) (a b : Nat) (h : a ≤ b) :
    (computeHKDF md mac key salt info a).1 = ((computeHKDF md mac key salt info b).1).take a := by
  rw [C59_hkdf_output md mac key salt info a b (by omega), C59_hkdf_output md mac key salt info b b (by omega),
    List.take_take, Nat.min_eq_left h]

/-- C59: the caller's salt is only changed if it is empty, and the call with the changed salt gives the same key. -/
theorem C59_hkdf_salt (md : Digest) (mac : Hmac) (key salt info : Bytes) (len : Nat) :
    (salt ≠ [] → (computeHKDF md mac key salt info len).2 = salt) ∧
    (computeHKDF md mac key (computeHKDF md mac key salt info len).2 info len).1 =
      (computeHKDF md mac key salt info len).1 := by
  by_cases h : salt = []
  · subst h
    exact ⟨fun h => absurd rfl h, rfl⟩
  · have e : (if salt.length = 0 then BS.fillBuffer 0 32 else salt) = salt := by rw [if_neg (by simpa using h)]
    refine ⟨fun _ => e, ?_⟩
    have : (computeHKDF md mac key salt info len).2 = salt := e
    rw [this]

/-- A MAC for the examples: key and message are not interchangeable. -/
def exMac : Hmac := ⟨fun k x => List.replicate 31 (UInt8.ofNat k.length) ++ [UInt8.ofNat x.length], fun k x => by simp⟩

/-- C59: this is not the HKDF of RFC 5869, even for one block: key and salt have changed places in the first stage, and
the salt is hashed. -/
theorem C59_rfc5869_violated : ∃ (md : Digest) (mac : Hmac) (key salt info : Bytes),
    (computeHKDF md mac key salt info 32).1 ≠ (rfcBlocks mac (rfcExtract mac salt key) info 1).take 32 :=
  ⟨exDigest, ⟨fun k x => List.replicate 31 (k.headD 0) ++ [UInt8.ofNat x.length], fun k x => by simp⟩,
    [1], [2], [], by
      rw [C59_hkdf_output _ _ _ _ _ 32 1 (by decide)]
      decide +kernel⟩

/-- C59: RFC 5869 refuses more than 255 blocks; here they are derived, and block 257 gets the counter of block 1. -/
theorem C59_counter_violated (md : Digest) (mac : Hmac) (key info : Bytes) :
    ∃ prk prev, (computeHKDF md mac key [] info 32).1 = mac.fn prk ([] ++ info ++ [1]) ∧
      (computeHKDF md mac key [] info (32 * 257)).1.drop (32 * 256) = mac.fn prk (prev ++ info ++ [1]) := by
  refine ⟨mac.fn key (md.fn (List.replicate 32 0)), rfcBlock mac (mac.fn key (md.fn (List.replicate 32 0))) info 256,
    ?_, ?_⟩
  · rw [C59_hkdf_output md mac key [] info 32 1 (by decide), if_pos rfl, rfcBlocks, rfcBlocks, List.nil_append,
      List.take_of_length_le (by rw [rfcBlock, mac.length]; decide)]
    rfl
  · rw [C59_hkdf_output md mac key [] info (32 * 257) 257 (by decide), if_pos rfl,
      List.take_of_length_le (by rw [rfcBlocks_length]; decide), rfcBlocks,
      List.drop_left' (by rw [rfcBlocks_length])]
    rfl

/-- C59: exporting a key of a handle gives as many bytes as the key has. -/
theorem C59_export_key (md : Digest) (mac : Hmac) (key : Bytes) :
    (handleExportKey md mac key).length = key.length := C59_hkdf_length md mac key [] b!"export key" key.length

example : (1 : Nat) ≤ 32 ∧ (computeHKDF exDigest exMac [1] [] [] 1).1.length = 1 :=
  ⟨by decide, C59_hkdf_length _ _ _ _ _ _⟩

end Kdf
end Abe

