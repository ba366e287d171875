import Verif.Proof.MaskSize
import Verif.Proof.Scheme
set_option linter.unusedSimpArgs false
set_option linter.unusedSectionVars false
set_option autoImplicit false
/-! # C134: sizes of masks and derived keys -/
namespace Abe
namespace MaskSize

/-- The number of blocks, computed by dividing in `double` and rounding up, is exact for all operands of 32 bits, however the
processor rounds ties. -/
theorem C134_quotient (d : Fdiv) {a b : Nat} (ha : a < 2 ^ 32) (hb : 0 < b) (hb' : b < 2 ^ 32) :
    a ≤ ceilDiv d a b * b ∧ ∀ n, a ≤ n * b → ceilDiv d a b ≤ n := by
  rw [ceilDiv_eq d ha hb hb']
  refine ⟨?_, fun n hn => ?_⟩
  · have := Nat.lt_div_mul_add (a := a + b - 1) hb
    omega
  · rw [Nat.div_le_iff_le_mul_add_pred hb]
    rw [Nat.mul_comm] at hn
    omega

example : ceilDiv someFdiv 4294967295 4294967294 = 2 := by
  rw [ceilDiv_eq _ (by decide) (by decide) (by decide)]

/-- So `DeriveKey` is what `Kdf.deriveKey` says. -/
theorem C134_derived_keys (d : Fdiv) (md : Digest) (k : Kdf) (Z : Bytes) (bits : UInt32) (info : Bytes) :
    deriveKey d md k Z bits info = Kdf.deriveKey md k Z bits info := by
  unfold deriveKey Kdf.deriveKey
  by_cases h : k.hashLen.toNat = 0
  · rw [if_pos h, if_pos h]
  · rw [if_neg h, if_neg h]
    have hb := bits.toNat_lt
    have hk := k.hashLen.toNat_lt
    simp only [ceilDiv_eq d (show bits.toNat < 2 ^ 32 by omega) (show 0 < k.hashLen.toNat by omega) (show k.hashLen.toNat < 2 ^ 32 by omega)]

/-- The room on the stack that the mask for a message of `n` bytes takes. -/
def room (n : Nat) : Nat := (n % 2 ^ 32 + 31) / 32 * 32 + 1

/-- Masks for messages that fit on the stack and are shorter than 2 GiB are those of `Scheme.hashFromBytes`: the function of the other
models is right for them. -/
theorem C134_mask_partial (d : Fdiv) (stack : Nat) (md : Digest) (key msg : Bytes) (hlen : msg.length ≤ 2 ^ 31 - 32)
    (hstack : room msg.length ≤ stack) :
    mask d stack md key msg = BS.xorAssign msg (Scheme.hashFromBytes md.fn key msg.length Scheme.schemeHashPrefix) := by
  unfold mask
  have ht : (UInt32.ofNat msg.length).toNat = msg.length := by
    rw [UInt32.toNat_ofNat']
    omega
  unfold room at hstack
  rw [hashFromBytes_eq, ht, if_neg (by omega), Res.ok_bind]

example : mask someFdiv 100 ⟨fun _ => List.replicate 32 1, fun _ => by simp⟩ [7] [5, 6] = .ok [4, 7] := by
  rw [C134_mask_partial _ _ _ _ _ (by decide) (by decide)]
  decide +kernel

/-- When masking a message is defined, for all lengths: there is a byte of the mask for it, and the array fits. -/
theorem C134_defined_iff (d : Fdiv) (stack : Nat) (md : Digest) (key msg : Bytes) :
    (∃ c, mask d stack md key msg = .ok c) ↔
      (msg.length = 0 ∨ msg.length % 2 ^ 32 ≠ 0) ∧ room msg.length ≤ 2 ^ 31 - 31 ∧ room msg.length ≤ stack := by
  unfold mask room
  have ht : (UInt32.ofNat msg.length).toNat = msg.length % 2 ^ 32 := UInt32.toNat_ofNat'
  have hl := mask_length md Scheme.schemeHashPrefix key (msg.length % 2 ^ 32)
  rw [hashFromBytes_eq, ht]
  by_cases h1 : 2 ^ 31 ≤ (msg.length % 2 ^ 32 + 31) / 32 * 32 ∨ stack < (msg.length % 2 ^ 32 + 31) / 32 * 32 + 1
  · rw [if_pos h1]
    constructor
    · rintro ⟨c, hc⟩
      cases hc
    · rintro ⟨_, _, _⟩
      omega
  · rw [if_neg h1, Res.ok_bind]
    unfold BS.xorAssign
    by_cases h0 : msg.length = 0
    · rw [if_pos h0]
      exact ⟨fun _ => ⟨Or.inl h0, by omega, by omega⟩, fun _ => ⟨_, rfl⟩⟩
    · rw [if_neg h0]
      by_cases hm : 0 < msg.length % 2 ^ 32
      · rw [dif_pos (by omega)]
        exact ⟨fun _ => ⟨Or.inr (by omega), by omega, by omega⟩, fun _ => ⟨_, rfl⟩⟩
      · rw [dif_neg (by omega)]
        constructor
        · rintro ⟨c, hc⟩
          cases hc
        · rintro ⟨h | h, _⟩
          · exact absurd h h0
          · omega

/-- Messages need room on the stack: a message of 8 MiB or more (and less than 4 GiB) cannot be encrypted with a stack of 8 MiB; it is
undefined, in practice the process ends. Ciphertexts whose masked part is that long do the same to whoever decrypts them. -/
theorem C134_stack_violated (d : Fdiv) (stack : Nat) (md : Digest) (key msg : Bytes) (h : stack ≤ msg.length) (h2 : msg.length < 2 ^ 32) :
    mask d stack md key msg = .ub := by
  have ht : (UInt32.ofNat msg.length).toNat = msg.length := by
    rw [UInt32.toNat_ofNat']
    omega
  unfold mask
  rw [hashFromBytes_eq, ht, if_pos (by omega)]
  rfl

example (d : Fdiv) (md : Digest) : mask d (2 ^ 23) md [1] (List.replicate (2 ^ 23) 0) = .ub :=
  C134_stack_violated d _ md _ _ (by rw [List.length_replicate]) (by rw [List.length_replicate]; decide)

/-- The length of a message is cut to 32 bits. From 4 GiB on the mask has the remaining length and is repeated, so that wherever two
places differ by a multiple of it, the masked bytes show the exclusive or of the bytes of the message. -/
theorem C134_repeated_mask_violated (d : Fdiv) (stack : Nat) (md : Digest) (key msg c : Bytes) (hc : mask d stack md key msg = .ok c)
    (i j : Nat) (hi : i < msg.length) (hj : j < msg.length) (hij : i % (msg.length % 2 ^ 32) = j % (msg.length % 2 ^ 32)) :
    ∃ ci cj, c[i]? = some ci ∧ c[j]? = some cj ∧ ci ^^^ cj = msg[i] ^^^ msg[j] := by
  have ht : (UInt32.ofNat msg.length).toNat = msg.length % 2 ^ 32 := UInt32.toNat_ofNat'
  have hl := mask_length md Scheme.schemeHashPrefix key (msg.length % 2 ^ 32)
  unfold mask at hc
  rw [hashFromBytes_eq, ht] at hc
  split at hc
  · cases hc
  · rw [Res.ok_bind] at hc
    unfold BS.xorAssign at hc
    rw [if_neg (by omega)] at hc
    split at hc
    · rename_i hpos
      obtain rfl := Res.ok.inj hc
      refine ⟨_, _, by rw [List.getElem?_mapIdx, List.getElem?_eq_getElem hi]; rfl,
        by rw [List.getElem?_mapIdx, List.getElem?_eq_getElem hj]; rfl, ?_⟩
      simp only [hl, hij]
      rw [UInt8.xor_assoc, UInt8.xor_comm _ (msg[j] ^^^ _), UInt8.xor_assoc, UInt8.xor_self, UInt8.xor_zero]
    · cases hc

/-- A message of one byte more than 4 GiB is masked with a single byte: one byte of the message gives all of it. -/
theorem C134_single_byte_violated (d : Fdiv) (stack : Nat) (hs : 33 ≤ stack) (md : Digest) (key msg : Bytes) (h : msg.length = 2 ^ 32 + 1) :
    ∃ x c, mask d stack md key msg = .ok c ∧ c = msg.map (fun b => b ^^^ x) := by
  obtain ⟨c, hc⟩ := (C134_defined_iff d stack md key msg).2
    ⟨Or.inr (by rw [h]; decide), by unfold room; rw [h]; decide, by unfold room; rw [h]; exact hs⟩
  have h0 : 0 < msg.length := by omega
  obtain ⟨c0, _, e0, _⟩ := C134_repeated_mask_violated d stack md key msg c hc 0 0 h0 h0 rfl
  have hlen : c.length = msg.length := by
    unfold mask at hc
    rw [hashFromBytes_eq] at hc
    split at hc
    · cases hc
    · rw [Res.ok_bind] at hc
      unfold BS.xorAssign at hc
      rw [if_neg (by omega)] at hc
      split at hc
      · obtain rfl := Res.ok.inj hc
        simp
      · cases hc
  refine ⟨msg[0] ^^^ c0, c, hc, ?_⟩
  apply List.ext_getElem (by rw [hlen, List.length_map])
  intro i h1 h2
  have hi : i < msg.length := by omega
  obtain ⟨ci, c0', e1, e2, hx⟩ := C134_repeated_mask_violated d stack md key msg c hc i 0 hi h0 (by rw [h, show (2 ^ 32 + 1) % 2 ^ 32 = 1 from rfl, Nat.mod_one, Nat.mod_one])
  rw [e0] at e2
  obtain rfl := Option.some.inj e2
  rw [List.getElem?_eq_getElem h1] at e1
  rw [Option.some.inj e1, List.getElem_map, ← UInt8.xor_assoc, ← hx, UInt8.xor_assoc, UInt8.xor_self, UInt8.xor_zero]

/-- A message of exactly 4 GiB, or a multiple of it, has no mask: the remainder by its length 0 is undefined. -/
theorem C134_empty_mask_violated (d : Fdiv) (stack : Nat) (md : Digest) (key msg : Bytes) (h : msg.length ≠ 0) (h2 : msg.length % 2 ^ 32 = 0) :
    ¬ ∃ c, mask d stack md key msg = .ok c := by
  rw [C134_defined_iff]
  rintro ⟨h' | h', _⟩
  · exact h h'
  · exact h' h2

example : (List.replicate (2 ^ 32) (0 : UInt8)).length ≠ 0 ∧ (List.replicate (2 ^ 32) (0 : UInt8)).length % 2 ^ 32 = 0 := by
  rw [List.length_replicate]
  decide
example (d : Fdiv) (md : Digest) : ∃ x c, mask d 100 md [1] (List.replicate (2 ^ 32 + 1) 0) = .ok c ∧
    c = (List.replicate (2 ^ 32 + 1) (0 : UInt8)).map (fun b => b ^^^ x) :=
  C134_single_byte_violated d 100 (by decide) md [1] _ (by rw [List.length_replicate])

/-- Nobody notices: masking twice gives back every message, of whatever length, for which it is defined. -/
theorem C134_twice (d : Fdiv) (stack : Nat) (md : Digest) (key msg c : Bytes) (hc : mask d stack md key msg = .ok c) :
    mask d stack md key c = .ok msg := by
  have ht : (UInt32.ofNat msg.length).toNat = msg.length % 2 ^ 32 := UInt32.toNat_ofNat'
  unfold mask at hc ⊢
  rw [hashFromBytes_eq] at hc ⊢
  split at hc
  · cases hc
  · rename_i hn
    rw [Res.ok_bind] at hc
    unfold BS.xorAssign at hc
    split at hc
    · rename_i h0
      obtain rfl := Res.ok.inj hc
      rw [if_neg hn, Res.ok_bind]
      unfold BS.xorAssign
      rw [if_pos h0]
    · rename_i h0
      split at hc
      · rename_i hpos
        obtain rfl := Res.ok.inj hc
        rw [List.length_mapIdx, if_neg hn, Res.ok_bind]
        unfold BS.xorAssign
        rw [List.length_mapIdx, if_neg h0, dif_pos hpos]
        congr 1
        apply List.ext_getElem (by simp)
        intro i h1 h2
        simp only [List.getElem_mapIdx]
        rw [UInt8.xor_assoc, UInt8.xor_self, UInt8.xor_zero]
      · cases hc

end MaskSize
end Abe
