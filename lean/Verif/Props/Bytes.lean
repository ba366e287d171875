import Verif.Proof.Bytes
/-!
# Properties C30-C38: byte strings, hex, base64, packing
-/
set_option autoImplicit false
namespace Abe
open BS

/-! ## C30 hex -/

/-- C30: upper- and lower-case hex both decode to the original bytes, into any target. -/
theorem C30_hex_roundtrip (b target : Bytes) :
    fromHex target (toHex b) = (true, b) ∧ fromHex target (toLowerHex b) = (true, b) := by
  constructor
  · simp only [fromHex, toHex, hex_all hexUp hexVal_hexUp, hexPairs_flatMap hexUp hexVal_hexUp, hex_len]
    simp
  · simp only [fromHex, toLowerHex, hex_all hexLo hexVal_hexLo, hexPairs_flatMap hexLo hexVal_hexLo,
      hex_len]
    simp

/-- The character set `HEX_CHARS` (specification of a hex digit). -/
def hexDigits : Bytes := b!"0123456789abcdefABCDEF"

theorem hexVal_isSome_iff : ∀ c : UInt8, (hexVal c).isNone = true ↔ c ∉ hexDigits :=
  forall_uint8 (by decide +kernel)

/-- C30: odd length or a foreign character is rejected and the target keeps its contents. -/
theorem C30_hex_rejects (s target : Bytes)
    (h : s.length % 2 = 1 ∨ ∃ c ∈ s, c ∉ hexDigits) :
    fromHex target s = (false, target) := by
  unfold fromHex
  rw [if_pos]
  rcases h with h | ⟨c, hc, h⟩
  · simp [h]
  · have : s.any (fun c => (hexVal c).isNone) = true :=
      List.any_eq_true.mpr ⟨c, hc, (hexVal_isSome_iff c).mpr h⟩
    simp [this]

/-- C30: conversely every other string is accepted. -/
theorem C30_hex_accepts (s target : Bytes)
    (h1 : s.length % 2 = 0) (h2 : ∀ c ∈ s, c ∈ hexDigits) : (fromHex target s).1 = true := by
  unfold fromHex
  rw [if_neg]
  simp only [Bool.or_eq_true, bne_iff_ne, ne_eq, h1, not_true_eq_false, or_false]
  intro h
  obtain ⟨c, hc, h⟩ := List.any_eq_true.mp h
  exact (hexVal_isSome_iff c).mp h (h2 c hc)

example : fromHex [1] (toHex [0, 0xAB, 0xFF]) = (true, [0, 0xAB, 0xFF]) := by decide
example : toHex [0xAB] = b!"AB" ∧ toLowerHex [0xAB] = b!"ab" := by decide
example : fromHex [1, 2] b!"0g" = (false, [1, 2]) := by decide

/-! ## C31 base64 -/

/-- C31: decoding an encoding gives back the bytes, for every length. -/
theorem C31_base64_roundtrip (b : Bytes) : B64.decode (B64.encode b) = b := by
  rw [B64.decode_eq, B64.finish_encode]; rfl

example : B64.encode b!"Man" = b!"TWFu" ∧ B64.encode b!"Ma" = b!"TWE=" ∧ B64.encode b!"M" = b!"TQ==" := by
  decide +kernel

/-! ## C32 pack -/

/-- C32: a packed payload is read back from any position of any buffer. -/
theorem C32_pack_roundtrip (pre b suf : Bytes) (h : b.length < 2 ^ 32) :
    unpack (pack pre b ++ suf) pre.length = .ok (b, (pack pre b).length) := by
  have := unpack_shift pre (be32 b.length ++ b ++ suf) 0
  rw [unpack_zero b suf h] at this
  simp only [pack, List.append_assoc, Nat.add_zero, Res.ok_bind] at *
  rw [this]
  simp [be32]; omega

/-- C32: the variant that appends to an existing buffer. -/
theorem C32_pack_roundtrip_into (pre b suf buf : Bytes) (h : b.length < 2 ^ 32) :
    unpackInto (pack pre b ++ suf) pre.length buf = .ok (buf ++ b, (pack pre b).length) := by
  simp only [unpackInto, C32_pack_roundtrip pre b suf h, Res.ok_bind]

/-- C32: 16- and 32-bit integers. -/
theorem C32_ints_roundtrip (pre suf : Bytes) (n : Nat) :
    (n < 2 ^ 16 → get16bits (pre ++ be16 n ++ suf) pre.length = .ok (n, pre.length + 2)) ∧
    (n < 2 ^ 32 → get32bits (pre ++ be32 n ++ suf) pre.length = .ok (n, pre.length + 4)) := by
  constructor <;> intro h
  · have := get16bits_shift pre (be16 n ++ suf) 0
    rw [get16bits_zero n suf h] at this
    simpa using this
  · have := get32bits_shift pre (be32 n ++ suf) 0
    rw [get32bits_zero n suf h] at this
    simpa using this

example : unpack (pack [9] [1, 2, 3] ++ [7]) 1 = .ok ([1, 2, 3], 8) := by decide

/-! ## C33 smartPack -/

/-- C33 (full statement fails for the empty string, see `C33_smartPack_violated`): every
non-empty byte string is read back from any position of any buffer. -/
theorem C33_smartPack_roundtrip_partial (pre b suf : Bytes) (h0 : b ≠ []) (h : b.length < 2 ^ 32) :
    smartUnpack (smartPack pre b ++ suf) pre.length = .ok (b, (smartPack pre b).length) := by
  rw [smartPack_append]
  have := smartUnpack_shift pre (smartPack [] b ++ suf) 0
  rw [smartUnpack_zero b suf h0 h] at this
  simp only [Res.ok_bind, Nat.add_zero] at this
  simp only [List.append_assoc, this, List.length_append]

/-- C33 violation: packing the empty string leaves no trace, so unpacking raises at the end of a
buffer and otherwise returns the *following* item. -/
theorem C33_smartPack_violated :
    (∀ pre, smartUnpack (smartPack pre []) pre.length = .throw .outOfRange) ∧
    (∀ pre b, b ≠ [] → b.length < 2 ^ 32 →
      smartUnpack (smartPack (smartPack pre []) b) pre.length = .ok (b, (smartPack pre b).length)) := by
  constructor
  · intro pre
    simp [smartPack, smartUnpack, atR]
  · intro pre b h0 h
    have := C33_smartPack_roundtrip_partial pre b [] h0 h
    simp only [List.append_nil] at this
    have e : smartPack pre [] = pre := by simp [smartPack]
    rw [e, this]

example : (smartPack [] (List.replicate 255 7)).length = 257 ∧
    (smartPack [] (List.replicate 256 7)).length = 259 := by decide +kernel

/-! ## C34 serialize -/

/-- C34 (full statement fails for the empty string and a non-empty target): serialization round
trip when the value is non-empty or the target is empty. -/
theorem C34_serialize_roundtrip_partial (b target : Bytes) (h : b.length < 2 ^ 32)
    (hne : b ≠ [] ∨ target = []) : deserialize target (serialize b) = b := by
  by_cases hb : b = []
  · subst hb
    rcases hne with hne | hne
    · exact absurd rfl hne
    · subst hne; rfl
  · have hpos : 0 < b.length := List.length_pos_iff.mpr hb
    have hl : (serialize b).length = b.length + 5 := by simp [serialize, be32]
    unfold deserialize
    rw [if_pos (by omega)]
    have e : ((serialize b).drop 1).take 4 = be32 b.length := by
      simp [serialize, be32]
    simp only [e, beVal_be32 _ h, hl, if_true]
    have : serialize b = (0x1D :: be32 b.length) ++ b := by simp [serialize]
    rw [this]
    exact getSubset_append (0x1D :: be32 b.length) b

/-- C34 violation: an empty value does not overwrite the target. -/
theorem C34_serialize_violated : ∀ target, target ≠ [] → deserialize target (serialize []) ≠ [] := by
  intro target h
  simpa [deserialize, serialize, be32] using h

/-- C34: malformed input (too short, or the length field disagrees) leaves the target unchanged. -/
theorem C34_deserialize_malformed (target input : Bytes)
    (h : input.length ≤ 5 ∨ beVal ((input.drop 1).take 4) + 5 ≠ input.length) :
    deserialize target input = target := by
  unfold deserialize
  split
  · rcases h with h | h
    · omega
    · rw [if_neg (fun e => h e.symm)]
  · rfl

example : deserialize [1] (serialize [7, 8]) = [7, 8] := by decide
example : deserialize [1] [0x1D, 0, 0, 0, 9, 1, 2] = [1] := by decide

/-! ## C35 xor -/

/-- C35: masking twice with the same non-empty mask restores the value, keeps the length and has
no undefined behaviour. -/
theorem C35_xor_involution (x m : Bytes) (hm : m ≠ []) :
    ∃ y, xorAssign x m = .ok y ∧ y.length = x.length ∧ xorAssign y m = .ok x := by
  have hpos : 0 < m.length := List.length_pos_iff.mpr hm
  by_cases hx : x.length = 0
  · exact ⟨x, by simp [xorAssign, hx], rfl, by simp [xorAssign, hx]⟩
  · refine ⟨x.mapIdx fun i v => v ^^^ m[i % m.length]'(Nat.mod_lt _ hpos), ?_, by simp, ?_⟩
    · simp [xorAssign, hx, hpos]
    · simp only [xorAssign, List.length_mapIdx, hx, hpos, if_false, dif_pos, Res.ok.injEq]
      apply List.ext_getElem
      · simp
      · intro i h1 h2
        simp only [List.getElem_mapIdx, UInt8.xor_assoc, UInt8.xor_self, UInt8.xor_zero]

/-- C35: every byte is combined with the mask byte at the position modulo the mask length. -/
theorem C35_xor_spec (x m y : Bytes) (h : xorAssign x m = .ok y) (i : Nat) (hi : i < x.length) :
    ∃ (h' : i < y.length) (h'' : i % m.length < m.length), y[i] = x[i] ^^^ m[i % m.length] := by
  unfold xorAssign at h
  rw [if_neg (by omega)] at h
  split at h
  · rename_i hpos
    simp only [Res.ok.injEq] at h
    subst h
    refine ⟨by simpa using hi, Nat.mod_lt _ hpos, by simp⟩
  · cases h

/-- An empty mask on non-empty data is a division by zero. -/
theorem C35_xor_empty_mask_ub (x : Bytes) (hx : x ≠ []) : xorAssign x [] = .ub := by
  have : x.length ≠ 0 := by simpa using hx
  simp [xorAssign, this]

example : xorAssign [1, 2, 3] [0xFF, 0] = .ok [0xFE, 2, 0xFC] := by decide

/-! ## C36 equality -/

/-- C36: the comparison operator decides equality of the contents. -/
theorem C36_eq_iff (l r : Bytes) : BS.eq l r = true ↔ l = r := by
  unfold BS.eq
  by_cases h : l.length = r.length
  · simp only [h, ne_eq, not_true_eq_false, if_false, beq_iff_eq, foldl_or_eq_zero, true_and]
    exact zipWith_xor_zero l r h
  · simp only [ne_eq, h, not_false_eq_true, if_true, Bool.false_eq_true, false_iff]
    intro e; exact h (congrArg List.length e)

example : BS.eq [1, 2] [1, 2] = true ∧ BS.eq [1, 2] [1, 3] = false ∧ BS.eq [1] [1, 0] = false := by decide

/-! ## C37 decoders -/

/-- C37: every decoder returns a contiguous piece of the input that ends at the new index, or
raises; none of them has undefined behaviour, whatever the bytes and the index are. -/
theorem C37_decoders_in_bounds (b : Bytes) (i : Nat) :
    ((unpack b i).Defined ∧ ∀ r j, unpack b i = .ok (r, j) →
        j = i + 4 + r.length ∧ j ≤ b.length ∧ r = (b.drop (i + 4)).take r.length) ∧
    ((unpack16bits b i).Defined ∧ ∀ r j, unpack16bits b i = .ok (r, j) →
        j = i + 2 + r.length ∧ j ≤ b.length ∧ r = (b.drop (i + 2)).take r.length) ∧
    ((unpack8bits b i).Defined ∧ ∀ r j, unpack8bits b i = .ok (r, j) →
        j = i + 1 + r.length ∧ j ≤ b.length ∧ r = (b.drop (i + 1)).take r.length) :=
  ⟨⟨unpack_defined b i, fun _ _ h => unpack_ok h⟩,
   ⟨unpack16bits_defined b i, fun _ _ h => unpack16bits_ok h⟩,
   ⟨unpack8bits_defined b i, fun _ _ h => unpack8bits_ok h⟩⟩

/-- C37: `smartUnpack` stays in bounds as well; its result is a suffix-aligned slice or empty. -/
theorem C37_smartUnpack_in_bounds (b : Bytes) (i : Nat) :
    (smartUnpack b i).Defined ∧ ∀ r j, smartUnpack b i = .ok (r, j) →
      i < j ∧ j ≤ b.length ∧ r = (b.drop (j - r.length)).take r.length := by
  refine ⟨smartUnpack_defined b i, ?_⟩
  intro r j h
  simp only [smartUnpack] at h
  rw [Res.bind_eq_ok] at h
  obtain ⟨ty, hty, h⟩ := h
  have hlt := atR_lt hty
  split at h
  · have := unpack_ok h
    refine ⟨by omega, by omega, ?_⟩
    rw [show j - r.length = i + 1 + 4 by omega]; exact this.2.2
  · split at h
    · have := unpack16bits_ok h
      refine ⟨by omega, by omega, ?_⟩
      rw [show j - r.length = i + 1 + 2 by omega]; exact this.2.2
    · split at h
      · have := unpack8bits_ok h
        refine ⟨by omega, by omega, ?_⟩
        rw [show j - r.length = i + 1 + 1 by omega]; exact this.2.2
      · simp only [Res.ok.injEq, Prod.mk.injEq] at h
        obtain ⟨h1, h2⟩ := h
        subst h1
        exact ⟨by omega, by omega, by simp⟩

/-- C37: integers are only read inside the buffer. -/
theorem C37_ints_in_bounds (b : Bytes) (i : Nat) :
    (get16bits b i).Defined ∧ (get32bits b i).Defined ∧
    (∀ n j, get16bits b i = .ok (n, j) → j = i + 2 ∧ j ≤ b.length) ∧
    (∀ n j, get32bits b i = .ok (n, j) → j = i + 4 ∧ j ≤ b.length) := by
  refine ⟨get16bits_defined b i, get32bits_defined b i, ?_, ?_⟩
  · intro n j h; have := get16bits_ok h; omega
  · intro n j h; have := get32bits_ok h; omega

example : unpack [0, 0, 0, 9, 1] 0 = .throw .outOfRange := by decide
example : smartUnpack [0xA1, 2, 5, 6, 7] 0 = .ok ([5, 6], 4) := by decide

/-! ## C38 operator+(std::string) -/

/-- C38 violation: `bytes + "text"` never appends the text (unless the text is empty). -/
theorem C38_plus_string_violated (b s : Bytes) (h : s ≠ []) : plusString b s ≠ b ++ s := by
  cases s with
  | nil => exact absurd rfl h
  | cons c s =>
    simp only [plusString, List.head?_cons, Option.getD_some, ne_eq, List.append_cancel_left_eq]
    intro e
    cases hn : c.toNat with
    | zero => rw [hn] at e; cases e
    | succ n =>
      rw [hn, List.replicate_succ] at e
      injection e with e1 e2
      rw [← e1] at hn
      cases hn

/-- C38: the only case in which it is right. -/
theorem C38_plus_string_partial (b : Bytes) : plusString b [] = b ++ [] := by
  simp [plusString]

/-- The operator with another byte string appends it. -/
theorem C38_plus (b c : Bytes) : (plus b c).length = b.length + c.length ∧ (∀ i, i < b.length → (plus b c)[i]? = b[i]?) ∧
    (∀ i, (plus b c)[b.length + i]? = c[i]?) := by
  refine ⟨by simp [plus], fun i h => ?_, fun i => ?_⟩
  · unfold plus; rw [List.getElem?_append_left h]
  · unfold plus; rw [List.getElem?_append_right (by omega)]; congr 1; omega

example : plusString [9] b!"AB" = 9 :: List.replicate 65 0 := by decide

end Abe
