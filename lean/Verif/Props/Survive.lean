import Verif.Props.Bytes
import Verif.Props.Container
import Verif.Props.Library
import Verif.Props.Utils
/-!
# Exactly which values survive the encoders of byte strings, integers, scheme identifiers and inputs (C144)
-/
set_option linter.unusedSimpArgs false
set_option linter.unusedSectionVars false
set_option autoImplicit false
namespace Abe
open BS

/-! ### Lengths beyond the length fields -/

theorem be32_mod (n : Nat) : be32 n = be32 (n % 2 ^ 32) := by
  have h : ∀ k, k ≤ 24 → UInt8.ofNat (n / 2 ^ k) = UInt8.ofNat (n % 2 ^ 32 / 2 ^ k) := by
    intro k hk
    apply UInt8.toNat_inj.mp
    rw [UInt8.toNat_ofNat', UInt8.toNat_ofNat']
    have e : (2 : Nat) ^ 32 = 2 ^ k * 2 ^ (32 - k) := by rw [← pow_add]; congr 1; omega
    rw [e, Nat.mod_mul_right_div_self]
    have d : (2 : Nat) ^ 8 ∣ 2 ^ (32 - k) := Nat.pow_dvd_pow 2 (by omega)
    exact (Nat.mod_mod_of_dvd _ d).symm
  have h0 := h 0 (by omega)
  simp only [pow_zero, Nat.div_one] at h0
  unfold be32
  rw [h 24 (by omega), h 16 (by omega), h 8 (by omega), h0]

/-- A payload of any length: as many bytes are read back as the length field can say. Exactly payloads shorter than
2^32 bytes survive. -/
theorem C144_pack (pre b suf : Bytes) :
    unpack (pack pre b ++ suf) pre.length = .ok (b.take (b.length % 2 ^ 32), pre.length + 4 + b.length % 2 ^ 32) ∧
    (unpack (pack pre b ++ suf) pre.length = .ok (b, (pack pre b).length) ↔ b.length < 2 ^ 32) := by
  have hlt : b.length % 2 ^ 32 < 2 ^ 32 := Nat.mod_lt _ (by decide)
  have hle : b.length % 2 ^ 32 ≤ b.length := Nat.mod_le _ _
  have hl : (b.take (b.length % 2 ^ 32)).length = b.length % 2 ^ 32 := by rw [List.length_take]; omega
  have e : pack pre b ++ suf = pack pre (b.take (b.length % 2 ^ 32)) ++ (b.drop (b.length % 2 ^ 32) ++ suf) := by
    simp only [pack, hl, be32_mod b.length, List.append_assoc, List.append_cancel_left_eq]
    rw [← List.append_assoc, List.take_append_drop]
  have key : unpack (pack pre b ++ suf) pre.length =
      .ok (b.take (b.length % 2 ^ 32), pre.length + 4 + b.length % 2 ^ 32) := by
    rw [e, C32_pack_roundtrip pre _ _ (by rw [hl]; exact hlt)]
    simp only [pack, List.length_append, hl, be32, List.length_cons, List.length_nil]
  refine ⟨key, ?_⟩
  rw [key]
  simp only [Res.ok.injEq, Prod.mk.injEq, pack, List.length_append, be32, List.length_cons, List.length_nil]
  constructor
  · rintro ⟨_, h⟩
    omega
  · intro h
    rw [Nat.mod_eq_of_lt h, List.take_length]
    exact ⟨rfl, rfl⟩

example : unpack (pack [9] [1, 2, 3] ++ [7]) 1 = .ok ([1, 2, 3], 8) := by decide

theorem smartUnpack_moves {b r : Bytes} {i j : Nat} (h : smartUnpack b i = .ok (r, j)) : i < j := by
  unfold smartUnpack at h
  obtain ⟨ty, h1, h2⟩ := (Res.bind_eq_ok _ _ _).mp h
  clear h
  split at h2
  · unfold unpack get32bits at h2
    obtain ⟨x, hx, h3⟩ := (Res.bind_eq_ok _ _ _).mp h2
    obtain ⟨b0, _, hx⟩ := (Res.bind_eq_ok _ _ _).mp hx
    obtain ⟨b1, _, hx⟩ := (Res.bind_eq_ok _ _ _).mp hx
    obtain ⟨b2, _, hx⟩ := (Res.bind_eq_ok _ _ _).mp hx
    obtain ⟨b3, _, hx⟩ := (Res.bind_eq_ok _ _ _).mp hx
    cases hx
    obtain ⟨y, _, h3⟩ := (Res.bind_eq_ok _ _ _).mp h3
    cases h3
    omega
  · split at h2
    · unfold unpack16bits get16bits at h2
      obtain ⟨x, hx, h3⟩ := (Res.bind_eq_ok _ _ _).mp h2
      obtain ⟨b0, _, hx⟩ := (Res.bind_eq_ok _ _ _).mp hx
      obtain ⟨b1, _, hx⟩ := (Res.bind_eq_ok _ _ _).mp hx
      cases hx
      obtain ⟨y, _, h3⟩ := (Res.bind_eq_ok _ _ _).mp h3
      cases h3
      omega
    · split at h2
      · unfold unpack8bits at h2
        obtain ⟨x, _, h3⟩ := (Res.bind_eq_ok _ _ _).mp h2
        obtain ⟨y, _, h3⟩ := (Res.bind_eq_ok _ _ _).mp h3
        cases h3
        omega
      · cases h2
        omega

/-- With the short form: what is read from a non-empty payload, and exactly which payloads survive. -/
theorem C144_smart_pack (pre b suf : Bytes) :
    (b ≠ [] → ∃ j, smartUnpack (smartPack pre b ++ suf) pre.length = .ok (b.take (b.length % 2 ^ 32), j)) ∧
    (smartUnpack (smartPack pre b ++ suf) pre.length = .ok (b, (smartPack pre b).length) ↔
      b ≠ [] ∧ b.length < 2 ^ 32) := by
  by_cases h0 : b = []
  · subst h0
    refine ⟨fun h => absurd rfl h, ⟨fun h => ?_, fun h => absurd rfl h.1⟩⟩
    have := smartUnpack_moves h
    simp [smartPack] at this
  · by_cases hlt : b.length < 2 ^ 32
    · have := C33_smartPack_roundtrip_partial pre b suf h0 hlt
      refine ⟨fun _ => ⟨_, by rw [this, Nat.mod_eq_of_lt hlt, List.take_length]⟩, fun _ => ⟨h0, hlt⟩, fun _ => this⟩
    · have hb : 65535 < b.length := by
        have : (65535 : Nat) < 2 ^ 32 := by decide
        omega
      have e : smartPack pre b = pack (pre ++ [0xC3]) b := by
        simp only [smartPack, if_pos hb, pack]
      have hat : atR (pack (pre ++ [0xC3]) b ++ suf) pre.length = .ok 0xC3 := by
        unfold atR pack
        simp only [List.append_assoc]
        rw [List.getElem?_append_right (Nat.le_refl _)]
        simp
      have hu := (C144_pack (pre ++ [0xC3]) b suf).1
      have hl : (pre ++ [(0xC3 : UInt8)]).length = pre.length + 1 := by simp
      rw [hl] at hu
      have key : smartUnpack (smartPack pre b ++ suf) pre.length =
          .ok (b.take (b.length % 2 ^ 32), pre.length + 1 + 4 + b.length % 2 ^ 32) := by
        rw [e]
        unfold smartUnpack
        rw [hat]
        simp only [Res.ok_bind, if_true]
        exact hu
      refine ⟨fun _ => ⟨_, key⟩, fun h => ?_, fun h => absurd h.2 hlt⟩
      rw [key, e] at h
      simp only [Res.ok.injEq, Prod.mk.injEq, pack, List.length_append, be32, List.length_cons, List.length_nil] at h
      refine ⟨h0, ?_⟩
      have : b.length % 2 ^ 32 < 2 ^ 32 := Nat.mod_lt _ (by decide)
      omega

example : ([5] : Bytes) ≠ [] ∧ ([5] : Bytes).length < 2 ^ 32 := by decide

/-! ### Serialized byte strings -/

theorem beVal_be32 (n : Nat) : beVal (be32 n) = n % 2 ^ 32 := by
  rw [be32_mod]
  have h : n % 2 ^ 32 < 2 ^ 32 := Nat.mod_lt _ (by decide)
  generalize n % 2 ^ 32 = m at h
  simp only [be32, beVal, List.foldl_cons, List.foldl_nil, UInt8.toNat_ofNat']
  simp only [Nat.reducePow] at *
  omega

/-- What reading a serialized string leaves in the target, and exactly when that is the string. -/
theorem C144_serialize (b target : Bytes) :
    deserialize target (serialize b) = (if b ≠ [] ∧ b.length < 2 ^ 32 then b else target) ∧
    (deserialize target (serialize b) = b ↔ (b ≠ [] ∧ b.length < 2 ^ 32) ∨ target = b) := by
  have key : deserialize target (serialize b) = (if b ≠ [] ∧ b.length < 2 ^ 32 then b else target) := by
    by_cases h : b ≠ [] ∧ b.length < 2 ^ 32
    · rw [if_pos h]; exact C34_serialize_roundtrip_partial b target h.2 (.inl h.1)
    · rw [if_neg h]
      have hl : (serialize b).length = b.length + 5 := by simp [serialize, be32]
      have e : ((serialize b).drop 1).take 4 = be32 b.length := by simp [serialize, be32]
      apply C34_deserialize_malformed
      by_cases h0 : b = []
      · left; simp [serialize, be32, h0]
      · right
        have hge : ¬ b.length < 2 ^ 32 := fun hlt => h ⟨h0, hlt⟩
        rw [e, beVal_be32, hl]
        have : b.length % 2 ^ 32 < 2 ^ 32 := Nat.mod_lt _ (by decide)
        omega
  refine ⟨key, ?_⟩
  rw [key]
  by_cases h : b ≠ [] ∧ b.length < 2 ^ 32
  · rw [if_pos h]; exact ⟨fun _ => .inl h, fun _ => rfl⟩
  · rw [if_neg h]; exact ⟨.inr, fun h' => h'.resolve_left h⟩

example : deserialize [1] (serialize []) = [1] ∧ deserialize [1] (serialize [2]) = [2] := by decide

/-! ### Other encoders -/

/-- `bytes + "text"` appends the text exactly when there is nothing to append. -/
theorem C144_plus_string (b s : Bytes) : plusString b s = b ++ s ↔ s = [] :=
  ⟨fun h => Classical.byContradiction fun hs => C38_plus_string_violated b s hs h,
    fun h => by rw [h]; exact C38_plus_string_partial b⟩

/-- An integer survives exactly when it is read into an object of the same width. -/
theorem C144_integer (n this : UInteger) :
    (UInteger.deserialize this n.serialize = .ok n ↔ this.bits = n.bits) ∧
    (UInteger.deserializeChecked this n.serialize = .ok n ↔ this.bits = n.bits) := by
  obtain ⟨h1, h2⟩ := C73_value_partial n this
  rw [h1, h2]
  obtain ⟨v, w⟩ := n
  simp

/-- A scheme identifier survives being written as a name exactly when it is one of 0, 60, 71, 100, 101 and 102. -/
theorem C144_scheme_names (x : UInt8) :
    (∃ s, schemeToString x = .ok s ∧ stringToScheme s = x) ↔ x ∈ ([0, 60, 71, 100, 101, 102] : List UInt8) := by
  constructor
  · rintro ⟨s, h1, h2⟩
    have hn := (C70_round_trip_partial x s h1).mp h2
    have hx : x ∈ schemeIds := by
      by_contra hc
      rw [((C70_accepted x).2 hc).2] at h1; cases h1
    revert hx hn
    simp only [schemeIds, List.mem_cons, List.not_mem_nil, or_false]
    tauto
  · intro h
    simp only [List.mem_cons, List.not_mem_nil, or_false] at h
    rcases h with rfl | rfl | rfl | rfl | rfl | rfl <;> exact ⟨_, rfl, by decide⟩

/-- A copied function input is the input exactly when it is not a policy. -/
theorem C144_copied_input (f : FInput) : f.copy = f ↔ ∀ p, f ≠ .policy p := by
  cases f <;> simp [FInput.copy]

example : UInteger.deserialize ⟨0, 8⟩ (UInteger.serialize ⟨7, 8⟩) = .ok ⟨7, 8⟩ := by decide

end Abe
