import Verif.Proof.Container
/-!
# Exactly which bytes are read as integers, and as which (C167)
-/
set_option linter.unusedSimpArgs false
set_option linter.unusedSectionVars false
set_option autoImplicit false
namespace Abe

/-- The number that four bytes write, the most significant first. -/
def fourBytes (a b c d : UInt8) : Nat := a.toNat * 2 ^ 24 + b.toNat * 2 ^ 16 + c.toNat * 2 ^ 8 + d.toNat

theorem fourBytes_lt (a b c d : UInt8) : fourBytes a b c d < 2 ^ 32 := by
  have := a.toNat_lt; have := b.toNat_lt; have := c.toNat_lt; have := d.toNat_lt
  unfold fourBytes; omega

theorem beVal_four (a b c d : UInt8) : BS.beVal [a, b, c, d] = fourBytes a b c d := by
  simp only [BS.beVal, List.foldl_cons, List.foldl_nil, fourBytes]; omega

theorem fourBytes_inj {a b c d a' b' c' d' : UInt8} (h : fourBytes a b c d = fourBytes a' b' c' d') :
    a = a' ∧ b = b' ∧ c = c' ∧ d = d' := by
  have := a.toNat_lt; have := b.toNat_lt; have := c.toNat_lt; have := d.toNat_lt
  have := a'.toNat_lt; have := b'.toNat_lt; have := c'.toNat_lt; have := d'.toNat_lt
  unfold fourBytes at h
  refine ⟨?_, ?_, ?_, ?_⟩ <;> apply UInt8.toNat_inj.mp <;> omega

theorem read_five (this : UInteger) (t b1 b2 b3 b4 : UInt8) (rest : Bytes) :
    UInteger.deserialize this (t :: b1 :: b2 :: b3 :: b4 :: rest) =
      .ok ⟨UInt32.ofNat (fourBytes b1 b2 b3 b4), this.bits⟩ := by
  rw [← beVal_four]
  simp [UInteger.deserialize, UInteger.read, BS.atR]

theorem read_short (this : UInteger) (input : Bytes) (h : input.length < 5) :
    UInteger.deserialize this input = .throw .outOfRange := by
  unfold UInteger.deserialize UInteger.read
  match input, h with
  | [], _ => rfl
  | [x0], _ => rfl
  | [x0, x1], _ => rfl
  | [x0, x1, x2], _ => rfl
  | [x0, x1, x2, x3], _ => rfl
  | x0 :: x1 :: x2 :: x3 :: x4 :: r, h => simp at h; omega

theorem ofNat_iff {v : UInt32} {k : Nat} (hk : k < 2 ^ 32) : UInt32.ofNat k = v ↔ v.toNat = k := by
  constructor
  · rintro rfl
    simp only [UInt32.toNat_ofNat']
    exact Nat.mod_eq_of_lt hk
  · intro h
    apply UInt32.toNat_inj.mp
    simp only [UInt32.toNat_ofNat']
    rw [Nat.mod_eq_of_lt hk, h]

/-- The reader of include/lsss: it succeeds iff there are five bytes, whatever the first is and whatever follows; the
value is the number the next four bytes write and the width is that of the object. Fewer bytes raise the error of the
vector. -/
theorem C167_unchecked (this : UInteger) (input : Bytes) :
    (∀ n, UInteger.deserialize this input = .ok n ↔ ∃ t b1 b2 b3 b4 rest, input = t :: b1 :: b2 :: b3 :: b4 :: rest ∧
      n.val.toNat = fourBytes b1 b2 b3 b4 ∧ n.bits = this.bits) ∧
    (UInteger.deserialize this input = .throw .outOfRange ↔ input.length < 5) := by
  by_cases h : input.length < 5
  · rw [read_short this input h]
    refine ⟨fun n => ⟨fun h' => (by cases h'), ?_⟩, by simp [h]⟩
    rintro ⟨t, b1, b2, b3, b4, rest, rfl, -⟩
    simp at h; omega
  · match input, h with
    | t :: b1 :: b2 :: b3 :: b4 :: rest, h =>
      rw [read_five]
      refine ⟨fun n => ?_, by simp⟩
      constructor
      · intro h'
        simp only [Res.ok.injEq] at h'
        subst h'
        exact ⟨t, b1, b2, b3, b4, rest, rfl, (ofNat_iff (fourBytes_lt _ _ _ _)).mp rfl, rfl⟩
      · rintro ⟨t', c1, c2, c3, c4, rest', e, hv, hb⟩
        obtain ⟨rfl, rfl, rfl, rfl, rfl, rfl⟩ : t = t' ∧ b1 = c1 ∧ b2 = c2 ∧ b3 = c3 ∧ b4 = c4 ∧ rest = rest' := by
          simpa using e
        obtain ⟨v, bits⟩ := n
        simp only at hv hb
        rw [(ofNat_iff (fourBytes_lt _ _ _ _)).mpr hv, hb]
    | [], h => simp at h
    | [_], h => simp at h
    | [_, _], h => simp at h
    | [_, _, _], h => simp at h
    | [_, _, _, _], h => simp at h

/-- The reader of include/abe: the same if the first byte is the tag, an error for serialisation iff there is another
first byte, and the error of the vector iff there is no byte or the tag with fewer than four bytes. -/
theorem C167_checked (this : UInteger) (input : Bytes) :
    (∀ n, UInteger.deserializeChecked this input = .ok n ↔ ∃ b1 b2 b3 b4 rest,
      input = 0xA1 :: b1 :: b2 :: b3 :: b4 :: rest ∧ n.val.toNat = fourBytes b1 b2 b3 b4 ∧ n.bits = this.bits) ∧
    (UInteger.deserializeChecked this input = .throw .serializationFailed ↔ ∃ t rest, input = t :: rest ∧ t ≠ 0xA1) ∧
    (UInteger.deserializeChecked this input = .throw .outOfRange ↔
      input = [] ∨ ∃ rest, input = 0xA1 :: rest ∧ rest.length < 4) := by
  cases input with
  | nil =>
    have e : UInteger.deserializeChecked this [] = .throw .outOfRange := rfl
    rw [e]
    refine ⟨fun n => ⟨fun h => (by cases h), ?_⟩, ?_, by simp⟩
    · rintro ⟨_, _, _, _, _, h, -⟩; cases h
    · simp
  | cons t rest =>
    by_cases ht : t = 0xA1
    · subst ht
      have e : UInteger.deserializeChecked this (0xA1 :: rest) = UInteger.deserialize this (0xA1 :: rest) := rfl
      rw [e]
      obtain ⟨h1, h2⟩ := C167_unchecked this (0xA1 :: rest)
      refine ⟨fun n => (h1 n).trans ?_, ?_, ?_⟩
      · constructor
        · rintro ⟨t, b1, b2, b3, b4, r, e, h⟩
          obtain ⟨rfl, rfl⟩ : 0xA1 = t ∧ rest = b1 :: b2 :: b3 :: b4 :: r := by simpa using e
          exact ⟨b1, b2, b3, b4, r, rfl, h⟩
        · rintro ⟨b1, b2, b3, b4, r, e, h⟩
          exact ⟨_, b1, b2, b3, b4, r, e, h⟩
      · constructor
        · intro h
          by_cases hl : (0xA1 :: rest : Bytes).length < 5
          · rw [read_short _ _ hl] at h; cases h
          · match rest, hl with
            | b1 :: b2 :: b3 :: b4 :: r, _ => rw [read_five] at h; cases h
            | [], hl => simp at hl
            | [_], hl => simp at hl
            | [_, _], hl => simp at hl
            | [_, _, _], hl => simp at hl
        · rintro ⟨t, r, e, hne⟩
          cases e
          exact absurd rfl hne
      · rw [h2]
        constructor
        · intro h
          exact .inr ⟨rest, rfl, by simp at h; omega⟩
        · rintro (h | ⟨r, e, h⟩)
          · cases h
          · cases e; simp; omega
    · have e : UInteger.deserializeChecked this (t :: rest) = .throw .serializationFailed := by
        simp [UInteger.deserializeChecked, BS.atR, ht]
      rw [e]
      refine ⟨fun n => ⟨fun h => (by cases h), ?_⟩, ?_, ?_⟩
      · rintro ⟨b1, b2, b3, b4, r, h, -⟩; cases h; exact absurd rfl ht
      · simp only [true_iff]; exact ⟨t, rest, rfl, ht⟩
      · simp only [Res.throw.injEq, reduceCtorEq, List.cons_ne_nil, false_or, false_iff]
        rintro ⟨r, h, -⟩; cases h; exact ht rfl

/-- What was written is five bytes, is read back by both readers whatever follows, and gives the same integer iff it is
read into an object of the same width. -/
theorem C167_round_trip (n this : UInteger) (rest : Bytes) :
    n.serialize.length = 5 ∧
    (UInteger.deserialize this (n.serialize ++ rest) = .ok n ↔ this.bits = n.bits) ∧
    (UInteger.deserializeChecked this (n.serialize ++ rest) = .ok n ↔ this.bits = n.bits) := by
  obtain ⟨b1, b2, b3, b4, hs⟩ : ∃ b1 b2 b3 b4, n.serialize = [0xA1, b1, b2, b3, b4] := by
    unfold UInteger.serialize BS.be32
    exact ⟨_, _, _, _, rfl⟩
  have hv : n.val.toNat = fourBytes b1 b2 b3 b4 := by
    have h := UInteger.read_serialize n
    have h' := read_five n 0xA1 b1 b2 b3 b4 []
    rw [← hs] at h'
    simp only [UInteger.deserialize, h, Res.ok_bind, Res.ok.injEq, UInteger.mk.injEq] at h'
    exact (ofNat_iff (fourBytes_lt _ _ _ _)).mp h'.1.symm
  refine ⟨by rw [hs]; rfl, ?_, ?_⟩
  · rw [(C167_unchecked this _).1 n, hs]
    constructor
    · rintro ⟨_, _, _, _, _, _, _, _, h⟩; exact h.symm
    · intro h; exact ⟨_, b1, b2, b3, b4, rest, rfl, hv, h.symm⟩
  · rw [(C167_checked this _).1 n, hs]
    constructor
    · rintro ⟨_, _, _, _, _, _, _, h⟩; exact h.symm
    · intro h; exact ⟨b1, b2, b3, b4, rest, rfl, hv, h.symm⟩

/-- Two integers are written as the same bytes iff their values are equal: the width is not written. -/
theorem C167_written (m n : UInteger) : m.serialize = n.serialize ↔ m.val = n.val := by
  constructor
  · intro h
    have h1 := UInteger.read_serialize m
    have h2 := UInteger.read_serialize n
    rw [h, h2] at h1
    simpa using h1.symm
  · intro h
    simp only [UInteger.serialize, h]

/-- Two byte strings are read as the same integer iff the four bytes after the first are the same. -/
theorem C167_same (this : UInteger) (t u a b c d a' b' c' d' : UInt8) (r r' : Bytes) :
    UInteger.deserialize this (t :: a :: b :: c :: d :: r) = UInteger.deserialize this (u :: a' :: b' :: c' :: d' :: r') ↔
      [a, b, c, d] = [a', b', c', d'] := by
  rw [read_five, read_five]
  constructor
  · intro h
    simp only [Res.ok.injEq, UInteger.mk.injEq, and_true] at h
    have h1 := (ofNat_iff (fourBytes_lt a' b' c' d')).mp h.symm
    have h2 := (ofNat_iff (fourBytes_lt a b c d)).mp (rfl : UInt32.ofNat (fourBytes a b c d) = _)
    obtain ⟨rfl, rfl, rfl, rfl⟩ := fourBytes_inj (h2.symm.trans h1)
    rfl
  · intro h
    obtain ⟨rfl, rfl, rfl, rfl⟩ : a = a' ∧ b = b' ∧ c = c' ∧ d = d' := by simpa using h
    rfl

example : UInteger.deserializeChecked ⟨7, 9⟩ [0xA1, 0, 0, 1, 2, 9] = .ok ⟨258, 9⟩ := by decide
example : UInteger.deserialize ⟨7, 9⟩ [0x00, 0, 0, 1, 2] = .ok ⟨258, 9⟩ := by decide

end Abe
