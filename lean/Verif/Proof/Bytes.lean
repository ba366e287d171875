import Verif.Model.ByteString
/-! Helper lemmas about byte strings. -/
set_option linter.unusedSimpArgs false
set_option autoImplicit false
namespace Abe

theorem forall_uint8 {p : UInt8 → Prop} (h : ∀ n : Fin 256, p (UInt8.ofNat n.val)) (x : UInt8) :
    p x := by
  have := h ⟨x.toNat, x.toNat_lt⟩
  simpa using this

namespace BS

theorem atR_append_left {p s : Bytes} {i : Nat} (h : i < p.length) :
    atR (p ++ s) i = .ok p[i] := by
  simp [atR, List.getElem?_append_left h, List.getElem?_eq_getElem h]

theorem atR_append_right (p s : Bytes) (i : Nat) : atR (p ++ s) (p.length + i) = atR s i := by
  simp [atR, List.getElem?_append_right]

theorem atR_zero (x : UInt8) (s : Bytes) : atR (x :: s) 0 = .ok x := rfl
theorem atR_succ (x : UInt8) (s : Bytes) (i : Nat) : atR (x :: s) (i + 1) = atR s i := by
  simp [atR]

theorem copyAt_append (p b : Bytes) (i n : Nat) :
    copyAt (p ++ b) (p.length + i) n = copyAt b i n := by
  induction n generalizing i with
  | zero => rfl
  | succ n ih =>
    have := ih (i + 1)
    simp only [copyAt, atR_append_right]
    rw [show p.length + i + 1 = p.length + (i + 1) from by omega, this]

theorem copyAt_zero (b s : Bytes) : copyAt (b ++ s) 0 b.length = .ok b := by
  induction b with
  | nil => rfl
  | cons x b ih =>
    simp only [List.length_cons, copyAt, List.cons_append, atR_zero, Res.ok_bind]
    have := copyAt_append [x] (b ++ s) 0 b.length
    simp only [List.cons_append, List.nil_append, List.length_cons, List.length_nil] at this
    rw [this, ih]; rfl

theorem copyAt_ok {b : Bytes} {i n : Nat} {r : Bytes} (h : copyAt b i n = .ok r) :
    r = (b.drop i).take n ∧ r.length = n ∧ (n = 0 ∨ i + n ≤ b.length) := by
  induction n generalizing i r with
  | zero => simp only [copyAt, Res.ok.injEq] at h; subst h; simp
  | succ n ih =>
    simp only [copyAt] at h
    rw [Res.bind_eq_ok] at h
    obtain ⟨x, hx, h⟩ := h
    rw [Res.bind_eq_ok] at h
    obtain ⟨r', hr', h⟩ := h
    simp only [Res.ok.injEq] at h
    obtain ⟨e1, e2, e3⟩ := ih hr'
    unfold atR at hx
    split at hx
    · rename_i y hy
      simp only [Res.ok.injEq] at hx
      subst hx
      obtain ⟨hlt, hy'⟩ := List.getElem?_eq_some_iff.mp hy
      subst h
      refine ⟨?_, by simp [e2], Or.inr ?_⟩
      · rw [List.drop_eq_getElem_cons hlt, List.take_succ_cons, ← e1, hy']
      · rcases e3 with e3 | e3 <;> omega
    · cases hx

theorem atR_defined (b : Bytes) (i : Nat) : (atR b i).Defined := by
  unfold atR; split <;> trivial

theorem copyAt_defined (b : Bytes) (i n : Nat) : (copyAt b i n).Defined := by
  induction n generalizing i with
  | zero => trivial
  | succ n ih =>
    apply Res.defined_bind _ _ (atR_defined b i)
    intro x _
    apply Res.defined_bind _ _ (ih _)
    intro r _
    trivial

theorem atR_lt {b : Bytes} {i : Nat} {x : UInt8} (h : atR b i = .ok x) : i < b.length := by
  unfold atR at h
  split at h
  · rename_i y hy
    exact (List.getElem?_eq_some_iff.mp hy).1
  · cases h

theorem get32bits_zero (n : Nat) (s : Bytes) (h : n < 2 ^ 32) :
    get32bits (be32 n ++ s) 0 = .ok (n, 4) := by
  simp only [get32bits, be32, List.cons_append, List.nil_append]
  simp only [atR, List.getElem?_cons_zero, List.getElem?_cons_succ, Nat.zero_add, Res.ok_bind,
    Res.ok.injEq, Prod.mk.injEq, and_true, UInt8.toNat_ofNat']
  simp only [Nat.reducePow] at *
  omega

theorem get16bits_zero (n : Nat) (s : Bytes) (h : n < 2 ^ 16) :
    get16bits (be16 n ++ s) 0 = .ok (n, 2) := by
  simp only [get16bits, be16, List.cons_append, List.nil_append]
  simp only [atR, List.getElem?_cons_zero, List.getElem?_cons_succ, Nat.zero_add, Res.ok_bind,
    Res.ok.injEq, Prod.mk.injEq, and_true, UInt8.toNat_ofNat']
  simp only [Nat.reducePow] at *
  omega

theorem get32bits_shift (p b : Bytes) (i : Nat) :
    get32bits (p ++ b) (p.length + i) =
      (get32bits b i >>= fun q => .ok (q.1, p.length + q.2)) := by
  simp only [get32bits, Nat.add_assoc, atR_append_right]
  cases atR b i <;> try rfl
  cases atR b (i + 1) <;> try rfl
  cases atR b (i + 2) <;> try rfl
  cases atR b (i + 3) <;> rfl

theorem get16bits_shift (p b : Bytes) (i : Nat) :
    get16bits (p ++ b) (p.length + i) =
      (get16bits b i >>= fun q => .ok (q.1, p.length + q.2)) := by
  simp only [get16bits, Nat.add_assoc, atR_append_right]
  cases atR b (i + 1) <;> try rfl
  cases atR b i <;> rfl

theorem unpack_shift (p b : Bytes) (i : Nat) :
    unpack (p ++ b) (p.length + i) =
      (unpack b i >>= fun q => .ok (q.1, p.length + q.2)) := by
  simp only [unpack, get32bits_shift]
  cases get32bits b i with
  | ok q =>
    simp only [Res.ok_bind, copyAt_append]
    cases copyAt b q.2 q.1 <;> simp [Nat.add_assoc]
  | _ => rfl

theorem unpack16bits_shift (p b : Bytes) (i : Nat) :
    unpack16bits (p ++ b) (p.length + i) =
      (unpack16bits b i >>= fun q => .ok (q.1, p.length + q.2)) := by
  simp only [unpack16bits, get16bits_shift]
  cases get16bits b i with
  | ok q =>
    simp only [Res.ok_bind, copyAt_append]
    cases copyAt b q.2 q.1 <;> simp [Nat.add_assoc]
  | _ => rfl

theorem unpack8bits_shift (p b : Bytes) (i : Nat) :
    unpack8bits (p ++ b) (p.length + i) =
      (unpack8bits b i >>= fun q => .ok (q.1, p.length + q.2)) := by
  simp only [unpack8bits, atR_append_right]
  cases atR b i with
  | ok q =>
    simp only [Res.ok_bind, Nat.add_assoc, copyAt_append]
    cases copyAt b (i + 1) q.toNat <;> simp
  | _ => rfl

theorem smartUnpack_shift (p b : Bytes) (i : Nat) :
    smartUnpack (p ++ b) (p.length + i) =
      (smartUnpack b i >>= fun q => .ok (q.1, p.length + q.2)) := by
  simp only [smartUnpack, atR_append_right, Nat.add_assoc]
  cases atR b i with
  | ok q =>
    simp only [Res.ok_bind, unpack_shift, unpack16bits_shift, unpack8bits_shift]
    split
    · rfl
    · split
      · rfl
      · split <;> rfl
  | _ => rfl

theorem unpack_zero (b s : Bytes) (h : b.length < 2 ^ 32) :
    unpack (be32 b.length ++ b ++ s) 0 = .ok (b, 4 + b.length) := by
  simp only [unpack, List.append_assoc]
  rw [get32bits_zero _ _ h]
  simp only [Res.ok_bind]
  have := copyAt_append (be32 b.length) (b ++ s) 0 b.length
  have e : (be32 b.length).length + 0 = 4 := rfl
  rw [e] at this
  rw [this, copyAt_zero]; rfl

theorem unpack16bits_zero (b s : Bytes) (h : b.length < 2 ^ 16) :
    unpack16bits (be16 b.length ++ b ++ s) 0 = .ok (b, 2 + b.length) := by
  simp only [unpack16bits, List.append_assoc]
  rw [get16bits_zero _ _ h]
  simp only [Res.ok_bind]
  have := copyAt_append (be16 b.length) (b ++ s) 0 b.length
  have e : (be16 b.length).length + 0 = 2 := rfl
  rw [e] at this
  rw [this, copyAt_zero]; rfl

theorem unpack8bits_zero (b s : Bytes) (h : b.length < 2 ^ 8) :
    unpack8bits ([UInt8.ofNat b.length] ++ b ++ s) 0 = .ok (b, 1 + b.length) := by
  have hlen : (UInt8.ofNat b.length).toNat = b.length := by
    rw [UInt8.toNat_ofNat']; exact Nat.mod_eq_of_lt h
  simp only [unpack8bits, List.append_assoc, List.cons_append, List.nil_append, atR_zero,
    Res.ok_bind, hlen]
  have := copyAt_append [UInt8.ofNat b.length] (b ++ s) 0 b.length
  have e : [UInt8.ofNat b.length].length + 0 = 0 + 1 := rfl
  rw [e] at this
  simp only [List.cons_append, List.nil_append] at this
  rw [this, copyAt_zero]
  simp

theorem smartUnpack_zero (b s : Bytes) (h0 : b ≠ []) (h : b.length < 2 ^ 32) :
    smartUnpack (smartPack [] b ++ s) 0 = .ok (b, (smartPack [] b).length) := by
  have hpos : 0 < b.length := List.length_pos_iff.mpr h0
  unfold smartPack
  split
  · have := unpack_shift [0xC3] (be32 b.length ++ b ++ s) 0
    rw [unpack_zero b s h] at this
    simp only [List.cons_append, List.nil_append, List.length_cons, List.length_nil,
      Res.ok_bind, List.append_assoc] at this
    simp only [List.cons_append, List.nil_append, List.append_assoc, smartUnpack, atR_zero, Res.ok_bind, if_true, this, List.length_cons,
      List.length_append]
    simp [be32]; omega
  · split
    · have := unpack16bits_shift [0xB2] (be16 b.length ++ b ++ s) 0
      rw [unpack16bits_zero b s (by omega)] at this
      simp only [List.cons_append, List.nil_append, List.length_cons, List.length_nil,
        Res.ok_bind, List.append_assoc] at this
      simp only [List.cons_append, List.nil_append, List.append_assoc, smartUnpack, atR_zero, Res.ok_bind, this, List.length_cons,
        List.length_append]
      rw [if_neg (by decide)]
      simp [be16]; omega
    · have := unpack8bits_shift [0xA1] ([UInt8.ofNat b.length] ++ b ++ s) 0
      rw [unpack8bits_zero b s (by omega)] at this
      simp only [List.cons_append, List.nil_append, List.length_cons, List.length_nil,
        Res.ok_bind, List.append_assoc] at this
      simp only [List.cons_append, List.nil_append, List.append_assoc, smartUnpack, atR_zero, Res.ok_bind, this, List.length_cons,
        List.length_append]
      rw [if_neg (by decide), if_neg (by decide)]
      simp; omega

theorem smartPack_append (p b : Bytes) : smartPack p b = p ++ smartPack [] b := by
  unfold smartPack
  split
  · simp
  · split
    · simp
    · split <;> simp

theorem pack_append (p b : Bytes) : pack p b = p ++ pack [] b := by simp [pack]

theorem smartPack_length_pos (b : Bytes) (h : b ≠ []) : smartPack [] b ≠ [] := by
  unfold smartPack
  split
  · simp
  · split
    · simp
    · split <;> simp [h]

/-! Slices -/

theorem get32bits_ok {b : Bytes} {i n j : Nat} (h : get32bits b i = .ok (n, j)) :
    j = i + 4 ∧ i + 4 ≤ b.length := by
  simp only [get32bits] at h
  rw [Res.bind_eq_ok] at h; obtain ⟨x0, h0, h⟩ := h
  rw [Res.bind_eq_ok] at h; obtain ⟨x1, h1, h⟩ := h
  rw [Res.bind_eq_ok] at h; obtain ⟨x2, h2, h⟩ := h
  rw [Res.bind_eq_ok] at h; obtain ⟨x3, h3, h⟩ := h
  simp only [Res.ok.injEq, Prod.mk.injEq] at h
  have := atR_lt h3
  omega

theorem get16bits_ok {b : Bytes} {i n j : Nat} (h : get16bits b i = .ok (n, j)) :
    j = i + 2 ∧ i + 2 ≤ b.length := by
  simp only [get16bits] at h
  rw [Res.bind_eq_ok] at h; obtain ⟨x0, h0, h⟩ := h
  rw [Res.bind_eq_ok] at h; obtain ⟨x1, h1, h⟩ := h
  simp only [Res.ok.injEq, Prod.mk.injEq] at h
  have := atR_lt h0
  omega

theorem get32bits_defined (b : Bytes) (i : Nat) : (get32bits b i).Defined := by
  repeat (refine Res.defined_bind _ _ (atR_defined b _) (fun _ _ => ?_))
  trivial

theorem get16bits_defined (b : Bytes) (i : Nat) : (get16bits b i).Defined := by
  repeat (refine Res.defined_bind _ _ (atR_defined b _) (fun _ _ => ?_))
  trivial

theorem unpack_defined (b : Bytes) (i : Nat) : (unpack b i).Defined := by
  refine Res.defined_bind _ _ (get32bits_defined b i) (fun q _ => ?_)
  refine Res.defined_bind _ _ (copyAt_defined b _ _) (fun _ _ => ?_)
  trivial

theorem unpack16bits_defined (b : Bytes) (i : Nat) : (unpack16bits b i).Defined := by
  refine Res.defined_bind _ _ (get16bits_defined b i) (fun q _ => ?_)
  refine Res.defined_bind _ _ (copyAt_defined b _ _) (fun _ _ => ?_)
  trivial

theorem unpack8bits_defined (b : Bytes) (i : Nat) : (unpack8bits b i).Defined := by
  refine Res.defined_bind _ _ (atR_defined b i) (fun q _ => ?_)
  refine Res.defined_bind _ _ (copyAt_defined b _ _) (fun _ _ => ?_)
  trivial

theorem smartUnpack_defined (b : Bytes) (i : Nat) : (smartUnpack b i).Defined := by
  refine Res.defined_bind _ _ (atR_defined b i) (fun q _ => ?_)
  split
  · exact unpack_defined _ _
  · split
    · exact unpack16bits_defined _ _
    · split
      · exact unpack8bits_defined _ _
      · trivial

theorem unpack_ok {b : Bytes} {i j : Nat} {r : Bytes} (h : unpack b i = .ok (r, j)) :
    j = i + 4 + r.length ∧ j ≤ b.length ∧ r = (b.drop (i + 4)).take r.length := by
  simp only [unpack] at h
  rw [Res.bind_eq_ok] at h; obtain ⟨q, hq, h⟩ := h
  rw [Res.bind_eq_ok] at h; obtain ⟨r', hr, h⟩ := h
  simp only [Res.ok.injEq, Prod.mk.injEq] at h
  obtain ⟨e1, e2⟩ := h
  subst e1
  obtain ⟨a1, a2⟩ := get32bits_ok hq
  obtain ⟨c1, c2, c3⟩ := copyAt_ok hr
  rw [c2, ← a1]
  exact ⟨e2.symm, by omega, c1⟩

theorem unpack16bits_ok {b : Bytes} {i j : Nat} {r : Bytes} (h : unpack16bits b i = .ok (r, j)) :
    j = i + 2 + r.length ∧ j ≤ b.length ∧ r = (b.drop (i + 2)).take r.length := by
  simp only [unpack16bits] at h
  rw [Res.bind_eq_ok] at h; obtain ⟨q, hq, h⟩ := h
  rw [Res.bind_eq_ok] at h; obtain ⟨r', hr, h⟩ := h
  simp only [Res.ok.injEq, Prod.mk.injEq] at h
  obtain ⟨e1, e2⟩ := h
  subst e1
  obtain ⟨a1, a2⟩ := get16bits_ok hq
  obtain ⟨c1, c2, c3⟩ := copyAt_ok hr
  rw [c2, ← a1]
  exact ⟨e2.symm, by omega, c1⟩

theorem unpack8bits_ok {b : Bytes} {i j : Nat} {r : Bytes} (h : unpack8bits b i = .ok (r, j)) :
    j = i + 1 + r.length ∧ j ≤ b.length ∧ r = (b.drop (i + 1)).take r.length := by
  simp only [unpack8bits] at h
  rw [Res.bind_eq_ok] at h; obtain ⟨q, hq, h⟩ := h
  rw [Res.bind_eq_ok] at h; obtain ⟨r', hr, h⟩ := h
  simp only [Res.ok.injEq, Prod.mk.injEq] at h
  obtain ⟨e1, e2⟩ := h
  subst e1
  have := atR_lt hq
  obtain ⟨c1, c2, c3⟩ := copyAt_ok hr
  rw [c2]
  exact ⟨e2.symm, by omega, c1⟩

/-! XOR, equality, serialization -/

theorem foldl_or_eq_zero (l : Bytes) (a : UInt8) :
    l.foldl (fun rc d => rc ||| d) a = 0 ↔ a = 0 ∧ ∀ x ∈ l, x = 0 := by
  induction l generalizing a with
  | nil => simp
  | cons x l ih =>
    simp only [List.foldl_cons, ih, List.mem_cons, forall_eq_or_imp, UInt8.or_eq_zero_iff,
      and_assoc]

theorem zipWith_xor_zero : ∀ (l r : Bytes), l.length = r.length →
    ((∀ x ∈ List.zipWith (fun x y => x ^^^ y) l r, x = 0) ↔ l = r)
  | [], [], _ => by simp
  | [], _ :: _, h => by simp at h
  | _ :: _, [], h => by simp at h
  | a :: l, b :: r, h => by
    have := zipWith_xor_zero l r (by simpa using h)
    simp only [List.zipWith_cons_cons, List.mem_cons, forall_eq_or_imp, this, UInt8.xor_eq_zero_iff,
      List.cons.injEq]

theorem beVal_be32 (n : Nat) (h : n < 2 ^ 32) : beVal (be32 n) = n := by
  simp only [beVal, be32, List.foldl_cons, List.foldl_nil, UInt8.toNat_ofNat']
  simp only [Nat.reducePow] at *
  omega

theorem beVal_be16 (n : Nat) (h : n < 2 ^ 16) : beVal (be16 n) = n := by
  simp only [beVal, be16, List.foldl_cons, List.foldl_nil, UInt8.toNat_ofNat']
  simp only [Nat.reducePow] at *
  omega

theorem getSubset_append (p b : Bytes) : getSubset (p ++ b) p.length b.length = b := by
  simp [getSubset]

theorem hexVal_hexUp : ∀ n < 16, hexVal (hexUp n) = some n := by decide
theorem hexVal_hexLo : ∀ n < 16, hexVal (hexLo n) = some n := by decide

theorem byte_of_nibbles (x : UInt8) : UInt8.ofNat (x.toNat / 16 * 16 + x.toNat % 16) = x := by
  rw [Nat.div_add_mod']; simp

theorem hexPairs_flatMap (f : Nat → UInt8) (hf : ∀ n < 16, hexVal (f n) = some n) (b : Bytes) :
    hexPairs (b.flatMap fun x => [f (x.toNat / 16), f (x.toNat % 16)]) = b := by
  induction b with
  | nil => rfl
  | cons x b ih =>
    have hx := x.toNat_lt
    have h1 := hf (x.toNat / 16) (by omega)
    have h2 := hf (x.toNat % 16) (by omega)
    simp only [List.flatMap_cons, List.cons_append, List.nil_append, hexPairs, h1, h2,
      Option.getD_some, ih, byte_of_nibbles]

theorem hex_all (f : Nat → UInt8) (hf : ∀ n < 16, hexVal (f n) = some n) (b : Bytes) :
    ((b.flatMap fun x => [f (x.toNat / 16), f (x.toNat % 16)]).any
      (fun c => (hexVal c).isNone)) = false := by
  induction b with
  | nil => rfl
  | cons x b ih =>
    have hx := x.toNat_lt
    have h1 := hf (x.toNat / 16) (by omega)
    have h2 := hf (x.toNat % 16) (by omega)
    rw [List.flatMap_cons, List.any_append, ih]
    simp [h1, h2]

theorem hex_len (f : Nat → UInt8) (b : Bytes) :
    (b.flatMap fun x => [f (x.toNat / 16), f (x.toNat % 16)]).length = 2 * b.length := by
  induction b with
  | nil => rfl
  | cons x b ih => rw [List.flatMap_cons, List.length_append, ih]; simp; omega

end BS

namespace B64

theorem idx_chr : ∀ s < 64, idx (chr (UInt8.ofNat s)) = UInt8.ofNat s := by decide +kernel
theorem isB64_chr : ∀ s < 64, (chr (UInt8.ofNat s) != 61 && isB64 (chr (UInt8.ofNat s))) = true := by
  decide +kernel

theorem idx_chr' (s : UInt8) (h : s.toNat < 64) : idx (chr s) = s := by
  have := idx_chr s.toNat h; simpa using this
theorem isB64_chr' (s : UInt8) (h : s.toNat < 64) : (chr s != 61 && isB64 (chr s)) = true := by
  have := isB64_chr s.toNat h; simpa using this

theorem s0_nat : ∀ a : UInt8, ((a &&& 0xfc) >>> 2).toNat = a.toNat / 4 :=
  forall_uint8 (by decide +kernel)
theorem s1a_nat : ∀ a : UInt8, ((a &&& 0x03) <<< 4).toNat = a.toNat % 4 * 16 :=
  forall_uint8 (by decide +kernel)
theorem s1b_nat : ∀ a : UInt8, ((a &&& 0xf0) >>> 4).toNat = a.toNat / 16 :=
  forall_uint8 (by decide +kernel)
theorem s2a_nat : ∀ a : UInt8, ((a &&& 0x0f) <<< 2).toNat = a.toNat % 16 * 4 :=
  forall_uint8 (by decide +kernel)
theorem s2b_nat : ∀ a : UInt8, ((a &&& 0xc0) >>> 6).toNat = a.toNat / 64 :=
  forall_uint8 (by decide +kernel)
theorem s3_nat : ∀ a : UInt8, (a &&& 0x3f).toNat = a.toNat % 64 :=
  forall_uint8 (by decide +kernel)
theorem o0a_nat : ∀ a : UInt8, (a <<< 2).toNat = a.toNat * 4 % 256 :=
  forall_uint8 (by decide +kernel)
theorem o0b_nat : ∀ a : UInt8, ((a &&& 0x30) >>> 4).toNat = a.toNat / 16 % 4 :=
  forall_uint8 (by decide +kernel)
theorem o1a_nat : ∀ a : UInt8, ((a &&& 0xf) <<< 4).toNat = a.toNat % 16 * 16 :=
  forall_uint8 (by decide +kernel)
theorem o1b_nat : ∀ a : UInt8, ((a &&& 0x3c) >>> 2).toNat = a.toNat / 4 % 16 :=
  forall_uint8 (by decide +kernel)
theorem o2a_nat : ∀ a : UInt8, ((a &&& 0x3) <<< 6).toNat = a.toNat % 4 * 64 :=
  forall_uint8 (by decide +kernel)

theorem sextets_lt (a b c : UInt8) :
    (sextets a b c).1.toNat < 64 ∧ (sextets a b c).2.1.toNat < 64 ∧
    (sextets a b c).2.2.1.toNat < 64 ∧ (sextets a b c).2.2.2.toNat < 64 := by
  have ha := a.toNat_lt; have hb := b.toNat_lt; have hc := c.toNat_lt
  simp only [sextets, UInt8.toNat_add, s0_nat, s1a_nat, s1b_nat, s2a_nat, s2b_nat, s3_nat]
  omega

theorem octets_sextets (a b c t : UInt8) :
    let s := sextets a b c
    (octets s.1 s.2.1 s.2.2.1 s.2.2.2) = (a, b, c) ∧
    (octets s.1 s.2.1 s.2.2.1 t).1 = a ∧ (octets s.1 s.2.1 s.2.2.1 t).2.1 = b ∧
    (∀ u, (octets s.1 s.2.1 u t).1 = a) := by
  have ha := a.toNat_lt; have hb := b.toNat_lt; have hc := c.toNat_lt
  simp only [octets, sextets, Prod.mk.injEq, ← UInt8.toNat_inj, UInt8.toNat_add, s0_nat, s1a_nat, s1b_nat,
    s2a_nat, s2b_nat, s3_nat, o0b_nat, o1a_nat, o1b_nat, o2a_nat]
  simp only [o0a_nat, s0_nat]
  refine ⟨⟨?_, ?_, ?_⟩, ?_, ?_, ?_⟩ <;> first | omega | (intro u; omega)

theorem decLoop_step (c : UInt8) (r : Bytes) (buf ret : Bytes) (hc : (c != 61 && isB64 c) = true)
    (hb : buf.length < 3) : decLoop (c :: r) buf ret = decLoop r (buf ++ [c]) ret := by
  conv => lhs; unfold decLoop
  rw [if_pos hc]
  match buf, hb with
  | [], _ => rfl
  | [_], _ => rfl
  | [_, _], _ => rfl

theorem decLoop_quad (p q s t : UInt8) (r ret : Bytes)
    (hp : p.toNat < 64) (hq : q.toNat < 64) (hs : s.toNat < 64) (ht : t.toNat < 64) :
    decLoop (chr p :: chr q :: chr s :: chr t :: r) [] ret =
      decLoop r [] (ret ++ [(octets p q s t).1, (octets p q s t).2.1, (octets p q s t).2.2]) := by
  rw [decLoop_step _ _ _ _ (isB64_chr' p hp) (by simp),
    decLoop_step _ _ _ _ (isB64_chr' q hq) (by simp),
    decLoop_step _ _ _ _ (isB64_chr' s hs) (by simp)]
  simp only [List.nil_append, List.cons_append]
  rw [decLoop, if_pos (isB64_chr' t ht)]
  simp only [idx_chr' _ hp, idx_chr' _ hq, idx_chr' _ hs, idx_chr' _ ht]

/-- What `decode` does after the loop. -/
def finish (x : Bytes × Bytes × Bytes) : Bytes :=
  if x.2.1.length > 2 then []
  else if x.2.1.any (· != 61) then []
  else
    match x.1 with
    | [p, q, u] => x.2.2 ++ [(octets (idx p) (idx q) (idx u) (idx 0)).1, (octets (idx p) (idx q) (idx u) (idx 0)).2.1]
    | [p, q] => x.2.2 ++ [(octets (idx p) (idx q) (idx 0) (idx 0)).1]
    | _ => x.2.2

theorem decode_eq (s : Bytes) : decode s = finish (decLoop s [] []) := by
  unfold decode finish
  rcases decLoop s [] [] with ⟨buf, rest, ret⟩
  rfl

theorem finish_encode : ∀ (b ret : Bytes), finish (decLoop (encode b) [] ret) = ret ++ b
  | [], ret => by simp [encode, decLoop, finish]
  | [a], ret => by
    have hl := sextets_lt a 0 0
    have ho := octets_sextets a 0 0 (idx 0)
    simp only [encode]
    rw [decLoop_step _ _ _ _ (isB64_chr' _ hl.1) (by simp),
      decLoop_step _ _ _ _ (isB64_chr' _ hl.2.1) (by simp)]
    have hd : ∀ r b ret, decLoop (61 :: r) b ret = (b, 61 :: r, ret) := by
      intro r b ret; unfold decLoop; rw [if_neg (by decide)]
    rw [hd]
    simp only [finish, List.nil_append, List.cons_append, idx_chr' _ hl.1, idx_chr' _ hl.2.1]
    rw [if_neg (by simp), if_neg (by simp), ho.2.2.2]
  | [a, b], ret => by
    have hl := sextets_lt a b 0
    have ho := octets_sextets a b 0 (idx 0)
    simp only [encode]
    rw [decLoop_step _ _ _ _ (isB64_chr' _ hl.1) (by simp),
      decLoop_step _ _ _ _ (isB64_chr' _ hl.2.1) (by simp),
      decLoop_step _ _ _ _ (isB64_chr' _ hl.2.2.1) (by simp)]
    have hd : ∀ r b ret, decLoop (61 :: r) b ret = (b, 61 :: r, ret) := by
      intro r b ret; unfold decLoop; rw [if_neg (by decide)]
    rw [hd]
    simp only [finish, List.nil_append, List.cons_append, idx_chr' _ hl.1, idx_chr' _ hl.2.1,
      idx_chr' _ hl.2.2.1]
    rw [if_neg (by simp), if_neg (by simp), ho.2.1, ho.2.2.1]
  | a :: b :: c :: r, ret => by
    have hl := sextets_lt a b c
    have ho := (octets_sextets a b c 0).1
    simp only [encode]
    rw [decLoop_quad _ _ _ _ _ _ hl.1 hl.2.1 hl.2.2.1 hl.2.2.2, finish_encode r]
    simp [ho]

end B64
end Abe
