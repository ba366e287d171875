import Verif.Proof.Reload
import Verif.Model.Cpa
/-! # What was read from bytes can be written and read again (C140) -/
set_option linter.unusedSimpArgs false
set_option linter.unusedSectionVars false
set_option autoImplicit false
namespace Abe

variable {G1 G2 GT : Type} {mk : Mktime} {cd : Codec G1 G2 GT}

/-- There is a component, every component has a name, and none is a null pointer. -/
def Rewritable (c : Container G1 G2 GT) : Prop := c ≠ [] ∧ ∀ p ∈ c, p.1 ≠ [] ∧ p.2 ≠ .null

theorem loaded_storable {c : Container G1 G2 GT} (h : Loaded mk cd c) (hr : Rewritable c) : AllStorable mk cd c := fun p hp =>
  ⟨(hr.2 p hp).1, (h.2 p hp).1, ((h.2 p hp).2).resolve_left (hr.2 p hp).2⟩

theorem size_room {n m : Nat} (h : (n + 23) * m < 2 ^ 32) : m ≤ 2 ^ 28 := by
  have : 23 * m ≤ (n + 23) * m := Nat.mul_le_mul_right _ (by omega)
  omega

/-- Bytes from anywhere that were read into an empty container can be written and read again if they gave at least one
component, no name is empty and no component is a null pointer. The second reading gives the same components, and writing
these gives the same bytes: what is written is a normal form of what was read. The bytes may be up to 4 GiB divided by 23
more than the size of a group element. -/
theorem C140_again_partial (hc : CodecOk cd) (h0 : 0 < cd.order) {n : Nat} (hn : ElementBytes cd n) (blob : Bytes)
    (hb : (n + 23) * blob.length < 2 ^ 32) (c : Container G1 G2 GT) (h : Container.deserialize mk cd [] blob = .ok c) (hr : Rewritable c) :
    ∃ (b : Bytes) (c' : Container G1 G2 GT), Container.serialize cd c = .ok b ∧ b.length ≤ (n + 23) * blob.length ∧
      Container.deserialize mk cd [] b = .ok c' ∧ SameComps c c' ∧ Container.serialize cd c' = .ok b := by
  obtain ⟨hl, hs⟩ := deserialize_made h0 hn (size_room hb) h
  obtain ⟨b, c', h1, -, h3, h4⟩ := deserialize_serialize hc c (loaded_storable hl hr) hr.1
  have := h4 []
  rw [overlay_nil (sorted_of_keys h3.keys hl.1)] at this
  have hle := serialize_le c b h1
  exact ⟨b, c', h1, by omega, this, h3, by rw [sameComps_serialize h3, h1]⟩

set_option maxRecDepth 8000 in
/-- The exported bytes of a library object are such bytes, and so are bytes that the library never writes: a name that occurs
twice and a number in more bytes than it needs. -/
example : CodecOk ToyCodec.codec ∧ 0 < ToyCodec.codec.order ∧ ElementBytes ToyCodec.codec 2 ∧ (2 + 23) * 23 < 2 ^ 32 ∧
    Container.deserialize mk ToyCodec.codec [] [0xA1, 1, 97, 0xA1, 5, 0xA1, 0, 0, 0, 5, 0xB2, 0, 1, 97, 0xA1, 6, 0xA1, 0, 0, 0, 7, 9] =
      .ok [([97], .int ⟨7, 0⟩)] ∧
    Rewritable ([([97], .int ⟨7, 0⟩)] : Container (Option UInt8) (Option UInt8) (Option UInt8)) := by
  refine ⟨ToyCodec.codec_ok, by decide, ⟨?_, ?_, ?_, fun v hv => ?_⟩, by decide, by rfl, by simp, by simp⟩
  · rintro (_ | _) <;> simp [ToyCodec.codec, ToyCodec.write]
  · rintro (_ | _) <;> simp [ToyCodec.codec, ToyCodec.write]
  · rintro (_ | _) <;> simp [ToyCodec.codec, ToyCodec.write]
  · have : v ≤ 101 := hv
    exact natBE_length _ _ (by omega)

/-- Exactly these containers can be written and read again. -/
theorem C140_exact (hc : CodecOk cd) (h0 : 0 < cd.order) {n : Nat} (hn : ElementBytes cd n) (blob : Bytes)
    (hb : (n + 23) * blob.length < 2 ^ 32) (c : Container G1 G2 GT) (h : Container.deserialize mk cd [] blob = .ok c) :
    (∃ (b : Bytes) (c' : Container G1 G2 GT), Container.serialize cd c = .ok b ∧ Container.deserialize mk cd [] b = .ok c') ↔ Rewritable c := by
  constructor
  · rintro ⟨b, c', h1, h2⟩
    obtain ⟨hl, -⟩ := deserialize_made h0 hn (size_room hb) h
    have hnn := serialize_no_null h1
    refine ⟨?_, fun p hp => ⟨?_, hnn p hp⟩⟩
    · rintro rfl
      cases h1
      cases h2
    · intro hp0
      cases c with
      | nil => cases hp
      | cons q c =>
        obtain ⟨k, o⟩ := q
        have hk : k = [] := by
          rcases List.mem_cons.mp hp with rfl | hp
          · exact hp0
          · have := hl.1.1 p hp
            rw [hp0] at this
            cases k <;> simp [blt] at this
        subst hk
        have hst : AllStorable mk cd c := by
          intro r hr
          have h1 := hl.1.1 r hr
          refine ⟨?_, (hl.2 r (List.mem_cons_of_mem _ hr)).1,
            ((hl.2 r (List.mem_cons_of_mem _ hr)).2).resolve_left (hnn r (List.mem_cons_of_mem _ hr))⟩
          rintro e
          rw [e] at h1
          cases h1
        have ho : Storable mk cd o := ((hl.2 _ List.mem_cons_self).2).resolve_left (hnn _ List.mem_cons_self)
        obtain ⟨w, o', s1, s2, s3, -⟩ := readObj_serialize hc ho
        obtain ⟨r, hr, -⟩ := serialize_ok hc c hst
        rw [serialize_cons s1 hr, Res.ok.injEq] at h1
        subst h1
        exact odd_never_ok hc c hst r w [] hr s2 s3 _ [] c' h2
  · intro hr
    obtain ⟨b, c', h1, -, h2, -⟩ := C140_again_partial hc h0 hn blob hb c h hr
    exact ⟨b, c', h1, h2⟩

/-- Written bytes belong to one content: containers that are written as the same bytes have the same components. -/
theorem C140_injective (hc : CodecOk cd) (c1 c2 : Container G1 G2 GT) (s1 : SMap.Sorted c1) (s2 : SMap.Sorted c2)
    (h1 : AllStorable mk cd c1) (h2 : AllStorable mk cd c2) (b : Bytes) (e1 : Container.serialize cd c1 = .ok b)
    (e2 : Container.serialize cd c2 = .ok b) : ∃ c, SameComps c1 c ∧ SameComps c2 c := by
  by_cases n1 : c1 = []
  · subst n1
    cases e1
    by_cases n2 : c2 = []
    · subst n2; exact ⟨[], .nil, .nil⟩
    · obtain ⟨b, -, hb, hbn, -⟩ := deserialize_serialize hc c2 h2 n2
      rw [hb] at e2
      cases e2
      exact absurd rfl hbn
  · obtain ⟨b1, c1', f1, fn, f3, f4⟩ := deserialize_serialize hc c1 h1 n1
    rw [e1] at f1
    cases f1
    have n2 : c2 ≠ [] := by
      rintro rfl
      cases e2
      exact fn rfl
    obtain ⟨b2, c2', g1, -, g3, g4⟩ := deserialize_serialize hc c2 h2 n2
    rw [e2] at g1
    cases g1
    have f := f4 []
    have g := g4 []
    rw [overlay_nil (sorted_of_keys f3.keys s1)] at f
    rw [overlay_nil (sorted_of_keys g3.keys s2)] at g
    rw [f] at g
    cases g
    exact ⟨c1', f3, g3⟩

example : SMap.Sorted ToyCodec.comps ∧ AllStorable mk ToyCodec.codec ToyCodec.comps ∧
    ∃ b, Container.serialize ToyCodec.codec ToyCodec.comps = .ok b ∧ b ≠ [] := by
  obtain ⟨b, -, h, hb, -⟩ := deserialize_serialize (mk := mk) ToyCodec.codec_ok _ ToyCodec.comps_ok (by simp [ToyCodec.comps])
  exact ⟨ToyCodec.comps_sorted, ToyCodec.comps_ok, b, h, hb⟩

/-! ### Ciphertexts and keys -/

/-- A ciphertext that was read from any bytes and has named components that are not null can be exported and read again; header and
components are the same, and so are the bytes of the next export. -/
theorem C140_ciphertext_partial (hc : CodecOk cd) (h0 : 0 < cd.order) {n : Nat} (hn : ElementBytes cd n) (input : Bytes)
    (hb : (n + 23) * input.length < 2 ^ 32) (ct : Ciphertext G1 G2 GT) (h : Ciphertext.load mk cd {} input = .ok ct) (hr : Rewritable ct.comps) :
    ∃ (out : Bytes) (ct' : Ciphertext G1 G2 GT), ct.exportBytes cd = .ok out ∧ Ciphertext.load mk cd {} out = .ok ct' ∧
      ct'.version = ct.version ∧ ct'.alg = ct.alg ∧ ct'.uid = ct.uid ∧ SameComps ct.comps ct'.comps ∧ ct'.exportBytes cd = .ok out := by
  unfold Ciphertext.load at h
  simp only at h
  split at h
  · cases h
  obtain ⟨⟨hdr, i⟩, h1, h⟩ := (Res.bind_eq_ok _ _ _).mp h
  simp only at h
  split at h
  swap
  · cases h
  rename_i hlen
  obtain ⟨v, -, h⟩ := (Res.bind_eq_ok _ _ _).mp h
  split at h
  · cases h
  rename_i hv
  obtain ⟨a, -, h⟩ := (Res.bind_eq_ok _ _ _).mp h
  obtain ⟨alg, ha, h⟩ := (Res.bind_eq_ok _ _ _).mp h
  obtain ⟨⟨body, j⟩, h2, h⟩ := (Res.bind_eq_ok _ _ _).mp h
  simp only at h
  split at h
  · cases h
  obtain ⟨comps, h3, h⟩ := (Res.bind_eq_ok _ _ _).mp h
  cases h
  simp only at hr
  have l2 := smartUnpack_len h2
  have hb' : (n + 23) * body.length < 2 ^ 32 := by
    have : (n + 23) * body.length ≤ (n + 23) * input.length := Nat.mul_le_mul_left _ (by omega)
    omega
  obtain ⟨hl, hs⟩ := deserialize_made h0 hn (size_room hb') h3
  have halg : alg ∈ ([0, 60, 70, 71, 72, 100, 101, 102, 201, 202] : List UInt8) := by
    unfold getSchemeID at ha
    split at ha
    · cases ha; assumption
    · cases ha
  have hu : (BS.getSubset hdr 2 uidLen).length = uidLen := by
    unfold BS.getSubset
    rw [if_pos (by omega)]
    simp only [List.length_take, List.length_drop]; omega
  obtain ⟨out, ct', e1, e2, e3, e4, e5, e6, e7⟩ := C41_ciphertext_round_trip_partial (mk := mk) hc
    { version := v, alg := alg, uid := BS.getSubset hdr 2 uidLen, comps := comps } hu (UInt8.not_lt.mp hv) halg hl.1 (loaded_storable hl hr) hr.1
    (fun b hb => by have := serialize_le _ b hb; simp only at this; omega)
  have hsame := sameComps_of_find hl.1 e6 e7
  refine ⟨out, ct', e1, e2, e3, e4, e5, hsame, ?_⟩
  simp only [Ciphertext.exportBytes] at e1 ⊢
  rw [sameComps_serialize hsame]
  simp only [Ciphertext.header] at e1 ⊢
  rw [e3, e4, e5]
  exact e1

/-- A key that was read from any bytes and has named components that are not null can be exported and read again with the same header
and components, and the next export gives the same bytes. -/
theorem C140_key_partial (hc : CodecOk cd) (h0 : 0 < cd.order) {n : Nat} (hn : ElementBytes cd n) (blob rnd rnd' : Bytes)
    (hb : (n + 23) * blob.length < 2 ^ 32) (k0 k : Key G1 G2 GT) (body : Bytes) (hh : Key.parseHeader blob rnd = .ok (k0, body))
    (h : k0.loadBody mk cd body = .ok k) (hr : Rewritable k.comps) :
    ∃ (out body' : Bytes) (k0' k' : Key G1 G2 GT), k.exportBytes cd = .ok out ∧ Key.parseHeader out rnd' = .ok (k0', body') ∧
      k0'.loadBody mk cd body' = .ok k' ∧ k'.version = k.version ∧ k'.alg = k.alg ∧ k'.uid = k.uid ∧ k'.id = k.id ∧
      SameComps k.comps k'.comps ∧ k'.exportBytes cd = .ok out := by
  unfold Key.parseHeader at hh
  obtain ⟨r, h1, hh⟩ := (Res.bind_eq_ok _ _ _).mp hh
  cases r with
  | none => cases hh
  | some p =>
    simp only [Res.ok.injEq] at hh
    subst hh
    unfold Key.construct at h1
    simp only at h1
    split at h1
    · cases h1
    obtain ⟨⟨hdr, i⟩, g1, h1⟩ := (Res.bind_eq_ok _ _ _).mp h1
    simp only at h1
    split at h1
    swap
    · cases h1
    rename_i hlen
    obtain ⟨v, -, h1⟩ := (Res.bind_eq_ok _ _ _).mp h1
    split at h1
    · cases h1
    obtain ⟨a, -, h1⟩ := (Res.bind_eq_ok _ _ _).mp h1
    have halg : ∀ alg, getSchemeID a = .ok alg → alg ∈ ([0, 60, 70, 71, 72, 100, 101, 102, 201, 202] : List UInt8) := by
      intro alg ha
      unfold getSchemeID at ha
      split at ha
      · cases ha; assumption
      · cases ha
    cases ha : getSchemeID a with
    | throw _ => rw [ha] at h1; cases h1
    | ub => rw [ha] at h1; cases h1
    | abort => rw [ha] at h1; cases h1
    | ok alg =>
      rw [ha] at h1
      simp only at h1
      obtain ⟨⟨body2, j⟩, g2, h1⟩ := (Res.bind_eq_ok _ _ _).mp h1
      simp only [Res.ok.injEq, Option.some.injEq, Prod.mk.injEq] at h1
      obtain ⟨rfl, rfl⟩ := h1
      have l1 := BS.unpack_ok g1
      have l2 := BS.unpack_ok g2
      have hu : (BS.getSubset hdr 2 uidLen).length = uidLen := by
        unfold BS.getSubset
        rw [if_pos (by omega)]
        simp only [List.length_take, List.length_drop]; omega
      have hid : (if uidLen + 2 < hdr.length then BS.getSubset hdr (uidLen + 2) (hdr.length - (uidLen + 2)) else []).length < 2 ^ 31 := by
        have := size_room hb
        split
        · unfold BS.getSubset
          rw [if_pos (by omega)]
          simp only [List.length_take, List.length_drop]; omega
        · simp
      simp only [Key.loadBody, Key.new] at h
      obtain ⟨comps, h3, h⟩ := (Res.bind_eq_ok _ _ _).mp h
      cases h
      simp only at hr
      have hb' : (n + 23) * body2.length < 2 ^ 32 := by
        have : (n + 23) * body2.length ≤ (n + 23) * blob.length := Nat.mul_le_mul_left _ (by omega)
        omega
      obtain ⟨hl, hs⟩ := deserialize_made h0 hn (size_room hb') h3
      have hu' : (if (BS.getSubset hdr 2 uidLen).length = uidLen then BS.getSubset hdr 2 uidLen else rnd) = BS.getSubset hdr 2 uidLen := if_pos hu
      simp only [hu']
      obtain ⟨out, bd, k1, k2, e1, e2, e3, e4, e5, e6, e7, e8, e9⟩ := C42_key_round_trip_partial (mk := mk) hc
        { alg := alg, uid := BS.getSubset hdr 2 uidLen, id := (if uidLen + 2 < hdr.length then BS.getSubset hdr (uidLen + 2) (hdr.length - (uidLen + 2)) else []), comps := comps }
        rnd' hu rfl hid (halg alg ha) hl.1 (loaded_storable hl hr) hr.1
        (fun b hb => by have := serialize_le _ b hb; simp only at this; omega)
      have hsame := sameComps_of_find hl.1 e8 e9
      refine ⟨out, bd, k1, k2, e1, e2, e3, e4, e5, e6, e7, hsame, ?_⟩
      simp only [Key.exportBytes] at e1 ⊢
      rw [sameComps_serialize hsame]
      simp only [Key.header] at e1 ⊢
      rw [e4, e5, e6, e7]
      exact e1

set_option maxRecDepth 8000 in
/-- An exported key of the library and one with bytes behind its end are such bytes. -/
example : ∃ (out : Bytes) (k0 k : Key (Option UInt8) (Option UInt8) (Option UInt8)) (body : Bytes),
    Key.parseHeader out [] = .ok (k0, body) ∧ k0.loadBody mk ToyCodec.codec body = .ok k ∧ Rewritable k.comps := by
  refine ⟨[0, 0, 0, 18, 170, 101, 1, 2, 3, 4, 5, 6, 7, 8, 9, 10, 11, 12, 13, 14, 15, 16, 0, 0, 0, 10, 0xA1, 1, 97, 0xA1, 5, 0xA1, 0, 0, 0, 5, 77],
    _, { alg := 101, uid := [1, 2, 3, 4, 5, 6, 7, 8, 9, 10, 11, 12, 13, 14, 15, 16], id := [], comps := [([97], .int ⟨5, 0⟩)] }, _, rfl, rfl, ?_, ?_⟩ <;> simp

/-! ### More than one encoding -/

/-- The code violates the wish that only the bytes that the library writes are accepted: bytes behind a ciphertext are ignored, whatever
they are, so every ciphertext that can be read has others that are read as the same ciphertext. -/
theorem C140_trailing_violated (ct ct' : Ciphertext G1 G2 GT) (input junk : Bytes) (h : Ciphertext.load mk cd ct input = .ok ct') :
    Ciphertext.load mk cd ct (input ++ junk) = .ok ct' := by
  unfold Ciphertext.load at h ⊢
  simp only at h ⊢
  split at h
  · cases h
  rename_i hl
  rw [if_neg (by simp only [List.length_append]; omega)]
  obtain ⟨⟨hdr, i⟩, h1, h⟩ := (Res.bind_eq_ok _ _ _).mp h
  rw [smartUnpack_suffix h1, Res.ok_bind]
  simp only at h ⊢
  split at h
  swap
  · cases h
  rename_i hlen
  rw [if_pos hlen]
  obtain ⟨v, hv, h⟩ := (Res.bind_eq_ok _ _ _).mp h
  rw [hv, Res.ok_bind]
  split at h
  · cases h
  rename_i hlv
  rw [if_neg hlv]
  obtain ⟨a, ha, h⟩ := (Res.bind_eq_ok _ _ _).mp h
  rw [ha, Res.ok_bind]
  obtain ⟨alg, hg, h⟩ := (Res.bind_eq_ok _ _ _).mp h
  rw [hg, Res.ok_bind]
  obtain ⟨⟨body, j⟩, h2, h⟩ := (Res.bind_eq_ok _ _ _).mp h
  rw [smartUnpack_suffix h2, Res.ok_bind]
  exact h

example : ∃ ct', Ciphertext.load mk ToyCodec.codec {} ([0xA1, 18, 170, 101, 1, 2, 3, 4, 5, 6, 7, 8, 9, 10, 11, 12, 13, 14, 15, 16,
    0xA1, 10, 0xA1, 1, 97, 0xA1, 5, 0xA1, 0, 0, 0, 5]) = .ok ct' := ⟨_, rfl⟩

/-- The code violates it for keys too: bytes behind a key are ignored. -/
theorem C140_trailing_key_violated (blob rnd junk : Bytes) (k : Key G1 G2 GT) (body : Bytes) (h : Key.parseHeader blob rnd = .ok (k, body)) :
    Key.parseHeader (blob ++ junk) rnd = .ok (k, body) := by
  unfold Key.parseHeader at h ⊢
  obtain ⟨r, h1, h⟩ := (Res.bind_eq_ok _ _ _).mp h
  cases r with
  | none => cases h
  | some p =>
    have : (Key.construct (blob ++ junk) rnd : Res (Option (Key G1 G2 GT × Bytes))) = .ok (some p) := by
      unfold Key.construct at h1 ⊢
      simp only at h1 ⊢
      split at h1
      · cases h1
      rename_i hl
      rw [if_neg (by simp only [List.length_append]; omega)]
      obtain ⟨⟨hdr, i⟩, g1, h1⟩ := (Res.bind_eq_ok _ _ _).mp h1
      rw [unpack_suffix g1, Res.ok_bind]
      simp only at h1 ⊢
      split at h1
      swap
      · cases h1
      rename_i hlen
      rw [if_pos hlen]
      obtain ⟨v, hv, h1⟩ := (Res.bind_eq_ok _ _ _).mp h1
      rw [hv, Res.ok_bind]
      split at h1
      · cases h1
      rename_i hlv
      rw [if_neg hlv]
      obtain ⟨a, ha, h1⟩ := (Res.bind_eq_ok _ _ _).mp h1
      rw [ha, Res.ok_bind]
      cases hg : getSchemeID a with
      | throw _ => rw [hg] at h1; cases h1
      | ub => rw [hg] at h1; cases h1
      | abort => rw [hg] at h1; cases h1
      | ok alg =>
        rw [hg] at h1
        simp only at h1 ⊢
        obtain ⟨⟨body2, j⟩, g2, h1⟩ := (Res.bind_eq_ok _ _ _).mp h1
        rw [unpack_suffix g2, Res.ok_bind]
        exact h1
    rw [this]
    exact h

/-! ### Bytes that are read and cannot be written again -/

/-- The text `z` as a policy. -/
theorem policy_z : createPolicyTree mk b!"z" = .ok (some (builtPolicy { attrCount := [(b!"z", 1)], attrPrefix := [], input := b!"z" } (.leaf {} [] b!"z" (some 0)))) :=
  policy_of_eval (mk := mk) (s := b!"z") (e := .leaf b!"z") rfl rfl (by decide +kernel) rfl

/-- A body of one component whose value begins with the tag of policies. -/
def nullBody : Bytes := [0xA1, 1, 120, 0xA1, 1, 0x7A]

theorem nullBody_reads : Container.deserialize mk cd ([] : Container G1 G2 GT) nullBody = .ok [(b!"x", .null)] := by
  have hz : Container.readObj mk cd b!"z" = .ok (some (.policy (builtPolicy { attrCount := [(b!"z", 1)], attrPrefix := [], input := b!"z" } (.leaf {} [] b!"z" (some 0))))) := by
    have := policy_z (mk := mk)
    simp only [Container.readObj]
    rw [if_neg (by decide), if_neg (by decide), if_neg (by decide), if_neg (by decide), if_neg (by decide), if_neg (by decide), if_pos (by decide), this, Res.ok_bind]
  have u1 : BS.smartUnpack nullBody 0 = .ok (b!"x", 3) := rfl
  have u2 : BS.smartUnpack nullBody 3 = .ok (b!"z", 6) := rfl
  simp only [Container.deserialize, Container.deserLoop, u1, u2, Res.ok_bind, Container.deserializeElement, hz, Container.setComponent, Obj.clone]
  rfl

set_option maxRecDepth 8000 in
/-- The code violates C140: there are bytes that load as a key without an error in every context with a known scheme identifier, and
exporting this key follows a null pointer (zcontainer.cpp:135-144). A value that begins like a policy is parsed, and its copy is a
null pointer because policies have no `clone` (include/lsss/zpolicy.h:143). -/
theorem C140_null_violated (c : Ctx G1 G2 GT) (ha : c.alg ∈ ([0, 60, 70, 71, 72, 100, 101, 102, 201, 202] : List UInt8)) (id rnd : Bytes) :
    ∃ (blob : Bytes) (c' : Ctx G1 G2 GT), blob.length = 32 ∧ Cpa.loadMasterPublicParams mk cd c id blob rnd = .ok (none, c') ∧ Cpa.exportKey cd c' id = .ub := by
  have hp : Key.parseHeader ([0, 0, 0, 18, 170, c.alg, 1, 2, 3, 4, 5, 6, 7, 8, 9, 10, 11, 12, 13, 14, 15, 16, 0, 0, 0, 6] ++ nullBody) rnd =
      .ok (({ alg := c.alg, uid := [1, 2, 3, 4, 5, 6, 7, 8, 9, 10, 11, 12, 13, 14, 15, 16], id := [] } : Key G1 G2 GT), nullBody) := by
    have u1 : BS.unpack ([0, 0, 0, 18, 170, c.alg, 1, 2, 3, 4, 5, 6, 7, 8, 9, 10, 11, 12, 13, 14, 15, 16, 0, 0, 0, 6] ++ nullBody) 0 =
      .ok ([170, c.alg, 1, 2, 3, 4, 5, 6, 7, 8, 9, 10, 11, 12, 13, 14, 15, 16], 22) := rfl
    have u2 : BS.unpack ([0, 0, 0, 18, 170, c.alg, 1, 2, 3, 4, 5, 6, 7, 8, 9, 10, 11, 12, 13, 14, 15, 16, 0, 0, 0, 6] ++ nullBody) 22 =
      .ok (nullBody, 32) := rfl
    unfold Key.parseHeader Key.construct
    simp only [u1, u2, Res.ok_bind]
    rw [if_neg (by simp [nullBody, uidLen])]
    rw [if_pos (by simp [uidLen])]
    have a0 : BS.atR [170, c.alg, 1, 2, 3, 4, 5, 6, 7, 8, 9, 10, 11, 12, 13, 14, 15, 16] 0 = .ok 170 := rfl
    have a1 : BS.atR [170, c.alg, 1, 2, 3, 4, 5, 6, 7, 8, 9, 10, 11, 12, 13, 14, 15, 16] 1 = .ok c.alg := rfl
    simp only [a0, a1, Res.ok_bind, getSchemeID_ok ha]
    rw [if_neg (by decide)]
    rfl
  have hl : Cpa.loadMasterPublicParams mk cd c id ([0, 0, 0, 18, 170, c.alg, 1, 2, 3, 4, 5, 6, 7, 8, 9, 10, 11, 12, 13, 14, 15, 16, 0, 0, 0, 6] ++ nullBody) rnd =
      .ok (none, { c with ready := true, ks := c.ks.addKey id { alg := c.alg, uid := [1, 2, 3, 4, 5, 6, 7, 8, 9, 10, 11, 12, 13, 14, 15, 16], id := [], comps := [(b!"x", .null)] } .pub }) := by
    simp only [Cpa.loadMasterPublicParams, Cpa.loadKey, hp, Res.ok_bind, ne_eq, not_true_eq_false, if_false, Key.loadBody, nullBody_reads]
  refine ⟨_, _, rfl, hl, ?_⟩
  simp only [Cpa.exportKey, KeyStore.getKey, KeyStore.getPublicKey, KeyStore.addKey, KeyStore.touch, SMap.find_insert, if_true]
  rfl

example : (101 : UInt8) ∈ ([0, 60, 70, 71, 72, 100, 101, 102, 201, 202] : List UInt8) := by decide

/-- The code violates C140: a byte that is no pack type where a name should stand gives a component without a name. Such a
container is written without an error, and what was written is rejected. -/
theorem C140_nameless_violated (v : UInt8) : ∃ (c : Container G1 G2 GT) (b : Bytes),
    Container.deserialize mk cd [] [0, 0xA1, 5, 0xA1, 0, 0, 0, v] = .ok c ∧ Container.serialize cd c = .ok b ∧
      Container.deserialize mk cd [] b = .throw .outOfRange := by
  refine ⟨_, _, rfl, rfl, ?_⟩
  rfl

/-- The code violates C140: components with the tags of master and secret keys are skipped. Bytes with nothing else are read as
an empty container, which is written as no bytes, and these are rejected. -/
theorem C140_skipped_violated (k v : UInt8) : ∃ b : Bytes,
    Container.deserialize mk cd ([] : Container G1 G2 GT) [0xA1, 1, k, 0xA1, 2, 0xC1, v] = .ok [] ∧
      Container.serialize cd ([] : Container G1 G2 GT) = .ok b ∧ Container.deserialize mk cd ([] : Container G1 G2 GT) b = .throw .outOfRange :=
  ⟨[], rfl, rfl, rfl⟩

end Abe
