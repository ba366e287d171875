import Verif.Proof.Container
/-!
# Properties of containers, ciphertexts and keys (C39-C43, C73)
-/
set_option linter.unusedSimpArgs false
set_option linter.unusedSectionVars false
set_option autoImplicit false
namespace Abe

variable {G1 G2 GT : Type} {mk : Mktime} {cd : Codec G1 G2 GT}

/-! ### A codec for the examples -/
namespace ToyCodec

/-- One byte for the neutral element, two for the others. -/
def write : Option UInt8 → Bytes
  | none => [0]
  | some x => [1, x]

/-- Inverse of `write`. -/
def read : Bytes → Res (Option UInt8)
  | [_] => .ok none
  | [_, x] => .ok (some x)
  | _ => .throw .serializationFailed

/-- Elements are optional bytes. -/
def codec : Codec (Option UInt8) (Option UInt8) (Option UInt8) :=
  { order := 101, n1 := 2, n2 := 2, w1 := write, r1 := read, w2 := write, r2 := read, wT := write, rT := read }

theorem codec_ok : CodecOk codec where
  order := by
    exact Nat.lt_of_lt_of_le (by decide : codec.order < 256 ^ 1) (Nat.pow_le_pow_right (by omega) (by omega))
  rw1 := by rintro (_ | _) <;> rfl
  rw2 := by rintro (_ | _) <;> rfl
  rwT := by rintro (_ | _) <;> rfl
  len1 := by rintro (_ | _) <;> simp [codec, write]
  len2 := by rintro (_ | _) <;> simp [codec, write]
  ne1 := by rintro (_ | _) <;> simp [codec, write]
  ne2 := by rintro (_ | _) <;> simp [codec, write]
  neT := by rintro (_ | _) <;> simp [codec, write]
  small1 := by rintro (_ | _) <;> simp [codec, write]
  small2 := by rintro (_ | _) <;> simp [codec, write]
  smallT := by rintro (_ | _) <;> simp [codec, write]

/-- A container with one component of every kind but an attribute list. -/
def comps : Container (Option UInt8) (Option UInt8) (Option UInt8) :=
  [(b!"A", .gt (some 7)), (b!"alpha", .zp 99), (b!"g1", .g1 none), (b!"g2", .g2 (some 3)),
    (b!"k", .bytes [1, 2, 3]), (b!"n", .int ⟨5, 0⟩)]

theorem comps_ok : AllStorable mk codec comps := by
  intro p hp
  simp only [comps, List.mem_cons, List.not_mem_nil, or_false] at hp
  rcases hp with rfl | rfl | rfl | rfl | rfl | rfl
  · exact ⟨by decide, by decide, .gt _⟩
  · exact ⟨by decide, by decide, .zp _ (by decide)⟩
  · exact ⟨by decide, by decide, .g1 _⟩
  · exact ⟨by decide, by decide, .g2 _⟩
  · exact ⟨by decide, by decide, .bytes _ (by decide)⟩
  · exact ⟨by decide, by decide, .int _⟩

theorem comps_sorted : SMap.Sorted comps := by
  simp [comps, SMap.Sorted, blt]

end ToyCodec

/-! ### C39 -/

/-- A non-empty container with non-empty names written to bytes and read into an empty one has the same
names with the same components (integers keep their value but not their width, attribute lists keep their
attributes but not the order). -/
theorem C39_container_round_trip_partial (hc : CodecOk cd) (c : Container G1 G2 GT) (hs : SMap.Sorted c)
    (h : AllStorable mk cd c) (hne : c ≠ []) :
    ∃ (b : Bytes) (c' : Container G1 G2 GT), Container.serialize cd c = .ok b ∧
      Container.deserialize mk cd [] b = .ok c' ∧ SMap.keys c' = SMap.keys c ∧
      ∀ k o, SMap.find k c = some o → ∃ o', SMap.find k c' = some o' ∧ SameObj o o' := by
  obtain ⟨b, c', h1, _, h3, h4⟩ := deserialize_serialize hc c h hne
  have := h4 []
  rw [overlay_nil (sorted_of_keys h3.keys hs)] at this
  exact ⟨b, c', h1, this, h3.keys, fun k o hf => h3.find hf⟩

example : CodecOk ToyCodec.codec ∧ SMap.Sorted ToyCodec.comps ∧ AllStorable mk ToyCodec.codec ToyCodec.comps ∧
    ToyCodec.comps ≠ [] := ⟨ToyCodec.codec_ok, ToyCodec.comps_sorted, ToyCodec.comps_ok, by decide⟩

theorem find_overlay (c d : Container G1 G2 GT) (hs : SMap.Sorted c) (k : Bytes) :
    SMap.find k (overlay d c) = (SMap.find k c).orElse (fun _ => SMap.find k d) := by
  unfold overlay
  induction c generalizing d with
  | nil => simp [SMap.find]
  | cons p c ih =>
    obtain ⟨k', v'⟩ := p
    simp only [List.foldl_cons]
    rw [ih _ hs.2, SMap.find_insert]
    simp only [SMap.find]
    by_cases hk : k = k'
    · subst hk
      simp [SMap.find_eq_none_of_lt hs.1]
    · simp [hk]

/-- Reading into a container that already has components replaces those with a name in the input and keeps the
others. -/
theorem C39_read_into_existing_partial (hc : CodecOk cd) (c d : Container G1 G2 GT) (hs : SMap.Sorted c)
    (h : AllStorable mk cd c) (hne : c ≠ []) :
    ∃ (b : Bytes) (c' : Container G1 G2 GT), Container.serialize cd c = .ok b ∧
      Container.deserialize mk cd d b = .ok c' ∧
      (∀ k o, SMap.find k c = some o → ∃ o', SMap.find k c' = some o' ∧ SameObj o o') ∧
      (∀ k, SMap.find k c = none → SMap.find k c' = SMap.find k d) := by
  obtain ⟨b, c', h1, _, h3, h4⟩ := deserialize_serialize hc c h hne
  have hs' := sorted_of_keys h3.keys hs
  refine ⟨b, _, h1, h4 d, fun k o hf => ?_, fun k hf => ?_⟩
  · obtain ⟨o', h5, h6⟩ := h3.find hf
    exact ⟨o', by rw [find_overlay _ _ hs', h5]; rfl, h6⟩
  · have : SMap.find k c' = none := by
      cases hk : SMap.find k c' with
      | none => rfl
      | some o' =>
        have : k ∈ SMap.keys c' := List.mem_map_of_mem (SMap.mem_of_find hk)
        rw [h3.keys] at this
        obtain ⟨q, hq, e⟩ := List.mem_map.mp this
        have := SMap.find_of_mem (k := q.1) (v := q.2) hs hq
        rw [e, hf] at this; cases this
    rw [find_overlay _ _ hs', this]; rfl

/-- The code violates C39 for the empty container: its serialization is empty, and reading that raises
`std::out_of_range`. -/
theorem C39_empty_violated : Container.serialize cd [] = .ok [] ∧
    Container.deserialize mk cd [] [] = .throw .outOfRange := ⟨rfl, rfl⟩

/-- The code violates C39 for an empty name: the name is not written, so the value is taken for the name. -/
theorem C39_empty_name_violated (v : UInt32) :
    ∃ b, Container.serialize cd [([], .int ⟨v, 0⟩)] = .ok b ∧
      Container.deserialize mk cd [] b = .throw .outOfRange := by
  refine ⟨_, rfl, ?_⟩
  rfl

/-- The code violates C39 for a policy: storing one stores a null pointer, and writing the container is then
undefined. -/
theorem C39_policy_violated (c : Container G1 G2 GT) (name : Bytes) (p : Policy)
    (hok : ∀ q ∈ c, q.2.serialize cd ≠ .abort ∧ ∀ e, q.2.serialize cd ≠ .throw e) :
    ∃ c', Container.setComponent c name (.policy p) = .ok c' ∧ SMap.find name c' = some .null ∧
      Container.serialize cd c' = .ub := by
  refine ⟨_, rfl, by simp [SMap.find_insert], ?_⟩
  have key : ∀ m : Container G1 G2 GT, (∀ q ∈ m, q.2.serialize cd ≠ .abort ∧ ∀ e, q.2.serialize cd ≠ .throw e) →
      (∃ q ∈ m, q.2 = Obj.null) → Container.serialize cd m = .ub := by
    intro m
    induction m with
    | nil => rintro _ ⟨q, hq, _⟩; cases hq
    | cons r m ih =>
      obtain ⟨k, o⟩ := r
      rintro h ⟨q, hq, hn⟩
      have ho := h _ List.mem_cons_self
      simp only [Container.serialize]
      cases e : o.serialize cd with
      | ub => rfl
      | abort => exact absurd e ho.1
      | throw x => exact absurd e (ho.2 x)
      | ok b =>
        rcases List.mem_cons.mp hq with hq | hq
        · subst hq; simp only at hn; subst hn; simp [Obj.serialize] at e
        · rw [Res.ok_bind, ih (fun q hq => h q (List.mem_cons_of_mem _ hq)) ⟨q, hq, hn⟩]; rfl
  apply key
  · intro q hq
    rcases SMap.mem_insert' hq with rfl | hq
    · simp [Obj.serialize]
    · exact hok q hq
  · have : SMap.find name (SMap.insert name (Obj.null : Obj G1 G2 GT) c) = some .null := by
      simp [SMap.find_insert]
    exact ⟨_, SMap.mem_of_find this, rfl⟩

example : ∀ q ∈ ToyCodec.comps, q.2.serialize ToyCodec.codec ≠ .abort ∧
    ∀ e, q.2.serialize ToyCodec.codec ≠ .throw e := by
  intro q hq
  obtain ⟨b, -, h, -⟩ := readObj_serialize (mk := mk) ToyCodec.codec_ok (ToyCodec.comps_ok q hq).2.2
  rw [h]; simp

/-- No input makes the reader loop without end: however many passes are allowed, the outcome is the one of
`deserialize`. -/
theorem C39_reader_terminates (blob : Bytes) (c : Container G1 G2 GT) (fuel : Nat) (h : blob.length + 1 ≤ fuel) :
    Container.deserLoop mk cd blob fuel 0 c = Container.deserialize mk cd c blob :=
  deserLoop_fuel blob _ _ _ _ (by omega) h (by omega)

/-! ### C40 -/

/-- Looking up a component that is there returns it and changes nothing. -/
theorem C40_lookup_present_partial (c : Container G1 G2 GT) (name : Bytes) (o : Obj G1 G2 GT)
    (h : SMap.find name c = some o) (hn : o ≠ .null) : Container.getComponent c name = (.ok o, c) := by
  unfold Container.getComponent
  rw [h]
  cases o <;> simp_all

example : SMap.find b!"k" ToyCodec.comps = some (.bytes [1, 2, 3]) := rfl

/-- A failed lookup can be undone: deleting the name gives the original container back. -/
theorem C40_delete_repairs_partial (c : Container G1 G2 GT) (name : Bytes) (hs : SMap.Sorted c)
    (h : SMap.find name c = none) :
    Container.deleteComponent (Container.getComponent c name).2 name = (true, c) := by
  unfold Container.getComponent Container.deleteComponent
  simp only [h, SMap.find_insert, if_true, Option.isSome_some]
  congr 1
  apply SMap.ext (SMap.sorted_erase (SMap.sorted_insert hs)) hs
  intro k
  rw [SMap.find_erase, SMap.find_insert]
  by_cases hk : k = name
  · subst hk; simp [h]
  · simp [hk]

/-- The code violates C40: every failed lookup adds an entry, and a container that could be written to bytes
before cannot be afterwards (a null pointer is dereferenced). -/
theorem C40_failed_lookup_violated (c : Container G1 G2 GT) (name b : Bytes) (h : SMap.find name c = none)
    (hb : Container.serialize cd c = .ok b) :
    (Container.getComponent c name).1 = .throw .elementNotFound ∧
    Container.numComponents (Container.getComponent c name).2 = Container.numComponents c + 1 ∧
    Container.serialize cd (Container.getComponent c name).2 = .ub := by
  have e : Container.getComponent c name = (.throw .elementNotFound, SMap.insert name .null c) := by
    simp [Container.getComponent, h]
  rw [e]
  refine ⟨rfl, ?_, ?_⟩
  · clear hb e
    simp only [Container.numComponents]
    induction c with
    | nil => rfl
    | cons p c ih =>
      obtain ⟨k', v'⟩ := p
      simp only [SMap.find] at h
      split at h
      · cases h
      · rename_i hne
        simp only [SMap.insert, if_neg hne]
        split
        · rfl
        · simp [ih h]
  · clear e
    induction c generalizing b with
    | nil => rfl
    | cons p c ih =>
      obtain ⟨k', v'⟩ := p
      simp only [SMap.find] at h
      split at h
      · cases h
      · rename_i hne
        simp only [SMap.insert, if_neg hne]
        simp only [Container.serialize, Res.bind_eq_ok] at hb
        obtain ⟨v, h1, r, h2, -⟩ := hb
        split
        · rfl
        · simp only [Container.serialize, h1, Res.ok_bind, ih _ h h2, Res.ub_bind]

example : SMap.find b!"zz" ToyCodec.comps = none ∧ ∃ b, Container.serialize ToyCodec.codec ToyCodec.comps = .ok b :=
  ⟨rfl, _, rfl⟩

/-! ### C41 -/

theorem getSchemeID_ok {a : UInt8} (h : a ∈ ([0, 60, 70, 71, 72, 100, 101, 102, 201, 202] : List UInt8)) :
    getSchemeID a = .ok a := by simp only [getSchemeID, if_pos h]

/-- A ciphertext with a 16-byte uid, a known scheme id and at least one component survives export and import
into a fresh object. -/
theorem C41_ciphertext_round_trip_partial (hc : CodecOk cd) (ct : Ciphertext G1 G2 GT)
    (huid : ct.uid.length = uidLen) (hv : ct.version ≤ libraryVersion)
    (ha : ct.alg ∈ ([0, 60, 70, 71, 72, 100, 101, 102, 201, 202] : List UInt8))
    (hs : SMap.Sorted ct.comps) (h : AllStorable mk cd ct.comps) (hne : ct.comps ≠ [])
    (hsize : ∀ b, Container.serialize cd ct.comps = .ok b → b.length < 2 ^ 32) :
    ∃ (out : Bytes) (ct' : Ciphertext G1 G2 GT), ct.exportBytes cd = .ok out ∧
      Ciphertext.load mk cd {} out = .ok ct' ∧ ct'.version = ct.version ∧ ct'.alg = ct.alg ∧ ct'.uid = ct.uid ∧
      SMap.keys ct'.comps = SMap.keys ct.comps ∧
      ∀ k o, SMap.find k ct.comps = some o → ∃ o', SMap.find k ct'.comps = some o' ∧ SameObj o o' := by
  obtain ⟨b, c', h1, h2, h3, h4⟩ := deserialize_serialize hc ct.comps h hne
  have hb := hsize b h1
  have hd := h4 []
  rw [overlay_nil (sorted_of_keys h3.keys hs)] at hd
  refine ⟨BS.smartPack [] ct.header ++ BS.smartPack [] b,
    { version := ct.version, alg := ct.alg, uid := ct.uid, comps := c' }, ?_, ?_, rfl, rfl, rfl, h3.keys,
    fun k o hf => h3.find hf⟩
  · simp only [Ciphertext.exportBytes, h1, Res.ok_bind]
    rw [BS.smartPack_append (BS.smartPack [] ct.header)]
  · have hhl : ct.header.length = uidLen + 2 := by simp [Ciphertext.header, huid]
    have hhl' : ct.header.length = 18 := hhl
    have u1 := BS.smartUnpack_zero ct.header (BS.smartPack [] b) (by simp [Ciphertext.header]) (by omega)
    have u2 := BS.smartUnpack_shift (BS.smartPack [] ct.header) (BS.smartPack [] b) 0
    have u3 := BS.smartUnpack_zero b [] h2 hb
    rw [List.append_nil] at u3
    rw [u3] at u2
    rw [Nat.add_zero] at u2
    have hlen : 18 ≤ (BS.smartPack [] ct.header ++ BS.smartPack [] b).length := by
      have e : BS.smartPack [] ct.header = [0xA1] ++ [UInt8.ofNat ct.header.length] ++ ct.header := by
        unfold BS.smartPack; simp [hhl']
      rw [e]; simp only [List.length_append]; omega
    have hsub : BS.getSubset ct.header 2 uidLen = ct.uid := by
      have := BS.getSubset_append [ct.version, ct.alg] ct.uid
      rw [huid] at this; exact this
    have hb0 : b.length ≠ 0 := by
      have := List.length_pos_iff.mpr h2; omega
    unfold Ciphertext.load
    simp only [if_neg (show ¬ (BS.smartPack [] ct.header ++ BS.smartPack [] b).length < uidLen + 2 by
      have : uidLen + 2 = 18 := rfl
      omega), u1, Res.ok_bind, if_pos hhl]
    have a0 : BS.atR ct.header 0 = .ok ct.version := rfl
    have a1 : BS.atR ct.header 1 = .ok ct.alg := rfl
    have hv' : ¬ libraryVersion < ct.version := UInt8.not_lt.mpr hv
    simp only [a0, a1, Res.ok_bind, if_neg hv', getSchemeID_ok ha, u2, if_neg hb0, hd, hsub]

example : let ct : Ciphertext _ _ _ := { alg := 101, comps := ToyCodec.comps }
    ct.uid.length = uidLen ∧ ct.version ≤ libraryVersion ∧
    ct.alg ∈ ([0, 60, 70, 71, 72, 100, 101, 102, 201, 202] : List UInt8) ∧
    ∀ b, Container.serialize ToyCodec.codec ct.comps = .ok b → b.length < 2 ^ 32 := by
  refine ⟨rfl, by decide, by decide, fun b h => ?_⟩
  have : Container.serialize ToyCodec.codec ToyCodec.comps = .ok
    [161, 1, 65, 161, 5, 180, 161, 2, 1, 7, 161, 5, 97, 108, 112, 104, 97, 161, 4, 177, 0, 1, 99, 161, 2, 103, 49,
     161, 4, 178, 161, 1, 0, 161, 2, 103, 50, 161, 5, 179, 161, 2, 1, 3, 161, 1, 107, 161, 8, 29, 0, 0, 0, 3, 1, 2, 3,
     161, 1, 110, 161, 5, 161, 0, 0, 0, 5] := by
    have e : natBE 99 = [99] := by rw [natBE_pos (by decide)]; simp [natBE_zero]
    simp [ToyCodec.comps, Container.serialize, Obj.serialize, zpSerialize, e, groupSerialize, BS.smartPack,
      BS.serialize, UInteger.serialize, ToyCodec.codec, ToyCodec.write, BS.be16, BS.be32]
  simp only at h
  rw [this, Res.ok.injEq] at h
  subst h
  decide

/-- The code violates C41: a uid longer than 16 bytes is accepted by the constructor (and any length by
`setHeader`), the ciphertext exports, and the import rejects it. -/
theorem C41_long_uid_violated (hc : CodecOk cd) (uid : Bytes) (alg : UInt8) (comps : Container G1 G2 GT)
    (h1 : uidLen < uid.length) (h2 : uid.length < 2 ^ 31) (h : AllStorable mk cd comps) :
    ∃ out, ({ (Ciphertext.ofUid uid : Ciphertext G1 G2 GT) with alg := alg, comps := comps } : Ciphertext G1 G2 GT).exportBytes cd = .ok out ∧
      (Ciphertext.ofUid uid : Ciphertext G1 G2 GT).uid = uid ∧
      Ciphertext.load mk cd ({} : Ciphertext G1 G2 GT) out = .throw .invalidCiphertextHeader := by
  obtain ⟨b, hb, -⟩ := serialize_ok hc comps h
  have e : (Ciphertext.ofUid uid : Ciphertext G1 G2 GT) = { uid := uid } := by
    unfold Ciphertext.ofUid; rw [if_pos (by omega)]
  refine ⟨BS.smartPack [] (libraryVersion :: alg :: uid) ++ BS.smartPack [] b, ?_, by rw [e], ?_⟩
  · rw [e]
    simp only [Ciphertext.exportBytes, hb, Res.ok_bind, Ciphertext.header]
    rw [BS.smartPack_append (BS.smartPack [] _)]
  · have u1 := BS.smartUnpack_zero (libraryVersion :: alg :: uid) (BS.smartPack [] b) (by simp)
      (by simp only [List.length_cons]; omega)
    have hlen : uidLen + 2 ≤ (BS.smartPack [] (libraryVersion :: alg :: uid) ++ BS.smartPack [] b).length := by
      have hp : (libraryVersion :: alg :: uid).length ≤ (BS.smartPack [] (libraryVersion :: alg :: uid)).length := by
        unfold BS.smartPack
        split
        · simp; omega
        · split
          · simp; omega
          · split <;> simp
      simp only [List.length_append, List.length_cons] at *
      omega
    unfold Ciphertext.load
    simp only [if_neg (by omega : ¬ (BS.smartPack [] (libraryVersion :: alg :: uid) ++ BS.smartPack [] b).length
      < uidLen + 2), u1, Res.ok_bind]
    rw [if_neg (by simp only [List.length_cons]; omega)]

example : uidLen < (List.replicate 17 (0 : UInt8)).length ∧ (List.replicate 17 (0 : UInt8)).length < 2 ^ 31 := by
  decide

/-- The code violates C41: a ciphertext without components exports and cannot be imported. -/
theorem C41_no_components_violated : ∃ out, (({} : Ciphertext G1 G2 GT)).exportBytes cd = .ok out ∧
    Ciphertext.load mk cd ({} : Ciphertext G1 G2 GT) out = .throw .outOfRange := by
  refine ⟨_, rfl, ?_⟩
  rfl

/-! ### C42 -/

/-- A key with a 16-byte uid, a known scheme id, any identifier and at least one component survives export
and import: the header is restored exactly, the components up to `SameObj`. -/
theorem C42_key_round_trip_partial (hc : CodecOk cd) (key : Key G1 G2 GT) (rnd : Bytes)
    (huid : key.uid.length = uidLen) (hv : key.version = libraryVersion) (hid : key.id.length < 2 ^ 31)
    (ha : key.alg ∈ ([0, 60, 70, 71, 72, 100, 101, 102, 201, 202] : List UInt8))
    (hs : SMap.Sorted key.comps) (h : AllStorable mk cd key.comps) (hne : key.comps ≠ [])
    (hsize : ∀ b, Container.serialize cd key.comps = .ok b → b.length < 2 ^ 32) :
    ∃ (out body : Bytes) (k0 k1 : Key G1 G2 GT), key.exportBytes cd = .ok out ∧
      Key.parseHeader out rnd = .ok (k0, body) ∧ k0.loadBody mk cd body = .ok k1 ∧
      k1.version = key.version ∧ k1.alg = key.alg ∧ k1.uid = key.uid ∧ k1.id = key.id ∧
      SMap.keys k1.comps = SMap.keys key.comps ∧
      ∀ k o, SMap.find k key.comps = some o → ∃ o', SMap.find k k1.comps = some o' ∧ SameObj o o' := by
  obtain ⟨b, c', h1, h2, h3, h4⟩ := deserialize_serialize hc key.comps h hne
  have hb := hsize b h1
  have hd := h4 []
  rw [overlay_nil (sorted_of_keys h3.keys hs)] at hd
  refine ⟨BS.pack [] key.header ++ BS.pack [] b, b, { alg := key.alg, uid := key.uid, id := key.id },
    { alg := key.alg, uid := key.uid, id := key.id, comps := c' }, ?_, ?_, ?_, hv.symm, rfl, rfl, rfl, h3.keys,
    fun k o hf => h3.find hf⟩
  · simp only [Key.exportBytes, h1, Res.ok_bind]
    rw [BS.pack_append (BS.pack [] key.header)]
  · have hu16 : key.uid.length = 16 := huid
    have hhl : key.header.length = 18 + key.id.length := by
      simp only [Key.header, List.length_cons, List.length_append]; omega
    have u1 := BS.unpack_zero key.header (BS.pack [] b) (by omega)
    have u2 := BS.unpack_shift (BS.pack [] key.header) (BS.pack [] b) 0
    have u3 := BS.unpack_zero b [] hb
    rw [List.append_nil] at u3
    have p1 : ∀ x : Bytes, BS.pack [] x = BS.be32 x.length ++ x := fun x => by simp [BS.pack]
    rw [← p1] at u1 u3
    rw [u3, Nat.add_zero] at u2
    have pl : (BS.pack [] key.header).length = 4 + key.header.length := by rw [p1]; simp [BS.be32]; omega
    rw [pl] at u2
    have hsub : BS.getSubset key.header 2 uidLen = key.uid := by
      unfold BS.getSubset
      rw [if_pos (by have : uidLen = 16 := rfl; omega)]
      show (key.uid ++ key.id).take uidLen = key.uid
      rw [← huid]; simp
    have hid' : (if uidLen + 2 < key.header.length then
        BS.getSubset key.header (uidLen + 2) (key.header.length - (uidLen + 2)) else []) = key.id := by
      by_cases hz : key.id = []
      · have : key.id.length = 0 := by rw [hz]; rfl
        rw [if_neg (by have : uidLen = 16 := rfl; omega), hz]
      · have := List.length_pos_iff.mpr hz
        rw [if_pos (by have : uidLen = 16 := rfl; omega)]
        have e := BS.getSubset_append (key.version :: key.alg :: key.uid) key.id
        have e2 : key.header.length - (uidLen + 2) = key.id.length := by
          have : uidLen = 16 := rfl
          omega
        have e3 : (key.version :: key.alg :: key.uid).length = uidLen + 2 := by simp [huid]
        rw [e3] at e
        rw [e2]; exact e
    unfold Key.parseHeader Key.construct
    have a0 : BS.atR key.header 0 = .ok key.version := rfl
    have a1 : BS.atR key.header 1 = .ok key.alg := rfl
    simp only [if_neg (show ¬ (BS.pack [] key.header ++ BS.pack [] b).length < uidLen + 2 by
      have : uidLen = 16 := rfl
      simp only [List.length_append, pl]; omega), u1, Res.ok_bind,
      if_pos (show uidLen + 2 ≤ key.header.length by have : uidLen = 16 := rfl; omega), a0, a1, hv, getSchemeID_ok ha]
    rw [if_neg (by decide), u2]
    simp only [Res.ok_bind, hsub, hid', Key.new, huid, if_true]
  · simp only [Key.loadBody, hd, Res.ok_bind]

example : let key : Key _ _ _ := { alg := 102, uid := List.replicate 16 7, id := b!"alice", comps := ToyCodec.comps }
    key.uid.length = uidLen ∧ key.version = libraryVersion ∧ key.id.length < 2 ^ 31 := by decide

/-- The code violates C42: a key that holds an attribute list without attributes (as `OpenABEAttributeList(0, {})`
makes it) exports, and its body is rejected on import. -/
theorem C42_empty_list_violated (uid : Bytes) (alg : UInt8) :
    AttrList.ofArgs mk 0 [] = .ok {} ∧
    ∃ (comps : Container G1 G2 GT) (body : Bytes),
      Container.setComponent ([] : Container G1 G2 GT) b!"input" (.attrs {}) = .ok comps ∧
      Container.serialize cd comps = .ok body ∧
      (∃ out, ({ alg := alg, uid := uid, comps := comps } : Key G1 G2 GT).exportBytes cd = .ok out) ∧
      ({ alg := alg, uid := uid } : Key G1 G2 GT).loadBody mk cd body = .throw .invalidAttributeList := by
  refine ⟨rfl, _, _, rfl, rfl, ⟨_, rfl⟩, ?_⟩
  rfl

/-! ### C43 -/

variable [DecidableEq G1] [DecidableEq G2] [DecidableEq GT]

/-- Components whose `isEqual` compares the contents: numbers and group elements. -/
def Comparable : Obj G1 G2 GT → Prop
  | .int _ | .zp _ | .g1 _ | .g2 _ | .gt _ => True
  | _ => False

theorem isEqual_comparable {a b : Obj G1 G2 GT} (h : Comparable a) :
    ∃ r, a.isEqual b = .ok r ∧ (r = true ↔ a = b) := by
  cases a <;> cases b <;> simp_all [Comparable, Obj.isEqual]
  rename_i n m
  cases n; cases m; simp

theorem setDiff_nil_right : ∀ (n : Nat) (x : List Bytes), x.length ≤ n → setDiff n x [] = x
  | 0, [], _ => rfl
  | _ + 1, [], _ => rfl
  | _ + 1, _ :: _, _ => rfl

/-- The inspected element is always an empty string, unless the right container is empty. -/
theorem eq_unfold (c1 c2 : Container G1 G2 GT) (h : c2 ≠ []) :
    Container.eq c1 c2 = (Container.eqLoop c1 c2 (SMap.keys c1) 0 >>= fun d => .ok (d == 0)) := by
  unfold Container.eq
  have hk : 0 < (SMap.keys c2).length := by
    simp only [SMap.keys, List.length_map]; exact List.length_pos_iff.mpr h
  have hl := setDiff_length ((SMap.keys c1).length + (SMap.keys c2).length) (SMap.keys c1) (SMap.keys c2)
  have : (setDiff ((SMap.keys c1).length + (SMap.keys c2).length) (SMap.keys c1) (SMap.keys c2) ++
      List.replicate ((SMap.keys c1).length + (SMap.keys c2).length -
        (setDiff ((SMap.keys c1).length + (SMap.keys c2).length) (SMap.keys c1) (SMap.keys c2)).length) ([] : Bytes))[
      (setDiff ((SMap.keys c1).length + (SMap.keys c2).length) (SMap.keys c1) (SMap.keys c2)).length]? = some [] := by
    rw [List.getElem?_append_right (Nat.le_refl _), Nat.sub_self, List.getElem?_replicate, if_pos (by omega)]
  simp only [this, List.length_nil, Nat.lt_irrefl, if_false]

theorem eqLoop_spec (c1 c2 : Container G1 G2 GT) (ks : List Bytes) (n : Nat)
    (h1 : ∀ k ∈ ks, ∃ o, SMap.find k c1 = some o ∧ Comparable o)
    (h2 : ∀ k ∈ ks, ∃ o, SMap.find k c2 = some o ∧ o ≠ .null) :
    ∃ d, Container.eqLoop c1 c2 ks n = .ok d ∧ n ≤ d ∧ (d = n ↔ ∀ k ∈ ks, SMap.find k c1 = SMap.find k c2) := by
  induction ks generalizing n with
  | nil => exact ⟨n, rfl, Nat.le_refl _, by simp⟩
  | cons k ks ih =>
    obtain ⟨a, ha, hac⟩ := h1 k List.mem_cons_self
    obtain ⟨b, hb, hbn⟩ := h2 k List.mem_cons_self
    have han : a ≠ .null := by rintro rfl; exact hac
    have g1 := C40_lookup_present_partial c1 k a ha han
    have g2 := C40_lookup_present_partial c2 k b hb hbn
    obtain ⟨r, hr, hre⟩ := isEqual_comparable (b := b) hac
    obtain ⟨d, hd, hdn, hde⟩ := ih (if r then n else n + 1) (fun k hk => h1 k (List.mem_cons_of_mem _ hk))
      (fun k hk => h2 k (List.mem_cons_of_mem _ hk))
    refine ⟨d, ?_, ?_, ?_⟩
    · simp only [Container.eqLoop, g1, g2, Res.ok_bind, hr, hd]
    · split at hdn <;> omega
    · cases r with
      | true =>
        have : a = b := hre.mp rfl
        subst this
        simp only [if_true] at hde
        rw [hde]
        simp [ha, hb]
      | false =>
        have hab : a ≠ b := fun e => by have := hre.mpr e; cases this
        simp only [Bool.false_eq_true, if_false] at hdn
        constructor
        · intro e; omega
        · intro hall
          have := hall k List.mem_cons_self
          rw [ha, hb] at this
          cases this; exact absurd rfl hab

/-- For containers of numbers and group elements where the second has every name of the first: `operator==`
answers whether the two agree on the names of the first. -/
theorem C43_container_equality_partial (c1 c2 : Container G1 G2 GT) (hne : c2 ≠ []) (hs : SMap.Sorted c1)
    (h1 : ∀ k o, SMap.find k c1 = some o → Comparable o)
    (h2 : ∀ k o, SMap.find k c1 = some o → ∃ o', SMap.find k c2 = some o' ∧ o' ≠ .null) :
    ∃ r, Container.eq c1 c2 = .ok r ∧
      (r = true ↔ ∀ k o, SMap.find k c1 = some o → SMap.find k c2 = some o) := by
  have hin : ∀ k ∈ SMap.keys c1, ∃ o, SMap.find k c1 = some o := by
    intro k hk
    obtain ⟨q, hq, e⟩ := List.mem_map.mp hk
    refine ⟨q.2, ?_⟩
    have := SMap.find_of_mem (k := q.1) (v := q.2) hs hq
    rw [← e]; exact this
  obtain ⟨d, hd, -, hde⟩ := eqLoop_spec c1 c2 (SMap.keys c1) 0
    (fun k hk => by obtain ⟨o, ho⟩ := hin k hk; exact ⟨o, ho, h1 k o ho⟩)
    (fun k hk => by obtain ⟨o, ho⟩ := hin k hk; exact h2 k o ho)
  refine ⟨d == 0, by rw [eq_unfold c1 c2 hne, hd]; rfl, ?_⟩
  rw [beq_iff_eq, hde]
  constructor
  · intro h k o ho
    have : k ∈ SMap.keys c1 := List.mem_map_of_mem (SMap.mem_of_find ho)
    rw [← h k this, ho]
  · intro h k hk
    obtain ⟨o, ho⟩ := hin k hk
    rw [ho, h k o ho]

/-- With the same names on both sides, `operator==` answers whether the containers are equal. -/
theorem C43_same_names_partial (c1 c2 : Container G1 G2 GT) (hne : c2 ≠ []) (hs1 : SMap.Sorted c1)
    (hs2 : SMap.Sorted c2) (hk : SMap.keys c1 = SMap.keys c2)
    (h1 : ∀ k o, SMap.find k c1 = some o → Comparable o)
    (h2 : ∀ k o, SMap.find k c2 = some o → o ≠ .null) :
    ∃ r, Container.eq c1 c2 = .ok r ∧ (r = true ↔ c1 = c2) := by
  have hmem : ∀ (c : Container G1 G2 GT) k, SMap.Sorted c → (k ∈ SMap.keys c ↔ ∃ o, SMap.find k c = some o) := by
    intro c k hs
    constructor
    · intro hk
      obtain ⟨q, hq, e⟩ := List.mem_map.mp hk
      exact ⟨q.2, by rw [← e]; exact SMap.find_of_mem (k := q.1) (v := q.2) hs hq⟩
    · rintro ⟨o, ho⟩; exact List.mem_map_of_mem (SMap.mem_of_find ho)
  obtain ⟨r, hr, hre⟩ := C43_container_equality_partial c1 c2 hne hs1 h1 (fun k o ho => by
    have := (hmem c1 k hs1).mpr ⟨o, ho⟩
    rw [hk] at this
    obtain ⟨o', ho'⟩ := (hmem c2 k hs2).mp this
    exact ⟨o', ho', h2 k o' ho'⟩)
  refine ⟨r, hr, hre.trans ⟨fun h => ?_, fun h => ?_⟩⟩
  · apply SMap.ext hs1 hs2
    intro k
    cases hf : SMap.find k c1 with
    | some o => exact (h k o hf).symm
    | none =>
      cases hg : SMap.find k c2 with
      | none => rfl
      | some o =>
        have := (hmem c2 k hs2).mpr ⟨o, hg⟩
        rw [← hk] at this
        obtain ⟨o', ho'⟩ := (hmem c1 k hs1).mp this
        rw [hf] at ho'; cases ho'
  · subst h; exact fun k o ho => ho

example : let c : Container (Option UInt8) (Option UInt8) (Option UInt8) := [(b!"a", .zp 3), (b!"b", .g1 (some 2))]
    SMap.Sorted c ∧ Container.eq c c = .ok true ∧ Container.eq c [(b!"a", .zp 3), (b!"b", .g1 none)] = .ok false := by
  refine ⟨by simp [SMap.Sorted, blt], by decide, by decide⟩

/-- The code violates C43: names that only the second container has are not noticed. -/
theorem C43_extra_names_violated : ∃ c1 c2 : Container G1 G2 GT,
    SMap.Sorted c1 ∧ SMap.Sorted c2 ∧ SMap.keys c1 ≠ SMap.keys c2 ∧ Container.eq c1 c2 = .ok true :=
  ⟨[(b!"a", .zp 1)], [(b!"a", .zp 1), (b!"b", .zp 2)], by simp [SMap.Sorted], by simp [SMap.Sorted, blt],
    by simp [SMap.keys], rfl⟩

/-- The code violates C43: a container with a byte string never equals itself. -/
theorem C43_bytes_violated (c : Container G1 G2 GT) (k b : Bytes) (hs : SMap.Sorted c)
    (h : SMap.find k c = some (.bytes b)) : Container.eq c c ≠ .ok true := by
  have hne : c ≠ [] := by rintro rfl; simp at h
  rw [eq_unfold c c hne]
  have key : ∀ (ks : List Bytes) (n d : Nat), Container.eqLoop c c ks n = .ok d →
      n ≤ d ∧ (k ∈ ks → n < d) := by
    intro ks
    induction ks with
    | nil => intro n d h; simp only [Container.eqLoop, Res.ok.injEq] at h; simp [h]
    | cons k' ks ih =>
      intro n d hd
      simp only [Container.eqLoop, Res.bind_eq_ok] at hd
      obtain ⟨l, hl, r, hr, e, he, hd⟩ := hd
      obtain ⟨h1, h2⟩ := ih _ _ hd
      have hstep : n ≤ (if e then n else n + 1) := by split <;> omega
      refine ⟨by omega, fun hk => ?_⟩
      rcases List.mem_cons.mp hk with rfl | hk
      · have g := C40_lookup_present_partial c k (.bytes b) h (by simp)
        rw [g] at hl
        simp only [Res.ok.injEq] at hl
        subst hl
        have : e = false := by
          cases r <;> simp_all [Obj.isEqual]
        subst this
        simp at h1; omega
      · have := h2 hk; omega
  intro hcon
  rw [Res.bind_eq_ok] at hcon
  obtain ⟨d, hd, hd2⟩ := hcon
  have hk : k ∈ SMap.keys c := List.mem_map_of_mem (SMap.mem_of_find h)
  have := (key _ _ _ hd).2 hk
  simp only [Res.ok.injEq, beq_iff_eq] at hd2
  omega

example : SMap.find b!"k" ToyCodec.comps = some (.bytes [1, 2, 3]) := rfl

/-- The code violates C43: comparing with an empty container reads behind the end of a vector. -/
theorem C43_empty_right_violated (c : Container G1 G2 GT) : Container.eq c [] = .ub := by
  unfold Container.eq
  have e : SMap.keys ([] : Container G1 G2 GT) = [] := rfl
  simp only [e, List.length_nil, Nat.add_zero, setDiff_nil_right _ _ (Nat.le_refl _), Nat.sub_self,
    List.replicate_zero, List.append_nil]
  rw [List.getElem?_eq_none (Nat.le_refl _)]

/-- The code violates C43: a name that only the first container has raises an error instead of the answer no. -/
theorem C43_missing_name_violated : ∃ c1 c2 : Container G1 G2 GT,
    SMap.Sorted c1 ∧ SMap.Sorted c2 ∧ Container.eq c1 c2 = .throw .elementNotFound :=
  ⟨[(b!"a", .zp 1), (b!"b", .zp 2)], [(b!"a", .zp 1)], by simp [SMap.Sorted, blt], by simp [SMap.Sorted], rfl⟩

/-! ### C73 -/

/-- The value survives; the width is the one of the object that is read into. -/
theorem C73_value_partial (n this : UInteger) :
    UInteger.deserialize this n.serialize = .ok ⟨n.val, this.bits⟩ ∧
    UInteger.deserializeChecked this n.serialize = .ok ⟨n.val, this.bits⟩ := by
  have h := UInteger.read_serialize n
  constructor
  · simp only [UInteger.deserialize, h, Res.ok_bind]
  · have : BS.atR n.serialize 0 = .ok 0xA1 := rfl
    simp only [UInteger.deserializeChecked, this, Res.ok_bind, UInteger.deserialize, h]
    rfl

/-- The reader of include/abe accepts only the right tag, and needs five bytes. -/
theorem C73_tag_checked_partial (this n : UInteger) (input : Bytes)
    (h : UInteger.deserializeChecked this input = .ok n) :
    ∃ b1 b2 b3 b4 rest, input = 0xA1 :: b1 :: b2 :: b3 :: b4 :: rest ∧
      n = ⟨UInt32.ofNat (BS.beVal [b1, b2, b3, b4]), this.bits⟩ := by
  unfold UInteger.deserializeChecked UInteger.deserialize UInteger.read at h
  match input, h with
  | [], h => simp [BS.atR] at h
  | [x0], h => simp only [BS.atR, List.getElem?_cons_zero, Res.ok_bind] at h; split at h <;> simp at h
  | [x0, x1], h => simp [BS.atR] at h; split at h <;> simp at h
  | [x0, x1, x2], h => simp [BS.atR] at h; split at h <;> simp at h
  | [x0, x1, x2, x3], h => simp [BS.atR] at h; split at h <;> simp at h
  | x0 :: x1 :: x2 :: x3 :: x4 :: r, h =>
    simp [BS.atR] at h
    split at h
    · rename_i e; subst e
      simp only [Res.ok.injEq] at h
      exact ⟨x1, x2, x3, x4, r, rfl, h.symm⟩
    · cases h

example : UInteger.deserializeChecked ⟨0, 0⟩ [0xA1, 0, 0, 1, 2, 9] = .ok ⟨258, 0⟩ := by decide

/-- The code violates C73: the width is not written, so an explicit integer comes back as another one. -/
theorem C73_width_violated (v : UInt32) (bits : Nat) (h : bits ≠ 0) :
    ∃ m, UInteger.deserializeChecked ⟨0, 0⟩ (UInteger.serialize ⟨v, bits⟩) = .ok m ∧ m ≠ ⟨v, bits⟩ ∧
      (Obj.int (G1 := G1) (G2 := G2) (GT := GT) ⟨v, bits⟩).isEqual (.int m) = .ok false := by
  refine ⟨⟨v, 0⟩, (C73_value_partial ⟨v, bits⟩ ⟨0, 0⟩).2, ?_, ?_⟩
  · simp [Ne.symm h]
  · simp [Obj.isEqual, h]

/-- The code violates C73: the reader of include/lsss accepts every tag. -/
theorem C73_tag_unchecked_violated (this : UInteger) (tag : UInt8) (v : UInt32) :
    UInteger.deserialize this (tag :: BS.be32 v.toNat) = .ok ⟨v, this.bits⟩ := by
  have h := UInteger.read_serialize ⟨v, 0⟩
  have e : UInteger.read (tag :: BS.be32 v.toNat) = UInteger.read (UInteger.serialize ⟨v, 0⟩) := by
    unfold UInteger.read UInteger.serialize
    simp only [BS.atR_succ, BS.atR, List.getElem?_cons_succ]
  simp only [UInteger.deserialize, e, h, Res.ok_bind]

end Abe
