import Verif.Proof.WireSize
import Verif.Props.Container
/-! # C140: what was read from any bytes can be written again, lemmas -/
set_option linter.unusedSimpArgs false
set_option linter.unusedSectionVars false
set_option autoImplicit false
namespace Abe

variable {G1 G2 GT : Type} {mk : Mktime} {cd : Codec G1 G2 GT}

/-! ### One component -/

theorem smartUnpack_len {b r : Bytes} {i j : Nat} (h : BS.smartUnpack b i = .ok (r, j)) :
    i + 1 + r.length ≤ j ∧ j ≤ b.length := by
  unfold BS.smartUnpack at h
  obtain ⟨ty, h1, h⟩ := (Res.bind_eq_ok _ _ _).mp h
  have hlt := BS.atR_lt h1
  split at h
  · have := BS.unpack_ok h; omega
  · split at h
    · have := BS.unpack16bits_ok h; omega
    · split at h
      · have := BS.unpack8bits_ok h; omega
      · simp only [Res.ok.injEq, Prod.mk.injEq] at h
        obtain ⟨rfl, rfl⟩ := h
        simp only [List.length_nil]; omega

theorem bytes_len (v : Bytes) (hv : v ≠ []) : (BS.deserialize [] v).length + 5 ≤ 5 * v.length := by
  have := List.length_pos_iff.mpr hv
  unfold BS.deserialize
  split
  · simp only
    split
    · rename_i h
      unfold BS.getSubset
      split
      · simp only [List.length_take, List.length_drop]; omega
      · simp; omega
    · simp; omega
  · simp; omega

theorem zp_read {order v : Nat} {input : Bytes} (h0 : 0 < order) (h : zpDeserialize order input = .ok v) : v ≤ order := by
  unfold zpDeserialize at h
  obtain ⟨tag, -, h⟩ := (Res.bind_eq_ok _ _ _).mp h
  split at h
  · obtain ⟨lo, -, h⟩ := (Res.bind_eq_ok _ _ _).mp h
    obtain ⟨hi, -, h⟩ := (Res.bind_eq_ok _ _ _).mp h
    simp only at h
    split at h
    · cases h
    · cases h
      split
      · exact (Nat.mod_lt _ h0).le
      · omega
  · cases h; omega

/-- What the reader makes of a value is a policy or can be written again, and its size is bounded. -/
theorem readObj_made (h0 : 0 < cd.order) {n : Nat} (hn : ElementBytes cd n) {v : Bytes} (hv : v.length ≤ 2 ^ 28) {o : Obj G1 G2 GT}
    (h : Container.readObj mk cd v = .ok (some o)) :
    ((∃ p, o = .policy p) ∨ Storable mk cd o) ∧ objBytes cd o ≤ 7 * v.length + n + 6 := by
  unfold Container.readObj at h
  split at h
  · cases h
  rename_i ty rest
  split at h
  · obtain ⟨x, -, h⟩ := (Res.bind_eq_ok _ _ _).mp h
    cases h
    refine ⟨.inr (.int _), ?_⟩
    simp only [objBytes, Obj.serialize, UInteger.serialize, BS.be32, List.length_cons, List.length_nil]
    omega
  split at h
  · obtain ⟨x, hx, h⟩ := (Res.bind_eq_ok _ _ _).mp h
    cases h
    have hz := zp_read h0 hx
    have := zp_bytes (cd := cd) hn hz
    exact ⟨.inr (.zp _ hz), by omega⟩
  split at h
  · obtain ⟨x, -, h⟩ := (Res.bind_eq_ok _ _ _).mp h
    cases h
    have := g1_bytes (cd := cd) hn x
    exact ⟨.inr (.g1 _), by omega⟩
  split at h
  · obtain ⟨x, -, h⟩ := (Res.bind_eq_ok _ _ _).mp h
    cases h
    have := g2_bytes (cd := cd) hn x
    exact ⟨.inr (.g2 _), by omega⟩
  split at h
  · obtain ⟨x, -, h⟩ := (Res.bind_eq_ok _ _ _).mp h
    cases h
    have := gt_bytes (cd := cd) hn x
    exact ⟨.inr (.gt _), by omega⟩
  split at h
  · cases h
    have hl := bytes_len (ty :: rest) (by simp)
    refine ⟨.inr (.bytes _ ?_), ?_⟩
    · omega
    · rw [bytes_bytes]; omega
  split at h
  · obtain ⟨x, -, h⟩ := (Res.bind_eq_ok _ _ _).mp h
    split at h
    · cases h
    · cases h
      refine ⟨.inl ⟨_, rfl⟩, ?_⟩
      simp [objBytes, Obj.serialize]
  split at h
  · obtain ⟨x, hx, h⟩ := (Res.bind_eq_ok _ _ _).mp h
    split at h
    · cases h
    · cases h
      have hl := (list_size hx).2
      exact ⟨.inr (.attrs _ _ hx (by omega)), by rw [attrs_bytes]; omega⟩
  split at h
  · cases h
  · cases h

/-! ### The loop -/

/-- What a container can hold that was read from bytes. -/
def Loaded (mk : Mktime) (cd : Codec G1 G2 GT) (c : Container G1 G2 GT) : Prop :=
  SMap.Sorted c ∧ ∀ p ∈ c, p.1.length < 2 ^ 32 ∧ (p.2 = .null ∨ Storable mk cd p.2)

theorem deserElem_made (h0 : 0 < cd.order) {n : Nat} (hn : ElementBytes cd n) {c d : Container G1 G2 GT} {k v : Bytes}
    (hk : k.length < 2 ^ 32) (hv : v.length ≤ 2 ^ 28) (hc : Loaded mk cd c)
    (h : Container.deserializeElement mk cd c k v = .ok d) :
    Loaded mk cd d ∧ contBytes cd d ≤ contBytes cd c + (k.length + 7 * v.length + n + 16) := by
  unfold Container.deserializeElement at h
  obtain ⟨r, hr, h⟩ := (Res.bind_eq_ok _ _ _).mp h
  cases r with
  | none => cases h; exact ⟨hc, by omega⟩
  | some o =>
    simp only at h
    obtain ⟨ho, hb⟩ := readObj_made h0 hn hv hr
    have hs := set_bytes (cd := cd) h
    refine ⟨?_, by omega⟩
    simp only [Container.setComponent] at h
    obtain ⟨x, hx, h⟩ := (Res.bind_eq_ok _ _ _).mp h
    cases h
    refine ⟨SMap.sorted_insert hc.1, fun p hp => ?_⟩
    rcases SMap.mem_insert' hp with rfl | hp
    · refine ⟨hk, ?_⟩
      rcases ho with ⟨p, rfl⟩ | ho
      · cases hx; exact .inl rfl
      · cases ho <;> cases hx
        · exact .inr (.int _)
        · exact .inr (.zp _ ‹_›)
        · exact .inr (.g1 _)
        · exact .inr (.g2 _)
        · exact .inr (.gt _)
        · exact .inr (.bytes _ ‹_›)
        · exact .inr (.attrs _ _ ‹_› ‹_›)
    · exact hc.2 p hp

theorem deserLoop_made (h0 : 0 < cd.order) {n : Nat} (hn : ElementBytes cd n) {blob : Bytes} (hb : blob.length ≤ 2 ^ 28) :
    ∀ (fuel i : Nat) (c d : Container G1 G2 GT), Loaded mk cd c → Container.deserLoop mk cd blob fuel i c = .ok d →
      Loaded mk cd d ∧ contBytes cd d + (n + 23) * i ≤ contBytes cd c + (n + 23) * blob.length
  | 0, _, _, _, _, h => by cases h
  | fuel + 1, i, c, d, hc, h => by
    simp only [Container.deserLoop] at h
    obtain ⟨⟨k, i1⟩, h1, h⟩ := (Res.bind_eq_ok _ _ _).mp h
    obtain ⟨⟨v, j⟩, h2, h⟩ := (Res.bind_eq_ok _ _ _).mp h
    obtain ⟨c', h3, h⟩ := (Res.bind_eq_ok _ _ _).mp h
    simp only at h2 h3 h
    have l1 := smartUnpack_len h1
    have l2 := smartUnpack_len h2
    obtain ⟨g1, g2⟩ := deserElem_made h0 hn (by omega) (by omega) hc h3
    have hm : (n + 23) * (i + (k.length + v.length + 2)) ≤ (n + 23) * j := Nat.mul_le_mul_left _ (by omega)
    have hx : k.length + 7 * v.length + n + 16 ≤ (n + 23) * (k.length + v.length + 2) := by
      have a1 : (n + 23) * (k.length + v.length + 2) = (n + 23) * (k.length + v.length) + (n + 23) * 2 := Nat.mul_add _ _ _
      have a2 : 23 * (k.length + v.length) ≤ (n + 23) * (k.length + v.length) := Nat.mul_le_mul_right _ (by omega)
      omega
    rw [Nat.mul_add] at hm
    split at h
    · obtain ⟨e1, e2⟩ := deserLoop_made h0 hn hb fuel j c' d g1 h
      exact ⟨e1, by omega⟩
    · cases h
      have : (n + 23) * j ≤ (n + 23) * blob.length := Nat.mul_le_mul_left _ l2.2
      exact ⟨g1, by omega⟩

/-- Every container that was read from bytes holds null pointers and writable components. -/
theorem deserialize_made (h0 : 0 < cd.order) {n : Nat} (hn : ElementBytes cd n) {blob : Bytes} (hb : blob.length ≤ 2 ^ 28)
    {c : Container G1 G2 GT} (h : Container.deserialize mk cd [] blob = .ok c) :
    Loaded mk cd c ∧ contBytes cd c ≤ (n + 23) * blob.length := by
  have := deserLoop_made h0 hn hb _ 0 [] c ⟨trivial, by simp⟩ h
  simpa [contBytes] using this

/-! ### Writing the same again -/

theorem same_serialize {a b : Obj G1 G2 GT} (h : SameObj a b) : a.serialize cd = b.serialize cd := by
  cases h with
  | refl => rfl
  | int n m h => simp [Obj.serialize, UInteger.serialize, h]
  | attrs l m _ _ hc => simp [Obj.serialize, hc]

theorem sameComps_serialize {c c' : Container G1 G2 GT} (h : SameComps c c') : Container.serialize cd c' = Container.serialize cd c := by
  induction h with
  | nil => rfl
  | cons hp _ ih =>
    rename_i p q c c' _
    obtain ⟨k, o⟩ := p
    obtain ⟨k', o'⟩ := q
    obtain ⟨rfl, hs⟩ := hp
    simp only [Container.serialize, same_serialize (cd := cd) hs, ih]

theorem serialize_no_null : ∀ {c : Container G1 G2 GT} {b : Bytes}, Container.serialize cd c = .ok b → ∀ p ∈ c, p.2 ≠ .null
  | [], _, _, p, hp => by cases hp
  | (k, o) :: c, b, h, p, hp => by
    simp only [Container.serialize] at h
    obtain ⟨x, hx, h⟩ := (Res.bind_eq_ok _ _ _).mp h
    obtain ⟨y, hy, h⟩ := (Res.bind_eq_ok _ _ _).mp h
    rcases List.mem_cons.mp hp with rfl | hp
    · intro e
      simp only at e
      subst e
      simp [Obj.serialize] at hx
    · exact serialize_no_null hy p hp

theorem sameComps_of_find : ∀ {c c' : Container G1 G2 GT}, SMap.Sorted c → SMap.keys c' = SMap.keys c →
    (∀ k o, SMap.find k c = some o → ∃ o', SMap.find k c' = some o' ∧ SameObj o o') → SameComps c c'
  | [], [], _, _, _ => .nil
  | [], _ :: _, _, h, _ => by cases h
  | _ :: _, [], _, h, _ => by cases h
  | (k, o) :: c, (k', o') :: c', hs, hk, hf => by
    simp only [SMap.keys, List.map_cons, List.cons.injEq] at hk
    obtain ⟨rfl, hk⟩ := hk
    refine .cons ⟨rfl, ?_⟩ (sameComps_of_find hs.2 hk fun k o hf' => ?_)
    · obtain ⟨o2, h1, h2⟩ := hf k' o (by simp [SMap.find])
      simp only [SMap.find, if_true, Option.some.injEq] at h1
      subst h1
      exact h2
    · have hne : k ≠ k' := by
        rintro rfl
        rw [SMap.find_eq_none_of_lt hs.1] at hf'
        cases hf'
      have := hf k o (by simp only [SMap.find, if_neg hne, hf'])
      simpa only [SMap.find, if_neg hne] using this

/-! ### A component without name -/

theorem odd_never_ok (hc : CodecOk cd) : ∀ (c : Container G1 G2 GT), AllStorable mk cd c → ∀ (b v pre : Bytes), Container.serialize cd c = .ok b →
    v ≠ [] → v.length < 2 ^ 32 → ∀ (fuel : Nat) (d e : Container G1 G2 GT),
    Container.deserLoop mk cd (pre ++ (BS.smartPack [] v ++ b)) fuel pre.length d ≠ .ok e := by
  intro c
  induction c with
  | nil =>
    intro _ b v pre hb hv hvl fuel d e h
    cases hb
    cases fuel with
    | zero => cases h
    | succ fuel =>
      simp only [Container.deserLoop] at h
      obtain ⟨⟨k, i1⟩, h1, h⟩ := (Res.bind_eq_ok _ _ _).mp h
      obtain ⟨⟨w, j⟩, h2, h⟩ := (Res.bind_eq_ok _ _ _).mp h
      have u := BS.smartUnpack_shift pre (BS.smartPack [] v ++ []) 0
      rw [BS.smartUnpack_zero v _ hv hvl] at u
      rw [Nat.add_zero] at u
      rw [u] at h1
      simp only [Res.ok_bind, Res.ok.injEq, Prod.mk.injEq] at h1
      have := smartUnpack_len h2
      simp only [List.length_append, List.length_nil] at this
      omega
  | cons p c ih =>
    obtain ⟨k, o⟩ := p
    intro ha b v pre hb hv hvl fuel d e h
    obtain ⟨hk0, hk1, ho⟩ := ha _ List.mem_cons_self
    obtain ⟨w, o', s1, s2, s3, -⟩ := readObj_serialize hc ho
    have hrest : AllStorable mk cd c := fun q hq => ha q (List.mem_cons_of_mem _ hq)
    obtain ⟨r, hr, -⟩ := serialize_ok hc c hrest
    rw [serialize_cons s1 hr, Res.ok.injEq] at hb
    subst hb
    cases fuel with
    | zero => cases h
    | succ fuel =>
      simp only [Container.deserLoop] at h
      have u1 : BS.smartUnpack (pre ++ (BS.smartPack [] v ++ (BS.smartPack [] k ++ (BS.smartPack [] w ++ r)))) pre.length =
          .ok (v, pre.length + (BS.smartPack [] v).length) := by
        have := BS.smartUnpack_shift pre (BS.smartPack [] v ++ (BS.smartPack [] k ++ (BS.smartPack [] w ++ r))) 0
        rw [BS.smartUnpack_zero v _ hv hvl] at this
        exact this
      have u2 : BS.smartUnpack (pre ++ (BS.smartPack [] v ++ (BS.smartPack [] k ++ (BS.smartPack [] w ++ r))))
          (pre.length + (BS.smartPack [] v).length) =
          .ok (k, pre.length + (BS.smartPack [] v).length + (BS.smartPack [] k).length) := by
        have := BS.smartUnpack_shift (pre ++ BS.smartPack [] v) (BS.smartPack [] k ++ (BS.smartPack [] w ++ r)) 0
        rw [BS.smartUnpack_zero k _ hk0 hk1] at this
        simpa [List.append_assoc, Nat.add_assoc] using this
      rw [u1] at h
      simp only [Res.ok_bind] at h
      rw [u2] at h
      simp only [Res.ok_bind] at h
      obtain ⟨c', h3, h⟩ := (Res.bind_eq_ok _ _ _).mp h
      have hpos := List.length_pos_iff.mpr (BS.smartPack_length_pos w s2)
      have hl : pre.length + (BS.smartPack [] v).length + (BS.smartPack [] k).length <
          (pre ++ (BS.smartPack [] v ++ (BS.smartPack [] k ++ (BS.smartPack [] w ++ r)))).length := by
        simp only [List.length_append]; omega
      rw [if_pos hl] at h
      have := ih hrest r w (pre ++ (BS.smartPack [] v ++ BS.smartPack [] k)) hr s2 s3 fuel c' e
      apply this
      simpa [List.append_assoc, Nat.add_assoc] using h

/-! ### More bytes -/

theorem atR_suffix {b s : Bytes} {i : Nat} {x : UInt8} (h : BS.atR b i = .ok x) : BS.atR (b ++ s) i = .ok x := by
  have hl := BS.atR_lt h
  rw [BS.atR_append_left hl]
  simpa [BS.atR, List.getElem?_eq_getElem hl] using h

theorem copyAt_suffix {b s : Bytes} : ∀ {n i : Nat} {r : Bytes}, BS.copyAt b i n = .ok r → BS.copyAt (b ++ s) i n = .ok r
  | 0, _, _, h => h
  | n + 1, i, r, h => by
    simp only [BS.copyAt] at h ⊢
    obtain ⟨x, hx, h⟩ := (Res.bind_eq_ok _ _ _).mp h
    obtain ⟨y, hy, h⟩ := (Res.bind_eq_ok _ _ _).mp h
    rw [atR_suffix hx, Res.ok_bind, copyAt_suffix hy, Res.ok_bind]
    exact h

theorem unpack_suffix {b s : Bytes} {i : Nat} {p : Bytes × Nat} (h : BS.unpack b i = .ok p) : BS.unpack (b ++ s) i = .ok p := by
  simp only [BS.unpack, BS.get32bits] at h ⊢
  obtain ⟨⟨l, j⟩, hq, h⟩ := (Res.bind_eq_ok _ _ _).mp h
  obtain ⟨r, hr, h⟩ := (Res.bind_eq_ok _ _ _).mp h
  obtain ⟨b0, h0, hq⟩ := (Res.bind_eq_ok _ _ _).mp hq
  obtain ⟨b1, h1, hq⟩ := (Res.bind_eq_ok _ _ _).mp hq
  obtain ⟨b2, h2, hq⟩ := (Res.bind_eq_ok _ _ _).mp hq
  obtain ⟨b3, h3, hq⟩ := (Res.bind_eq_ok _ _ _).mp hq
  rw [atR_suffix h0, Res.ok_bind, atR_suffix h1, Res.ok_bind, atR_suffix h2, Res.ok_bind, atR_suffix h3, Res.ok_bind, hq, Res.ok_bind,
    copyAt_suffix hr, Res.ok_bind]
  exact h

theorem unpack16_suffix {b s : Bytes} {i : Nat} {p : Bytes × Nat} (h : BS.unpack16bits b i = .ok p) : BS.unpack16bits (b ++ s) i = .ok p := by
  simp only [BS.unpack16bits, BS.get16bits] at h ⊢
  obtain ⟨⟨l, j⟩, hq, h⟩ := (Res.bind_eq_ok _ _ _).mp h
  obtain ⟨r, hr, h⟩ := (Res.bind_eq_ok _ _ _).mp h
  obtain ⟨b0, h0, hq⟩ := (Res.bind_eq_ok _ _ _).mp hq
  obtain ⟨b1, h1, hq⟩ := (Res.bind_eq_ok _ _ _).mp hq
  rw [atR_suffix h0, Res.ok_bind, atR_suffix h1, Res.ok_bind, hq, Res.ok_bind, copyAt_suffix hr, Res.ok_bind]
  exact h

theorem unpack8_suffix {b s : Bytes} {i : Nat} {p : Bytes × Nat} (h : BS.unpack8bits b i = .ok p) : BS.unpack8bits (b ++ s) i = .ok p := by
  simp only [BS.unpack8bits] at h ⊢
  obtain ⟨x, hx, h⟩ := (Res.bind_eq_ok _ _ _).mp h
  obtain ⟨y, hy, h⟩ := (Res.bind_eq_ok _ _ _).mp h
  rw [atR_suffix hx, Res.ok_bind, copyAt_suffix hy, Res.ok_bind]
  exact h

theorem smartUnpack_suffix {b s : Bytes} {i : Nat} {p : Bytes × Nat} (h : BS.smartUnpack b i = .ok p) :
    BS.smartUnpack (b ++ s) i = .ok p := by
  simp only [BS.smartUnpack] at h ⊢
  obtain ⟨ty, hx, h⟩ := (Res.bind_eq_ok _ _ _).mp h
  rw [atR_suffix hx, Res.ok_bind]
  split at h
  · rename_i e; rw [if_pos e]; exact unpack_suffix h
  · rename_i e
    rw [if_neg e]
    split at h
    · rename_i e; rw [if_pos e]; exact unpack16_suffix h
    · rename_i e
      rw [if_neg e]
      split at h
      · rename_i e; rw [if_pos e]; exact unpack8_suffix h
      · rename_i e; rw [if_neg e]; exact h

end Abe
