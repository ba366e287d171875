import Verif.Model.Container
import Verif.Proof.Bytes
import Verif.Props.Lists
/-!
# Containers, keys and ciphertexts: lemmas
-/
set_option linter.unusedSimpArgs false
set_option linter.unusedSectionVars false
set_option autoImplicit false
namespace Abe

/-! ### Numbers -/

theorem natBE_zero : natBE 0 = [] := by rw [natBE]; simp

theorem natBE_pos {n : Nat} (h : n ≠ 0) : natBE n = natBE (n / 256) ++ [UInt8.ofNat n] := by
  rw [natBE]; simp [h]

theorem beVal_snoc (b : Bytes) (x : UInt8) : BS.beVal (b ++ [x]) = BS.beVal b * 256 + x.toNat := by
  simp [BS.beVal]

theorem beVal_natBE (n : Nat) : BS.beVal (natBE n) = n := by
  induction n using Nat.strongRecOn with
  | _ n ih =>
    by_cases h : n = 0
    · subst h; rw [natBE_zero]; rfl
    · rw [natBE_pos h, beVal_snoc, ih _ (by omega), UInt8.toNat_ofNat']
      simp only [Nat.reducePow]
      omega

theorem natBE_length (k n : Nat) (h : n < 256 ^ k) : (natBE n).length ≤ k := by
  induction k generalizing n with
  | zero => simp at h; subst h; simp [natBE_zero]
  | succ k ih =>
    by_cases h0 : n = 0
    · subst h0; simp [natBE_zero]
    · rw [natBE_pos h0]
      have : n / 256 < 256 ^ k := by
        rw [Nat.div_lt_iff_lt_mul (by omega)]
        rwa [Nat.pow_succ] at h
      have := ih _ this
      simp only [List.length_append, List.length_singleton]
      omega

theorem UInteger.read_serialize (n : UInteger) : UInteger.read n.serialize = .ok n.val := by
  have h := BS.beVal_be32 n.val.toNat n.val.toNat_lt
  unfold UInteger.read UInteger.serialize
  unfold BS.be32 at *
  simp only [BS.atR, List.getElem?_cons_zero, List.getElem?_cons_succ, Res.ok_bind]
  rw [h]
  simp

/-! ### What a value must satisfy to come back -/

/-- The group codecs are correct: what was written is read back, and the written forms have one of the two
lengths that the readers accept. -/
structure CodecOk {G1 G2 GT : Type} (cd : Codec G1 G2 GT) : Prop where
  order : cd.order < 256 ^ 65535
  rw1 : ∀ x, cd.r1 (cd.w1 x) = .ok x
  rw2 : ∀ x, cd.r2 (cd.w2 x) = .ok x
  rwT : ∀ x, cd.rT (cd.wT x) = .ok x
  len1 : ∀ x, (cd.w1 x).length = 1 ∨ (cd.w1 x).length = cd.n1
  len2 : ∀ x, (cd.w2 x).length = 1 ∨ (cd.w2 x).length = cd.n2
  ne1 : ∀ x, cd.w1 x ≠ []
  ne2 : ∀ x, cd.w2 x ≠ []
  neT : ∀ x, cd.wT x ≠ []
  small1 : ∀ x, (cd.w1 x).length < 2 ^ 31
  small2 : ∀ x, (cd.w2 x).length < 2 ^ 31
  smallT : ∀ x, (cd.wT x).length < 2 ^ 31

variable {G1 G2 GT : Type} {mk : Mktime} {cd : Codec G1 G2 GT}

/-- The components that a container can carry through its byte format: integers, field elements not above the
order, group elements, byte strings, and attribute lists that came from the parser. -/
inductive Storable (mk : Mktime) (cd : Codec G1 G2 GT) : Obj G1 G2 GT → Prop
  | int (n : UInteger) : Storable mk cd (.int n)
  | zp (v : Nat) (h : v ≤ cd.order) : Storable mk cd (.zp v)
  | g1 (x : G1) : Storable mk cd (.g1 x)
  | g2 (x : G2) : Storable mk cd (.g2 x)
  | gt (x : GT) : Storable mk cd (.gt x)
  | bytes (b : Bytes) (h : b.length < 2 ^ 31) : Storable mk cd (.bytes b)
  | attrs (l : AttrList) (s : Bytes) (h : createAttributeList mk s = .ok (some l))
      (hs : l.compact.length < 2 ^ 31) : Storable mk cd (.attrs l)

/-- The same component: equal, except that an integer may lose its width and the attributes of a list may
come in another order. -/
inductive SameObj : Obj G1 G2 GT → Obj G1 G2 GT → Prop
  | refl (o : Obj G1 G2 GT) : SameObj o o
  | int (n m : UInteger) (h : m.val = n.val) : SameObj (.int n) (.int m)
  | attrs (l m : AttrList) (h : m.attrs.Perm l.attrs) (ho : m.orig = l.orig) (hc : m.compact = l.compact) :
      SameObj (.attrs l) (.attrs m)

theorem SameObj.symm {a b : Obj G1 G2 GT} (h : SameObj a b) : SameObj b a := by
  cases h with
  | refl => exact .refl _
  | int n m h => exact .int _ _ h.symm
  | attrs l m h ho hc => exact .attrs _ _ h.symm ho.symm hc.symm

theorem smartPack_length (b : Bytes) : (BS.smartPack [] b).length ≤ 5 + b.length := by
  unfold BS.smartPack
  split
  · simp [BS.be32]; omega
  · split
    · simp [BS.be16]; omega
    · split
      · simp; omega
      · simp

theorem smartUnpack_group (tag : UInt8) (b : Bytes) (h0 : b ≠ []) (h : b.length < 2 ^ 32) :
    ∃ j, BS.smartUnpack (groupSerialize tag b) 1 = .ok (b, j) := by
  unfold groupSerialize
  rw [BS.smartPack_append]
  have := BS.smartUnpack_shift [tag] (BS.smartPack [] b) 0
  have h2 := BS.smartUnpack_zero b [] h0 h
  rw [List.append_nil] at h2
  rw [h2] at this
  exact ⟨_, this⟩

theorem groupSerialize_length (tag : UInt8) (b : Bytes) : (groupSerialize tag b).length ≤ 6 + b.length := by
  unfold groupSerialize
  rw [BS.smartPack_append]
  have := smartPack_length b
  simp only [List.length_append, List.length_singleton]
  omega

theorem groupSerialize_cons (tag : UInt8) (b : Bytes) : ∃ r, groupSerialize tag b = tag :: r := by
  unfold groupSerialize; rw [BS.smartPack_append]; exact ⟨_, rfl⟩

theorem zp_round_trip {order v : Nat} (ho : order < 256 ^ 65535) (h : v ≤ order) :
    zpDeserialize order (zpSerialize v) = .ok v := by
  have hl : (natBE v).length ≤ 65535 := natBE_length _ _ (by omega)
  have hb := BS.beVal_be16 (natBE v).length (by omega)
  have hv := beVal_natBE v
  unfold zpDeserialize zpSerialize BS.be16 at *
  rw [BS.atR_zero]
  simp only [Res.ok_bind, List.cons_append, List.nil_append, List.length_cons]
  by_cases h3 : 3 < (natBE v).length + 1 + 1 + 1
  · simp only [BS.atR, List.getElem?_cons_zero, List.getElem?_cons_succ, Res.ok_bind, h3, and_self, if_true]
    simp only [BS.beVal, List.foldl_cons, List.foldl_nil, Nat.zero_mul, Nat.zero_add] at hb
    rw [hb]
    rw [if_neg (by omega)]
    simp only [List.drop_succ_cons, List.drop_zero, List.take_length, hv]
    rw [if_neg (by omega)]
  · have h0 : natBE v = [] := by
      apply List.eq_nil_of_length_eq_zero; omega
    rw [if_neg (by omega)]
    rw [h0] at hv
    rw [← hv]; rfl

theorem bytes_round_trip (b : Bytes) (h : b.length < 2 ^ 31) : BS.deserialize [] (BS.serialize b) = b := by
  have hb := BS.beVal_be32 b.length (by omega)
  unfold BS.deserialize BS.serialize
  by_cases h0 : b = []
  · subst h0; rfl
  · have hp : 0 < b.length := List.length_pos_iff.mpr h0
    have e1 : (0x1D :: (BS.be32 b.length ++ b)).length = b.length + 5 := by
      simp [BS.be32]
    rw [e1, if_pos (by omega)]
    have e2 : ((0x1D :: (BS.be32 b.length ++ b)).drop 1).take 4 = BS.be32 b.length := by
      simp [BS.be32]
    simp only [e2, hb, if_true]
    exact BS.getSubset_append (0x1D :: BS.be32 b.length) b

theorem compact_cons (l : AttrList) : ∃ r, l.compact = 124 :: r := ⟨_, rfl⟩

/-- Every storable component is written as a non-empty string that reads back as the same component. -/
theorem readObj_serialize (hc : CodecOk cd) {o : Obj G1 G2 GT} (h : Storable mk cd o) :
    ∃ (b : Bytes) (o' : Obj G1 G2 GT), o.serialize cd = .ok b ∧ b ≠ [] ∧ b.length < 2 ^ 32 ∧
      Container.readObj mk cd b = .ok (some o') ∧ SameObj o o' ∧ o'.clone = .ok o' := by
  cases h with
  | int n =>
    refine ⟨_, .int ⟨n.val, 0⟩, rfl, by simp [UInteger.serialize], by simp [UInteger.serialize, BS.be32], ?_,
      .int _ _ rfl, rfl⟩
    have := UInteger.read_serialize n
    unfold UInteger.serialize at *
    simp [Container.readObj, UInteger.deserializeChecked, BS.atR, UInteger.deserialize, this]
  | zp v h =>
    refine ⟨_, .zp v, rfl, by simp [zpSerialize], ?_, ?_, .refl _, rfl⟩
    · have hl : (natBE v).length ≤ 65535 := natBE_length _ _ (by have := hc.order; omega)
      simp [zpSerialize, BS.be16]; omega
    · have := zp_round_trip hc.order h
      unfold zpSerialize at *
      simp [Container.readObj, this]
  | g1 x =>
    obtain ⟨r, hr⟩ := groupSerialize_cons 0xB2 (cd.w1 x)
    obtain ⟨j, hj⟩ := smartUnpack_group 0xB2 (cd.w1 x) (hc.ne1 x) (by have := hc.small1 x; omega)
    refine ⟨_, .g1 x, rfl, by rw [hr]; simp, ?_, ?_, .refl _, rfl⟩
    · have := groupSerialize_length 0xB2 (cd.w1 x); have := hc.small1 x; omega
    · rw [hr] at hj ⊢
      have hlen : ¬ ((cd.w1 x).length ≠ 1 ∧ (cd.w1 x).length ≠ cd.n1) := by
        rcases hc.len1 x with h | h <;> simp [h]
      simp [Container.readObj, groupDeserialize, hj, hlen, hc.rw1]
  | g2 x =>
    obtain ⟨r, hr⟩ := groupSerialize_cons 0xB3 (cd.w2 x)
    obtain ⟨j, hj⟩ := smartUnpack_group 0xB3 (cd.w2 x) (hc.ne2 x) (by have := hc.small2 x; omega)
    refine ⟨_, .g2 x, rfl, by rw [hr]; simp, ?_, ?_, .refl _, rfl⟩
    · have := groupSerialize_length 0xB3 (cd.w2 x); have := hc.small2 x; omega
    · rw [hr] at hj ⊢
      simp [Container.readObj, groupDeserialize, hj, hc.rw2]
      rcases hc.len2 x with h | h <;> simp [h]
  | gt x =>
    obtain ⟨r, hr⟩ := groupSerialize_cons 0xB4 (cd.wT x)
    obtain ⟨j, hj⟩ := smartUnpack_group 0xB4 (cd.wT x) (hc.neT x) (by have := hc.smallT x; omega)
    refine ⟨_, .gt x, rfl, by rw [hr]; simp, ?_, ?_, .refl _, rfl⟩
    · have := groupSerialize_length 0xB4 (cd.wT x); have := hc.smallT x; omega
    · rw [hr] at hj ⊢
      simp [Container.readObj, gtDeserialize, hj, hc.rwT]
  | bytes b h =>
    refine ⟨_, .bytes b, rfl, by simp [BS.serialize], ?_, ?_, .refl _, rfl⟩
    · simp [BS.serialize, BS.be32]; omega
    · have := bytes_round_trip b h
      unfold BS.serialize at *
      simp [Container.readObj, this]
  | attrs l s h hs =>
    obtain ⟨l', h1, h2, h3, h4⟩ := C29_compact_round_trip s l h
    obtain ⟨r, hr⟩ := compact_cons l
    refine ⟨l.compact, .attrs l', rfl, by rw [hr]; simp, by omega, ?_, .attrs _ _ h2 h3 h4, rfl⟩
    rw [hr] at h1 ⊢
    simp [Container.readObj, h1]

/-! ### Containers -/

theorem serialize_cons {k : Bytes} {o : Obj G1 G2 GT} {c : Container G1 G2 GT} {b rest : Bytes}
    (h1 : o.serialize cd = .ok b) (h2 : Container.serialize cd c = .ok rest) :
    Container.serialize cd ((k, o) :: c) = .ok (BS.smartPack [] k ++ (BS.smartPack [] b ++ rest)) := by
  simp only [Container.serialize, h1, h2, Res.ok_bind]
  rw [BS.smartPack_append (BS.smartPack [] k), List.append_assoc]

/-- Two maps with the same names in the same order and the same components. -/
def SameComps (c c' : Container G1 G2 GT) : Prop :=
  List.Forall₂ (fun p q => p.1 = q.1 ∧ SameObj p.2 q.2) c c'

/-- Names and components that survive the byte format. -/
def AllStorable (mk : Mktime) (cd : Codec G1 G2 GT) (c : Container G1 G2 GT) : Prop :=
  ∀ p ∈ c, p.1 ≠ [] ∧ p.1.length < 2 ^ 32 ∧ Storable mk cd p.2

/-- Writing the components of `c` over those of `d`, one after the other. -/
def overlay (d c : Container G1 G2 GT) : Container G1 G2 GT := c.foldl (fun m p => SMap.insert p.1 p.2 m) d

theorem serialize_ok (hc : CodecOk cd) (c : Container G1 G2 GT) (h : AllStorable mk cd c) :
    ∃ b, Container.serialize cd c = .ok b ∧ (c ≠ [] → b ≠ []) := by
  induction c with
  | nil => exact ⟨[], rfl, by simp⟩
  | cons p c ih =>
    obtain ⟨k, o⟩ := p
    obtain ⟨b, o', h1, h2, -, -⟩ := readObj_serialize hc (h _ List.mem_cons_self).2.2
    obtain ⟨r, h3, -⟩ := ih (fun q hq => h q (List.mem_cons_of_mem _ hq))
    refine ⟨_, serialize_cons h1 h3, fun _ => ?_⟩
    have := BS.smartPack_length_pos k (h _ List.mem_cons_self).1
    simp [this]

theorem deserLoop_serialize (hc : CodecOk cd) (c : Container G1 G2 GT) (h : AllStorable mk cd c) (hne : c ≠ []) :
    ∃ c', SameComps c c' ∧ ∀ (b pre : Bytes) (d : Container G1 G2 GT) (fuel : Nat),
      Container.serialize cd c = .ok b → c.length ≤ fuel →
      Container.deserLoop mk cd (pre ++ b) fuel pre.length d = .ok (overlay d c') := by
  induction c with
  | nil => exact absurd rfl hne
  | cons p c ih =>
    obtain ⟨k, o⟩ := p
    obtain ⟨hk0, hk1, ho⟩ := h _ List.mem_cons_self
    obtain ⟨v, o', h1, h2, h3, h4, h5, h6⟩ := readObj_serialize hc ho
    have hrest : AllStorable mk cd c := fun q hq => h q (List.mem_cons_of_mem _ hq)
    obtain ⟨r, hr, hr0⟩ := serialize_ok hc c hrest
    have step : ∀ (b pre : Bytes) (d : Container G1 G2 GT) (fuel : Nat),
        Container.serialize cd ((k, o) :: c) = .ok b →
        Container.deserLoop mk cd (pre ++ b) (fuel + 1) pre.length d =
          (let pre' := pre ++ (BS.smartPack [] k ++ BS.smartPack [] v)
           if r = [] then .ok (SMap.insert k o' d)
           else Container.deserLoop mk cd (pre' ++ r) fuel pre'.length (SMap.insert k o' d)) := by
      intro b pre d fuel hb
      rw [serialize_cons h1 hr, Res.ok.injEq] at hb
      subst hb
      have u1 : BS.smartUnpack (pre ++ (BS.smartPack [] k ++ (BS.smartPack [] v ++ r))) pre.length =
          .ok (k, pre.length + (BS.smartPack [] k).length) := by
        have := BS.smartUnpack_shift pre (BS.smartPack [] k ++ (BS.smartPack [] v ++ r)) 0
        rw [BS.smartUnpack_zero k _ hk0 hk1] at this
        exact this
      have u2 : BS.smartUnpack (pre ++ (BS.smartPack [] k ++ (BS.smartPack [] v ++ r)))
          (pre.length + (BS.smartPack [] k).length) =
          .ok (v, pre.length + (BS.smartPack [] k).length + (BS.smartPack [] v).length) := by
        have := BS.smartUnpack_shift (pre ++ BS.smartPack [] k) (BS.smartPack [] v ++ r) 0
        rw [BS.smartUnpack_zero v _ h2 h3] at this
        simpa [List.append_assoc, Nat.add_assoc] using this
      simp only [Container.deserLoop, u1, u2, Res.ok_bind, Container.deserializeElement, h4,
        Container.setComponent, h6]
      have hl : (pre ++ (BS.smartPack [] k ++ (BS.smartPack [] v ++ r))).length =
          pre.length + (BS.smartPack [] k).length + (BS.smartPack [] v).length + r.length := by
        simp only [List.length_append]; omega
      rw [hl]
      by_cases hr' : r = []
      · subst hr'
        simp
      · have : 0 < r.length := List.length_pos_iff.mpr hr'
        rw [if_pos (by omega), if_neg hr']
        simp only [List.length_append, List.append_assoc, Nat.add_assoc]
    by_cases hcn : c = []
    · subst hcn
      have hrn : r = [] := by
        simp only [Container.serialize, Res.ok.injEq] at hr; exact hr.symm
      refine ⟨[(k, o')], .cons ⟨rfl, h5⟩ .nil, fun b pre d fuel hb hf => ?_⟩
      cases fuel with
      | zero => simp at hf
      | succ fuel => rw [step b pre d fuel hb, if_pos hrn]; rfl
    · obtain ⟨c', hs, hl⟩ := ih hrest hcn
      refine ⟨(k, o') :: c', .cons ⟨rfl, h5⟩ hs, fun b pre d fuel hb hf => ?_⟩
      cases fuel with
      | zero => simp at hf
      | succ fuel =>
        rw [step b pre d fuel hb, if_neg (hr0 hcn)]
        exact hl r _ _ fuel hr (by simp only [List.length_cons] at hf; omega)

theorem serialize_length (hc : CodecOk cd) (c : Container G1 G2 GT) (h : AllStorable mk cd c) (b : Bytes)
    (hb : Container.serialize cd c = .ok b) : c.length ≤ b.length := by
  induction c generalizing b with
  | nil => simp
  | cons p c ih =>
    obtain ⟨k, o⟩ := p
    obtain ⟨hk0, hk1, ho⟩ := h _ List.mem_cons_self
    obtain ⟨v, o', h1, h2, h3, h4, h5, h6⟩ := readObj_serialize hc ho
    obtain ⟨r, hr, -⟩ := serialize_ok hc c (fun q hq => h q (List.mem_cons_of_mem _ hq))
    rw [serialize_cons h1 hr, Res.ok.injEq] at hb
    subst hb
    have := ih (fun q hq => h q (List.mem_cons_of_mem _ hq)) r hr
    have := List.length_pos_iff.mpr (BS.smartPack_length_pos k hk0)
    simp only [List.length_cons, List.length_append]
    omega

theorem deserialize_serialize (hc : CodecOk cd) (c : Container G1 G2 GT) (h : AllStorable mk cd c)
    (hne : c ≠ []) : ∃ (b : Bytes) (c' : Container G1 G2 GT), Container.serialize cd c = .ok b ∧ b ≠ [] ∧
      SameComps c c' ∧ ∀ d, Container.deserialize mk cd d b = .ok (overlay d c') := by
  obtain ⟨b, h1, h2⟩ := serialize_ok hc c h
  obtain ⟨c', h3, h4⟩ := deserLoop_serialize hc c h hne
  refine ⟨b, c', h1, h2 hne, h3, fun d => ?_⟩
  exact h4 b [] d _ h1 (by have := serialize_length hc c h b h1; omega)

/-! ### Overlays of sorted maps -/

theorem insert_append_last {α : Type} (k : Bytes) (v : α) (m : SMap α) (h : ∀ p ∈ m, blt p.1 k = true) :
    SMap.insert k v m = m ++ [(k, v)] := by
  induction m with
  | nil => rfl
  | cons p m ih =>
    obtain ⟨k', v'⟩ := p
    have h1 := h _ List.mem_cons_self
    have h2 : k ≠ k' := fun e => by subst e; rw [blt_irrefl] at h1; cases h1
    simp only [SMap.insert, blt_asymm h1, Bool.false_eq_true, if_false, if_neg h2, List.cons_append]
    rw [ih (fun p hp => h p (List.mem_cons_of_mem _ hp))]

theorem foldl_insert_sorted {α : Type} (m d : SMap α) (hs : SMap.Sorted m)
    (hd : ∀ p ∈ d, ∀ q ∈ m, blt p.1 q.1 = true) :
    m.foldl (fun m p => SMap.insert p.1 p.2 m) d = d ++ m := by
  induction m generalizing d with
  | nil => simp
  | cons p m ih =>
    obtain ⟨k, v⟩ := p
    simp only [List.foldl_cons]
    rw [insert_append_last k v d (fun p hp => hd p hp _ List.mem_cons_self)]
    rw [ih _ hs.2]
    · simp
    · intro p hp q hq
      rcases List.mem_append.mp hp with hp | hp
      · exact hd p hp q (List.mem_cons_of_mem _ hq)
      · simp at hp; subst hp; exact hs.1 q hq

theorem overlay_nil {c : Container G1 G2 GT} (hs : SMap.Sorted c) : overlay [] c = c := by
  unfold overlay; rw [foldl_insert_sorted c [] hs (by simp)]; rfl

theorem SameComps.keys {c c' : Container G1 G2 GT} (h : SameComps c c') : SMap.keys c' = SMap.keys c := by
  induction h with
  | nil => rfl
  | cons h1 _ ih => simp only [SMap.keys, List.map_cons] at *; rw [h1.1, ih]

theorem sorted_of_keys {α β : Type} {m : SMap α} {m' : SMap β} (h : SMap.keys m' = SMap.keys m)
    (hs : SMap.Sorted m) : SMap.Sorted m' := by
  induction m generalizing m' with
  | nil => simp [SMap.keys] at h; subst h; trivial
  | cons p m ih =>
    cases m' with
    | nil => trivial
    | cons p' m' =>
      obtain ⟨k, v⟩ := p
      obtain ⟨k', v'⟩ := p'
      simp only [SMap.keys, List.map_cons, List.cons.injEq] at h
      obtain ⟨rfl, h⟩ := h
      refine ⟨fun q hq => ?_, ih h hs.2⟩
      have : q.1 ∈ m'.map (·.1) := List.mem_map_of_mem hq
      rw [h] at this
      obtain ⟨q', hq', e⟩ := List.mem_map.mp this
      rw [← e]; exact hs.1 q' hq'

theorem SameComps.find {c c' : Container G1 G2 GT} (h : SameComps c c') {k : Bytes} {o : Obj G1 G2 GT}
    (hf : SMap.find k c = some o) : ∃ o', SMap.find k c' = some o' ∧ SameObj o o' := by
  induction h with
  | nil => simp at hf
  | @cons p q c c' h1 _ ih =>
    obtain ⟨k1, v1⟩ := p
    obtain ⟨k2, v2⟩ := q
    obtain ⟨h1, h2⟩ := h1
    simp only at h1 h2
    subst h1
    simp only [SMap.find] at hf ⊢
    split at hf
    · rename_i e; rw [if_pos e]; cases hf; exact ⟨_, rfl, h2⟩
    · rename_i e; rw [if_neg e]; exact ih hf

/-! ### Fuel -/

theorem smartUnpack_advance {b r : Bytes} {i j : Nat} (h : BS.smartUnpack b i = .ok (r, j)) : i < j := by
  unfold BS.smartUnpack at h
  rw [Res.bind_eq_ok] at h
  obtain ⟨ty, h1, h⟩ := h
  split at h
  · have := (BS.unpack_ok h).1; omega
  · split at h
    · have := (BS.unpack16bits_ok h).1; omega
    · split at h
      · have := (BS.unpack8bits_ok h).1; omega
      · simp only [Res.ok.injEq, Prod.mk.injEq] at h; omega

/-- The fuel given by `deserialize` never runs out: more fuel gives the same outcome. -/
theorem deserLoop_fuel (blob : Bytes) (f g i : Nat) (c : Container G1 G2 GT) (hf : blob.length < f + i)
    (hfg : f ≤ g) (hf0 : 0 < f) : Container.deserLoop mk cd blob g i c = Container.deserLoop mk cd blob f i c := by
  induction f generalizing g i c with
  | zero => omega
  | succ f ih =>
    cases g with
    | zero => omega
    | succ g =>
      simp only [Container.deserLoop]
      cases h1 : BS.smartUnpack blob i with
      | ok q =>
        obtain ⟨key, i1⟩ := q
        simp only [Res.ok_bind]
        cases h2 : BS.smartUnpack blob i1 with
        | ok q2 =>
          obtain ⟨value, j⟩ := q2
          simp only [Res.ok_bind]
          cases h3 : Container.deserializeElement mk cd c key value with
          | ok c' =>
            simp only [Res.ok_bind]
            by_cases hj : j < blob.length
            · rw [if_pos hj, if_pos hj]
              have := smartUnpack_advance h1
              have := smartUnpack_advance h2
              exact ih g j c' (by omega) (by omega) (by omega)
            · rw [if_neg hj, if_neg hj]
          | throw e => rfl
          | ub => rfl
          | abort => rfl
        | throw e => rfl
        | ub => rfl
        | abort => rfl
      | throw e => rfl
      | ub => rfl
      | abort => rfl

end Abe
