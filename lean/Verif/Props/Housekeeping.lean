import Verif.Props.Utils
import Verif.Props.StreamCtx
import Verif.Props.Pke
import Verif.Props.Lists
import Verif.Props.Zr
import Verif.Props.Bytes
/-!
# Keys of the symmetric and public key contexts, ciphertext bodies, attribute lists as objects (C109 to C112)
-/
set_option linter.unusedSimpArgs false
set_option linter.unusedSectionVars false
set_option autoImplicit false
namespace Abe

/-! ## C109 keys of the stream context -/
namespace StreamCtx

/-- The key under an id. -/
def keyOf (c : StreamCtx) (id : Bytes) : Option SymKey := (c.keys.getSecretKey id).1

theorem keyOf_eq (c : StreamCtx) (id : Bytes) : c.keyOf id = (SMap.find id c.keys.sec).join :=
  (KeyStore.touch_spec c.keys.sec id).1

theorem keyOf_add (c : StreamCtx) (id j : Bytes) (k : SymKey) :
    ({ c with keys := c.keys.addKey id k .sec } : StreamCtx).keyOf j = if j = id then some k else c.keyOf j := by
  rw [keyOf_eq, keyOf_eq]
  show (SMap.find j (SMap.insert id (some k) c.keys.sec)).join = _
  rw [SMap.find_insert]
  split <;> rfl

/-- An id that names a key is refused, and nothing changes. -/
theorem C109_in_use (c : StreamCtx) (id rnd : Bytes) (h : c.keyOf id ≠ none) :
    c.keygen id rnd = .ok (some .inUseAlready, c) := by
  have : c.keys.checkSecretKey id = true := by
    rw [keyOf_eq] at h
    unfold KeyStore.checkSecretKey
    cases e : SMap.find id c.keys.sec with
    | none => rw [e] at h; exact absurd rfl h
    | some v => rfl
  unfold keygen
  rw [if_pos this]

/-- An id without an entry gets the random bytes as its key; the other keys and running streams stay. What is missing: ids
that were only looked up. -/
theorem C109_fresh_partial (c : StreamCtx) (id rnd : Bytes) (h : SMap.find id c.keys.sec = none) (hr : rnd.length = 32) :
    ∃ c', c.keygen id rnd = .ok (none, c') ∧ c'.enc = c.enc ∧ c'.dec = c.dec ∧ c'.keyOf id = some { data := rnd } ∧
      ∀ j, j ≠ id → c'.keyOf j = c.keyOf j := by
  have hc : ¬ c.keys.checkSecretKey id = true := by
    unfold KeyStore.checkSecretKey; rw [h]; simp
  have hk : ({} : SymKey).generate rnd = .ok { data := rnd } := by
    unfold SymKey.generate SymKey.setSymmetricKey
    have : ¬ (rnd.length ≠ shortKeyBytes ∧ rnd.length ≠ Abe.symKeyBytes) := by
      rintro ⟨-, h2⟩; exact h2 hr
    rw [if_neg this]
  refine ⟨{ c with keys := c.keys.addKey id { data := rnd } .sec }, ?_, rfl, rfl, ?_, ?_⟩
  · unfold keygen; rw [if_neg hc, hk]
  · rw [keyOf_add, if_pos rfl]
  · intro j hj; rw [keyOf_add, if_neg hj]

example : SMap.find b!"k" ({} : StreamCtx).keys.sec = none ∧ Sym.Ex.key32.length = 32 := ⟨rfl, rfl⟩

/-- Deleting reports no error, removes the key and keeps the others; an id that named a key can then be used again. -/
theorem C109_delete (c c' : StreamCtx) (id : Bytes) (code : Option Err) (h : c.deleteKey id = (code, c')) :
    code = none ∧ c'.keyOf id = none ∧ (∀ j, j ≠ id → c'.keyOf j = c.keyOf j) ∧ c'.enc = c.enc ∧ c'.dec = c.dec ∧
    (c.keyOf id ≠ none → ∀ rnd : Bytes, rnd.length = 32 → ∃ c2, c'.keygen id rnd = .ok (none, c2)) := by
  obtain ⟨h1, h2⟩ := delete_lookups c.keys id
  unfold deleteKey at h
  simp only [h1] at h
  cases h
  refine ⟨rfl, ?_, ?_, rfl, rfl, ?_⟩
  · have := (h2 id).2; rw [if_pos rfl] at this; exact this
  · intro j hj
    have := (h2 j).2; rw [if_neg hj] at this; exact this
  · intro hk rnd hr
    have hn : SMap.find id (c.keys.deleteKey id).2.sec = none := by
      have hg : (c.keys.getKey id).1 ≠ none := by
        intro e
        exact hk (Cpa.getKey_none.mp e).2
      unfold KeyStore.deleteKey
      cases e : (c.keys.getKey id).1 with
      | none => exact absurd e hg
      | some k =>
        simp only [e]
        split <;> simp [SMap.find_erase]
    obtain ⟨c2, hc2, -⟩ := C109_fresh_partial { c with keys := (c.keys.deleteKey id).2 } id rnd hn hr
    exact ⟨c2, hc2⟩

/-- A stream that could not be started for want of its key makes the id unusable: key generation then reports that the id is
in use, although it names no key. -/
theorem C109_failed_init_violated (c : StreamCtx) (id iv tag rnd : Bytes) (h : c.keyOf id = none) :
    (∃ c', c.encInit id iv = .ok (some .invalidKey, [], c') ∧ c'.keyOf id = none ∧
      c'.keygen id rnd = .ok (some .inUseAlready, c')) ∧
    (∃ c', c.decInit id iv tag = .ok (some .invalidKey, c') ∧ c'.keyOf id = none ∧
      c'.keygen id rnd = .ok (some .inUseAlready, c')) := by
  have h' : (c.keys.getSecretKey id).1 = none := h
  have hn : ((c.keys.getSecretKey id).2.getSecretKey id).1 = none := (Cpa.sec_after_sec c.keys id id).trans h'
  have hc : (c.keys.getSecretKey id).2.checkSecretKey id = true := by
    unfold KeyStore.checkSecretKey
    simp only [KeyStore.getSecretKey, KeyStore.touch]
    cases e : SMap.find id c.keys.sec with
    | none => simp [SMap.find_insert]
    | some v => simp [e]
  constructor
  · refine ⟨{ c with keys := (c.keys.getSecretKey id).2, enc := none }, ?_, hn, ?_⟩
    · unfold encInit; simp only [h']
    · unfold keygen; rw [if_pos hc]
  · refine ⟨{ c with keys := (c.keys.getSecretKey id).2, dec := none }, ?_, hn, ?_⟩
    · unfold decInit; simp only [h']
    · unfold keygen; rw [if_pos hc]

example : ({} : StreamCtx).keyOf b!"k" = none := rfl

end StreamCtx

/-! ## C110 keys of the public key context -/
namespace Pke
open Scheme Cpa
variable {G1 G2 GT : Type}

/-- A key of one context, exported and loaded into another one of the same scheme that has its parameters, is there under
the new id with the same components, if validation accepts it. The limits that the statement names: the bytes fit the length
fields, the receiving context has parameters (C96). -/
theorem C110_round_trip {mk : Mktime} {cd : Codec G1 G2 GT} (hc : CodecOk cd) (K : PkeKem G1 G2 GT)
    (c d : Ctx G1 G2 GT) (id id' rnd : Bytes) (key : Key G1 G2 GT)
    (hk : held c id .pub = some key ∨ (held c id .pub = none ∧ held c id .sec = some key))
    (huid : key.uid.length = 16) (hv : key.version = libraryVersion) (hid : key.id.length < 2 ^ 31) (ha : KnownAlg key.alg)
    (hg : Writable mk cd key.comps) (hne : key.comps ≠ []) (hsize : Cpa.Fits cd key.comps)
    (hd : d.alg = key.alg) (hr : d.ready = true) :
    ∃ blob c', exportKey cd c id = .ok (.ok blob, c') ∧ SameKeys c c' ∧ ∃ key' : Key G1 G2 GT,
      key'.alg = key.alg ∧ key'.uid = key.uid ∧ key'.id = key.id ∧ Alike key.comps key'.comps ∧
      (K.validatePublicKey key' = true → ∃ d', loadPublicKey mk cd K d id' blob rnd = .ok (none, d') ∧
        held d' id' .pub = some key' ∧ ∀ j, j ≠ id' → held d' j .pub = held d j .pub) ∧
      (K.validatePrivateKey key' = true → ∃ d', loadPrivateKey mk cd K d id' blob rnd = .ok (none, d') ∧
        held d' id' .sec = some key' ∧ ∀ j, j ≠ id' → held d' j .sec = held d j .sec) := by
  have hkey : (c.ks.getKey id).1 = some key := by
    rcases hk with h | ⟨h1, h2⟩
    · exact getKey_pub h
    · exact getKey_sec h1 h2
  obtain ⟨out, body, k0, k1, g1, g2, g3, -, g5, g6, g7, g8, g9⟩ :=
    C42_key_round_trip_partial hc key rnd huid hv hid ha hg.1 hg.2 hne hsize
  have hal : k0.alg = key.alg := by
    rw [← g5]
    unfold Key.loadBody at g3
    obtain ⟨_, -, g3⟩ := (Res.bind_eq_ok _ _ _).mp g3
    cases g3; rfl
  have load : ∀ (check : Key G1 G2 GT → Bool) (kind : KeyKind), check k1 = true →
      loadWith mk cd check kind d id' out rnd = .ok (none, { d with ks := d.ks.addKey id' k1 kind }) := by
    intro check kind hck
    unfold loadWith
    rw [g2]
    simp only [Res.ok_bind, hal, hd, ne_eq, not_true_eq_false, if_false, hr, Bool.true_eq_false, g3, hck, if_true, caught_ok]
  refine ⟨out, { c with ks := (c.ks.getKey id).2 }, ?_, fun j => lookup_after_get c.ks id j, k1, g5, g6, g7,
    alike_of g8 g9, fun h => ⟨_, load _ .pub h, pub_addPub _ _ _, fun j hj => pub_addPub_ne _ _ hj⟩,
    fun h => ⟨_, load _ .sec h, sec_addSec _ _ _, fun j hj => sec_addSec_ne _ _ hj⟩⟩
  unfold exportKey Cpa.exportKey
  simp only [hkey, g1, caught_ok, Res.ok_bind]

/-- A public key of the example of C41: exported, and accepted by a validation that accepts everything. -/
example : let key : Key (ZMod 5) (ZMod 5) (ZMod 5) := ⟨libraryVersion, 100, WireEx.u, b!"pk", [(b!"k", .bytes [1, 2])]⟩
    let c : Ctx (ZMod 5) (ZMod 5) (ZMod 5) := ⟨100, true, ({} : KeyStore _).addKey b!"pk" key .pub⟩
    held c b!"pk" .pub = some key ∧ key.uid.length = 16 ∧ KnownAlg key.alg ∧ Cpa.Fits WireEx.codec key.comps ∧
      Writable Toy.mk0 WireEx.codec key.comps ∧ key.comps ≠ [] := by
  refine ⟨rfl, rfl, ?_, WireEx.fits_spec (by decide +kernel), ?_, by simp⟩
  · unfold KnownAlg; decide
  · exact ((good_nil (mk := Toy.mk0) (cd := WireEx.codec)).set (d := [(b!"k", .bytes [1, 2])]) (n := b!"k") (o := .bytes [1, 2]) rfl
      (by decide) (by decide) (.bytes _ (by decide))).1

/-- After `deleteKey` the id names no key, the other ids name what they named, and encryption in the name of a deleted sender
reports the missing key. -/
theorem C110_delete (g : Gcm) (K : PkeKem G1 G2 GT) (c c' : Ctx G1 G2 GT) (id : Bytes) (code : Option Err)
    (h : deleteKey c id = (code, c')) :
    code = none ∧ Unused c' id ∧ (∀ j, j ≠ id → held c' j .pub = held c j .pub ∧ held c' j .sec = held c j .sec) ∧
    ∀ pkID pt iv ct, pt ≠ [] → ∃ c2, encrypt g K c' pkID id pt iv ct = .ok (some .missingSenderPublicKey, ct, c2) := by
  obtain ⟨h1, h2⟩ := delete_lookups c.ks id
  cases h
  have hp : (((c.ks.deleteKey id).2).getPublicKey id).1 = none := by rw [(h2 id).1, if_pos rfl]
  have hs : (((c.ks.deleteKey id).2).getSecretKey id).1 = none := by rw [(h2 id).2, if_pos rfl]
  refine ⟨h1, ⟨hp, hs⟩, ?_, ?_⟩
  · intro j hj
    have := h2 j
    rw [if_neg hj, if_neg hj] at this
    exact this
  · intro pkID pt iv ct hpt
    obtain ⟨c2, -, hc2⟩ := (C96_encrypt_codes g K { c with ks := (c.ks.deleteKey id).2 } pkID id pt iv ct).2.1 hpt hp
    exact ⟨c2, hc2⟩

end Pke

/-! ## C111 ciphertexts without header -/
section c111
variable {G1 G2 GT : Type} {mk : Mktime} {cd : Codec G1 G2 GT}

/-- The two exports differ by the packed header only. -/
theorem C111_split (ct : Ciphertext G1 G2 GT) (out : Bytes) :
    ct.exportBytes cd = .ok out ↔ ∃ body, ct.exportBody cd = .ok body ∧ out = BS.smartPack [] ct.header ++ body := by
  unfold Ciphertext.exportBytes Ciphertext.exportBody
  cases Container.serialize cd ct.comps with
  | ok b =>
    simp only [Res.ok_bind, Res.ok.injEq]
    rw [BS.smartPack_append (BS.smartPack [] ct.header)]
    constructor
    · rintro rfl; exact ⟨_, rfl, rfl⟩
    · rintro ⟨_, rfl, rfl⟩; rfl
  | throw e => simp
  | ub => simp
  | abort => simp

/-- A body that was exported without header and loaded into a new object has the same components; the header stays the one
given to the new object, and `setHeader` with the original algorithm and uid makes it the original one (of this library
version). -/
theorem C111_round_trip_partial (hc : CodecOk cd) (ct : Ciphertext G1 G2 GT) (alg : UInt8) (uid : Bytes)
    (hw : Scheme.Writable mk cd ct.comps) (hne : ct.comps ≠ []) (hsize : Cpa.Fits cd ct.comps) :
    ∃ body ct', ct.exportBody cd = .ok body ∧
      Ciphertext.loadBody mk cd (({} : Ciphertext G1 G2 GT).setHeader alg uid) body = .ok ct' ∧
      ct'.header = libraryVersion :: alg :: uid ∧ Scheme.Alike ct.comps ct'.comps ∧
      (ct.version = libraryVersion → (ct'.setHeader ct.alg ct.uid).header = ct.header) := by
  obtain ⟨b, c', h1, h2, h3, h4⟩ := deserialize_serialize (mk := mk) hc ct.comps hw.2 hne
  have hd := h4 []
  rw [overlay_nil (sorted_of_keys h3.keys hw.1)] at hd
  have u := BS.smartUnpack_zero b [] h2 (hsize b h1)
  rw [List.append_nil] at u
  have hb0 : ¬ b.length = 0 := by
    have := List.length_pos_iff.mpr h2; omega
  refine ⟨BS.smartPack [] b, ⟨libraryVersion, alg, uid, c'⟩, ?_, ?_, rfl, Cpa.alike_of h3.keys (fun k o hf => h3.find hf), ?_⟩
  · simp only [Ciphertext.exportBody, h1, Res.ok_bind]
  · unfold Ciphertext.loadBody Ciphertext.setHeader
    simp only [u, Res.ok_bind, if_neg hb0, hd]
  · intro hv
    simp only [Ciphertext.setHeader, Ciphertext.header, hv]

/-- A new component set with no component: it is exported, but it cannot be read back. -/
theorem C111_empty_violated (alg : UInt8) (uid : Bytes) :
    ∃ body, (({} : Ciphertext G1 G2 GT).setHeader alg uid).exportBody cd = .ok body ∧
      ∀ ct0 : Ciphertext G1 G2 GT, ∃ e, Ciphertext.loadBody mk cd ct0 body = .throw e := by
  refine ⟨BS.smartPack [] [], rfl, fun ct0 => ⟨_, rfl⟩⟩

/-- A body is accepted only if it starts with one of the three length tags; the header of the object is left alone. -/
theorem C111_accepted_body (ct0 ct : Ciphertext G1 G2 GT) (input : Bytes)
    (h : Ciphertext.loadBody mk cd ct0 input = .ok ct) :
    (∃ tag rest, input = tag :: rest ∧ (tag = 0xA1 ∨ tag = 0xB2 ∨ tag = 0xC3)) ∧ ct.header = ct0.header := by
  unfold Ciphertext.loadBody at h
  obtain ⟨⟨body, j⟩, h1, h⟩ := (Res.bind_eq_ok _ _ _).mp h
  dsimp only at h
  split at h
  · cases h
  next hne =>
  obtain ⟨c, -, h⟩ := (Res.bind_eq_ok _ _ _).mp h
  simp only [Res.ok.injEq] at h
  refine ⟨?_, by rw [← h]; rfl⟩
  unfold BS.smartUnpack at h1
  obtain ⟨tag, h2, h1⟩ := (Res.bind_eq_ok _ _ _).mp h1
  cases input with
  | nil => cases h2
  | cons t rest =>
    have e : t = tag := by simpa [BS.atR] using h2
    subst e
    refine ⟨t, rest, rfl, ?_⟩
    by_cases a1 : t = 0xC3
    · exact .inr (.inr a1)
    by_cases a2 : t = 0xB2
    · exact .inr (.inl a2)
    by_cases a3 : t = 0xA1
    · exact .inl a3
    rw [if_neg a1, if_neg a2, if_neg a3] at h1
    simp only [Res.ok.injEq, Prod.mk.injEq] at h1
    rw [← h1.1] at hne
    exact absurd rfl hne

end c111

/-! ## C112 attribute lists as objects -/
section c112
variable {mk : Mktime}

/-- `matchAttribute` finds exactly the attributes of the text, also those of a numeric attribute. -/
theorem C112_match (s : Bytes) (a : AExpr) (h : ListText mk s a) :
    ∃ al, createAttributeList mk s = .ok (some al) ∧
      ∀ x, al.matchAttr x = true ↔ ∃ i ∈ a.items, x ∈ i.strings mk := by
  obtain ⟨al, h1, h2⟩ := C74_list_contents s a h
  refine ⟨al, h1, fun x => ?_⟩
  rw [← h2 x]
  unfold AttrList.matchAttr
  simp

example : ListText mk b!"|a = 5|b" TextEx.a2 := TextEx.list2

theorem name_no_bar {s : Bytes} (h : isName s = true) : (124 : UInt8) ∉ s ∧ s ≠ [] := by
  cases s with
  | nil => cases h
  | cons b w =>
    simp only [isName, Bool.and_eq_true] at h
    refine ⟨?_, by simp⟩
    intro hm
    rcases List.mem_cons.mp hm with e | e
    · rw [← e] at h; exact absurd h.1.1 (by decide)
    · exact absurd (List.all_eq_true.mp h.1.2 _ e) (by decide)

theorem msuf_no_bar : ∀ w ∈ [4, 8, 16, 32], ∀ bit, bit < 32 → ∀ v : Bool, (124 : UInt8) ∉ msuf w bit v := by
  decide +kernel

theorem item_no_bar {i : Item} (h : i.Ok) {x : Bytes} (hx : x ∈ i.strings mk) : (124 : UInt8) ∉ x ∧ x ≠ [] := by
  have key : ∀ b v w, (124 : UInt8) ∉ b → i.value mk = some (b, v, w) → (124 : UInt8) ∉ x ∧ x ≠ [] := by
    intro b v w hb hv
    obtain ⟨h1, h2, h3, h4⟩ := Item.value_ok h hv
    rw [h4, mem_assignStmt h1 h2] at hx
    obtain ⟨k, hk, rfl⟩ := hx
    have hk32 : k < 32 := by
      have : markerCount w ≤ 32 := by rcases h1 with h | h | h | h <;> subst h <;> decide
      omega
    refine ⟨?_, ?_⟩
    · rw [List.mem_append, not_or]
      exact ⟨hb, msuf_no_bar w (Width.mem h1) k hk32 _⟩
    · intro e
      simp [msuf] at e
  cases i with
  | leaf s =>
    simp only [Item.strings, List.mem_singleton] at hx
    subst hx
    exact name_no_bar (h.2 (.leaf _) (by simp [Item.toks]))
  | num s n =>
    exact key _ _ _ (name_no_bar (h.2 (.leaf s) (by simp [Item.toks]))).1 rfl
  | date p m d y =>
    refine key _ _ _ ?_ rfl
    rw [List.mem_append, not_or]
    exact ⟨(name_no_bar (h.2 (.leaf p) (by simp [Item.toks]))).1, by decide⟩

theorem mem_contrib {α : Type} {f : Item → List α} {x : α} : ∀ {is P : List Item}, x ∈ contrib f P is → ∃ i ∈ is, x ∈ f i
  | [], _, h => by simp [contrib] at h
  | i :: is, P, h => by
    simp only [contrib, List.mem_append] at h
    rcases h with h | h
    · split at h
      · cases h
      · exact ⟨i, by simp, h⟩
    · obtain ⟨j, hj, hx⟩ := mem_contrib h
      exact ⟨j, by simp [hj], hx⟩

/-- No attribute of a list that was read contains a bar or is empty. -/
theorem C112_no_bar (s : Bytes) (al : AttrList) (h : createAttributeList mk s = .ok (some al)) :
    ∀ x ∈ al.attrs, (124 : UInt8) ∉ x ∧ x ≠ [] := by
  obtain ⟨a, hv, hc, he⟩ := accepted_list h
  obtain ⟨al', h1, h2, -, h4⟩ := createAttributeList_ok mk hc hv he
  rw [h] at h1
  cases h1
  intro x hx
  rw [h2] at hx
  obtain ⟨i, hi, hx⟩ := mem_contrib hx
  exact item_no_bar ⟨AExpr.items_valid a hv i hi, fun t ht => h4 t (AExpr.items_toks a i hi t ht)⟩ hx

theorem flat_inj : ∀ {l m : List Bytes}, (∀ x ∈ l, (124 : UInt8) ∉ x) → (∀ x ∈ m, (124 : UInt8) ∉ x) →
    l.flatMap (fun a => a ++ [124]) = m.flatMap (fun a => a ++ [124]) → l = m
  | [], [], _, _, _ => rfl
  | [], y :: m, _, _, h => by simp at h
  | x :: l, [], _, _, h => by simp at h
  | x :: l, y :: m, hl, hm, h => by
    simp only [List.flatMap_cons, List.append_assoc, List.singleton_append] at h
    obtain ⟨rfl, h2⟩ := split_unique (hl x (by simp)) (hm y (by simp)) h
    rw [flat_inj (fun z hz => hl z (by simp [hz])) (fun z hz => hm z (by simp [hz])) h2]

theorem str_flat {l : AttrList} (h : ∀ x ∈ l.attrs, x ≠ []) : l.str = 124 :: l.attrs.flatMap (fun a => a ++ [124]) := by
  unfold AttrList.str
  congr 1
  have : ∀ (m : List Bytes), (∀ x ∈ m, x ≠ []) →
      m.flatMap (fun a => if a ≠ [] then a ++ [124] else []) = m.flatMap (fun a => a ++ [124]) := by
    intro m hm
    induction m with
    | nil => rfl
    | cons x m ih =>
      rw [List.flatMap_cons, List.flatMap_cons, if_pos (hm x (by simp)), ih (fun z hz => hm z (by simp [hz]))]
  exact this _ h

/-- The printed form of a list that was read determines its attributes and their order. What is missing: lists built with
`addAttribute`. -/
theorem C112_str_partial (s s' : Bytes) (al al' : AttrList) (h : createAttributeList mk s = .ok (some al))
    (h' : createAttributeList mk s' = .ok (some al')) (he : al.str = al'.str) : al.attrs = al'.attrs := by
  have hb := C112_no_bar s al h
  have hb' := C112_no_bar s' al' h'
  rw [str_flat (fun x hx => (hb x hx).2), str_flat (fun x hx => (hb' x hx).2)] at he
  exact flat_inj (fun x hx => (hb x hx).1) (fun x hx => (hb' x hx).1) (List.cons.inj he).2

example : (∃ al, createAttributeList mk b!"|a = 5|b" = .ok (some al)) :=
  ⟨_, (C112_match _ _ TextEx.list2).choose_spec.1⟩

/-- `addAttribute` takes any text without `=` as one attribute: two lists with different attributes print the same. -/
theorem C112_str_violated : ∃ l l' : AttrList, AttrList.ofArgs mk 1 [b!"a|b"] = .ok l ∧
    AttrList.ofArgs mk 2 [b!"a", b!"b"] = .ok l' ∧ l.str = l'.str ∧ l.attrs ≠ l'.attrs := by
  refine ⟨{ attrs := [b!"a|b"] }, { attrs := [b!"a", b!"b"] }, rfl, rfl, by decide, by decide⟩

/-- `syncOrigAttributes` appends, in order, the original numeric attributes of the other list that contain the prefix
anywhere, and leaves the attributes alone. -/
theorem C112_sync (l other : AttrList) (pre : Bytes) :
    (l.syncOrig pre other).attrs = l.attrs ∧ (l.syncOrig pre other).prefixes = l.prefixes ∧
    ∃ more, (l.syncOrig pre other).orig = l.orig ++ more ∧ more.Sublist other.orig ∧
      ∀ x, x ∈ more ↔ x ∈ other.orig ∧ pre <:+: x := by
  refine ⟨rfl, rfl, _, rfl, List.filter_sublist, fun x => ?_⟩
  rw [List.mem_filter, hasSub_iff]

/-- A prefix is looked for anywhere in the text: the original attribute of another authority is taken over when the name of
the first one occurs in it. -/
theorem C112_sync_violated : ∃ l other : AttrList, ∃ x ∈ (l.syncOrig b!"hr:" other).orig, ¬ b!"hr:" <+: x :=
  ⟨{}, { orig := [b!"chr:level=5"] }, b!"chr:level=5", by decide +kernel, by decide⟩

end c112

/-! ### The constructor of attribute lists -/

section Args
variable (mk : Mktime)

/-- What one argument of the constructor contributes: itself, or the attributes of its text when it holds a `=`. -/
def ArgContrib (mk : Mktime) (a : Bytes) (p : List Bytes) : Prop :=
  if (61 : UInt8) ∈ a then ∃ x, createAttributeList mk (124 :: a) = .ok (some x) ∧ p = x.attrs else p = [a]

theorem add_contrib {l l' : AttrList} {a : Bytes} (h : AttrList.add mk l a = .ok l') :
    ∃ p, ArgContrib mk a p ∧ l'.attrs = l.attrs ++ p := by
  unfold AttrList.add at h
  simp only at h
  have e1 : ∀ l1 : AttrList, l1 = (if (58 : UInt8) ∈ a then
      match split 58 a with
      | p :: _ :: _ => { l with prefixes := sinsert p l.prefixes }
      | _ => l
    else l) → l1.attrs = l.attrs := by
    intro l1 e
    subst e
    split
    · split <;> rfl
    · rfl
  generalize (if (58 : UInt8) ∈ a then
      match split 58 a with
      | p :: _ :: _ => { l with prefixes := sinsert p l.prefixes }
      | _ => l
    else l) = l1 at *
  have e1 := e1 l1 rfl
  unfold ArgContrib
  by_cases he : (61 : UInt8) ∈ a
  · rw [if_neg (by simpa using he)] at h
    simp only [he, if_true]
    cases hc : createAttributeList mk (124 :: a) with
    | ok r =>
      rw [hc] at h
      cases r with
      | none => simp at h
      | some x =>
        simp only [Res.ok_bind, Res.ok.injEq] at h
        subst h
        exact ⟨_, ⟨x, rfl, rfl⟩, by rw [e1]⟩
    | _ => rw [hc] at h; simp [Bind.bind, Res.bind] at h
  · rw [if_pos (by simpa using he)] at h
    simp only [he, if_false]
    cases h
    exact ⟨_, rfl, by rw [e1]⟩

theorem add_ok_iff (l : AttrList) (a : Bytes) : (∃ l', AttrList.add mk l a = .ok l') ↔
    ((61 : UInt8) ∈ a → ∃ x, createAttributeList mk (124 :: a) = .ok (some x)) := by
  constructor
  · rintro ⟨l', h⟩ he
    obtain ⟨p, hp, -⟩ := add_contrib mk h
    unfold ArgContrib at hp
    rw [if_pos he] at hp
    obtain ⟨x, hx, -⟩ := hp
    exact ⟨x, hx⟩
  · intro h
    unfold AttrList.add
    simp only
    by_cases he : (61 : UInt8) ∈ a
    · obtain ⟨x, hx⟩ := h he
      rw [if_neg (by simpa using he), hx]
      exact ⟨_, rfl⟩
    · rw [if_pos (by simpa using he)]
      exact ⟨_, rfl⟩

theorem argsLoop_contrib : ∀ (as : List Bytes) (l l' : AttrList), AttrList.ofArgs.loop mk l as = .ok l' →
    ∃ ps, List.Forall₂ (ArgContrib mk) (as.filter (· ≠ [])) ps ∧ l'.attrs = l.attrs ++ ps.flatten
  | [], l, l', h => by
    cases h
    exact ⟨[], .nil, by simp⟩
  | a :: as, l, l', h => by
    unfold AttrList.ofArgs.loop at h
    by_cases ha : a = []
    · rw [if_pos ha] at h
      obtain ⟨ps, h1, h2⟩ := argsLoop_contrib as l l' h
      exact ⟨ps, by simpa [ha] using h1, h2⟩
    · rw [if_neg ha] at h
      obtain ⟨l1, h1, h2⟩ := (Res.bind_eq_ok _ _ _).mp h
      obtain ⟨p, hp, e⟩ := add_contrib mk h1
      obtain ⟨ps, h3, h4⟩ := argsLoop_contrib as l1 l' h2
      refine ⟨p :: ps, ?_, by rw [h4, e]; simp⟩
      rw [List.filter_cons_of_pos (by simpa using ha)]
      exact .cons hp h3

theorem argsLoop_ok : ∀ (as : List Bytes) (l : AttrList), (∃ l', AttrList.ofArgs.loop mk l as = .ok l') ↔
    ∀ a ∈ as, a ≠ [] → (61 : UInt8) ∈ a → ∃ x, createAttributeList mk (124 :: a) = .ok (some x)
  | [], l => by simp [AttrList.ofArgs.loop]
  | a :: as, l => by
    unfold AttrList.ofArgs.loop
    by_cases ha : a = []
    · rw [if_pos ha, argsLoop_ok as l]
      constructor
      · intro h b hb hn
        rcases List.mem_cons.1 hb with rfl | hb
        · exact absurd ha hn
        · exact h b hb hn
      · exact fun h b hb => h b (List.mem_cons_of_mem _ hb)
    · rw [if_neg ha]
      constructor
      · rintro ⟨l', h⟩ b hb hn
        obtain ⟨l1, h1, h2⟩ := (Res.bind_eq_ok _ _ _).mp h
        rcases List.mem_cons.1 hb with rfl | hb
        · exact (add_ok_iff mk l b).1 ⟨l1, h1⟩
        · exact (argsLoop_ok as l1).1 ⟨l', h2⟩ b hb hn
      · intro h
        obtain ⟨l1, h1⟩ := (add_ok_iff mk l a).2 (h a (by simp) ha)
        obtain ⟨l', h2⟩ := (argsLoop_ok as l1).2 fun b hb => h b (List.mem_cons_of_mem _ hb)
        exact ⟨l', by rw [h1]; exact h2⟩

/-- The constructor from a count and strings ends the process when the count is not the number of strings. Otherwise it
succeeds exactly when every non-empty string with a `=` is an attribute text, and the list then holds, in order, each non-empty
string or the attributes of its text. -/
theorem C112_constructor (num : Nat) (args : List Bytes) :
    (num ≠ args.length → AttrList.ofArgs mk num args = .abort) ∧
    ((∃ l, AttrList.ofArgs mk args.length args = .ok l) ↔
      ∀ a ∈ args, a ≠ [] → (61 : UInt8) ∈ a → ∃ x, createAttributeList mk (124 :: a) = .ok (some x)) ∧
    ∀ l, AttrList.ofArgs mk args.length args = .ok l →
      ∃ ps, List.Forall₂ (ArgContrib mk) (args.filter (· ≠ [])) ps ∧ l.attrs = ps.flatten := by
  refine ⟨fun h => by unfold AttrList.ofArgs; rw [if_pos h], ?_, ?_⟩
  · unfold AttrList.ofArgs
    rw [if_neg (by simp)]
    exact argsLoop_ok mk args {}
  · intro l h
    unfold AttrList.ofArgs at h
    rw [if_neg (by simp)] at h
    obtain ⟨ps, h1, h2⟩ := argsLoop_contrib mk args {} l h
    exact ⟨ps, h1, by simpa using h2⟩

example : ∃ l, AttrList.ofArgs mk 3 [b!"a", [], b!"b"] = .ok l ∧ l.attrs = [b!"a", b!"b"] := ⟨_, rfl, rfl⟩

/-- A string with a `=` that is not an attribute text is dereferenced as a null list: for every such string and every list the
addition is undefined, for example for "=". -/
theorem C112_add_violated : (∀ (l : AttrList) (a : Bytes), (61 : UInt8) ∈ a → createAttributeList mk (124 :: a) = .ok none →
    AttrList.add mk l a = .ub) ∧ AttrList.ofArgs mk 1 [b!"="] = .ub := by
  have h : ∀ (l : AttrList) (a : Bytes), (61 : UInt8) ∈ a → createAttributeList mk (124 :: a) = .ok none →
      AttrList.add mk l a = .ub := by
    intro l a ha hc
    unfold AttrList.add
    simp only
    rw [if_neg (by simpa using ha), hc]
    rfl
  exact ⟨h, rfl⟩

end Args

end Abe
