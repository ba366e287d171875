import Verif.Model.Pke
import Verif.Proof.Sym
import Verif.Props.Wire
import Verif.Props.Sym
import Verif.Props.KeyLength
/-!
# C94-C96: public key encryption on top of any key encapsulation mechanism (zcontextpke.cpp:345-630)
-/
set_option linter.unusedSimpArgs false
set_option linter.unusedSectionVars false
set_option autoImplicit false
namespace Abe
namespace Pke
open Scheme Cpa
variable {G1 G2 GT : Type}

/-! ## Lemmas -/

theorem aad_header (key : Bytes) (ct : Ciphertext G1 G2 GT) :
    AuthEnc.setAad { key := key } ct.header = { key := key, aad := ct.header, aadSet := true } := by
  simp [AuthEnc.setAad, Ciphertext.header]

/-- What a component holds: bytes, something else, or nothing. -/
theorem fetch_find (d : Container G1 G2 GT) (name : Bytes) :
    (∀ b, SMap.find name d = some (.bytes b) → fetch d name = (.ok b, d)) ∧
    (SMap.find name d = none → (fetch d name).1 = .error .elementNotFound) := by
  constructor
  · intro b h; simp [fetch, Container.getComponent, h]
  · intro h; simp [fetch, Container.getComponent, h]

theorem fetch_ok {d d' : Container G1 G2 GT} {name b : Bytes} (h : fetch d name = (.ok b, d')) :
    SMap.find name d = some (.bytes b) ∧ d' = d := by
  simp only [fetch, Container.getComponent] at h
  cases hf : SMap.find name d with
  | none => simp [hf] at h
  | some o => cases o <;> simp [hf] at h; exact ⟨by rw [h.1], h.2.symm⟩

/-- The decryption once the key is known. -/
theorem decrypt_of_kem {g : Gcm} {K : PkeKem G1 G2 GT} {c c1 : Ctx G1 G2 GT} {pkID skID key iv body tag : Bytes}
    {ct ct1 : Ciphertext G1 G2 GT} (hk : K.decryptKEM c pkID skID ct 256 = .ok (.ok key, ct1, c1))
    (h1 : SMap.find b!"IV" ct1.comps = some (.bytes iv)) (h2 : SMap.find b!"CT" ct1.comps = some (.bytes body))
    (h3 : SMap.find b!"Tag" ct1.comps = some (.bytes tag)) :
    decrypt g K c pkID skID ct = (do
      let r ← caught (AuthEnc.decrypt g { key := key, aad := ct1.header, aadSet := true } iv body tag)
      match r with
      | .error e => .ok (some e, none, ct1, c1)
      | .ok none => .ok (some .decryptionFailed, none, ct1, c1)
      | .ok (some p) => .ok (none, some p, ct1, c1)) := by
  unfold decrypt
  rw [show symKeyBits = 256 from rfl, hk]
  simp only [Res.ok_bind, (fetch_find ct1.comps b!"IV").1 _ h1, (fetch_find ct1.comps b!"CT").1 _ h2,
    (fetch_find ct1.comps b!"Tag").1 _ h3, aad_header]
  rfl

theorem writable_put {mk : Mktime} {cd : Codec G1 G2 GT} {c d : Container G1 G2 GT} (h : Writable mk cd c) {n b : Bytes}
    (hs : Container.setComponent c n (.bytes b) = .ok d) (h0 : n ≠ []) (h1 : n.length < 2 ^ 32)
    (ho : Storable mk cd (.bytes b : Obj G1 G2 GT)) : Writable mk cd d ∧ d ≠ [] := by
  rw [setComponent_bytes] at hs
  cases hs
  refine ⟨⟨SMap.sorted_insert h.1, ?_⟩, ?_⟩
  · intro p hp
    rcases SMap.mem_insert' hp with rfl | hp
    · exact ⟨h0, h1, ho⟩
    · exact h.2 p hp
  · intro e
    have : SMap.find n (SMap.insert n (.bytes b : Obj G1 G2 GT) c) = some (.bytes b) := by rw [SMap.find_insert, if_pos rfl]
    rw [e] at this; cases this

/-! ## C94 round trip -/

/-- If the mechanism hands out a key of at least 32 bytes, encryption of a non-empty string succeeds, keeps the header
and all components of the mechanism other than `IV`, `CT` and `Tag`; and whoever recovers the same key from the result
reads the string. -/
theorem C94_round_trip (g : Gcm) (K : PkeKem G1 G2 GT) (c c1 : Ctx G1 G2 GT) (pkID senderpkID pt iv key : Bytes)
    (ct ct1 : Ciphertext G1 G2 GT) (spk : Key G1 G2 GT) (hpt : pt ≠ []) (hiv : iv.length = 16)
    (hs : (c.ks.getPublicKey senderpkID).1 = some spk)
    (hk : K.encryptKEM { c with ks := (c.ks.getPublicKey senderpkID).2 } pkID spk.uid 256 ct = .ok (.ok key, ct1, c1))
    (hlen : 32 ≤ key.length) :
    ∃ ct2, encrypt g K c pkID senderpkID pt iv ct = .ok (none, ct2, c1) ∧ ct2.header = ct1.header ∧
      (∀ n, n ≠ b!"IV" → n ≠ b!"CT" → n ≠ b!"Tag" → SMap.find n ct2.comps = SMap.find n ct1.comps) ∧
      ∀ (d d1 : Ctx G1 G2 GT) (pk sk : Bytes), K.decryptKEM d pk sk ct2 256 = .ok (.ok key, ct2, d1) →
        decrypt g K d pk sk ct2 = .ok (none, some pt, ct2, d1) := by
  have hiv0 : iv ≠ [] := by rintro rfl; simp at hiv
  have hl : ¬ pt.length = 0 := by simpa using hpt
  refine ⟨⟨ct1.version, ct1.alg, ct1.uid,
    SMap.insert b!"Tag" (.bytes (g.mac (key.take 32) iv ct1.header (g.crypt (key.take 32) iv 0 pt)))
      (SMap.insert b!"CT" (.bytes (g.crypt (key.take 32) iv 0 pt)) (SMap.insert b!"IV" (.bytes iv) ct1.comps))⟩,
    ?_, rfl, ?_, ?_⟩
  · unfold encrypt
    simp only [if_neg hl, hs, show symKeyBits = 256 from rfl, hk, Res.ok_bind, aad_header,
      AuthEnc.encrypt_eq g key ct1.header iv pt hlen hiv0, setComponent_bytes]
  · intro n h1 h2 h3
    simp only [SMap.find_insert, if_neg h1, if_neg h2, if_neg h3]
  · intro d d1 pk sk hdec
    rw [decrypt_of_kem hdec (iv := iv) (body := g.crypt (key.take 32) iv 0 pt)
      (tag := g.mac (key.take 32) iv ct1.header (g.crypt (key.take 32) iv 0 pt))
      (by simp [SMap.find_insert]) (by simp [SMap.find_insert]) (by simp [SMap.find_insert])]
    rw [AuthEnc.decrypt_eq g key _ iv _ _ hlen hiv0 (g.mac_length _ _ _ _)]
    simp [caught_ok, Gcm.crypt_crypt, Ciphertext.header]

/-- The same across bytes: the ciphertext object is written, read into a fresh object, and decrypted there. -/
theorem C94_across_bytes {mk : Mktime} {cd : Codec G1 G2 GT} (hc : CodecOk cd) (g : Gcm) (K : PkeKem G1 G2 GT)
    (c c1 : Ctx G1 G2 GT) (pkID senderpkID pt iv key : Bytes) (ct ct1 ct2 : Ciphertext G1 G2 GT) (spk : Key G1 G2 GT)
    (hpt : pt ≠ []) (hlong : pt.length < 2 ^ 31) (hiv : iv.length = 16)
    (hs : (c.ks.getPublicKey senderpkID).1 = some spk)
    (hk : K.encryptKEM { c with ks := (c.ks.getPublicKey senderpkID).2 } pkID spk.uid 256 ct = .ok (.ok key, ct1, c1))
    (hlen : 32 ≤ key.length) (huid : ct1.uid.length = uidLen) (hv : ct1.version ≤ libraryVersion) (ha : KnownAlg ct1.alg)
    (hw : Writable mk cd ct1.comps) (henc : encrypt g K c pkID senderpkID pt iv ct = .ok (none, ct2, c1))
    (hsize : Cpa.Fits cd ct2.comps) :
    ∃ out ct3, ct2.exportBytes cd = .ok out ∧ Ciphertext.load mk cd {} out = .ok ct3 ∧ Alike ct2.comps ct3.comps ∧
      ∀ (d d1 : Ctx G1 G2 GT) (pk sk : Bytes), K.decryptKEM d pk sk ct3 256 = .ok (.ok key, ct3, d1) →
        decrypt g K d pk sk ct3 = .ok (none, some pt, ct3, d1) := by
  have hiv0 : iv ≠ [] := by rintro rfl; simp at hiv
  have hl : ¬ pt.length = 0 := by simpa using hpt
  have he := henc
  unfold encrypt at he
  simp only [if_neg hl, hs, show symKeyBits = 256 from rfl, hk, Res.ok_bind, aad_header,
    AuthEnc.encrypt_eq g key ct1.header iv pt hlen hiv0] at he
  obtain ⟨d1, e1, he⟩ := (Res.bind_eq_ok _ _ _).mp he
  obtain ⟨d2, e2, he⟩ := (Res.bind_eq_ok _ _ _).mp he
  obtain ⟨d3, e3, he⟩ := (Res.bind_eq_ok _ _ _).mp he
  have w1 := writable_put hw e1 (by decide) (by decide) (.bytes _ (by omega))
  have w2 := writable_put w1.1 e2 (by decide) (by decide) (.bytes _ (by rw [Gcm.crypt_length]; exact hlong))
  have w3 := writable_put w2.1 e3 (by decide) (by decide) (.bytes _ (by rw [g.mac_length]; omega))
  rw [setComponent_bytes] at e1 e2 e3
  cases e1; cases e2; cases e3; cases he
  have round := fun (D : Container G1 G2 GT) (w : Writable mk cd D ∧ D ≠ []) (hz : Cpa.Fits cd D) =>
    C41_ciphertext_round_trip_partial hc (⟨ct1.version, ct1.alg, ct1.uid, D⟩ : Ciphertext G1 G2 GT) huid hv ha w.1.1 w.1.2 w.2 hz
  obtain ⟨out, ct3, h1, h2, h3, h4, h5, h6, h7⟩ := round _ w3 hsize
  refine ⟨out, ct3, h1, h2, alike_of h6 h7, ?_⟩
  have hhdr : ct3.header = ct1.header := by simp only [Ciphertext.header, h3, h4, h5]
  have get : ∀ n b, SMap.find n (SMap.insert b!"Tag" (.bytes (g.mac (key.take 32) iv ct1.header (g.crypt (key.take 32) iv 0 pt)))
      (SMap.insert b!"CT" (.bytes (g.crypt (key.take 32) iv 0 pt)) (SMap.insert b!"IV" (.bytes iv) ct1.comps))) = some (.bytes b) →
      SMap.find n ct3.comps = some (.bytes b) := by
    intro n b hn
    obtain ⟨o', g1, g2⟩ := h7 n _ hn
    cases g2; exact g1
  intro d d1 pk sk hdec
  rw [decrypt_of_kem hdec (get b!"IV" iv (by simp [SMap.find_insert]))
    (get b!"CT" (g.crypt (key.take 32) iv 0 pt) (by simp [SMap.find_insert]))
    (get b!"Tag" (g.mac (key.take 32) iv ct1.header (g.crypt (key.take 32) iv 0 pt)) (by simp [SMap.find_insert])),
    AuthEnc.decrypt_eq g key _ iv _ _ hlen hiv0 (g.mac_length _ _ _ _), hhdr]
  simp [caught_ok, Gcm.crypt_crypt]

/-! ## C95 what decryption accepts -/

/-- The components and the key of a successful decryption: the tag is the tag of header and body under the recovered
key, and the plaintext is the decrypted body. -/
theorem C95_accepts_iff (g : Gcm) (K : PkeKem G1 G2 GT) (c c1 : Ctx G1 G2 GT) (pkID skID p key : Bytes)
    (ct ct1 : Ciphertext G1 G2 GT) (hk : K.decryptKEM c pkID skID ct 256 = .ok (.ok key, ct1, c1)) (hlen : 32 ≤ key.length)
    (hiv : ∀ iv, SMap.find b!"IV" ct1.comps = some (.bytes iv) → iv ≠ []) :
    (∃ ct2 c2, decrypt g K c pkID skID ct = .ok (none, some p, ct2, c2)) ↔
      ∃ iv body, SMap.find b!"IV" ct1.comps = some (.bytes iv) ∧ SMap.find b!"CT" ct1.comps = some (.bytes body) ∧
        SMap.find b!"Tag" ct1.comps = some (.bytes (g.mac (key.take 32) iv ct1.header body)) ∧
        p = g.crypt (key.take 32) iv 0 body := by
  constructor
  · rintro ⟨ct2, c2, h⟩
    have h0 := h
    unfold decrypt at h
    rw [show symKeyBits = 256 from rfl, hk] at h
    simp only [Res.ok_bind] at h
    split at h
    · cases h
    rename_i iv hf1
    have e1 := fetch_ok (d' := (fetch ct1.comps b!"IV").2) (Prod.ext hf1 rfl)
    rw [e1.2] at h
    split at h
    · cases h
    rename_i body hf2
    have e2 := fetch_ok (d' := (fetch ct1.comps b!"CT").2) (Prod.ext hf2 rfl)
    rw [e2.2] at h
    split at h
    · cases h
    rename_i tag hf3
    have e3 := fetch_ok (d' := (fetch ct1.comps b!"Tag").2) (Prod.ext hf3 rfl)
    rw [decrypt_of_kem hk e1.1 e2.1 e3.1] at h0
    by_cases ht : tag.length = 16
    · rw [AuthEnc.decrypt_eq g key ct1.header iv body tag hlen (hiv iv e1.1) ht] at h0
      by_cases hm : g.mac (key.take 32) iv ct1.header body = tag
      · simp only [hm, if_true, caught_ok, Res.ok_bind, Res.ok.injEq, Prod.mk.injEq, Option.some.injEq] at h0
        exact ⟨iv, body, e1.1, e2.1, by rw [e3.1, hm], h0.2.1.symm⟩
      · simp [hm, caught_ok] at h0
    · simp [AuthEnc.decrypt, aesBlock, ht, caught] at h0
  · rintro ⟨iv, body, h1, h2, h3, rfl⟩
    refine ⟨ct1, c1, ?_⟩
    rw [decrypt_of_kem hk h1 h2 h3,
      AuthEnc.decrypt_eq g key ct1.header iv body _ hlen (hiv iv h1) (g.mac_length _ _ _ _)]
    simp [caught_ok]

/-- Changing the header (version, algorithm or uid) or the body is reported, if the tag function tells the two inputs
apart: the code is `DECRYPTION_FAILED` and the output string is left alone. -/
theorem C95_tampering_reported (g : Gcm) (K : PkeKem G1 G2 GT) (c c1 : Ctx G1 G2 GT) (pkID skID key iv body hdr body0 : Bytes)
    (ct ct1 : Ciphertext G1 G2 GT) (hk : K.decryptKEM c pkID skID ct 256 = .ok (.ok key, ct1, c1)) (hlen : 32 ≤ key.length)
    (h1 : SMap.find b!"IV" ct1.comps = some (.bytes iv)) (hiv : iv ≠ [])
    (h2 : SMap.find b!"CT" ct1.comps = some (.bytes body))
    (h3 : SMap.find b!"Tag" ct1.comps = some (.bytes (g.mac (key.take 32) iv hdr body0)))
    (hmac : g.mac (key.take 32) iv ct1.header body = g.mac (key.take 32) iv hdr body0 → ct1.header = hdr ∧ body = body0)
    (hne : ct1.header ≠ hdr ∨ body ≠ body0) :
    decrypt g K c pkID skID ct = .ok (some .decryptionFailed, none, ct1, c1) := by
  rw [decrypt_of_kem hk h1 h2 h3,
    AuthEnc.decrypt_eq g key ct1.header iv body _ hlen hiv (g.mac_length _ _ _ _)]
  have : ¬ g.mac (key.take 32) iv ct1.header body = g.mac (key.take 32) iv hdr body0 := by
    intro h; have := hmac h; tauto
  simp [this, caught_ok]

/-- Every code other than success leaves the output string alone. -/
theorem C95_no_output_on_error (g : Gcm) (K : PkeKem G1 G2 GT) (c c2 : Ctx G1 G2 GT) (pkID skID : Bytes) (e : Option Err)
    (out : Option Bytes) (ct ct2 : Ciphertext G1 G2 GT) (h : decrypt g K c pkID skID ct = .ok (e, out, ct2, c2)) :
    e = none ↔ out ≠ none := by
  unfold decrypt at h
  obtain ⟨⟨res, ct1, c1⟩, -, h⟩ := (Res.bind_eq_ok _ _ _).mp h
  simp only at h
  split at h
  · cases h; simp
  split at h
  · cases h; simp
  split at h
  · cases h; simp
  split at h
  · cases h; simp
  obtain ⟨r, -, h⟩ := (Res.bind_eq_ok _ _ _).mp h
  split at h <;> cases h <;> simp

/-- A ciphertext with an empty `IV` component is undefined: the cipher is initialised from the buffer of an empty
vector. -/
theorem C95_empty_iv_violated (g : Gcm) (K : PkeKem G1 G2 GT) (c c1 : Ctx G1 G2 GT) (pkID skID key body tag : Bytes)
    (ct ct1 : Ciphertext G1 G2 GT) (hk : K.decryptKEM c pkID skID ct 256 = .ok (.ok key, ct1, c1))
    (h1 : SMap.find b!"IV" ct1.comps = some (.bytes [])) (h2 : SMap.find b!"CT" ct1.comps = some (.bytes body))
    (h3 : SMap.find b!"Tag" ct1.comps = some (.bytes tag)) (ht : tag.length = 16) :
    decrypt g K c pkID skID ct = .ub := by
  rw [decrypt_of_kem hk h1 h2 h3]
  simp [AuthEnc.decrypt, aesBlock, ht, GcmCtx.init, caught]

/-! ## C96 codes, and keys moved in -/

/-- The codes of `encrypt`, in the order of the tests, and what each leaves. -/
theorem C96_encrypt_codes (g : Gcm) (K : PkeKem G1 G2 GT) (c : Ctx G1 G2 GT) (pkID senderpkID pt iv : Bytes)
    (ct : Ciphertext G1 G2 GT) :
    (pt = [] → encrypt g K c pkID senderpkID pt iv ct = .ok (some .noPlaintextSpecified, ct, c)) ∧
    (pt ≠ [] → (c.ks.getPublicKey senderpkID).1 = none → ∃ c', SameKeys c c' ∧
      encrypt g K c pkID senderpkID pt iv ct = .ok (some .missingSenderPublicKey, ct, c')) ∧
    (∀ spk e ct1 c1, pt ≠ [] → (c.ks.getPublicKey senderpkID).1 = some spk →
      K.encryptKEM { c with ks := (c.ks.getPublicKey senderpkID).2 } pkID spk.uid 256 ct = .ok (.error e, ct1, c1) →
      encrypt g K c pkID senderpkID pt iv ct = .ok (some e, ct1, c1)) := by
  refine ⟨?_, ?_, ?_⟩
  · rintro rfl; rfl
  · intro hpt hs
    have hl : ¬ pt.length = 0 := by simpa using hpt
    refine ⟨{ c with ks := (c.ks.getPublicKey senderpkID).2 }, ?_, ?_⟩
    · exact fun j => ⟨pub_after_pub _ _ _, sec_after_pub _ _ _⟩
    · unfold encrypt; simp only [if_neg hl, hs]
  · intro spk e ct1 c1 hpt hs hk
    have hl : ¬ pt.length = 0 := by simpa using hpt
    unfold encrypt
    simp only [if_neg hl, hs, show symKeyBits = 256 from rfl, hk, Res.ok_bind]

/-- The codes of `decrypt` for a failing mechanism and for missing components. -/
theorem C96_decrypt_codes (g : Gcm) (K : PkeKem G1 G2 GT) (c c1 : Ctx G1 G2 GT) (pkID skID : Bytes)
    (ct ct1 : Ciphertext G1 G2 GT) (res : Except Err Bytes) (hk : K.decryptKEM c pkID skID ct 256 = .ok (res, ct1, c1)) :
    (∀ e, res = .error e → decrypt g K c pkID skID ct = .ok (some e, none, ct1, c1)) ∧
    (∀ key n, res = .ok key → n = b!"IV" ∨ n = b!"CT" ∨ n = b!"Tag" → SMap.find n ct1.comps = none →
      (∀ m, m = b!"IV" ∨ m = b!"CT" ∨ m = b!"Tag" → m ≠ n → ∃ b, SMap.find m ct1.comps = some (.bytes b)) →
      ∃ ct2, decrypt g K c pkID skID ct = .ok (some .elementNotFound, none, ct2, c1)) := by
  constructor
  · rintro e rfl
    unfold decrypt
    rw [show symKeyBits = 256 from rfl, hk]; rfl
  · rintro key n rfl hn hf hoth
    have hmiss : fetch ct1.comps n = (.error .elementNotFound, SMap.insert n .null ct1.comps) := by
      simp [fetch, Container.getComponent, hf]
    unfold decrypt
    rw [show symKeyBits = 256 from rfl, hk]
    rcases hn with rfl | rfl | rfl
    · simp only [Res.ok_bind, hmiss]; exact ⟨_, rfl⟩
    · obtain ⟨iv, h1⟩ := hoth b!"IV" (by simp) (by decide)
      simp only [Res.ok_bind, (fetch_find ct1.comps b!"IV").1 _ h1, hmiss]; exact ⟨_, rfl⟩
    · obtain ⟨iv, h1⟩ := hoth b!"IV" (by simp) (by decide)
      obtain ⟨bd, h2⟩ := hoth b!"CT" (by simp) (by decide)
      simp only [Res.ok_bind, (fetch_find ct1.comps b!"IV").1 _ h1, (fetch_find ct1.comps b!"CT").1 _ h2, hmiss]
      exact ⟨_, rfl⟩

/-- `loadPublicKey` and `loadPrivateKey`: success stores a key that belongs to the scheme and passed the check; any other code
leaves the context as it was. -/
theorem C96_load_codes (mk : Mktime) (cd : Codec G1 G2 GT) (check : Key G1 G2 GT → Bool) (kind : KeyKind)
    (c c' : Ctx G1 G2 GT) (keyID blob rnd : Bytes) (code : Option Err) (hkind : kind ≠ .other)
    (h : loadWith mk cd check kind c keyID blob rnd = .ok (code, c')) :
    (code = none ∧ ∃ key, held c' keyID kind = some key ∧ key.alg = c.alg ∧ check key = true) ∨
    (code ≠ none ∧ c' = c) := by
  unfold loadWith at h
  obtain ⟨r, hr, h⟩ := (Res.bind_eq_ok _ _ _).mp h
  split at h
  · cases h; exact .inr ⟨by simp, rfl⟩
  · rename_i k1
    cases h
    refine .inl ⟨rfl, k1, ?_, ?_⟩
    · cases kind with
      | pub => exact pub_addPub _ _ _
      | sec => exact sec_addSec _ _ _
      | other => exact absurd rfl hkind
    · have h2 := caught_eq_ok hr
      obtain ⟨⟨k, body⟩, -, h2⟩ := (Res.bind_eq_ok _ _ _).mp h2
      simp only at h2
      split at h2
      · cases h2
      rename_i ha
      split at h2
      · cases h2
      obtain ⟨k2, h3, h2⟩ := (Res.bind_eq_ok _ _ _).mp h2
      split at h2
      · rename_i hc
        cases h2
        refine ⟨?_, hc⟩
        unfold Key.loadBody at h3
        obtain ⟨_, -, h3⟩ := (Res.bind_eq_ok _ _ _).mp h3
        cases h3
        simpa using ha
      · cases h2

/-- A context whose mechanism has not created its pairing object dereferences a null pointer when a key of its scheme
is loaded: where the ABE wrapper creates the object, this one does not. -/
theorem C96_load_before_params_violated (mk : Mktime) (cd : Codec G1 G2 GT) (check : Key G1 G2 GT → Bool) (kind : KeyKind)
    (c : Ctx G1 G2 GT) (keyID blob rnd body : Bytes) (k : Key G1 G2 GT) (hr : c.ready = false)
    (hb : Key.parseHeader blob rnd = .ok (k, body)) (ha : k.alg = c.alg) :
    loadWith mk cd check kind c keyID blob rnd = .ub := by
  unfold loadWith
  simp only [hb, Res.ok_bind, ha, ne_eq, not_true_eq_false, if_false, hr, if_true]
  rfl

/-- A mechanism that hands out fewer than 32 key bytes makes the cipher read beyond the key. -/
theorem C96_short_key_violated (g : Gcm) (K : PkeKem G1 G2 GT) (c c1 : Ctx G1 G2 GT) (pkID senderpkID pt iv key : Bytes)
    (ct ct1 : Ciphertext G1 G2 GT) (spk : Key G1 G2 GT) (hpt : pt ≠ [])
    (hs : (c.ks.getPublicKey senderpkID).1 = some spk)
    (hk : K.encryptKEM { c with ks := (c.ks.getPublicKey senderpkID).2 } pkID spk.uid 256 ct = .ok (.ok key, ct1, c1))
    (hlen : key.length < 32) : encrypt g K c pkID senderpkID pt iv ct = .ub := by
  have hl : ¬ pt.length = 0 := by simpa using hpt
  unfold encrypt
  simp only [if_neg hl, hs, show symKeyBits = 256 from rfl, hk, Res.ok_bind, aad_header]
  simp only [AuthEnc.encrypt, GcmCtx.init_short _ _ hlen]
  rfl

/-! ## Instances -/

namespace PkeEx

def key : Bytes := List.replicate 32 9
/-- A mechanism that always agrees on the same key and writes the sender id into the ciphertext. -/
def kem : PkeKem (ZMod 5) (ZMod 5) (ZMod 5) where
  encryptKEM c _ s _ ct := .ok (.ok key, { ct with alg := c.alg, comps := SMap.insert b!"senderID" (.bytes s) ct.comps }, c)
  decryptKEM c _ _ ct _ := .ok (.ok key, ct, c)
  validatePublicKey k := k.alg == 100
  validatePrivateKey k := k.alg == 100
def spk : Key (ZMod 5) (ZMod 5) (ZMod 5) := { alg := 100, uid := WireEx.u, id := b!"s" }
def ctx : Ctx (ZMod 5) (ZMod 5) (ZMod 5) := { alg := 100, ready := true, ks := KeyStore.addKey {} b!"s" spk .pub }
def iv : Bytes := List.replicate 16 3
def ct0 : Ciphertext (ZMod 5) (ZMod 5) (ZMod 5) := { uid := WireEx.u }
def ct1 : Ciphertext (ZMod 5) (ZMod 5) (ZMod 5) := { uid := WireEx.u, alg := 100, comps := [(b!"senderID", .bytes WireEx.u)] }

/-- The hypotheses of `C94_round_trip` are met by sender `s`. -/
example : b!"hi" ≠ [] ∧ iv.length = 16 ∧ (ctx.ks.getPublicKey b!"s").1 = some spk ∧ 32 ≤ key.length ∧
    kem.encryptKEM { ctx with ks := (ctx.ks.getPublicKey b!"s").2 } b!"r" spk.uid 256 ct0 = .ok (.ok key, ct1, ctx) ∧
    ∀ d pk sk ct, kem.decryptKEM d pk sk ct 256 = .ok (.ok key, ct, d) :=
  ⟨by decide, rfl, rfl, by decide, rfl, fun _ _ _ _ => rfl⟩

/-- The additional hypotheses of `C94_across_bytes`. -/
example (g : Gcm) : ct1.uid.length = uidLen ∧ ct1.version ≤ libraryVersion ∧ KnownAlg ct1.alg ∧
    Writable Toy.mk0 WireEx.codec ct1.comps ∧ ∃ ct2, encrypt g kem ctx b!"r" b!"s" b!"hi" iv ct0 = .ok (none, ct2, ctx) := by
  refine ⟨rfl, by decide, by unfold KnownAlg; decide, ?_, _, rfl⟩
  exact (good_nil.set (setComponent_bytes _ b!"senderID" WireEx.u) (by decide) (by decide) (.bytes _ (by decide))).1

/-- The hypotheses of `C95_accepts_iff`, `C95_tampering_reported` (another uid in the header) and
`C95_empty_iv_violated`. -/
example : kem.decryptKEM ctx b!"s" b!"r" { ct1 with comps := [(b!"CT", .bytes [1]), (b!"IV", .bytes iv), (b!"Tag", .bytes iv)] } 256 =
    .ok (.ok key, { ct1 with comps := [(b!"CT", .bytes [1]), (b!"IV", .bytes iv), (b!"Tag", .bytes iv)] }, ctx) ∧ iv ≠ [] ∧
    ct1.header ≠ ct0.header := ⟨rfl, by decide, by decide⟩

/-- A mechanism that hands out a short key (`C96_short_key_violated`), and one that fails (`C96_encrypt_codes`). -/
example : ∃ K K' : PkeKem (ZMod 5) (ZMod 5) (ZMod 5),
    K.encryptKEM { ctx with ks := (ctx.ks.getPublicKey b!"s").2 } b!"r" spk.uid 256 ct0 = .ok (.ok [1], ct0, ctx) ∧
    K'.encryptKEM { ctx with ks := (ctx.ks.getPublicKey b!"s").2 } b!"r" spk.uid 256 ct0 =
      .ok (.error .missingReceiverPublicKey, ct0, ctx) :=
  ⟨{ kem with encryptKEM := fun c _ _ _ ct => .ok (.ok [1], ct, c) },
    { kem with encryptKEM := fun c _ _ _ ct => .ok (.error .missingReceiverPublicKey, ct, c) }, rfl, rfl⟩

set_option maxRecDepth 20000 in
/-- Key bytes of scheme 100, for `C96_load_before_params_violated` and `C96_load_codes`. -/
example : (Key.parseHeader (BS.pack (BS.pack [] ([170, 100] ++ WireEx.u ++ b!"k")) []) [] :
    Res (Key (ZMod 5) (ZMod 5) (ZMod 5) × Bytes)) = .ok (Key.new 100 b!"k" (some WireEx.u) [], []) := by
  rfl

end PkeEx
end Pke
end Abe
