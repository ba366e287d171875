import Verif.Proof.WireSize
import Verif.Props.Wire
/-! # C128: how large keys and ciphertexts get, and that they can always be sent (zcontextcpwaters.cpp, zcontextkpgpsw.cpp, zkey.cpp, zciphertext.cpp) -/
set_option linter.unusedSimpArgs false
set_option linter.unusedSectionVars false
set_option autoImplicit false
namespace Abe.Cpa
open Scheme

variable {q : Nat} [Fact q.Prime] {G1 G2 GT : Type} [AddCommGroup G1] [Module (ZMod q) G1] [AddCommGroup G2]
  [Module (ZMod q) G2] [AddCommGroup GT] [Module (ZMod q) GT]

theorem params_comps {cd : Codec G1 G2 GT} {n : Nat} (hn : ElementBytes cd n) (ho : cd.order = q) {env : Env G1 G2 GT} {sch : Scheme}
    {c c1 : Ctx G1 G2 GT} {mpkID mskID : Bytes} {pr : ParamRand q G1 G2} (h : generateParams env sch c mpkID mskID pr = .ok (none, c1)) :
    ∃ mpk, (c1.ks.getPublicKey mpkID).1 = some mpk ∧ mpk.uid = pr.uid1 ∧ mpk.id = mpkID ∧
      contBytes cd mpk.comps ≤ 4 * n + 100 + pr.k.length := by
  obtain ⟨ks, P, M, hpm, rfl⟩ := generateParams_shape h
  refine ⟨newKey c.alg mpkID pr.uid1 P, by rw [pub_addSec, pub_addPub], rfl, rfl, ?_⟩
  rcases hpm with ⟨-, h⟩ | ⟨-, h⟩
  · exact (cpParams_bytes hn ho h).1
  · exact (kpParams_bytes hn ho h).1

/-- **C128.** The exported public parameters take the room of four group elements and at most 130 bytes more, besides the
hash key and their id. -/
theorem C128_params (cd : Codec G1 G2 GT) (n : Nat) (hn : ElementBytes cd n) (ho : cd.order = q) (env : Env G1 G2 GT) (sch : Scheme)
    (c c1 : Ctx G1 G2 GT) (mpkID mskID : Bytes) (pr : ParamRand q G1 G2) (h : generateParams env sch c mpkID mskID pr = .ok (none, c1))
    (hu : pr.uid1.length = uidLen) (mpk : Key G1 G2 GT) (hm : (c1.ks.getPublicKey mpkID).1 = some mpk) (b : Bytes)
    (hb : mpk.exportBytes cd = .ok b) : b.length ≤ 4 * n + 130 + pr.k.length + mpkID.length := by
  obtain ⟨m, h1, h2, h3, h4⟩ := params_comps hn ho h
  rw [hm] at h1
  cases h1
  have := keyBytes_le hb (by rw [h2, hu])
  rw [h3] at this
  omega

theorem key_comps {cd : Codec G1 G2 GT} {n : Nat} (hn : ElementBytes cd n) {env : Env G1 G2 GT} (hnd : env.ndebug = false) {sch : Scheme}
    {c c' : Ctx G1 G2 GT} {keyID mpkID mskID : Bytes} {input : FInput} {r : Rand q}
    (h : generateKey env sch c input keyID mpkID mskID r = .ok (none, c')) :
    ∃ dk, (c'.ks.getSecretKey keyID).1 = some dk ∧ dk.uid = r.uid ∧ dk.id = keyID ∧
      (∀ l al, input = .attrs al → createAttributeList env.mktime l = .ok (some al) →
        contBytes cd dk.comps ≤ 11 * l.length * (n + 35) + 7 * l.length + 2 * n + 60) ∧
      ∀ s p, input = .policy p → createPolicyTree env.mktime s = .ok (some p) →
        contBytes cd dk.comps ≤ 11 * s.length * (2 * (n + 35)) + s.length + 20 := by
  obtain ⟨mpk, msk, d, -, -, hd, rfl⟩ := generateKey_shape h
  refine ⟨newKey c.alg keyID r.uid d, by rw [sec_addSec], rfl, rfl, ?_, ?_⟩
  · intro l al e hl
    rcases hd with ⟨al', -, e', h⟩ | ⟨p, -, e', h⟩
    · rw [e] at e'
      cases e'
      have h1 := cpKeyBody_bytes hn h
      have h2 := list_size hl
      have h3 := Nat.mul_le_mul_right (n + 35) h2.1
      show contBytes cd d ≤ _
      omega
    · rw [e] at e'; cases e'
  · intro s p e hp
    rcases hd with ⟨al', -, e', h⟩ | ⟨p', -, e', h⟩
    · rw [e] at e'; cases e'
    · rw [e] at e'
      cases e'
      exact kpKeyBody_bytes hn hnd hp h

/-- **C128.** The exported key for a list that was read from a text grows linearly with the text: at most eleven elements of
a group for each byte. -/
theorem C128_cp_key (cd : Codec G1 G2 GT) (n : Nat) (hn : ElementBytes cd n) (env : Env G1 G2 GT) (hnd : env.ndebug = false)
    (c c' : Ctx G1 G2 GT) (keyID mpkID mskID l : Bytes) (al : AttrList) (hl : createAttributeList env.mktime l = .ok (some al)) (r : Rand q)
    (h : generateKey env .cp c (.attrs al) keyID mpkID mskID r = .ok (none, c')) (hu : r.uid.length = uidLen) (dk : Key G1 G2 GT)
    (hk : (c'.ks.getSecretKey keyID).1 = some dk) (b : Bytes) (hb : dk.exportBytes cd = .ok b) :
    b.length ≤ 11 * l.length * (n + 35) + 7 * l.length + 2 * n + 90 + keyID.length := by
  obtain ⟨k, h1, h2, h3, h4, -⟩ := key_comps (cd := cd) hn hnd h
  rw [hk] at h1
  cases h1
  have h5 := keyBytes_le hb (by rw [h2, hu])
  have h6 := h4 l al rfl hl
  rw [h3] at h5
  omega

/-- **C128.** The exported key for a policy that was read from a text: at most 22 elements for each byte. -/
theorem C128_kp_key (cd : Codec G1 G2 GT) (n : Nat) (hn : ElementBytes cd n) (env : Env G1 G2 GT) (hnd : env.ndebug = false)
    (c c' : Ctx G1 G2 GT) (keyID mpkID mskID s : Bytes) (p : Policy) (hp : createPolicyTree env.mktime s = .ok (some p)) (r : Rand q)
    (h : generateKey env .kp c (.policy p) keyID mpkID mskID r = .ok (none, c')) (hu : r.uid.length = uidLen) (dk : Key G1 G2 GT)
    (hk : (c'.ks.getSecretKey keyID).1 = some dk) (b : Bytes) (hb : dk.exportBytes cd = .ok b) :
    b.length ≤ 22 * s.length * (n + 35) + s.length + 50 + keyID.length := by
  obtain ⟨k, h1, h2, h3, -, h4⟩ := key_comps (cd := cd) hn hnd h
  rw [hk] at h1
  cases h1
  have h5 := keyBytes_le hb (by rw [h2, hu])
  have h6 := h4 s p rfl hp
  have h7 : 11 * s.length * (2 * (n + 35)) = 22 * s.length * (n + 35) := by
    rw [← Nat.mul_assoc, Nat.mul_right_comm 11 _ 2]
  rw [h3] at h5
  omega

/-- **C128.** A ciphertext is longer than its plaintext by an amount that does not depend on the plaintext and grows linearly
with the text of the policy (ciphertext-policy) or of the attribute list (key-policy). -/
theorem C128_ciphertext (cd : Codec G1 G2 GT) (n : Nat) (hn : ElementBytes cd n) (env : Env G1 G2 GT) (hnd : env.ndebug = false)
    (sch : Scheme) (c c' : Ctx G1 G2 GT) (mpkID : Bytes) (input : FInput) (pt : Bytes) (r : Rand q) (ct0 ct : Ciphertext G1 G2 GT)
    (h0 : ct0.comps = []) (h : encrypt env sch c mpkID input pt r ct0 = .ok (.ok ct, c')) (hu : ct.uid.length = uidLen)
    (b : Bytes) (hb : ct.exportBytes cd = .ok b) :
    (∀ s p, input = .policy p → createPolicyTree env.mktime s = .ok (some p) →
      b.length ≤ 22 * s.length * (n + 35) + s.length + n + 100 + pt.length) ∧
    (∀ l al, input = .attrs al → createAttributeList env.mktime l = .ok (some al) →
      b.length ≤ 11 * l.length * (n + 35) + 7 * l.length + n + 100 + pt.length) := by
  obtain ⟨h1, h2⟩ := encrypt_bytes (cd := cd) hn hnd h
  have h3 := ctBytes_le hb hu
  have h4 : contBytes cd ct0.comps = 0 := by rw [h0]; rfl
  constructor
  · intro s p e hp
    have h5 := h1 s p e hp
    have h7 : 11 * s.length * (2 * (n + 35)) = 22 * s.length * (n + 35) := by
      rw [← Nat.mul_assoc, Nat.mul_right_comm 11 _ 2]
    omega
  · intro l al e hl
    have h5 := h2 l al e hl
    omega

theorem fits_of {cd : Codec G1 G2 GT} {c : Container G1 G2 GT} (h : contBytes cd c < 2 ^ 32) : Fits cd c :=
  fun _ hb => Nat.lt_of_le_of_lt (serialize_le _ _ hb) h

theorem room {a b m : Nat} (ha : a ≤ 65536) (hm : m ≤ 1024) (hb : b = m + 35) : 11 * a * (2 * b) ≤ 1526857728 ∧ 11 * a * b ≤ 763428864 := by
  subst hb
  have h1 : 11 * a * (2 * (m + 35)) ≤ 11 * 65536 * (2 * (1024 + 35)) :=
    Nat.mul_le_mul (by omega) (by omega)
  have h2 : 11 * a * (m + 35) ≤ 11 * 65536 * (1024 + 35) := Nat.mul_le_mul (by omega) (by omega)
  constructor <;> omega

/-- **C128.** From texts to bytes and back, ciphertext-policy, with nothing but bytes between the three contexts. Unlike
`C90_cp_texts_partial` this assumes nothing about sizes on the wire: texts of up to 64 KiB and group elements of up to 1024
bytes are enough for everything to fit. Missing: texts whose labels collide (`NoClash`, see C46), longer texts. -/
theorem C128_cp_texts (env : Env G1 G2 GT) (hb : Bilinear q env.e) (hnd : env.ndebug = false)
    (hmd : ∀ x, (env.md x).length = 32) (cd : Codec G1 G2 GT) (hc : CodecOk cd) (ho : cd.order = q) (n : Nat) (hn : ElementBytes cd n)
    (hn' : n ≤ 1024) (c c1 : Ctx G1 G2 GT) (mpkID mskID keyID : Bytes) (pr : ParamRand q G1 G2) (kr er : Rand q)
    (hgen : generateParams env .cp c mpkID mskID pr = .ok (none, c1))
    (s l : Bytes) (e : Expr) (a : AExpr) (hs : PolicyText env.mktime s e) (hl : ListText env.mktime l a)
    (hpct : e.Unnumbered) (hs16 : s.length ≤ 65536) (hl16 : l.length ≤ 65536)
    (ha : KnownAlg c.alg) (hu1 : pr.uid1.length = uidLen) (hu2 : kr.uid.length = uidLen) (hk : pr.k.length < 2 ^ 31)
    (hid1 : mpkID.length < 2 ^ 31) (hid2 : keyID.length < 2 ^ 31) (hfree : (c1.ks.getPublicKey keyID).1 = none)
    (cE cD : Ctx G1 G2 GT) (hE : cE.alg = c.alg) (hD : cD.alg = c.alg) (idE idD rndE rndD : Bytes)
    (ct0 : Ciphertext G1 G2 GT) (hu : ct0.uid.length = uidLen) (hv : ct0.version ≤ libraryVersion) (h0 : ct0.comps = [])
    (plaintext : Bytes) (hpt : plaintext.length < 2 ^ 31) :
    ∃ p al, createPolicyTree env.mktime s = .ok (some p) ∧ createAttributeList env.mktime l = .ok (some al) ∧
      (NoClash env.md (rowNames p) → NoClash env.md al.attrs →
      ∃ c2 blobP c3 blobK c4 cE1 cD1 ct cE2 out ct' cD2, generateKey env .cp c1 (.attrs al) keyID mpkID mskID kr = .ok (none, c2) ∧
          exportKey cd c2 mpkID = .ok (.ok blobP, c3) ∧ exportKey cd c3 keyID = .ok (.ok blobK, c4) ∧
          loadMasterPublicParams env.mktime cd cE idE blobP rndE = .ok (none, cE1) ∧
          loadUserSecretParams env.mktime cd cD idD blobK rndD = .ok (none, cD1) ∧
          encrypt env .cp cE1 idE (.policy p) plaintext er ct0 = .ok (.ok ct, cE2) ∧
          ct.exportBytes cd = .ok out ∧ Ciphertext.load env.mktime cd {} out = .ok ct' ∧
          (e.trueFor env.mktime a → decrypt q env .cp cD1 idD ct' = .ok (none, plaintext, cD2)) ∧
          (¬ e.trueFor env.mktime a → decrypt q env .cp cD1 idD ct' = .ok (some .decryptionFailed, [], cD2))) := by
  obtain ⟨p, al, h1, h2, h3⟩ := C90_cp_texts_partial env hb hnd hmd cd hc ho c c1 mpkID mskID keyID pr kr er hgen s l e a hs hl hpct
    (by omega) ha hu1 hu2 hk hid1 hid2 hfree cE cD hE hD idE idD rndE rndD ct0 hu hv h0 plaintext hpt
  refine ⟨p, al, h1, h2, ?_⟩
  intro n1 n2
  have hz := list_size h2
  obtain ⟨mpk, c2, dk, a1, a2, a3, a4⟩ := h3 n1 n2 (by omega)
  obtain ⟨mpk', b1, -, -, b2⟩ := params_comps hn ho hgen
  obtain ⟨dk', d1, -, -, d2, -⟩ := key_comps (cd := cd) hn hnd a1
  rw [a3] at d1
  cases d1
  have d3 := d2 l al rfl h2
  have hm : mpk = mpk' := by
    rw [(C91_keygen_partial env _ c1 c2 _ _ _ _ kr a1).2.2, b1] at a2
    cases a2; rfl
  subst hm
  have r1 := room hs16 hn' rfl
  have r2 := room hl16 hn' rfl
  obtain ⟨blobP, c3, blobK, c4, cE1, cD1, ct, cE2, x1, x2, x3, x4, x5, x6⟩ := a4 (fits_of (by omega)) (fits_of (by omega))
  have y1 := (encrypt_bytes (cd := cd) hn hnd x5).1 s p rfl h1
  have y2 : contBytes cd ct0.comps = 0 := by rw [h0]; rfl
  obtain ⟨out, ct', cD2, z1, z2, z3, z4⟩ := x6 (fits_of (by omega))
  exact ⟨c2, blobP, c3, blobK, c4, cE1, cD1, ct, cE2, out, ct', cD2, a1, x1, x2, x3, x4, x5, z1, z2, z3, z4⟩

/-- **C128.** The same, key-policy. Missing as in `C128_cp_texts`. -/
theorem C128_kp_texts (env : Env G1 G2 GT) (hb : Bilinear q env.e) (hnd : env.ndebug = false)
    (hmd : ∀ x, (env.md x).length = 32) (cd : Codec G1 G2 GT) (hc : CodecOk cd) (ho : cd.order = q) (n : Nat) (hn : ElementBytes cd n)
    (hn' : n ≤ 1024) (c c1 : Ctx G1 G2 GT) (mpkID mskID keyID : Bytes) (pr : ParamRand q G1 G2) (kr er : Rand q)
    (hgen : generateParams env .kp c mpkID mskID pr = .ok (none, c1))
    (s l : Bytes) (e : Expr) (a : AExpr) (hs : PolicyText env.mktime s e) (hl : ListText env.mktime l a)
    (hpct : e.Unnumbered) (hs16 : s.length ≤ 65536) (hl16 : l.length ≤ 65536)
    (ha : KnownAlg c.alg) (hu1 : pr.uid1.length = uidLen) (hu2 : kr.uid.length = uidLen) (hk : pr.k.length < 2 ^ 31)
    (hid1 : mpkID.length < 2 ^ 31) (hid2 : keyID.length < 2 ^ 31) (hfree : (c1.ks.getPublicKey keyID).1 = none)
    (cE cD : Ctx G1 G2 GT) (hE : cE.alg = c.alg) (hD : cD.alg = c.alg) (idE idD rndE rndD : Bytes)
    (ct0 : Ciphertext G1 G2 GT) (hu : ct0.uid.length = uidLen) (hv : ct0.version ≤ libraryVersion) (h0 : ct0.comps = [])
    (plaintext : Bytes) (hpt : plaintext.length < 2 ^ 31) :
    ∃ p al, createPolicyTree env.mktime s = .ok (some p) ∧ createAttributeList env.mktime l = .ok (some al) ∧
      (NoClash env.md (rowNames p) → NoClash env.md al.attrs →
      ∃ c2 blobP c3 blobK c4 cE1 cD1 ct cE2 out ct' cD2, generateKey env .kp c1 (.policy p) keyID mpkID mskID kr = .ok (none, c2) ∧
          exportKey cd c2 mpkID = .ok (.ok blobP, c3) ∧ exportKey cd c3 keyID = .ok (.ok blobK, c4) ∧
          loadMasterPublicParams env.mktime cd cE idE blobP rndE = .ok (none, cE1) ∧
          loadUserSecretParams env.mktime cd cD idD blobK rndD = .ok (none, cD1) ∧
          encrypt env .kp cE1 idE (.attrs al) plaintext er ct0 = .ok (.ok ct, cE2) ∧
          ct.exportBytes cd = .ok out ∧ Ciphertext.load env.mktime cd {} out = .ok ct' ∧
          (e.trueFor env.mktime a → decrypt q env .kp cD1 idD ct' = .ok (none, plaintext, cD2)) ∧
          (¬ e.trueFor env.mktime a → decrypt q env .kp cD1 idD ct' = .ok (some .decryptionFailed, [], cD2))) := by
  obtain ⟨p, al, h1, h2, h3⟩ := C90_kp_texts_partial env hb hnd hmd cd hc ho c c1 mpkID mskID keyID pr kr er hgen s l e a hs hl hpct
    (by omega) ha hu1 hu2 hk hid1 hid2 hfree cE cD hE hD idE idD rndE rndD ct0 hu hv h0 plaintext hpt
  refine ⟨p, al, h1, h2, ?_⟩
  intro n1 n2
  have hz := list_size h2
  obtain ⟨mpk, c2, dk, a1, a2, a3, a4⟩ := h3 n1 n2 (by omega)
  obtain ⟨mpk', b1, -, -, b2⟩ := params_comps hn ho hgen
  obtain ⟨dk', d1, -, -, -, d2⟩ := key_comps (cd := cd) hn hnd a1
  rw [a3] at d1
  cases d1
  have d3 := d2 s p rfl h1
  have hm : mpk = mpk' := by
    rw [(C91_keygen_partial env _ c1 c2 _ _ _ _ kr a1).2.2, b1] at a2
    cases a2; rfl
  subst hm
  have r1 := room hs16 hn' rfl
  have r2 := room hl16 hn' rfl
  obtain ⟨blobP, c3, blobK, c4, cE1, cD1, ct, cE2, x1, x2, x3, x4, x5, x6⟩ := a4 (fits_of (by omega)) (fits_of (by omega))
  have y1 := (encrypt_bytes (cd := cd) hn hnd x5).2 l al rfl h2
  have y2 : contBytes cd ct0.comps = 0 := by rw [h0]; rfl
  obtain ⟨out, ct', cD2, z1, z2, z3, z4⟩ := x6 (fits_of (by omega))
  exact ⟨c2, blobP, c3, blobK, c4, cE1, cD1, ct, cE2, out, ct', cD2, a1, x1, x2, x3, x4, x5, z1, z2, z3, z4⟩

/-- The codec of the concrete session (`WireEx`) has elements of one byte. The other hypotheses are met there. -/
example : ElementBytes WireEx.codec 1 where
  b1 := fun _ => Nat.le_refl _
  b2 := fun _ => Nat.le_refl _
  bT := fun _ => Nat.le_refl _
  bZ := fun v hv => by
    have : v ≤ 5 := hv
    interval_cases v <;> simp [natBE]

end Abe.Cpa
