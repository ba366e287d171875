import Verif.Proof.Scheme
import Verif.Props.Bytes
import Verif.Props.Parser
/-!
# Properties of the schemes and of the CPA wrapper (C44-C49)

Assumptions about the outside, where needed: the pairing is bilinear over the field of prime order `q`, digests
have 32 bytes, assertions are compiled in. Hash function, curve map, key derivation and all random values are
arbitrary.
-/
set_option linter.unusedSimpArgs false
set_option linter.unusedSectionVars false
set_option autoImplicit false
namespace Abe.Scheme
variable {G1 G2 GT : Type} {q : Nat} [Fact q.Prime]
variable [AddCommGroup G1] [Module (ZMod q) G1] [AddCommGroup G2] [Module (ZMod q) G2] [AddCommGroup GT]
  [Module (ZMod q) GT]

/-! ## The keystore during a run -/

section ks
variable {K : Type}

theorem touch_insert (m : SMap (Option K)) (k : Bytes) (v : K) :
    (KeyStore.touch (SMap.insert k (some v) m) k).1 = some v := by
  simp [KeyStore.touch, SMap.find_insert]

theorem touch_touch (m : SMap (Option K)) (k j : Bytes) :
    (KeyStore.touch (KeyStore.touch m k).2 j).1 = (KeyStore.touch m j).1 := by
  unfold KeyStore.touch
  cases h : SMap.find k m with
  | some v => rfl
  | none =>
    simp only [SMap.find_insert]
    by_cases hj : j = k
    · subst hj; simp [h]
    · simp [hj]; cases SMap.find j m <;> rfl

theorem pub_after_pub (ks : KeyStore K) (i j : Bytes) :
    ((ks.getPublicKey i).2.getPublicKey j).1 = (ks.getPublicKey j).1 := touch_touch _ _ _
theorem pub_after_sec (ks : KeyStore K) (i j : Bytes) :
    ((ks.getSecretKey i).2.getPublicKey j).1 = (ks.getPublicKey j).1 := rfl
theorem sec_after_pub (ks : KeyStore K) (i j : Bytes) :
    ((ks.getPublicKey i).2.getSecretKey j).1 = (ks.getSecretKey j).1 := rfl
theorem pub_addSec (ks : KeyStore K) (n j : Bytes) (k : K) :
    ((ks.addKey n k .sec).getPublicKey j).1 = (ks.getPublicKey j).1 := rfl
theorem pub_addPub (ks : KeyStore K) (n : Bytes) (k : K) : ((ks.addKey n k .pub).getPublicKey n).1 = some k :=
  touch_insert _ _ _
theorem sec_addSec (ks : KeyStore K) (n : Bytes) (k : K) : ((ks.addKey n k .sec).getSecretKey n).1 = some k :=
  touch_insert _ _ _

end ks

theorem generateParams_ok {env : Env G1 G2 GT} {sch : Scheme} {c c1 : Ctx G1 G2 GT} {mpkID mskID : Bytes}
    {pr : ParamRand q G1 G2} (h : generateParams env sch c mpkID mskID pr = .ok (none, c1)) :
    c1.ready = true ∧ ∃ mpk msk, (c1.ks.getPublicKey mpkID).1 = some mpk ∧ (c1.ks.getSecretKey mskID).1 = some msk ∧
      (match sch with | .cp => cpParams env pr | .kp => kpParams env pr) = .ok (mpk.comps, msk.comps) := by
  have hb : ∃ (ks : KeyStore (Key G1 G2 GT)), ((match sch with | .cp => cpParams env pr | .kp => kpParams env pr) >>= fun pm =>
      .ok ((none : Option Err), (⟨c.alg, true, (ks.addKey mpkID (newKey c.alg mpkID pr.uid1 pm.1) .pub).addKey mskID
        (newKey c.alg mskID pr.uid2 pm.2) .sec⟩ : Ctx G1 G2 GT))) = Res.ok (none, c1) := by
    unfold generateParams at h
    simp only at h
    split at h
    · simp at h
    · split at h
      · simp at h
      · refine ⟨((c.ks.validateNewParamsID mpkID).2.validateNewParamsID mskID).2, ?_⟩
        cases sch <;> exact h
  clear h
  obtain ⟨ks, h⟩ := hb
  · · obtain ⟨pm, hpm, h⟩ := (Res.bind_eq_ok _ _ _).mp h
      simp only [Res.ok.injEq, Prod.mk.injEq, true_and] at h
      subst h
      refine ⟨rfl, newKey c.alg mpkID pr.uid1 pm.1, newKey c.alg mskID pr.uid2 pm.2, ?_, sec_addSec _ _ _, hpm⟩
      rw [pub_addSec]
      exact pub_addPub _ _ _

theorem caught_ok {α : Type} (a : α) : caught (.ok a) = .ok (.ok a) := rfl

theorem cp_generateKey {env : Env G1 G2 GT} {c : Ctx G1 G2 GT} {al : AttrList} {keyID mpkID mskID : Bytes} {kr : Rand q}
    {mpk msk : Key G1 G2 GT} {d : Container G1 G2 GT} (h1 : (c.ks.getPublicKey mpkID).1 = some mpk)
    (h2 : (c.ks.getSecretKey mskID).1 = some msk) (hd : cpKeyBody env c mpk msk al kr.x = .ok d) :
    ∃ c2 dk, generateKey env .cp c (.attrs al) keyID mpkID mskID kr = .ok (none, c2) ∧ c2.ready = c.ready ∧
      (c2.ks.getSecretKey keyID).1 = some dk ∧ dk.comps = d ∧ (c2.ks.getPublicKey mpkID).1 = some mpk := by
  refine ⟨{ c with ks := ((c.ks.getPublicKey mpkID).2.getSecretKey mskID).2.addKey keyID (newKey c.alg keyID kr.uid d) .sec },
    newKey c.alg keyID kr.uid d, ?_, ?_, ?_, rfl, ?_⟩
  · unfold generateKey
    simp only [h1, sec_after_pub, h2, hd, caught_ok, Res.ok_bind, Bool.true_eq_false, if_false]
  · rfl
  · exact sec_addSec _ _ _
  · simp only [pub_addSec, pub_after_sec, pub_after_pub, h1]

theorem kp_generateKey {env : Env G1 G2 GT} {c : Ctx G1 G2 GT} {p : Policy} {keyID mpkID mskID : Bytes} {kr : Rand q}
    {mpk msk : Key G1 G2 GT} {d : Container G1 G2 GT} (h1 : (c.ks.getPublicKey mpkID).1 = some mpk)
    (h2 : (c.ks.getSecretKey mskID).1 = some msk) (hd : kpKeyBody env c mpk msk p kr.tape kr.r = .ok d) :
    ∃ c2 dk, generateKey env .kp c (.policy p) keyID mpkID mskID kr = .ok (none, c2) ∧ c2.ready = c.ready ∧
      (c2.ks.getSecretKey keyID).1 = some dk ∧ dk.comps = d ∧ (c2.ks.getPublicKey mpkID).1 = some mpk := by
  refine ⟨{ c with ks := ((c.ks.getPublicKey mpkID).2.getSecretKey mskID).2.addKey keyID (newKey c.alg keyID kr.uid d) .sec },
    newKey c.alg keyID kr.uid d, ?_, ?_, ?_, rfl, ?_⟩
  · unfold generateKey
    simp only [h1, sec_after_pub, h2, hd, caught_ok, Res.ok_bind, Bool.true_eq_false, if_false]
  · rfl
  · exact sec_addSec _ _ _
  · simp only [pub_addSec, pub_after_sec, pub_after_pub, h1]


theorem encryptKEM_ok {env : Env G1 G2 GT} {c : Ctx G1 G2 GT} {id : Bytes} {len : Nat} {r : Rand q}
    {ct ct' : Ciphertext G1 G2 GT} {mpk : Key G1 G2 GT} {key : Bytes} (h1 : (c.ks.getPublicKey id).1 = some mpk) :
    (∀ p, cpEncBody env c mpk p len r ct = .ok (key, ct') →
      encryptKEM env .cp c id (.policy p) len r ct = .ok (.ok (key, ct'), { c with ks := (c.ks.getPublicKey id).2 })) ∧
    (∀ al, kpEncBody env c mpk al len r ct = .ok (key, ct') →
      encryptKEM env .kp c id (.attrs al) len r ct = .ok (.ok (key, ct'), { c with ks := (c.ks.getPublicKey id).2 })) := by
  constructor
  · intro p h
    unfold encryptKEM
    simp only [h1, h, caught_ok, Res.ok_bind, Bool.true_eq_false, if_false]
  · intro al h
    unfold encryptKEM
    simp only [h1, h, caught_ok, Res.ok_bind, Bool.true_eq_false, if_false]

theorem decryptKEM_ok {env : Env G1 G2 GT} {c : Ctx G1 G2 GT} {id : Bytes} {len : Nat}
    {ct : Ciphertext G1 G2 GT} {dk : Key G1 G2 GT} (h1 : (c.ks.getSecretKey id).1 = some dk) (sch : Scheme) :
    decryptKEM q env sch c id ct len = (caught (match sch with
      | .cp => cpDecBody q env c dk.comps ct.comps len
      | .kp => kpDecBody q env c dk.comps ct.comps len) >>= fun res =>
      .ok (res, { c with ks := (c.ks.getSecretKey id).2 })) := by
  unfold decryptKEM
  simp only [h1]
  cases sch <;> rfl

/-! ## C44, C45 decapsulation -/

/-- The key both sides derive. -/
def sharedKey (env : Env G1 G2 GT) (pr : ParamRand q G1 G2) (x : ZMod q) (len : Nat) : Bytes :=
  env.kdf len (env.md (groupSerialize 0xB4 (env.wT (x • pr.alpha • env.e pr.g1 pr.g2))))

/-- Ciphertext-policy: after parameter and key generation, whatever one context encapsulates under the public key,
another context decapsulates with the generated key, if the attribute list satisfies the policy and component
labels do not collide. All random values, the earlier contents of contexts and ciphertext, and the identifiers are
arbitrary; the policy is any that the parser accepts. -/
theorem C44_cp_decapsulation (env : Env G1 G2 GT) (hb : Bilinear q env.e) (hnd : env.ndebug = false)
    (c c1 : Ctx G1 G2 GT) (mpkID mskID keyID : Bytes) (pr : ParamRand q G1 G2) (kr er : Rand q)
    (hgen : generateParams env .cp c mpkID mskID pr = .ok (none, c1))
    (s : Bytes) (p : Policy) (hp : createPolicyTree env.mktime s = .ok (some p)) (al : AttrList)
    (hrows : (rowLabels env.md p).Nodup) (hattrs : NoClash env.md al.attrs) (hsat : Satisfies al.attrs p)
    (len : Nat) (hlen : len = 16 ∨ len = 32) (ct : Ciphertext G1 G2 GT) :
    ∃ mpk c2 dk, (c1.ks.getPublicKey mpkID).1 = some mpk ∧
      generateKey env .cp c1 (.attrs al) keyID mpkID mskID kr = .ok (none, c2) ∧
      (c2.ks.getSecretKey keyID).1 = some dk ∧ (c2.ks.getPublicKey mpkID).1 = some mpk ∧ c2.ready = true ∧
      ∀ (cE cD : Ctx G1 G2 GT) (idE idD : Bytes), cE.ready = true → cD.ready = true →
        (cE.ks.getPublicKey idE).1 = some mpk → (cD.ks.getSecretKey idD).1 = some dk →
        ∃ ct' cE' cD', encryptKEM env .cp cE idE (.policy p) len er ct = .ok (.ok (sharedKey env pr er.x len, ct'), cE') ∧
          decryptKEM q env .cp cD idD ct' len = .ok (.ok (sharedKey env pr er.x len), cD') := by
  obtain ⟨hr, mpk, msk, h1, h2, hpm⟩ := generateParams_ok hgen
  obtain ⟨d, -, hd, -, -⟩ := cp_bodies hb hnd hpm hr hr hr hp al kr.x er ct hlen hrows hattrs hsat
  obtain ⟨c2, dk, hk, hr2, hs, rfl, hpk⟩ := cp_generateKey (keyID := keyID) h1 h2 hd
  refine ⟨mpk, c2, dk, h1, hk, hs, hpk, hr2.trans hr, ?_⟩
  intro cE cD idE idD hrE hrD hE hD
  obtain ⟨d', ct', hd', henc, hdec⟩ := cp_bodies hb hnd hpm hr hrE hrD hp al kr.x er ct hlen hrows hattrs hsat
  rw [hd] at hd'
  simp only [Res.ok.injEq] at hd'
  subst hd'
  refine ⟨ct', _, { cD with ks := (cD.ks.getSecretKey idD).2 }, (encryptKEM_ok hE).1 p henc, ?_⟩
  rw [decryptKEM_ok hD]
  simp only [hdec ct'.comps (fun _ _ => rfl), caught_ok, Res.ok_bind]
  rfl

/-- Key-policy: the same with the policy in the key and the attribute list in the ciphertext. -/
theorem C45_kp_decapsulation (env : Env G1 G2 GT) (hb : Bilinear q env.e) (hnd : env.ndebug = false)
    (c c1 : Ctx G1 G2 GT) (mpkID mskID keyID : Bytes) (pr : ParamRand q G1 G2) (kr er : Rand q)
    (hgen : generateParams env .kp c mpkID mskID pr = .ok (none, c1))
    (s : Bytes) (p : Policy) (hp : createPolicyTree env.mktime s = .ok (some p)) (al : AttrList)
    (hrows : (rowLabels env.md p).Nodup) (hattrs : NoClash env.md al.attrs) (hsat : Satisfies al.attrs p)
    (len : Nat) (hlen : len = 16 ∨ len = 32) (ct : Ciphertext G1 G2 GT) :
    ∃ mpk c2 dk, (c1.ks.getPublicKey mpkID).1 = some mpk ∧
      generateKey env .kp c1 (.policy p) keyID mpkID mskID kr = .ok (none, c2) ∧
      (c2.ks.getSecretKey keyID).1 = some dk ∧ (c2.ks.getPublicKey mpkID).1 = some mpk ∧ c2.ready = true ∧
      ∀ (cE cD : Ctx G1 G2 GT) (idE idD : Bytes), cE.ready = true → cD.ready = true →
        (cE.ks.getPublicKey idE).1 = some mpk → (cD.ks.getSecretKey idD).1 = some dk →
        ∃ ct' cE' cD', encryptKEM env .kp cE idE (.attrs al) len er ct = .ok (.ok (sharedKey env pr er.x len, ct'), cE') ∧
          decryptKEM q env .kp cD idD ct' len = .ok (.ok (sharedKey env pr er.x len), cD') := by
  obtain ⟨hr, mpk, msk, h1, h2, hpm⟩ := generateParams_ok hgen
  obtain ⟨d, -, hd, -, -⟩ := kp_bodies hb hnd hpm hr hr hr hp al kr er ct hlen hrows hattrs hsat
  obtain ⟨c2, dk, hk, hr2, hs, rfl, hpk⟩ := kp_generateKey (keyID := keyID) h1 h2 hd
  refine ⟨mpk, c2, dk, h1, hk, hs, hpk, hr2.trans hr, ?_⟩
  intro cE cD idE idD hrE hrD hE hD
  obtain ⟨d', ct', hd', henc, hdec⟩ := kp_bodies hb hnd hpm hr hrE hrD hp al kr er ct hlen hrows hattrs hsat
  rw [hd] at hd'
  simp only [Res.ok.injEq] at hd'
  subst hd'
  refine ⟨ct', _, { cD with ks := (cD.ks.getSecretKey idD).2 }, (encryptKEM_ok hE).2 al henc, ?_⟩
  rw [decryptKEM_ok hD]
  simp only [hdec ct'.comps (fun _ _ => rfl), caught_ok, Res.ok_bind]
  rfl

/-! ## C46 messages -/

theorem flatMap_blocks {f : Nat → Bytes} (hf : ∀ i, (f i).length = 32) : ∀ n : Nat,
    ((List.range n).flatMap f).length = 32 * n ∧
    ∀ p, p < 32 * n → ((List.range n).flatMap f)[p]? = (f (p / 32))[p % 32]?
  | 0 => by simp
  | n + 1 => by
    obtain ⟨hl, hi⟩ := flatMap_blocks hf n
    rw [List.range_succ, List.flatMap_append]
    simp only [List.flatMap_cons, List.flatMap_nil, List.append_nil]
    refine ⟨by rw [List.length_append, hl, hf]; omega, ?_⟩
    intro p hp
    by_cases h : p < 32 * n
    · rw [List.getElem?_append_left (by omega)]; exact hi p h
    · rw [List.getElem?_append_right (by omega), hl]
      have h1 : p / 32 = n := by omega
      have h2 : p - 32 * n = p % 32 := by omega
      rw [h1, h2]

/-- Length and bytes of the mask. -/
theorem mask_spec {md : Bytes → Bytes} (hmd : ∀ x, (md x).length = 32) (buf : Bytes) (n : Nat) (pre : UInt8) :
    (hashFromBytes md buf n pre).length = n ∧
    ∀ p, p < n → (hashFromBytes md buf n pre)[p]? = (md (UInt8.ofNat (p / 32) :: pre :: buf))[p % 32]? := by
  obtain ⟨hl, hi⟩ := flatMap_blocks (f := maskBlock md pre buf) (fun i => hmd _) ((n + 31) / 32)
  constructor
  · unfold hashFromBytes
    rw [List.length_take, hl]
    omega
  · intro p hp
    unfold hashFromBytes
    rw [List.getElem?_take, if_pos hp, hi p (by omega)]
    rfl

theorem mask_xor {md : Bytes → Bytes} (hmd : ∀ x, (md x).length = 32) (K pt : Bytes) :
    ∃ x, BS.xorAssign pt (hashFromBytes md K pt.length schemeHashPrefix) = .ok x ∧ x.length = pt.length ∧
      BS.xorAssign x (hashFromBytes md K x.length schemeHashPrefix) = .ok pt := by
  by_cases h0 : pt = []
  · subst h0; exact ⟨[], rfl, rfl, rfl⟩
  · have hl := (mask_spec hmd K pt.length schemeHashPrefix).1
    have hne : hashFromBytes md K pt.length schemeHashPrefix ≠ [] := by
      intro h
      rw [h] at hl
      exact h0 (List.length_eq_zero_iff.mp hl.symm)
    obtain ⟨y, h1, h2, h3⟩ := C35_xor_involution pt _ hne
    exact ⟨y, h1, h2, by rw [h2]; exact h3⟩

/-- Ciphertext-policy: decrypting an encrypted message gives the message, of any length. -/
theorem C46_cp_round_trip (env : Env G1 G2 GT) (hb : Bilinear q env.e) (hnd : env.ndebug = false)
    (hmd : ∀ x, (env.md x).length = 32)
    (c c1 : Ctx G1 G2 GT) (mpkID mskID keyID : Bytes) (pr : ParamRand q G1 G2) (kr er : Rand q)
    (hgen : generateParams env .cp c mpkID mskID pr = .ok (none, c1))
    (s : Bytes) (p : Policy) (hp : createPolicyTree env.mktime s = .ok (some p)) (al : AttrList)
    (hrows : (rowLabels env.md p).Nodup) (hattrs : NoClash env.md al.attrs) (hsat : Satisfies al.attrs p)
    (ct : Ciphertext G1 G2 GT) (plaintext : Bytes) :
    ∃ mpk c2 dk, (c1.ks.getPublicKey mpkID).1 = some mpk ∧
      generateKey env .cp c1 (.attrs al) keyID mpkID mskID kr = .ok (none, c2) ∧
      (c2.ks.getSecretKey keyID).1 = some dk ∧ (c2.ks.getPublicKey mpkID).1 = some mpk ∧ c2.ready = true ∧
      ∀ (cE cD : Ctx G1 G2 GT) (idE idD : Bytes), cE.ready = true → cD.ready = true →
        (cE.ks.getPublicKey idE).1 = some mpk → (cD.ks.getSecretKey idD).1 = some dk →
        ∃ ct' cE' cD', encrypt env .cp cE idE (.policy p) plaintext er ct = .ok (.ok ct', cE') ∧
          decrypt q env .cp cD idD ct' = .ok (none, plaintext, cD') := by
  obtain ⟨hr, mpk, msk, h1, h2, hpm⟩ := generateParams_ok hgen
  have hlen : symKeyBytes = 16 ∨ symKeyBytes = 32 := .inr rfl
  obtain ⟨d, -, hd, -, -⟩ := cp_bodies hb hnd hpm hr hr hr hp al kr.x er ct hlen hrows hattrs hsat
  obtain ⟨c2, dk, hk, hr2, hs, rfl, hpk⟩ := cp_generateKey (keyID := keyID) h1 h2 hd
  refine ⟨mpk, c2, dk, h1, hk, hs, hpk, hr2.trans hr, ?_⟩
  intro cE cD idE idD hrE hrD hE hD
  obtain ⟨d', ct', hd', henc, hdec⟩ := cp_bodies hb hnd hpm hr hrE hrD hp al kr.x er ct hlen hrows hattrs hsat
  rw [hd] at hd'
  simp only [Res.ok.injEq] at hd'
  subst hd'
  obtain ⟨x, hx1, hx2, hx3⟩ := mask_xor hmd (sharedKey env pr er.x symKeyBytes) plaintext
  refine ⟨⟨ct'.version, ct'.alg, ct'.uid, SMap.insert b!"_ED" (.bytes x) ct'.comps⟩,
    { cE with ks := (cE.ks.getPublicKey idE).2 }, { cD with ks := (cD.ks.getSecretKey idD).2 }, ?_, ?_⟩
  · unfold encrypt
    rw [(encryptKEM_ok hE).1 p henc]
    simp only [Res.ok_bind]
    unfold sharedKey at hx1
    rw [hx1]
    rfl
  · unfold decrypt
    rw [decryptKEM_ok hD]
    have hsame : SameKem (SMap.insert b!"_ED" (.bytes x) ct'.comps) ct'.comps := by
      intro n hn
      rw [SMap.find_insert, if_neg hn]
    have hed : SMap.find b!"_ED" (SMap.insert b!"_ED" (.bytes x) ct'.comps) = some (.bytes x) := by
      rw [SMap.find_insert, if_pos rfl]
    unfold sharedKey at hx3
    simp only [hdec _ hsame, caught_ok, Res.ok_bind, getBytes_of hed, notNull_some, hx3]

/-- Key-policy: decrypting an encrypted message gives the message, of any length. -/
theorem C46_kp_round_trip (env : Env G1 G2 GT) (hb : Bilinear q env.e) (hnd : env.ndebug = false)
    (hmd : ∀ x, (env.md x).length = 32)
    (c c1 : Ctx G1 G2 GT) (mpkID mskID keyID : Bytes) (pr : ParamRand q G1 G2) (kr er : Rand q)
    (hgen : generateParams env .kp c mpkID mskID pr = .ok (none, c1))
    (s : Bytes) (p : Policy) (hp : createPolicyTree env.mktime s = .ok (some p)) (al : AttrList)
    (hrows : (rowLabels env.md p).Nodup) (hattrs : NoClash env.md al.attrs) (hsat : Satisfies al.attrs p)
    (ct : Ciphertext G1 G2 GT) (plaintext : Bytes) :
    ∃ mpk c2 dk, (c1.ks.getPublicKey mpkID).1 = some mpk ∧
      generateKey env .kp c1 (.policy p) keyID mpkID mskID kr = .ok (none, c2) ∧
      (c2.ks.getSecretKey keyID).1 = some dk ∧ (c2.ks.getPublicKey mpkID).1 = some mpk ∧ c2.ready = true ∧
      ∀ (cE cD : Ctx G1 G2 GT) (idE idD : Bytes), cE.ready = true → cD.ready = true →
        (cE.ks.getPublicKey idE).1 = some mpk → (cD.ks.getSecretKey idD).1 = some dk →
        ∃ ct' cE' cD', encrypt env .kp cE idE (.attrs al) plaintext er ct = .ok (.ok ct', cE') ∧
          decrypt q env .kp cD idD ct' = .ok (none, plaintext, cD') := by
  obtain ⟨hr, mpk, msk, h1, h2, hpm⟩ := generateParams_ok hgen
  have hlen : symKeyBytes = 16 ∨ symKeyBytes = 32 := .inr rfl
  obtain ⟨d, -, hd, -, -⟩ := kp_bodies hb hnd hpm hr hr hr hp al kr er ct hlen hrows hattrs hsat
  obtain ⟨c2, dk, hk, hr2, hs, rfl, hpk⟩ := kp_generateKey (keyID := keyID) h1 h2 hd
  refine ⟨mpk, c2, dk, h1, hk, hs, hpk, hr2.trans hr, ?_⟩
  intro cE cD idE idD hrE hrD hE hD
  obtain ⟨d', ct', hd', henc, hdec⟩ := kp_bodies hb hnd hpm hr hrE hrD hp al kr er ct hlen hrows hattrs hsat
  rw [hd] at hd'
  simp only [Res.ok.injEq] at hd'
  subst hd'
  obtain ⟨x, hx1, hx2, hx3⟩ := mask_xor hmd (sharedKey env pr er.x symKeyBytes) plaintext
  refine ⟨⟨ct'.version, ct'.alg, ct'.uid, SMap.insert b!"_ED" (.bytes x) ct'.comps⟩,
    { cE with ks := (cE.ks.getPublicKey idE).2 }, { cD with ks := (cD.ks.getSecretKey idD).2 }, ?_, ?_⟩
  · unfold encrypt
    rw [(encryptKEM_ok hE).2 al henc]
    simp only [Res.ok_bind]
    unfold sharedKey at hx1
    rw [hx1]
    rfl
  · unfold decrypt
    rw [decryptKEM_ok hD]
    have hsame : SameKem (SMap.insert b!"_ED" (.bytes x) ct'.comps) ct'.comps := by
      intro n hn
      rw [SMap.find_insert, if_neg hn]
    have hed : SMap.find b!"_ED" (SMap.insert b!"_ED" (.bytes x) ct'.comps) = some (.bytes x) := by
      rw [SMap.find_insert, if_pos rfl]
    unfold sharedKey at hx3
    simp only [hdec _ hsame, caught_ok, Res.ok_bind, getBytes_of hed, notNull_some, hx3]

/-! ## C47 no plaintext without satisfying attributes -/

/-- Whatever the error, the output is empty. -/
theorem C47_error_means_empty (env : Env G1 G2 GT) (sch : Scheme) (c c' : Ctx G1 G2 GT) (keyID : Bytes)
    (ct : Ciphertext G1 G2 GT) (er : Err) (out : Bytes)
    (h : decrypt q env sch c keyID ct = .ok (some er, out, c')) : out = [] := by
  unfold decrypt at h
  obtain ⟨⟨res, c1⟩, -, h⟩ := (Res.bind_eq_ok _ _ _).mp h
  simp only at h
  obtain ⟨o, -, h⟩ := (Res.bind_eq_ok _ _ _).mp h
  cases o with
  | error e => simp only [Res.ok.injEq, Prod.mk.injEq] at h; exact h.2.1.symm
  | ok p => simp at h

theorem decrypt_fails {env : Env G1 G2 GT} {sch : Scheme} {c : Ctx G1 G2 GT} {keyID : Bytes}
    {ct : Ciphertext G1 G2 GT} {dk : Key G1 G2 GT} (hD : (c.ks.getSecretKey keyID).1 = some dk)
    (h : (match sch with
      | .cp => cpDecBody q env c dk.comps ct.comps symKeyBytes
      | .kp => kpDecBody q env c dk.comps ct.comps symKeyBytes) = .throw .decryptionFailed) :
    decrypt q env sch c keyID ct = .ok (some .decryptionFailed, [], { c with ks := (c.ks.getSecretKey keyID).2 }) := by
  unfold decrypt
  rw [decryptKEM_ok hD, h]
  rfl

theorem unsat_coeffs {env : Env G1 G2 GT} (hnd : env.ndebug = false) {s : Bytes} {p : Policy}
    (hp : createPolicyTree env.mktime s = .ok (some p)) (A : List Bytes) (hsat : ¬ Satisfies A p) :
    ∃ o p', recoverCoefficients (F := ZMod q) env.sort env.ndebug {} (some p) A = .ok (false, o, p') := by
  obtain ⟨-, t0, hroot, hao, -, hfr, -⟩ := accepted_shape hp
  have hs : sat A t0 = false := by
    cases h : sat A t0 with
    | false => rfl
    | true => exact absurd ⟨t0, hroot, h⟩ hsat
  obtain ⟨t', -, h⟩ := recover_unsat (F := ZMod q) env.sort {} p t0 A hroot hao hfr hs
  rw [hnd]
  exact ⟨_, _, h⟩

/-- Ciphertext-policy: whatever else is in key and ciphertext, if the attribute list in the key does not satisfy
the policy in the ciphertext, decryption fails with an empty output. -/
theorem C47_cp_unsatisfied (env : Env G1 G2 GT) (hnd : env.ndebug = false) (c : Ctx G1 G2 GT) (keyID : Bytes)
    (dk : Key G1 G2 GT) (ct : Ciphertext G1 G2 GT) (s : Bytes) (p : Policy) (al : AttrList)
    (hD : (c.ks.getSecretKey keyID).1 = some dk)
    (hkey : SMap.find b!"input" dk.comps = some (.attrs al))
    (hct : SMap.find b!"policy" ct.comps = some (.bytes s))
    (hp : createPolicyTree env.mktime s = .ok (some p)) (hsat : ¬ Satisfies al.attrs p) :
    ∃ c', decrypt q env .cp c keyID ct = .ok (some .decryptionFailed, [], c') := by
  refine ⟨_, decrypt_fails hD ?_⟩
  obtain ⟨o, p', h⟩ := unsat_coeffs (q := q) hnd hp al.attrs hsat
  simp only [cpDecBody, Container.getComponent, hkey, getBytes_of hct, Res.ok_bind, notNull_some, hp, castAttrs, h, if_true]

/-- Key-policy: the same with policy and attribute list exchanged. -/
theorem C47_kp_unsatisfied (env : Env G1 G2 GT) (hnd : env.ndebug = false) (c : Ctx G1 G2 GT) (keyID : Bytes)
    (dk : Key G1 G2 GT) (ct : Ciphertext G1 G2 GT) (s : Bytes) (p : Policy) (al : AttrList)
    (hD : (c.ks.getSecretKey keyID).1 = some dk)
    (hkey : SMap.find b!"input" dk.comps = some (.bytes s))
    (hct : SMap.find b!"attributes" ct.comps = some (.attrs al))
    (hp : createPolicyTree env.mktime s = .ok (some p)) (hsat : ¬ Satisfies al.attrs p) :
    ∃ c', decrypt q env .kp c keyID ct = .ok (some .decryptionFailed, [], c') := by
  refine ⟨_, decrypt_fails hD ?_⟩
  obtain ⟨o, p', h⟩ := unsat_coeffs (q := q) hnd hp al.attrs hsat
  simp only [kpDecBody, Container.getComponent, hct, getBytes_of hkey, Res.ok_bind, notNull_some, hp, castAttrs, h, if_true]

theorem share_any (p : Policy) (t : TNode) (x : ZMod q) (tape : Nat → ZMod q) (hroot : p.root = some t) (hao : AndOr t)
    (hidx : ∀ l ∈ leaves t, l.idx.isSome) : ∃ sh n, shareSecret false {} (some p) x tape = .ok (sh, n) := by
  have hi : IdxOkT (effCount ({} : LSSS (ZMod q)) p) t := fun l hl _ => hidx l hl
  exact ⟨_, _, shareSecret_ok {} p t x tape hroot hao.pos hi⟩

/-- Ciphertext-policy, from parameter generation to decryption: key generation and encryption succeed whether or not
the list satisfies the policy, and if it does not, decryption fails with an empty output. No assumption on labels. -/
theorem C47_cp_end_to_end (env : Env G1 G2 GT) (hnd : env.ndebug = false) (hmd : ∀ x, (env.md x).length = 32)
    (c c1 : Ctx G1 G2 GT) (mpkID mskID keyID : Bytes) (pr : ParamRand q G1 G2) (kr er : Rand q)
    (hgen : generateParams env .cp c mpkID mskID pr = .ok (none, c1))
    (s : Bytes) (p : Policy) (hp : createPolicyTree env.mktime s = .ok (some p)) (al : AttrList)
    (hsat : ¬ Satisfies al.attrs p) (ct : Ciphertext G1 G2 GT) (plaintext : Bytes) :
    ∃ mpk c2 dk, (c1.ks.getPublicKey mpkID).1 = some mpk ∧
      generateKey env .cp c1 (.attrs al) keyID mpkID mskID kr = .ok (none, c2) ∧
      (c2.ks.getSecretKey keyID).1 = some dk ∧ (c2.ks.getPublicKey mpkID).1 = some mpk ∧ c2.ready = true ∧
      ∀ (cE cD : Ctx G1 G2 GT) (idE idD : Bytes), cE.ready = true →
        (cE.ks.getPublicKey idE).1 = some mpk → (cD.ks.getSecretKey idD).1 = some dk →
        ∃ ct' cE' cD', encrypt env .cp cE idE (.policy p) plaintext er ct = .ok (.ok ct', cE') ∧
          decrypt q env .cp cD idD ct' = .ok (some .decryptionFailed, [], cD') := by
  obtain ⟨hr, mpk, msk, h1, h2, hpm⟩ := generateParams_ok hgen
  obtain ⟨P, M, hPM, f1, f2, f3, f4, f5, f6, f7⟩ := cpParams_ok env pr
  have hpm' : cpParams env pr = .ok (mpk.comps, msk.comps) := hpm
  rw [hpm'] at hPM
  simp only [Res.ok.injEq, Prod.mk.injEq] at hPM
  obtain ⟨rfl, rfl⟩ := hPM
  obtain ⟨hcomp, t0, hroot, hao, hbin, hfr, hidx⟩ := accepted_shape hp
  obtain ⟨sh, n, hsh⟩ := share_any (q := q) p t0 er.x er.tape hroot hao hidx
  have hkey : cpKeyBody env c1 mpk msk al kr.x = .ok (cpDk env pr al kr.x) := by
    simp only [cpKeyBody, getBytes_of f5, getZP_of f6, getG2_of f2, getG2_of f7, usePairing_ok hr, Res.ok_bind,
      deref_some, setComponent_attrs, setComponent_g2, cpKeyLoop_eq, ZMod.natCast_zmod_val, cpDk]
  obtain ⟨c2, dk, hk, hr2, hs, hdk, hpk⟩ := cp_generateKey (keyID := keyID) h1 h2 hkey
  refine ⟨mpk, c2, dk, h1, hk, hs, hpk, hr2.trans hr, ?_⟩
  intro cE cD idE idD hrE hE hD
  have hlen : symKeyBytes = 16 ∨ symKeyBytes = 32 := .inr rfl
  have henc : cpEncBody env cE mpk p symKeyBytes er ct =
      .ok (sharedKey env pr er.x symKeyBytes,
        ⟨ct.version, cE.alg, ct.uid, SMap.addRows (SMap.insert b!"Cprime" (.g1 (er.x • pr.g1))
          (SMap.insert b!"policy" (.bytes s) ct.comps)) (cpRows env pr.k pr.g2 (pr.a • pr.g1) er.r 0 sh.results)⟩) := by
    simp only [cpEncBody, getBytes_of f5, getGT_of f4, getG1_of f1, usePairing_ok hrE, Res.ok_bind,
      deref_some, setComponent_bytes, setComponent_g1, hnd, hsh, cpEncLoop_eq env mpk pr.k pr.g2 (pr.a • pr.g1) er.r f2 f3,
      symKeyOf_ok env _ hlen, hcomp, sharedKey]
  obtain ⟨x, hx1, hx2, hx3⟩ := mask_xor hmd (sharedKey env pr er.x symKeyBytes) plaintext
  have hE' : encrypt env .cp cE idE (.policy p) plaintext er ct = .ok (.ok ⟨ct.version, cE.alg, ct.uid,
      SMap.insert b!"_ED" (.bytes x) (SMap.addRows (SMap.insert b!"Cprime" (.g1 (er.x • pr.g1))
          (SMap.insert b!"policy" (.bytes s) ct.comps)) (cpRows env pr.k pr.g2 (pr.a • pr.g1) er.r 0 sh.results))⟩,
      { cE with ks := (cE.ks.getPublicKey idE).2 }) := by
    unfold encrypt
    rw [(encryptKEM_ok hE).1 p henc]
    simp only [Res.ok_bind, hx1]
    rfl
  obtain ⟨cD', hd⟩ := C47_cp_unsatisfied (q := q) env hnd cD idD dk ⟨ct.version, cE.alg, ct.uid,
      SMap.insert b!"_ED" (.bytes x) (SMap.addRows (SMap.insert b!"Cprime" (.g1 (er.x • pr.g1))
          (SMap.insert b!"policy" (.bytes s) ct.comps)) (cpRows env pr.k pr.g2 (pr.a • pr.g1) er.r 0 sh.results))⟩
    s p al hD (by
      rw [hdk]; unfold cpDk
      rw [find_attrRow_other _ (by intro u; simp [elementLabel])]; rfl) (by
      rw [SMap.find_insert, if_neg (by decide), find_cpRows_other _ (by intro u; simp [elementLabel]), SMap.find_insert,
        if_neg (by decide), SMap.find_insert, if_pos rfl]) hp hsat
  exact ⟨_, _, cD', hE', hd⟩

/-- Key-policy, from parameter generation to decryption. -/
theorem C47_kp_end_to_end (env : Env G1 G2 GT) (hnd : env.ndebug = false) (hmd : ∀ x, (env.md x).length = 32)
    (c c1 : Ctx G1 G2 GT) (mpkID mskID keyID : Bytes) (pr : ParamRand q G1 G2) (kr er : Rand q)
    (hgen : generateParams env .kp c mpkID mskID pr = .ok (none, c1))
    (s : Bytes) (p : Policy) (hp : createPolicyTree env.mktime s = .ok (some p)) (al : AttrList)
    (hsat : ¬ Satisfies al.attrs p) (ct : Ciphertext G1 G2 GT) (plaintext : Bytes) :
    ∃ mpk c2 dk, (c1.ks.getPublicKey mpkID).1 = some mpk ∧
      generateKey env .kp c1 (.policy p) keyID mpkID mskID kr = .ok (none, c2) ∧
      (c2.ks.getSecretKey keyID).1 = some dk ∧ (c2.ks.getPublicKey mpkID).1 = some mpk ∧ c2.ready = true ∧
      ∀ (cE cD : Ctx G1 G2 GT) (idE idD : Bytes), cE.ready = true →
        (cE.ks.getPublicKey idE).1 = some mpk → (cD.ks.getSecretKey idD).1 = some dk →
        ∃ ct' cE' cD', encrypt env .kp cE idE (.attrs al) plaintext er ct = .ok (.ok ct', cE') ∧
          decrypt q env .kp cD idD ct' = .ok (some .decryptionFailed, [], cD') := by
  obtain ⟨hr, mpk, msk, h1, h2, hpm⟩ := generateParams_ok hgen
  obtain ⟨P, M, hPM, f1, f2, f3, f4, f5⟩ := kpParams_ok env pr
  have hpm' : kpParams env pr = .ok (mpk.comps, msk.comps) := hpm
  rw [hpm'] at hPM
  simp only [Res.ok.injEq, Prod.mk.injEq] at hPM
  obtain ⟨rfl, rfl⟩ := hPM
  obtain ⟨hcomp, t0, hroot, hao, hbin, hfr, hidx⟩ := accepted_shape hp
  obtain ⟨sh, n, hsh⟩ := share_any (q := q) p t0 pr.alpha kr.tape hroot hao hidx
  have hkey : kpKeyBody env c1 mpk msk p kr.tape kr.r = .ok (kpDk env pr s kr.r sh.results) := by
    simp only [kpKeyBody, getBytes_of f4, getZP_of f5, Res.ok_bind,
      deref_some, setComponent_bytes, ZMod.natCast_zmod_val, hnd, hsh, hcomp]
    split
    · rename_i h; rw [h]; rfl
    · simp only [usePairing_ok hr, Res.ok_bind, kpKeyLoop_eq env mpk pr.k pr.g1 pr.g2 kr.r f1 f2]
      rfl
  obtain ⟨c2, dk, hk, hr2, hs, hdk, hpk⟩ := kp_generateKey (keyID := keyID) h1 h2 hkey
  refine ⟨mpk, c2, dk, h1, hk, hs, hpk, hr2.trans hr, ?_⟩
  intro cE cD idE idD hrE hE hD
  have hlen : symKeyBytes = 16 ∨ symKeyBytes = 32 := .inr rfl
  have henc : kpEncBody env cE mpk al symKeyBytes er ct =
      .ok (sharedKey env pr er.x symKeyBytes, ⟨ct.version, cE.alg, ct.uid, kpCt env pr al er.x ct.comps⟩) := by
    simp only [kpEncBody, getBytes_of f4, getGT_of f3, getG2_of f2, usePairing_ok hrE, Res.ok_bind,
      deref_some, setComponent_attrs, setComponent_g2, kpEncLoop_eq, symKeyOf_ok env _ hlen, kpCt, sharedKey]
  obtain ⟨x, hx1, hx2, hx3⟩ := mask_xor hmd (sharedKey env pr er.x symKeyBytes) plaintext
  have hE' : encrypt env .kp cE idE (.attrs al) plaintext er ct = .ok (.ok ⟨ct.version, cE.alg, ct.uid,
      SMap.insert b!"_ED" (.bytes x) (kpCt env pr al er.x ct.comps)⟩,
      { cE with ks := (cE.ks.getPublicKey idE).2 }) := by
    unfold encrypt
    rw [(encryptKEM_ok hE).2 al henc]
    simp only [Res.ok_bind, hx1]
    rfl
  obtain ⟨cD', hd⟩ := C47_kp_unsatisfied (q := q) env hnd cD idD dk ⟨ct.version, cE.alg, ct.uid,
      SMap.insert b!"_ED" (.bytes x) (kpCt env pr al er.x ct.comps)⟩
    s p al hD (by
      rw [hdk]; unfold kpDk
      rw [find_kpRows_other _ (by intro u; simp [elementLabel])]; rfl) (by
      rw [SMap.find_insert, if_neg (by decide)]
      unfold kpCt
      rw [SMap.find_insert, if_pos rfl]) hp hsat
  exact ⟨_, _, cD', hE', hd⟩

/-! ## From texts -/

/-- The names of the rows of a policy. -/
def rowNames (p : Policy) : List Bytes :=
  match p.root with
  | some t => (leaves t).map (uniqueLabel (if p.hasDup then p.dupCount else []))
  | none => []

theorem rowLabels_nodup {md : Bytes → Bytes} {p : Policy} (h : (rowNames p).Nodup) (hc : NoClash md (rowNames p)) :
    (rowLabels md p).Nodup := by
  have e : rowLabels md p = (rowNames p).map (hashKey md) := by
    unfold rowLabels rowNames
    cases p.root <;> simp
  rw [e]
  exact List.Nodup.map_on (fun x hx y hy hxy => hc x hx y hy hxy) h

theorem texts {mk : Mktime} {s l : Bytes} {e : Expr} {a : AExpr} (hs : PolicyText mk s e) (hl : ListText mk l a)
    (hpct : e.Unnumbered) : ∃ p al, createPolicyTree mk s = .ok (some p) ∧ createAttributeList mk l = .ok (some al) ∧
      (rowNames p).Nodup ∧ (Satisfies al.attrs p ↔ e.trueFor mk a) := by
  obtain ⟨p, t, d', h1, h2, h3, -, -, -, -, hn, htx, -, -, htk⟩ := parsed hs
  obtain ⟨al, g1, g2, g3⟩ := listed hl
  refine ⟨p, al, h1, g1, ?_, ?_⟩
  · simp only [rowNames, h2]
    exact uniqueLabel_nodup (hpct.labels htx) hn
  · have key := text_sat hs.valid htk hs.dates hs.names hl.valid g3 hl.items h3
    rw [← g2] at key
    constructor
    · rintro ⟨t', ht', hsat⟩
      rw [h2] at ht'
      simp only [Option.some.injEq] at ht'
      subst ht'
      exact key.mp hsat
    · intro h
      exact ⟨t, h2, key.mpr h⟩

/-- The whole story, ciphertext-policy, from texts: for a policy text that is the formula `e` and a list text that is
`a`, a key for the list decrypts a message encrypted under the policy to that message if `e` is true for `a`, and
otherwise decryption fails with an empty output. -/
theorem C46_cp_texts (env : Env G1 G2 GT) (hb : Bilinear q env.e) (hnd : env.ndebug = false)
    (hmd : ∀ x, (env.md x).length = 32)
    (c c1 : Ctx G1 G2 GT) (mpkID mskID keyID : Bytes) (pr : ParamRand q G1 G2) (kr er : Rand q)
    (hgen : generateParams env .cp c mpkID mskID pr = .ok (none, c1))
    (s l : Bytes) (e : Expr) (a : AExpr) (hs : PolicyText env.mktime s e) (hl : ListText env.mktime l a)
    (hpct : e.Unnumbered) (ct : Ciphertext G1 G2 GT) (plaintext : Bytes) :
    ∃ p al, createPolicyTree env.mktime s = .ok (some p) ∧ createAttributeList env.mktime l = .ok (some al) ∧
      (NoClash env.md (rowNames p) → NoClash env.md al.attrs →
      ∃ mpk c2 dk, (c1.ks.getPublicKey mpkID).1 = some mpk ∧
        generateKey env .cp c1 (.attrs al) keyID mpkID mskID kr = .ok (none, c2) ∧
        (c2.ks.getSecretKey keyID).1 = some dk ∧
        ∀ (cE cD : Ctx G1 G2 GT) (idE idD : Bytes), cE.ready = true → cD.ready = true →
          (cE.ks.getPublicKey idE).1 = some mpk → (cD.ks.getSecretKey idD).1 = some dk →
          ∃ ct' cE' cD', encrypt env .cp cE idE (.policy p) plaintext er ct = .ok (.ok ct', cE') ∧
            (e.trueFor env.mktime a → decrypt q env .cp cD idD ct' = .ok (none, plaintext, cD')) ∧
            (¬ e.trueFor env.mktime a → decrypt q env .cp cD idD ct' = .ok (some .decryptionFailed, [], cD'))) := by
  obtain ⟨p, al, h1, h2, h3, h4⟩ := texts hs hl hpct
  refine ⟨p, al, h1, h2, ?_⟩
  intro hr ha
  by_cases ht : e.trueFor env.mktime a
  · obtain ⟨mpk, c2, dk, a1, a2, a3, a4, a5, a6⟩ := C46_cp_round_trip env hb hnd hmd c c1 mpkID mskID keyID pr kr er
      hgen s p h1 al (rowLabels_nodup h3 hr) ha (h4.mpr ht) ct plaintext
    refine ⟨mpk, c2, dk, a1, a2, a3, ?_⟩
    intro cE cD idE idD r1 r2 r3 r4
    obtain ⟨ct', cE', cD', b1, b2⟩ := a6 cE cD idE idD r1 r2 r3 r4
    exact ⟨ct', cE', cD', b1, fun _ => b2, fun h => absurd ht h⟩
  · obtain ⟨mpk, c2, dk, a1, a2, a3, a4, a5, a6⟩ := C47_cp_end_to_end env hnd hmd c c1 mpkID mskID keyID pr kr er
      hgen s p h1 al (fun h => ht (h4.mp h)) ct plaintext
    refine ⟨mpk, c2, dk, a1, a2, a3, ?_⟩
    intro cE cD idE idD r1 r2 r3 r4
    obtain ⟨ct', cE', cD', b1, b2⟩ := a6 cE cD idE idD r1 r3 r4
    exact ⟨ct', cE', cD', b1, fun h => absurd h ht, fun _ => b2⟩

/-- The whole story, key-policy. -/
theorem C46_kp_texts (env : Env G1 G2 GT) (hb : Bilinear q env.e) (hnd : env.ndebug = false)
    (hmd : ∀ x, (env.md x).length = 32)
    (c c1 : Ctx G1 G2 GT) (mpkID mskID keyID : Bytes) (pr : ParamRand q G1 G2) (kr er : Rand q)
    (hgen : generateParams env .kp c mpkID mskID pr = .ok (none, c1))
    (s l : Bytes) (e : Expr) (a : AExpr) (hs : PolicyText env.mktime s e) (hl : ListText env.mktime l a)
    (hpct : e.Unnumbered) (ct : Ciphertext G1 G2 GT) (plaintext : Bytes) :
    ∃ p al, createPolicyTree env.mktime s = .ok (some p) ∧ createAttributeList env.mktime l = .ok (some al) ∧
      (NoClash env.md (rowNames p) → NoClash env.md al.attrs →
      ∃ mpk c2 dk, (c1.ks.getPublicKey mpkID).1 = some mpk ∧
        generateKey env .kp c1 (.policy p) keyID mpkID mskID kr = .ok (none, c2) ∧
        (c2.ks.getSecretKey keyID).1 = some dk ∧
        ∀ (cE cD : Ctx G1 G2 GT) (idE idD : Bytes), cE.ready = true → cD.ready = true →
          (cE.ks.getPublicKey idE).1 = some mpk → (cD.ks.getSecretKey idD).1 = some dk →
          ∃ ct' cE' cD', encrypt env .kp cE idE (.attrs al) plaintext er ct = .ok (.ok ct', cE') ∧
            (e.trueFor env.mktime a → decrypt q env .kp cD idD ct' = .ok (none, plaintext, cD')) ∧
            (¬ e.trueFor env.mktime a → decrypt q env .kp cD idD ct' = .ok (some .decryptionFailed, [], cD'))) := by
  obtain ⟨p, al, h1, h2, h3, h4⟩ := texts hs hl hpct
  refine ⟨p, al, h1, h2, ?_⟩
  intro hr ha
  by_cases ht : e.trueFor env.mktime a
  · obtain ⟨mpk, c2, dk, a1, a2, a3, a4, a5, a6⟩ := C46_kp_round_trip env hb hnd hmd c c1 mpkID mskID keyID pr kr er
      hgen s p h1 al (rowLabels_nodup h3 hr) ha (h4.mpr ht) ct plaintext
    refine ⟨mpk, c2, dk, a1, a2, a3, ?_⟩
    intro cE cD idE idD r1 r2 r3 r4
    obtain ⟨ct', cE', cD', b1, b2⟩ := a6 cE cD idE idD r1 r2 r3 r4
    exact ⟨ct', cE', cD', b1, fun _ => b2, fun h => absurd ht h⟩
  · obtain ⟨mpk, c2, dk, a1, a2, a3, a4, a5, a6⟩ := C47_kp_end_to_end env hnd hmd c c1 mpkID mskID keyID pr kr er
      hgen s p h1 al (fun h => ht (h4.mp h)) ct plaintext
    refine ⟨mpk, c2, dk, a1, a2, a3, ?_⟩
    intro cE cD idE idD r1 r2 r3 r4
    obtain ⟨ct', cE', cD', b1, b2⟩ := a6 cE cD idE idD r1 r3 r4
    exact ⟨ct', cE', cD', b1, fun h => absurd h ht, fun _ => b2⟩

/-! ### A concrete case

The field with five elements in all three groups, multiplication as pairing, policy `a and (b or c)`, lists `|a|c` and
`|b|c`. -/

namespace Toy

instance : Fact (Nat.Prime 5) := ⟨by decide⟩

def e3 : Expr := .and (.leaf b!"a") (.paren (.or (.leaf b!"b") (.leaf b!"c")))
def a3 : AExpr := .pre (.cat (.item (.leaf b!"a")) (.item (.leaf b!"c")))
def a4 : AExpr := .pre (.cat (.item (.leaf b!"b")) (.item (.leaf b!"c")))

/-- Everything that the theorems leave open, chosen. -/
def env (mk : Mktime) (S : StdSort) : Env (ZMod 5) (ZMod 5) (ZMod 5) :=
  ⟨mk, S, false, fun x y => x * y, fun x => (x ++ List.replicate 32 0).take 32, fun b => (b.length : ZMod 5),
    fun x => [UInt8.ofNat x.val], fun n b => (b ++ List.replicate n 0).take n⟩

variable (mk : Mktime) (S : StdSort)

theorem bilinear : Bilinear 5 (env mk S).e :=
  ⟨fun x y z => add_mul x y z, fun x y z => mul_add x y z, fun a x y => mul_assoc a x y, fun a x y => mul_left_comm x a y⟩

theorem digest (x : Bytes) : ((env mk S).md x).length = 32 := by simp [env]

theorem text3 : PolicyText mk b!"a and (b or c)" e3 where
  toks := by decide +kernel
  canon := by decide
  valid := by decide
  dates := by intro c hc; simp [e3, Expr.conds] at hc
  names := by
    refine ⟨?_, by simp [e3, Expr.conds]⟩
    intro s hs
    simp [e3, Expr.plain] at hs
    rcases hs with rfl | rfl | rfl <;> exact ⟨TextEx.nameOk (by decide), by decide⟩

theorem list3 : ListText mk b!"|a|c" a3 where
  toks := by decide +kernel
  canon := by decide
  valid := by decide
  items := by
    refine ⟨by simp [a3, AExpr.items, Item.value], ?_⟩
    intro s n h
    simp [a3, AExpr.items] at h

theorem list4 : ListText mk b!"|b|c" a4 where
  toks := by decide +kernel
  canon := by decide
  valid := by decide
  items := by
    refine ⟨by simp [a4, AExpr.items, Item.value], ?_⟩
    intro s n h
    simp [a4, AExpr.items] at h

theorem true3 : e3.trueFor mk a3 := by simp [Expr.trueFor, e3, Expr.holds, a3, AExpr.items]
theorem false4 : ¬ e3.trueFor mk a4 := by simp [Expr.trueFor, e3, Expr.holds, a4, AExpr.items]
theorem pct3 : e3.Unnumbered := by
  refine Expr.NoPercent.unnumbered ⟨?_, by simp [e3, Expr.conds]⟩
  decide

/-- Names of at most 16 bytes never clash. -/
theorem short_noClash {md : Bytes → Bytes} {l : List Bytes} (h : ∀ x ∈ l, x.length ≤ 16) : NoClash md l := by
  intro x hx y hy he
  unfold hashKey at he
  rwa [if_neg (by have := h x hx; omega), if_neg (by have := h y hy; omega)] at he

/-- Parameter generation in a new context. -/
theorem gen (sch : Scheme) (pr : ParamRand 5 (ZMod 5) (ZMod 5)) :
    ∃ c1, generateParams (env mk S) sch (⟨101, false, {}⟩ : Ctx (ZMod 5) (ZMod 5) (ZMod 5)) b!"mpk" b!"msk" pr =
      .ok (none, c1) := by
  cases sch <;> exact ⟨_, rfl⟩

/-- Some `mktime`. -/
def mk0 : Mktime := fun tm => (0, tm)

/-- The rows of the policy are named after its leaves. -/
theorem names3 {p : Policy} (h : createPolicyTree mk0 b!"a and (b or c)" = .ok (some p)) :
    rowNames p = [b!"a", b!"b", b!"c"] := by
  obtain ⟨p', t, d', h1, -, h3, -⟩ := parsed (text3 mk0)
  have h4 := policy_of_eval (text3 mk0).canon (text3 mk0).valid (text3 mk0).toks h3
  rw [h] at h4
  simp only [Res.ok.injEq, Option.some.injEq] at h4
  have h5 : (e3.eval mk0 { input := b!"a and (b or c)" } >>= fun r => Res.ok (rowNames (builtPolicy r.2 r.1))) =
      .ok [b!"a", b!"b", b!"c"] := by
    decide +kernel
  rw [h3] at h5
  simp only [Res.ok_bind, Res.ok.injEq] at h5
  rw [h4, h5]

theorem attrs3 {al : AttrList} (h : createAttributeList mk b!"|a|c" = .ok (some al)) : al.attrs = [b!"a", b!"c"] := by
  obtain ⟨al', h1, h2, -⟩ := listed (list3 mk)
  rw [h] at h1
  simp only [Res.ok.injEq, Option.some.injEq] at h1
  rw [h1, h2]
  rfl

end Toy

/-- The hypotheses of C44, C45, C46 and C46_cp_texts are met by the policy `a and (b or c)` and the list `|a|c`, those
of C47 by the list `|b|c`. -/
example (S : StdSort) (sch : Scheme) (pr : ParamRand 5 (ZMod 5) (ZMod 5)) :
    Bilinear 5 (Toy.env Toy.mk0 S).e ∧ (Toy.env Toy.mk0 S).ndebug = false ∧ (∀ x, ((Toy.env Toy.mk0 S).md x).length = 32) ∧
    (∃ (c c1 : Ctx (ZMod 5) (ZMod 5) (ZMod 5)), generateParams (Toy.env Toy.mk0 S) sch c b!"mpk" b!"msk" pr = .ok (none, c1)) ∧
    ∃ p al al', createPolicyTree Toy.mk0 b!"a and (b or c)" = .ok (some p) ∧ createAttributeList Toy.mk0 b!"|a|c" = .ok (some al) ∧
      createAttributeList Toy.mk0 b!"|b|c" = .ok (some al') ∧
      (rowLabels (Toy.env Toy.mk0 S).md p).Nodup ∧ NoClash (Toy.env Toy.mk0 S).md al.attrs ∧ NoClash (Toy.env Toy.mk0 S).md (rowNames p) ∧
      Satisfies al.attrs p ∧ ¬ Satisfies al'.attrs p := by
  obtain ⟨c1, hg⟩ := Toy.gen Toy.mk0 S sch pr
  obtain ⟨p, al, h1, h2, h3, h4⟩ := texts (Toy.text3 Toy.mk0) (Toy.list3 Toy.mk0) Toy.pct3
  obtain ⟨p', al', h1', h2', -, h4'⟩ := texts (Toy.text3 Toy.mk0) (Toy.list4 Toy.mk0) Toy.pct3
  rw [h1] at h1'
  simp only [Res.ok.injEq, Option.some.injEq] at h1'
  subst h1'
  have hn : NoClash (Toy.env Toy.mk0 S).md (rowNames p) := by
    rw [Toy.names3 h1]; exact Toy.short_noClash (by decide)
  refine ⟨Toy.bilinear Toy.mk0 S, rfl, Toy.digest Toy.mk0 S, ⟨_, c1, hg⟩, p, al, al', h1, h2, h2', rowLabels_nodup h3 hn, ?_, hn,
    h4.mpr (Toy.true3 Toy.mk0), fun h => Toy.false4 Toy.mk0 (h4'.mp h)⟩
  rw [Toy.attrs3 Toy.mk0 h2]
  exact Toy.short_noClash (by decide)

/-! ## C48 the mask -/

/-- The code violates C48: the block counter has 8 bits, so the mask of every message longer than 8192 bytes repeats,
for every hash function and key. -/
theorem C48_mask_repeats_violated (md : Bytes → Bytes) (hmd : ∀ x, (md x).length = 32) (buf : Bytes) (n : Nat)
    (pre : UInt8) (i : Nat) (hi : i + 8192 < n) :
    (hashFromBytes md buf n pre)[i]? = (hashFromBytes md buf n pre)[i + 8192]? := by
  obtain ⟨-, h⟩ := mask_spec hmd buf n pre
  rw [h i (by omega), h (i + 8192) hi]
  have e1 : (i + 8192) / 32 = i / 32 + 256 := by omega
  have e2 : (i + 8192) % 32 = i % 32 := by omega
  have e3 : UInt8.ofNat (i / 32 + 256) = UInt8.ofNat (i / 32) := by
    apply UInt8.toNat.inj
    simp
  rw [e1, e2, e3]

/-- So the ciphertext of a long message tells the xor of message bytes 8192 positions apart, to anyone. -/
theorem C48_ciphertext_leaks_violated (env : Env G1 G2 GT) (hmd : ∀ x, (env.md x).length = 32) (sch : Scheme)
    (c c' : Ctx G1 G2 GT) (mpkID : Bytes) (input : FInput) (plaintext : Bytes) (r : Rand q)
    (ct ct' : Ciphertext G1 G2 GT) (h : encrypt env sch c mpkID input plaintext r ct = .ok (.ok ct', c')) :
    ∃ x, SMap.find b!"_ED" ct'.comps = some (.bytes x) ∧ x.length = plaintext.length ∧
      ∀ i, i + 8192 < plaintext.length →
        x.getD i 0 ^^^ x.getD (i + 8192) 0 = plaintext.getD i 0 ^^^ plaintext.getD (i + 8192) 0 := by
  unfold encrypt at h
  obtain ⟨⟨res, c1⟩, -, h⟩ := (Res.bind_eq_ok _ _ _).mp h
  simp only at h
  cases res with
  | error e => simp at h
  | ok kc =>
    obtain ⟨K, ct1⟩ := kc
    simp only at h
    obtain ⟨x, hx, h⟩ := (Res.bind_eq_ok _ _ _).mp h
    simp only [setComponent_bytes, Res.ok_bind, Res.ok.injEq, Prod.mk.injEq, Except.ok.injEq] at h
    refine ⟨x, ?_, ?_, ?_⟩
    · rw [← h.1]; simp only [SMap.find_insert, if_true]
    · obtain ⟨y, hy, hl, -⟩ := mask_xor hmd K plaintext
      rw [hx] at hy
      simp only [Res.ok.injEq] at hy
      rw [hy]; exact hl
    · intro i hi
      have hl := (mask_spec hmd K plaintext.length schemeHashPrefix).1
      have hm := C48_mask_repeats_violated env.md hmd K plaintext.length schemeHashPrefix i hi
      obtain ⟨a1, a2, a3⟩ := C35_xor_spec _ _ _ hx i (by omega)
      obtain ⟨b1, b2, b3⟩ := C35_xor_spec _ _ _ hx (i + 8192) hi
      have hma : i % (hashFromBytes env.md K plaintext.length schemeHashPrefix).length = i := by
        rw [hl]; exact Nat.mod_eq_of_lt (by omega)
      have hmb : (i + 8192) % (hashFromBytes env.md K plaintext.length schemeHashPrefix).length = i + 8192 := by
        rw [hl]; exact Nat.mod_eq_of_lt hi
      simp only [hma] at a2 a3
      simp only [hmb] at b2 b3
      rw [List.getElem?_eq_getElem a2, List.getElem?_eq_getElem b2] at hm
      simp only [Option.some.injEq] at hm
      have gd : ∀ (l : Bytes) (j : Nat) (hj : j < l.length), l.getD j 0 = l[j] := by
        intro l j hj; simp [List.getD, List.getElem?_eq_getElem hj]
      rw [gd x i a1, gd x _ b1, gd plaintext i (by omega), gd plaintext _ hi, a3, b3, hm]
      generalize plaintext[i] = u
      generalize plaintext[i + 8192] = v
      generalize (hashFromBytes env.md K plaintext.length schemeHashPrefix)[i + 8192] = w
      rw [UInt8.xor_assoc, UInt8.xor_comm v w, ← UInt8.xor_assoc w w v, UInt8.xor_self, UInt8.zero_xor]

/-- The part that holds: up to 8192 bytes every 32 byte block is the digest of another input, and inputs of different
keys differ. What is missing: longer messages. -/
theorem C48_mask_partial (md : Bytes → Bytes) (hmd : ∀ x, (md x).length = 32) (n : Nat) (hn : n ≤ 8192) (pre : UInt8) :
    ∃ input : Bytes → Nat → Bytes,
      (∀ buf p, p < n → (hashFromBytes md buf n pre)[p]? = (md (input buf (p / 32)))[p % 32]?) ∧
      ∀ buf buf' p p', p < n → p' < n → input buf (p / 32) = input buf' (p' / 32) → buf = buf' ∧ p / 32 = p' / 32 := by
  refine ⟨fun buf i => UInt8.ofNat i :: pre :: buf, fun buf p hp => (mask_spec hmd buf n pre).2 p hp, ?_⟩
  intro buf buf' p p' hp hp' h
  simp only [List.cons.injEq, true_and] at h
  refine ⟨h.2, ?_⟩
  have := congrArg UInt8.toNat h.1
  simp at this
  omega

/-- A message of 8193 bytes is enough, and any 32 byte digest. -/
example (mk : Mktime) (S : StdSort) : (∀ x, ((Toy.env mk S).md x).length = 32) ∧ 0 + 8192 < (List.replicate 8193 (7 : UInt8)).length :=
  ⟨Toy.digest mk S, by rw [List.length_replicate]; decide⟩

/-! ## C49 component labels -/

theorem toLowerHex_length (b : Bytes) : (BS.toLowerHex b).length = 2 * b.length := by
  induction b with
  | nil => rfl
  | cons a b ih =>
    have : BS.toLowerHex (a :: b) = BS.hexLo (a.toNat / 16) :: BS.hexLo (a.toNat % 16) :: BS.toLowerHex b := rfl
    rw [this, List.length_cons, List.length_cons, ih, List.length_cons]
    omega

theorem toLowerHex_inj {a b : Bytes} (h : BS.toLowerHex a = BS.toLowerHex b) : a = b := by
  have ha := (C30_hex_roundtrip a []).2
  have hb := (C30_hex_roundtrip b []).2
  rw [h, hb] at ha
  simpa using ha.symm

/-- The code violates C49: for every hash function, every name of more than 16 bytes shares its label with a name of 16
bytes. No hash collision is involved. -/
theorem C49_labels_collide_violated (md : Bytes → Bytes) (hmd : ∀ x, (md x).length = 32) (a : Bytes) (ha : 16 < a.length) :
    ∃ b : Bytes, b.length = 16 ∧ (∀ c ∈ b, c ∈ b!"0123456789abcdef") ∧ b ≠ a ∧ hashKey md b = hashKey md a := by
  have hl : (BS.toLowerHex ((md a).take 8)).length = 16 := by
    rw [toLowerHex_length, List.length_take, hmd]; rfl
  refine ⟨BS.toLowerHex ((md a).take 8), hl, ?_, ?_, ?_⟩
  · intro c hc
    obtain ⟨x, -, hx⟩ := List.mem_flatMap.mp hc
    have key : ∀ x : UInt8, ∀ c ∈ [BS.hexLo (x.toNat / 16), BS.hexLo (x.toNat % 16)], c ∈ b!"0123456789abcdef" :=
      forall_uint8 (by decide +kernel)
    exact key x c hx
  · intro h; rw [h] at hl; omega
  · unfold hashKey
    rw [if_neg (by omega), if_pos ha]

/-- The consequence: a decryption key for both names holds only the second one's component, under the label of
both. -/
theorem C49_component_lost_violated (env : Env G1 G2 GT) (hmd : ∀ x, (env.md x).length = 32) (k : Bytes) (t : ZMod q)
    (d : Container G1 G2 GT) (a : Bytes) (ha : 16 < a.length) :
    ∃ b d', b ≠ a ∧ cpKeyLoop env (some k) t [a, b] d = .ok d' ∧
      SMap.find (elementLabel b!"KX" (hashKey env.md a)) d' = some (.g1 (t • hashToG1 env k b)) := by
  obtain ⟨b, -, -, hne, hb⟩ := C49_labels_collide_violated env.md hmd a ha
  refine ⟨b, _, hne, cpKeyLoop_eq env k t [a, b] d, ?_⟩
  simp only [List.map_cons, List.map_nil, hb, SMap.addRows, List.foldl_cons, List.foldl_nil, SMap.find_insert, if_true]

/-- The part that holds, and exactly what can go wrong: names with equal labels are equal, or both are long and their
digests agree in the first 8 bytes, or one is the hex form of the other's truncated digest. -/
theorem C49_labels_partial (md : Bytes → Bytes) (x y : Bytes) :
    hashKey md x = hashKey md y ↔ x = y ∨
      (16 < x.length ∧ 16 < y.length ∧ (md x).take 8 = (md y).take 8) ∨
      (16 < x.length ∧ y.length ≤ 16 ∧ y = BS.toLowerHex ((md x).take 8)) ∨
      (16 < y.length ∧ x.length ≤ 16 ∧ x = BS.toLowerHex ((md y).take 8)) := by
  unfold hashKey
  by_cases hx : 16 < x.length <;> by_cases hy : 16 < y.length
  · simp only [hx, hy, if_true, true_and]
    constructor
    · intro h; exact .inr (.inl (toLowerHex_inj h))
    · rintro (rfl | h | ⟨h, -⟩ | ⟨h, -⟩)
      · rfl
      · rw [h]
      · omega
      · omega
  · simp only [hx, hy, if_true, if_false, true_and, false_and, or_false, false_or]
    constructor
    · intro h; exact .inr ⟨by omega, h.symm⟩
    · rintro (rfl | ⟨-, h⟩)
      · exact absurd hx hy
      · exact h.symm
  · simp only [hx, hy, if_true, if_false, true_and, false_and, or_false, false_or]
    constructor
    · intro h; exact .inr ⟨by omega, h⟩
    · rintro (rfl | ⟨-, h⟩)
      · exact absurd hy hx
      · exact h
  · simp only [hx, hy, if_false, false_and, or_false]

example : hashKey (fun _ => List.replicate 32 0xAB) b!"department:finance" = b!"abababababababab" ∧
    hashKey (fun _ => List.replicate 32 0xAB) b!"abababababababab" = b!"abababababababab" ∧ 16 < (b!"department:finance").length := by
  decide +kernel

end Abe.Scheme
